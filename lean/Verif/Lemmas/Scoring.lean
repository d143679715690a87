import Verif.Spec.Scoring
import Verif.Lemmas.Tensor
import Verif.Lemmas.Data

/-! # Lemmas on the likelihood tables of the scoring code -/

namespace Irt

variable {α β : Type*}

theorem repeatInterleave_range (N G : ℕ) (f : ℕ → α) :
    repeatInterleave G ((List.range N).map f) = flatTensor N G fun i _ => f i := by
  simp [repeatInterleave, flatTensor, List.flatMap_map, List.map_const']

theorem tile_range (N G : ℕ) (f : ℕ → α) :
    tile N ((List.range G).map f) = flatTensor N G fun _ j => f j := by
  simp [tile, flatTensor, List.flatMap_def, List.map_const']

theorem rowsOf_flatten (N K : ℕ) (f : ℕ → ℕ → α) : (rowsOf N K f).flatten = flatTensor N K f := rfl

theorem viewRows_flatTensor (N K : ℕ) (f : ℕ → ℕ → α) : viewRows N K (flatTensor N K f) = rowsOf N K f := by
  have e : flatTensor N K f = (rowsOf N K f).flatten := rfl
  rw [e]
  have h := viewRows_flatten K (rowsOf N K f) (by
    intro r hr
    simp only [rowsOf, List.mem_map] at hr
    obtain ⟨i, _, rfl⟩ := hr
    simp)
  have hl : (rowsOf N K f).length = N := by simp [rowsOf]
  rw [hl] at h
  exact h

theorem view_flatTensor (N K : ℕ) (hK : 0 < K) (f : ℕ → ℕ → α) :
    view K (flatTensor N K f) = rowsOf N K f := by
  unfold view
  rw [length_flatTensor, Nat.mul_div_cancel _ hK, viewRows_flatTensor]

/-- The log likelihood of the observed responses of a row at `θ`, as the code adds it up. -/
noncomputable def logLikAt {d : ℕ} (P : (Fin d → ℝ) → ℕ → ℕ → ℝ) (items : ℕ) (row : ℕ → Cell)
    (θ : Fin d → ℝ) : Logit :=
  nansum ((List.range items).map fun j =>
    if cellMissing (row j) then none else some (logE (P θ j (responseOf (row j)))))

theorem exp_add (a b : Logit) : (Logit.add a b).exp = a.exp * b.exp := by
  cases a <;> cases b <;> simp [Logit.add, Logit.exp, Real.exp_add]

theorem exp_logE {x : ℝ} (hx : 0 ≤ x) : (logE x).exp = x := by
  unfold logE
  split
  · next h => simp [Logit.exp, h]
  · next h => exact Real.exp_log (lt_of_le_of_ne hx (Ne.symm h))

theorem exp_sum (xs : List Logit) : (Logit.sum xs).exp = (xs.map Logit.exp).prod := by
  induction xs with
  | nil => simp [Logit.sum, Logit.exp]
  | cons a l ih =>
    have : Logit.sum (a :: l) = Logit.add a (Logit.sum l) := rfl
    rw [this, exp_add, ih]; simp

theorem exp_nansum (row : List (Option Logit)) :
    (nansum row).exp = (row.map fun x => match x with | none => 1 | some v => v.exp).prod := by
  unfold nansum
  rw [exp_sum]
  induction row with
  | nil => rfl
  | cons a l ih =>
    cases a with
    | none => rw [List.filterMap_cons_none rfl, ih]; simp
    | some v => rw [List.filterMap_cons_some (f := id) (a := some v) (b := v) rfl, List.map_cons, List.prod_cons, ih]; simp

theorem exp_logLikAt {d : ℕ} (P : (Fin d → ℝ) → ℕ → ℕ → ℝ) (hP : ∀ θ j r, 0 ≤ P θ j r) (items : ℕ)
    (row : ℕ → Cell) (θ : Fin d → ℝ) :
    (logLikAt P items row θ).exp = observedLikelihood P items row θ := by
  unfold logLikAt observedLikelihood
  rw [exp_nansum, List.map_map, Finset.prod_range]
  rw [← List.prod_ofFn, ← List.map_coe_finRange_eq_range, List.map_map, List.ofFn_eq_map]
  congr 1
  apply List.map_congr_left
  intro j _
  simp only [Function.comp]
  by_cases h : cellMissing (row j) = true
  · simp [h]
  · simp [h, exp_logE (hP _ _ _)]

theorem observedLikelihood_nonneg {d : ℕ} (P : (Fin d → ℝ) → ℕ → ℕ → ℝ) (hP : ∀ θ j r, 0 ≤ P θ j r)
    (items : ℕ) (row : ℕ → Cell) (θ : Fin d → ℝ) : 0 ≤ observedLikelihood P items row θ := by
  unfold observedLikelihood
  apply Finset.prod_nonneg
  intro j _
  split
  · exact zero_le_one
  · exact hP _ _ _

/-- The shared core of the two tables: replicated rows of data against replicated points. -/
theorem table_core {d : ℕ} {m : Scorer d} {cats : List ℕ} {P : (Fin d → ℝ) → ℕ → ℕ → ℝ}
    (hm : IsScorer m cats P) (A B : ℕ) (t : ℕ → ℕ → Fin d → ℝ) (y : ℕ → ℕ → ℕ → Cell)
    (hy : ∀ a, a < A → ∀ b, b < B → ValidResponses cats (y a b)) :
    (m.logLik (flatTensor A B fun a b => m.forward (t a b))
        (flatTensor A B fun a b => (List.range m.items).map (y a b)).flatten
        ((flatTensor A B fun a b => (List.range m.items).map (y a b)).map fun r => r.map cellMissing).flatten).map
        (sumItems m.items)
      = .ok (flatTensor A B fun a b => logLikAt P m.items (y a b) (t a b)) := by
  have h1 : (flatTensor A B fun a b => (List.range m.items).map (y a b)).flatten
      = flatTensor (A * B) m.items fun s j => y (s / B) (s % B) j := by
    rw [flatTensor_eq]; rfl
  have h2 : ((flatTensor A B fun a b => (List.range m.items).map (y a b)).map fun r => r.map cellMissing).flatten
      = flatTensor (A * B) m.items fun s j => cellMissing (y (s / B) (s % B) j) := by
    rw [flatTensor_eq, List.map_map]
    simp only [Function.comp_def, List.map_map]
    rfl
  rw [h1, h2, flatTensor_eq A B, hm.logLik (A * B) (fun s => t (s / B) (s % B)) _ (by
    intro s hs
    have hB : 0 < B := by
      rcases Nat.eq_zero_or_pos B with h | h
      · subst h; simp at hs
      · exact h
    exact hy _ (by rwa [Nat.div_lt_iff_lt_mul hB]) _ (Nat.mod_lt _ hB))]
  simp only [Except.map, sumItems]
  rw [view_flatTensor _ _ hm.items_pos, flatTensor_eq, rowsOf, List.map_map]
  rfl

theorem grid_eq {d : ℕ} (grid : Thetas d) : grid = (List.range grid.length).map fun g => grid.getD g 0 := by
  apply List.ext_getElem?
  intro g
  by_cases hg : g < grid.length
  · simp [List.getElem?_range hg, hg]
  · rw [List.getElem?_eq_none (by omega), List.getElem?_eq_none (by simp; omega)]

theorem respondentMajorLL_eq {d : ℕ} {m : Scorer d} {cats : List ℕ} {P : (Fin d → ℝ) → ℕ → ℕ → ℝ}
    (hm : IsScorer m cats P) (N : ℕ) (y : ℕ → ℕ → Cell) (hy : ∀ i, i < N → ValidResponses cats (y i))
    (grid : Thetas d) :
    respondentMajorLL m (rowsOf N m.items y) grid
      = .ok (flatTensor N grid.length fun i g => logLikAt P m.items (y i) (grid.getD g 0)) := by
  have hc := table_core hm N grid.length (fun _ g => grid.getD g 0) (fun i _ => y i)
    (fun i hi _ _ => hy i hi)
  have hN : (rowsOf N m.items y).length = N := by simp [rowsOf]
  unfold respondentMajorLL
  have e1 : repeatInterleave grid.length (rowsOf N m.items y)
      = flatTensor N grid.length fun i _ => (List.range m.items).map (y i) :=
    repeatInterleave_range N grid.length fun i => (List.range m.items).map (y i)
  have e2 : tile N (grid.map m.forward) = flatTensor N grid.length fun _ g => m.forward (grid.getD g 0) := by
    conv_lhs => rw [grid_eq grid, List.map_map]
    exact tile_range N grid.length _
  rw [hN]
  simp only [e1, e2]
  rw [← hc]
  cases m.logLik _ _ _ <;> rfl

theorem pointMajorLL_eq {d : ℕ} {m : Scorer d} {cats : List ℕ} {P : (Fin d → ℝ) → ℕ → ℕ → ℝ}
    (hm : IsScorer m cats P) (N : ℕ) (y : ℕ → ℕ → Cell) (hy : ∀ i, i < N → ValidResponses cats (y i))
    (grid : Thetas d) :
    pointMajorLL m (rowsOf N m.items y) grid
      = .ok (flatTensor grid.length N fun g i => logLikAt P m.items (y i) (grid.getD g 0)) := by
  have hc := table_core hm grid.length N (fun g _ => grid.getD g 0) (fun _ i => y i)
    (fun _ _ i hi => hy i hi)
  have hN : (rowsOf N m.items y).length = N := by simp [rowsOf]
  unfold pointMajorLL
  have e1 : tile grid.length (rowsOf N m.items y)
      = flatTensor grid.length N fun _ i => (List.range m.items).map (y i) :=
    tile_range grid.length N fun i => (List.range m.items).map (y i)
  have e2 : (repeatInterleave N grid).map m.forward = flatTensor grid.length N fun g _ => m.forward (grid.getD g 0) := by
    conv_lhs => rw [grid_eq grid]
    rw [repeatInterleave_range, map_flatTensor]
  rw [hN]
  simp only [e1, e2]
  rw [← hc]
  cases m.logLik _ _ _ <;> rfl

theorem mapM_some (l : List (Option α)) (f : List α) (h : l = f.map some) : l.mapM id = some f := by
  subst h
  induction f with
  | nil => rfl
  | cons a t ih => simp [ih]

theorem sum_pi {d : ℕ} (l : List (Fin d → ℝ)) (k : Fin d) : l.sum k = (l.map fun v => v k).sum := by
  induction l with
  | nil => rfl
  | cons a t ih => simp [ih]

/-- The scores of `eapOnGrid` in closed form. -/
theorem eapOnGrid_eq {d : ℕ} {m : Scorer d} {cats : List ℕ} {P : (Fin d → ℝ) → ℕ → ℕ → ℝ}
    (hm : IsScorer m cats P) (N : ℕ) (y : ℕ → ℕ → Cell) (hy : ∀ i, i < N → ValidResponses cats (y i))
    (grid : Thetas d) (hg : grid ≠ []) (cov : Matrix (Fin d) (Fin d) ℝ) (hcov : cov.PosDef) :
    eapOnGrid m (rowsOf N m.items y) grid cov = .ok ((List.range N).map fun i =>
      if (grid.map (posteriorWeight P m.items cov (y i))).sum = 0 then none
      else some (weightedMean (posteriorWeight P m.items cov (y i)) grid)) := by
  have hN : (rowsOf N m.items y).length = N := by simp [rowsOf]
  have hG : 0 < grid.length := List.length_pos_iff.2 hg
  set G := grid.length with hGd
  set th : ℕ → Fin d → ℝ := fun g => grid.getD g 0 with hth
  have hgrid : grid = (List.range G).map th := grid_eq grid
  have e0 : mvnLogProbs 0 cov grid = .ok ((List.range G).map fun g => mvnLogDensity 0 cov (th g)) := by
    unfold mvnLogProbs
    rw [if_pos hcov]
    conv_lhs => rw [hgrid, List.map_map]
    rfl
  have hw : ∀ i g, (Logit.add (.fin (mvnLogDensity 0 cov (th g))) (logLikAt P m.items (y i) (th g))).exp
      = posteriorWeight P m.items cov (y i) (th g) := by
    intro i g
    rw [exp_add, exp_logLikAt P hm.nonneg]; rfl
  have hsum : ∀ i, (grid.map (posteriorWeight P m.items cov (y i))).sum
      = ((List.range G).map fun g => posteriorWeight P m.items cov (y i) (th g)).sum := by
    intro i
    conv_lhs => rw [hgrid, List.map_map]
    rfl
  unfold eapOnGrid
  rw [e0, respondentMajorLL_eq hm N y hy grid]
  simp only [bind, Except.bind, hN]
  rw [if_neg (by omega)]
  rw [tile_range, ← hGd, zipWith_flatTensor, view_flatTensor _ _ hG]
  have e3 : ((rowsOf N G fun i g => Logit.add (.fin (mvnLogDensity 0 cov (th g)))
        (logLikAt P m.items (y i) (th g))).map fun r => r.map Logit.exp)
      = rowsOf N G fun i g => posteriorWeight P m.items cov (y i) (th g) := by
    simp only [rowsOf, List.map_map, Function.comp_def, hw]
  rw [e3]
  have e4 : ((rowsOf N G fun i g => posteriorWeight P m.items cov (y i) (th g)).map fun r =>
        r.map fun e => nanDiv e r.sum).flatten
      = flatTensor N G fun i g => nanDiv (posteriorWeight P m.items cov (y i) (th g))
          (grid.map (posteriorWeight P m.items cov (y i))).sum := by
    rw [← rowsOf_flatten]
    congr 1
    simp only [rowsOf, List.map_map, Function.comp_def, hsum]
  rw [e4]
  have e5 : tile N grid = flatTensor N G fun _ g => th g := by
    conv_lhs => rw [hgrid]
    exact tile_range N G th
  rw [e5, zipWith_flatTensor, view_flatTensor _ _ hG]
  simp only [rowsOf, List.map_map, pure, Except.pure]
  congr 1
  apply List.map_congr_left
  intro i _
  simp only [Function.comp]
  by_cases hz : (grid.map (posteriorWeight P m.items cov (y i))).sum = 0
  · rw [if_pos hz]
    obtain ⟨n, hn⟩ : ∃ n, G = n + 1 := ⟨G - 1, by omega⟩
    rw [hn, List.range_succ_eq_map]
    simp [nanDiv, hz]
  · rw [if_neg hz]
    rw [mapM_some _ ((List.range G).map fun g => fun k => th g k *
      (posteriorWeight P m.items cov (y i) (th g) / (grid.map (posteriorWeight P m.items cov (y i))).sum)) (by
        rw [List.map_map]
        apply List.map_congr_left
        intro g _
        simp [nanDiv, hz])]
    simp only [Option.map_some, Option.some.injEq]
    funext k
    rw [sum_pi, List.map_map]
    simp only [weightedMean, Function.comp_def]
    conv_rhs => rw [show (grid.map fun θ => posteriorWeight P m.items cov (y i) θ * θ k)
      = (List.range G).map fun g => posteriorWeight P m.items cov (y i) (th g) * th g k from by
        conv_lhs => rw [hgrid, List.map_map]
        rfl]
    generalize (grid.map (posteriorWeight P m.items cov (y i))).sum = s
    rw [div_eq_mul_inv, ← List.sum_map_mul_right]
    congr 1
    apply List.map_congr_left
    intro g _
    rw [div_eq_mul_inv]; ring


/-! ## Grids -/

theorem mem_cartesianProd {d : ℕ} (cols : Fin d → List ℝ) (v : Fin d → ℝ) :
    v ∈ cartesianProd cols ↔ ∀ k, v k ∈ cols k := by
  induction d with
  | zero =>
    simp only [cartesianProd, List.mem_singleton]
    exact ⟨fun _ k => k.elim0, fun _ => funext fun k => k.elim0⟩
  | succ d ih =>
    simp only [cartesianProd, List.mem_flatMap, List.mem_map]
    constructor
    · rintro ⟨a, ha, w, hw, rfl⟩ k
      refine Fin.cases ?_ (fun j => ?_) k
      · simpa using ha
      · simpa using (ih _ w).1 hw j
    · intro h
      refine ⟨v 0, h 0, fun i => v i.succ, (ih _ _).2 fun k => h k.succ, ?_⟩
      funext k
      refine Fin.cases ?_ (fun j => ?_) k <;> simp

theorem length_cartesianProd {d : ℕ} (cols : Fin d → List ℝ) (n : ℕ) (h : ∀ k, (cols k).length = n) :
    (cartesianProd cols).length = n ^ d := by
  induction d with
  | zero => simp [cartesianProd]
  | succ d ih =>
    simp only [cartesianProd]
    rw [length_flatMap_const (n ^ d) _ _ (by
      intro l _
      rw [List.length_map, ih _ fun k => h k.succ]), h 0]
    ring

theorem mem_linspace (a b : ℝ) (n : ℕ) (x : ℝ) :
    x ∈ linspace a b n ↔ ∃ i : ℕ, i < n ∧ x = a + (b - a) * i / ((n : ℝ) - 1) := by
  simp [linspace, eq_comm]

theorem length_linspace (a b : ℝ) (n : ℕ) : (linspace a b n).length = n := by simp [linspace]

theorem columnMin_isLeast (xs : List ℝ) (h : xs ≠ []) : IsLeast {x | x ∈ xs} (columnMin xs) := by
  obtain ⟨a, l, rfl⟩ := List.exists_cons_of_ne_nil h
  have key : ∀ l : List ℝ, (l.foldr min a = a ∨ l.foldr min a ∈ l) ∧ l.foldr min a ≤ a ∧
      ∀ x ∈ l, l.foldr min a ≤ x := by
    intro l
    induction l with
    | nil => simp
    | cons b t ih =>
      obtain ⟨h1, h2, h3⟩ := ih
      simp only [List.foldr_cons]
      refine ⟨?_, (min_le_right _ _).trans h2, ?_⟩
      · rcases min_choice b (t.foldr min a) with hb | hb
        · right; rw [hb]; simp
        · rw [hb]
          rcases h1 with h1 | h1
          · left; exact h1
          · right; exact List.mem_cons_of_mem _ h1
      · intro x hx
        rcases List.mem_cons.1 hx with rfl | hx
        · exact min_le_left _ _
        · exact (min_le_right _ _).trans (h3 x hx)
  obtain ⟨h1, h2, h3⟩ := key (a :: l)
  refine ⟨?_, fun x hx => h3 x hx⟩
  show columnMin (a :: l) ∈ a :: l
  unfold columnMin
  rcases h1 with h1 | h1
  · simp only [List.headD_cons]; rw [h1]; simp
  · exact h1

theorem columnMax_isGreatest (xs : List ℝ) (h : xs ≠ []) : IsGreatest {x | x ∈ xs} (columnMax xs) := by
  obtain ⟨a, l, rfl⟩ := List.exists_cons_of_ne_nil h
  have key : ∀ l : List ℝ, (l.foldr max a = a ∨ l.foldr max a ∈ l) ∧ a ≤ l.foldr max a ∧
      ∀ x ∈ l, x ≤ l.foldr max a := by
    intro l
    induction l with
    | nil => simp
    | cons b t ih =>
      obtain ⟨h1, h2, h3⟩ := ih
      simp only [List.foldr_cons]
      refine ⟨?_, h2.trans (le_max_right _ _), ?_⟩
      · rcases max_choice b (t.foldr max a) with hb | hb
        · right; rw [hb]; simp
        · rw [hb]
          rcases h1 with h1 | h1
          · left; exact h1
          · right; exact List.mem_cons_of_mem _ h1
      · intro x hx
        rcases List.mem_cons.1 hx with rfl | hx
        · exact le_max_left _ _
        · exact (h3 x hx).trans (le_max_right _ _)
  obtain ⟨h1, h2, h3⟩ := key (a :: l)
  refine ⟨?_, fun x hx => h3 x hx⟩
  show columnMax (a :: l) ∈ a :: l
  unfold columnMax
  rcases h1 with h1 | h1
  · simp only [List.headD_cons]; rw [h1]; simp
  · exact h1

/-! ## Weighted means -/

theorem list_sum_le_sum {ι : Type*} (l : List ι) (f g : ι → ℝ) (h : ∀ x ∈ l, f x ≤ g x) :
    (l.map f).sum ≤ (l.map g).sum := by
  induction l with
  | nil => simp
  | cons a t ih =>
    simp only [List.map_cons, List.sum_cons]
    exact add_le_add (h a (by simp)) (ih fun x hx => h x (by simp [hx]))

theorem list_sum_nonneg {ι : Type*} (l : List ι) (f : ι → ℝ) (h : ∀ x ∈ l, 0 ≤ f x) : 0 ≤ (l.map f).sum := by
  simpa using list_sum_le_sum l (fun _ => 0) f h

theorem list_sum_pos_of_mem {ι : Type*} (l : List ι) (f : ι → ℝ) (h : ∀ x ∈ l, 0 ≤ f x) (a : ι) (ha : a ∈ l)
    (hpos : 0 < f a) : 0 < (l.map f).sum := by
  induction l with
  | nil => simp at ha
  | cons b t ih =>
    simp only [List.map_cons, List.sum_cons]
    have hb := h b (by simp)
    have ht := list_sum_nonneg t f fun x hx => h x (by simp [hx])
    rcases List.mem_cons.1 ha with rfl | ha
    · linarith
    · have := ih (fun x hx => h x (by simp [hx])) ha
      linarith

theorem weightedMean_mem {d : ℕ} (w : (Fin d → ℝ) → ℝ) (grid : List (Fin d → ℝ)) (hw : ∀ θ ∈ grid, 0 ≤ w θ)
    (hs : (grid.map w).sum ≠ 0) (k : Fin d) (lo hi : ℝ) (hb : ∀ θ ∈ grid, lo ≤ θ k ∧ θ k ≤ hi) :
    lo ≤ weightedMean w grid k ∧ weightedMean w grid k ≤ hi := by
  have hpos : 0 < (grid.map w).sum := lt_of_le_of_ne (list_sum_nonneg _ _ hw) (Ne.symm hs)
  unfold weightedMean
  constructor
  · rw [le_div_iff₀ hpos, ← List.sum_map_mul_left]
    apply list_sum_le_sum
    intro θ hθ
    rw [mul_comm]
    exact mul_le_mul_of_nonneg_left (hb θ hθ).1 (hw θ hθ)
  · rw [div_le_iff₀ hpos, ← List.sum_map_mul_left]
    apply list_sum_le_sum
    intro θ hθ
    rw [mul_comm hi]
    exact mul_le_mul_of_nonneg_left (hb θ hθ).2 (hw θ hθ)

/-! ## Argmax -/

theorem Logit.ltb_iff (a b : Logit) : Logit.ltb a b = true ↔ a.exp < b.exp := by
  cases a <;> cases b <;> simp [Logit.ltb, Logit.exp, Real.exp_pos, (Real.exp_pos _).le]

/-- `argmaxLogit` is the first position of a largest entry. -/
theorem argmaxLogit_spec (row : List Logit) (h : row ≠ []) :
    ∃ v, row[argmaxLogit row]? = some v ∧
      (∀ (i : ℕ) (x : Logit), row[i]? = some x → x.exp ≤ v.exp) ∧
      ∀ (i : ℕ) (x : Logit), i < argmaxLogit row → row[i]? = some x → x.exp < v.exp := by
  have hpos : 0 < row.length := List.length_pos_iff.2 h
  have key : ∀ n, n ≤ row.length → 
      let b := (List.range n).foldl (fun best i =>
        match row[best]?, row[i]? with
        | some b, some x => if Logit.ltb b x then i else best
        | _, _ => best) 0
      (b < n ∨ b = 0) ∧ ∃ v, row[b]? = some v ∧ (∀ (i : ℕ) (x : Logit), i < n → row[i]? = some x → x.exp ≤ v.exp) ∧
        ∀ (i : ℕ) (x : Logit), i < b → row[i]? = some x → x.exp < v.exp := by
    intro n
    induction n with
    | zero =>
      intro _
      simp only [List.range_zero, List.foldl_nil, or_true, true_and]
      obtain ⟨v, hv⟩ := getElem?_of_lt row 0 hpos
      exact ⟨v, hv, by omega, by omega⟩
    | succ n ih =>
      intro hn
      obtain ⟨hb, v, hv, h1, h2⟩ := ih (by omega)
      obtain ⟨x, hx⟩ := getElem?_of_lt row n (by omega)
      simp only [List.range_succ, List.foldl_append, List.foldl_cons, List.foldl_nil]
      rw [hv, hx]
      simp only
      by_cases hlt : Logit.ltb v x = true
      · rw [if_pos hlt]
        rw [Logit.ltb_iff] at hlt
        refine ⟨Or.inl (by omega), x, hx, ?_, ?_⟩
        · intro i z hi hz
          rcases Nat.lt_succ_iff_lt_or_eq.1 hi with hi | rfl
          · exact ((h1 i z hi hz).trans_lt hlt).le
          · rw [hx] at hz; rw [Option.some.inj hz]
        · intro i z hi hz
          exact (h1 i z hi hz).trans_lt hlt
      · rw [if_neg hlt]
        rw [Logit.ltb_iff, not_lt] at hlt
        refine ⟨by omega, v, hv, ?_, h2⟩
        intro i z hi hz
        rcases Nat.lt_succ_iff_lt_or_eq.1 hi with hi | rfl
        · exact h1 i z hi hz
        · rw [hx] at hz; rw [← Option.some.inj hz]; exact hlt
  obtain ⟨_, v, hv, h1, h2⟩ := key row.length le_rfl
  exact ⟨v, hv, fun i x hx => h1 i x (lt_of_getElem?_some hx) hx, h2⟩

/-! ## Log sum exp -/

theorem shiftedLogSumExp_eq (col : List Logit) :
    shiftedLogSumExp col = if (col.map Logit.exp).sum = 0 then none
      else some (Real.log (col.map Logit.exp).sum) := by
  have hsum : (col.map Logit.exp).sum = ((col.filterMap Logit.finite?).map Real.exp).sum := by
    induction col with
    | nil => rfl
    | cons a t ih =>
      cases a with
      | negInf => rw [List.filterMap_cons_none rfl, List.map_cons, List.sum_cons, ih]; simp [Logit.exp]
      | fin v =>
        rw [List.filterMap_cons_some (f := Logit.finite?) (a := .fin v) (b := v) rfl, List.map_cons,
          List.sum_cons, ih]
        simp [Logit.exp]
  rw [hsum]
  show (if col.filterMap Logit.finite? = [] then none
    else some (Real.log (((col.filterMap Logit.finite?).map fun x =>
      Real.exp (x - columnMax (col.filterMap Logit.finite?))).sum) + columnMax (col.filterMap Logit.finite?))) = _
  generalize col.filterMap Logit.finite? = xs
  by_cases hx : xs = []
  · simp [hx]
  · have hpos : 0 < (xs.map Real.exp).sum := by
      obtain ⟨a, ha⟩ := List.exists_mem_of_ne_nil xs hx
      exact list_sum_pos_of_mem xs _ (fun x _ => (Real.exp_pos x).le) a ha (Real.exp_pos a)
    rw [if_neg hx, if_neg hpos.ne']
    have e : (xs.map fun x => Real.exp (x - columnMax xs)).sum
        = (xs.map Real.exp).sum * Real.exp (-columnMax xs) := by
      rw [← List.sum_map_mul_right]
      congr 1
      apply List.map_congr_left
      intro x _
      rw [← Real.exp_add]; rfl
    rw [e, Real.log_mul hpos.ne' (Real.exp_pos _).ne', Real.log_exp]
    simp

theorem mapM_option_some {α β : Type*} (l : List α) (f : α → Option β) (g : α → β)
    (h : ∀ x ∈ l, f x = some (g x)) : l.mapM f = some (l.map g) := by
  induction l with
  | nil => rfl
  | cons a t ih =>
    rw [List.mapM_cons, h a (by simp), ih fun x hx => h x (by simp [hx])]
    rfl

theorem mapM_option_none {α β : Type*} (l : List α) (f : α → Option β) (h : ∃ x ∈ l, f x = none) :
    l.mapM f = none := by
  induction l with
  | nil => simp at h
  | cons a t ih =>
    rw [List.mapM_cons]
    cases hf : f a with
    | none => rfl
    | some b =>
      obtain ⟨x, hx, hn⟩ := h
      rcases List.mem_cons.1 hx with rfl | hx
      · rw [hf] at hn; simp at hn
      · rw [ih ⟨x, hx, hn⟩]; rfl

theorem mapM_option_congr {α β : Type*} (l : List α) (f g : α → Option β) (h : ∀ x ∈ l, f x = g x) :
    l.mapM f = l.mapM g := by
  induction l with
  | nil => rfl
  | cons a t ih => rw [List.mapM_cons, List.mapM_cons, h a (by simp), ih fun x hx => h x (by simp [hx])]

end Irt
