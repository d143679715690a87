import Verif.Spec.Spline
import Verif.Lemmas.RQGlue
import Verif.Lemmas.Tensor
import Verif.Lemmas.Monotone
import Verif.Lemmas.MonoModels
import Verif.Lemmas.Data

/-! # The spline module computes the glued spline -/

namespace Irt

open Finset

variable {α β : Type*}

/-! ## Knots -/

theorem binShare_pos (n : ℕ) (hn : 0 < n) (m : ℝ) (hm : 0 ≤ m) (hm' : m * n ≤ 1) (u : ℕ → ℝ) (i : ℕ) :
    0 < binShare n m u i := by
  unfold binShare
  have hs : 0 < ∑ l ∈ range n, Real.exp (u l) :=
    sum_pos (fun _ _ => Real.exp_pos _) ⟨0, by simpa using hn⟩
  have hp : 0 < Real.exp (u i) / ∑ l ∈ range n, Real.exp (u l) := div_pos (Real.exp_pos _) hs
  rcases eq_or_lt_of_le hm with h | h
  · rw [← h]; simpa using hp
  · have : 0 ≤ (1 - m * n) * (Real.exp (u i) / ∑ l ∈ range n, Real.exp (u l)) :=
      mul_nonneg (by linarith) hp.le
    linarith

theorem knot_zero (n : ℕ) (m lo hi : ℝ) (u : ℕ → ℝ) : knot n m lo hi u 0 = lo := by simp [knot]

theorem knot_last (n : ℕ) (hn : 0 < n) (m lo hi : ℝ) (u : ℕ → ℝ) : knot n m lo hi u n = hi := by
  have hs : 0 < ∑ l ∈ range n, Real.exp (u l) :=
    sum_pos (fun _ _ => Real.exp_pos _) ⟨0, by simpa using hn⟩
  have : ∑ i ∈ range n, binShare n m u i = 1 := by
    unfold binShare
    rw [sum_add_distrib, ← mul_sum, ← sum_div, div_self hs.ne']
    simp; ring
  unfold knot
  rw [this]; ring

theorem knot_lt (n : ℕ) (hn : 0 < n) (m lo hi : ℝ) (hm : 0 ≤ m) (hm' : m * n ≤ 1) (hlo : lo < hi)
    (u : ℕ → ℝ) (k : ℕ) : knot n m lo hi u k < knot n m lo hi u (k + 1) := by
  unfold knot
  rw [sum_range_succ]
  have := mul_pos (sub_pos.mpr hlo) (binShare_pos n hn m hm hm' u k)
  nlinarith

theorem softmax_fin (raw : List ℝ) :
    softmax (raw.map Logit.fin) = (List.range raw.length).map fun i =>
      Real.exp (raw.getD i 0) / ∑ l ∈ range raw.length, Real.exp (raw.getD l 0) := by
  have hs : ((raw.map Logit.fin).map Logit.exp).sum = ∑ l ∈ range raw.length, Real.exp (raw.getD l 0) := by
    conv_lhs => rw [eq_range_map raw]
    rw [List.map_map, List.map_map, list_sum_range]
    rfl
  unfold softmax
  rw [hs]
  generalize ∑ l ∈ range raw.length, Real.exp (raw.getD l 0) = S
  conv_lhs => rw [eq_range_map raw]
  rw [List.map_map, List.map_map]
  rfl

theorem cumParams_knots (raw : List ℝ) (lo hi m : ℝ) :
    (cumParams raw.length raw lo hi m).1
      = (List.range (raw.length + 1)).map (knot raw.length m lo hi fun i => raw.getD i 0) := by
  set n := raw.length with hn
  have hp : (softmax (raw.map Logit.fin)).map (fun p => m + (1 - m * n) * p)
      = (List.range n).map (binShare n m fun i => raw.getD i 0) := by
    rw [softmax_fin, List.map_map]; rfl
  unfold cumParams
  simp only
  rw [hp]
  apply List.ext_getElem?
  intro k
  cases k with
  | zero => simp [knot]
  | succ k =>
    by_cases h : k < n
    · rw [List.getElem?_map, List.getElem?_map, List.getElem?_cons_succ,
        cumsum_getElem? _ _ (by simpa using h), List.getElem?_range (by omega),
        take_sum_range _ _ (by simpa using h)]
      simp only [Option.map_some, Option.some.injEq]
      unfold knot
      rw [add_comm]
      congr 2
      refine sum_congr rfl fun x hx => ?_
      have hx' : x < n := by have := mem_range.1 hx; omega
      rw [map_getD_range n _ x hx']
    · rw [List.getElem?_eq_none (by simp [length_cumsum]; omega),
        List.getElem?_eq_none (by simp; omega)]

theorem cumParams_sizes (raw : List ℝ) (lo hi m : ℝ) :
    (cumParams raw.length raw lo hi m).2
      = (List.range raw.length).map fun k =>
          knot raw.length m lo hi (fun i => raw.getD i 0) (k + 1)
            - knot raw.length m lo hi (fun i => raw.getD i 0) k := by
  have h : (cumParams raw.length raw lo hi m).2
      = List.zipWith (fun a b => a - b) (cumParams raw.length raw lo hi m).1.tail
          (cumParams raw.length raw lo hi m).1.dropLast := rfl
  rw [h, cumParams_knots]
  have ht : ((List.range (raw.length + 1)).map
      (knot raw.length m lo hi fun i => raw.getD i 0)).tail
      = (List.range raw.length).map fun k => knot raw.length m lo hi (fun i => raw.getD i 0) (k + 1) := by
    rw [List.range_succ_eq_map, List.map_cons, List.tail_cons, List.map_map]; rfl
  have hd : ((List.range (raw.length + 1)).map
      (knot raw.length m lo hi fun i => raw.getD i 0)).dropLast
      = (List.range raw.length).map (knot raw.length m lo hi fun i => raw.getD i 0) := by
    rw [List.range_succ, List.map_append]; simp
  rw [ht, hd, zipWith_range]

/-! ## Finding the bin -/

theorem countP_prefix (n k : ℕ) (hk : k ≤ n) (p : ℕ → Bool) (h1 : ∀ i < k, p i = true)
    (h2 : ∀ i, k ≤ i → i < n → p i = false) : (List.range n).countP p = k := by
  induction n with
  | zero => have : k = 0 := by omega
            simp [this]
  | succ n ih =>
    rw [List.range_succ, List.countP_append]
    rcases Nat.lt_or_ge n k with h | h
    · have hkn : k = n + 1 := by omega
      have : (List.range n).countP p = n := by
        rw [List.countP_eq_length.2, List.length_range]
        intro i hi
        exact h1 i (by have := List.mem_range.1 hi; omega)
      rw [this, hkn]
      simp [h1 n h]
    · rw [ih h fun i hi hi' => h2 i hi (by omega)]
      simp [h2 n h (by omega)]

theorem bumpLast_range (n : ℕ) (e : ℝ) (B : ℕ → ℝ) :
    bumpLast e ((List.range (n + 1)).map B)
      = (List.range (n + 1)).map fun i => if i = n then B i + e else B i := by
  unfold bumpLast
  rw [List.range_succ, List.map_append, List.map_append]
  simp only [List.map_cons, List.map_nil, List.getLast?_append, List.getLast?_singleton,
    Option.some_or, List.dropLast_concat, if_true]
  congr 1
  apply List.map_congr_left
  intro i hi
  rw [if_neg (by have := List.mem_range.1 hi; omega)]

theorem count_bounds (n : ℕ) (B : ℕ → ℝ) (hB : ∀ k < n, B k < B (k + 1)) (e : ℝ) (he : 0 < e) (x : ℝ)
    (k : ℕ) (hk : k < n) (h0 : B k ≤ x) (h1 : x ≤ B (k + 1)) (h2 : x < B (k + 1) ∨ k + 1 = n) :
    (bumpLast e ((List.range (n + 1)).map B)).countP (fun b => decide (b ≤ x)) = k + 1 := by
  rw [bumpLast_range, List.countP_map]
  apply countP_prefix _ _ (by omega)
  · intro i hi
    have : B i ≤ B k := knots_mono B n hB i k (by omega) (by omega)
    simp only [Function.comp, decide_eq_true_eq]
    rw [if_neg (by omega)]
    exact this.trans h0
  · intro i hi hi'
    simp only [Function.comp, decide_eq_false_iff_not, not_le]
    have hm : B (k + 1) ≤ B i := knots_mono B n hB _ _ hi (by omega)
    by_cases hin : i = n
    · rw [if_pos hin]; linarith
    · rw [if_neg hin]
      rcases h2 with h2 | h2
      · linarith
      · omega

theorem gatherAt_range (n : ℕ) (B : ℕ → ℝ) (k : ℕ) (hk : k < n) :
    gatherAt ((List.range n).map B) k = .ok (B k) := by
  unfold gatherAt
  rw [List.getElem?_map, List.getElem?_range hk]; rfl

/-! ## The knots and slopes of one variable -/

/-- Input knots of variable `j`. -/
noncomputable def RQSpline.X (s : RQSpline) (j : ℕ) : ℕ → ℝ :=
  knot s.bins s.minW s.loIn s.hiIn fun i => (s.uw.getD j []).getD i 0
/-- Output knots of variable `j`. -/
noncomputable def RQSpline.Y (s : RQSpline) (j : ℕ) : ℕ → ℝ :=
  knot s.bins s.minH s.loOut s.hiOut fun i => (s.uh.getD j []).getD i 0
/-- Slopes at the knots of variable `j`. -/
noncomputable def RQSpline.D (s : RQSpline) (j : ℕ) (k : ℕ) : ℝ :=
  s.minD + softplus ((padDerivatives s.minD (s.ud.getD j [])).getD k 0)

/-- The value computed for an element of variable `j`. -/
noncomputable def RQSpline.at (s : RQSpline) (inverse : Bool) (j : ℕ) (x : ℝ) : ℝ × ℝ :=
  if s.above inverse x then (s.upperTrans inverse x, 0)
  else if s.below inverse x then (s.lowerTrans inverse x, 0)
  else match s.insideValue x (s.uw.getD j []) (s.uh.getD j [])
      (padDerivatives s.minD (s.ud.getD j [])) inverse with
    | .ok r => r
    | .error _ => (0, 0)

theorem getD_mem {l : List (List ℝ)} {j : ℕ} (h : j < l.length) : l.getD j [] ∈ l := by
  rw [List.getD_eq_getElem?_getD, List.getElem?_eq_getElem h]
  exact List.getElem_mem h

section
variable {s : RQSpline} (hs : s.WF) {j : ℕ} (hj : j < s.uw.length)
include hs hj

theorem RQSpline.uw_len : (s.uw.getD j []).length = s.bins := hs.uw_row _ (getD_mem hj)
theorem RQSpline.uh_len : (s.uh.getD j []).length = s.bins :=
  hs.uh_row _ (getD_mem (by rw [hs.uh]; exact hj))
theorem RQSpline.ud_len : (padDerivatives s.minD (s.ud.getD j [])).length = s.bins + 1 := by
  have := hs.ud_row _ (getD_mem (by rw [hs.ud]; exact hj : j < s.ud.length))
  have hb := hs.bins
  unfold padDerivatives
  rw [List.length_append, List.length_cons, this]
  simp; omega

theorem RQSpline.knots : Knots s.bins (s.X j) (s.Y j) (s.D j) where
  pos := hs.bins
  hX := fun k _ => knot_lt _ hs.bins _ _ _ hs.minW hs.minW' hs.hIn _ k
  hY := fun k _ => knot_lt _ hs.bins _ _ _ hs.minH hs.minH' hs.hOut _ k
  hD := fun k _ => by
    unfold RQSpline.D
    have := softplus_pos ((padDerivatives s.minD (s.ud.getD j [])).getD k 0)
    have := hs.minD
    linarith

theorem RQSpline.insideValue_eq (inverse : Bool) (x : ℝ) (k : ℕ) (hk : k < s.bins)
    (h0 : (if inverse then s.Y j else s.X j) k ≤ x) (h1 : x ≤ (if inverse then s.Y j else s.X j) (k + 1))
    (h2 : x < (if inverse then s.Y j else s.X j) (k + 1) ∨ k + 1 = s.bins) :
    s.insideValue x (s.uw.getD j []) (s.uh.getD j []) (padDerivatives s.minD (s.ud.getD j [])) inverse
      = .ok (if inverse then binG (s.X j) (s.Y j) (s.D j) k x
          else binF (s.X j) (s.Y j) (s.D j) k x) := by
  have K := s.knots hs hj
  have hW := cumParams_knots (s.uw.getD j []) s.loIn s.hiIn s.minW
  have hW' := cumParams_sizes (s.uw.getD j []) s.loIn s.hiIn s.minW
  have hH := cumParams_knots (s.uh.getD j []) s.loOut s.hiOut s.minH
  have hH' := cumParams_sizes (s.uh.getD j []) s.loOut s.hiOut s.minH
  rw [s.uw_len hs hj] at hW hW'
  rw [s.uh_len hs hj] at hH hH'
  change _ = (List.range (s.bins + 1)).map (s.X j) at hW
  change _ = (List.range s.bins).map (fun k => s.X j (k + 1) - s.X j k) at hW'
  change _ = (List.range (s.bins + 1)).map (s.Y j) at hH
  change _ = (List.range s.bins).map (fun k => s.Y j (k + 1) - s.Y j k) at hH'
  have hDl : (padDerivatives s.minD (s.ud.getD j [])).map (fun d => s.minD + softplus d)
      = (List.range (s.bins + 1)).map (s.D j) := by
    conv_lhs => rw [eq_range_map (padDerivatives s.minD (s.ud.getD j [])), s.ud_len hs hj]
    rw [List.map_map]; rfl
  have hDt : ((List.range (s.bins + 1)).map (s.D j)).tail
      = (List.range s.bins).map fun k => s.D j (k + 1) := by
    rw [List.range_succ_eq_map, List.map_cons, List.tail_cons, List.map_map]; rfl
  have hB : (if inverse then (List.range (s.bins + 1)).map (s.Y j)
      else (List.range (s.bins + 1)).map (s.X j))
      = (List.range (s.bins + 1)).map (if inverse then s.Y j else s.X j) := by
    cases inverse <;> rfl
  have hBm : ∀ k < s.bins, (if inverse then s.Y j else s.X j) k
      < (if inverse then s.Y j else s.X j) (k + 1) := by
    cases inverse
    · exact K.hX
    · exact K.hY
  unfold RQSpline.insideValue
  rw [if_neg (by have := hs.minW'; have := hs.minH'; push Not; constructor <;> assumption)]
  simp only [hW, hW', hH, hH', hDl, hDt, zipWith_range, hB, s.uw_len hs hj]
  rw [count_bounds s.bins _ hBm 1e-6 (by norm_num) x k hk h0 h1 h2, if_neg (by omega)]
  have hmin : min (k + 1 - 1) (s.bins - 1) = k := by omega
  rw [hmin]
  rw [gatherAt_range _ _ k (by omega : k < s.bins + 1), gatherAt_range _ _ k hk,
    gatherAt_range _ _ k (by omega : k < s.bins + 1), gatherAt_range _ _ k hk,
    gatherAt_range _ _ k (by omega : k < s.bins + 1), gatherAt_range _ _ k hk,
    gatherAt_range _ _ k hk]
  cases inverse <;> rfl

theorem RQSpline.X_zero : s.X j 0 = s.loIn := knot_zero _ _ _ _ _
theorem RQSpline.X_last : s.X j s.bins = s.hiIn := knot_last _ hs.bins _ _ _ _
theorem RQSpline.Y_zero : s.Y j 0 = s.loOut := knot_zero _ _ _ _ _
theorem RQSpline.Y_last : s.Y j s.bins = s.hiOut := knot_last _ hs.bins _ _ _ _

theorem RQSpline.inside_ok (inverse : Bool) (x : ℝ) (ha : s.above inverse x = false)
    (hb : s.below inverse x = false) :
    s.insideValue x (s.uw.getD j []) (s.uh.getD j []) (padDerivatives s.minD (s.ud.getD j [])) inverse
      = .ok (s.at inverse j x) := by
  have h0 : (if inverse then s.Y j else s.X j) 0 ≤ x := by
    unfold RQSpline.below at hb
    have := of_decide_eq_false hb
    cases inverse
    · simpa [s.X_zero hs hj] using this
    · simpa [s.Y_zero hs hj] using this
  have h1 : x ≤ (if inverse then s.Y j else s.X j) s.bins := by
    unfold RQSpline.above at ha
    have := of_decide_eq_false ha
    cases inverse
    · simpa [s.X_last hs hj] using this
    · simpa [s.Y_last hs hj] using this
  obtain ⟨k, hk, a0, a1, a2⟩ := exists_bin _ s.bins hs.bins x h0 h1
  have := s.insideValue_eq hs hj inverse x k hk a0 a1 a2
  unfold RQSpline.at
  rw [ha, hb, this]
  simp

theorem RQSpline.glued :
    Glued s.bins (s.X j) (s.Y j) (s.D j) s.outLo s.outHi (s.at false j) (s.at true j) := by
  have K := s.knots hs hj
  have hin : ∀ inverse x, (if inverse then s.Y j else s.X j) 0 ≤ x →
      x ≤ (if inverse then s.Y j else s.X j) s.bins →
      s.above inverse x = false ∧ s.below inverse x = false := by
    intro inverse x h0 h1
    unfold RQSpline.above RQSpline.below
    cases inverse
    · simp only [Bool.false_eq_true, if_false, s.X_zero hs hj, s.X_last hs hj] at h0 h1 ⊢
      exact ⟨decide_eq_false (not_lt.mpr h1), decide_eq_false (not_lt.mpr h0)⟩
    · simp only [if_true, s.Y_zero hs hj, s.Y_last hs hj] at h0 h1 ⊢
      exact ⟨decide_eq_false (not_lt.mpr h1), decide_eq_false (not_lt.mpr h0)⟩
  refine ⟨K, hs.outLo, hs.outHi, ?_, ?_, ?_, ?_, ?_, ?_⟩
  · intro x h0 h1
    obtain ⟨ha, hb⟩ := hin false x h0 h1
    obtain ⟨k, hk, a0, a1, a2⟩ := exists_bin _ s.bins hs.bins x h0 h1
    have h := s.insideValue_eq hs hj false x k hk a0 a1 a2
    rw [s.inside_ok hs hj false x ha hb] at h
    refine ⟨k, hk, a0, a1, a2, ?_⟩
    simpa using h
  · intro x hx
    rw [s.X_zero hs hj] at hx ⊢
    rw [s.Y_zero hs hj]
    have hIn := hs.hIn
    simp [RQSpline.at, RQSpline.above, RQSpline.below, RQSpline.lowerTrans, hx, (hx.trans hIn).le.not_gt]
  · intro x hx
    rw [s.X_last hs hj] at hx ⊢
    rw [s.Y_last hs hj]
    simp [RQSpline.at, RQSpline.above, RQSpline.upperTrans, hx]
  · intro x h0 h1
    obtain ⟨ha, hb⟩ := hin true x h0 h1
    obtain ⟨k, hk, a0, a1, a2⟩ := exists_bin _ s.bins hs.bins x h0 h1
    have h := s.insideValue_eq hs hj true x k hk a0 a1 a2
    rw [s.inside_ok hs hj true x ha hb] at h
    refine ⟨k, hk, a0, a1, a2, ?_⟩
    simpa using h
  · intro x hx
    rw [s.Y_zero hs hj] at hx ⊢
    rw [s.X_zero hs hj]
    have hIn := hs.hOut
    simp [RQSpline.at, RQSpline.above, RQSpline.below, RQSpline.lowerTrans, hx, (hx.trans hIn).le.not_gt]
  · intro x hx
    rw [s.Y_last hs hj] at hx ⊢
    rw [s.X_last hs hj]
    simp [RQSpline.at, RQSpline.above, RQSpline.upperTrans, hx]

end

/-! ## The batch -/

theorem gatherMask_filter (I : List α) (p : α → Bool) (q : α → β) :
    gatherMask (I.map p) (I.map q) = (I.filter p).map q := by
  induction I with
  | nil => rfl
  | cons a I ih => cases h : p a <;> simp [gatherMask, h, ih]

theorem maskAssign_map (I : List α) (p : α → Bool) (h b : α → β) :
    maskAssign (I.map p) ((I.filter p).map h) (I.map b) = I.map fun e => if p e then h e else b e := by
  induction I with
  | nil => rfl
  | cons a I ih => cases hp : p a <;> simp [maskAssign, hp, ih]

theorem rowsOf_flatten_eq (N K : ℕ) (f : ℕ → ℕ → α) : (rowsOf N K f).flatten = flatTensor N K f := by
  simp [rowsOf, flatTensor, List.flatMap_def]

theorem tile_flatTensor (N : ℕ) (xs : List α) (z : α) :
    tile N xs = flatTensor N xs.length fun _ j => xs.getD j z := by
  unfold tile flatTensor
  have : (List.range xs.length).map (fun j => xs.getD j z) = xs := by
    apply List.ext_getElem?
    intro i
    by_cases h : i < xs.length
    · simp [h, List.getD]
    · rw [List.getElem?_eq_none (by simp; omega), List.getElem?_eq_none (by omega)]
  simp only [this]
  rw [List.flatMap_def]
  congr 1
  apply List.ext_getElem?
  intro i
  by_cases h : i < N <;> simp [h]

theorem RQSpline.forward_eq (s : RQSpline) (hs : s.WF) (inverse : Bool) (N : ℕ) (x : ℕ → ℕ → ℝ) :
    s.forward (rowsOf N s.uw.length x) inverse
      = .ok (flatTensor N s.uw.length fun i j => (s.at inverse j (x i j)).1,
          flatTensor N s.uw.length fun i j => (s.at inverse j (x i j)).2) := by
  set V := s.uw.length with hV
  have hlen : (rowsOf N V x).length = N := by simp [rowsOf]
  have hrow : ¬ ∃ r ∈ rowsOf N V x, r.length ≠ V := by
    push Not
    intro r hr
    simp only [rowsOf, List.mem_map] at hr
    obtain ⟨i, -, rfl⟩ := hr
    simp
  have hw : tile N s.uw = flatTensor N V fun _ j => s.uw.getD j [] := tile_flatTensor N s.uw []
  have hh : tile N s.uh = flatTensor N V fun _ j => s.uh.getD j [] := by
    rw [tile_flatTensor N s.uh [], hs.uh]
  have hd : tile N s.ud = flatTensor N V fun _ j => s.ud.getD j [] := by
    rw [tile_flatTensor N s.ud [], hs.ud]
  -- write every tensor as a map over the index pairs
  let I : List (ℕ × ℕ) := flatTensor N V fun i j => (i, j)
  have hI : ∀ {γ : Type} (f : ℕ → ℕ → γ), flatTensor N V f = I.map fun e => f e.1 e.2 := by
    intro γ f; rw [map_flatTensor]
  have hmem : ∀ e ∈ I, e.2 < V := by
    intro e he
    obtain ⟨i, -, j, hj, rfl⟩ := mem_flatTensor.1 he
    exact hj
  let p : ℕ × ℕ → Bool := fun e => !(s.below inverse (x e.1 e.2) || s.above inverse (x e.1 e.2))
  let o : ℕ × ℕ → ℝ := fun e => if s.above inverse (x e.1 e.2) then s.upperTrans inverse (x e.1 e.2)
    else if s.below inverse (x e.1 e.2) then s.lowerTrans inverse (x e.1 e.2) else 0
  have hval : ∀ e ∈ I.filter p, s.insideValue (x e.1 e.2) (s.uw.getD e.2 []) (s.uh.getD e.2 [])
      (padDerivatives s.minD (s.ud.getD e.2 [])) inverse = .ok (s.at inverse e.2 (x e.1 e.2)) := by
    intro e he
    obtain ⟨he1, he2⟩ := List.mem_filter.1 he
    have he2 : s.below inverse (x e.1 e.2) = false ∧ s.above inverse (x e.1 e.2) = false := by
      simpa [p] using he2
    exact s.inside_ok hs (hmem e he1) inverse _ he2.2 he2.1
  have hout : ∀ e, (if p e then (s.at inverse e.2 (x e.1 e.2)).1 else o e)
      = (s.at inverse e.2 (x e.1 e.2)).1 := by
    intro e
    cases ha : s.above inverse (x e.1 e.2) <;> cases hb : s.below inverse (x e.1 e.2) <;>
      simp [p, o, RQSpline.at, ha, hb]
  have hlog : ∀ e, (if p e then (s.at inverse e.2 (x e.1 e.2)).2 else 0)
      = (s.at inverse e.2 (x e.1 e.2)).2 := by
    intro e
    cases ha : s.above inverse (x e.1 e.2) <;> cases hb : s.below inverse (x e.1 e.2) <;>
      simp [p, RQSpline.at, ha, hb]
  unfold RQSpline.forward
  simp only [hlen, rowsOf_flatten_eq, hw, hh, hd, map_flatTensor, zip_flatTensor, zipWith_flatTensor]
  simp only [hI]
  have hm : I.map (fun e => !(s.below inverse (x e.1 e.2) || s.above inverse (x e.1 e.2))) = I.map p := rfl
  simp only [hm, gatherMask_filter]
  by_cases hany : (I.map p).any id = true
  · rw [if_pos hany, if_neg hrow]
    have hz : ∀ {γ δ : Type} (L : List (ℕ × ℕ)) (f : ℕ × ℕ → γ) (g : ℕ × ℕ → δ),
        List.zip (L.map f) (L.map g) = L.map fun e => (f e, g e) := by
      intro γ δ L f g
      induction L with
      | nil => rfl
      | cons a L ih => simp [ih]
    simp only [hz]
    rw [mapM_ok (g := fun e => s.insideValue e.1 e.2.1 e.2.2.1 e.2.2.2 inverse |>.toOption.getD (0, 0))]
    · rw [bind_ok]
      have hcomp : (((I.filter p).map fun e => (x e.1 e.2, s.uw.getD e.2 [], s.uh.getD e.2 [],
          padDerivatives s.minD (s.ud.getD e.2 []))).map fun e =>
            (s.insideValue e.1 e.2.1 e.2.2.1 e.2.2.2 inverse).toOption.getD (0, 0))
          = (I.filter p).map fun e => s.at inverse e.2 (x e.1 e.2) := by
        rw [List.map_map]
        apply List.map_congr_left
        intro e he
        simp only [Function.comp]
        rw [hval e he]; rfl
      rw [hcomp, List.map_map, List.map_map]
      have h1 := maskAssign_map I p (fun e => (s.at inverse e.2 (x e.1 e.2)).1) o
      have h2 := maskAssign_map I p (fun e => (s.at inverse e.2 (x e.1 e.2)).2) (fun _ => (0 : ℝ))
      simp only [hout] at h1
      simp only [hlog] at h2
      exact congrArg Except.ok (Prod.ext h1 h2)
    · intro e he
      obtain ⟨e', he', rfl⟩ := List.mem_map.1 he
      simp only
      rw [hval e' he']; rfl
  · rw [if_neg hany]
    have hp : ∀ e ∈ I, p e = false := by
      intro e he
      by_contra hc
      apply hany
      rw [List.any_map, List.any_eq_true]
      exact ⟨e, he, by simpa using hc⟩
    refine congrArg Except.ok (Prod.ext ?_ ?_)
    · apply List.map_congr_left
      intro e he
      have := hout e
      rw [hp e he] at this
      simpa [o] using this
    · apply List.map_congr_left
      intro e he
      have := hlog e
      rw [hp e he] at this
      simpa using this

/-! ## Slopes at the bounds -/

theorem padded_slope (minD : ℝ) (h : minD < 1) :
    minD + softplus (Real.log (Real.exp (1 - minD) - 1)) = 1 := by
  have h1 : 0 < Real.exp (1 - minD) - 1 := by
    have := Real.add_one_lt_exp (x := 1 - minD) (by linarith)
    linarith
  unfold softplus
  rw [Real.exp_log h1, add_sub_cancel, Real.log_exp]; ring

theorem RQSpline.D_zero (s : RQSpline) (hs : s.WF) (j : ℕ) : s.D j 0 = 1 := by
  unfold RQSpline.D padDerivatives
  simpa using padded_slope s.minD hs.minD'

theorem RQSpline.D_last (s : RQSpline) (hs : s.WF) (j : ℕ) (hj : j < s.uw.length) :
    s.D j s.bins = 1 := by
  have hl := hs.ud_row _ (getD_mem (by rw [hs.ud]; exact hj : j < s.ud.length))
  have hb := hs.bins
  unfold RQSpline.D padDerivatives
  rw [List.getD_eq_getElem?_getD, List.getElem?_append_right (by rw [List.length_cons, hl]; omega)]
  rw [List.length_cons, hl, show s.bins - (s.bins - 1 + 1) = 0 by omega]
  simpa using padded_slope s.minD hs.minD'

theorem Glued.slope_lo {n : ℕ} {X Y D : ℕ → ℝ} {a b : ℝ} {f g : ℝ → ℝ × ℝ}
    (G : Glued n X Y D a b f g) :
    Real.exp (f (X 0)).2 = D 0 ∧ HasDerivWithinAt (fun x => (f x).1) (D 0) (Set.Ici (X 0)) (X 0) := by
  have K := G.knots
  have h01 := K.hX 0 K.pos
  constructor
  · obtain ⟨k, hk, a0, -, -, e⟩ := G.f_in (X 0) le_rfl (knots_mono X n K.hX 0 n (by omega) le_rfl)
    have : k = 0 := by
      by_contra hne
      have := knots_lt X n K.hX 0 k (by omega) (by omega)
      linarith
    subst this
    rw [e, K.slope_left K.pos]
  · have h := (K.binF_hasDerivAt K.pos (x := X 0) le_rfl h01.le).hasDerivWithinAt
      (s := Set.Icc (X 0) (X 1))
    rw [K.slope_left K.pos] at h
    have h' : HasDerivWithinAt (fun x => (f x).1) (D 0) (Set.Icc (X 0) (X 1)) (X 0) :=
      h.congr (fun u hu => G.f_bin K.pos hu.1 hu.2) (G.f_bin K.pos le_rfl h01.le)
    exact h'.mono_of_mem_nhdsWithin (Icc_mem_nhdsGE h01)

theorem Glued.slope_hi {n : ℕ} {X Y D : ℕ → ℝ} {a b : ℝ} {f g : ℝ → ℝ × ℝ}
    (G : Glued n X Y D a b f g) :
    Real.exp (f (X n)).2 = D n ∧ HasDerivWithinAt (fun x => (f x).1) (D n) (Set.Iic (X n)) (X n) := by
  have K := G.knots
  obtain ⟨m, rfl⟩ : ∃ m, n = m + 1 := ⟨n - 1, by have := K.pos; omega⟩
  have hm : m < m + 1 := by omega
  have h01 := K.hX m hm
  constructor
  · obtain ⟨k, hk, a0, a1, a2, e⟩ := G.f_in (X (m + 1)) (knots_mono X _ K.hX 0 (m + 1) (by omega) le_rfl)
      le_rfl
    have : k = m := by
      by_contra hne
      have := knots_lt X (m + 1) K.hX (k + 1) (m + 1) (by omega) (by omega)
      linarith
    subst this
    rw [e, K.slope_right hm]
  · have h := (K.binF_hasDerivAt hm (x := X (m + 1)) h01.le le_rfl).hasDerivWithinAt
      (s := Set.Icc (X m) (X (m + 1)))
    rw [K.slope_right hm] at h
    have h' : HasDerivWithinAt (fun x => (f x).1) (D (m + 1)) (Set.Icc (X m) (X (m + 1))) (X (m + 1)) :=
      h.congr (fun u hu => G.f_bin hm hu.1 hu.2) (G.f_bin hm h01.le le_rfl)
    exact h'.mono_of_mem_nhdsWithin (Icc_mem_nhdsLE h01)

theorem Glued.deriv_lo {n : ℕ} {X Y D : ℕ → ℝ} {a b : ℝ} {f g : ℝ → ℝ × ℝ}
    (G : Glued n X Y D a b f g) (x : ℝ) (hx : x < X 0) :
    (f x).2 = 0 ∧ HasDerivAt (fun x => (f x).1) a x := by
  refine ⟨by rw [G.f_lo x hx], ?_⟩
  have h : HasDerivAt (fun x => Y 0 + (x - X 0) * a) a x := by
    simpa using (((hasDerivAt_id x).sub_const (X 0)).mul_const a).const_add (Y 0)
  refine h.congr_of_eventuallyEq ?_
  filter_upwards [Iio_mem_nhds hx] with u hu
  rw [G.f_lo u hu]

theorem Glued.deriv_hi {n : ℕ} {X Y D : ℕ → ℝ} {a b : ℝ} {f g : ℝ → ℝ × ℝ}
    (G : Glued n X Y D a b f g) (x : ℝ) (hx : X n < x) :
    (f x).2 = 0 ∧ HasDerivAt (fun x => (f x).1) b x := by
  refine ⟨by rw [G.f_hi x hx], ?_⟩
  have h : HasDerivAt (fun x => Y n + (x - X n) * b) b x := by
    simpa using (((hasDerivAt_id x).sub_const (X n)).mul_const b).const_add (Y n)
  refine h.congr_of_eventuallyEq ?_
  filter_upwards [Ioi_mem_nhds hx] with u hu
  rw [G.f_hi u hu]

end Irt
