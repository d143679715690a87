import Verif.Lemmas.Bit
import Verif.Spec.Entropy
import Verif.Props.Outlier
import Mathlib.Topology.EMetricSpace.BoundedVariation

/-! # C28, C29: `Bit.transform` -/

namespace Irt

variable {d : ℕ}

/-- A usable bit scale: the probabilities of every item sum to one at every latent score, the chosen items
exist, there is at least one grid point, and a population sample, if given, is not empty. -/
structure Bit.Usable (b : Bit d) : Prop where
  sums : ∀ t, ∀ p ∈ b.probs t, p.sum = 1
  items : ∀ t, ∀ i ∈ b.items, i < (b.probs t).length
  grid : 0 < b.gridPoints
  population : ∀ p, b.population = some p → p ≠ []

/-- Entropy of item `i` at a row of latent scores. -/
noncomputable def Bit.itemEntropy (b : Bit d) (i : ℕ) (t : Fin d → ℝ) : ℝ := smoothEntropy ((b.probs t).getD i [])

theorem Bit.itemEntropies_eq (b : Bit d) (hb : b.Usable) (t : Fin d → ℝ) :
    b.itemEntropies t = .ok (b.items.map fun i => b.itemEntropy i t) := by
  unfold Bit.itemEntropies
  have h1 : (b.probs t).mapM (entropy 2) = .ok ((b.probs t).map smoothEntropy) := by
    apply mapM_ok
    intro p hp
    unfold entropy
    rw [if_pos (by rw [hb.sums t p hp]; norm_num)]
    rfl
  rw [h1, bind_ok]
  apply mapM_ok
  intro i hi
  have := hb.items t i hi
  rw [List.getElem?_map, List.getElem?_eq_getElem this]
  simp only [Option.map_some, Bit.itemEntropy]
  rw [List.getD_eq_getElem _ _ this]

theorem Bit.gridSetup_ok (b : Bit d) (hb : b.Usable) : ∃ gs ge med, b.gridSetup = .ok (gs, ge, med) := by
  unfold Bit.gridSetup
  cases hp : b.population with
  | none => exact ⟨_, _, _, rfl⟩
  | some p =>
    have hne : p.map b.adjust ≠ [] := by simpa using hb.population p hp
    obtain ⟨lo, hi, h1, h2, -⟩ := C52_extremes 4 4 (if_neg (by norm_num)) (p.map b.adjust) hne
    have hcb := columnBounds_ok 4 (p.map b.adjust) hne
    simp only
    unfold Bit.gridBoundaries isOutlier
    simp only [hcb, bind_ok, h1, h2]
    simp only [pure, Except.pure, Bool.not_true, Bool.and_false, Bool.false_eq_true, if_false, bind_ok]
    by_cases hex : ∃ k, (List.map (fun t k => outlierStatus true true
        (quantileVal (List.map (fun t => t k) (List.map b.adjust p)) 0.25 -
          4 * (quantileVal (List.map (fun t => t k) (List.map b.adjust p)) 0.75 -
            quantileVal (List.map (fun t => t k) (List.map b.adjust p)) 0.25),
        quantileVal (List.map (fun t => t k) (List.map b.adjust p)) 0.75 +
          4 * (quantileVal (List.map (fun t => t k) (List.map b.adjust p)) 0.75 -
            quantileVal (List.map (fun t => t k) (List.map b.adjust p)) 0.25)) (t k))
          [b.startAdj]).getD 0 (fun _ => false) k = true
    · rw [if_pos hex]
      exact ⟨_, _, _, rfl⟩
    · rw [if_neg hex]
      exact ⟨_, _, _, rfl⟩

/-- The curve along which bit scores of latent variable `k` are accumulated: variable `k` has the orientation
adjusted value `x`, the others are held at `med`; the result is on the model's own scale. -/
noncomputable def Bit.curve (b : Bit d) (med : Fin d → ℝ) (k : Fin d) (x : ℝ) : Fin d → ℝ :=
  fun j => (if j = k then x else med j) * b.multiplier j

/-- Entropies of the chosen items along the curve. -/
noncomputable def Bit.curveEntropies (b : Bit d) (med : Fin d → ℝ) (k : Fin d) : List (ℝ → ℝ) :=
  b.items.map fun i x => b.itemEntropy i (b.curve med k x)

/-- The grid of latent variable `k` for a batch. -/
noncomputable def Bit.gridFor (b : Bit d) (gs ge : Fin d → ℝ) (θ : Thetas d) (k : Fin d) : List ℝ :=
  b.gridColumn (b.startAdj k) (gs k) (ge k) (θ.map fun t => b.adjust t k)

theorem Bit.transform_eq (b : Bit d) (hb : b.Usable) (gs ge med : Fin d → ℝ)
    (hset : b.gridSetup = .ok (gs, ge, med)) (θ : Thetas d) (hθ : θ ≠ []) :
    b.transform θ = .ok (θ.map fun t k =>
      gridScore (b.curveEntropies med k) (b.startAdj k) (b.gridFor gs ge θ k) (b.adjust t k)) := by
  unfold Bit.transform
  rw [hset]
  simp only [bind_ok]
  have hcol : (List.finRange d).mapM (fun k => b.columnScores med k (b.startAdj k) (gs k) (ge k)
      ((θ.map b.adjust).map fun t => t k)) = .ok ((List.finRange d).map fun k =>
      (θ.map fun t => b.adjust t k).map (gridScore (b.curveEntropies med k) (b.startAdj k)
        (b.gridFor gs ge θ k))) := by
    apply mapM_ok
    intro k _
    have hmm : ((θ.map b.adjust).map fun t => t k) = θ.map fun t => b.adjust t k := by
      rw [List.map_map]; rfl
    rw [hmm, columnScores_eq b hb.grid med k (b.startAdj k) (gs k) (ge k) _ (by simpa using hθ)
      (by
        intro x hx
        obtain ⟨t, -, rfl⟩ := List.mem_map.1 hx
        exact le_max_right _ _) (b.curveEntropies med k)
      (by
        intro x
        have := b.itemEntropies_eq hb (b.curve med k x)
        unfold Bit.curve at this
        rw [this]
        unfold Bit.curveEntropies
        rw [List.map_map]
        rfl)]
    rfl
  rw [hcol, bind_ok]
  simp only [pure, Except.pure]
  congr 1
  apply List.ext_getElem
  · simp
  · intro i h1 h2
    have hi : i < θ.length := by simpa using h2
    rw [List.getElem_map, List.getElem_map, List.getElem_range]
    funext k
    have hk : ((List.finRange d).map fun k => (θ.map fun t => b.adjust t k).map
        (gridScore (b.curveEntropies med k) (b.startAdj k) (b.gridFor gs ge θ k))).getD k []
        = (θ.map fun t => b.adjust t k).map
        (gridScore (b.curveEntropies med k) (b.startAdj k) (b.gridFor gs ge θ k)) := by
      rw [List.getD_eq_getElem?_getD, List.getElem?_map]
      simp
    rw [hk, List.getD_eq_getElem?_getD, List.getElem?_map, List.getElem?_map, List.getElem?_eq_getElem hi]
    rfl

theorem gridScore_start (H : List (ℝ → ℝ)) (start : ℝ) (g : List ℝ) : gridScore H start g start = 0 := by
  unfold gridScore
  rw [List.filter_eq_nil_iff.2]
  · rfl
  · intro u _
    simp

theorem gridScore_mono (H : List (ℝ → ℝ)) (start : ℝ) (g : List ℝ) : Monotone (gridScore H start g) := by
  intro x y hxy
  apply varFrom_sublist (sumDist_pseudo H)
  have : (gridPts g).filter (fun u => decide (start < u ∧ u ≤ x))
      = ((gridPts g).filter fun u => decide (start < u ∧ u ≤ y)).filter fun u => decide (u ≤ x) := by
    rw [List.filter_filter]
    congr 1
    funext u
    by_cases h1 : start < u <;> by_cases h2 : u ≤ x <;> simp [h1, h2]
    exact h2.trans hxy
  rw [this]
  exact List.filter_sublist

theorem gridScore_net (H : List (ℝ → ℝ)) (start : ℝ) (g : List ℝ) (x : ℝ) (hx : x ∈ g) (hs : start ≤ x) :
    sumDist H start x ≤ gridScore H start g x := by
  rcases hs.eq_or_lt with h | h
  · subst h
    rw [gridScore_start]
    simp [sumDist]
  · have hsub : [x].Sublist ((gridPts g).filter fun u => decide (start < u ∧ u ≤ x)) := by
      rw [List.singleton_sublist, List.mem_filter]
      exact ⟨(mem_gridPts g x).2 hx, by simp [h]⟩
    have := varFrom_sublist (sumDist_pseudo H) hsub start
    simpa [varFrom, gridScore] using this

theorem gridScore_refine (H : List (ℝ → ℝ)) (start : ℝ) (g g' : List ℝ) (hg : ∀ x ∈ g, x ∈ g') (x : ℝ) :
    gridScore H start g x ≤ gridScore H start g' x := by
  apply varFrom_sublist (sumDist_pseudo H)
  have hp : ∀ g : List ℝ, ((gridPts g).filter fun u => decide (start < u ∧ u ≤ x)).Pairwise (· < ·) :=
    fun g => (gridPts_sorted g).sublist List.filter_sublist
  have hsub : ((gridPts g).filter fun u => decide (start < u ∧ u ≤ x)).Subperm
      ((gridPts g').filter fun u => decide (start < u ∧ u ≤ x)) := by
    apply List.subperm_of_subset
    · exact (hp g).imp fun h => h.ne
    · intro u hu
      rw [List.mem_filter] at hu ⊢
      exact ⟨(mem_gridPts g' u).2 (hg u ((mem_gridPts g u).1 hu.1)), hu.2⟩
  exact List.sublist_of_subperm_of_pairwise hsub (hp g) (hp g')

/-- Bit scores of a batch: nonnegative, zero for a respondent at or below the starting theta, never smaller
for a respondent further along the orientation adjusted latent variable, and at least as large as the net
change of the item entropies between the starting theta and the respondent (the other latent variables held
fixed). The multiplier is -1 for a latent variable along which expected scores fall, else 1. -/
theorem C28_scores (b : Bit d) (hb : b.Usable) (θ : Thetas d) (hθ : θ ≠ []) :
    ∃ (B : (Fin d → ℝ) → Fin d → ℝ) (med : Fin d → ℝ), b.transform θ = .ok (θ.map B) ∧
      ∀ t ∈ θ, ∀ k, 0 ≤ B t k ∧
        (t k * b.multiplier k ≤ b.startTheta k * b.multiplier k → B t k = 0) ∧
        (∀ u ∈ θ, t k * b.multiplier k ≤ u k * b.multiplier k → B t k ≤ B u k) ∧
        (b.items.map fun i =>
            |b.itemEntropy i (b.curve med k (b.startTheta k * b.multiplier k))
              - b.itemEntropy i (b.curve med k (max (t k * b.multiplier k) (b.startTheta k * b.multiplier k)))|).sum
          ≤ B t k := by
  obtain ⟨gs, ge, med, hset⟩ := b.gridSetup_ok hb
  refine ⟨_, med, b.transform_eq hb gs ge med hset θ hθ, ?_⟩
  intro t ht k
  refine ⟨varFrom_nonneg (sumDist_pseudo _) _ _, ?_, ?_, ?_⟩
  · intro h
    have : b.adjust t k = b.startAdj k := max_eq_right h
    rw [this, gridScore_start]
  · intro u _ h
    exact gridScore_mono _ _ _ (max_le_max h le_rfl)
  · have hmem : b.adjust t k ∈ b.gridFor gs ge θ k := by
      obtain ⟨pre, hpre, -⟩ := gridColumn_props b hb.grid (b.startAdj k) (gs k) (ge k)
        (θ.map fun t => b.adjust t k) (by
          intro x hx
          obtain ⟨t, -, rfl⟩ := List.mem_map.1 hx
          exact le_max_right _ _)
      unfold Bit.gridFor
      rw [hpre]
      exact List.mem_append_right _ (List.mem_map_of_mem ht)
    have := gridScore_net (b.curveEntropies med k) (b.startAdj k) _ _ hmem (le_max_right _ _)
    refine le_trans (le_of_eq ?_) this
    unfold sumDist Bit.curveEntropies
    rw [List.map_map]
    rfl

/-- A latent score and the multiplier: the multiplier is 1 or -1, so every latent variable keeps or reverses
its order. -/
theorem C28_orientation (b : Bit d) (k : Fin d) :
    b.multiplier k = if b.scoreSum (Pi.single k 1) < b.scoreSum (Pi.single k (-1)) then -1 else 1 := by
  unfold Bit.multiplier invertMultiplier
  have h : ∀ c : ℝ, (fun j => if j = k then c else 0) = (Pi.single k c : Fin d → ℝ) := by
    intro c
    funext j
    by_cases hj : j = k
    · subst hj; simp
    · simp [hj]
  rw [h, h]

/-- Respondents added to a batch never lower the bit scores of the respondents already in it. -/
theorem C28_more_respondents (b : Bit d) (hb : b.Usable) (θ θ' : Thetas d) (hθ : θ ≠ []) (hsub : ∀ t ∈ θ, t ∈ θ') :
    ∃ B B' : (Fin d → ℝ) → Fin d → ℝ, b.transform θ = .ok (θ.map B) ∧ b.transform θ' = .ok (θ'.map B') ∧
      ∀ t ∈ θ, ∀ k, B t k ≤ B' t k := by
  obtain ⟨gs, ge, med, hset⟩ := b.gridSetup_ok hb
  have hθ' : θ' ≠ [] := by
    obtain ⟨t, ht⟩ := List.exists_mem_of_ne_nil _ hθ
    intro h
    have := hsub t ht
    rw [h] at this
    exact absurd this (by simp)
  refine ⟨_, _, b.transform_eq hb gs ge med hset θ hθ, b.transform_eq hb gs ge med hset θ' hθ', ?_⟩
  intro t ht k
  apply gridScore_refine
  have hprop : ∀ θ : Thetas d, ∀ x ∈ θ.map (fun t => b.adjust t k), b.startAdj k ≤ x := by
    intro θ x hx
    obtain ⟨t, -, rfl⟩ := List.mem_map.1 hx
    exact le_max_right _ _
  obtain ⟨pre, h1, -, -, h2⟩ := gridColumn_props b hb.grid (b.startAdj k) (gs k) (ge k) _ (hprop θ)
  obtain ⟨pre', h1', -, -, h2'⟩ := gridColumn_props b hb.grid (b.startAdj k) (gs k) (ge k) _ (hprop θ')
  intro x hx
  unfold Bit.gridFor at hx ⊢
  rw [h1, List.mem_append] at hx
  rw [h1', List.mem_append]
  rcases hx with hx | hx
  · exact Or.inl ((h2' x).2 ((h2 x).1 hx))
  · obtain ⟨t, ht, rfl⟩ := List.mem_map.1 hx
    exact Or.inr (List.mem_map.2 ⟨t, hsub t ht, rfl⟩)

theorem linspace01_getElem? (n i : ℕ) (hi : i < n) :
    (linspace01 n)[i]? = some ((i : ℝ) / ((n : ℝ) - 1)) := by
  unfold linspace01
  split_ifs with h
  · subst h
    have : i = 0 := by omega
    subst this
    simp
  · rw [List.getElem?_map, List.getElem?_range hi]; rfl

theorem length_linspace01 (n : ℕ) : (linspace01 n).length = n := by
  unfold linspace01
  split_ifs with h
  · rw [h]; rfl
  · simp

/-- Dividing every step of the grid into `m` steps never lowers a bit score. -/
theorem C28_finer_grid (b : Bit d) (hb : b.Usable) (m : ℕ) (hm : 1 ≤ m) (θ : Thetas d) (hθ : θ ≠ []) :
    ∃ B B' : (Fin d → ℝ) → Fin d → ℝ, b.transform θ = .ok (θ.map B) ∧
      ({ b with gridPoints := m * (b.gridPoints - 1) + 1 } : Bit d).transform θ = .ok (θ.map B') ∧
      ∀ t ∈ θ, ∀ k, B t k ≤ B' t k := by
  set b' : Bit d := { b with gridPoints := m * (b.gridPoints - 1) + 1 } with hb'
  have hu : b'.Usable := ⟨hb.sums, hb.items, Nat.succ_pos _, hb.population⟩
  obtain ⟨gs, ge, med, hset⟩ := b.gridSetup_ok hb
  have hset' : b'.gridSetup = .ok (gs, ge, med) := hset
  refine ⟨_, _, b.transform_eq hb gs ge med hset θ hθ, b'.transform_eq hu gs ge med hset' θ hθ, ?_⟩
  intro t ht k
  refine gridScore_refine (b.curveEntropies med k) (b.startAdj k) _ (b'.gridFor gs ge θ k) ?_ _
  have hprop : ∀ x ∈ θ.map (fun t => b.adjust t k), b.startAdj k ≤ x := by
    intro x hx
    obtain ⟨t, -, rfl⟩ := List.mem_map.1 hx
    exact le_max_right _ _
  obtain ⟨pre, h1, -, -, h2⟩ := gridColumn_props b hb.grid (b.startAdj k) (gs k) (ge k) _ hprop
  obtain ⟨pre', h1', -, -, h2'⟩ := gridColumn_props b' hu.grid (b.startAdj k) (gs k) (ge k) _ hprop
  intro x hx
  unfold Bit.gridFor at hx ⊢
  rw [h1, List.mem_append] at hx
  show x ∈ b'.gridColumn (b.startAdj k) (gs k) (ge k) (θ.map fun t => b.adjust t k)
  rw [h1', List.mem_append]
  rcases hx with hx | hx
  · refine Or.inl ((h2' x).2 ?_)
    rcases (h2 x).1 hx with h | ⟨i, hi, r, hr, hxr⟩
    · exact Or.inl h
    · have hlt : i < b.gridPoints := by
        have := (List.getElem?_eq_some_iff.1 hr).1
        rwa [length_linspace01] at this
      rw [linspace01_getElem? _ _ hlt] at hr
      have hr' := Option.some.inj hr
      refine Or.inr ⟨m * i, Nat.mul_pos hm hi, r, ?_, hxr⟩
      have hlt' : m * i < b'.gridPoints := by
        show m * i < m * (b.gridPoints - 1) + 1
        have : m * i ≤ m * (b.gridPoints - 1) := Nat.mul_le_mul_left m (by omega)
        omega
      rw [linspace01_getElem? _ _ hlt', ← hr']
      congr 1
      have hgp : ((b'.gridPoints : ℕ) : ℝ) - 1 = m * ((b.gridPoints : ℝ) - 1) := by
        show ((m * (b.gridPoints - 1) + 1 : ℕ) : ℝ) - 1 = _
        push_cast
        rw [Nat.cast_sub hb.grid]
        push_cast
        ring
      rw [hgp]
      push_cast
      rw [mul_div_mul_left]
      exact_mod_cast (Nat.pos_of_ne_zero (by omega)).ne'
  · exact Or.inr hx

theorem varFrom_append_le (h : ℝ → ℝ) (S : Set ℝ) (a : ℝ) (l : List ℝ) (hl : (a :: l).Pairwise (· < ·))
    (hS : ∀ x ∈ a :: l, x ∈ S) :
    ENNReal.ofReal (varFrom (fun x y => |h x - h y|) a l) ≤ eVariationOn h S := by
  induction l generalizing a S with
  | nil => simp [varFrom]
  | cons c l ih =>
    obtain ⟨h1, h2⟩ := List.pairwise_cons.1 hl
    have ha : a ∈ S := hS a (by simp)
    have hc : c ∈ S := hS c (by simp)
    have hac : a < c := h1 c (by simp)
    have hsplit := eVariationOn.add_le_union h (s := S ∩ Set.Iic c) (t := S ∩ Set.Ici c)
      (fun x hx y hy => le_trans hx.2 hy.2)
    have hmono : eVariationOn h (S ∩ Set.Iic c ∪ S ∩ Set.Ici c) ≤ eVariationOn h S :=
      eVariationOn.mono h (by rintro x (hx | hx) <;> exact hx.1)
    have e1 : edist (h a) (h c) ≤ eVariationOn h (S ∩ Set.Iic c) :=
      eVariationOn.edist_le h ⟨ha, hac.le⟩ ⟨hc, Set.mem_Iic.mpr le_rfl⟩
    have e2 := ih (S ∩ Set.Ici c) c h2 (by
      intro x hx
      refine ⟨hS x (List.mem_cons_of_mem _ hx), ?_⟩
      rcases List.mem_cons.1 hx with rfl | hx
      · exact Set.mem_Ici.mpr le_rfl
      · exact Set.mem_Ici.mpr ((List.pairwise_cons.1 h2).1 x hx).le)
    have hpd : PseudoDist (fun x y => |h x - h y|) :=
      ⟨fun _ _ => abs_nonneg _, fun a b c => abs_sub_le _ _ _⟩
    calc ENNReal.ofReal (varFrom (fun x y => |h x - h y|) a (c :: l))
        = ENNReal.ofReal |h a - h c| + ENNReal.ofReal (varFrom (fun x y => |h x - h y|) c l) := by
          rw [varFrom, ENNReal.ofReal_add (abs_nonneg _) (varFrom_nonneg hpd _ _)]
      _ ≤ eVariationOn h (S ∩ Set.Iic c) + eVariationOn h (S ∩ Set.Ici c) := by
          refine add_le_add ?_ e2
          rwa [edist_dist, Real.dist_eq] at e1
      _ ≤ _ := hsplit.trans hmono

theorem varFrom_sumDist (H : List (ℝ → ℝ)) (a : ℝ) (l : List ℝ) :
    varFrom (sumDist H) a l = (H.map fun h => varFrom (fun x y => |h x - h y|) a l).sum := by
  induction l generalizing a with
  | nil => simp [varFrom]
  | cons c l ih =>
    simp only [varFrom]
    rw [ih c, List.sum_map_add]
    rfl

/-- A bit score never exceeds the total variation of the item entropies between the starting theta and the
respondent, the quantity that the documentation defines as the bit score. -/
theorem C28_total_variation (b : Bit d) (hb : b.Usable) (θ : Thetas d) (hθ : θ ≠ []) :
    ∃ (B : (Fin d → ℝ) → Fin d → ℝ) (med : Fin d → ℝ), b.transform θ = .ok (θ.map B) ∧
      ∀ t ∈ θ, ∀ k, ENNReal.ofReal (B t k) ≤ (b.items.map fun i =>
        eVariationOn (fun x => b.itemEntropy i (b.curve med k x))
          (Set.Icc (b.startTheta k * b.multiplier k)
            (max (t k * b.multiplier k) (b.startTheta k * b.multiplier k)))).sum := by
  obtain ⟨gs, ge, med, hset⟩ := b.gridSetup_ok hb
  refine ⟨_, med, b.transform_eq hb gs ge med hset θ hθ, ?_⟩
  intro t _ k
  unfold gridScore
  rw [varFrom_sumDist]
  set l := (gridPts (b.gridFor gs ge θ k)).filter fun u => decide (b.startAdj k < u ∧ u ≤ b.adjust t k) with hl
  have hpw : (b.startAdj k :: l).Pairwise (· < ·) := by
    rw [List.pairwise_cons]
    refine ⟨?_, (gridPts_sorted _).sublist List.filter_sublist⟩
    intro u hu
    have := (List.mem_filter.1 hu).2
    simp only [decide_eq_true_eq] at this
    exact this.1
  have hin : ∀ x ∈ b.startAdj k :: l, x ∈ Set.Icc (b.startAdj k) (b.adjust t k) := by
    intro x hx
    rcases List.mem_cons.1 hx with rfl | hx
    · exact ⟨le_rfl, le_max_right _ _⟩
    · have := (List.mem_filter.1 hx).2
      simp only [decide_eq_true_eq] at this
      exact ⟨this.1.le, this.2⟩
  unfold Bit.curveEntropies
  rw [List.map_map]
  have hpd : ∀ h : ℝ → ℝ, PseudoDist (fun x y => |h x - h y|) := fun h =>
    ⟨fun _ _ => abs_nonneg _, fun a b c => abs_sub_le _ _ _⟩
  generalize b.items = items
  induction items with
  | nil => simp
  | cons i is ih =>
    simp only [List.map_cons, List.sum_cons, Function.comp] at ih ⊢
    rw [ENNReal.ofReal_add (varFrom_nonneg (hpd _) _ _) (List.sum_nonneg (by
      intro x hx
      obtain ⟨j, -, rfl⟩ := List.mem_map.1 hx
      exact varFrom_nonneg (hpd _) _ _))]
    exact add_le_add (varFrom_append_le _ _ _ _ hpw hin) ih

/-! ## C29 -/

/-- When the entropy of every chosen item is monotone (rising or falling) from the starting theta on, along
each latent variable, the score of a respondent is the same in every batch. Missing: items whose entropy
turns, for which the claim is false (`C29_false`). -/
theorem C29_monotone_entropy_partial (b : Bit d) (hb : b.Usable)
    (hmono : ∀ (med : Fin d → ℝ) (k : Fin d), ∀ i ∈ b.items,
      MonotoneOn (fun x => b.itemEntropy i (b.curve med k x)) (Set.Ici (b.startTheta k * b.multiplier k)) ∨
      AntitoneOn (fun x => b.itemEntropy i (b.curve med k x)) (Set.Ici (b.startTheta k * b.multiplier k))) :
    ∃ B : (Fin d → ℝ) → Fin d → ℝ, ∀ θ ≠ [], b.transform θ = .ok (θ.map B) := by
  obtain ⟨gs, ge, med, hset⟩ := b.gridSetup_ok hb
  refine ⟨fun t k => sumDist (b.curveEntropies med k) (b.startAdj k) (b.adjust t k), fun θ hθ => ?_⟩
  rw [b.transform_eq hb gs ge med hset θ hθ]
  congr 1
  apply List.map_congr_left
  intro t ht
  funext k
  have hmem : b.adjust t k ∈ b.gridFor gs ge θ k := by
    obtain ⟨pre, hpre, -⟩ := gridColumn_props b hb.grid (b.startAdj k) (gs k) (ge k)
      (θ.map fun t => b.adjust t k) (by
        intro x hx
        obtain ⟨t, -, rfl⟩ := List.mem_map.1 hx
        exact le_max_right _ _)
    unfold Bit.gridFor
    rw [hpre]
    exact List.mem_append_right _ (List.mem_map_of_mem ht)
  apply le_antisymm _ (gridScore_net _ _ _ _ hmem (le_max_right _ _))
  -- along a monotone function the variation telescopes
  have htel : ∀ (h : ℝ → ℝ) (s x : ℝ), s ≤ x → (MonotoneOn h (Set.Ici s) ∨ AntitoneOn h (Set.Ici s)) →
      ∀ (l : List ℝ) (a : ℝ), s ≤ a → a ≤ x → (a :: l).Pairwise (· < ·) → (∀ u ∈ l, u ≤ x) →
        varFrom (fun x y => |h x - h y|) a l ≤ |h a - h x| := by
    intro h s x hsx hm l
    induction l with
    | nil => intro a _ _ _ _; simp [varFrom]
    | cons c l ih =>
      intro a hsa hax hp hle
      obtain ⟨h1, h2⟩ := List.pairwise_cons.1 hp
      have hac := h1 c (by simp)
      have hcx := hle c (by simp)
      have := ih c (hsa.trans hac.le) hcx h2 fun u hu => hle u (List.mem_cons_of_mem _ hu)
      simp only [varFrom]
      rcases hm with hm | hm
      · have e1 := hm (show a ∈ Set.Ici s from hsa) (show c ∈ Set.Ici s from hsa.trans hac.le) hac.le
        have e2 := hm (show c ∈ Set.Ici s from hsa.trans hac.le) (show x ∈ Set.Ici s from hsx) hcx
        rw [abs_of_nonpos (by linarith)] at this ⊢
        rw [abs_of_nonpos (by linarith)]
        linarith
      · have e1 := hm (show a ∈ Set.Ici s from hsa) (show c ∈ Set.Ici s from hsa.trans hac.le) hac.le
        have e2 := hm (show c ∈ Set.Ici s from hsa.trans hac.le) (show x ∈ Set.Ici s from hsx) hcx
        rw [abs_of_nonneg (by linarith)] at this ⊢
        rw [abs_of_nonneg (by linarith)]
        linarith
  unfold gridScore
  rw [varFrom_sumDist]
  unfold sumDist
  apply List.sum_le_sum
  intro h hh
  obtain ⟨i, hi, rfl⟩ := List.mem_map.1 hh
  refine htel _ (b.startAdj k) _ (le_max_right _ _) (hmono med k i hi) _ _ le_rfl (le_max_right _ _) ?_ ?_
  · rw [List.pairwise_cons]
    refine ⟨?_, (gridPts_sorted _).sublist List.filter_sublist⟩
    intro u hu
    have := (List.mem_filter.1 hu).2
    simp only [decide_eq_true_eq] at this
    exact this.1
  · intro u hu
    have := (List.mem_filter.1 hu).2
    simp only [decide_eq_true_eq] at this
    exact this.2

/-- The two-category smoothed entropy is largest at 1/2. -/
theorem smoothEntropy_lt_half (q : ℝ) (h0 : 0 < q) (h1 : q < 1) (hq : q ≠ 1 / 2) :
    smoothEntropy [1 - q, q] < smoothEntropy [1 / 2, 1 / 2] := by
  have hl2 : 0 < Real.log 2 := Real.log_pos (by norm_num)
  set e : ℝ := 1e-10 with he
  have hepos : 0 < e := by norm_num [he]
  have key : ∀ p : ℝ, 0 < p → Real.log (1 / 2 + e) - Real.log (p + e) ≤ (1 / 2 - p) / (p + e) := by
    intro p hp
    rw [← Real.log_div (by positivity) (by positivity)]
    have := Real.log_le_sub_one_of_pos (show 0 < (1 / 2 + e) / (p + e) by positivity)
    refine this.trans (le_of_eq ?_)
    field_simp
    ring
  have k1 := mul_le_mul_of_nonneg_left (key q h0) h0.le
  have k2 := mul_le_mul_of_nonneg_left (key (1 - q) (by linarith)) (show 0 ≤ 1 - q by linarith)
  have k3 : q * ((1 / 2 - q) / (q + e)) + (1 - q) * ((1 / 2 - (1 - q)) / (1 - q + e)) < 0 := by
    have hA : 0 < q + e := by linarith
    have hB : 0 < 1 - q + e := by linarith
    have : q * ((1 / 2 - q) / (q + e)) + (1 - q) * ((1 / 2 - (1 - q)) / (1 - q + e))
        = -(2 * e * (1 / 2 - q) ^ 2) / ((q + e) * (1 - q + e)) := by
      field_simp
      ring
    rw [this]
    apply div_neg_of_neg_of_pos _ (mul_pos hA hB)
    have : 0 < (1 / 2 - q) ^ 2 := by
      apply sq_pos_of_ne_zero
      intro h; apply hq; linarith
    have := mul_pos (mul_pos (by norm_num : (0 : ℝ) < 2) hepos) this
    linarith
  have hfin : q * (-Real.log (q + e)) + (1 - q) * (-Real.log (1 - q + e)) < -Real.log (1 / 2 + e) := by
    nlinarith
  have e1 : smoothEntropy [1 - q, q]
      = (q * (-Real.log (q + e)) + (1 - q) * (-Real.log (1 - q + e))) / Real.log 2 := by
    simp only [smoothEntropy, List.map_cons, List.map_nil, List.sum_cons, List.sum_nil, ← he]
    ring
  have e2 : smoothEntropy [1 / 2, 1 / 2] = -Real.log (1 / 2 + e) / Real.log 2 := by
    simp only [smoothEntropy, List.map_cons, List.map_nil, List.sum_cons, List.sum_nil, ← he]
    ring
  rw [e1, e2]
  exact div_lt_div_of_pos_right hfin hl2

theorem sorted_eq_of_mem {l l' : List ℝ} (h : l.Pairwise (· < ·)) (h' : l'.Pairwise (· < ·))
    (hm : ∀ x, x ∈ l ↔ x ∈ l') : l = l' := by
  have hp : l.Perm l' := (List.perm_ext_iff_of_nodup (h.imp fun h => h.ne) (h'.imp fun h => h.ne)).2 hm
  exact List.Perm.eq_of_pairwise (fun a b _ _ h1 h2 => absurd h1 (not_lt.2 h2.le)) h h' hp

/-- A one-item Rasch model with difficulty `δ`. -/
noncomputable def raschProbs (δ : ℝ) (t : Fin 1 → ℝ) : List (List ℝ) := [[1 - sigmoid (t 0 - δ), sigmoid (t 0 - δ)]]

/-- The claim is false whatever the number of grid points: for a Rasch item whose difficulty lies between two
grid points, adding a respondent at the difficulty raises the bit score of another respondent. -/
theorem C29_false (n : ℕ) (hn : 1 ≤ n) :
    ∃ (δ start : ℝ) (b : Bit 1),
      Bit.create (raschProbs δ) (fun t => sigmoid (t 0 - δ)) 1 none (some [start]) none n = .ok b ∧ b.Usable ∧
      ¬ ∀ (t u : Fin 1 → ℝ) (r : Fin 1 → ℝ) (r' s' : Fin 1 → ℝ),
        b.transform [t] = .ok [r] → b.transform [t, u] = .ok [r', s'] → r 0 = r' 0 := by
  obtain ⟨h, hpos, hgrid⟩ : ∃ h : ℝ, 0 < h ∧ ∀ i : ℕ, 1 ≤ i → i < n →
      h ≤ 14 * ((i : ℝ) / ((n : ℝ) - 1)) := by
    by_cases h1 : n = 1
    · exact ⟨4, by norm_num, fun i hi hin => by omega⟩
    · have hn2 : (2 : ℝ) ≤ n := by exact_mod_cast (show 2 ≤ n by omega)
      have hd : (0 : ℝ) < n - 1 := by linarith
      refine ⟨14 / ((n : ℝ) - 1), by positivity, fun i hi _ => ?_⟩
      have hi' : (1 : ℝ) ≤ i := by exact_mod_cast hi
      rw [← mul_div_assoc]
      exact div_le_div_of_nonneg_right (by linarith) hd.le
  set δ : ℝ := -7 + h / 2 with hδ
  set start : ℝ := -7 + h / 4 with hst
  set x : ℝ := -7 + 3 * h / 4 with hx
  let b : Bit 1 := ⟨raschProbs δ, fun t => sigmoid (t 0 - δ), List.range 1, n, none, fun k => [start].getD k 0⟩
  have hsm : StrictMono sigmoid := by
    intro a c hac
    unfold sigmoid
    apply one_div_lt_one_div_of_lt (by positivity)
    have := Real.exp_lt_exp.mpr (neg_lt_neg hac)
    linarith
  have hmult : ∀ k, b.multiplier k = 1 := by
    intro k
    have : k = 0 := Subsingleton.elim _ _
    subst this
    unfold Bit.multiplier invertMultiplier
    rw [if_neg]
    simp only [b, if_true, gt_iff_lt, not_lt]
    exact hsm.monotone (by linarith)
  have hu : b.Usable := by
    refine ⟨?_, ?_, hn, ?_⟩
    · intro t p hp
      simp only [b, raschProbs, List.mem_singleton] at hp
      subst hp
      simp
    · intro t i hi
      simpa [b, raschProbs] using hi
    · intro p hp
      simp [b] at hp
  refine ⟨δ, start, b, ?_, hu, ?_⟩
  · unfold Bit.create
    rw [if_neg (by simp; omega)]
    simp [b]
  intro hall
  have hset : b.gridSetup = .ok (fun _ => -7, fun _ => 7, fun _ => 0) := rfl
  have hadj : ∀ t : Fin 1 → ℝ, start ≤ t 0 → b.adjust t 0 = t 0 := by
    intro t ht
    unfold Bit.adjust Bit.startAdj
    rw [hmult]
    simpa [b] using ht
  have hstart : b.startAdj 0 = start := by
    unfold Bit.startAdj
    rw [hmult]
    simp [b]
  let H := b.curveEntropies (fun _ => 0) 0
  have hH : H = [fun y => smoothEntropy [1 - sigmoid (y - δ), sigmoid (y - δ)]] := by
    have hcurve : ∀ y, b.curve (fun _ => 0) 0 y 0 = y := by
      intro y
      unfold Bit.curve
      rw [if_pos rfl, hmult, mul_one]
    have : H = [fun y => b.itemEntropy 0 (b.curve (fun _ => 0) 0 y)] := rfl
    rw [this]
    congr 1
    funext y
    show smoothEntropy [1 - sigmoid (b.curve (fun _ => 0) 0 y 0 - δ), sigmoid (b.curve (fun _ => 0) 0 y 0 - δ)] = _
    rw [hcurve]
  -- no grid point lies between the starting theta and `x`
  have hmemg : ∀ (θ : Thetas 1), (∀ t ∈ θ, start ≤ t 0) → ∀ u, start < u → u ≤ x →
      (u ∈ b.gridFor (fun _ => -7) (fun _ => 7) θ 0 ↔ ∃ t ∈ θ, t 0 = u) := by
    intro θ hθ u h1 h2
    obtain ⟨pre, hp, -, -, hpm⟩ := gridColumn_props b hn (b.startAdj 0) (-7) 7 (θ.map fun t => b.adjust t 0) (by
      intro y hy
      obtain ⟨t, -, rfl⟩ := List.mem_map.1 hy
      exact le_max_right _ _)
    unfold Bit.gridFor
    rw [hp, List.mem_append]
    constructor
    · rintro (hh | hh)
      · exfalso
        rcases (hpm u).1 hh with e | ⟨i, hi, r, hr, e⟩
        · rw [hstart] at e; linarith
        · have hlt : i < n := by
            have := (List.getElem?_eq_some_iff.1 hr).1
            rwa [length_linspace01] at this
          rw [linspace01_getElem? _ _ hlt] at hr
          have hr' := Option.some.inj hr
          have := hgrid i hi hlt
          have h3 : (1 - r) * (-7) + r * 7 ≤ u := by rw [e]; exact le_max_left _ _
          have hr2 : (i : ℝ) / ((n : ℝ) - 1) = r := hr'
          rw [hr2] at this
          linarith
      · obtain ⟨t, ht, e⟩ := List.mem_map.1 hh
        exact ⟨t, ht, by rw [← e, hadj t (hθ t ht)]⟩
    · rintro ⟨t, ht, e⟩
      exact Or.inr (List.mem_map.2 ⟨t, ht, by rw [hadj t (hθ t ht), e]⟩)
  have hscore : ∀ (θ : Thetas 1), (∀ t ∈ θ, start ≤ t 0) → ∀ l : List ℝ, l.Pairwise (· < ·) →
      (∀ u, u ∈ l ↔ (start < u ∧ u ≤ x) ∧ ∃ t ∈ θ, t 0 = u) →
      gridScore H start (b.gridFor (fun _ => -7) (fun _ => 7) θ 0) x = varFrom (sumDist H) start l := by
    intro θ hθ l hl hlm
    unfold gridScore
    congr 1
    apply sorted_eq_of_mem ((gridPts_sorted _).sublist List.filter_sublist) hl
    intro u
    rw [List.mem_filter, mem_gridPts, hlm]
    simp only [decide_eq_true_eq]
    constructor
    · rintro ⟨a, c⟩
      exact ⟨c, (hmemg θ hθ u c.1 c.2).1 a⟩
    · rintro ⟨c, a⟩
      exact ⟨(hmemg θ hθ u c.1 c.2).2 a, c⟩
  have hsx : start ≤ x := by linarith
  have hsd : start ≤ δ := by linarith
  have hT1 := b.transform_eq hu _ _ _ hset [fun _ => x] (by simp)
  have hT2 := b.transform_eq hu _ _ _ hset [fun _ => x, fun _ => δ] (by simp)
  have := hall _ _ _ _ _ hT1 hT2
  simp only [hadj (fun _ => x) hsx, hstart] at this
  change gridScore H start _ x = gridScore H start _ x at this
  rw [hscore [fun _ => x] (by simpa using hsx) [x] (by simp) (by
      intro u
      simp only [List.mem_singleton, exists_eq_left]
      constructor
      · rintro rfl; exact ⟨⟨by linarith, le_rfl⟩, rfl⟩
      · rintro ⟨-, e⟩; exact e.symm),
    hscore [fun _ => x, fun _ => δ] (by simpa using ⟨hsx, hsd⟩) [δ, x] (by simp; linarith) (by
      intro u
      simp only [List.mem_cons, List.not_mem_nil, or_false, exists_eq_or_imp, exists_eq_left]
      constructor
      · rintro (rfl | rfl)
        · exact ⟨⟨by linarith, by linarith⟩, Or.inr rfl⟩
        · exact ⟨⟨by linarith, le_rfl⟩, Or.inl rfl⟩
      · rintro ⟨-, e | e⟩
        · exact Or.inr e.symm
        · exact Or.inl e.symm)] at this
  simp only [varFrom, sumDist, hH, List.map_cons, List.map_nil, List.sum_cons, List.sum_nil, add_zero] at this
  have s1 : start - δ = -(h / 4) := by linarith
  have s2 : x - δ = h / 4 := by linarith
  have hneg : sigmoid (-(h / 4)) = 1 - sigmoid (h / 4) := by
    unfold sigmoid
    rw [neg_neg, Real.exp_neg]
    have := Real.exp_pos (h / 4)
    field_simp
    ring
  have h0 : sigmoid 0 = 1 / 2 := by unfold sigmoid; norm_num
  have hsym : smoothEntropy [1 - sigmoid (-(h / 4)), sigmoid (-(h / 4))]
      = smoothEntropy [1 - sigmoid (h / 4), sigmoid (h / 4)] := by
    rw [hneg]
    simp only [smoothEntropy, List.map_cons, List.map_nil, List.sum_cons, List.sum_nil, sub_sub_cancel]
    ring
  have hq : sigmoid (h / 4) ≠ 1 / 2 := by
    rw [← h0]
    exact (hsm (by positivity)).ne'
  have hlt := smoothEntropy_lt_half (sigmoid (h / 4))
    (by unfold sigmoid; positivity)
    (by
      unfold sigmoid
      rw [div_lt_one (by positivity)]
      linarith [Real.exp_pos (-(h / 4))]) hq
  rw [s1, s2, sub_self, h0, hsym, sub_self, abs_zero] at this
  rw [show (1 : ℝ) - 1 / 2 = 1 / 2 by norm_num] at this
  have h3 : 0 < |smoothEntropy [1 / 2, 1 / 2] - smoothEntropy [1 - sigmoid (h / 4), sigmoid (h / 4)]| :=
    abs_pos.2 (by linarith)
  have h4 := abs_nonneg (smoothEntropy [1 - sigmoid (h / 4), sigmoid (h / 4)] - smoothEntropy [1 / 2, 1 / 2])
  linarith

/-- The Rasch example with 4000 grid points shows that a usable scale exists. -/
example : ∃ b : Bit 1, b.Usable ∧ b.gridPoints = 4000 ∧ b.items = [0] := by
  refine ⟨⟨raschProbs 0, fun t => sigmoid (t 0), [0], 4000, some [fun _ => 1, fun _ => -1], fun _ => -1⟩,
    ⟨?_, ?_, by norm_num, ?_⟩, rfl, rfl⟩
  · intro t p hp
    simp only [raschProbs, List.mem_singleton] at hp
    subst hp
    simp
  · intro t i hi
    simpa [raschProbs] using hi
  · intro p hp
    cases hp
    simp

/-- C28, constructor: accepted exactly with a positive number of grid points and, if a starting point is given,
one coordinate per latent variable; everything else is refused with `ValueError`. -/
theorem C28_created {d : ℕ} (probs : (Fin d → ℝ) → List (List ℝ)) (scoreSum : (Fin d → ℝ) → ℝ) (nItems : ℕ)
    (population : Option (Thetas d)) (startTheta : Option (List ℝ)) (items : Option (List ℕ)) (gridPoints : ℤ) :
    ((0 < gridPoints ∧ ∀ s, startTheta = some s → s.length = d) →
      ∃ b, Bit.create probs scoreSum nItems population startTheta items gridPoints = .ok b) ∧
    (¬(0 < gridPoints ∧ ∀ s, startTheta = some s → s.length = d) →
      Bit.create probs scoreSum nItems population startTheta items gridPoints = .error .valueError) := by
  unfold Bit.create
  by_cases hg : gridPoints ≤ 0
  · rw [if_pos hg]
    exact ⟨fun h => absurd h.1 (not_lt.2 hg), fun _ => rfl⟩
  · rw [if_neg hg]
    cases startTheta with
    | none => exact ⟨fun _ => ⟨_, rfl⟩, fun h => absurd ⟨not_le.1 hg, by simp⟩ h⟩
    | some s =>
      by_cases hs : s.length ≠ d
      · simp only [if_pos hs]
        exact ⟨fun h => absurd (h.2 s rfl) hs, fun _ => trivial⟩
      · simp only [if_neg hs]
        refine ⟨fun _ => ⟨_, rfl⟩, fun h => absurd ⟨not_le.1 hg, ?_⟩ h⟩
        intro t ht
        cases ht
        simpa using hs

end Irt
