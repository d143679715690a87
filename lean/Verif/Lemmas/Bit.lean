import Verif.Model.Bit
import Verif.Lemmas.Outlier
import Verif.Lemmas.Torch
import Verif.Lemmas.Splits
import Verif.Lemmas.Composite

namespace Irt

/-! ## Variation along a path -/

/-- Length of the path `a, l₀, l₁, …` measured with `D`. -/
def varFrom (D : ℝ → ℝ → ℝ) : ℝ → List ℝ → ℝ
  | _, [] => 0
  | a, b :: l => D a b + varFrom D b l

/-- `D` is a pseudometric. -/
structure PseudoDist (D : ℝ → ℝ → ℝ) : Prop where
  nonneg : ∀ a b, 0 ≤ D a b
  tri : ∀ a b c, D a c ≤ D a b + D b c

theorem varFrom_nonneg {D : ℝ → ℝ → ℝ} (hD : PseudoDist D) (a : ℝ) (l : List ℝ) : 0 ≤ varFrom D a l := by
  induction l generalizing a with
  | nil => exact le_rfl
  | cons b l ih => exact add_nonneg (hD.nonneg _ _) (ih b)

theorem varFrom_tri {D : ℝ → ℝ → ℝ} (hD : PseudoDist D) (a c : ℝ) (l : List ℝ) :
    varFrom D a l ≤ D a c + varFrom D c l := by
  cases l with
  | nil => simpa [varFrom] using hD.nonneg a c
  | cons b l =>
    have := hD.tri a c b
    simp only [varFrom]
    linarith

theorem varFrom_sublist {D : ℝ → ℝ → ℝ} (hD : PseudoDist D) {l₁ l₂ : List ℝ} (h : l₁.Sublist l₂) (a : ℝ) :
    varFrom D a l₁ ≤ varFrom D a l₂ := by
  induction h generalizing a with
  | slnil => exact le_rfl
  | cons c h ih =>
    have h1 := ih c
    have h2 := varFrom_tri hD a c ‹List ℝ›
    simp only [varFrom]
    exact (varFrom_tri hD a c _).trans (by linarith)
  | cons_cons c h ih =>
    have := ih c
    simp only [varFrom]
    linarith

/-- Sum of absolute differences of finitely many functions. -/
noncomputable def sumDist (H : List (ℝ → ℝ)) (x y : ℝ) : ℝ := (H.map fun h => |h x - h y|).sum

theorem sumDist_pseudo (H : List (ℝ → ℝ)) : PseudoDist (sumDist H) := by
  constructor
  · intro a b
    apply List.sum_nonneg
    intro x hx
    obtain ⟨h, -, rfl⟩ := List.mem_map.1 hx
    exact abs_nonneg _
  · intro a b c
    unfold sumDist
    induction H with
    | nil => simp
    | cons h H ih =>
      simp only [List.map_cons, List.sum_cons]
      have := abs_sub_le (h a) (h b) (h c)
      linarith

/-! ## Cumulative sums of the point differences -/

theorem zipWith_map_abs (H : List (ℝ → ℝ)) (x y : ℝ) :
    (List.zipWith (fun u v => |u - v|) (H.map fun h => h x) (H.map fun h => h y)).sum = sumDist H x y := by
  unfold sumDist
  rw [List.zipWith_map_left, List.zipWith_map_right, List.zipWith_self]

theorem pointDiffs_map (H : List (ℝ → ℝ)) (U : List ℝ) :
    pointDiffs (U.map fun x => H.map fun h => h x)
      = 0 :: List.zipWith (sumDist H) U.dropLast U.tail := by
  unfold pointDiffs
  rw [← List.map_dropLast, ← List.map_tail, List.zipWith_map_left, List.zipWith_map_right]
  simp only [zipWith_map_abs]

theorem steps_take_sum (D : ℝ → ℝ → ℝ) (a : ℝ) (rest : List ℝ) (k : ℕ) :
    ((List.zipWith D (a :: rest).dropLast rest).take k).sum = varFrom D a (rest.take k) := by
  induction rest generalizing a k with
  | nil => simp [varFrom]
  | cons b r ih =>
    cases k with
    | zero => simp [varFrom]
    | succ k =>
      rw [List.dropLast_cons_cons, List.zipWith_cons_cons, List.take_succ_cons, List.sum_cons,
        List.take_succ_cons, varFrom, ih b k]

theorem cumsum_pointDiffs (H : List (ℝ → ℝ)) (a : ℝ) (rest : List ℝ) (k : ℕ) (hk : k ≤ rest.length) :
    (cumsum (pointDiffs ((a :: rest).map fun x => H.map fun h => h x))).getD k 0
      = varFrom (sumDist H) a (rest.take k) := by
  rw [pointDiffs_map, List.tail_cons, List.getD_eq_getElem?_getD, cumsum_getElem?]
  · rw [Option.getD_some, List.take_succ_cons, List.sum_cons, zero_add, steps_take_sum]
  · simp
    omega

theorem take_eq_filter {a x : ℝ} {rest : List ℝ} (hs : (a :: rest).Pairwise (· < ·)) (k : ℕ)
    (hk : (a :: rest)[k]? = some x) :
    rest.take k = (a :: rest).filter fun u => decide (a < u ∧ u ≤ x) := by
  obtain ⟨ha, hr⟩ := List.pairwise_cons.1 hs
  rw [List.filter_cons_of_neg (by simp)]
  have h1 : ∀ (l : List ℝ) (k : ℕ), l.Pairwise (· < ·) → (∀ u ∈ l, a < u) → (∀ u ∈ l.take k, u ≤ x) →
      (∀ u ∈ l.drop k, x < u) → l.take k = l.filter fun u => decide (a < u ∧ u ≤ x) := by
    intro l
    induction l with
    | nil => intro k _ _ _ _; simp
    | cons b l ih =>
      intro k hp hgt h1 h2
      cases k with
      | zero =>
        rw [List.take_zero, eq_comm, List.filter_eq_nil_iff]
        intro u hu
        have := h2 u (by simpa using hu)
        simp only [decide_eq_true_eq, not_and, not_le]
        intro _; exact this
      | succ k =>
        rw [List.take_succ_cons, List.filter_cons_of_pos, ih k (List.pairwise_cons.1 hp).2
          (fun u hu => hgt u (List.mem_cons_of_mem _ hu))
          (fun u hu => h1 u (by rw [List.take_succ_cons]; exact List.mem_cons_of_mem _ hu))
          (fun u hu => h2 u (by rw [List.drop_succ_cons]; exact hu))]
        have := hgt b (by simp)
        have := h1 b (by rw [List.take_succ_cons]; simp)
        simp_all
  refine h1 rest k hr ha ?_ ?_
  · intro u hu
    cases k with
    | zero => simp at hu
    | succ k =>
      rw [List.getElem?_cons_succ] at hk
      obtain ⟨j, hj⟩ := List.mem_iff_getElem?.1 hu
      rw [List.getElem?_take] at hj
      split_ifs at hj with hjk
      obtain ⟨j1, j2⟩ := List.getElem?_eq_some_iff.1 hj
      obtain ⟨k1, k2⟩ := List.getElem?_eq_some_iff.1 hk
      rcases (Nat.lt_succ_iff.1 hjk).eq_or_lt with h | h
      · subst h; rw [← j2, ← k2]
      · rw [← j2, ← k2]; exact (List.pairwise_iff_getElem.1 hr j k j1 k1 h).le
  · intro u hu
    obtain ⟨j, hj⟩ := List.mem_iff_getElem?.1 hu
    rw [List.getElem?_drop] at hj
    have hj' : (a :: rest)[k + j + 1]? = some u := by rw [List.getElem?_cons_succ]; exact hj
    obtain ⟨j1, j2⟩ := List.getElem?_eq_some_iff.1 hj'
    obtain ⟨k1, k2⟩ := List.getElem?_eq_some_iff.1 hk
    rw [← j2, ← k2]
    exact List.pairwise_iff_getElem.1 hs k (k + j + 1) k1 j1 (by omega)

/-! ## Sorting and unsorting -/

theorem argsort_perm (xs : List ℝ) : (argsort xs).Perm (List.range xs.length) := List.perm_insertionSort _ _

theorem argsortNat_perm (xs : List ℕ) : (argsortNat xs).Perm (List.range xs.length) := List.perm_insertionSort _ _

theorem argsortNat_inverse (σ : List ℕ) (N : ℕ) (hσ : σ.Perm (List.range N)) :
    (argsortNat σ).map (fun p => σ.getD p 0) = List.range N := by
  have hlen : σ.length = N := by rw [hσ.length_eq, List.length_range]
  have hperm : ((argsortNat σ).map fun p => σ.getD p 0).Perm (List.range N) := by
    refine ((argsortNat_perm σ).map _).trans ?_
    have : (List.range σ.length).map (fun p => σ.getD p 0) = σ := by
      apply List.ext_getElem
      · simp
      · intro i h1 h2
        simp [List.getElem?_eq_getElem h2]
    rw [this]
    exact hσ
  have hsorted : ((argsortNat σ).map fun p => σ.getD p 0).Pairwise (· ≤ ·) := by
    rw [List.pairwise_map]
    have : Std.Total (fun i j : ℕ => σ.getD i 0 ≤ σ.getD j 0) := ⟨fun i j => le_total _ _⟩
    have : IsTrans ℕ (fun i j : ℕ => σ.getD i 0 ≤ σ.getD j 0) := ⟨fun i j k h1 h2 => le_trans h1 h2⟩
    exact List.pairwise_insertionSort (fun i j : ℕ => σ.getD i 0 ≤ σ.getD j 0) _
  have hr : (List.range N).Pairwise (· ≤ ·) := by
    refine List.Pairwise.imp (fun h => Nat.le_of_lt h) List.pairwise_lt_range
  exact List.Perm.eq_of_pairwise (fun a b _ _ h1 h2 => Nat.le_antisymm h1 h2) hsorted hr hperm

/-- Looking values up in sorted order and undoing the sort is the same as looking them up directly. -/
theorem unsort_eq (g : List ℝ) (B : ℝ → ℝ) :
    (argsortNat (argsort g)).map (fun i => (((argsort g).map fun i => g.getD i 0).map B).getD i 0) = g.map B := by
  have hσ := argsort_perm g
  set σ := argsort g with hs
  have hlen : σ.length = g.length := by rw [hσ.length_eq, List.length_range]
  have h1 : (argsortNat σ).map (fun i => ((σ.map fun i => g.getD i 0).map B).getD i 0)
      = ((argsortNat σ).map fun p => σ.getD p 0).map fun i => B (g.getD i 0) := by
    rw [List.map_map (l := argsortNat σ)]
    apply List.map_congr_left
    intro p hp
    have hp' : p < σ.length := List.mem_range.1 ((argsortNat_perm σ).mem_iff.1 hp)
    rw [List.getD_eq_getElem?_getD, List.getElem?_map, List.getElem?_map, List.getElem?_eq_getElem hp']
    simp [List.getElem?_eq_getElem hp']
  rw [h1, argsortNat_inverse σ g.length hσ]
  apply List.ext_getElem
  · simp
  · intro i h1 h2
    have : i < g.length := by simpa using h2
    simp [List.getElem?_eq_getElem this]

theorem sorted_mem (g : List ℝ) (x : ℝ) : x ∈ ((argsort g).map fun i => g.getD i 0) ↔ x ∈ g := by
  have hperm : ((argsort g).map fun i => g.getD i 0).Perm g := by
    refine ((argsort_perm g).map _).trans ?_
    have : (List.range g.length).map (fun p => g.getD p 0) = g := by
      apply List.ext_getElem
      · simp
      · intro i h1 h2
        simp [List.getElem?_eq_getElem h2]
    rw [this]
  exact hperm.mem_iff

/-- The different grid points in increasing order. -/
noncomputable def gridPts (g : List ℝ) : List ℝ := (uniqueInverse ((argsort g).map fun i => g.getD i 0)).1

theorem gridPts_sorted (g : List ℝ) : (gridPts g).Pairwise (· < ·) := (unique_props _).1
theorem mem_gridPts (g : List ℝ) (x : ℝ) : x ∈ gridPts g ↔ x ∈ g := ((unique_props _).2 x).trans (sorted_mem g x)

/-- Bit score of the value `x` on a grid with the given points. -/
noncomputable def gridScore (H : List (ℝ → ℝ)) (start : ℝ) (g : List ℝ) (x : ℝ) : ℝ :=
  varFrom (sumDist H) start ((gridPts g).filter fun u => decide (start < u ∧ u ≤ x))

theorem gridColumn_props {d : ℕ} (b : Bit d) (hg : 0 < b.gridPoints) (start gs ge : ℝ) (column : List ℝ)
    (hc : ∀ x ∈ column, start ≤ x) :
    ∃ pre : List ℝ, b.gridColumn start gs ge column = pre ++ column ∧ start ∈ pre ∧ (∀ x ∈ pre, start ≤ x) ∧
      ∀ x, x ∈ pre ↔ x = start ∨ ∃ i, 1 ≤ i ∧ ∃ r, (linspace01 b.gridPoints)[i]? = some r ∧
        x = max ((1 - r) * gs + r * ge) start := by
  have hl : (linspace01 b.gridPoints).length = b.gridPoints := by
    unfold linspace01
    split_ifs with h
    · rw [h]; rfl
    · simp
  set L := linspace01 b.gridPoints with hL
  obtain ⟨r0, L', hL'⟩ : ∃ r0 L', L = r0 :: L' := by
    cases h : L with
    | nil => rw [h] at hl; simp at hl; omega
    | cons a l => exact ⟨a, l, rfl⟩
  refine ⟨start :: L'.map fun r => max ((1 - r) * gs + r * ge) start, ?_, by simp, ?_, ?_⟩
  · unfold Bit.gridColumn
    rw [← hL, hL']
    simp only [List.map_cons, List.cons_append, List.map_append, List.set_cons_zero, List.map_map]
    congr 2
    conv_rhs => rw [← List.map_id column]
    apply List.map_congr_left
    intro x hx
    exact max_eq_left (hc x hx)
  · intro x hx
    rcases List.mem_cons.1 hx with rfl | hx
    · exact le_rfl
    · obtain ⟨r, -, rfl⟩ := List.mem_map.1 hx
      exact le_max_right _ _
  · intro x
    rw [List.mem_cons, List.mem_map, hL']
    constructor
    · rintro (h | ⟨r, hr, rfl⟩)
      · exact Or.inl h
      · obtain ⟨i, hi⟩ := List.mem_iff_getElem?.1 hr
        exact Or.inr ⟨i + 1, by omega, r, by rw [List.getElem?_cons_succ]; exact hi, rfl⟩
    · rintro (h | ⟨i, hi, r, hr, rfl⟩)
      · exact Or.inl h
      · obtain ⟨j, rfl⟩ : ∃ j, i = j + 1 := ⟨i - 1, by omega⟩
        rw [List.getElem?_cons_succ] at hr
        exact Or.inr ⟨r, List.mem_of_getElem? hr, rfl⟩

/-- Value of the bit scores of one latent variable. -/
theorem columnScores_eq {d : ℕ} (b : Bit d) (hg : 0 < b.gridPoints) (medians : Fin d → ℝ) (v : Fin d)
    (start gs ge : ℝ) (column : List ℝ) (hne : column ≠ []) (hc : ∀ x ∈ column, start ≤ x)
    (H : List (ℝ → ℝ))
    (hH : ∀ x, b.itemEntropies (fun k => (if k = v then x else medians k) * b.multiplier k)
      = .ok (H.map fun h => h x)) :
    b.columnScores medians v start gs ge column
      = .ok (column.map (gridScore H start (b.gridColumn start gs ge column))) := by
  obtain ⟨pre, hpre, hstart, hge, -⟩ := gridColumn_props b hg start gs ge column hc
  set g := b.gridColumn start gs ge column with hgdef
  have hmin : ∀ x ∈ g, start ≤ x := by
    intro x hx
    rw [hpre, List.mem_append] at hx
    exact hx.elim (hge x) (hc x)
  have hsg : start ∈ g := by rw [hpre]; exact List.mem_append_left _ hstart
  obtain ⟨rest, hU⟩ : ∃ rest, gridPts g = start :: rest := by
    have hm := (mem_gridPts g start).2 hsg
    have hso := gridPts_sorted g
    cases h : gridPts g with
    | nil => rw [h] at hm; simp at hm
    | cons a rest =>
      refine ⟨rest, ?_⟩
      rw [h] at hm hso
      rcases List.mem_cons.1 hm with e | e
      · rw [e]
      · have h1 := (List.pairwise_cons.1 hso).1 start e
        have h2 := hmin a ((mem_gridPts g a).1 (by rw [h]; simp))
        linarith
  obtain ⟨bits, hbits⟩ : ∃ bits, bits = cumsum (pointDiffs ((gridPts g).map fun x => H.map fun h => h x)) := ⟨_, rfl⟩
  have hB : ∀ x ∈ g, bits.getD ((gridPts g).findIdx (· = x)) 0 = gridScore H start g x := by
    intro x hx
    have hxm := (mem_gridPts g x).2 hx
    have hlt : (gridPts g).findIdx (· = x) < (gridPts g).length :=
      List.findIdx_lt_length_of_exists ⟨x, hxm, by simp⟩
    have hval : (gridPts g)[(gridPts g).findIdx (· = x)]? = some x := by
      rw [List.getElem?_eq_getElem hlt]
      have := List.findIdx_getElem (w := hlt)
      simpa using this
    unfold gridScore
    have hso := gridPts_sorted g
    rw [hbits]
    rw [hU] at hval hlt hso ⊢
    rw [cumsum_pointDiffs _ _ _ _ (by simpa [Nat.lt_succ_iff] using hlt), ← take_eq_filter hso _ hval]
  unfold Bit.columnScores
  rw [← hgdef]
  have hmap : ((uniqueInverse ((argsort g).map fun i => g.getD i 0)).1).mapM (fun x =>
      b.itemEntropies fun k => (if k = v then x else medians k) * b.multiplier k)
      = .ok ((gridPts g).map fun x => H.map fun h => h x) := mapM_ok _ _ _ fun x _ => hH x
  simp only [hmap, bind_ok]
  rw [← hbits]
  have hdup : ((uniqueInverse ((argsort g).map fun i => g.getD i 0)).2.map fun i => bits.getD i 0)
      = ((argsort g).map fun i => g.getD i 0).map fun x => bits.getD ((gridPts g).findIdx (· = x)) 0 := by
    have : (uniqueInverse ((argsort g).map fun i => g.getD i 0)).2
        = ((argsort g).map fun i => g.getD i 0).map fun x => (gridPts g).findIdx (· = x) := rfl
    rw [this, List.map_map]
    apply List.map_congr_left
    intro x _
    exact rfl
  have hun := unsort_eq g fun x => bits.getD ((gridPts g).findIdx (· = x)) 0
  rw [← hdup] at hun
  have hout : lastSlice column.length ((argsortNat (argsort g)).map fun i =>
      ((uniqueInverse ((argsort g).map fun i => g.getD i 0)).2.map fun i => bits.getD i 0).getD i 0)
      = column.map (gridScore H start g) := by
    rw [hun]
    unfold lastSlice
    rw [if_neg (by simpa using hne)]
    have : g.map (fun x => bits.getD ((gridPts g).findIdx (· = x)) 0) = g.map (gridScore H start g) :=
      List.map_congr_left hB
    rw [this, List.length_map]
    generalize gridScore H start g = B
    rw [hpre, List.map_append, List.length_append, Nat.add_sub_cancel, List.drop_append_of_le_length (by simp)]
    simp
  rw [if_pos (by rw [hout, List.length_map])]
  rw [hout]

end Irt
