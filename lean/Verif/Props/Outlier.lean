import Verif.Lemmas.Outlier

/-! # C52: `OutlierDetector` -/

namespace Irt

variable {d : ℕ}

/-- A detector is refused exactly when its factor is below 1. -/
theorem C52_factor (factor : ℝ) : outlierCreate factor = .error .valueError ↔ factor < 1 := by
  unfold outlierCreate
  split_ifs with h <;> simp [h]

/-- In every column of every nonempty data matrix some entry is no outlier; the reported smallest and
largest values are entries of the column that are no outliers, and every other entry that is no outlier lies
between them. -/
theorem C52_extremes (factor f : ℝ) (hf : outlierCreate factor = .ok f) (data : Thetas d) (hne : data ≠ []) :
    ∃ lo hi : Fin d → ℝ,
      smallestLargestNonOutlier f data true = .ok (fun k => some (lo k)) ∧
      smallestLargestNonOutlier f data false = .ok (fun k => some (hi k)) ∧
      ∃ out : (Fin d → ℝ) → Fin d → Bool, identifyOutliers f data true true = .ok (data.map out) ∧
        ∀ k, lo k ≤ hi k ∧
          (∃ t ∈ data, t k = lo k ∧ out t k = false) ∧ (∃ t ∈ data, t k = hi k ∧ out t k = false) ∧
          ∀ t ∈ data, out t k = false → lo k ≤ t k ∧ t k ≤ hi k := by
  have hf1 : 1 ≤ f := by
    unfold outlierCreate at hf
    split_ifs at hf with h
    cases Except.ok.inj hf
    exact not_lt.1 h
  have hb := columnBounds_ok f data hne
  set B := fun k : Fin d => (quantileVal (data.map fun t => t k) 0.25
      - f * (quantileVal (data.map fun t => t k) 0.75 - quantileVal (data.map fun t => t k) 0.25),
      quantileVal (data.map fun t => t k) 0.75 + f * (quantileVal (data.map fun t => t k) 0.75
        - quantileVal (data.map fun t => t k) 0.25)) with hB
  have hex : ∀ k, ∃ x ∈ (data.map fun t => t k), (B k).1 ≤ x ∧ x ≤ (B k).2 := fun k =>
    exists_non_outlier f hf1 _ (by simpa using hne)
  choose lo l1 l2 l3 l4 l5 using fun k => maskedExtreme_min (B k) _ (hex k)
  choose hi h1 h2 h3 h4 h5 using fun k => maskedExtreme_max (B k) _ (hex k)
  have hstat : ∀ (t : Fin d → ℝ) k, outlierStatus true true (B k) (t k) = false ↔ (B k).1 ≤ t k ∧ t k ≤ (B k).2 := by
    intro t k
    simp [outlierStatus]
  refine ⟨lo, hi, ?_, ?_, fun t k => outlierStatus true true (B k) (t k), ?_, ?_⟩
  · unfold smallestLargestNonOutlier
    rw [hb, bind_ok]
    simp only [pure, Except.pure]
    congr 1
    funext k
    exact l1 k
  · unfold smallestLargestNonOutlier
    rw [hb, bind_ok]
    simp only [pure, Except.pure]
    congr 1
    funext k
    exact h1 k
  · unfold identifyOutliers
    rw [hb]
    rfl
  · intro k
    refine ⟨?_, ?_, ?_, ?_⟩
    · exact l5 k (hi k) (h2 k) (h3 k) (h4 k)
    · obtain ⟨t, ht, e⟩ := List.mem_map.1 (l2 k)
      exact ⟨t, ht, e, (hstat t k).2 (by rw [e]; exact ⟨l3 k, l4 k⟩)⟩
    · obtain ⟨t, ht, e⟩ := List.mem_map.1 (h2 k)
      exact ⟨t, ht, e, (hstat t k).2 (by rw [e]; exact ⟨h3 k, h4 k⟩)⟩
    · intro t ht hout
      obtain ⟨a, b⟩ := (hstat t k).1 hout
      exact ⟨l5 k _ (List.mem_map_of_mem ht) a b, h5 k _ (List.mem_map_of_mem ht) a b⟩

/-- Testing the data against itself gives the same answer as `identify_outliers`, and the status of a new
observation depends only on that observation and the data. -/
theorem C52_is_outlier (f : ℝ) (data new : Thetas d) (upper lower : Bool) :
    isOutlier f data data upper lower = identifyOutliers f data upper lower ∧
    ∀ out, isOutlier f new data upper lower = .ok out →
      ∃ S : (Fin d → ℝ) → Fin d → Bool, out = new.map S ∧ ∀ new', isOutlier f new' data upper lower = .ok (new'.map S) := by
  refine ⟨rfl, ?_⟩
  intro out h
  unfold isOutlier at h
  by_cases hul : (!upper && !lower) = true
  · rw [if_pos hul] at h; cases h
  · rw [if_neg hul] at h
    cases hb : columnBounds f data with
    | error e => rw [hb] at h; cases h
    | ok b =>
      rw [hb] at h
      refine ⟨_, (Except.ok.inj h).symm, fun new' => ?_⟩
      unfold isOutlier
      rw [if_neg hul, hb]
      rfl

/-- An entry marked an outlier lies strictly outside the bounds quartile ∓ factor · interquartile range; asking
for one side only marks that side. -/
theorem C52_one_side (f : ℝ) (data : Thetas d) (upper lower : Bool) (out : List (Fin d → Bool))
    (h : identifyOutliers f data upper lower = .ok out) (b : Fin d → ℝ × ℝ) (hb : columnBounds f data = .ok b) :
    out = data.map fun t k => decide ((lower = true ∧ t k < (b k).1) ∨ (upper = true ∧ (b k).2 < t k)) := by
  unfold identifyOutliers at h
  split_ifs at h
  rw [hb] at h
  rw [← Except.ok.inj h]
  apply List.map_congr_left
  intro t _
  funext k
  simp [outlierStatus, Bool.decide_or]

/-- A sample with a clear outlier: 0, 1, 2, 3, 100 has quartiles 1 and 3, so factor 1.5 marks exactly 100. -/
example : outlierBounds 1.5 [100, 0, 1, 2, 3] = .ok (-2, 6) := by
  rw [outlierBounds_ok _ _ (by simp)]
  have hs : sortValues [100, 0, 1, 2, 3] = [0, 1, 2, 3, 100] := by
    unfold sortValues
    norm_num [List.insertionSort, List.orderedInsert]
  have h1 : ⌊(0.25 : ℝ) * (5 - 1)⌋₊ = 1 := by rw [Nat.floor_eq_iff] <;> norm_num
  have h2 : ⌈(0.25 : ℝ) * (5 - 1)⌉₊ = 1 := by rw [Nat.ceil_eq_iff] <;> norm_num
  have h3 : ⌊(0.75 : ℝ) * (5 - 1)⌋₊ = 3 := by rw [Nat.floor_eq_iff] <;> norm_num
  have h4 : ⌈(0.75 : ℝ) * (5 - 1)⌉₊ = 3 := by rw [Nat.ceil_eq_iff] <;> norm_num
  simp only [quantileVal, hs, List.length_cons, List.length_nil]
  norm_num at h1 h2 h3 h4 ⊢

end Irt
