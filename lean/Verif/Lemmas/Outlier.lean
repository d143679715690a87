import Verif.Model.Outlier
import Verif.Lemmas.Data
import Verif.Lemmas.RankCDF

namespace Irt

theorem sorted_getD_mono {s : List ℝ} (hs : s.Pairwise (· ≤ ·)) {i j : ℕ} (hij : i ≤ j) (hj : j < s.length) :
    s.getD i 0 ≤ s.getD j 0 := by
  rw [List.getD_eq_getElem _ _ hj, List.getD_eq_getElem _ _ (lt_of_le_of_lt hij hj)]
  rcases hij.eq_or_lt with h | h
  · subst h; exact le_rfl
  · exact List.pairwise_iff_getElem.1 hs i j _ hj h

theorem sortValues_pairwise (xs : List ℝ) : (sortValues xs).Pairwise (· ≤ ·) := List.pairwise_insertionSort _ _
theorem sortValues_perm (xs : List ℝ) : (sortValues xs).Perm xs := List.perm_insertionSort _ _

/-- Value of a quantile on a nonempty sample. -/
noncomputable def quantileVal (xs : List ℝ) (q : ℝ) : ℝ :=
  (sortValues xs).getD ⌊q * ((xs.length : ℝ) - 1)⌋₊ 0
    + (q * ((xs.length : ℝ) - 1) - ⌊q * ((xs.length : ℝ) - 1)⌋₊)
      * ((sortValues xs).getD ⌈q * ((xs.length : ℝ) - 1)⌉₊ 0 - (sortValues xs).getD ⌊q * ((xs.length : ℝ) - 1)⌋₊ 0)

theorem quantile_ok (xs : List ℝ) (hne : xs ≠ []) (q : ℝ) : quantile xs q = .ok (quantileVal xs q) := by
  unfold quantile
  rw [if_neg (by simpa using hne)]
  rfl

/-- A quantile lies between the two neighbouring order statistics. -/
theorem quantileVal_between (xs : List ℝ) (hne : xs ≠ []) (q : ℝ) (h0 : 0 ≤ q) (h1 : q ≤ 1) :
    (sortValues xs).getD ⌊q * ((xs.length : ℝ) - 1)⌋₊ 0 ≤ quantileVal xs q ∧
    quantileVal xs q ≤ (sortValues xs).getD ⌈q * ((xs.length : ℝ) - 1)⌉₊ 0 ∧
    ⌈q * ((xs.length : ℝ) - 1)⌉₊ < xs.length := by
  have hl : 1 ≤ xs.length := List.length_pos_of_ne_nil hne
  have hl' : (1 : ℝ) ≤ xs.length := by exact_mod_cast hl
  set p := q * ((xs.length : ℝ) - 1) with hp
  have hp0 : 0 ≤ p := mul_nonneg h0 (by linarith)
  have hp1 : p ≤ (xs.length : ℝ) - 1 := by
    calc p ≤ 1 * ((xs.length : ℝ) - 1) := mul_le_mul_of_nonneg_right h1 (by linarith)
      _ = _ := one_mul _
  have hceil : ⌈p⌉₊ < xs.length := by
    have : ⌈p⌉₊ ≤ xs.length - 1 := Nat.ceil_le.2 (by rw [Nat.cast_sub hl]; simpa using hp1)
    omega
  have hm : (sortValues xs).getD ⌊p⌋₊ 0 ≤ (sortValues xs).getD ⌈p⌉₊ 0 :=
    sorted_getD_mono (sortValues_pairwise xs) (Nat.floor_le_ceil p)
      (by rw [(sortValues_perm xs).length_eq]; exact hceil)
  have f1 : (⌊p⌋₊ : ℝ) ≤ p := Nat.floor_le hp0
  have f2 : p < ⌊p⌋₊ + 1 := Nat.lt_floor_add_one p
  refine ⟨?_, ?_, hceil⟩
  · unfold quantileVal
    rw [← hp]
    nlinarith
  · unfold quantileVal
    rw [← hp]
    nlinarith

/-- For `factor ≥ 1` some entry of a nonempty column lies within the bounds. -/
theorem exists_non_outlier (factor : ℝ) (hf : 1 ≤ factor) (xs : List ℝ) (hne : xs ≠ []) :
    ∃ x ∈ xs, quantileVal xs 0.25 - factor * (quantileVal xs 0.75 - quantileVal xs 0.25) ≤ x ∧
      x ≤ quantileVal xs 0.75 + factor * (quantileVal xs 0.75 - quantileVal xs 0.25) := by
  obtain ⟨a1, a2, a3⟩ := quantileVal_between xs hne 0.25 (by norm_num) (by norm_num)
  obtain ⟨b1, b2, b3⟩ := quantileVal_between xs hne 0.75 (by norm_num) (by norm_num)
  have hl : 1 ≤ xs.length := List.length_pos_of_ne_nil hne
  have hslen : (sortValues xs).length = xs.length := (sortValues_perm xs).length_eq
  have hmem : ∀ i, i < xs.length → (sortValues xs).getD i 0 ∈ xs := by
    intro i hi
    rw [← (sortValues_perm xs).mem_iff, List.getD_eq_getElem _ _ (by rw [hslen]; exact hi)]
    exact List.getElem_mem _
  by_cases h2 : xs.length = 2
  · -- two observations
    have e1 : ⌊(0.25 : ℝ) * ((xs.length : ℝ) - 1)⌋₊ = 0 := by
      rw [h2, Nat.floor_eq_zero]; norm_num
    have e2 : ⌈(0.25 : ℝ) * ((xs.length : ℝ) - 1)⌉₊ = 1 := by
      rw [h2, Nat.ceil_eq_iff (by norm_num)]; norm_num
    have e3 : ⌊(0.75 : ℝ) * ((xs.length : ℝ) - 1)⌋₊ = 0 := by
      rw [h2, Nat.floor_eq_zero]; norm_num
    have e4 : ⌈(0.75 : ℝ) * ((xs.length : ℝ) - 1)⌉₊ = 1 := by
      rw [h2, Nat.ceil_eq_iff (by norm_num)]; norm_num
    have hm : (sortValues xs).getD 0 0 ≤ (sortValues xs).getD 1 0 :=
      sorted_getD_mono (sortValues_pairwise xs) (by norm_num) (by rw [hslen, h2]; norm_num)
    refine ⟨(sortValues xs).getD 0 0, hmem 0 (by omega), ?_, ?_⟩
    · unfold quantileVal
      rw [e1, e2, e3, e4, h2]
      push_cast
      nlinarith
    · unfold quantileVal
      rw [e1, e2, e3, e4, h2]
      push_cast
      nlinarith
  · -- the order statistic just above the lower quartile
    have hle : ⌈(0.25 : ℝ) * ((xs.length : ℝ) - 1)⌉₊ ≤ ⌊(0.75 : ℝ) * ((xs.length : ℝ) - 1)⌋₊ := by
      rcases Nat.lt_or_ge xs.length 3 with h3 | h3
      · have : xs.length = 1 := by omega
        rw [this]; norm_num
      · have h3' : (3 : ℝ) ≤ xs.length := by exact_mod_cast h3
        apply Nat.ceil_le.2
        by_contra hlt
        push Not at hlt
        have := Nat.lt_floor_add_one ((0.75 : ℝ) * ((xs.length : ℝ) - 1))
        -- m = 2, 3 or larger: an integer lies between
        have hnat : ∀ m : ℕ, 2 ≤ m → ∃ k : ℕ, m ≤ 4 * k ∧ 4 * k ≤ 3 * m := by
          intro m hm
          exact ⟨(m + 3) / 4, by omega, by omega⟩
        obtain ⟨k, k1, k2⟩ := hnat (xs.length - 1) (by omega)
        have hc : ((xs.length - 1 : ℕ) : ℝ) = (xs.length : ℝ) - 1 := by rw [Nat.cast_sub hl]; simp
        have k1' : ((xs.length - 1 : ℕ) : ℝ) ≤ 4 * (k : ℝ) := by exact_mod_cast k1
        have k2' : 4 * (k : ℝ) ≤ 3 * ((xs.length - 1 : ℕ) : ℝ) := by exact_mod_cast k2
        rw [hc] at k1' k2'
        have hk : k ≤ ⌊(0.75 : ℝ) * ((xs.length : ℝ) - 1)⌋₊ := Nat.le_floor (by norm_num; linarith)
        have hk' : (k : ℝ) ≤ ⌊(0.75 : ℝ) * ((xs.length : ℝ) - 1)⌋₊ := by exact_mod_cast hk
        norm_num at hlt hk'
        linarith
    have hx := sorted_getD_mono (sortValues_pairwise xs) hle
      (by rw [hslen]; exact lt_of_le_of_lt (Nat.floor_le_ceil _) b3)
    refine ⟨_, hmem _ a3, ?_, ?_⟩
    · nlinarith
    · nlinarith

theorem maskedExtreme_min (b : ℝ × ℝ) (xs : List ℝ) (hex : ∃ x ∈ xs, b.1 ≤ x ∧ x ≤ b.2) :
    ∃ v, maskedExtreme true b xs = some v ∧ v ∈ xs ∧ b.1 ≤ v ∧ v ≤ b.2 ∧
      ∀ x ∈ xs, b.1 ≤ x → x ≤ b.2 → v ≤ x := by
  induction xs with
  | nil => obtain ⟨x, hx, -⟩ := hex; cases hx
  | cons a xs ih =>
    have hun : maskedExtreme true b (a :: xs) = (match (if a ≥ b.1 ∧ a ≤ b.2 then some a else none : Option ℝ),
        maskedExtreme true b xs with
      | none, acc => acc
      | some x, none => some x
      | some x, some y => some (if true then min x y else max x y)) := rfl
    by_cases ha : b.1 ≤ a ∧ a ≤ b.2
    · by_cases hex' : ∃ x ∈ xs, b.1 ≤ x ∧ x ≤ b.2
      · obtain ⟨v, h1, h2, h3, h4, h5⟩ := ih hex'
        rw [hun, if_pos ha, h1]
        refine ⟨min a v, by simp, ?_, le_min ha.1 h3, (min_le_left _ _).trans ha.2, ?_⟩
        · rcases min_choice a v with h | h <;> rw [h]
          · simp
          · exact List.mem_cons_of_mem _ h2
        · intro x hx x1 x2
          rcases List.mem_cons.1 hx with rfl | hx
          · exact min_le_left _ _
          · exact (min_le_right _ _).trans (h5 x hx x1 x2)
      · have hnone : maskedExtreme true b xs = none := by
          clear * - hex'
          induction xs with
          | nil => rfl
          | cons c xs ih =>
            have : ¬ (c ≥ b.1 ∧ c ≤ b.2) := fun h => hex' ⟨c, by simp, h⟩
            have hh := ih fun ⟨x, hx, h⟩ => hex' ⟨x, List.mem_cons_of_mem _ hx, h⟩
            unfold maskedExtreme at hh ⊢
            rw [List.foldr_cons, hh]
            simp [this]
        rw [hun, if_pos ha, hnone]
        refine ⟨a, rfl, by simp, ha.1, ha.2, ?_⟩
        intro x hx x1 x2
        rcases List.mem_cons.1 hx with rfl | hx
        · exact le_rfl
        · exact absurd ⟨x, hx, x1, x2⟩ hex'
    · have hex' : ∃ x ∈ xs, b.1 ≤ x ∧ x ≤ b.2 := by
        obtain ⟨x, hx, h⟩ := hex
        rcases List.mem_cons.1 hx with rfl | hx
        · exact absurd h ha
        · exact ⟨x, hx, h⟩
      obtain ⟨v, h1, h2, h3, h4, h5⟩ := ih hex'
      rw [hun, if_neg ha, h1]
      refine ⟨v, rfl, List.mem_cons_of_mem _ h2, h3, h4, ?_⟩
      intro x hx x1 x2
      rcases List.mem_cons.1 hx with rfl | hx
      · exact absurd ⟨x1, x2⟩ ha
      · exact h5 x hx x1 x2

theorem maskedExtreme_neg (b : ℝ × ℝ) (xs : List ℝ) :
    maskedExtreme false b xs = (maskedExtreme true (-b.2, -b.1) (xs.map fun x => -x)).map fun x => -x := by
  induction xs with
  | nil => rfl
  | cons a xs ih =>
    unfold maskedExtreme at ih ⊢
    rw [List.map_cons, List.foldr_cons, List.foldr_cons, ih]
    by_cases ha : b.1 ≤ a ∧ a ≤ b.2
    · have h1 : a ≥ b.1 ∧ a ≤ b.2 := ha
      have h2 : (-a ≥ (-b.2, -b.1).1 ∧ -a ≤ (-b.2, -b.1).2) := ⟨neg_le_neg ha.2, neg_le_neg ha.1⟩
      simp only [if_pos h1, if_pos h2]
      cases List.foldr _ none (xs.map fun x => -x) with
      | none => simp
      | some y => simp [max_neg_neg, neg_neg, ← max_neg_neg]
    · have h1 : ¬ (a ≥ b.1 ∧ a ≤ b.2) := ha
      have h2 : ¬ (-a ≥ (-b.2, -b.1).1 ∧ -a ≤ (-b.2, -b.1).2) := fun h => ha ⟨neg_le_neg_iff.1 h.2, neg_le_neg_iff.1 h.1⟩
      simp only [if_neg h1, if_neg h2]

theorem maskedExtreme_max (b : ℝ × ℝ) (xs : List ℝ) (hex : ∃ x ∈ xs, b.1 ≤ x ∧ x ≤ b.2) :
    ∃ v, maskedExtreme false b xs = some v ∧ v ∈ xs ∧ b.1 ≤ v ∧ v ≤ b.2 ∧
      ∀ x ∈ xs, b.1 ≤ x → x ≤ b.2 → x ≤ v := by
  obtain ⟨v, h1, h2, h3, h4, h5⟩ := maskedExtreme_min (-b.2, -b.1) (xs.map fun x => -x) (by
    obtain ⟨x, hx, a1, a2⟩ := hex
    exact ⟨-x, List.mem_map_of_mem hx, neg_le_neg a2, neg_le_neg a1⟩)
  rw [maskedExtreme_neg, h1]
  obtain ⟨x, hx, rfl⟩ := List.mem_map.1 h2
  simp only at h3 h4 h5
  refine ⟨x, by simp, hx, by linarith, by linarith, ?_⟩
  intro y hy y1 y2
  have := h5 (-y) (List.mem_map_of_mem hy) (by linarith) (by linarith)
  linarith

theorem outlierBounds_ok (factor : ℝ) (xs : List ℝ) (hne : xs ≠ []) :
    outlierBounds factor xs = .ok (quantileVal xs 0.25 - factor * (quantileVal xs 0.75 - quantileVal xs 0.25),
      quantileVal xs 0.75 + factor * (quantileVal xs 0.75 - quantileVal xs 0.25)) := by
  unfold outlierBounds
  rw [quantile_ok xs hne, quantile_ok xs hne]
  rfl

theorem columnBounds_ok {d : ℕ} (factor : ℝ) (data : Thetas d) (hne : data ≠ []) :
    columnBounds factor data = .ok fun k =>
      (quantileVal (data.map fun t => t k) 0.25 - factor * (quantileVal (data.map fun t => t k) 0.75
        - quantileVal (data.map fun t => t k) 0.25),
      quantileVal (data.map fun t => t k) 0.75 + factor * (quantileVal (data.map fun t => t k) 0.75
        - quantileVal (data.map fun t => t k) 0.25)) := by
  unfold columnBounds
  rw [mapM_ok _ _ _ fun k _ => outlierBounds_ok factor (data.map fun t => t k) (by simpa using hne), bind_ok]
  simp only [pure, Except.pure]
  congr 1
  funext k
  rw [List.getD_eq_getElem?_getD, List.getElem?_map]
  simp

end Irt
