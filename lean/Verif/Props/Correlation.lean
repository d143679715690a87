import Verif.Model.Utils
import Verif.Spec.Utils
import Mathlib.Algebra.Order.BigOperators.Ring.Finset
import Mathlib.Tactic.Positivity
import Mathlib.Tactic.FieldSimp

/-!
# C55: correlations
-/

namespace Irt

/-! ## Pearson's correlation -/

theorem list_map_sum_eq {α : Type} (l : List α) (f : α → ℝ) : (l.map f).sum = ∑ i : Fin l.length, f l[i] := by
  rw [← List.sum_ofFn]
  congr 1
  apply List.ext_getElem <;> simp

theorem coMoment_sq_le (l : List (ℝ × ℝ)) :
    coMoment l ^ 2 ≤ moment (l.map Prod.fst) * moment (l.map Prod.snd) := by
  unfold coMoment moment
  simp only [List.map_map, List.length_map]
  rw [list_map_sum_eq, list_map_sum_eq l (_ ∘ Prod.fst), list_map_sum_eq l (_ ∘ Prod.snd)]
  simpa using Finset.sum_mul_sq_le_sq_mul_sq Finset.univ
    (fun i : Fin l.length => l[i].1 - (l.map Prod.fst).sum / l.length)
    fun i : Fin l.length => l[i].2 - (l.map Prod.snd).sum / l.length

theorem moment_nonneg (l : List ℝ) : 0 ≤ moment l := by
  apply List.sum_nonneg
  intro x hx
  obtain ⟨y, -, rfl⟩ := List.mem_map.1 hx
  exact sq_nonneg _

theorem moment_pos (l : List ℝ) (h : Varies l) : 0 < moment l := by
  refine lt_of_le_of_ne (moment_nonneg l) fun h0 => ?_
  obtain ⟨x, hx, y, hy, hxy⟩ := h
  have key : ∀ z ∈ l, z = l.sum / l.length := by
    intro z hz
    have h1 : (z - l.sum / l.length) ^ 2 ≤ moment l := by
      apply List.single_le_sum
      · intro w hw
        obtain ⟨v, -, rfl⟩ := List.mem_map.1 hw
        exact sq_nonneg _
      · exact List.mem_map.2 ⟨z, hz, rfl⟩
    have h2 : (z - l.sum / l.length) ^ 2 = 0 := le_antisymm (h0 ▸ h1) (sq_nonneg _)
    have := pow_eq_zero_iff (two_ne_zero) |>.1 h2
    linarith
  exact hxy ((key x hx).trans (key y hy).symm)

theorem sum_eq_of_not_varies (l : List ℝ) (h : ¬ Varies l) : ∀ z ∈ l, z = l.sum / l.length := by
  intro z hz
  have hall : ∀ y ∈ l, y = z := by
    intro y hy
    by_contra hne
    exact h ⟨y, hy, z, hz, hne⟩
  have hl : l = List.replicate l.length z := List.eq_replicate_iff.2 ⟨rfl, hall⟩
  have hpos : (l.length : ℝ) ≠ 0 := by
    have := List.length_pos_of_mem hz
    positivity
  have hs : l.sum = l.length * z := by
    conv_lhs => rw [hl]
    simp
  rw [hs]; field_simp

theorem moment_eq_zero (l : List ℝ) (h : ¬ Varies l) : moment l = 0 := by
  unfold moment
  have : l.map (fun x => (x - l.sum / l.length) ^ 2) = l.map fun _ => 0 := by
    apply List.map_congr_left
    intro z hz
    rw [← sum_eq_of_not_varies l h z hz]; simp
  rw [this]; simp

/-- Facts about the textbook correlation. -/
theorem pearson_range (l : List (ℝ × ℝ)) : -1 ≤ pearson l ∧ pearson l ≤ 1 := by
  have h := coMoment_sq_le l
  have h' : |coMoment l| ≤ Real.sqrt (moment (l.map Prod.fst) * moment (l.map Prod.snd)) := by
    rw [← Real.sqrt_sq_eq_abs]; exact Real.sqrt_le_sqrt h
  have habs : |pearson l| ≤ 1 := by
    unfold pearson
    rw [abs_div, abs_of_nonneg (Real.sqrt_nonneg _)]
    exact div_le_one_of_le₀ h' (Real.sqrt_nonneg _)
  exact abs_le.1 habs

theorem coMoment_self {α : Type} (l : List α) (f : α → ℝ) : coMoment (l.map fun i => (f i, f i)) = moment (l.map f) := by
  simp only [coMoment, moment, List.map_map, List.length_map]
  congr 1
  apply List.map_congr_left
  intro i _
  simp only [Function.comp_def]
  ring

theorem pearson_self {α : Type} (l : List α) (f : α → ℝ) (h : Varies (l.map f)) :
    pearson (l.map fun i => (f i, f i)) = 1 := by
  have hp := moment_pos _ h
  unfold pearson
  rw [coMoment_self]
  simp only [List.map_map, Function.comp_def]
  rw [Real.sqrt_mul_self hp.le, div_self hp.ne']

theorem pearson_comm {α : Type} (l : List α) (f g : α → ℝ) :
    pearson (l.map fun i => (f i, g i)) = pearson (l.map fun i => (g i, f i)) := by
  unfold pearson coMoment
  simp only [List.map_map, Function.comp_def, List.length_map]
  rw [mul_comm (moment (l.map f))]
  congr 2
  apply List.map_congr_left
  intro i _
  ring

/-! ## Complete data -/

theorem sum_finRange {n : ℕ} (f : Fin n → ℝ) : ((List.finRange n).map f).sum = ∑ i, f i := by
  rw [← List.ofFn_eq_map, List.sum_ofFn]

theorem covComplete_eq {n : ℕ} (a b : Fin n → ℝ) :
    covComplete a b = coMoment ((List.finRange n).map fun i => (a i, b i)) / ((n : ℝ) - 1) := by
  unfold covComplete coMoment colMean
  simp only [List.map_map, Function.comp_def, List.length_map, List.length_finRange]
  rw [sum_finRange, sum_finRange, sum_finRange]

theorem div_sqrt_div (s x y c : ℝ) (hc : 0 < c) (hx : 0 ≤ x) :
    s / c / (Real.sqrt (x / c) * Real.sqrt (y / c)) = s / Real.sqrt (x * y) := by
  rw [← Real.sqrt_mul (div_nonneg hx hc.le), show x / c * (y / c) = x * y / (c * c) by field_simp,
    Real.sqrt_div' _ (by positivity), Real.sqrt_mul_self hc.le]
  field_simp

/-- C55: for complete data, each correlation of two columns that are not constant is Pearson's correlation; it lies in
[-1,1], is the same in both orders, and is one for a column with itself. -/
theorem C55_complete {n p : ℕ} (x : Fin n → Fin p → ℝ) (j k : Fin p)
    (hj : Varies ((List.finRange n).map fun i => x i j)) (hk : Varies ((List.finRange n).map fun i => x i k)) :
    ∃ r : ℝ, correlationMatrix (fun i j => some (x i j)) j k = some r ∧
      correlationMatrix (fun i j => some (x i j)) k j = some r ∧
      r = pearson ((List.finRange n).map fun i => (x i j, x i k)) ∧ -1 ≤ r ∧ r ≤ 1 ∧ (j = k → r = 1) := by
  have hn : 1 < n := by
    obtain ⟨u, hu, v, hv, huv⟩ := hj
    obtain ⟨i, -, rfl⟩ := List.mem_map.1 hu
    obtain ⟨i', -, rfl⟩ := List.mem_map.1 hv
    have : i ≠ i' := fun h => huv (by rw [h])
    have : (i : ℕ) ≠ i' := fun h => this (Fin.ext h)
    omega
  have hn' : (0 : ℝ) < (n : ℝ) - 1 := by
    have : (1 : ℝ) < n := by exact_mod_cast hn
    linarith
  have key : ∀ j k : Fin p, Varies ((List.finRange n).map fun i => x i j) →
      Varies ((List.finRange n).map fun i => x i k) → correlationMatrix (fun i j => some (x i j)) j k
        = some (pearson ((List.finRange n).map fun i => (x i j, x i k))) := by
    intro j k hj hk
    have pj := moment_pos _ hj
    have pk := moment_pos _ hk
    unfold correlationMatrix
    rw [if_pos (by simp)]
    dsimp only [Option.getD_some]
    rw [if_neg (by omega)]
    simp only [covComplete_eq, coMoment_self]
    have hne : Real.sqrt (moment ((List.finRange n).map fun i => x i j) / ((n : ℝ) - 1)) *
        Real.sqrt (moment ((List.finRange n).map fun i => x i k) / ((n : ℝ) - 1)) ≠ 0 :=
      (mul_pos (Real.sqrt_pos.2 (div_pos pj hn')) (Real.sqrt_pos.2 (div_pos pk hn'))).ne'
    rw [floatDiv, if_neg hne, div_sqrt_div _ _ _ _ hn' pj.le]
    unfold pearson
    simp only [List.map_map, Function.comp_def]
  refine ⟨_, key j k hj hk, ?_, rfl, (pearson_range _).1, (pearson_range _).2, ?_⟩
  · rw [key k j hk hj, pearson_comm]
  · rintro rfl
    exact pearson_self _ _ hj

/-- C55 is false of the code for constant columns: all entries in the row and column of a constant variable are
undefined, the diagonal one included. -/
theorem C55_constant_false {n p : ℕ} (x : Fin n → Fin p → ℝ) (j k : Fin p)
    (h : ¬ Varies ((List.finRange n).map fun i => x i j) ∨ ¬ Varies ((List.finRange n).map fun i => x i k)) :
    correlationMatrix (fun i j => some (x i j)) j k = none := by
  unfold correlationMatrix
  rw [if_pos (by simp)]
  dsimp only [Option.getD_some]
  split
  · rfl
  · simp only [covComplete_eq, coMoment_self]
    rw [floatDiv, if_pos]
    rcases h with h | h <;> rw [moment_eq_zero _ h] <;> simp

/-- Two columns that vary. -/
example : correlationMatrix (fun (i : Fin 3) (j : Fin 2) => some ((!![0, 1; 1, 0; 2, 0] : Matrix (Fin 3) (Fin 2) ℝ) i j))
    0 1 ≠ none := by
  obtain ⟨r, hr, -⟩ := C55_complete (n := 3) (p := 2) (fun i j => (!![0, 1; 1, 0; 2, 0] : Matrix (Fin 3) (Fin 2) ℝ) i j)
    0 1 ⟨0, by simp [List.finRange_succ], 1, by simp [List.finRange_succ], by norm_num⟩
    ⟨1, by simp [List.finRange_succ], 0, by simp [List.finRange_succ], by norm_num⟩
  rw [hr]; simp

/-! ## Missing values -/

/-- C55: with missing values, the matrix is symmetric with ones on the diagonal. -/
theorem C55_missing_symmetric {n p : ℕ} (x : Fin n → Fin p → Num) (hx : ∃ i j, x i j = none) (j k : Fin p) :
    correlationMatrix x j k = correlationMatrix x k j ∧ correlationMatrix x j j = some 1 := by
  have h : ¬ ∀ i j, x i j ≠ none := by push Not; exact hx
  unfold correlationMatrix
  rw [if_neg h]
  refine ⟨?_, if_pos rfl⟩
  rcases lt_trichotomy j k with hjk | rfl | hjk
  · rw [if_neg hjk.ne, if_pos hjk, if_neg hjk.ne', if_neg hjk.asymm]
  · rfl
  · rw [if_neg hjk.ne', if_neg hjk.asymm, if_neg hjk.ne, if_pos hjk]

theorem sum_map_sub_const {α : Type} (l : List α) (f : α → ℝ) (c : ℝ) :
    (l.map fun p => f p - c).sum = (l.map f).sum - l.length * c := by
  induction l with
  | nil => simp
  | cons a t ih => simp only [List.map_cons, List.sum_cons, ih, List.length_cons]; push_cast; ring

/-- Sum of products of deviations, one of the two means being arbitrary. -/
theorem sum_dev (l : List (ℝ × ℝ)) (c : ℝ) (hl : l ≠ []) :
    (l.map fun p => (p.1 - c) * (p.2 - (l.map Prod.snd).sum / l.length)).sum = coMoment l := by
  have hlen : (l.length : ℝ) ≠ 0 := by
    have := List.length_pos_of_ne_nil hl
    positivity
  have h0 : (l.map fun p => p.2 - (l.map Prod.snd).sum / l.length).sum = 0 := by
    rw [sum_map_sub_const, mul_div_cancel₀ _ hlen, sub_self]
  have : (fun p : ℝ × ℝ => (p.1 - c) * (p.2 - (l.map Prod.snd).sum / l.length))
      = fun p : ℝ × ℝ => (p.1 - (l.map Prod.fst).sum / l.length) * (p.2 - (l.map Prod.snd).sum / l.length)
        + ((l.map Prod.fst).sum / l.length - c) * (p.2 - (l.map Prod.snd).sum / l.length) := by
    funext p; ring
  rw [this, List.sum_map_add, List.sum_map_mul_left, h0, mul_zero, add_zero]
  rfl

theorem sum_dev' (l : List (ℝ × ℝ)) (c : ℝ) (hl : l ≠ []) :
    (l.map fun p => (p.1 - (l.map Prod.fst).sum / l.length) * (p.2 - c)).sum = coMoment l := by
  have hlen : (l.length : ℝ) ≠ 0 := by
    have := List.length_pos_of_ne_nil hl
    positivity
  have h0 : (l.map fun p => p.1 - (l.map Prod.fst).sum / l.length).sum = 0 := by
    rw [sum_map_sub_const, mul_div_cancel₀ _ hlen, sub_self]
  have : (fun p : ℝ × ℝ => (p.1 - (l.map Prod.fst).sum / l.length) * (p.2 - c))
      = fun p : ℝ × ℝ => (p.1 - (l.map Prod.fst).sum / l.length) * (p.2 - (l.map Prod.snd).sum / l.length)
        + ((l.map Prod.snd).sum / l.length - c) * (p.1 - (l.map Prod.fst).sum / l.length) := by
    funext p; ring
  rw [this, List.sum_map_add, List.sum_map_mul_left, h0, mul_zero, add_zero]
  rfl

theorem centred_sum {n : ℕ} (a b : Fin n → Num) (l : List (Fin n)) :
    (l.map fun i => centred a i * centred b i).sum
      = ((l.filterMap fun i => (a i).bind fun x => (b i).map fun y => (x, y)).map fun p =>
          (p.1 - (nanColMean a).getD 0) * (p.2 - (nanColMean b).getD 0)).sum := by
  induction l with
  | nil => rfl
  | cons i t ih =>
    rw [List.map_cons, List.sum_cons, ih]
    cases ha : a i with
    | none => simp [centred, ha]
    | some u =>
      cases hb : b i with
      | none => simp [centred, ha, hb]
      | some v => simp [centred, ha, hb]

theorem filterMap_pair_snd {n : ℕ} (a b : Fin n → Num) (h : ∀ i, b i ≠ none → a i ≠ none) (l : List (Fin n)) :
    (l.filterMap fun i => (a i).bind fun x => (b i).map fun y => (x, y)).map Prod.snd = l.filterMap b := by
  induction l with
  | nil => rfl
  | cons i t ih =>
    cases hb : b i with
    | none => cases ha : a i <;> simpa [ha, hb] using ih
    | some v =>
      cases ha : a i with
      | none => exact absurd ha (h i (by simp [hb]))
      | some u => simpa [ha, hb] using ih

theorem filterMap_pair_fst {n : ℕ} (a b : Fin n → Num) (h : ∀ i, a i ≠ none → b i ≠ none) (l : List (Fin n)) :
    (l.filterMap fun i => (a i).bind fun x => (b i).map fun y => (x, y)).map Prod.fst = l.filterMap a := by
  induction l with
  | nil => rfl
  | cons i t ih =>
    cases ha : a i with
    | none => simpa [ha] using ih
    | some u =>
      cases hb : b i with
      | none => exact absurd hb (h i (by simp [ha]))
      | some v => simpa [ha, hb] using ih

/-- One variable is observed only where the other is. -/
def Nested {n : ℕ} (a b : Fin n → Num) : Prop :=
  (∀ i, b i ≠ none → a i ≠ none) ∨ ∀ i, a i ≠ none → b i ≠ none

theorem covMissing_eq {n : ℕ} (a b : Fin n → Num) (h : Nested a b) (hk : 1 < (pairRows a b).length) :
    covMissing a b = coMoment (pairRows a b) / (((pairRows a b).length : ℝ) - 1) := by
  have hne : pairRows a b ≠ [] := by intro e; simp [e] at hk
  have hlen : ((pairRows a b).length : ℝ) ≠ 0 := by
    have : 0 < (pairRows a b).length := by omega
    positivity
  unfold covMissing
  dsimp only
  rw [if_pos hk, ← sum_finRange, centred_sum]
  congr 1
  change ((pairRows a b).map _).sum = _
  rcases h with h | h
  · have hm : (nanColMean b).getD 0 = ((pairRows a b).map Prod.snd).sum / (pairRows a b).length := by
      have e := filterMap_pair_snd a b h (List.finRange n)
      change (pairRows a b).map Prod.snd = _ at e
      unfold nanColMean
      dsimp only
      rw [← e, List.length_map, floatDiv, if_neg hlen, Option.getD_some]
    rw [hm, sum_dev _ _ hne]
  · have hm : (nanColMean a).getD 0 = ((pairRows a b).map Prod.fst).sum / (pairRows a b).length := by
      have e := filterMap_pair_fst a b h (List.finRange n)
      change (pairRows a b).map Prod.fst = _ at e
      unfold nanColMean
      dsimp only
      rw [← e, List.length_map, floatDiv, if_neg hlen, Option.getD_some]
    rw [hm, sum_dev' _ _ hne]

theorem corrMissing_eq {n : ℕ} (a b : Fin n → Num) (h : Nested a b)
    (ha : Varies ((pairRows a b).map Prod.fst)) (hb : Varies ((pairRows a b).map Prod.snd)) :
    corrMissing a b = some (pearson (pairRows a b)) := by
  have hk : 1 < (pairRows a b).length := by
    obtain ⟨u, hu, v, hv, huv⟩ := ha
    by_contra hle
    have h1 : (pairRows a b).map Prod.fst = [] ∨ ∃ z, (pairRows a b).map Prod.fst = [z] := by
      generalize pairRows a b = l at hle
      rcases l with _ | ⟨z, _ | ⟨w, t⟩⟩
      · left; rfl
      · right; exact ⟨z.1, rfl⟩
      · simp at hle
    rcases h1 with h1 | ⟨z, h1⟩
    · rw [h1] at hu; simp at hu
    · rw [h1] at hu hv; simp at hu hv; exact huv (hu.trans hv.symm)
  have hc : (0 : ℝ) < ((pairRows a b).length : ℝ) - 1 := by
    have : (1 : ℝ) < (pairRows a b).length := by exact_mod_cast hk
    linarith
  have pa := moment_pos _ ha
  have pb := moment_pos _ hb
  have hs : ∀ v : List ℝ, v.length = (pairRows a b).length →
      listStd v = Real.sqrt (moment v / (((pairRows a b).length : ℝ) - 1)) := by
    intro v hv; unfold listStd moment; rw [hv]
  unfold corrMissing
  dsimp only
  rw [if_pos hk, hs _ (by simp), hs _ (by simp), covMissing_eq a b h hk, floatDiv, if_neg, div_sqrt_div _ _ _ _ hc pa.le]
  · rfl
  · exact (mul_pos (Real.sqrt_pos.2 (div_pos pa hc)) (Real.sqrt_pos.2 (div_pos pb hc))).ne'

theorem pairRows_swap {n : ℕ} (a b : Fin n → Num) : pairRows b a = (pairRows a b).map Prod.swap := by
  unfold pairRows
  induction List.finRange n with
  | nil => rfl
  | cons i t ih => cases ha : a i <;> cases hb : b i <;> simp [ha, hb, ih]

/-- C55 (partial: variables one of which is observed only where the other is): with missing values, the correlation of
two variables that vary among the respondents observed on both is Pearson's correlation of these respondents, hence in
[-1,1]. -/
theorem C55_missing_partial {n p : ℕ} (x : Fin n → Fin p → Num) (hx : ∃ i j, x i j = none) (j k : Fin p) (hjk : j ≠ k)
    (hnest : Nested (fun i => x i j) fun i => x i k)
    (hj : Varies ((pairRows (fun i => x i j) fun i => x i k).map Prod.fst))
    (hk : Varies ((pairRows (fun i => x i j) fun i => x i k).map Prod.snd)) :
    ∃ r : ℝ, correlationMatrix x j k = some r ∧ correlationMatrix x k j = some r ∧ -1 ≤ r ∧ r ≤ 1 ∧
      r = pearson (pairRows (fun i => x i j) fun i => x i k) := by
  have h : ¬ ∀ i j, x i j ≠ none := by push Not; exact hx
  have key : correlationMatrix x j k = some (pearson (pairRows (fun i => x i j) fun i => x i k)) := by
    unfold correlationMatrix
    rw [if_neg h, if_neg hjk]
    rcases lt_or_gt_of_ne hjk with hlt | hlt
    · rw [if_pos hlt, corrMissing_eq _ _ hnest hj hk]
    · rw [if_neg hlt.asymm]
      have hsw := pairRows_swap (fun i => x i j) fun i => x i k
      rw [corrMissing_eq _ _ (Or.symm hnest), hsw]
      · have := pearson_comm (pairRows (fun i => x i j) fun i => x i k) Prod.fst Prod.snd
        simp only [Prod.mk.eta, List.map_id'] at this
        exact congrArg some this.symm
      · rw [hsw]; simpa [Function.comp_def] using hk
      · rw [hsw]; simpa [Function.comp_def] using hj
  exact ⟨_, key, by rw [← (C55_missing_symmetric x hx j k).1]; exact key, (pearson_range _).1, (pearson_range _).2, rfl⟩

/-- C55: variables with at most one respondent in common get the correlation zero. -/
theorem C55_missing_few {n p : ℕ} (x : Fin n → Fin p → Num) (hx : ∃ i j, x i j = none) (j k : Fin p) (hjk : j ≠ k)
    (h1 : (pairRows (fun i => x i j) fun i => x i k).length ≤ 1) : correlationMatrix x j k = some 0 := by
  have h : ¬ ∀ i j, x i j ≠ none := by push Not; exact hx
  unfold correlationMatrix
  rw [if_neg h, if_neg hjk]
  split
  · unfold corrMissing; dsimp only; rw [if_neg (by omega)]
  · unfold corrMissing; dsimp only; rw [if_neg]
    rw [pairRows_swap, List.length_map]; omega

/-- Four respondents, the third observed only on the first variable and the fourth only on the second. -/
def exUnpaired : Fin 4 → Fin 2 → Num :=
  ![![some 0, some 0], ![some 1, some 1], ![some 101, none], ![none, some 101]]

/-- C55 is false of the code with missing values: the correlation of two variables each observed on a respondent the
other misses can exceed one. -/
theorem C55_missing_false : ∃ r : ℝ, correlationMatrix exUnpaired 0 1 = some r ∧ 1 < r := by
  have h : ¬ ∀ i j, exUnpaired i j ≠ none := by
    push Not; exact ⟨2, 1, rfl⟩
  have hfr : List.finRange 4 = [0, 1, 2, 3] := rfl
  have a0 : exUnpaired 0 0 = some 0 := rfl
  have a1 : exUnpaired 1 0 = some 1 := rfl
  have a2 : exUnpaired 2 0 = some 101 := rfl
  have a3 : exUnpaired 3 0 = none := rfl
  have b0 : exUnpaired 0 1 = some 0 := rfl
  have b1 : exUnpaired 1 1 = some 1 := rfl
  have b2 : exUnpaired 2 1 = none := rfl
  have b3 : exUnpaired 3 1 = some 101 := rfl
  have hp : pairRows (fun i => exUnpaired i 0) (fun i => exUnpaired i 1) = [(0, 0), (1, 1)] := by
    simp [pairRows, hfr, a0, a1, a2, a3, b0, b1, b2, b3]
  have ha : nanColMean (fun i => exUnpaired i 0) = some 34 := by
    have : (List.finRange 4).filterMap (fun i => exUnpaired i 0) = [0, 1, 101] := by simp [hfr, a0, a1, a2, a3]
    unfold nanColMean; rw [this]; norm_num [floatDiv]
  have hb : nanColMean (fun i => exUnpaired i 1) = some 34 := by
    have : (List.finRange 4).filterMap (fun i => exUnpaired i 1) = [0, 1, 101] := by simp [hfr, b0, b1, b2, b3]
    unfold nanColMean; rw [this]; norm_num [floatDiv]
  have hs : listStd [0, 1] * listStd [0, 1] = 1 / 2 := by
    unfold listStd
    rw [Real.mul_self_sqrt] <;> norm_num
  refine ⟨4490, ?_, by norm_num⟩
  unfold correlationMatrix
  rw [if_neg h]
  simp only [Fin.isValue, zero_ne_one, if_false, Fin.zero_lt_one, if_true]
  unfold corrMissing
  rw [hp]
  simp only [List.map_cons, List.map_nil, hs, List.length_cons, List.length_nil]
  rw [if_pos (by norm_num), floatDiv, if_neg (by norm_num)]
  congr 1
  unfold covMissing
  rw [hp]
  simp only [centred, ha, hb, a0, a1, a2, a3, b0, b1, b2, b3, Fin.sum_univ_four]
  norm_num

end Irt
