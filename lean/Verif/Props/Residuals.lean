import Verif.Props.Classification
import Verif.Lemmas.Nominal
import Verif.Lemmas.LogLik
import Verif.Lemmas.MonoModels

/-!
# C58: residuals, infit and outfit

The probabilities of a table are given by `P i j m` for respondent `i`, item `j` and category `m`, the data by `Y i j`.
-/

namespace Irt

open scoped BigOperators

/-- The probability tables of `n` respondents. -/
def tablesOf (n items M : ℕ) (P : ℕ → ℕ → ℕ → ℝ) : List (List (List ℝ)) :=
  (List.range n).map fun i => (List.range items).map fun j => (List.range M).map (P i j)

/-- The data matrix. -/
def dataOf (n items : ℕ) (Y : ℕ → ℕ → Cell) : List (List Cell) := (List.range n).map fun i => (List.range items).map (Y i)

theorem cellMissing_iff (c : Cell) : cellMissing c = true ↔ ¬ IsObserved c := by
  cases c with
  | none => simp [cellMissing, IsObserved]
  | some y => simp [cellMissing, IsObserved]

theorem cellMissing_eq_false (c : Cell) : cellMissing c = false ↔ IsObserved c := by
  rw [← not_iff_not, ← cellMissing_iff]; simp

theorem zip_tables (n items M : ℕ) (P : ℕ → ℕ → ℕ → ℝ) (Y : ℕ → ℕ → Cell) :
    List.zip (tablesOf n items M P) (dataOf n items Y)
      = (List.range n).map fun i => ((List.range items).map fun j => (List.range M).map (P i j), (List.range items).map (Y i)) := by
  unfold tablesOf dataOf
  rw [List.zip_map']

/-! ## Residuals -/

theorem pyGet_range (M : ℕ) (p : ℕ → ℝ) (y : ℤ) (h0 : 0 ≤ y) (h1 : y < M) :
    pyGet ((List.range M).map p) y = .ok (p y.toNat) := by
  unfold pyGet
  rw [if_neg (by omega), List.getElem?_map, List.getElem?_range (by omega), Option.map_some]
  simp only [List.length_map, List.length_range]
  rw [if_neg (by omega)]

theorem pyGet_last (M : ℕ) (hM : 0 < M) (p : ℕ → ℝ) : ∃ x, pyGet ((List.range M).map p) (-1) = .ok x := by
  unfold pyGet
  rw [if_pos (by omega), List.getElem?_map]
  simp only [List.length_map, List.length_range]
  rw [List.getElem?_range (by omega), Option.map_some]
  simp only
  rw [if_neg (by omega)]
  exact ⟨_, rfl⟩

/-- The residual that C58 describes. -/
noncomputable def residualAt (keyed : Bool) (M : ℕ) (p : ℕ → ℝ) (c : Cell) : Num :=
  if IsObserved c then
    some (if keyed then 1 - p (c.getD 0).toNat else (c.getD 0 : ℤ) - keyedMean none M p)
  else none

theorem keyedResidual_eq (M : ℕ) (hM : 0 < M) (p : ℕ → ℝ) (c : Cell)
    (hc : ∀ y, c = some y → y ≠ -1 → 0 ≤ y ∧ y < (M : ℤ)) :
    keyedResidual ((List.range M).map p) c = .ok (residualAt true M p c) := by
  unfold keyedResidual residualAt
  by_cases hobs : IsObserved c
  · obtain ⟨y, rfl, hy⟩ := id hobs
    obtain ⟨h0, h1⟩ := hc y rfl hy
    rw [Option.getD_some, pyGet_range M p y h0 h1, bind_ok, (cellMissing_eq_false _).2 hobs, if_pos hobs]
    rfl
  · have hm := (cellMissing_iff c).2 hobs
    have hd : c.getD (-1) = -1 := by
      cases c with
      | none => rfl
      | some y => simpa [cellMissing] using hm
    obtain ⟨x, hx⟩ := pyGet_last M hM p
    rw [hd, hx, bind_ok, hm, if_neg hobs]
    rfl

theorem expectedItemScores_none (items M : ℕ) (p : ℕ → ℕ → ℝ) :
    expectedItemScores ((List.range items).map fun j => (List.range M).map (p j)) M none
      = .ok ((List.range items).map fun j => keyedMean none M (p j)) := by
  unfold expectedItemScores itemScores
  simp only [List.length_map, List.length_range, bind_ok, pure, Except.pure, Except.ok.injEq]
  apply List.ext_getElem
  · simp
  · intro j h1 h2
    simp only [List.getElem_zipWith, List.getElem_map, List.getElem_range, List.getElem_replicate, dot_range, keyedMean, scoreOf]
    exact Finset.sum_congr rfl fun m _ => by push_cast; ring

theorem residualRow_eq (M items : ℕ) (hM : 0 < M) (mc : Option (List ℤ)) (p : ℕ → ℕ → ℝ) (Y : ℕ → Cell)
    (hY : ∀ j, j < items → ∀ y, Y j = some y → y ≠ -1 → 0 ≤ y ∧ y < (M : ℤ)) :
    residualRow M mc ((List.range items).map fun j => (List.range M).map (p j)) ((List.range items).map Y)
      = .ok ((List.range items).map fun j => residualAt mc.isSome M (p j) (Y j)) := by
  unfold residualRow
  cases mc with
  | some keys =>
    simp only [Option.isSome_some]
    rw [List.zip_map', mapM_ok _ _ (fun pc => residualAt true M (fun m => pc.1.getD m 0) pc.2)]
    · rw [List.map_map]
      congr 1
      refine List.map_congr_left fun j _ => ?_
      simp only [Function.comp]
      by_cases h : IsObserved (Y j)
      · have hb := hY j (List.mem_range.1 ‹_›)
        obtain ⟨y, hy, hne⟩ := id h
        obtain ⟨h0, h1⟩ := hb y hy hne
        simp only [residualAt, if_pos h, hy, Option.getD_some, if_true]
        have : y.toNat < M := by omega
        rw [List.getD_eq_getElem _ _ (by simpa using this)]
        simp
      · simp only [residualAt, if_neg h]
    · intro pc hpc
      obtain ⟨j, hj, rfl⟩ := List.mem_map.1 hpc
      have hj := List.mem_range.1 hj
      rw [keyedResidual_eq M hM (p j) (Y j) (hY j hj)]
      by_cases h : IsObserved (Y j)
      · obtain ⟨y, hy, hne⟩ := id h
        obtain ⟨h0, h1⟩ := hY j hj y hy hne
        simp only [residualAt, if_pos h, hy, Option.getD_some, if_true]
        have : y.toNat < M := by omega
        rw [List.getD_eq_getElem _ _ (by simpa using this)]
        simp
      · simp only [residualAt, if_neg h]
  | none =>
    simp only [Option.isSome_none]
    rw [expectedItemScores_none, bind_ok, zipWith_range]
    simp only [pure, Except.pure, Except.ok.injEq]
    refine List.map_congr_left fun j _ => ?_
    unfold scoreResidual residualAt
    by_cases h : IsObserved (Y j)
    · obtain ⟨y, hy, -⟩ := id h
      rw [(cellMissing_eq_false _).2 h, if_pos h, hy]
      simp
    · rw [(cellMissing_iff _).2 h, if_neg h]
      simp

/-- C58: without averaging, the residual of an observed response is one minus its probability in models with a key and
the difference of the response and the expected score in the others; that of a missing response is NaN. -/
theorem C58_residuals (n items M : ℕ) (hM : 0 < M) (mc : Option (List ℤ)) (P : ℕ → ℕ → ℕ → ℝ) (Y : ℕ → ℕ → Cell)
    (hY : ∀ i, i < n → ∀ j, j < items → ∀ y, Y i j = some y → y ≠ -1 → 0 ≤ y ∧ y < (M : ℤ)) :
    residuals M items mc "none" (tablesOf n items M P) (dataOf n items Y)
      = .ok (.matrix ((List.range n).map fun i => (List.range items).map fun j =>
          residualAt mc.isSome M (P i j) (Y i j))) := by
  unfold residuals
  rw [zip_tables, mapM_ok_iff _ _ ((List.range n).map fun i => (List.range items).map fun j =>
      residualAt mc.isSome M (P i j) (Y i j)) |>.2 ⟨by simp, ?_⟩]
  · rfl
  · intro i x hx
    have hi := lt_of_getElem?_some hx
    rw [List.length_map, List.length_range] at hi
    rw [List.getElem?_map, List.getElem?_range hi, Option.map_some] at hx
    obtain rfl := Option.some.inj hx
    refine ⟨_, by rw [List.getElem?_map, List.getElem?_range hi]; rfl, ?_⟩
    exact residualRow_eq M items hM mc (P i) (Y i) (hY i hi)

theorem keyedMean_bounds (c M : ℕ) (hcM : c ≤ M) (p : ℕ → ℝ) (h0 : ∀ m, 0 ≤ p m) (h1 : ∑ m ∈ Finset.range M, p m = 1)
    (hz : ∀ m, c ≤ m → p m = 0) : 0 ≤ keyedMean none M p ∧ keyedMean none M p ≤ (c : ℝ) - 1 := by
  unfold keyedMean scoreOf
  refine ⟨Finset.sum_nonneg fun m _ => mul_nonneg (by positivity) (h0 m), ?_⟩
  calc ∑ m ∈ Finset.range M, (((m : ℕ) : ℤ) : ℝ) * p m ≤ ∑ m ∈ Finset.range M, ((c : ℝ) - 1) * p m := by
        refine Finset.sum_le_sum fun m _ => ?_
        by_cases h : c ≤ m
        · rw [hz m h]; simp
        · have : (m : ℝ) + 1 ≤ c := by exact_mod_cast (by omega : m + 1 ≤ c)
          refine mul_le_mul_of_nonneg_right ?_ (h0 m)
          push_cast; linarith
    _ = (c : ℝ) - 1 := by rw [← Finset.mul_sum, h1, mul_one]

/-- C58, range: for an item with `c` categories (the other slots having probability zero), residuals are in [0, 1] with a
key and between `-(c-1)` and `c-1` without. -/
theorem C58_residual_range (keyed : Bool) (c M : ℕ) (hcM : c ≤ M) (p : ℕ → ℝ) (h0 : ∀ m, 0 ≤ p m)
    (h1 : ∑ m ∈ Finset.range M, p m = 1) (hz : ∀ m, c ≤ m → p m = 0) (y : ℤ) (hy : 0 ≤ y ∧ y < (c : ℤ)) (x : ℝ)
    (hx : residualAt keyed M p (some y) = some x) :
    (keyed = true → 0 ≤ x ∧ x ≤ 1) ∧ (keyed = false → -((c : ℝ) - 1) ≤ x ∧ x ≤ (c : ℝ) - 1) := by
  have hobs : IsObserved (some y) := ⟨y, rfl, by omega⟩
  rw [residualAt, if_pos hobs] at hx
  have hx := Option.some.inj hx
  rw [Option.getD_some] at hx
  constructor
  · rintro rfl
    rw [if_pos rfl] at hx
    have hle : p y.toNat ≤ 1 := by
      rw [← h1]
      exact Finset.single_le_sum (f := p) (fun m _ => h0 m) (Finset.mem_range.2 (by omega))
    rw [← hx]
    exact ⟨by linarith, by linarith [h0 y.toNat]⟩
  · rintro rfl
    rw [if_neg (by simp)] at hx
    obtain ⟨a, b⟩ := keyedMean_bounds c M hcM p h0 h1 hz
    have hy0 : (0 : ℝ) ≤ (y : ℝ) := by exact_mod_cast hy.1
    have hy1 : (y : ℝ) + 1 ≤ (c : ℝ) := by
      have : y + 1 ≤ (c : ℤ) := by omega
      exact_mod_cast this
    rw [← hx]
    exact ⟨by linarith, by linarith⟩

theorem nanMean_spec (xs : List Num) :
    (nanMean xs = none ↔ xs.filterMap id = []) ∧ ∀ r, nanMean xs = some r → IsMeanOfObserved xs r := by
  rw [nanMean_num]
  unfold floatDiv IsMeanOfObserved
  by_cases h : xs.filterMap id = []
  · rw [h]; simp
  · have hl : (((xs.filterMap id).length : ℕ) : ℝ) ≠ 0 := by simpa using h
    rw [if_neg hl]
    refine ⟨iff_of_false (by simp) h, fun r hr => ⟨h, ?_⟩⟩
    rw [← Option.some.inj hr]
    field_simp

/-- C58, averages: averaging over items gives one value per respondent, over respondents one per item, over everything
a single one; each is the mean of the residuals of the observed responses only, NaN if there are none. -/
theorem C58_averages (n items M : ℕ) (mc : Option (List ℤ)) (P : ℕ → ℕ → ℕ → ℝ) (Y : ℕ → ℕ → Cell)
    (R : ℕ → ℕ → Num)
    (hR : residuals M items mc "none" (tablesOf n items M P) (dataOf n items Y)
      = .ok (.matrix ((List.range n).map fun i => (List.range items).map (R i)))) :
    ∃ byRespondent byItem overall,
      residuals M items mc "items" (tablesOf n items M P) (dataOf n items Y) = .ok (.vector byRespondent) ∧
      residuals M items mc "respondents" (tablesOf n items M P) (dataOf n items Y) = .ok (.vector byItem) ∧
      residuals M items mc "everything" (tablesOf n items M P) (dataOf n items Y) = .ok (.scalar overall) ∧
      byRespondent.length = n ∧ byItem.length = items ∧
      (∀ i, i < n → ∃ x, byRespondent[i]? = some x ∧ (x = none ↔ ∀ j, j < items → R i j = none) ∧
        ∀ r, x = some r → IsMeanOfObserved ((List.range items).map (R i)) r) ∧
      (∀ j, j < items → ∃ x, byItem[j]? = some x ∧ (x = none ↔ ∀ i, i < n → R i j = none) ∧
        ∀ r, x = some r → IsMeanOfObserved ((List.range n).map fun i => R i j) r) ∧
      (overall = none ↔ ∀ i, i < n → ∀ j, j < items → R i j = none) ∧
      ∀ r, overall = some r → IsMeanOfObserved ((List.range n).flatMap fun i => (List.range items).map (R i)) r := by
  unfold residuals at hR
  obtain ⟨rows, hrows, h⟩ := bind_eq_ok hR
  have e : rows = (List.range n).map fun i => (List.range items).map (R i) := by
    simpa [pure, Except.pure] using h
  subst e
  refine ⟨_, _, _, by unfold residuals; rw [hrows]; rfl, by unfold residuals; rw [hrows]; rfl,
    by unfold residuals; rw [hrows]; rfl, by simp, by simp, ?_, ?_, ?_, ?_⟩
  · intro i hi
    refine ⟨_, by rw [List.getElem?_map, List.getElem?_map, List.getElem?_range hi]; rfl, ?_, (nanMean_spec _).2⟩
    rw [(nanMean_spec _).1, List.filterMap_eq_nil_iff]
    simp
  · intro j hj
    have hcol : column ((List.range n).map fun i => (List.range items).map (R i)) j = (List.range n).map fun i => R i j := by
      unfold column
      rw [List.map_map]
      refine List.map_congr_left fun i _ => ?_
      simp only [Function.comp]
      rw [List.getD_eq_getElem _ _ (by simpa using hj)]
      simp
    refine ⟨_, by rw [List.getElem?_map, List.getElem?_range hj]; rfl, ?_, ?_⟩
    · simp only [hcol]
      rw [(nanMean_spec _).1, List.filterMap_eq_nil_iff]
      simp
    · simp only [hcol]
      exact (nanMean_spec _).2
  · rw [(nanMean_spec _).1, List.filterMap_eq_nil_iff]
    simp only [List.mem_flatten, List.mem_map, List.mem_range]
    constructor
    · intro h i hi j hj
      exact h _ ⟨_, ⟨i, hi, rfl⟩, List.mem_map.2 ⟨j, List.mem_range.2 hj, rfl⟩⟩
    · rintro h x ⟨_, ⟨i, hi, rfl⟩, hx⟩
      obtain ⟨j, hj, rfl⟩ := List.mem_map.1 hx
      exact h i hi j (List.mem_range.1 hj)
  · rw [List.flatMap_def]
    exact (nanMean_spec _).2

/-! ## Infit and outfit -/

theorem itemScores_keyed (items M : ℕ) (keys : List ℤ) (hl : keys.length = items) (hpos : 0 < items)
    (hk : ∀ k ∈ keys, 0 ≤ k ∧ k < (M : ℤ)) :
    itemScores items M (some keys) = .ok ((List.range items).map fun j =>
      (List.range M).map fun m : ℕ => scoreOf keys[j]? m) := by
  cases keys with
  | nil => simp at hl; omega
  | cons k ks =>
    unfold itemScores
    simp only
    rw [if_neg (by omega), if_neg (by rw [not_not]; exact hk)]
    congr 1
    refine List.map_congr_left fun j hj => ?_
    have hj := List.mem_range.1 hj
    refine List.map_congr_left fun m _ => ?_
    rw [List.getElem?_eq_getElem (by omega)]
    simp only [scoreOf, Option.some.injEq, eq_comm]

theorem expectedItemScores_keyed (items M : ℕ) (keys : List ℤ) (hl : keys.length = items) (hpos : 0 < items)
    (hk : ∀ k ∈ keys, 0 ≤ k ∧ k < (M : ℤ)) (p : ℕ → ℕ → ℝ) :
    expectedItemScores ((List.range items).map fun j => (List.range M).map (p j)) M (some keys)
      = .ok ((List.range items).map fun j => keyedMean keys[j]? M (p j)) := by
  unfold expectedItemScores
  rw [List.length_map, List.length_range, itemScores_keyed items M keys hl hpos hk, bind_ok, zipWith_range]
  simp only [pure, Except.pure, dot_range, keyedMean, mul_comm]

/-- The variance of a score that is zero or one. -/
theorem keyedVariance_keyed (k : ℤ) (M : ℕ) (p : ℕ → ℝ) (h1 : ∑ m ∈ Finset.range M, p m = 1) :
    keyedVariance (some k) M p = keyedMean (some k) M p * (1 - keyedMean (some k) M p) := by
  have hs : ∀ m : ℕ, scoreOf (some k) m ^ 2 = scoreOf (some k) m := by
    intro m; simp only [scoreOf]; split <;> norm_num
  unfold keyedVariance
  set μ := keyedMean (some k) M p with hμ
  have : ∀ m ∈ Finset.range M, (scoreOf (some k) (m : ℤ) - μ) ^ 2 * p m
      = scoreOf (some k) m * p m - 2 * μ * (scoreOf (some k) m * p m) + μ ^ 2 * p m := by
    intro m _
    have := hs m
    linear_combination (p m) * this
  rw [Finset.sum_congr rfl this, Finset.sum_add_distrib, Finset.sum_sub_distrib, ← Finset.mul_sum, ← Finset.mul_sum, h1,
    show ∑ m ∈ Finset.range M, scoreOf (some k) (m : ℤ) * p m = μ from rfl]
  ring

/-- The key of item `j`. -/
def keyAt (mc : Option (List ℤ)) (j : ℕ) : Option ℤ := mc.bind fun keys => keys[j]?

/-- Squared error and variance of a response. -/
noncomputable def fitAt (key : Option ℤ) (M : ℕ) (p : ℕ → ℝ) (c : Cell) : Option FitCell :=
  if IsObserved c then some ⟨squaredError key M p c, keyedVariance key M p⟩ else none

/-- The answer key, if there is one, has one category of each item. -/
def ValidScoreKey (items M : ℕ) (mc : Option (List ℤ)) : Prop :=
  ∀ keys, mc = some keys → keys.length = items ∧ ∀ k ∈ keys, 0 ≤ k ∧ k < (M : ℤ)

theorem fitRow_eq (M items : ℕ) (hpos : 0 < items) (mc : Option (List ℤ)) (hmc : ValidScoreKey items M mc) (p : ℕ → ℕ → ℝ)
    (h1 : ∀ j, j < items → ∑ m ∈ Finset.range M, p j m = 1) (Y : ℕ → Cell) :
    fitRow M mc ((List.range items).map fun j => (List.range M).map (p j)) ((List.range items).map Y)
      = .ok ((List.range items).map fun j => fitAt (keyAt mc j) M (p j) (Y j)) := by
  have hget : ∀ {α : Type} (f : ℕ → α) (d : α) (j : ℕ), j < items → ((List.range items).map f).getD j d = f j := by
    intro α f d j hj
    rw [List.getD_eq_getElem _ _ (by simpa using hj)]
    simp
  unfold fitRow
  cases mc with
  | some keys =>
    obtain ⟨hl, hk⟩ := hmc keys rfl
    rw [expectedItemScores_keyed items M keys hl hpos hk, bind_ok]
    simp only [List.length_map, List.length_range]
    rw [if_neg (by omega), itemScores_keyed items M keys hl hpos hk, bind_ok, zipWith_range]
    simp only [pure, Except.pure, Except.ok.injEq]
    refine List.map_congr_left fun j hj => ?_
    have hj := List.mem_range.1 hj
    rw [hget _ _ j hj, hget _ _ j hj, hget _ _ j hj]
    unfold fitAt
    by_cases h : IsObserved (Y j)
    · rw [(cellMissing_eq_false _).2 h, if_pos h]
      simp only [Bool.false_eq_true, if_false, Option.some.injEq, FitCell.mk.injEq, keyAt, Option.bind_some]
      have hkj : keys[j]? = some keys[j] := List.getElem?_eq_getElem (by omega)
      obtain ⟨y, hy, -⟩ := id h
      rw [hkj, hy]
      constructor
      · simp only [squaredError, scoreOf, Option.getD_some, Option.some.injEq]
      · rw [keyedVariance_keyed _ _ _ (h1 j hj)]
        simp only [dot_range, keyedMean, mul_comm]
    · rw [(cellMissing_iff _).2 h, if_neg h]
      simp
  | none =>
    rw [expectedItemScores_none, bind_ok]
    simp only [List.length_map, List.length_range, pure, Except.pure, Except.ok.injEq]
    refine List.map_congr_left fun j hj => ?_
    have hj := List.mem_range.1 hj
    rw [hget _ _ j hj, hget _ _ j hj, hget _ _ j hj]
    unfold fitAt
    by_cases h : IsObserved (Y j)
    · rw [(cellMissing_eq_false _).2 h, if_pos h]
      simp only [Bool.false_eq_true, if_false, Option.some.injEq, FitCell.mk.injEq, keyAt, Option.bind_none]
      obtain ⟨y, hy, -⟩ := id h
      rw [hy]
      constructor
      · simp only [squaredError, scoreOf, Option.getD_some]
      · rw [list_sum_range]
        unfold keyedVariance scoreOf
        refine Finset.sum_congr rfl fun m hm => ?_
        rw [List.getD_eq_getElem _ _ (by simpa using hm)]
        simp
    · rw [(cellMissing_iff _).2 h, if_neg h]
      simp

theorem filterMap_fit (n : ℕ) (c : ℕ → Cell) (e v : ℕ → ℝ) :
    ((List.range n).map fun i => if IsObserved (c i) then some (⟨e i, v i⟩ : FitCell) else none).filterMap id
      = ((List.range n).filter fun i => IsObserved (c i)).map fun i => ⟨e i, v i⟩ := by
  rw [List.filterMap_map, ← List.filterMap_eq_map, List.filterMap_filter]
  refine List.filterMap_congr fun i _ => ?_
  by_cases h : IsObserved (c i) <;> simp [h]

theorem sum_filter_range (n : ℕ) (q : ℕ → Prop) [DecidablePred q] (f : ℕ → ℝ) :
    (((List.range n).filter fun i => q i).map f).sum = ∑ i ∈ (Finset.range n).filter q, f i := by
  rw [← List.sum_toFinset f (List.Nodup.filter _ List.nodup_range)]
  congr 1
  ext i; simp

theorem infitOf_spec (n : ℕ) (c : ℕ → Cell) (e v : ℕ → ℝ) :
    IsInfit ((Finset.range n).filter fun i => IsObserved (c i)) e v
      (infitOf ((List.range n).map fun i => if IsObserved (c i) then some ⟨e i, v i⟩ else none)) := by
  unfold infitOf IsInfit floatDiv
  rw [filterMap_fit, List.map_map, List.map_map]
  simp only [Function.comp_def]
  rw [sum_filter_range, sum_filter_range]
  exact ⟨fun h => by rw [if_pos h], fun h => by rw [if_neg h]⟩

theorem outfitOf_spec (n : ℕ) (c : ℕ → Cell) (e v : ℕ → ℝ) :
    IsOutfit ((Finset.range n).filter fun i => IsObserved (c i)) e v
      (outfitOf ((List.range n).map fun i => if IsObserved (c i) then some ⟨e i, v i⟩ else none)) := by
  unfold outfitOf IsOutfit
  rw [filterMap_fit]
  set l := (List.range n).filter fun i => IsObserved (c i) with hl
  have hmem : ∀ i, i ∈ l ↔ i ∈ (Finset.range n).filter fun i => IsObserved (c i) := by intro i; simp [hl]
  have hcard : l.length = ((Finset.range n).filter fun i => IsObserved (c i)).card := by
    rw [← List.toFinset_card_of_nodup (List.Nodup.filter _ List.nodup_range)]
    congr 1
    ext i; rw [List.mem_toFinset]; exact hmem i
  have hempty : (Finset.range n).filter (fun i => IsObserved (c i)) = ∅ ↔ l = [] := by
    rw [← Finset.card_eq_zero, ← hcard, List.length_eq_zero_iff]
  constructor
  · rintro (h | ⟨i, hi, hv, he⟩)
    · rw [hempty.1 h]
      simp [floatDiv]
    · rw [mapM_option_none _ _ ⟨⟨e i, v i⟩, List.mem_map.2 ⟨i, (hmem i).2 hi, rfl⟩, by
        simp [weightedError, he, hv, floatDiv]⟩]
      rfl
  · intro hne h
    rw [mapM_option_some _ _ (fun x => x.mse / x.variance)]
    · rw [Option.bind_some, List.map_map, List.length_map]
      simp only [Function.comp_def]
      rw [hl, sum_filter_range, ← hl, hcard, floatDiv, if_neg]
      simpa [Finset.card_eq_zero] using hne
    · intro x hx
      obtain ⟨i, hi, rfl⟩ := List.mem_map.1 hx
      unfold weightedError floatDiv
      simp only
      split
      · rename_i h0; rw [h0, zero_div]
      · rename_i h0
        rw [if_neg fun hv => h0 (h i ((hmem i).1 hi) hv)]

/-- C58: the infit and outfit statistics of items and respondents are the mean squares of their observed responses, with
the mean and the variance of the score under the model's probabilities. -/
theorem C58_fit_statistics (n items M : ℕ) (hpos : 0 < items) (mc : Option (List ℤ)) (hmc : ValidScoreKey items M mc)
    (P : ℕ → ℕ → ℕ → ℝ) (h1 : ∀ i, i < n → ∀ j, j < items → ∑ m ∈ Finset.range M, P i j m = 1) (Y : ℕ → ℕ → Cell) :
    (∃ infit outfit, infitOutfit M items mc "item" (tablesOf n items M P) (dataOf n items Y) = .ok (infit, outfit) ∧
      infit.length = items ∧ outfit.length = items ∧
      ∀ j, j < items → ∃ x y, infit[j]? = some x ∧ outfit[j]? = some y ∧
        IsInfit ((Finset.range n).filter fun i => IsObserved (Y i j))
          (fun i => squaredError (keyAt mc j) M (P i j) (Y i j)) (fun i => keyedVariance (keyAt mc j) M (P i j)) x ∧
        IsOutfit ((Finset.range n).filter fun i => IsObserved (Y i j))
          (fun i => squaredError (keyAt mc j) M (P i j) (Y i j)) (fun i => keyedVariance (keyAt mc j) M (P i j)) y) ∧
    (∃ infit outfit, infitOutfit M items mc "respondent" (tablesOf n items M P) (dataOf n items Y) = .ok (infit, outfit) ∧
      infit.length = n ∧ outfit.length = n ∧
      ∀ i, i < n → ∃ x y, infit[i]? = some x ∧ outfit[i]? = some y ∧
        IsInfit ((Finset.range items).filter fun j => IsObserved (Y i j))
          (fun j => squaredError (keyAt mc j) M (P i j) (Y i j)) (fun j => keyedVariance (keyAt mc j) M (P i j)) x ∧
        IsOutfit ((Finset.range items).filter fun j => IsObserved (Y i j))
          (fun j => squaredError (keyAt mc j) M (P i j) (Y i j)) (fun j => keyedVariance (keyAt mc j) M (P i j)) y) := by
  have hrows : (List.zip (tablesOf n items M P) (dataOf n items Y)).mapM (fun td => fitRow M mc td.1 td.2)
      = .ok ((List.range n).map fun i => (List.range items).map fun j => fitAt (keyAt mc j) M (P i j) (Y i j)) := by
    rw [zip_tables, mapM_ok_iff]
    refine ⟨by simp, ?_⟩
    intro i x hx
    have hi := lt_of_getElem?_some hx
    rw [List.length_map, List.length_range] at hi
    rw [List.getElem?_map, List.getElem?_range hi, Option.map_some] at hx
    obtain rfl := Option.some.inj hx
    refine ⟨_, by rw [List.getElem?_map, List.getElem?_range hi]; rfl, ?_⟩
    exact fitRow_eq M items hpos mc hmc (P i) (h1 i hi) (Y i)
  constructor
  · refine ⟨_, _, by unfold infitOutfit; rw [if_neg (by simp), hrows]; rfl, by simp, by simp, ?_⟩
    intro j hj
    have hcol : (((List.range n).map fun i => (List.range items).map fun j => fitAt (keyAt mc j) M (P i j) (Y i j)).map
        fun r => r.getD j none) = (List.range n).map fun i => fitAt (keyAt mc j) M (P i j) (Y i j) := by
      rw [List.map_map]
      refine List.map_congr_left fun i _ => ?_
      simp only [Function.comp]
      rw [List.getD_eq_getElem _ _ (by simpa using hj)]
      simp
    refine ⟨_, _, by rw [List.getElem?_map, List.getElem?_map, List.getElem?_range hj]; rfl,
      by rw [List.getElem?_map, List.getElem?_map, List.getElem?_range hj]; rfl, ?_, ?_⟩
    · simp only [hcol]
      exact infitOf_spec n (fun i => Y i j) _ _
    · simp only [hcol]
      exact outfitOf_spec n (fun i => Y i j) _ _
  · refine ⟨_, _, by unfold infitOutfit; rw [if_neg (by simp), hrows]; rfl, by simp, by simp, ?_⟩
    intro i hi
    refine ⟨_, _, by rw [List.getElem?_map, List.getElem?_map, List.getElem?_range hi]; rfl,
      by rw [List.getElem?_map, List.getElem?_map, List.getElem?_range hi]; rfl, ?_, ?_⟩
    · exact infitOf_spec items (Y i) _ _
    · exact outfitOf_spec items (Y i) _ _

theorem keyedVariance_nonneg (key : Option ℤ) (M : ℕ) (p : ℕ → ℝ) (h0 : ∀ m, 0 ≤ p m) : 0 ≤ keyedVariance key M p :=
  Finset.sum_nonneg fun m _ => mul_nonneg (sq_nonneg _) (h0 m)

/-- C58: infit and outfit are nonnegative wherever they are defined. -/
theorem C58_fit_nonneg (O : Finset ℕ) (e v : ℕ → ℝ) (he : ∀ i ∈ O, 0 ≤ e i) (hv : ∀ i ∈ O, 0 ≤ v i) (x : ℝ) :
    (IsInfit O e v (some x) → 0 ≤ x) ∧ (IsOutfit O e v (some x) → 0 ≤ x) := by
  constructor
  · rintro ⟨h0, h1⟩
    by_cases h : ∑ i ∈ O, v i = 0
    · have := h0 h; simp at this
    · rw [Option.some.inj (h1 h)]
      exact div_nonneg (Finset.sum_nonneg he) (Finset.sum_nonneg hv)
  · rintro ⟨h0, h1⟩
    by_cases h : O = ∅ ∨ ∃ i ∈ O, v i = 0 ∧ e i ≠ 0
    · have := h0 h; simp at this
    · push Not at h
      have hne : O ≠ ∅ := by rw [← Finset.nonempty_iff_ne_empty]; exact h.1
      rw [Option.some.inj (h1 hne h.2)]
      exact div_nonneg (Finset.sum_nonneg fun i hi => div_nonneg (he i hi) (hv i hi)) (by positivity)

/-- C58: a level other than 'item' and 'respondent' is refused. -/
theorem C58_level_refused (M items : ℕ) (mc : Option (List ℤ)) (level : String) (h : level ≠ "item" ∧ level ≠ "respondent")
    (tables : List (List (List ℝ))) (data : List (List Cell)) :
    infitOutfit M items mc level tables data = .error .valueError := by
  unfold infitOutfit
  rw [if_pos (by simp [h.1, h.2])]

/-! ## The hypotheses are met: two respondents, two items with three categories, one missing response -/

/-- Probabilities of the example. -/
noncomputable def exFitP : ℕ → ℕ → ℕ → ℝ := fun _ j m => if m < 3 then (if j = 0 then 1 / 3 else if m = 0 then 1 / 2 else 1 / 4) else 0

/-- Responses of the example. -/
def exFitY : ℕ → ℕ → Cell := fun i j => if i = 0 then some 2 else if j = 0 then none else some 0

theorem exFitP_sum (i j : ℕ) : ∑ m ∈ Finset.range 3, exFitP i j m = 1 := by
  by_cases h : j = 0 <;> simp [exFitP, Finset.sum_range_succ, h] <;> norm_num

example : ∃ rows, residuals 3 2 (some [0, 1]) "none" (tablesOf 2 2 3 exFitP) (dataOf 2 2 exFitY) = .ok (.matrix rows) :=
  ⟨_, C58_residuals 2 2 3 (by norm_num) (some [0, 1]) exFitP exFitY (by
    intro i _ j _ y hy _
    unfold exFitY at hy
    split_ifs at hy <;> (obtain rfl := Option.some.inj hy; norm_num))⟩

example : ∃ infit outfit, infitOutfit 3 2 none "item" (tablesOf 2 2 3 exFitP) (dataOf 2 2 exFitY) = .ok (infit, outfit) :=
  (C58_fit_statistics 2 2 3 (by norm_num) none (by intro _ h; cases h) exFitP (fun i _ j _ => exFitP_sum i j) exFitY).1.imp
    fun _ h => h.imp fun _ h => h.1

example : residualAt false 3 (exFitP 0 0) (some 2) = some 1 ∧ (-((3 : ℝ) - 1) ≤ 1 ∧ (1 : ℝ) ≤ 3 - 1) := by
  have h : residualAt false 3 (exFitP 0 0) (some 2) = some 1 := by
    rw [residualAt, if_pos ⟨2, rfl, by norm_num⟩]
    simp [keyedMean, scoreOf, exFitP, Finset.sum_range_succ]
    norm_num
  have := (C58_residual_range false 3 3 le_rfl (exFitP 0 0) (by intro m; unfold exFitP; split_ifs <;> norm_num) (exFitP_sum 0 0)
    (by intro m hm; simp [exFitP]; omega) 2 (by norm_num) 1 h).2 rfl
  exact ⟨h, by exact_mod_cast this⟩

end Irt
