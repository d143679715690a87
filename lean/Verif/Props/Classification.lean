import Verif.Model.Evaluator
import Verif.Spec.Evaluator
import Verif.Lemmas.Layout
import Verif.Lemmas.Scoring
import Mathlib.Tactic.FieldSimp
import Mathlib.Tactic.Positivity

/-!
# C57: accuracy, precision, recall and F1
-/

namespace Irt

open scoped BigOperators

theorem numberWith_eq (P : ℕ → ℤ → Bool) (pairs : List (ℕ × ℤ)) :
    numberWith P pairs = pairs.countP fun q => P q.1 q.2 := by
  rw [numberWith, List.countP_eq_length_filter]

theorem truePos_eq (r : ℕ) (pairs : List (ℕ × ℤ)) :
    truePos r pairs = numberWith (fun p o => p = r ∧ o = r) pairs := by
  rw [numberWith_eq, truePos]
  exact List.countP_congr fun q _ => by simp; tauto

theorem truePos_add_falsePos (r : ℕ) (pairs : List (ℕ × ℤ)) :
    truePos r pairs + falsePos r pairs = numberWith (fun p _ => p = r) pairs := by
  rw [numberWith_eq]
  induction pairs with
  | nil => rfl
  | cons q l ih =>
    simp only [truePos, falsePos, List.countP_cons] at ih ⊢
    rw [← ih]
    by_cases h1 : q.1 = r <;> by_cases h2 : q.2 = (r : ℤ) <;> simp [h1, h2] <;> omega

theorem truePos_add_falseNeg (r : ℕ) (pairs : List (ℕ × ℤ)) :
    truePos r pairs + falseNeg r pairs = numberWith (fun _ o => o = r) pairs := by
  rw [numberWith_eq]
  induction pairs with
  | nil => rfl
  | cons q l ih =>
    simp only [truePos, falseNeg, List.countP_cons] at ih ⊢
    rw [← ih]
    by_cases h1 : q.1 = r <;> by_cases h2 : q.2 = (r : ℤ) <;> simp [h1, h2] <;> omega

theorem categoryPrecision_eq (r : ℕ) (pairs : List (ℕ × ℤ)) : categoryPrecision r pairs = precisionOf r pairs := by
  unfold categoryPrecision precisionOf
  rw [← truePos_eq, ← truePos_add_falsePos]
  split
  · rename_i h; simp [h]
  · push_cast; rfl

theorem categoryRecall_eq (r : ℕ) (pairs : List (ℕ × ℤ)) : categoryRecall r pairs = recallOf r pairs := by
  unfold categoryRecall recallOf
  rw [← truePos_eq, ← truePos_add_falseNeg]
  split
  · rename_i h; simp [h]
  · push_cast; rfl

theorem categoryF1_eq (r : ℕ) (pairs : List (ℕ × ℤ)) : categoryF1 r pairs = f1Of r pairs := by
  unfold categoryF1 f1Of
  rw [categoryPrecision_eq, categoryRecall_eq]
  split
  · rename_i h; rw [mul_assoc, h]; simp
  · rfl

theorem responseWeight_eq (r : ℕ) (pairs : List (ℕ × ℤ)) (h : pairs ≠ []) :
    responseWeight r pairs = some (shareOf r pairs) := by
  unfold responseWeight floatDiv shareOf
  rw [if_neg (by simpa using h), numberWith_eq]

theorem responseWeight_nil (r : ℕ) : responseWeight r [] = none := by simp [responseWeight, floatDiv]

theorem categoryAverage_eq (cats : ℕ) (m : ℕ → ℝ) : categoryAverage cats m = (∑ r ∈ Finset.range cats, m r) / cats := by
  unfold categoryAverage
  rw [list_sum_range, Finset.sum_div]

theorem weightedAverage_eq (cats : ℕ) (pairs : List (ℕ × ℤ)) (h : pairs ≠ []) (m : ℕ → ℝ) :
    weightedAverage cats pairs m = some (∑ r ∈ Finset.range cats, m r * shareOf r pairs) := by
  unfold weightedAverage
  rw [mapM_option_some _ _ (fun r => m r * shareOf r pairs) fun r _ => by rw [responseWeight_eq r pairs h]; rfl]
  rw [Option.map_some, list_sum_range]

theorem weightedAverage_nil (cats : ℕ) (hc : 0 < cats) (m : ℕ → ℝ) : weightedAverage cats [] m = none := by
  unfold weightedAverage
  rw [mapM_option_none _ _ ⟨0, by simpa using hc, by rw [responseWeight_nil]; rfl⟩]
  rfl

theorem observedPairs_eq (n : ℕ) (pred : ℕ → ℕ) (obs : ℕ → Cell) :
    ItemPairs pred obs n (observedPairs ((List.range n).map pred) ((List.range n).map obs)) := by
  unfold ItemPairs observedPairs
  rw [List.zip_map', List.filterMap_map]
  refine List.filterMap_congr fun i _ => ?_
  simp only [Function.comp]
  cases obs i with
  | none => rfl
  | some y =>
    by_cases h : y = -1 <;> simp [cellMissing, h]

/-- C57, definition of the metrics: item `j` gets the averages over its categories of precision, recall and F1, counted
over the respondents with an observed response, and the averages weighted by the observed proportions, which are NaN if
nobody answered the item. -/
theorem C57_definition (argmax : List ℝ → ℕ) (cats : List ℕ) (n : ℕ) (T : ℕ → List (List ℝ)) (Y : ℕ → List Cell)
    (j c : ℕ) (hc : cats[j]? = some c) (hpos : 0 < c) :
    ∃ m pairs, (predictions argmax cats ((List.range n).map T) ((List.range n).map Y))[j]? = some m ∧
      ItemPairs (fun i => argmax ((T i).getD j [])) (fun i => (Y i).getD j none) n pairs ∧
      m.precision = (∑ r ∈ Finset.range c, precisionOf r pairs) / c ∧
      m.recall = (∑ r ∈ Finset.range c, recallOf r pairs) / c ∧
      m.f1 = (∑ r ∈ Finset.range c, f1Of r pairs) / c ∧
      (pairs = [] → m.wPrecision = none ∧ m.wRecall = none ∧ m.wF1 = none) ∧
      (pairs ≠ [] →
        m.wPrecision = some (∑ r ∈ Finset.range c, precisionOf r pairs * shareOf r pairs) ∧
        m.wRecall = some (∑ r ∈ Finset.range c, recallOf r pairs * shareOf r pairs) ∧
        m.wF1 = some (∑ r ∈ Finset.range c, f1Of r pairs * shareOf r pairs)) := by
  refine ⟨_, observedPairs (((List.range n).map T).map fun t => argmax (t.getD j []))
    (((List.range n).map Y).map fun r => r.getD j none),
    by unfold predictions; rw [List.getElem?_mapIdx, hc]; rfl, ?_, ?_, ?_, ?_, ?_, ?_⟩
  · rw [List.map_map, List.map_map]
    exact observedPairs_eq n _ _
  · simp only [itemMetrics, categoryAverage_eq, categoryPrecision_eq]
  · simp only [itemMetrics, categoryAverage_eq, categoryRecall_eq]
  · simp only [itemMetrics, categoryAverage_eq, categoryF1_eq]
  · intro h
    simp only [itemMetrics, h]
    exact ⟨weightedAverage_nil c hpos _, weightedAverage_nil c hpos _, weightedAverage_nil c hpos _⟩
  · intro h
    simp only [itemMetrics, weightedAverage_eq c _ h, categoryPrecision_eq, categoryRecall_eq, categoryF1_eq]
    exact ⟨trivial, trivial, trivial⟩

theorem numberWith_le {P Q : ℕ → ℤ → Bool} (h : ∀ p o, P p o = true → Q p o = true) (pairs : List (ℕ × ℤ)) :
    numberWith P pairs ≤ numberWith Q pairs := by
  rw [numberWith_eq, numberWith_eq]
  exact List.countP_mono_left fun q _ => h _ _

theorem ratio_mem {a b : ℕ} (h : a ≤ b) : 0 ≤ (a : ℝ) / b ∧ (a : ℝ) / b ≤ 1 := by
  refine ⟨by positivity, div_le_one_of_le₀ (by exact_mod_cast h) (by positivity)⟩

theorem precisionOf_mem (r : ℕ) (pairs : List (ℕ × ℤ)) : 0 ≤ precisionOf r pairs ∧ precisionOf r pairs ≤ 1 :=
  ratio_mem (numberWith_le (by simp) pairs)

theorem recallOf_mem (r : ℕ) (pairs : List (ℕ × ℤ)) : 0 ≤ recallOf r pairs ∧ recallOf r pairs ≤ 1 :=
  ratio_mem (numberWith_le (by simp) pairs)

theorem f1Of_mem (r : ℕ) (pairs : List (ℕ × ℤ)) : 0 ≤ f1Of r pairs ∧ f1Of r pairs ≤ 1 := by
  obtain ⟨p0, p1⟩ := precisionOf_mem r pairs
  obtain ⟨q0, q1⟩ := recallOf_mem r pairs
  unfold f1Of
  refine ⟨by positivity, div_le_one_of_le₀ ?_ (by positivity)⟩
  nlinarith

theorem shareOf_nonneg (r : ℕ) (pairs : List (ℕ × ℤ)) : 0 ≤ shareOf r pairs := by unfold shareOf; positivity

/-- The number of pairs with an observed response below `c`. -/
theorem sum_numberWith (c : ℕ) (pairs : List (ℕ × ℤ)) (P : ℕ → ℤ → Bool) :
    ∑ r ∈ Finset.range c, numberWith (fun p o => P p o ∧ o = r) pairs
      = numberWith (fun p o => P p o ∧ 0 ≤ o ∧ o < c) pairs := by
  simp only [numberWith_eq]
  induction pairs with
  | nil => simp
  | cons q l ih =>
    simp only [List.countP_cons, Finset.sum_add_distrib, ih]
    congr 1
    by_cases hP : P q.1 q.2 = true
    · by_cases hq : 0 ≤ q.2 ∧ q.2 < (c : ℤ)
      · obtain ⟨h0, h1⟩ := hq
        rw [Finset.sum_eq_single q.2.toNat]
        · have : ((q.2.toNat : ℕ) : ℤ) = q.2 := Int.toNat_of_nonneg h0
          simp [hP, this, h0, h1]
        · intro r _ hr
          have : q.2 ≠ (r : ℤ) := fun h => hr (by rw [h]; simp)
          simp [this]
        · intro h
          exact absurd (Finset.mem_range.2 (by omega)) h
      · rw [Finset.sum_eq_zero]
        · simp only [hP, true_and]
          rw [if_neg (by simpa using hq)]
        · intro r hr
          have hr := Finset.mem_range.1 hr
          have : q.2 ≠ (r : ℤ) := fun h => hq ⟨by omega, by omega⟩
          simp [this]
    · simp [hP]

theorem sum_shareOf_le (c : ℕ) (pairs : List (ℕ × ℤ)) : ∑ r ∈ Finset.range c, shareOf r pairs ≤ 1 := by
  unfold shareOf
  rw [← Finset.sum_div]
  refine div_le_one_of_le₀ ?_ (by positivity)
  have h := sum_numberWith c pairs fun _ _ => true
  simp only [true_and] at h
  rw [← Nat.cast_sum, h]
  exact_mod_cast List.length_filter_le _ _

theorem sum_shareOf_eq (c : ℕ) (pairs : List (ℕ × ℤ)) (hne : pairs ≠ []) (hv : ∀ q ∈ pairs, 0 ≤ q.2 ∧ q.2 < (c : ℤ)) :
    ∑ r ∈ Finset.range c, shareOf r pairs = 1 := by
  unfold shareOf
  rw [← Finset.sum_div]
  have h := sum_numberWith c pairs fun _ _ => true
  simp only [true_and] at h
  have hl : (pairs.length : ℝ) ≠ 0 := by simpa using hne
  rw [← Nat.cast_sum, h, div_eq_one_iff_eq hl]
  have : numberWith (fun _ o => 0 ≤ o ∧ o < (c : ℤ)) pairs = pairs.length := by
    unfold numberWith
    rw [List.filter_eq_self.2 fun q hq => by simpa using hv q hq]
  rw [this]

theorem weighted_mem (c : ℕ) (pairs : List (ℕ × ℤ)) (m : ℕ → ℝ) (hm : ∀ r, 0 ≤ m r ∧ m r ≤ 1) :
    0 ≤ ∑ r ∈ Finset.range c, m r * shareOf r pairs ∧ ∑ r ∈ Finset.range c, m r * shareOf r pairs ≤ 1 :=
  ⟨Finset.sum_nonneg fun r _ => mul_nonneg (hm r).1 (shareOf_nonneg r pairs),
    (Finset.sum_le_sum fun r _ => mul_le_of_le_one_left (shareOf_nonneg r pairs) (hm r).2).trans
      (sum_shareOf_le c pairs)⟩

theorem average_mem (c : ℕ) (m : ℕ → ℝ) (hm : ∀ r, 0 ≤ m r ∧ m r ≤ 1) :
    0 ≤ (∑ r ∈ Finset.range c, m r) / c ∧ (∑ r ∈ Finset.range c, m r) / c ≤ 1 := by
  refine ⟨div_nonneg (Finset.sum_nonneg fun r _ => (hm r).1) (by positivity), div_le_one_of_le₀ ?_ (by positivity)⟩
  calc ∑ r ∈ Finset.range c, m r ≤ ∑ _r ∈ Finset.range c, (1 : ℝ) := Finset.sum_le_sum fun r _ => (hm r).2
    _ = c := by simp

/-- C57: every metric of every item is between 0 and 1 (the weighted ones are NaN for an item without responses). -/
theorem C57_range (argmax : List ℝ → ℕ) (cats : List ℕ) (n : ℕ) (T : ℕ → List (List ℝ)) (Y : ℕ → List Cell)
    (hcats : ∀ c ∈ cats, 0 < c) (m : ItemMetrics)
    (hm : m ∈ predictions argmax cats ((List.range n).map T) ((List.range n).map Y)) :
    (0 ≤ m.precision ∧ m.precision ≤ 1) ∧ (0 ≤ m.recall ∧ m.recall ≤ 1) ∧ (0 ≤ m.f1 ∧ m.f1 ≤ 1) ∧
      (∀ x, m.wPrecision = some x → 0 ≤ x ∧ x ≤ 1) ∧ (∀ x, m.wRecall = some x → 0 ≤ x ∧ x ≤ 1) ∧
      (∀ x, m.wF1 = some x → 0 ≤ x ∧ x ≤ 1) := by
  obtain ⟨j, hj⟩ := List.mem_iff_getElem?.1 hm
  have hlt : j < cats.length := by
    have := lt_of_getElem?_some hj
    simpa [predictions] using this
  have hc := List.getElem?_eq_getElem hlt
  obtain ⟨m', pairs, h', -, e1, e2, e3, h0, h1⟩ := C57_definition argmax cats n T Y j _ hc (hcats _ (List.getElem_mem hlt))
  obtain rfl := Option.some.inj (hj.symm.trans h')
  rw [e1, e2, e3]
  refine ⟨average_mem _ _ fun r => precisionOf_mem r pairs, average_mem _ _ fun r => recallOf_mem r pairs,
    average_mem _ _ fun r => f1Of_mem r pairs, ?_⟩
  by_cases hp : pairs = []
  · obtain ⟨a, b, c⟩ := h0 hp
    rw [a, b, c]
    exact ⟨fun x h => by simp at h, fun x h => by simp at h, fun x h => by simp at h⟩
  · obtain ⟨a, b, c⟩ := h1 hp
    rw [a, b, c]
    refine ⟨fun x h => ?_, fun x h => ?_, fun x h => ?_⟩ <;> obtain rfl := Option.some.inj h
    · exact weighted_mem _ _ _ fun r => precisionOf_mem r pairs
    · exact weighted_mem _ _ _ fun r => recallOf_mem r pairs
    · exact weighted_mem _ _ _ fun r => f1Of_mem r pairs

/-! ## Weighted recall is accuracy -/

theorem recall_times_share (r : ℕ) (pairs : List (ℕ × ℤ)) :
    recallOf r pairs * shareOf r pairs = numberWith (fun p o => p = r ∧ o = r) pairs / pairs.length := by
  unfold recallOf shareOf
  by_cases h : (numberWith (fun _ o => o = r) pairs : ℝ) = 0
  · have h0 : numberWith (fun _ o => decide (o = (r : ℤ))) pairs = 0 := by exact_mod_cast h
    have : numberWith (fun p o => p = r ∧ o = r) pairs = 0 := by
      have := numberWith_le (P := fun p o => p = r ∧ o = r) (Q := fun _ o => o = r) (by simp) pairs
      omega
    rw [this]; simp
  · field_simp

theorem weightedRecall_eq (c : ℕ) (pairs : List (ℕ × ℤ)) (hv : ∀ q ∈ pairs, 0 ≤ q.2 ∧ q.2 < (c : ℤ)) :
    ∑ r ∈ Finset.range c, recallOf r pairs * shareOf r pairs
      = numberWith (fun p o => o = p) pairs / pairs.length := by
  simp only [recall_times_share]
  rw [← Finset.sum_div]
  congr 1
  have h := sum_numberWith c pairs fun p o => o = (p : ℤ)
  have e : ∀ r : ℕ, numberWith (fun p o => p = r ∧ o = r) pairs
      = numberWith (fun p o => decide (o = (p : ℤ)) = true ∧ o = r) pairs := by
    intro r
    rw [numberWith_eq, numberWith_eq]
    refine List.countP_congr fun q _ => ?_
    simp only [decide_eq_true_eq]
    constructor
    · rintro ⟨rfl, h⟩; exact ⟨h, h⟩
    · rintro ⟨h, h'⟩; exact ⟨by omega, h'⟩
  rw [← Nat.cast_sum]
  simp only [e]
  rw [h]
  norm_cast
  rw [numberWith_eq, numberWith_eq]
  refine List.countP_congr fun q hq => ?_
  have := hv q hq
  simp [this]

theorem nanMean_num (xs : List Num) :
    nanMean xs = floatDiv (xs.filterMap id).sum ((xs.filterMap id).length : ℕ) := by
  unfold nanMean floatDiv
  cases h : xs.filterMap id with
  | nil => simp
  | cons y ys =>
    have : ((ys.length : ℝ) + 1) ≠ 0 := by positivity
    simp [this]

/-- The accuracy cells of an item, without the missing ones. -/
theorem accuracy_observed (n : ℕ) (pred : ℕ → ℕ) (obs : ℕ → Cell) (pairs : List (ℕ × ℤ)) (h : ItemPairs pred obs n pairs) :
    ((List.range n).map fun i => accuracyCell (pred i) (obs i)).filterMap id
      = pairs.map fun q => if q.2 = (q.1 : ℤ) then (1 : ℝ) else 0 := by
  rw [h, List.filterMap_map, List.map_filterMap]
  refine List.filterMap_congr fun i _ => ?_
  simp only [Function.comp, id]
  cases obs i with
  | none => simp [accuracyCell, cellMissing]
  | some y => by_cases hy : y = -1 <;> simp [accuracyCell, cellMissing, hy]

theorem sum_indicator (pairs : List (ℕ × ℤ)) (P : ℕ → ℤ → Bool) :
    (pairs.map fun q => if P q.1 q.2 = true then (1 : ℝ) else 0).sum = numberWith P pairs := by
  rw [numberWith_eq]
  induction pairs with
  | nil => simp
  | cons q l ih =>
    rw [List.map_cons, List.sum_cons, ih, List.countP_cons]
    push_cast
    rw [add_comm]

theorem column_accuracy (argmax : List ℝ → ℕ) (items n : ℕ) (T : ℕ → List (List ℝ)) (Y : ℕ → List Cell)
    (hT : ∀ i, i < n → (T i).length = items) (hY : ∀ i, i < n → (Y i).length = items) (j : ℕ) (hj : j < items) :
    column (List.zipWith (fun t row => List.zipWith (fun p c => accuracyCell (argmax p) c) t row)
        ((List.range n).map T) ((List.range n).map Y)) j
      = (List.range n).map fun i => accuracyCell (argmax ((T i).getD j [])) ((Y i).getD j none) := by
  unfold column
  rw [List.zipWith_map, List.zipWith_self, List.map_map]
  refine List.map_congr_left fun i hi => ?_
  have hi := List.mem_range.1 hi
  have h1 : j < (T i).length := by rw [hT i hi]; exact hj
  have h2 : j < (Y i).length := by rw [hY i hi]; exact hj
  simp only [Function.comp, List.getD_eq_getElem?_getD, List.getElem?_zipWith, List.getElem?_eq_getElem h1,
    List.getElem?_eq_getElem h2, Option.getD_some]

/-- C57: the weighted recall of an item is its accuracy, for every prediction and every data matrix with responses among
the categories of the item; both are NaN if nobody answered the item. -/
theorem C57_weighted_recall (argmax : List ℝ → ℕ) (cats : List ℕ) (n : ℕ) (T : ℕ → List (List ℝ)) (Y : ℕ → List Cell)
    (hT : ∀ i, i < n → (T i).length = cats.length) (hY : ∀ i, i < n → (Y i).length = cats.length) (j c : ℕ)
    (hc : cats[j]? = some c) (hpos : 0 < c)
    (hv : ∀ i, i < n → ∀ y, (Y i)[j]? = some (some y) → y ≠ -1 → 0 ≤ y ∧ y < (c : ℤ)) :
    ∃ accs m, accuracy argmax cats.length "item" ((List.range n).map T) ((List.range n).map Y) = .vector accs ∧
      (predictions argmax cats ((List.range n).map T) ((List.range n).map Y))[j]? = some m ∧
      accs[j]? = some m.wRecall := by
  obtain ⟨m, pairs, hm, hp, -, -, -, h0, h1⟩ := C57_definition argmax cats n T Y j c hc hpos
  refine ⟨_, m, rfl, hm, ?_⟩
  have hj := lt_of_getElem?_some hc
  rw [List.getElem?_map, List.getElem?_range hj, Option.map_some, column_accuracy argmax _ n T Y hT hY j hj, nanMean_num,
    accuracy_observed n _ _ pairs hp]
  have hs := sum_indicator pairs fun p o => decide (o = (p : ℤ))
  simp only [decide_eq_true_eq] at hs
  rw [hs, List.length_map]
  by_cases hn : pairs = []
  · rw [(h0 hn).2.1, hn]; simp [floatDiv]
  · rw [(h1 hn).2.1, weightedRecall_eq c pairs, floatDiv, if_neg (by simpa using hn)]
    intro q hq
    rw [hp, List.mem_filterMap] at hq
    obtain ⟨i, hi, e⟩ := hq
    have hi := List.mem_range.1 hi
    have h2 : j < (Y i).length := by rw [hY i hi]; exact hj
    simp only [List.getD_eq_getElem?_getD, List.getElem?_eq_getElem h2, Option.getD_some] at e
    split at e
    · simp at e
    · rename_i y hy
      split at e
      · simp at e
      · rename_i hne
        obtain rfl := Option.some.inj e
        exact hv i hi y (by rw [List.getElem?_eq_getElem h2, hy]) hne

/-! ## Perfect predictions -/

theorem perfect_metrics (pairs : List (ℕ × ℤ)) (hall : ∀ q ∈ pairs, q.2 = (q.1 : ℤ)) (r : ℕ) :
    numberWith (fun p o => p = r ∧ o = r) pairs = numberWith (fun p _ => p = r) pairs ∧
      numberWith (fun p o => p = r ∧ o = r) pairs = numberWith (fun _ o => o = r) pairs := by
  simp only [numberWith_eq]
  constructor <;> refine List.countP_congr fun q hq => ?_ <;> have := hall q hq <;> simp <;> omega

theorem perfect_values (pairs : List (ℕ × ℤ)) (hall : ∀ q ∈ pairs, q.2 = (q.1 : ℤ)) (r : ℕ) :
    (numberWith (fun _ o => o = r) pairs = 0 ∧ precisionOf r pairs = 0 ∧ recallOf r pairs = 0 ∧ f1Of r pairs = 0) ∨
    (numberWith (fun _ o => o = r) pairs ≠ 0 ∧ precisionOf r pairs = 1 ∧ recallOf r pairs = 1 ∧ f1Of r pairs = 1) := by
  obtain ⟨h1, h2⟩ := perfect_metrics pairs hall r
  by_cases h : numberWith (fun _ o => decide (o = (r : ℤ))) pairs = 0
  · left
    have hp : precisionOf r pairs = 0 := by unfold precisionOf; rw [h2, h]; simp
    have hr : recallOf r pairs = 0 := by unfold recallOf; rw [h2, h]; simp
    exact ⟨h, hp, hr, by unfold f1Of; rw [hp]; simp⟩
  · right
    have hR : (numberWith (fun _ o => decide (o = (r : ℤ))) pairs : ℝ) ≠ 0 := by exact_mod_cast h
    have hp : precisionOf r pairs = 1 := by unfold precisionOf; rw [← h1, h2]; exact div_self hR
    have hr : recallOf r pairs = 1 := by unfold recallOf; rw [h2]; exact div_self hR
    exact ⟨h, hp, hr, by unfold f1Of; rw [hp, hr]; norm_num⟩

/-- C57, the part that holds of "a perfect prediction gives one": accuracy and the weighted metrics of an item are one
if all its observed responses are predicted. The unweighted metrics are the proportion of the categories that were
observed at least once. -/
theorem C57_perfect_partial (argmax : List ℝ → ℕ) (cats : List ℕ) (n : ℕ) (T : ℕ → List (List ℝ)) (Y : ℕ → List Cell)
    (j c : ℕ) (hc : cats[j]? = some c) (hpos : 0 < c) (pairs : List (ℕ × ℤ))
    (hp : ItemPairs (fun i => argmax ((T i).getD j [])) (fun i => (Y i).getD j none) n pairs) (hne : pairs ≠ [])
    (hv : ∀ q ∈ pairs, 0 ≤ q.2 ∧ q.2 < (c : ℤ)) (hall : ∀ q ∈ pairs, q.2 = (q.1 : ℤ)) :
    ∃ m, (predictions argmax cats ((List.range n).map T) ((List.range n).map Y))[j]? = some m ∧
      m.wPrecision = some 1 ∧ m.wRecall = some 1 ∧ m.wF1 = some 1 ∧
      m.precision = (((Finset.range c).filter fun r : ℕ => ∃ q ∈ pairs, q.2 = (r : ℤ)).card : ℝ) / c ∧
      m.recall = m.precision ∧ m.f1 = m.precision := by
  obtain ⟨m, pairs', hm, hp', e1, e2, e3, -, h1⟩ := C57_definition argmax cats n T Y j c hc hpos
  have : pairs' = pairs := by rw [hp', hp]
  subst this
  obtain ⟨w1, w2, w3⟩ := h1 hne
  have hz : ∀ r : ℕ, numberWith (fun _ o => decide (o = (r : ℤ))) pairs' = 0 → shareOf r pairs' = 0 := by
    intro r h; unfold shareOf; rw [h]; simp
  have key : ∀ M : ℕ → ℝ, (∀ r : ℕ, numberWith (fun _ o => decide (o = (r : ℤ))) pairs' ≠ 0 → M r = 1) →
      ∑ r ∈ Finset.range c, M r * shareOf r pairs' = 1 := by
    intro M hM
    rw [← sum_shareOf_eq c pairs' hne hv]
    refine Finset.sum_congr rfl fun r _ => ?_
    by_cases h : numberWith (fun _ o => decide (o = (r : ℤ))) pairs' = 0
    · rw [hz r h, mul_zero]
    · rw [hM r h, one_mul]
  have hv1 := fun r => perfect_values pairs' hall r
  have hcount : ∀ r : ℕ, numberWith (fun _ o => decide (o = (r : ℤ))) pairs' ≠ 0 ↔ ∃ q ∈ pairs', q.2 = (r : ℤ) := by
    intro r
    rw [numberWith_eq, ← Nat.pos_iff_ne_zero, List.countP_pos_iff]
    simp
  have hsum : ∑ r ∈ Finset.range c, precisionOf r pairs'
      = ((Finset.range c).filter fun r : ℕ => ∃ q ∈ pairs', q.2 = (r : ℤ)).card := by
    rw [Finset.card_eq_sum_ones, Nat.cast_sum, Finset.sum_filter]
    refine Finset.sum_congr rfl fun r _ => ?_
    rcases hv1 r with ⟨h, h', -⟩ | ⟨h, h', -⟩
    · rw [h', if_neg (fun hq => (hcount r).2 hq h)]
    · rw [h', if_pos ((hcount r).1 h)]; simp
  refine ⟨m, hm, ?_, ?_, ?_, ?_, ?_, ?_⟩
  · rw [w1, key _ fun r h => (hv1 r).elim (fun x => absurd x.1 h) fun x => x.2.1]
  · rw [w2, key _ fun r h => (hv1 r).elim (fun x => absurd x.1 h) fun x => x.2.2.1]
  · rw [w3, key _ fun r h => (hv1 r).elim (fun x => absurd x.1 h) fun x => x.2.2.2]
  · rw [e1, hsum]
  · rw [e1, e2]
    congr 1
    exact Finset.sum_congr rfl fun r _ => (hv1 r).elim (fun x => by rw [x.2.1, x.2.2.1]) fun x => by rw [x.2.1, x.2.2.1]
  · rw [e1, e3]
    congr 1
    exact Finset.sum_congr rfl fun r _ => (hv1 r).elim (fun x => by rw [x.2.1, x.2.2.2]) fun x => by rw [x.2.1, x.2.2.2]

/-- The metrics a perfect prediction of all responses should have. -/
def PerfectPredictionIsOne : Prop :=
  ∀ (argmax : List ℝ → ℕ) (cats : List ℕ) (n : ℕ) (T : ℕ → List (List ℝ)) (Y : ℕ → List Cell) (j c : ℕ),
    (∀ row : List ℝ, row ≠ [] → IsArgmax row (argmax row)) → cats[j]? = some c → 0 < c →
    ∀ pairs, ItemPairs (fun i => argmax ((T i).getD j [])) (fun i => (Y i).getD j none) n pairs → pairs ≠ [] →
    (∀ q ∈ pairs, 0 ≤ q.2 ∧ q.2 < (c : ℤ)) → (∀ q ∈ pairs, q.2 = (q.1 : ℤ)) →
    ∀ m, (predictions argmax cats ((List.range n).map T) ((List.range n).map Y))[j]? = some m →
      m.precision = 1 ∧ m.recall = 1 ∧ m.f1 = 1

theorem exists_argmax (row : List ℝ) (h : row ≠ []) : ∃ k, IsArgmax row k := by
  obtain ⟨hx, hmax⟩ := columnMax_isGreatest row h
  obtain ⟨k, hk, e⟩ := List.getElem_of_mem hx
  exact ⟨k, hk, fun y hy => by rw [e]; exact hmax hy⟩

/-- C57 is false for the unweighted metrics: one respondent answers 1 to a binary item, which the model predicts; the
precision reported is at most one half, because the category that nobody chose counts as zero. -/
theorem C57_perfect_false : ¬ PerfectPredictionIsOne := by
  intro h
  classical
  let am : List ℝ → ℕ := fun row => if hr : row ≠ [] then (exists_argmax row hr).choose else 0
  have ham : ∀ row : List ℝ, row ≠ [] → IsArgmax row (am row) := by
    intro row hr
    simp only [am, dif_pos hr]
    exact (exists_argmax row hr).choose_spec
  have h1 : am [0.2, 0.8] = 1 := by
    obtain ⟨hk, hmax⟩ := ham [0.2, 0.8] (by simp)
    have h8 := hmax 0.8 (by simp)
    have : am [0.2, 0.8] = 0 ∨ am [0.2, 0.8] = 1 := by simp at hk; omega
    rcases this with e | e
    · simp only [e] at h8; norm_num at h8
    · exact e
  have hp : ItemPairs (fun i => am (((fun _ => [[0.2, 0.8]] : ℕ → List (List ℝ)) i).getD 0 []))
      (fun i => ((fun _ => [some 1] : ℕ → List Cell) i).getD 0 none) 1 [(1, 1)] := by
    simp [ItemPairs, h1]
  have hv : ∀ q ∈ [((1 : ℕ), (1 : ℤ))], 0 ≤ q.2 ∧ q.2 < ((2 : ℕ) : ℤ) := by simp
  have hall : ∀ q ∈ [((1 : ℕ), (1 : ℤ))], q.2 = (q.1 : ℤ) := by simp
  obtain ⟨m, hm, -, -, -, e, -⟩ := C57_perfect_partial am [2] 1 (fun _ => [[0.2, 0.8]]) (fun _ => [some 1]) 0 2 rfl
    (by norm_num) _ hp (by simp) hv hall
  have := (h am [2] 1 (fun _ => [[0.2, 0.8]]) (fun _ => [some 1]) 0 2 ham rfl (by norm_num) _ hp (by simp) hv hall m hm).1
  rw [this] at e
  have hc : ((Finset.range 2).filter fun r : ℕ => ∃ q ∈ [((1 : ℕ), (1 : ℤ))], q.2 = (r : ℤ)) = {1} := by
    ext r
    simp
    omega
  rw [hc] at e
  norm_num at e

/-- C57, what a prediction is: an observed response counts as right if it is the only most probable one, as wrong if
another response is more probable, and not at all if it is missing. -/
theorem C57_most_probable (argmax : List ℝ → ℕ) (p : List ℝ) (ham : IsArgmax p (argmax p)) (y : ℕ) (hy : y < p.length) :
    ((∀ k (hk : k < p.length), k ≠ y → p[k] < p[y]) → accuracyCell (argmax p) (some (y : ℤ)) = some 1) ∧
    ((∃ k, ∃ hk : k < p.length, p[y] < p[k]) → accuracyCell (argmax p) (some y) = some 0) ∧
    accuracyCell (argmax p) none = none ∧ accuracyCell (argmax p) (some (-1)) = none := by
  obtain ⟨hk, hmax⟩ := ham
  have hm : cellMissing (some (y : ℤ)) = false := by simp [cellMissing]
  refine ⟨fun h => ?_, fun ⟨k, hk', h⟩ => ?_, by simp [accuracyCell, cellMissing], by simp [accuracyCell, cellMissing]⟩
  · have : argmax p = y := by
      by_contra hne
      exact absurd (h _ hk hne) (not_lt.2 (hmax _ (List.getElem_mem hy)))
    simp [accuracyCell, hm, this]
  · have : y ≠ argmax p := by
      intro e
      subst e
      exact absurd (hmax _ (List.getElem_mem hk')) (not_le.2 h)
    simp [accuracyCell, hm, this]

/-! ## The hypotheses are met: two respondents, two items, one missing response -/

example : ∃ accs m, accuracy (fun _ => 1) 2 "item" ((List.range 2).map fun _ => [[0.3, 0.7], [0.4, 0.6]])
      ((List.range 2).map fun i => [some (i : ℤ), none]) = .vector accs ∧
    (predictions (fun _ => 1) [2, 2] ((List.range 2).map fun _ => [[0.3, 0.7], [0.4, 0.6]])
      ((List.range 2).map fun i => [some (i : ℤ), none]))[0]? = some m ∧ accs[0]? = some m.wRecall :=
  C57_weighted_recall (fun _ => 1) [2, 2] 2 (fun _ => [[0.3, 0.7], [0.4, 0.6]]) (fun i => [some (i : ℤ), none])
    (fun _ _ => rfl) (fun _ _ => rfl) 0 2 rfl (by norm_num) (by
      intro i hi y hy _
      simp at hy
      omega)

example : accuracyCell 1 (some (1 : ℤ)) = some 1 :=
  (C57_most_probable (fun _ => 1) [0.3, 0.7] ⟨by simp, by simp; norm_num⟩ 1 (by simp)).1 (by
    intro k hk h
    simp at hk
    obtain rfl : k = 0 := by omega
    norm_num)

end Irt
