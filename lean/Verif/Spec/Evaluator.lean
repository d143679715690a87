import Mathlib.Data.Real.Basic
import Mathlib.Algebra.BigOperators.Group.Finset.Basic
import Verif.Model.Data
import Verif.Spec.Scoring

/-! # Specification for the evaluation methods -/

namespace Irt

open scoped BigOperators

/-- `k` is a position of the largest entry. -/
def IsArgmax (row : List ℝ) (k : ℕ) : Prop := ∃ h : k < row.length, ∀ x ∈ row, x ≤ row[k]

/-- Number of respondents, among those with an observed response, whose predicted and observed responses satisfy `P`. -/
def numberWith (P : ℕ → ℤ → Bool) (pairs : List (ℕ × ℤ)) : ℕ := (pairs.filter fun q => P q.1 q.2).length

/-- Precision of response `r`: the share of the predictions `r` that are right (0 if there are none). -/
noncomputable def precisionOf (r : ℕ) (pairs : List (ℕ × ℤ)) : ℝ :=
  numberWith (fun p o => p = r ∧ o = r) pairs / numberWith (fun p _ => p = r) pairs

/-- Recall of response `r`: the share of the responses `r` that are predicted (0 if there are none). -/
noncomputable def recallOf (r : ℕ) (pairs : List (ℕ × ℤ)) : ℝ :=
  numberWith (fun p o => p = r ∧ o = r) pairs / numberWith (fun _ o => o = r) pairs

/-- F1 of response `r`: harmonic mean of precision and recall (0 if they are). -/
noncomputable def f1Of (r : ℕ) (pairs : List (ℕ × ℤ)) : ℝ :=
  2 * precisionOf r pairs * recallOf r pairs / (precisionOf r pairs + recallOf r pairs)

/-- The share of response `r` among the observed responses. -/
noncomputable def shareOf (r : ℕ) (pairs : List (ℕ × ℤ)) : ℝ := numberWith (fun _ o => o = r) pairs / pairs.length

/-- Predicted and observed responses to item `j`, for the respondents with an observed response (not NaN and not
-1). -/
def ItemPairs (pred : ℕ → ℕ) (obs : ℕ → Cell) (n : ℕ) (pairs : List (ℕ × ℤ)) : Prop :=
  pairs = (List.range n).filterMap fun i =>
    match obs i with
    | none => none
    | some y => if y = -1 then none else some (pred i, y)

/-- `r` is the mean of the values that are not NaN. -/
def IsMeanOfObserved (xs : List Num) (r : ℝ) : Prop :=
  xs.filterMap id ≠ [] ∧ r * (xs.filterMap id).length = (xs.filterMap id).sum

/-- The score of response `m`: one if it is the key and zero otherwise, or `m` for an item without key. -/
def scoreOf (key : Option ℤ) (m : ℤ) : ℝ :=
  match key with
  | some k => if m = k then 1 else 0
  | none => m

/-- Expected score of an item with category probabilities `p`. -/
noncomputable def keyedMean (key : Option ℤ) (M : ℕ) (p : ℕ → ℝ) : ℝ := ∑ m ∈ Finset.range M, scoreOf key m * p m

/-- Variance of the score of an item with category probabilities `p`. -/
noncomputable def keyedVariance (key : Option ℤ) (M : ℕ) (p : ℕ → ℝ) : ℝ :=
  ∑ m ∈ Finset.range M, (scoreOf key m - keyedMean key M p) ^ 2 * p m

/-- The response is there: neither NaN nor -1. -/
def IsObserved (c : Cell) : Prop := ∃ y : ℤ, c = some y ∧ y ≠ -1

instance : DecidablePred IsObserved := fun c =>
  match c with
  | none => isFalse fun ⟨_, h, _⟩ => by cases h
  | some y => if h : y = -1 then isFalse fun ⟨z, hz, hne⟩ => hne (by injection hz with e; rw [← e]; exact h)
      else isTrue ⟨y, rfl, h⟩

/-- Squared difference of the score of a response and its expectation. -/
noncomputable def squaredError (key : Option ℤ) (M : ℕ) (p : ℕ → ℝ) (c : Cell) : ℝ :=
  (scoreOf key (c.getD 0) - keyedMean key M p) ^ 2

/-- The mean square statistics of Wright and Masters for a set `O` of observed responses with squared errors `e` and
variances `v`: the ratio of the sums. Undefined (`none`) if the variances are zero. -/
noncomputable def IsInfit (O : Finset ℕ) (e v : ℕ → ℝ) (x : Num) : Prop :=
  (∑ i ∈ O, v i = 0 → x = none) ∧ (∑ i ∈ O, v i ≠ 0 → x = some ((∑ i ∈ O, e i) / ∑ i ∈ O, v i))

/-- The mean of the ratios; undefined without responses and if a response with an error has variance zero. -/
noncomputable def IsOutfit (O : Finset ℕ) (e v : ℕ → ℝ) (x : Num) : Prop :=
  ((O = ∅ ∨ ∃ i ∈ O, v i = 0 ∧ e i ≠ 0) → x = none) ∧
  (O ≠ ∅ → (∀ i ∈ O, v i = 0 → e i = 0) → x = some ((∑ i ∈ O, e i / v i) / O.card))

/-- The log likelihood that the evaluator reports for an observed response of probability `p`: impossible responses count
-30. -/
noncomputable def flooredLog (p : ℝ) : ℝ := if p = 0 then -30 else Real.log p

/-- The value of a cell: NaN for a missing response. -/
noncomputable def cellLogLik {d : ℕ} (P : (Fin d → ℝ) → ℕ → ℕ → ℝ) (t : ℕ → Fin d → ℝ) (Y : ℕ → ℕ → Cell) (i j : ℕ) : Num :=
  if IsObserved (Y i j) then some (flooredLog (P (t i) j (responseOf (Y i j)))) else none

open Classical in
/-- The mean, over a group of respondents, of the log likelihood of their own observed responses: NaN for an empty
group, minus infinity if a response is impossible. -/
noncomputable def groupMeanLogLik {d : ℕ} (P : (Fin d → ℝ) → ℕ → ℕ → ℝ) (items : ℕ) (t : ℕ → Fin d → ℝ)
    (Y : ℕ → ℕ → Cell) (g : List ℕ) : Option Logit :=
  if g = [] then none
  else if ∃ i ∈ g, ∃ j, j < items ∧ IsObserved (Y i j) ∧ P (t i) j (responseOf (Y i j)) = 0 then some .negInf
  else some (.fin ((g.map fun i => ∑ j ∈ (Finset.range items).filter fun j => IsObserved (Y i j),
    Real.log (P (t i) j (responseOf (Y i j)))).sum / g.length))

/-- `gs` cuts the list `order` into `groups` consecutive pieces whose sizes differ by at most one. -/
def IsEvenCut {α : Type} (order : List α) (groups : ℕ) (gs : List (List α)) : Prop :=
  gs.length = groups ∧ gs.flatten = order ∧ ∀ a ∈ gs, ∀ b ∈ gs, a.length ≤ b.length + 1

/-- `gs` is a division of the respondents `0..n-1` into at most `groups` groups of consecutive values of `score`: each
respondent is in exactly one group, and nobody in a later group has a smaller score than somebody in an earlier one. -/
structure IsGrouping (n : ℕ) (score : ℕ → ℝ) (groups : ℕ) (gs : List (List ℕ)) : Prop where
  partition : gs.flatten.Perm (List.range n)
  ordered : gs.flatten.Pairwise fun a b => score a ≤ score b
  count : gs.length ≤ groups

/-- `sort xs` are the positions of `xs` in increasing order of the values (`torch.sort`). -/
def IsSort (sort : List ℝ → List ℕ) : Prop :=
  ∀ xs, (sort xs).Perm (List.range xs.length) ∧ (sort xs).Pairwise fun a b => xs.getD a 0 ≤ xs.getD b 0

/-- The share of response `c` among the observed responses of a group on item `j`. -/
noncomputable def observedShare (Y : ℕ → ℕ → Cell) (g : List ℕ) (j c : ℕ) : Num :=
  if (g.filter fun i => IsObserved (Y i j)) = [] then none
  else some ((g.countP fun i => decide (Y i j = some (c : ℤ)) : ℕ) / (g.countP fun i => decide (IsObserved (Y i j)) : ℕ))

/-- The mean over a group of the model's probability of response `c` on item `j`. -/
noncomputable def modelShare {d : ℕ} (P : (Fin d → ℝ) → ℕ → ℕ → ℝ) (t : ℕ → Fin d → ℝ) (g : List ℕ) (j c : ℕ) : Num :=
  if g = [] then none else some ((g.map fun i => P (t i) j c).sum / g.length)

/-- The entries for every group, item and category slot. -/
def cube {α : Type} (gs : List (List ℕ)) (items M : ℕ) (f : List ℕ → ℕ → ℕ → α) : List (List (List α)) :=
  gs.map fun g => (List.range items).map fun j => (List.range M).map fun c => f g j c

/-- The lower median. -/
def IsLowerMedian (xs : List ℝ) (x : ℝ) : Prop :=
  x ∈ xs ∧ xs.countP (fun a => decide (a < x)) ≤ (xs.length - 1) / 2 ∧
    (xs.length - 1) / 2 < xs.countP fun a => decide (a ≤ x)

/-- The difference of two shares in standard errors of a share `p` among `n`; undefined if the standard error is zero. -/
noncomputable def standardizedDifference (n : ℕ) (o p : Num) : Num :=
  match o, p with
  | some o, some p => if 0 < p * (1 - p) / n then some ((o - p) / Real.sqrt (p * (1 - p) / n)) else none
  | _, _ => none

end Irt
