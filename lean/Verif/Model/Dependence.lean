import Verif.Model.Evaluator

/-!
# Local dependence statistics: `irtorch/evaluator.py` 717-785 (mutual information difference) and 881-927 (Q3)

The simulated data sets of the tests are arguments here and drawn in `DependenceTests.lean`; the rounding to three decimals of the tables of Q3 is not modelled.
-/

namespace Irt

/-- `.mean(dim=0)`. Without respondents torch gives NaN, which `entropy` refuses; here the mean is zero, which it refuses
as well. -/
noncomputable def meanOver (xs : List ℝ) : ℝ := xs.sum / xs.length

/-- evaluator.py 735: `model_probabilities.mean(dim=0)` for item `i`. -/
noncomputable def expectedItem (M : ℕ) (tables : List (List (List ℝ))) (i : ℕ) : List ℝ :=
  (List.range M).map fun k => meanOver (tables.map fun t => (t.getD i []).getD k 0)

/-- evaluator.py 738-743: the expected proportions of the pairs of responses to items `i` and `j`. -/
noncomputable def expectedPair (M : ℕ) (tables : List (List (List ℝ))) (i j : ℕ) : List ℝ :=
  (List.range M).flatMap fun k => (List.range M).map fun l =>
    meanOver (tables.map fun t => (t.getD i []).getD k 0 * (t.getD j []).getD l 0)

/-- evaluator.py 726-727, 746-747: entropy sums minus joint entropies. -/
def mutualInformationOf {p : ℕ} (h : Fin p → ℝ) (joint : Fin p → Fin p → ℝ) (i j : Fin p) : ℝ := h i + h j - joint i j

/-- A list of lists as a matrix. -/
noncomputable def matrixOf {p : ℕ} (rows : List (List ℝ)) (i j : Fin p) : ℝ := (rows.getD i []).getD j 0

/-- evaluator.py 733-747: the expected mutual information. -/
noncomputable def expectedMutualInformation {p : ℕ} (base : ℝ) (M : ℕ) (tables : List (List (List ℝ))) :
    Except PyErr (Fin p → Fin p → ℝ) := do
  let items ← (List.finRange p).mapM fun i : Fin p => entropy base (expectedItem M tables i)
  let pairs ← (List.finRange p).mapM fun i : Fin p => (List.finRange p).mapM fun j : Fin p => entropy base (expectedPair M tables i j)
  return mutualInformationOf (fun i => items.getD i 0) (matrixOf pairs)

/-- evaluator.py 724-727: the mutual information of the data. -/
noncomputable def dataMutualInformation {n p : ℕ} (base : ℝ) (x : Fin n → Fin p → Cell) :
    Except PyErr (Fin p → Fin p → ℝ) := do
  let joint ← jointEntropyMatrix base x
  return mutualInformationOf (fun i : Fin p => matrixOf joint i i) (matrixOf joint)

/-- evaluator.py 724-750: the difference and its absolute value. -/
noncomputable def mutualInformationDifference {n p : ℕ} (base : ℝ) (M : ℕ) (x : Fin n → Fin p → Cell)
    (tables : List (List (List ℝ))) : Except PyErr ((Fin p → Fin p → ℝ) × (Fin p → Fin p → ℝ)) := do
  let observed ← dataMutualInformation base x
  let expected ← expectedMutualInformation base M tables
  return (fun i j => observed i j - expected i j, fun i j => |observed i j - expected i j|)

/-- evaluator.py 763-777: the p-values, `samples` being the statistics of the simulated data sets. -/
noncomputable def amidPValues {p : ℕ} (amid : Fin p → Fin p → ℝ) (samples : List (Fin p → Fin p → ℝ)) (i j : Fin p) : Num :=
  if i = j then none else floatDiv (samples.countP fun s => decide (s i j > amid i j) : ℕ) (samples.length : ℕ)

/-! ## Q3 -/

/-- A matrix of residuals with `n` rows and `p` columns. -/
def numMatrix {n p : ℕ} (rows : List (List Num)) (r : Fin n) (i : Fin p) : Num := (rows.getD r []).getD i none

/-- evaluator.py 888-890: correlations of the residuals, NaN on the diagonal. -/
noncomputable def q3 (n p M : ℕ) (mc : Option (List ℤ)) (tables : List (List (List ℝ))) (data : List (List Cell)) :
    Except PyErr (Fin p → Fin p → Num) := do
  match ← residuals M p mc "none" tables data with
  | .matrix rows => return fun i j => if i = j then none else correlationMatrix (numMatrix (n := n) rows) i j
  | _ => .error .typeError

/-- `a < b` and `a >= b` of numbers that may be NaN. -/
noncomputable def numLt (a b : Num) : Bool := match a, b with
  | some x, some y => decide (x < y)
  | _, _ => false

/-- See `numLt`. -/
noncomputable def numGe (a b : Num) : Bool := match a, b with
  | some x, some y => decide (y ≤ x)
  | _, _ => false

/-- evaluator.py 912-918: the p-value of one pair of items from the correlations of the simulated data sets. -/
noncomputable def q3PValue (diagonal : Bool) (observed : Num) (samples : List Num) : Num :=
  if diagonal then none
  else floatDiv (((min (samples.countP fun s => numLt s observed) (samples.countP fun s => numGe s observed) : ℕ) : ℝ) * 2)
    (samples.length : ℕ)

end Irt
