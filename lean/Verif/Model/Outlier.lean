import Verif.Model.RankCDF
import Mathlib.Data.Real.Archimedean

/-!
# `irtorch/outlier_detector.py`

Data with `d` columns is a list of rows `Fin d → ℝ`, so the checks that a tensor is two dimensional and that
two tensors have the same number of columns are part of the types.
-/

namespace Irt

/-- `torch.quantile(column, q)` with linear interpolation: the value at position `q (n - 1)` of the sorted
column. Raises on an empty tensor. -/
noncomputable def quantile (xs : List ℝ) (q : ℝ) : Except PyErr ℝ :=
  if xs.length = 0 then .error .runtimeError
  else
    let s := sortValues xs
    let pos := q * ((xs.length : ℝ) - 1)
    let lo := s.getD ⌊pos⌋₊ 0
    let hi := s.getD ⌈pos⌉₊ 0
    .ok (lo + (pos - ⌊pos⌋₊) * (hi - lo))

/-- outlier_detector.py 12-36: the constructor, through `__setattr__`. -/
noncomputable def outlierCreate (factor : ℝ) : Except PyErr ℝ :=
  if factor < 1 then .error .valueError else .ok factor

/-- outlier_detector.py 62-67, 103-108, 141-146: the bounds of one column. -/
noncomputable def outlierBounds (factor : ℝ) (column : List ℝ) : Except PyErr (ℝ × ℝ) := do
  let q1 ← quantile column 0.25
  let q3 ← quantile column 0.75
  let iqr := q3 - q1
  return (q1 - factor * iqr, q3 + factor * iqr)

/-- The bounds of every column. -/
noncomputable def columnBounds {d : ℕ} (factor : ℝ) (data : Thetas d) : Except PyErr (Fin d → ℝ × ℝ) := do
  let bs ← (List.finRange d).mapM fun k => outlierBounds factor (data.map fun t => t k)
  return fun k => bs.getD k (0, 0)

/-- outlier_detector.py 69-74, 110-115: outlier status of one value. -/
noncomputable def outlierStatus (upper lower : Bool) (b : ℝ × ℝ) (x : ℝ) : Bool :=
  (lower && decide (x < b.1)) || (upper && decide (x > b.2))

/-- outlier_detector.py 38-76 `identify_outliers`. -/
noncomputable def identifyOutliers {d : ℕ} (factor : ℝ) (data : Thetas d) (upper lower : Bool) :
    Except PyErr (List (Fin d → Bool)) :=
  if !upper && !lower then .error .valueError
  else do
    let b ← columnBounds factor data
    return data.map fun t k => outlierStatus upper lower (b k) (t k)

/-- outlier_detector.py 78-117 `is_outlier`. -/
noncomputable def isOutlier {d : ℕ} (factor : ℝ) (newObs data : Thetas d) (upper lower : Bool) :
    Except PyErr (List (Fin d → Bool)) :=
  if !upper && !lower then .error .valueError
  else do
    let b ← columnBounds factor data
    return newObs.map fun t k => outlierStatus upper lower (b k) (t k)

/-- outlier_detector.py 148-155: smallest or largest entry of one column after the outliers were replaced by
`inf` or `-inf`; `none` stands for that infinity. -/
noncomputable def maskedExtreme (smallest : Bool) (b : ℝ × ℝ) (column : List ℝ) : Option ℝ :=
  column.foldr (fun x acc =>
    let m : Option ℝ := if x ≥ b.1 ∧ x ≤ b.2 then some x else none
    match m, acc with
    | none, acc => acc
    | some x, none => some x
    | some x, some y => some (if smallest then min x y else max x y)) none

/-- outlier_detector.py 119-157 `smallest_largest_non_outlier`. -/
noncomputable def smallestLargestNonOutlier {d : ℕ} (factor : ℝ) (data : Thetas d) (smallest : Bool) :
    Except PyErr (Fin d → Option ℝ) := do
  let b ← columnBounds factor data
  return fun k => maskedExtreme smallest (b k) (data.map fun t => t k)

end Irt
