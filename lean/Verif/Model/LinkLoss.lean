import Verif.Model.Rescale
import Mathlib.Analysis.SpecialFunctions.Log.Basic

/-!
# The objective of `LinkCommonItems` (link_common_items.py 309-319)
-/

namespace Irt

/-- `probs[:, indices].view(-1, M)`: the rows of the common items, respondent by respondent. -/
def commonRows (tables : List (List (List ℝ))) (indices : List ℕ) : Except PyErr (List (List ℝ)) := do
  let rows ← tables.mapM fun t => indices.mapM fun j =>
    match t[j]? with
    | some r => Except.ok r
    | none => .error PyErr.indexError
  return rows.flatten

/-- One row of `nn.KLDivLoss` with `input = log(linked + 1e-10)`: `xlogy(target, target) - target * input`. -/
noncomputable def klRow (target linked : List ℝ) : ℝ :=
  (List.zipWith (fun p q => p * Real.log p - p * Real.log (q + 1e-10)) target linked).sum

/-- link_common_items.py 309-319 `_loss_function`. `mFrom` and `mTo` are the numbers of columns of the two tensors of
probabilities (the largest number of categories of any item of the model); tensors with different numbers of columns, neither
of which is one, cannot be combined. -/
noncomputable def linkLoss (mFrom mTo : ℕ) (tablesFrom tablesTo : List (List (List ℝ))) (idxFrom idxTo : List ℕ) : Except PyErr ℝ := do
  let target ← commonRows tablesFrom idxFrom
  let linked ← commonRows tablesTo idxTo
  if mFrom ≠ mTo then throw .runtimeError
  return (List.zipWith klRow target linked).sum / target.length

end Irt
