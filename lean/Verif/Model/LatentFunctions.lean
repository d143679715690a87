import Verif.Torch.Basic
import Verif.Model.Data
import Mathlib.Data.List.Sort

/-!
# `irtorch/latent_variable_functions.py`
-/

namespace Irt

/-- `a / b`; not finite (`none`) for a zero denominator. -/
noncomputable def floatDiv (a b : ℝ) : Num := if b = 0 then none else some (a / b)

/-- The knots `(x, y)` sorted by `x` (latent_variable_functions.py 30-32). -/
noncomputable def sortKnots (knots : List (ℝ × ℝ)) : List (ℝ × ℝ) := knots.mergeSort fun p q => decide (p.1 ≤ q.1)

/-- `torch.searchsorted(x, q)`: the number of entries smaller than `q`. -/
noncomputable def searchSorted (s : List (ℝ × ℝ)) (q : ℝ) : ℕ := s.countP fun p => decide (p.1 < q)

/-- `t[i]` for an integer index, negative ones counting from the end. -/
def pyGet {α : Type} (s : List α) (i : ℤ) : Except PyErr α :=
  match s[(if i < 0 then i + s.length else i).toNat]? with
  | some a => if i + s.length < 0 then .error .indexError else .ok a
  | none => .error .indexError

/-- latent_variable_functions.py 25-61 `interp` at one query; `none` is a value that is not finite.
`torch.lerp(a, b, w)` is `a + w * (b - a)`. -/
noncomputable def interp (knots : List (ℝ × ℝ)) (q : ℝ) : Except PyErr Num := do
  let s := sortKnots knots
  let first ← pyGet s 0
  let last ← pyGet s (-1)
  if first.1 ≤ q ∧ q ≤ last.1 then
    let i : ℤ := searchSorted s q
    let a ← pyGet s (i - 1)
    let b ← pyGet s i
    return (floatDiv (q - a.1) (b.1 - a.1)).map fun w => a.2 + w * (b.2 - a.2)
  else
    let second ← pyGet s 1
    let beforeLast ← pyGet s (-2)
    if q < first.1 then
      return (floatDiv (second.2 - first.2) (second.1 - first.1)).map fun k => first.2 + k * (q - first.1)
    else
      return (floatDiv (last.2 - beforeLast.2) (last.1 - beforeLast.1)).map fun k => last.2 + k * (q - last.1)

/-- latent_variable_functions.py 78-89 `quantile_transform` on one column of `n` values. `argsort` is torch's function,
which puts equal values in any order; `icdf` is `Normal(0, 1).icdf`. -/
noncomputable def quantileTransform {n : ℕ} (argsort : (Fin n → ℝ) → Fin n → Fin n) (icdf : ℝ → ℝ) (x : Fin n → ℝ) :
    Fin n → ℝ :=
  let ranks := argsort fun i => ((argsort x i : ℕ) : ℝ)
  fun i => icdf (((ranks i : ℕ) + 1 : ℝ) / ((n : ℝ) + 1))

end Irt
