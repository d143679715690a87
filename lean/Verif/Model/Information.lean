import Verif.Model.Rescale
import Verif.Model.Base
import Mathlib.Analysis.SpecialFunctions.Trigonometric.Basic

/-!
# Gradients and Fisher information of `irtorch/models/base_irt_model.py`

A model enters through its item probabilities at one row of latent scores, a table with one row of `C` category
probabilities per item. Partial derivatives computed by autograd are `deriv` (where the derivative does not
exist torch picks some value; theorems claim nothing there).
-/

namespace Irt

variable {d : ℕ}

/-- base_irt_model.py 532-538: the Jacobian of the probabilities of one respondent (`jacrev` on a batch of one
row, mapped over respondents by `vmap`): a vector of partial derivatives for each item and category. -/
noncomputable def probabilityJacobian (probs : (Fin d → ℝ) → List (List ℝ)) (t : Fin d → ℝ) :
    List (List (Fin d → ℝ)) :=
  (probs t).mapIdx fun i row => (List.range row.length).map fun (c : ℕ) (k : Fin d) =>
    deriv (fun v => ((probs (Function.update t k v)).getD i []).getD c 0) (t k)

/-- `torch.linalg.solve(A, b)`, which raises for a singular matrix. -/
noncomputable def linalgSolve (A : Matrix (Fin d) (Fin d) ℝ) (b : Fin d → ℝ) : Except PyErr (Fin d → ℝ) :=
  if A.det = 0 then .error .runtimeError else .ok (A⁻¹.mulVec b)

/-- base_irt_model.py 376-390 `_rescale_gradients` on the flat list of gradient vectors. The transposed
Jacobian of each respondent is repeated for each of their gradient vectors. (The replacement of NaN and
infinity by zero, lines 386-387, has nothing to do for real numbers.) -/
noncomputable def rescaleGradients (scales : List (Scale d)) (flat : List (Fin d → ℝ)) (theta : Thetas d) :
    Except PyErr (List (Fin d → ℝ)) := do
  let jac ← thetaTransformJacobian scales theta
  if jac.length = 0 then throw .zeroDivision
  else
    let rep := flat.length / jac.length
    let jt := jac.flatMap fun J => List.replicate rep J.transpose
    if jt.length = flat.length then (List.zip jt flat).mapM fun p => linalgSolve p.1 p.2
    else throw .runtimeError

/-- base_irt_model.py 530-543 `probability_gradients`: for each respondent, item and category the vector of
partial derivatives. `items` and `C` are the numbers of items and category slots. -/
noncomputable def probabilityGradients (probs : (Fin d → ℝ) → List (List ℝ)) (items C : ℕ)
    (scales : List (Scale d)) (rescale : Bool) (theta : Thetas d) :
    Except PyErr (List (List (List (Fin d → ℝ)))) := do
  let g := theta.map (probabilityJacobian probs)
  if rescale && !scales.isEmpty then
    let r ← rescaleGradients scales (g.map List.flatten).flatten theta
    return (viewRows theta.length (items * C) r).map (viewRows items C)
  else return g

/-- base_irt_model.py 452-453: one summand of an information matrix. A category with probability 0 gives
0/0 = NaN, which `nansum` skips. (Probability 0 with a nonzero gradient would give an infinity; a differentiable
nonnegative probability has gradient 0 where it is 0.) -/
noncomputable def infoTerm (p gi gj : ℝ) : ℝ := if p = 0 then 0 else gi * gj / p

/-- base_irt_model.py 451-454: the information matrix of one item. -/
noncomputable def itemInformation (p : List ℝ) (g : List (Fin d → ℝ)) : Matrix (Fin d) (Fin d) ℝ :=
  Matrix.of fun i j => (List.zipWith (fun x h => infoTerm x (h i) (h j)) p g).sum

/-- Results of `information`: with or without directions, per item or summed over items. -/
inductive Info (d : ℕ)
  | items (m : List (List (Matrix (Fin d) (Fin d) ℝ)))
  | itemsDirection (v : List (List ℝ))
  | test (m : List (Matrix (Fin d) (Fin d) ℝ))
  | testDirection (v : List ℝ)

/-- base_irt_model.py 457: `cos` of the degrees. -/
noncomputable def cosDegrees (degrees : List ℝ) : Fin d → ℝ := fun k => Real.cos (degrees.getD k 0 * (Real.pi / 180))

/-- base_irt_model.py 443-464 `information`. Directions are ignored for a single latent variable. -/
noncomputable def information (probs : (Fin d → ℝ) → List (List ℝ)) (items C : ℕ) (scales : List (Scale d))
    (item : Bool) (degrees : Option (List ℝ)) (rescale : Bool) (theta : Thetas d) : Except PyErr (Info d) := do
  if ∃ l, degrees = some l ∧ l.length ≠ d then throw .valueError
  let gradients ← probabilityGradients probs items C scales rescale theta
  let m := List.zipWith (fun t g => List.zipWith itemInformation (probs t) g) theta gradients
  match degrees with
  | some l =>
    if 1 < d then
      let v := m.map fun r => r.map fun (I : Matrix (Fin d) (Fin d) ℝ) =>
        ∑ i, ∑ j, cosDegrees l i * I i j * cosDegrees l j
      return if item then .itemsDirection v else .testDirection (v.map List.sum)
    else return if item then .items m else .test (m.map List.sum)
  | none => return if item then .items m else .test (m.map List.sum)

/-- base_irt_model.py 343-345: the expected item scores whose gradients are taken. Without an answer key each is
divided by the highest score of the item when asked to. -/
noncomputable def gradientScores (probs : (Fin d → ℝ) → List (List ℝ)) (cats : List ℕ) (mc : Option (List ℤ))
    (byItemScore : Bool) (theta : Thetas d) : Except PyErr (List (List ℝ)) :=
  theta.mapM fun t => do
    let e ← expectedItemScores (probs t) (maxCats cats) mc
    return if (mc = none ∨ mc = some []) ∧ byItemScore then
      List.zipWith (fun x (c : ℕ) => x / ((c : ℝ) - 1)) e cats else e

/-- base_irt_model.py 337-358 `expected_item_score_gradients`: a vector of partial derivatives for each
respondent and item. (An item with one category divides by zero in line 345; theorems assume two or more.) -/
noncomputable def expectedScoreGradients (probs : (Fin d → ℝ) → List (List ℝ)) (cats : List ℕ)
    (mc : Option (List ℤ)) (scales : List (Scale d)) (byItemScore rescale : Bool) (theta : Thetas d) :
    Except PyErr (List (List (Fin d → ℝ))) := do
  let columns ← (List.range cats.length).mapM fun item => gradOfSum (fun θ => do
    let s ← gradientScores probs cats mc byItemScore θ
    return s.map fun r => r.getD item 0) theta
  let g : List (List (Fin d → ℝ)) := (List.range theta.length).map fun n => columns.map fun col => col.getD n 0
  if rescale && !scales.isEmpty then
    let r ← rescaleGradients scales g.flatten theta
    return viewRows theta.length cats.length r
  else return g

end Irt
