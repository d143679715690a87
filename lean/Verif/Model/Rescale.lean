import Verif.Model.RQSpline
import Verif.Model.Modules
import Verif.Model.Monotone
import Mathlib.LinearAlgebra.Matrix.NonsingularInverse
import Mathlib.Analysis.Calculus.Deriv.Basic

/-!
# Scale transformations: `irtorch/rescale/{scale,reverse,rotate,flow,link_common_items}.py` and the scale
methods of `irtorch/models/base_irt_model.py`

A 2D tensor of latent scores with `d` columns is a list of rows `Fin d → ℝ`; a Jacobian is a
`Matrix (Fin d) (Fin d) ℝ`, so `torch.matmul`, `torch.inverse` and `torch.linalg.solve` are the
operations of linear algebra. A scale whose state cannot be evaluated raises.
-/

namespace Irt

/-- Latent scores: one row per respondent. -/
abbrev Thetas (d : ℕ) := List (Fin d → ℝ)

/-- scale.py 4-66: the interface of a scale transformation. -/
structure Scale (d : ℕ) where
  /-- `transform` (also `__call__`, scale.py 16-17) -/
  transform : Thetas d → Except PyErr (Thetas d)
  /-- `inverse` -/
  inverse : Thetas d → Except PyErr (Thetas d)
  /-- `jacobian`: one matrix per row -/
  jacobian : Thetas d → Except PyErr (List (Matrix (Fin d) (Fin d) ℝ))

/-- base_irt_model.py 144-146 `transform_theta`. -/
def transformTheta {d : ℕ} (scales : List (Scale d)) (theta : Thetas d) : Except PyErr (Thetas d) :=
  scales.foldlM (fun t s => s.transform t) theta

/-- base_irt_model.py 162-164 `inverse_transform_theta`: the scales are visited in the order in which they
were attached. -/
def inverseTransformTheta {d : ℕ} (scales : List (Scale d)) (theta : Thetas d) : Except PyErr (Thetas d) :=
  scales.foldlM (fun t s => s.inverse t) theta

/-- base_irt_model.py 181-183: the loop of `theta_transform_jacobian`; the state is the accumulated
Jacobian of each row and the rows transformed so far. -/
def jacobianLoop {d : ℕ} : List (Scale d) → List (Matrix (Fin d) (Fin d) ℝ) → Thetas d →
    Except PyErr (List (Matrix (Fin d) (Fin d) ℝ))
  | [], jac, _ => .ok jac
  | s :: ss, jac, theta => do
    let j ← s.jacobian theta
    let theta' ← s.transform theta
    jacobianLoop ss (List.zipWith (fun a b => a * b) j jac) theta'

/-- base_irt_model.py 180-184 `theta_transform_jacobian`. -/
def thetaTransformJacobian {d : ℕ} (scales : List (Scale d)) (theta : Thetas d) :
    Except PyErr (List (Matrix (Fin d) (Fin d) ℝ)) :=
  jacobianLoop scales (List.replicate theta.length 1) theta

/-! ## Reverse -/

/-- reverse.py 34-35: the multiplier of one latent variable, -1 when it is reversed. -/
def reverseSign (b : Bool) : ℝ := if (if b then (-1 : ℤ) else 0) = 0 then 1 else -1

/-- reverse.py 32-81: `Reverse` for one flag per latent variable. (A list of another length broadcasts or
raises in torch; not modelled.) -/
def reverseScale {d : ℕ} (rev : Fin d → Bool) : Scale d where
  transform theta := .ok (theta.map fun t i => t i * reverseSign (rev i))
  inverse theta := .ok (theta.map fun t i => t i * reverseSign (rev i))
  jacobian theta := .ok (theta.map fun _ => Matrix.diagonal fun i => reverseSign (rev i))

/-! ## Rotate -/

/-- rotate.py 59-64: the shape check and `torch.inverse`, which raises for a singular matrix. The matrix
given is a list of rows. (Finding a rotation matrix with `factor_analyzer`, rotate.py 49-58, is not
modelled.) -/
noncomputable def rotateMatrix (d : ℕ) (rows : List (List ℝ)) :
    Except PyErr (Matrix (Fin d) (Fin d) ℝ × Matrix (Fin d) (Fin d) ℝ) :=
  if rows.length ≠ d ∨ ∃ r ∈ rows, r.length ≠ d then .error .valueError
  else
    let R : Matrix (Fin d) (Fin d) ℝ := Matrix.of fun i j => (rows.getD i []).getD j 0
    if R.det = 0 then .error .runtimeError else .ok (R, R⁻¹)

/-- rotate.py 66-113: the transformation with a rotation matrix and its inverse. -/
def rotateScale {d : ℕ} (R Rinv : Matrix (Fin d) (Fin d) ℝ) : Scale d where
  transform theta := .ok (theta.map fun t => Matrix.vecMul t R)
  inverse theta := .ok (theta.map fun t => Matrix.vecMul t Rinv)
  jacobian theta := .ok (theta.map fun _ => R.transpose)

/-- rotate.py 38-64: `Rotate(model, rotation_matrix=rows)`. -/
noncomputable def rotateCreate (d : ℕ) (rows : List (List ℝ)) : Except PyErr (Scale d) := do
  let p ← rotateMatrix d rows
  return rotateScale p.1 p.2

/-! ## Autograd -/

/-- Sum of the entries of a result. -/
noncomputable def okSum : Except PyErr (List ℝ) → ℝ
  | .ok l => l.sum
  | .error _ => 0

/-- `out.sum().backward()` followed by reading `theta.grad`: the derivative of the sum of all outputs with
respect to each entry of `theta`. (Torch picks some value where the derivative does not exist; there this
definition has Lean's default value and theorems claim nothing.) -/
noncomputable def gradOfSum {d : ℕ} (out : Thetas d → Except PyErr (List ℝ)) (theta : Thetas d) :
    Except PyErr (Thetas d) := do
  let _ ← out theta
  return theta.mapIdx fun i t k => deriv (fun v => okSum (out (theta.set i (Function.update t k v)))) (t k)

/-! ## Flow -/

/-- flow.py 48-53: state of a `Flow`. -/
structure FlowState (d : ℕ) where
  means : Fin d → ℝ
  stds : Fin d → ℝ
  flow : Option RQSpline

/-- flow.py 48-53: the constructor. -/
def FlowState.init (d : ℕ) : FlowState d := ⟨fun _ => 0, fun _ => 1, none⟩

/-- flow.py 121: mean of a column. -/
noncomputable def columnMean (xs : List ℝ) : ℝ := xs.sum / xs.length
/-- flow.py 122: `theta.std(dim=0)` of a column (with Bessel's correction). A single row gives NaN in torch. -/
noncomputable def columnStd (xs : List ℝ) : ℝ :=
  Real.sqrt ((xs.map fun x => (x - columnMean xs) ^ 2).sum / ((xs.length : ℝ) - 1))

/-- flow.py 55-175 `fit`: stores the column means and standard deviations and whatever spline the training
loop ends with. -/
noncomputable def FlowState.fit {d : ℕ} (theta : Thetas d) (trained : RQSpline) : FlowState d :=
  ⟨fun k => columnMean (theta.map fun t => t k), fun k => columnStd (theta.map fun t => t k), some trained⟩

/-- The rows of a flat result as vectors. -/
noncomputable def fromFlat {d : ℕ} (n : ℕ) (flat : List ℝ) : Thetas d :=
  (viewRows n d flat).map fun r k => r.getD k 0

/-- flow.py 177-192 `transform`, as the flat tensor. -/
noncomputable def FlowState.transformFlat {d : ℕ} (f : FlowState d) (theta : Thetas d) :
    Except PyErr (List ℝ) :=
  match f.flow with
  | none => .error .valueError
  | some s => NeuralSplineFlow.forward s
      (theta.map fun t => List.ofFn fun k => (t k - f.means k) / f.stds k)

/-- flow.py 177-192 `transform`. -/
noncomputable def FlowState.transform {d : ℕ} (f : FlowState d) (theta : Thetas d) :
    Except PyErr (Thetas d) := do
  return fromFlat theta.length (← f.transformFlat theta)

/-- flow.py 194-211 `inverse`. -/
noncomputable def FlowState.inverse {d : ℕ} (f : FlowState d) (theta : Thetas d) :
    Except PyErr (Thetas d) :=
  match f.flow with
  | none => .error .valueError
  | some s => do
    let flat ← NeuralSplineFlow.inverse s (theta.map List.ofFn)
    return (fromFlat theta.length flat).map fun t k => t k * f.stds k + f.means k

/-- flow.py 213-237 `jacobian`: `diag_embed` of the gradient of the sum of the outputs. -/
noncomputable def FlowState.jacobian {d : ℕ} (f : FlowState d) (theta : Thetas d) :
    Except PyErr (List (Matrix (Fin d) (Fin d) ℝ)) :=
  match f.flow with
  | none => .error .valueError
  | some _ => do
    let g ← gradOfSum f.transformFlat theta
    return g.map Matrix.diagonal

/-- The scale attached to a model. -/
noncomputable def FlowState.scale {d : ℕ} (f : FlowState d) : Scale d := ⟨f.transform, f.inverse, f.jacobian⟩

/-! ## LinkCommonItems -/

/-- link_common_items.py 111-126: the two transformation modules. -/
inductive LinkModule
  | spline (s : RQSpline)
  | neuralnet (l : SoftplusLinear)

/-- link_common_items.py 79-128: state after construction or training. -/
structure LinkState where
  module : LinkModule
  inverted : Bool

/-- link_common_items.py 88-99: argument checks of the constructor. `methodOk` says that the method is one of
the two names. -/
def linkChecks (lvFrom lvTo : ℕ) (itemsFrom itemsTo : Option (List ℕ)) (methodOk : Bool) :
    Except PyErr Unit :=
  if lvFrom ≠ lvTo then .error .valueError
  else if lvFrom ≠ 1 then .error .valueError
  else match itemsFrom, itemsTo with
    | some a, some b =>
      if a.length ≠ b.length then .error .valueError
      else if a.length < 1 then .error .valueError
      else if !methodOk then .error .valueError
      else .ok ()
    | _, _ => .error .valueError

/-- link_common_items.py 109: `_transformation_multiplier`. -/
def LinkState.multiplier (s : LinkState) : ℝ := if s.inverted then 1 * -1 else 1

/-- link_common_items.py 224-239, 289-307 `transform`; `ov` is the overflow threshold of `exp`. -/
noncomputable def LinkState.transform (ov : ℝ) (s : LinkState) (theta : Thetas 1) :
    Except PyErr (Thetas 1) :=
  match s.module with
  | .neuralnet l =>
    .ok (theta.map fun t => fun _ => (splitActivation ov true (l.forward [t 0])).sum * s.multiplier)
  | .spline sp => do
    let r ← sp.forward (theta.map List.ofFn) false
    return (fromFlat theta.length r.1).map fun t k => t k * s.multiplier

/-- link_common_items.py 241-259 `inverse`. -/
noncomputable def LinkState.inverse (s : LinkState) (theta : Thetas 1) : Except PyErr (Thetas 1) :=
  match s.module with
  | .spline sp => do
    let r ← sp.forward (theta.map List.ofFn) true
    return (fromFlat theta.length r.1).map fun t k => t k * s.multiplier
  | .neuralnet _ => .error .notImplemented

/-- link_common_items.py 278-284: the tensor whose sum `jacobian` differentiates. -/
noncomputable def LinkState.jacobianTarget (s : LinkState) (theta : Thetas 1) : Except PyErr (List ℝ) :=
  match s.module with
  | .neuralnet l => .ok ((theta.flatMap fun t => l.forward [t 0]).map fun x => x * s.multiplier)
  | .spline sp => do
    let r ← sp.forward (theta.map List.ofFn) false
    return r.1.map fun x => x * s.multiplier

/-- link_common_items.py 261-287 `jacobian`. -/
noncomputable def LinkState.jacobian (s : LinkState) (theta : Thetas 1) :
    Except PyErr (List (Matrix (Fin 1) (Fin 1) ℝ)) := do
  let g ← gradOfSum s.jacobianTarget theta
  return g.map Matrix.diagonal

end Irt
