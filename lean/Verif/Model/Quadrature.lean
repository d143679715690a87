import Verif.Model.Rescale
import Mathlib.Analysis.SpecialFunctions.Sqrt
import Mathlib.Analysis.SpecialFunctions.Pow.Real
import Mathlib.Analysis.SpecialFunctions.Trigonometric.Basic

/-!
# `irtorch/utils.py`: Gauss-Hermite quadrature and the intermodel vigorish

`np.polynomial.hermite.hermgauss` and `torch.linalg.cholesky` are library code: they enter as arguments.
-/

namespace Irt

/-- `list(product(*(x,)*d))` (utils.py 270-271): all `d`-tuples of entries of `x`, the last position
varying fastest. -/
def gridProduct (x : List ℝ) : (d : ℕ) → List (Fin d → ℝ)
  | 0 => [Fin.elim0]
  | d + 1 => x.flatMap fun a => (gridProduct x d).map fun v => Fin.cons a v

/-- utils.py 265-276 `gauss_hermite`: points and weights. `hermgauss n` is numpy's rule (nodes, weights),
`cholesky` is torch's factorisation, which raises for a matrix it cannot factor. -/
noncomputable def gaussHermite {d : ℕ} (hermgauss : ℕ → Except PyErr (List ℝ × List ℝ))
    (cholesky : Matrix (Fin d) (Fin d) ℝ → Except PyErr (Matrix (Fin d) (Fin d) ℝ))
    (n : ℕ) (mean : Fin d → ℝ) (covariance : Matrix (Fin d) (Fin d) ℝ) :
    Except PyErr (Thetas d × List ℝ) := do
  let (x, w) ← hermgauss n
  let const := Real.pi ^ (-(1 / 2 : ℝ) * d)
  let xn := gridProduct x d
  let wn := (gridProduct w d).map fun v => ∏ i, v i
  let chol ← cholesky covariance
  let yn := xn.map fun v => fun i => Real.sqrt 2 * (chol.mulVec v) i + mean i
  return (yn, wn.map fun v => v * const)

/-! ## Intermodel vigorish -/

/-- utils.py 450: `torch.where(fpx == 0, torch.tensor(1e-6), fpx)`. -/
noncomputable def safeSlope (fpx : ℝ) : ℝ := if fpx = 0 then 1e-6 else fpx

/-- utils.py 446-452: the increment `delta_x = -fx / fpx` of one entry. -/
noncomputable def imvDelta (negEntropy w : ℝ) : ℝ :=
  let fx := w * Real.log w + (1 - w) * Real.log (1 - w) - negEntropy
  let fpx := safeSlope (Real.log w - Real.log (1 - w))
  (0 - fx) / fpx

/-- `torch.clamp(w, 0.5 + 1e-6, 1 - 1e-6)` (utils.py 454). -/
noncomputable def imvClamp (w : ℝ) : ℝ := min (max w (0.5 + 1e-6)) (1 - 1e-6)

/-- The increment for a log likelihood that may be minus infinity: `fx` is then plus infinity and, the
slope being positive, `delta_x` is minus infinity (`none`). -/
noncomputable def imvDeltaExt : Logit → ℝ → Option ℝ
  | .fin h, w => some (imvDelta h w)
  | .negInf, _ => none

/-- utils.py 453-454: the update of one entry; minus infinity is clamped to the lower bound. -/
noncomputable def imvStep (h : Logit) (w : ℝ) : ℝ :=
  match imvDeltaExt h w with
  | some δ => imvClamp (w + δ)
  | none => 0.5 + 1e-6

/-- `torch.abs(delta_x) < tol` of one entry. -/
noncomputable def imvSmall (tol : ℝ) (h : Logit) (w : ℝ) : Prop :=
  match imvDeltaExt h w with
  | some δ => |δ| < tol
  | none => False

open Classical in
/-- utils.py 445-457: the loop of `_imv_newton_raphson` for the two entries; it stops when the largest
increment is below the tolerance. -/
noncomputable def imvLoop (tol : ℝ) (h₁ h₂ : Logit) : ℕ → ℝ → ℝ → ℝ × ℝ
  | 0, w₁, w₂ => (w₁, w₂)
  | k + 1, w₁, w₂ =>
    if imvSmall tol h₁ w₁ ∧ imvSmall tol h₂ w₂ then (imvStep h₁ w₁, imvStep h₂ w₂)
    else imvLoop tol h₁ h₂ k (imvStep h₁ w₁) (imvStep h₂ w₂)

/-- utils.py 434-441 `imv` from the two mean log likelihoods (utils.py 435-436 call the evaluator, see
`Verif/Model/Evaluator.lean`). -/
noncomputable def imv (h₁ h₂ : Logit) (maxIterations : ℕ) : ℝ :=
  let w := imvLoop 1e-6 h₁ h₂ maxIterations 0.75 0.75
  (w.2 - w.1) / w.1

end Irt
