import Mathlib.Analysis.Calculus.FDeriv.Pi
import Mathlib.LinearAlgebra.Matrix.ToLin
import Mathlib.Topology.Algebra.Module.FiniteDimension

/-! # Specification: Jacobian matrices -/

namespace Irt

/-- `J` is the Jacobian matrix of `F` at `t`: `J i k` is the derivative of output `i` in direction `k`. -/
def IsJacobian {d : ℕ} (F : (Fin d → ℝ) → Fin d → ℝ) (J : Matrix (Fin d) (Fin d) ℝ) (t : Fin d → ℝ) : Prop :=
  HasFDerivAt F (LinearMap.toContinuousLinearMap (Matrix.toLin' J)) t

end Irt
