import Mathlib.Analysis.SpecialFunctions.Log.Deriv
import Mathlib.LinearAlgebra.Matrix.Defs

/-! # Specification: Fisher information -/

namespace Irt

/-- Partial derivative of `f` in coordinate `k` at `t`. -/
noncomputable def partialD {d : ℕ} (f : (Fin d → ℝ) → ℝ) (t : Fin d → ℝ) (k : Fin d) : ℝ :=
  deriv (fun v => f (Function.update t k v)) (t k)

/-- Fisher information of one categorical response with probabilities `P t`: the expectation of the product of
two partial derivatives of the log probability of the response. -/
noncomputable def fisherInformation {d : ℕ} (P : (Fin d → ℝ) → List ℝ) (t : Fin d → ℝ) :
    Matrix (Fin d) (Fin d) ℝ :=
  Matrix.of fun i j => ∑ c ∈ Finset.range (P t).length, (P t).getD c 0 *
    (partialD (fun s => Real.log ((P s).getD c 0)) t i * partialD (fun s => Real.log ((P s).getD c 0)) t j)

end Irt
