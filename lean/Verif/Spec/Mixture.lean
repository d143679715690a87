import Mathlib.LinearAlgebra.Matrix.PosDef

/-!
# Specification vocabulary for Gaussian mixtures
-/

namespace Irt.Spec

/-- Positive weights that sum to one and symmetric positive semidefinite covariances. -/
def ValidMixture {K d : ℕ} (weights : Fin K → ℝ) (cov : Fin K → Matrix (Fin d) (Fin d) ℝ) : Prop :=
  (∀ k, 0 < weights k) ∧ ∑ k, weights k = 1 ∧
  ∀ k, (cov k).IsSymm ∧ ∀ v : Fin d → ℝ, 0 ≤ v ⬝ᵥ ((cov k).mulVec v)

end Irt.Spec
