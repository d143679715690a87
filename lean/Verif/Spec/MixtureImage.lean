import Mathlib.LinearAlgebra.Matrix.NonsingularInverse
import Mathlib.Analysis.SpecialFunctions.Log.Basic

/-! # Specification: what happens to a Gaussian mixture when the scale of the data is changed -/

namespace Irt.Spec

/-- The point `x` on the scale `x ↦ A x + c`. -/
def movedPoint {d : ℕ} (A : Matrix (Fin d) (Fin d) ℝ) (c x : Fin d → ℝ) : Fin d → ℝ := A.mulVec x + c

/-- The second mixture is the first one on the scale `x ↦ A x + c`: equal weights, moved means and covariances
`A S Aᵀ`. -/
structure MovedMixture {K d : ℕ} (A : Matrix (Fin d) (Fin d) ℝ) (c : Fin d → ℝ) (w w' : Fin K → ℝ)
    (m m' : Fin K → Fin d → ℝ) (S S' : Fin K → Matrix (Fin d) (Fin d) ℝ) : Prop where
  weights : ∀ k, w' k = w k
  means : ∀ k, m' k = movedPoint A c (m k)
  covariances : ∀ k, S' k = A * S k * A.transpose

end Irt.Spec
