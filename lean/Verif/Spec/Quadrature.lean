import Mathlib.Analysis.SpecialFunctions.Gaussian.GaussianIntegral
import Mathlib.LinearAlgebra.Matrix.PosDef
import Mathlib.Algebra.BigOperators.Group.List.Basic

/-!
# Specification vocabulary for quadrature rules
-/

namespace Irt.Spec

/-- What numpy documents of an `n`-point Gauss-Hermite rule: `n` nodes and `n` weights that integrate
every polynomial of degree below `2n` exactly against `exp(-x²)`. -/
def HermiteExact (n : ℕ) (x w : List ℝ) : Prop :=
  x.length = n ∧ w.length = n ∧
  ∀ k < 2 * n, (List.zipWith (fun a b => b * a ^ k) x w).sum = ∫ t : ℝ, t ^ k * Real.exp (-t ^ 2)

/-- What is relied on of a Cholesky factorisation. -/
def IsCholesky {d : ℕ} (cov L : Matrix (Fin d) (Fin d) ℝ) : Prop := L * L.transpose = cov

/-- `Σ weight · f(point)`. -/
noncomputable def weighted {d : ℕ} (pts : List (Fin d → ℝ)) (w : List ℝ) (f : (Fin d → ℝ) → ℝ) : ℝ :=
  (List.zipWith (fun p a => a * f p) pts w).sum

end Irt.Spec
