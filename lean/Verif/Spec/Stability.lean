import Verif.Spec.ScoreSearch

/-! # Specification: how far scores are from each other -/

namespace Irt.Spec

open Matrix

/-- The squared distance of two scores in the units of the prior: with one latent variable, the squared difference divided by the variance. -/
noncomputable def distSq {d : ℕ} (cov : Matrix (Fin d) (Fin d) ℝ) (x y : Fin d → ℝ) : ℝ := (x - y) ⬝ᵥ (cov⁻¹.mulVec (x - y))

/-- The variance of `∑ k, g k * θ k` under the prior: with one latent variable, the squared slope times the variance. -/
noncomputable def slopeVar {d : ℕ} (cov : Matrix (Fin d) (Fin d) ℝ) (g : Fin d → ℝ) : ℝ := g ⬝ᵥ (cov.mulVec g)

/-- `g` is the gradient of `f` at `t`. -/
def HasGrad {d : ℕ} (f : (Fin d → ℝ) → ℝ) (g t : Fin d → ℝ) : Prop :=
  HasFDerivAt f (∑ k, g k • ContinuousLinearMap.proj (R := ℝ) (φ := fun _ : Fin d => ℝ) k) t

end Irt.Spec
