import Verif.Spec.NormalPopulation

/-!
# Specification: respondents from a normal population with another mean

The latent scores of a respondent follow a normal distribution with the given mean and covariance matrix; the answers follow the model given
the latent scores.
-/

namespace Irt.Spec
open MeasureTheory

/-- The probability of the answers `x` of a respondent from a normal population with mean `μ` and covariance matrix `cov`. -/
noncomputable def normalProbAt {d K : ℕ} (P : (Fin d → ℝ) → ℕ → ℕ → ℝ) (μ : Fin d → ℝ) (cov : Matrix (Fin d) (Fin d) ℝ) (x : Fin K → ℕ) : ℝ :=
  ∫ θ : Fin d → ℝ, Real.exp (mvnLogDensity μ cov θ) * answerProb P θ x

end Irt.Spec
