import Verif.Spec.LargeSample
import Verif.Spec.Marginal

/-!
# Specification: respondents from a normal population

The latent scores of a respondent follow a normal distribution with mean zero and the given covariance matrix; the answers follow the
model given the latent scores.
-/

namespace Irt.Spec
open MeasureTheory

/-- The probability of the answers `x` of a respondent from the normal population. -/
noncomputable def normalProb {d K : ℕ} (P : (Fin d → ℝ) → ℕ → ℕ → ℝ) (cov : Matrix (Fin d) (Fin d) ℝ) (x : Fin K → ℕ) : ℝ :=
  ∫ θ : Fin d → ℝ, Real.exp (mvnLogDensity 0 cov θ) * answerProb P θ x

end Irt.Spec
