import Verif.Spec.Scoring
import Verif.Model.VAE
import Mathlib.Probability.Distributions.Gaussian.Real

/-!
# Specification of the variational objective

Densities and measures are Mathlib's.
-/

namespace Irt

open ProbabilityTheory MeasureTheory

/-- The Kullback-Leibler divergence of the normal distribution with mean `μ` and variance `v` from the standard normal
distribution: the expectation of the log density ratio. -/
noncomputable def normalDivergence (μ : ℝ) (v : NNReal) : ℝ :=
  ∫ x, Real.log (gaussianPDFReal μ v x / gaussianPDFReal 0 1 x) ∂(gaussianReal μ v)

/-- The variance with logarithm `l`. -/
noncomputable def varOf (l : ℝ) : NNReal := ⟨Real.exp l, (Real.exp_pos l).le⟩

/-- Density of independent normal variables with means `μ` and log variances `l`. -/
noncomputable def encoderDensity {d : ℕ} (μ l θ : Fin d → ℝ) : ℝ := ∏ k, gaussianPDFReal (μ k) (varOf (l k)) (θ k)

/-- Density of independent standard normal variables. -/
noncomputable def priorDensity {d : ℕ} (θ : Fin d → ℝ) : ℝ := ∏ k, gaussianPDFReal 0 1 (θ k)

/-- The importance weight of a sample `θ` with the density ratio raised to the power `a`. -/
noncomputable def importanceWeight {d : ℕ} (P : (Fin d → ℝ) → ℕ → ℕ → ℝ) (items : ℕ) (row : ℕ → Cell) (a : ℝ)
    (μ l θ : Fin d → ℝ) : ℝ :=
  observedLikelihood P items row θ * (priorDensity θ / encoderDensity μ l θ) ^ a

end Irt
