import Verif.Spec.Scoring
import Mathlib.MeasureTheory.Integral.Bochner.Set
import Mathlib.MeasureTheory.Measure.Lebesgue.Basic

/-! # Specification of marginal likelihoods -/

namespace Irt

open MeasureTheory

/-- The marginal likelihood of the responses `row` under a normal population with mean zero and covariance `cov`. -/
noncomputable def marginalLikelihood {d : ℕ} (P : (Fin d → ℝ) → ℕ → ℕ → ℝ) (items : ℕ) (cov : Matrix (Fin d) (Fin d) ℝ)
    (row : ℕ → Cell) : ℝ :=
  ∫ θ : Fin d → ℝ, Real.exp (mvnLogDensity 0 cov θ) * observedLikelihood P items row θ

/-- The part of the marginal likelihood that comes from latent variables between `a` and `b`. -/
noncomputable def boxLikelihood {d : ℕ} (P : (Fin d → ℝ) → ℕ → ℕ → ℝ) (items : ℕ) (cov : Matrix (Fin d) (Fin d) ℝ)
    (row : ℕ → Cell) (a b : Fin d → ℝ) : ℝ :=
  ∫ θ in Set.Icc a b, Real.exp (mvnLogDensity 0 cov θ) * observedLikelihood P items row θ

/-- The response probabilities are continuous functions of the latent variables. -/
def ContinuousProbs {d : ℕ} (P : (Fin d → ℝ) → ℕ → ℕ → ℝ) : Prop := ∀ j r : ℕ, Continuous fun θ => P θ j r

/-- Every category of every item has a positive probability. -/
def PositiveProbs {d : ℕ} (P : (Fin d → ℝ) → ℕ → ℕ → ℝ) (cats : List ℕ) : Prop :=
  ∀ (θ : Fin d → ℝ) (j c r : ℕ), cats[j]? = some c → r < c → 0 < P θ j r

end Irt
