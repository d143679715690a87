import Verif.Model.LatentFunctions
import Mathlib.Probability.Distributions.Gaussian.Real
import Mathlib.Probability.CDF

/-! # Specification of interpolation and of the quantile transformation -/

namespace Irt

/-- The straight line through `p` and `q` at `t`. -/
noncomputable def lineThrough (p q : ℝ × ℝ) (t : ℝ) : ℝ := p.2 + (q.2 - p.2) / (q.1 - p.1) * (t - p.1)

/-- `p` and `q` are neighbouring knots. -/
def Neighbours (knots : List (ℝ × ℝ)) (p q : ℝ × ℝ) : Prop :=
  p ∈ knots ∧ q ∈ knots ∧ p.1 < q.1 ∧ ∀ r ∈ knots, r.1 ≤ p.1 ∨ q.1 ≤ r.1

/-- `argsort` returns a permutation that sorts its argument. -/
def IsArgsort {n : ℕ} (argsort : (Fin n → ℝ) → Fin n → Fin n) : Prop :=
  ∀ x, Function.Bijective (argsort x) ∧ ∀ i j, i ≤ j → x (argsort x i) ≤ x (argsort x j)

/-- `icdf` inverts the distribution function of the standard normal distribution. -/
def IsNormalQuantile (icdf : ℝ → ℝ) : Prop :=
  ∀ p, 0 < p → p < 1 → ProbabilityTheory.cdf (ProbabilityTheory.gaussianReal 0 1) (icdf p) = p

end Irt
