import Verif.Spec.Ordered

/-! # Specification: the spread of a score distribution -/

namespace Irt.Spec

/-- Variance of a score with the distribution `p`, entry `k` being the probability of `k` points. -/
noncomputable def scoreVariance (p : List ℝ) : ℝ := ∑ k ∈ Finset.range p.length, ((k : ℝ) - meanScore p) ^ 2 * p.getD k 0

end Irt.Spec
