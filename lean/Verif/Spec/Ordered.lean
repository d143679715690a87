import Mathlib.Data.Real.Basic
import Mathlib.Algebra.BigOperators.Group.Finset.Basic

/-! # Specification: ordering of response distributions -/

namespace Irt

/-- `P(X ≥ x)` for a list of category probabilities. -/
noncomputable def atLeast (p : List ℝ) (x : ℕ) : ℝ := (p.drop x).sum

/-- Expected score, category `k` counting `k` points. -/
noncomputable def meanScore (p : List ℝ) : ℝ := ∑ k ∈ Finset.range p.length, (k : ℝ) * p.getD k 0

/-- `p'` is stochastically at least `p`: every score is reached with at least the same probability, and the
expected score is at least as high. -/
def ScoresHigher (p p' : List ℝ) : Prop := (∀ x, atLeast p x ≤ atLeast p' x) ∧ meanScore p ≤ meanScore p'

end Irt
