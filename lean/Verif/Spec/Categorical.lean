import Mathlib.Analysis.SpecialFunctions.Exp
import Mathlib.Algebra.BigOperators.Group.Finset.Basic

/-!
# Specification: categorical response distributions

Independent of the model: only lists of reals and the textbook formulas.
-/

namespace Irt

/-- `p` is a probability distribution on `M` category slots of which only the first `c` exist. -/
structure IsDistribution (c M : ℕ) (p : List ℝ) : Prop where
  length : p.length = M
  nonneg : ∀ x ∈ p, 0 ≤ x
  le_one : ∀ x ∈ p, x ≤ 1
  sum_one : p.sum = 1
  missing : ∀ k, c ≤ k → k < M → p[k]? = some 0

/-- Every category that exists has positive probability. -/
def AllPositive (c : ℕ) (p : List ℝ) : Prop := ∀ k, k < c → ∃ x, p[k]? = some x ∧ 0 < x

/-- A probability table of a respondent: item `j` has a distribution over its `cats[j]` categories. -/
def IsTable (cats : List ℕ) (M : ℕ) (t : List (List ℝ)) : Prop :=
  t.length = cats.length ∧ ∀ (j : ℕ) p c, t[j]? = some p → cats[j]? = some c → IsDistribution c M p

/-- Textbook multinomial logit on the first `c` of `M` slots:
`P(k) = exp(l k) / Σ_{x<c} exp(l x)`, and zero for slots that do not exist. -/
noncomputable def multinomialLogit (c M : ℕ) (l : ℕ → ℝ) : List ℝ :=
  (List.range M).map fun k =>
    if k < c then Real.exp (l k) / ∑ x ∈ Finset.range c, Real.exp (l x) else 0

/-- Textbook logistic function. -/
noncomputable def logistic (x : ℝ) : ℝ := Real.exp x / (1 + Real.exp x)

/-- Inner product of two coefficient vectors given as functions on `{0..n-1}`. -/
noncomputable def innerN (n : ℕ) (a b : ℕ → ℝ) : ℝ := ∑ k ∈ Finset.range n, a k * b k

end Irt
