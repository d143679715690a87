import Mathlib.Analysis.SpecialFunctions.Log.Basic
import Mathlib.Algebra.BigOperators.Group.Finset.Basic
import Verif.Model.Data

/-! # Specification of mutual information -/

namespace Irt

open scoped BigOperators

/-- Mutual information of a joint table `q` of two variables with values `0..M-1`: the divergence of `q` from the product
of its margins. -/
noncomputable def mutualInfo (base : ℝ) (M : ℕ) (q : ℕ → ℕ → ℝ) : ℝ :=
  ∑ k ∈ Finset.range M, ∑ l ∈ Finset.range M,
    q k l * Real.log (q k l / ((∑ l' ∈ Finset.range M, q k l') * ∑ k' ∈ Finset.range M, q k' l)) / Real.log base

/-- The proportion of the respondents with responses `k` and `l` to two items. -/
noncomputable def jointShare {n : ℕ} (a b : Fin n → ℕ) (k l : ℕ) : ℝ :=
  ((Finset.univ.filter fun r => a r = k ∧ b r = l).card : ℝ) / n

/-- What the model says about two items: the mean over the respondents of the products of the probabilities. -/
noncomputable def modelShare2 {n : ℕ} (a b : Fin n → ℕ → ℝ) (k l : ℕ) : ℝ := (∑ r, a r k * b r l) / n

end Irt
