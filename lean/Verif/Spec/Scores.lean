import Mathlib.Data.Real.Basic
import Mathlib.Algebra.BigOperators.Fin
import Mathlib.Data.Fintype.Pi

/-! # Specification: the distribution of the sum of independent item scores -/

namespace Irt
open scoped BigOperators

/-- The probability that independent items with `cats i` categories and category probabilities `P i`
have the total score `s`: the sum, over every response pattern whose entries add up to `s`, of the
product of the item probabilities. -/
noncomputable def sumScoreMass {n : ℕ} (cats : Fin n → ℕ) (P : Fin n → ℕ → ℝ) (s : ℕ) : ℝ :=
  ∑ r ∈ Fintype.piFinset (fun i => Finset.range (cats i)) with ∑ i, r i = s, ∏ i, P i (r i)

end Irt
