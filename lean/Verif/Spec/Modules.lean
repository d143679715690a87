import Mathlib.Analysis.SpecialFunctions.Exp

/-! # Specification: activation function, blocks of units -/

namespace Irt

/-- The bounded ELU: identity on `(-1, 1)`, exponential tails outside. -/
noncomputable def belu (α x : ℝ) : ℝ :=
  if x ≤ -1 then α * (Real.exp (x + 1) - 1) - 1
  else if 1 ≤ x then 1 - α * (Real.exp (1 - x) - 1)
  else x

/-- Its derivative away from the joints. -/
noncomputable def beluDeriv (α x : ℝ) : ℝ :=
  if x ≤ -1 then α * Real.exp (x + 1) else if 1 ≤ x then α * Real.exp (1 - x) else 1

/-- Unit `n` belongs to group `g` when units are laid out in consecutive groups of the given sizes. -/
def InGroup (sizes : List ℕ) (g n : ℕ) : Prop :=
  g < sizes.length ∧ (sizes.take g).sum ≤ n ∧ n < (sizes.take (g + 1)).sum

end Irt
