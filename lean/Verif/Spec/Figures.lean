import Mathlib.Data.Real.Basic

/-! # Bins of a histogram -/

namespace Irt

/-- Edge number `k` of `B` bins of equal width from `a` to `b`. -/
noncomputable def binEdge (a b : ℝ) (B k : ℕ) : ℝ := a + (b - a) * k / B

/-- `x` is in bin `k`: the left edge belongs to the bin, the right edge only for the last bin. -/
def InBin (a b : ℝ) (B k : ℕ) (x : ℝ) : Prop :=
  binEdge a b B k ≤ x ∧ (x < binEdge a b B (k + 1) ∨ k + 1 = B ∧ x = b)

/-- `a` and `b` are the outer edges for the values `xs`: the smallest and the largest, or half a unit on each side when all
values are equal. -/
def IsBinRange (xs : List ℝ) (a b : ℝ) : Prop :=
  (a < b ∧ a ∈ xs ∧ b ∈ xs ∧ ∀ x ∈ xs, a ≤ x ∧ x ≤ b) ∨ (∃ x ∈ xs, (∀ y ∈ xs, y = x) ∧ a = x - 1 / 2 ∧ b = x + 1 / 2)

end Irt
