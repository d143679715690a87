import Verif.Model.Rounding

/-! # Specification: floating point arithmetic, and what results should be -/

namespace Irt.Spec

/-- Every operation has relative error at most `u` (2⁻²⁴ for 32-bit numbers that are rounded to nearest); products, quotients and exponentials
may also be off by `η` (underflow). -/
structure SoundFloats (F : FloatOps) (u η : ℝ) : Prop where
  u_nonneg : 0 ≤ u
  u_le : u ≤ 1 / 2
  η_nonneg : 0 ≤ η
  rnd : ∀ x, |F.rnd x - x| ≤ u * |x|
  mul : ∀ x y, |F.mul x y - x * y| ≤ u * |x * y| + η
  div : ∀ x y, y ≠ 0 → |F.div x y - x / y| ≤ u * |x / y| + η
  exp : ∀ x, x ≤ 0 → |F.exp x - Real.exp x| ≤ u * Real.exp x + η
  log : ∀ x, 0 < x → |F.log x - Real.log x| ≤ u * |Real.log x|

/-- Rounding keeps the order and does not change rounded numbers; exponentials are rounded numbers, at least zero, and `exp 0 = 1`; quotients of a
number at least zero by one that is not smaller are between zero and one. -/
structure OrderlyFloats (F : FloatOps) : Prop where
  mono : ∀ x y, x ≤ y → F.rnd x ≤ F.rnd y
  zero : F.rnd 0 = 0
  exp_rounded : ∀ x, F.rnd (F.exp x) = F.exp x
  exp_nonneg : ∀ x, 0 ≤ F.exp x
  exp_zero : F.exp 0 = 1
  div_range : ∀ x y, 0 ≤ x → x ≤ y → 0 < y → 0 ≤ F.div x y ∧ F.div x y ≤ 1

/-- The log probability of the category with logit `x` among the categories with logits `xs`. -/
noncomputable def logProb (xs : List ℝ) (x : ℝ) : ℝ := x - Real.log (xs.map Real.exp).sum

/-- The probability of the category with logit `x` among the categories with logits `xs`. -/
noncomputable def probOf (xs : List ℝ) (x : ℝ) : ℝ := Real.exp x / (xs.map Real.exp).sum

/-- The mean of the points with weights proportional to the exponentials of their log weights. -/
noncomputable def softMean (points : List (ℝ × ℝ)) : ℝ :=
  (points.map fun p => p.1 * Real.exp p.2).sum / (points.map fun p => Real.exp p.2).sum

/-- The error of a sum of `n` exponentials of numbers up to zero, when every number takes part in at most `h` additions. -/
noncomputable def shiftedSumError (u η : ℝ) (h n : ℕ) : ℝ := n * ((1 + u) ^ h * (1 + 2 * u + η) - 1)

end Irt.Spec
