import Mathlib.Data.Real.Basic
import Mathlib.Algebra.Order.Group.Abs

/-! # Specification of ranks -/

namespace Irt

/-- The average rank of the value `x` in a sample: the mean of the first and the last rank (counted from 1)
that `x` occupies when the sample is put in increasing order. -/
noncomputable def averageRank (sample : List ℝ) (x : ℝ) : ℝ :=
  (((sample.countP fun y => decide (y < x)) + 1 : ℝ) + (sample.countP fun y => decide (y ≤ x))) / 2

/-- The value of a sample closest to `x`; the smaller one when two are equally close. -/
def Closest (sample : List ℝ) (x v : ℝ) : Prop :=
  v ∈ sample ∧ (∀ w ∈ sample, |v - x| ≤ |w - x|) ∧ ∀ w ∈ sample, |w - x| = |v - x| → v ≤ w

end Irt
