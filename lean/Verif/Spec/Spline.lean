import Mathlib.Analysis.SpecialFunctions.Exp
import Mathlib.Algebra.BigOperators.Group.Finset.Basic

/-! # Specification: knots of a spline from unconstrained parameters -/

namespace Irt

open Finset

/-- The share of bin `i` among `n` bins with weights `exp (u i)`, with a guaranteed minimum `m`. -/
noncomputable def binShare (n : ℕ) (m : ℝ) (u : ℕ → ℝ) (i : ℕ) : ℝ :=
  m + (1 - m * n) * (Real.exp (u i) / ∑ l ∈ range n, Real.exp (u l))

/-- The `k`-th of `n + 1` knots dividing `[lo, hi]` in proportion to the shares. -/
noncomputable def knot (n : ℕ) (m lo hi : ℝ) (u : ℕ → ℝ) (k : ℕ) : ℝ :=
  lo + (hi - lo) * ∑ i ∈ range k, binShare n m u i

end Irt
