import Mathlib.Data.Real.Basic

/-! # Specification: B-spline basis functions (Cox–de Boor recursion) -/

namespace Irt

/-- B-spline basis function number `i` of degree `p` for the knots `t`. -/
noncomputable def bspline (t : ℕ → ℝ) : ℕ → ℕ → ℝ → ℝ
  | 0, i, x => if t i ≤ x ∧ x < t (i + 1) then 1 else 0
  | p + 1, i, x => (x - t i) / (t (i + p + 1) - t i) * bspline t p i x +
      (t (i + p + 2) - x) / (t (i + p + 2) - t (i + 1)) * bspline t p (i + 1) x

end Irt
