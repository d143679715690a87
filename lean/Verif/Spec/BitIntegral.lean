import Mathlib.Analysis.Calculus.Deriv.Basic
import Mathlib.MeasureTheory.Integral.IntervalIntegral.Basic

/-! # Specification of the bit score documented in `irtorch/rescale/bit.py` -/

namespace Irt.Spec

/-- The documented bit score: the sum over the items of `∫ |dH/dt| dt` from the starting theta to theta, where
`H` lists the entropies of the items as functions of theta (bit.py 40-68). -/
noncomputable def bitIntegral (H : List (ℝ → ℝ)) (start x : ℝ) : ℝ :=
  (H.map fun h => ∫ t in start..x, |deriv h t|).sum

/-- The function only rises, or only falls, on the set. -/
def OneWayOn (h : ℝ → ℝ) (s : Set ℝ) : Prop := MonotoneOn h s ∨ AntitoneOn h s

end Irt.Spec
