import Mathlib.Analysis.SpecialFunctions.Log.Basic

/-! # Specification of entropies -/

namespace Irt

/-- Entropy, in bits, of a distribution given as a list of probabilities, with the code's smoothing of the
logarithm: `∑ p · (-log₂ (p + 10⁻¹⁰))`. -/
noncomputable def smoothEntropy (p : List ℝ) : ℝ :=
  (p.map fun x => x * (-Real.log (x + 1e-10) / Real.log 2)).sum

/-- Entropy, in bits, without smoothing: `∑ -p log₂ p`. -/
noncomputable def shannonEntropy (p : List ℝ) : ℝ := (p.map fun x => -(x * (Real.log x / Real.log 2))).sum

end Irt
