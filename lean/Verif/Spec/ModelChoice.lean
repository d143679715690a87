import Verif.Spec.LargeSample
import Mathlib.Analysis.SpecialFunctions.Pow.NNReal

/-!
# Specification: the answers of respondents who differ

Respondents answer independently of each other; respondent `i` gives the answers `x` with probability `p i x`.
-/

namespace Irt.Spec

/-- The probability of a sample in which respondent `i` gives the answers `x` with probability `p i x`. -/
noncomputable def answersProb {N K : ℕ} (p : Fin N → (Fin K → ℕ) → ℝ) (s : Fin N → Fin K → ℕ) : ℝ := ∏ i, p i (s i)

/-- How much two distributions of answers have in common: one if they are the same, zero if no answers are possible under both. -/
noncomputable def overlap (cats : List ℕ) (p q : (Fin cats.length → ℕ) → ℝ) : ℝ := ∑ x ∈ fullAnswers cats, Real.sqrt (p x * q x)

end Irt.Spec
