import Verif.Spec.Population
import Verif.Spec.Quadrature

/-!
# Specification: samples of respondents

Respondents are drawn independently; a respondent's latent scores are one of the points of an integration rule, drawn with probabilities
proportional to its weights, and the answers follow the model given the latent scores.
-/

namespace Irt.Spec

/-- The probability of the answers `x` of a respondent drawn from the population. -/
noncomputable def populationProb {d K : ℕ} (P : (Fin d → ℝ) → ℕ → ℕ → ℝ) (pts : List (Fin d → ℝ)) (w : List ℝ) (x : Fin K → ℕ) : ℝ :=
  weighted pts w (fun θ => answerProb P θ x) / w.sum

/-- All possible samples of `N` respondents who answered every item. -/
def samples (N : ℕ) (cats : List ℕ) : Finset (Fin N → Fin cats.length → ℕ) := Fintype.piFinset fun _ => fullAnswers cats

/-- The data matrix of a sample. -/
def sampleCells {N K : ℕ} (s : Fin N → Fin K → ℕ) : ℕ → ℕ → Cell :=
  fun i => if h : i < N then answersToAll (s ⟨i, h⟩) else fun _ => none

/-- The probability of a sample if `p` is the probability of the answers of one respondent. -/
noncomputable def sampleProb {N K : ℕ} (p : (Fin K → ℕ) → ℝ) (s : Fin N → Fin K → ℕ) : ℝ := ∏ i, p (s i)

/-- The expectation of a function of the sample. -/
noncomputable def averageOverSamples (N : ℕ) (cats : List ℕ) (p : (Fin cats.length → ℕ) → ℝ) (F : (Fin N → Fin cats.length → ℕ) → ℝ) : ℝ :=
  ∑ s ∈ samples N cats, sampleProb p s * F s

/-- The share of the respondents of a sample who gave the answers `x`. -/
noncomputable def sampleShare {N K : ℕ} (s : Fin N → Fin K → ℕ) (x : Fin K → ℕ) : ℝ := ({i | s i = x} : Finset (Fin N)).card / N

/-- How far two distributions of answers are apart: the sum of the absolute differences over all ways to answer the test. -/
noncomputable def patternDistance (cats : List ℕ) (p q : (Fin cats.length → ℕ) → ℝ) : ℝ := ∑ x ∈ fullAnswers cats, |p x - q x|

end Irt.Spec
