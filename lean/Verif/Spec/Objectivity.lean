import Verif.Spec.TestScores
import Verif.Spec.Scoring
import Verif.Model.ScoreDist
import Mathlib.Data.Fintype.Pi

/-! # Specification: what the answers say beyond the number of points -/

namespace Irt.Spec

open Finset

/-- The answers `r` are possible: each is one of the categories of its item. -/
def PossibleAnswers (cats : List ℕ) (r : Fin cats.length → ℕ) : Prop := ∀ i : Fin cats.length, r i < cats[i]

/-- The probability of the answers `r` of a respondent with the probability table `t`. -/
noncomputable def answersChance {n : ℕ} (t : List (List ℝ)) (r : Fin n → ℕ) : ℝ := ∏ i : Fin n, tableProb t i (r i)


/-- Given the number of points, the answers to a test with probability tables `table θ` have the probabilities `q`, whatever the latent
variable: the probability of the answers is the probability of the number of points, as computed by
`conditional_score_distribution`, times `q`. -/
structure GivenPoints {Θ : Type} (cats : List ℕ) (table : Θ → List (List ℝ)) (q : (Fin cats.length → ℕ) → ℝ) : Prop where
  positive : ∀ r, PossibleAnswers cats r → 0 < q r
  total : ∀ s, s ≤ maxPoints cats →
    ∑ r ∈ Fintype.piFinset (fun i : Fin cats.length => range cats[i]) with ∑ i, r i = s, q r = 1
  factor : ∀ θ, ∃ d, conditionalScoreDistribution (table θ) cats = .ok d ∧
    ∀ r, PossibleAnswers cats r → answersChance (table θ) r = d.getD (∑ i, r i) 0 * q r

end Irt.Spec
