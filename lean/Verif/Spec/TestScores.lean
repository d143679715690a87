import Verif.Spec.Ordered
import Verif.Spec.Categorical

/-!
# Specification: test scores and the latent variable

A distribution of the test score is a list `d` whose entry `s` is the probability of `s` points.
-/

namespace Irt.Spec

/-- `d'` leans towards higher scores: the likelihood ratio of `d'` to `d` does not fall with the score. -/
def LeansHigher (d d' : List ℝ) : Prop :=
  ∀ s t : ℕ, s ≤ t → d'.getD s 0 * d.getD t 0 ≤ d.getD s 0 * d'.getD t 0

/-- The likelihood ratio rises with every point, up to the highest score. -/
def LeansStrictlyHigher (d d' : List ℝ) : Prop :=
  ∀ s t : ℕ, s < t → t < d.length → d'.getD s 0 * d.getD t 0 < d.getD s 0 * d'.getD t 0

/-- A population of finitely many groups of respondents, `(share, θ)` each, whose test scores have the distributions
`dist θ`: the mean latent score of those who have `s` points. -/
noncomputable def traitAtScore (population : List (ℝ × ℝ)) (dist : ℝ → List ℝ) (s : ℕ) : ℝ :=
  (population.map fun g => g.1 * (dist g.2).getD s 0 * g.2).sum / (population.map fun g => g.1 * (dist g.2).getD s 0).sum

/-- A probability table in which every category of every item has positive probability. -/
def PositiveTable (cats : List ℕ) (M : ℕ) (t : List (List ℝ)) : Prop :=
  IsTable cats M t ∧ ∀ (j : ℕ) p c, t[j]? = some p → cats[j]? = some c → AllPositive c p

/-- The number of points that can be reached. -/
def maxPoints (cats : List ℕ) : ℕ := (cats.map (· - 1)).sum

/-- In every population, respondents with more points do not have a lower mean latent score. -/
def ScoreOrdersTrait (cats : List ℕ) (dist : ℝ → List ℝ) : Prop :=
  ∀ population : List (ℝ × ℝ), (∀ g ∈ population, 0 ≤ g.1) → (∃ g ∈ population, 0 < g.1) →
    ∀ s t, s ≤ t → t ≤ maxPoints cats → traitAtScore population dist s ≤ traitAtScore population dist t

/-- In every population that is not uniform, every additional point raises the mean latent score. -/
def ScoreStrictlyOrdersTrait (cats : List ℕ) (dist : ℝ → List ℝ) : Prop :=
  ∀ population : List (ℝ × ℝ), (∀ g ∈ population, 0 ≤ g.1) →
    (∃ g ∈ population, ∃ g' ∈ population, 0 < g.1 ∧ 0 < g'.1 ∧ g.2 ≠ g'.2) →
    ∀ s t, s < t → t ≤ maxPoints cats → traitAtScore population dist s < traitAtScore population dist t

end Irt.Spec
