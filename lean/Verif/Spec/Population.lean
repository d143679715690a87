import Verif.Spec.Scoring
import Mathlib.Algebra.BigOperators.Pi
import Mathlib.Data.Fintype.Pi

/-!
# Specification: respondents whose answers follow the model

A respondent's latent scores are one of the points of `grid`, drawn with probabilities proportional to `prior`; given the latent scores
`θ`, item `j` gets answer `r` with probability `P θ j r`, independently of the other items.
-/

namespace Irt.Spec

/-- The probabilities of the categories of every item add up to one. -/
def ProperProbs {d : ℕ} (P : (Fin d → ℝ) → ℕ → ℕ → ℝ) (cats : List ℕ) : Prop :=
  ∀ θ j c, cats[j]? = some c → ∑ r ∈ Finset.range c, P θ j r = 1

/-- All ways to answer every item. -/
def fullAnswers (cats : List ℕ) : Finset (Fin cats.length → ℕ) := Fintype.piFinset fun j => Finset.range cats[j]

/-- The ways to answer every item that agree with the answers already given. -/
def completions (cats : List ℕ) (row : ℕ → Cell) : Finset (Fin cats.length → ℕ) :=
  Fintype.piFinset fun j => if cellMissing (row j) then Finset.range cats[j] else {responseOf (row j)}

/-- The row of data of a respondent whose answers would be `x`, but who was only asked the items in `T`. -/
def answersTo {K : ℕ} (T : Finset (Fin K)) (x : Fin K → ℕ) : ℕ → Cell :=
  fun j => if h : j < K then if ⟨j, h⟩ ∈ T then some (x ⟨j, h⟩ : ℤ) else none else none

/-- The row of data of a respondent who answered every item. -/
def answersToAll {K : ℕ} (x : Fin K → ℕ) : ℕ → Cell := answersTo Finset.univ x

/-- The probability of the answers `x` of a respondent with latent scores `θ`. -/
noncomputable def answerProb {d K : ℕ} (P : (Fin d → ℝ) → ℕ → ℕ → ℝ) (θ : Fin d → ℝ) (x : Fin K → ℕ) : ℝ := ∏ j : Fin K, P θ j (x j)

/-- Expectation of a function of the latent scores and the answers of a respondent. -/
noncomputable def expectation {d : ℕ} (P : (Fin d → ℝ) → ℕ → ℕ → ℝ) (cats : List ℕ) (prior : (Fin d → ℝ) → ℝ) (grid : List (Fin d → ℝ))
    (F : (Fin d → ℝ) → (Fin cats.length → ℕ) → ℝ) : ℝ :=
  (grid.map fun θ => prior θ * ∑ x ∈ fullAnswers cats, answerProb P θ x * F θ x).sum / (grid.map prior).sum

/-- `δ` makes use of the answers to the items in `T` only. -/
def DependsOn (cats : List ℕ) (T : Finset (Fin cats.length)) (δ : (Fin cats.length → ℕ) → ℝ) : Prop :=
  ∀ x ∈ fullAnswers cats, ∀ x' ∈ fullAnswers cats, (∀ j ∈ T, x j = x' j) → δ x = δ x'

end Irt.Spec
