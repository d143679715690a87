import Verif.Spec.LogitModel
import Verif.Spec.Quadrature
import Verif.Model.GradientFit

/-!
# Specification: observed and expected numbers of answers

`P θ j r` is the probability of response `r` on item `j` at latent scores `θ`; `y i j` is the response of respondent `i`.
-/

namespace Irt.Spec

variable {d : ℕ}

/-- Mean of `F` over integration points `pts` with weights `w`, for a respondent whose answers have likelihood `lik`: every point
counts in proportion to its weight times the likelihood at it. -/
noncomputable def posteriorMean (pts : List (Fin d → ℝ)) (w : List ℝ) (lik F : (Fin d → ℝ) → ℝ) : ℝ :=
  weighted pts w (fun θ => lik θ * F θ) / weighted pts w lik

/-- The respondents among the first `N` who answered item `j`. -/
def answeredBy (N : ℕ) (y : ℕ → ℕ → Cell) (j : ℕ) : Finset ℕ := (Finset.range N).filter fun i => cellMissing (y i j) = false

/-- How many of them gave response `r`. -/
def chosenBy (N : ℕ) (y : ℕ → ℕ → Cell) (j r : ℕ) : ℕ := ((Finset.range N).filter fun i => y i j = some (r : ℤ)).card

/-- How many of them the model expects to give response `r`, each with the distribution of the latent scores given their own
answers. -/
noncomputable def expectedBy (P : (Fin d → ℝ) → ℕ → ℕ → ℝ) (items : ℕ) (pts : List (Fin d → ℝ)) (w : List ℝ) (N : ℕ)
    (y : ℕ → ℕ → Cell) (j r : ℕ) : ℝ :=
  ∑ i ∈ answeredBy N y j, posteriorMean pts w (observedLikelihood P items (y i)) fun θ => P θ j r

/-- The expected score on item `j` with `c` categories, at latent scores `θ`. -/
noncomputable def meanItemScore (P : (Fin d → ℝ) → ℕ → ℕ → ℝ) (c j : ℕ) (θ : Fin d → ℝ) : ℝ := ∑ r ∈ Finset.range c, r * P θ j r

/-- The gradient of a loss is zero at the parameters `p`: no derivative by one of them pulls it anywhere. -/
def FlatAt (loss : List ℝ → Except PyErr Num) (p : List ℝ) : Prop := ∀ n, n < p.length → partialAt loss p n = 0

/-- No other parameters have a smaller loss. -/
def SmallestAt (loss : List ℝ → Except PyErr Num) (p : List ℝ) : Prop :=
  ∀ q : List ℝ, q.length = p.length → lossValue (loss p) ≤ lossValue (loss q)

/-- The observed and the expected numbers of every answer agree. -/
def AnswersMatch (P : (Fin d → ℝ) → ℕ → ℕ → ℝ) (cats : List ℕ) (pts : List (Fin d → ℝ)) (w : List ℝ) (N : ℕ) (y : ℕ → ℕ → Cell) : Prop :=
  ∀ j c r, cats[j]? = some c → r < c → (chosenBy N y j r : ℝ) = expectedBy P cats.length pts w N y j r

/-- Every answer that an answered item allows was given by somebody. -/
def EveryAnswerGiven (cats : List ℕ) (N : ℕ) (y : ℕ → ℕ → Cell) : Prop :=
  ∀ j c r, cats[j]? = some c → r < c → (answeredBy N y j).Nonempty → 0 < chosenBy N y j r

end Irt.Spec
