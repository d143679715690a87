import Verif.Spec.Scoring
import Verif.Spec.Categorical
import Verif.Model.Logistic
import Mathlib.Probability.Independence.Basic
import Mathlib.MeasureTheory.Integral.Bochner.Basic

/-! # C111: joint maximum likelihood -/

namespace Irt.Spec

open Finset MeasureTheory ProbabilityTheory

/-- Minus the log likelihood of the observed responses of `N` respondents with latent scores `θ`. -/
noncomputable def jointLoss {d : ℕ} (P : (Fin d → ℝ) → ℕ → ℕ → ℝ) (items N : ℕ) (y : ℕ → ℕ → Cell)
    (θ : ℕ → Fin d → ℝ) : ℝ :=
  -∑ i ∈ range N, Real.log (observedLikelihood P items (y i) (θ i))

/-- The response probabilities of a one parameter logistic model. -/
noncomputable def onePLProb (m : OnePL) (θ : Fin 1 → ℝ) : ℕ → ℕ → ℝ := tableProb (m.probs (θ 0))

/-- Item parameters and latent scores with the smallest joint loss. -/
def IsJointMinimum (m : OnePL) (N : ℕ) (y : ℕ → ℕ → Cell) (θ : ℕ → Fin 1 → ℝ) : Prop :=
  ∀ m' : OnePL, m'.WF → m'.items = m.items → ∀ θ', jointLoss (onePLProb m) m.items N y θ ≤ jointLoss (onePLProb m') m.items N y θ'

/-- Item parameters whose joint loss, with suitable latent scores, comes as close as one likes to the smallest possible one. (For
a respondent who answered everything right the best latent score is infinite, so that there may be no minimum.) -/
def IsJointEstimate (m : OnePL) (N : ℕ) (y : ℕ → ℕ → Cell) : Prop :=
  ∀ m' : OnePL, m'.WF → m'.items = m.items → ∀ θ' (ε : ℝ), 0 < ε →
    ∃ θ, jointLoss (onePLProb m) m.items N y θ < jointLoss (onePLProb m') m.items N y θ' + ε

/-- A group of respondents `S` and items `T` above all others: nobody in the group failed an item outside it, and nobody outside
solved an item in it. -/
structure Above (N J : ℕ) (y : ℕ → ℕ → Cell) (S T : ℕ → Prop) : Prop where
  passed : ∀ i, i < N → S i → ∀ j, j < J → ¬ T j → y i j ≠ some 0
  failed : ∀ i, i < N → ¬ S i → ∀ j, j < J → T j → y i j ≠ some 1

/-- The respondents and items do not fall into two groups one of which is above the other. -/
def WellConnected (N J : ℕ) (y : ℕ → ℕ → Cell) : Prop :=
  ∀ S T : ℕ → Prop, Above N J y S T →
    (∀ i, i < N → S i) ∧ (∀ j, j < J → T j) ∨ (∀ i, i < N → ¬ S i) ∧ ∀ j, j < J → ¬ T j

/-- A respondent answered two items with `a` and `b`. -/
def Answered (row : ℕ → Cell) (a b : ℤ) : Prop := row 0 = some a ∧ row 1 = some b

instance (row : ℕ → Cell) (a b : ℤ) : Decidable (Answered row a b) := by unfold Answered; infer_instance

/-- How many of `N` respondents answered two items with `a` and `b`. -/
def countAnswered (N : ℕ) (y : ℕ → ℕ → Cell) (a b : ℤ) : ℕ := ((range N).filter fun i => Answered (y i) a b).card

/-- The difference of the intercepts of the first two items, as `item_parameters` reports them. -/
noncomputable def interceptDifference (m : OnePL) : ℝ := m.itemParameters.getD 0 0 - m.itemParameters.getD 1 0

/-- Data of a respondent who answered two items, rightly where the pair says so. -/
def bothAnswers (p : Bool × Bool) (j : ℕ) : Cell := some (if (if j = 0 then p.1 else p.2) then 1 else 0)

/-- A random sample of respondents to two items from a one parameter logistic model with ability distribution `ν`: independent
respondents, and given the ability independent answers with the probabilities of the model. -/
structure Sample {Ω : Type} [MeasurableSpace Ω] (μ : Measure Ω) (m : OnePL) (ν : Measure ℝ) (Y : ℕ → Ω → Bool × Bool) : Prop where
  measurable : ∀ i, Measurable (Y i)
  independent : iIndepFun Y μ
  law : ∀ i a b, μ.real {ω | Y i ω = (a, b)} = ∫ t, onePLProb m (fun _ => t) 0 a.toNat * onePLProb m (fun _ => t) 1 b.toNat ∂ν

end Irt.Spec
