import Verif.Torch.Basic
import Mathlib.Analysis.SpecialFunctions.Log.NegMulLog
import Mathlib.Algebra.BigOperators.Fin

/-! # Textbook definitions used to state the properties of the helper functions -/

namespace Irt

/-- The sum of squared residuals of the linear model with intercepts `w 0` and slopes `w 1, ..., w n`. -/
noncomputable def residualSumOfSquares {m n o : ℕ} (x : Fin m → Fin n → ℝ) (y : Fin m → Fin o → ℝ)
    (w : Fin (n + 1) → Fin o → ℝ) : ℝ :=
  ∑ i, ∑ k, (y i k - (w 0 k + ∑ j, x i j * w j.succ k)) ^ 2

/-- The sum of the products of the deviations from the means. -/
noncomputable def coMoment (l : List (ℝ × ℝ)) : ℝ :=
  (l.map fun p => (p.1 - (l.map Prod.fst).sum / l.length) * (p.2 - (l.map Prod.snd).sum / l.length)).sum

/-- The sum of the squared deviations from the mean. -/
noncomputable def moment (l : List ℝ) : ℝ := (l.map fun x => (x - l.sum / l.length) ^ 2).sum

/-- Pearson's correlation of a list of pairs. -/
noncomputable def pearson (l : List (ℝ × ℝ)) : ℝ :=
  coMoment l / Real.sqrt (moment (l.map Prod.fst) * moment (l.map Prod.snd))

/-- Not all entries are equal. -/
def Varies (l : List ℝ) : Prop := ∃ x ∈ l, ∃ y ∈ l, x ≠ y

/-- The entropy of a list of probabilities with logarithms to the given base (`0 log 0 = 0`). -/
noncomputable def shannon (base : ℝ) (p : List ℝ) : ℝ := (p.map fun x => Real.negMulLog x / Real.log base).sum

/-- The entropy of the relative frequencies of a sample. -/
noncomputable def sampleEntropy {α : Type} [DecidableEq α] (base : ℝ) (l : List α) : ℝ :=
  ∑ v ∈ l.toFinset, Real.negMulLog ((l.count v : ℝ) / l.length) / Real.log base

/-- The distribution of somebody who picks the correct one of `cats` categories with probability `g` and otherwise one
of the others, all being equally likely. -/
def IsGuess (cats key : ℕ) (g : ℝ) (dist : ℕ → ℝ) : Prop :=
  dist key = g ∧ (∀ r, r < cats → r ≠ key → dist r = (1 - g) / ((cats : ℝ) - 1)) ∧ ∀ r, cats ≤ r → dist r = 0

/-- `f` is a probability distribution on the categories `0, ..., cats - 1`. -/
def IsDistributionOn (cats : ℕ) (f : ℕ → ℝ) : Prop :=
  (∀ r, 0 ≤ f r) ∧ (∀ r, cats ≤ r → f r = 0) ∧ ∑ r ∈ Finset.range cats, f r = 1

end Irt
