import Verif.Spec.LeftOut

/-!
# Specification: the loss of the observed relative frequencies

What no model can do better than: to give every row of the data the share it has among the rows with answers to the same items.
-/

namespace Irt.Spec

/-- The number of respondents whose answers are exactly those of respondent `i`. -/
def sameAnswers {N K : ℕ} (s : Fin N → Fin K → Option ℕ) (i : Fin N) : ℕ := (Finset.univ.filter fun i' => s i' = s i).card

/-- The number of respondents who answered the same items as respondent `i`. -/
def sameItems {N K : ℕ} (s : Fin N → Fin K → Option ℕ) (i : Fin N) : ℕ :=
  (Finset.univ.filter fun i' => ∀ j, (s i' j).isSome = (s i j).isSome).card

/-- Minus the sum of the logarithms of the shares of the respondents' answers among those who answered the same items. -/
noncomputable def saturatedLoss {N K : ℕ} (s : Fin N → Fin K → Option ℕ) : ℝ :=
  -∑ i, Real.log ((sameAnswers s i : ℝ) / sameItems s i)

end Irt.Spec
