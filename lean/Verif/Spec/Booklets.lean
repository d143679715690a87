import Verif.Spec.LeftOut

/-!
# Specification: booklets

Every respondent gets a booklet with some of the items. Which one is a matter of chance, independent of everything else.
-/

namespace Irt.Spec

/-- The probability that `z` is what is seen of a respondent whose full answers have probabilities `p`. -/
noncomputable def seenFrom (cats : List ℕ) (h : (Fin cats.length → Option ℕ) → ℝ) (p : (Fin cats.length → ℕ) → ℝ)
    (z : Fin cats.length → Option ℕ) : ℝ :=
  ∑ x ∈ fullAnswers cats, p x * ∑ T : Finset (Fin cats.length), if seenOf T x = z then h z else 0

/-- Booklet `T` is handed out with probability `π T`. -/
def byBooklet {K : ℕ} (π : Finset (Fin K) → ℝ) (z : Fin K → Option ℕ) : ℝ := π {j | (z j).isSome}

/-- Two items are together in some booklet that is handed out. -/
def Together {K : ℕ} (π : Finset (Fin K) → ℝ) (j k : Fin K) : Prop := ∃ T, 0 < π T ∧ j ∈ T ∧ k ∈ T

end Irt.Spec
