import Verif.Spec.LogitModel

/-! # Sums over the answers of a respondent -/

namespace Irt

/-- The sum, over the items a respondent answered, of a weight of the answer. -/
noncomputable def answerSum (weight : ℕ → ℕ → ℝ) (items : ℕ) (row : ℕ → Cell) : ℝ :=
  ∑ j ∈ Finset.range items, if cellMissing (row j) then 0 else weight j (responseOf (row j))

/-- The number of correct answers (items scored 0 and 1), or the sum score. -/
noncomputable def sumScore (items : ℕ) (row : ℕ → Cell) : ℝ := answerSum (fun _ r => r) items row

/-- Two respondents answered the same items. -/
def SameItems (items : ℕ) (row row' : ℕ → Cell) : Prop := ∀ j, j < items → cellMissing (row j) = cellMissing (row' j)

end Irt
