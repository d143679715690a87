import Verif.Model.Evaluator

/-!
# Respondents in another order

A respondent of an evaluation has latent scores and answers. The respondents `r 0, r 1, ...` in another order are
`r (σ 0), r (σ 1), ...` for a permutation `σ` of their positions.
-/

namespace Irt.Spec

/-- The latent scores and the answers of a respondent. -/
abbrev Respondent (d : ℕ) := (Fin d → ℝ) × List Cell

/-- The scores of the respondents, in the order given. -/
def scoresOf {n d : ℕ} (r : Fin n → Respondent d) : Thetas d := List.ofFn fun i => (r i).1

/-- The answers of the respondents, in the order given. -/
def answerRows {n d : ℕ} (r : Fin n → Respondent d) : List (List Cell) := List.ofFn fun i => (r i).2

/-- Two calls give the same result, if one of them gives a result at all. -/
def Unchanged {α : Type} (a b : Except PyErr α) : Prop := ∀ x, a = .ok x ↔ b = .ok x

/-- The lists `v` and `v'` have one entry per respondent, and the entries move with the respondents. -/
def MovedBy {n : ℕ} {β : Type} (σ : Equiv.Perm (Fin n)) (v v' : List β) : Prop :=
  v.length = n ∧ v'.length = n ∧ ∀ i : Fin n, v'[(i : ℕ)]? = v[(σ i : ℕ)]?

/-- Two calls give results with one entry per respondent (`form` says what such a result looks like) that differ in the
order only, if one of them gives a result at all. -/
def Reordered {n : ℕ} {β γ : Type} (σ : Equiv.Perm (Fin n)) (form : List β → γ) (a b : Except PyErr γ) : Prop :=
  ((∃ x, a = .ok x) ↔ ∃ x, b = .ok x) ∧
    ∀ x, a = .ok x → ∃ v v', x = form v ∧ b = .ok (form v') ∧ MovedBy σ v v'

end Irt.Spec
