import Verif.Spec.EvaluationOrder
import Verif.Model.GradientFit

/-! # Specification: data sets with the same relative frequencies -/

namespace Irt.Spec

open Classical in
/-- Every entry makes up the same proportion of both lists. (Proportions are compared without division.) -/
def SameFrequencies {α : Type} (l l' : List α) : Prop :=
  l ≠ [] ∧ l' ≠ [] ∧ ∀ a, l'.length * l.count a = l.length * l'.count a

/-- The scores of a list of respondents. -/
def scoreList {d : ℕ} (rs : List (Respondent d)) : Thetas d := rs.map Prod.fst

/-- Their answers. -/
def answerList {d : ℕ} (rs : List (Respondent d)) : List (List Cell) := rs.map Prod.snd

/-- The rows of a matrix of residuals with a value in both columns. -/
def jointRows (R : List (List Num)) (i j : ℕ) : List (List Num) := R.filter fun r => (r.getD i none).isSome && (r.getD j none).isSome

/-- The respondents with an answer to both items. (-1 counts as an answer here.) -/
def jointAnswers {d : ℕ} (rs : List (Respondent d)) (i j : ℕ) : List (Respondent d) :=
  rs.filter fun x => (x.2.getD i none).isSome && (x.2.getD j none).isSome

/-- An optimiser that only looks at the relative sizes of the derivatives it has seen: multiplying all of them by `k` changes nothing. -/
def ScaleFree {A : Type} (rule : ℕ → EntryRule A) (start : A) : Prop :=
  ∀ k : ℝ, 0 < k → ∃ R : A → A → Prop, R start start ∧ ∀ i lr a a' v g, R a a' →
    R (rule i lr a v g).1 (rule i lr a' v (k * g)).1 ∧ (rule i lr a' v (k * g)).2 = (rule i lr a v g).2

/-- The optimiser of the library without the small constant in the denominator. -/
noncomputable def adamWithoutEps : EntryRule AdamState := fun lr a v g =>
  let avg := 0.9 * a.avg + 0.1 * g
  let avgSq := 0.999 * a.avgSq + 0.001 * g ^ 2
  let maxSq := max a.maxSq avgSq
  ({ step := a.step + 1, avg, avgSq, maxSq },
    v - lr / (1 - 0.9 ^ (a.step + 1)) * (avg / (Real.sqrt maxSq / Real.sqrt (1 - 0.999 ^ (a.step + 1)))))

end Irt.Spec
