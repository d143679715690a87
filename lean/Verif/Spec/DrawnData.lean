import Verif.Spec.Scoring
import Mathlib.Algebra.BigOperators.Pi
import Mathlib.Data.Fintype.Pi
import Mathlib.Data.Fintype.Prod

/-!
# Specification: data matrices that follow a model

`n` respondents and `items` items; respondent `i` gives answer `m` to item `j` with probability `P i j m`, independently of all other
answers. Which answers are there (`asked`) does not depend on the answers.
-/

namespace Irt.Spec

/-- The answer of respondent `i` to item `j`. -/
def answerAt {n items M : ℕ} (x : Fin n × Fin items → Fin M) (i j : ℕ) : ℕ :=
  if h : i < n ∧ j < items then x (⟨i, h.1⟩, ⟨j, h.2⟩) else 0

/-- The data matrix: NaN where the item was not asked. -/
def drawnData {n items M : ℕ} (asked : ℕ → ℕ → Bool) (x : Fin n × Fin items → Fin M) : ℕ → ℕ → Cell :=
  fun i j => if asked i j then some (answerAt x i j : ℤ) else none

/-- Expectation over all data matrices. -/
noncomputable def averageOverData {n items M : ℕ} (P : ℕ → ℕ → ℕ → ℝ) (F : (Fin n × Fin items → Fin M) → ℝ) : ℝ :=
  ∑ x, (∏ c : Fin n × Fin items, P c.1 c.2 (x c)) * F x

/-- What a residual should be on average: the difference of a score and its expectation is zero on average; one minus the probability of
the answer given (the residual of models with an answer key) is on average one minus the sum of the squared probabilities. -/
noncomputable def expectedResidual (keyed : Bool) (M : ℕ) (p : ℕ → ℝ) : ℝ :=
  if keyed then 1 - ∑ m ∈ Finset.range M, p m ^ 2 else 0

end Irt.Spec
