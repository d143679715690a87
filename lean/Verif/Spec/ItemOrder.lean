import Verif.Spec.FitOrder
import Verif.Spec.EvaluationOrder

/-!
# Items in another order, and items nobody answered

Item `j` of one test is item `σ j` of another. Where both tests have the same items `σ` is a permutation; a larger test can have
further items.
-/

namespace Irt.Spec

/-- Every item of the first model has the answer probabilities of its counterpart in the second. -/
def CounterpartItems {d K K' : ℕ} (σ : Fin K → Fin K') (P' P : (Fin d → ℝ) → ℕ → ℕ → ℝ) : Prop := ∀ θ j, P' θ (σ j) = P θ j

/-- What `x'` says about item `j` is what `x` says about item `σ j`: the probabilities of the answers of a respondent, say, or the
answers themselves. -/
def ItemsMoved {p : ℕ} {α : Type} (σ : Equiv.Perm (Fin p)) (x x' : ℕ → α) : Prop := ∀ j : Fin p, x' j = x (σ j)

/-- Answer keys of two tests with the same items in another order. -/
def KeysMoved {p : ℕ} (σ : Equiv.Perm (Fin p)) (mc mc' : Option (List ℤ)) : Prop :=
  (mc = none ∧ mc' = none) ∨ ∃ k k', mc = some k ∧ mc' = some k' ∧ MovedBy σ k k'

end Irt.Spec
