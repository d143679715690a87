import Verif.Model.Lifecycle

/-! # C110: what a user expects of a model object over its life -/

namespace Irt.Spec

/-- The scale attached by a step, if it attaches one. -/
def addedScale {d : ℕ} : LifeStep d → Option (LiveScale d)
  | .add s => some s
  | _ => none

/-- The parameters left by a step, if it is a training. -/
def trained {d : ℕ} : LifeStep d → Option (FittedModel d)
  | .fit f => some f
  | _ => none

/-- The parameters left by the last training in a history, or those the model had before. -/
def lastFitted {d : ℕ} (f : FittedModel d) (history : List (LifeStep d)) : FittedModel d :=
  (history.filterMap trained).getLastD f

/-- `scales` are the scale transformations attached after the last detachment of the history, in order. -/
def AttachedSince {d : ℕ} (history : List (LifeStep d)) (scales : List (LiveScale d)) : Prop :=
  ∃ before since, history = before ++ since ∧ (before = [] ∨ ∃ earlier, before = earlier ++ [.detach]) ∧
    .detach ∉ since ∧ scales = since.filterMap addedScale

/-- Sending latent scores through transformations one after the other gives `u`. -/
inductive Through {d : ℕ} : List (Scale d) → Thetas d → Thetas d → Prop
  | done (t : Thetas d) : Through [] t t
  | next (s : Scale d) (ss : List (Scale d)) (t v u : Thetas d) : s.transform t = .ok v → Through ss v u →
      Through (s :: ss) t u

/-- The expected test score of a respondent: the sum over items of the mean category. -/
noncomputable def expectedTest {d : ℕ} (f : FittedModel d) (t : Fin d → ℝ) : ℝ :=
  ((f.probs t).map fun p => (p.mapIdx fun k x => (k : ℝ) * x).sum).sum

/-- Every row of probabilities has an item each, with one slot per category, and sums to one. -/
def ProperTable {d : ℕ} (f : FittedModel d) : Prop :=
  f.cats ≠ [] ∧ ∀ t, (f.probs t).length = f.cats.length ∧ ∀ p ∈ f.probs t, p.length = maxCats f.cats ∧ p.sum = 1

/-- Along the only latent variable expected test scores strictly rise, or strictly fall. -/
def OneDirection (f : FittedModel 1) : Prop :=
  (∀ x y : ℝ, x < y → expectedTest f (fun _ => x) < expectedTest f fun _ => y) ∨
    ∀ x y : ℝ, x < y → expectedTest f (fun _ => y) < expectedTest f fun _ => x

/-- On the transformed scale a respondent with a higher expected test score is never lower. -/
def FollowsScores (f : FittedModel 1) (transform : Thetas 1 → Except PyErr (Thetas 1)) : Prop :=
  ∀ theta : Thetas 1, theta ≠ [] → ∃ score : (Fin 1 → ℝ) → Fin 1 → ℝ, transform theta = .ok (theta.map score) ∧
    ∀ t ∈ theta, ∀ u ∈ theta, expectedTest f t ≤ expectedTest f u → score t 0 ≤ score u 0

end Irt.Spec
