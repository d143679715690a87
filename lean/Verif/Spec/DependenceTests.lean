import Verif.Model.DependenceTests

/-! # C118: what a user expects of a test of local independence -/

namespace Irt.Spec

/-- Independent data sets with the same law. -/
noncomputable def copies {α : Type} (law : PMF α) (n : ℕ) : PMF (List α) := (List.replicate n ()).mapM fun _ => law

/-- A study in which the model is true: the data are drawn from `law`, and the test is then run on them. -/
noncomputable def study {α β : Type} (law : PMF α) (test : α → PMF β) : PMF β := law.bind test

/-- The test finds the items `i` and `j` dependent at level `a`: it returns a p-value of at most `a`. -/
def Rejects {p : ℕ} {γ : Type} (a : ℝ) (i j : Fin p) : Set (Except PyErr (γ × (Fin p → Fin p → Num))) :=
  {r | ∃ s P v, r = .ok (s, P) ∧ P i j = some v ∧ v ≤ a}

/-- The first data set has no value of the statistic, or one of the others has none or has the same. -/
def TiedOrUndefined {α : Type} (statistic : α → Option ℝ) : Set (List α) :=
  {l | ∃ x xs, l = x :: xs ∧ ∃ y ∈ xs, statistic x = none ∨ statistic y = none ∨ statistic x = statistic y}

end Irt.Spec
