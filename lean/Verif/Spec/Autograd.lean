import Verif.Model.Autograd

/-!
# Specification: flags, buffers and histories
-/

namespace Irt

namespace Spec

open Autograd

variable {A : Type}

/-- Parameters without what `backward()` left behind. -/
def visible (l : List Param) : List (ℝ × Bool) := l.map fun p => (p.value, p.requires)

/-- No parameter is frozen. -/
def AllTrainable (l : List Param) : Prop := ∀ p ∈ l, p.requires = true

/-- Two groups of parameters have the same values, flags and optimiser states; the buffers may differ. -/
def SameButBuffers (l l' : List (Param × A)) : Prop :=
  l.map (fun s => (s.1.value, s.1.requires, s.2)) = l'.map (fun s => (s.1.value, s.1.requires, s.2))

/-- What a user sees of a training by MML or JML: the exception, or the losses and the parameters at the end. -/
def loopOutcome (r : Except (PyErr × LoopState (State A)) (LoopState (State A))) : Except PyErr (List Num × List ℝ × List ℝ) :=
  match r with
  | .error e => .error e.1
  | .ok st => .ok (st.history, values st.final.weight, values st.final.rest)

/-- The same for an autoencoder. -/
def aeOutcome (r : Except (PyErr × AEState (State A)) (AEState (State A))) : Except PyErr (List ℝ × List ℝ × List ℝ) :=
  match r with
  | .error e => .error e.1
  | .ok st => .ok (st.history, values st.final.weight, values st.final.rest)

/-- The history has no scoring call that was stopped between freezing the parameters and the first line of the search. -/
def NoWindowStop (us : List Use) : Prop := ∀ u ∈ us, ∀ s : Stop, u ≠ .scores (some (.window, s))

/-- No scale of the list is of kind `k`. -/
def NoKind {d : ℕ} (k : Kind) (scales : List (GradScale d)) : Prop := ∀ s ∈ scales, s.kind ≠ k

end Spec

end Irt
