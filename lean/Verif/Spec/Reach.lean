import Verif.Model.Autograd

/-! # Specification: how far training moves parameters -/

namespace Irt.Spec

/-- The lists have the same length and no entry differs by more than `D`. -/
def Within (D : ℝ) (start now : List ℝ) : Prop :=
  now.length = start.length ∧ ∀ k, |now.getD k 0 - start.getD k 0| ≤ D

/-- The optimiser state of an entry after the derivatives `gs` with the learning rates `lrs`, and the value of the entry, from the
value `v`: `gs` is a list of pairs of a learning rate and a derivative. -/
noncomputable def afterSteps (v : ℝ) (gs : List (ℝ × ℝ)) : AdamState × ℝ :=
  gs.foldl (fun s p => adamRule p.1 s.1 s.2 p.2) ({}, v)

/-- Training with Adam on a loss that is never NaN: `loss i b w r` is the loss of batch `b` in iteration `i` at the parameters `w` and
`r`. -/
noncomputable def adamTrainer (loss : ℕ → List ℕ → List ℝ → List ℝ → Except PyErr ℝ) : Trainer (Autograd.State AdamState) :=
  Autograd.trainer (fun i b w r => (loss i b w r).map some) fun _ => adamRule

/-- Both groups of parameters are at most `D` away from the values of `ps` and `qs`. -/
def StateWithin (D : ℝ) (ps qs : List Autograd.Param) (s : Autograd.State AdamState) : Prop :=
  Within D (ps.map fun p => p.value) (Autograd.values s.weight) ∧ Within D (qs.map fun p => p.value) (Autograd.values s.rest)

/-- The state training starts from: parameters with a new optimiser. -/
def newState (ps qs : List Autograd.Param) : Autograd.State AdamState := ⟨Autograd.attach {} ps, Autograd.attach {} qs⟩

end Irt.Spec
