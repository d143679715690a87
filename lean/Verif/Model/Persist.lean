import Verif.Model.Training
import Verif.Model.Evaluator

/-!
# `save_model` and `load_model` (`irtorch/models/base_irt_model.py` 971-1001)

The algorithm and the scale transformations are pickled with their attributes; they are values of arbitrary types.
`torch.save` and `torch.load` are taken to return what was stored.
-/

namespace Irt

/-- A tensor of a state dictionary: its shape and its values. -/
structure StoredTensor where
  shape : List ℕ
  values : List ℝ

/-- `Module.state_dict()`: parameters and buffers in the order of registration. -/
abbrev StateDict := List (String × StoredTensor)

/-- `Module.load_state_dict(incoming)` (torch, strict): entries present with the same shape are copied, one after the
other; keys that are missing, not expected or of another shape are collected, and `RuntimeError` is raised at the end.
Returns the new state and the exception. -/
def loadStateDict (own incoming : StateDict) : StateDict × Option PyErr :=
  let new := own.map fun e => match incoming.lookup e.1 with
    | some t => if t.shape = e.2.shape then (e.1, t) else e
    | none => e
  let bad := own.any (fun e => match incoming.lookup e.1 with
      | some t => decide (t.shape ≠ e.2.shape)
      | none => true)
    || incoming.any fun e => (own.lookup e.1).isNone
  (new, if bad then some .runtimeError else none)

/-- A model object. `hyper` are the arguments of the constructor; `basis` is the attribute of the spline models (see
`CachedModel`); `density` is `model.evaluate.latent_density`. -/
structure ModelObject (H A Sc : Type) (d : ℕ) where
  hyper : H
  state : StateDict
  algorithm : Option A := none
  scales : List Sc := []
  basis : Option (Thetas d) := none
  density : Option (FittedDensity d) := none

/-- The dictionary that is stored; files may lack the last two keys (lines 998-1001). -/
structure Checkpoint (A Sc : Type) where
  state : StateDict
  algorithm : Option (Option A)
  scales : Option (List Sc)

/-- base_irt_model.py 980-985 `save_model`. -/
def ModelObject.save {H A Sc : Type} {d : ℕ} (m : ModelObject H A Sc d) : Checkpoint A Sc :=
  { state := m.state, algorithm := some m.algorithm, scales := some m.scales }

/-- base_irt_model.py 996-1001 `load_model`: the model afterwards, and the exception. -/
def ModelObject.load {H A Sc : Type} {d : ℕ} (m : ModelObject H A Sc d) (c : Checkpoint A Sc) :
    ModelObject H A Sc d × Option PyErr :=
  let r := loadStateDict m.state c.state
  match r.2 with
  | some e => ({ m with state := r.1 }, some e)
  | none => ({ m with state := r.1, algorithm := c.algorithm.getD m.algorithm, scales := c.scales.getD m.scales }, none)

/-- `model(theta)`; `f` computes the output of one row from the constructor arguments and the tensors. A stored basis
replaces the scores (monotone_b_spline.py 131-132). -/
def ModelObject.output {H A Sc Out : Type} {d : ℕ} (f : H → StateDict → (Fin d → ℝ) → Out) (m : ModelObject H A Sc d)
    (theta : Thetas d) : List Out :=
  (m.basis.getD theta).map (f m.hyper m.state)

/-! ## Histories -/

/-- What can happen to one model object and the files: saving to a path, loading from a path, and any other change of the
object (training, rescaling). -/
inductive FileUse (H A Sc : Type) (d : ℕ)
  | save (path : String)
  | load (path : String)
  | change (g : ModelObject H A Sc d → ModelObject H A Sc d)

/-- The object and the files. Loading a path that does not exist raises and changes nothing. -/
def FileUse.run {H A Sc : Type} {d : ℕ} (s : ModelObject H A Sc d × (String → Option (Checkpoint A Sc))) :
    FileUse H A Sc d → ModelObject H A Sc d × (String → Option (Checkpoint A Sc))
  | .save p => (s.1, Function.update s.2 p (some s.1.save))
  | .load p => match s.2 p with
    | some c => ((s.1.load c).1, s.2)
    | none => s
  | .change g => (g s.1, s.2)

end Irt
