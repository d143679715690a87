import Verif.Model.LatentScores
import Verif.Model.Bit

/-!
# The life of a model object: `fit`, `add_scale_transformation`, `detach_scale_transformations`
(`irtorch/models/base_irt_model.py` 30-52, 100-146)

An attached scale is an object, and a bit scale keeps a reference to the model it was built from
(`rescale/bit.py` 96, 472). What an attached scale computes may therefore depend on the parameters the model has
when it is used, so a scale is a function of the fitted model.
-/

namespace Irt

/-- An attached scale: what it computes, given the model as it is now. -/
abbrev LiveScale (d : ℕ) := FittedModel d → Scale d

/-- A scale object without a reference to the model (reverse.py, rotate.py, flow.py, rank_cdf.py,
link_common_items.py: the constructors keep tensors only). -/
def LiveScale.fixed {d : ℕ} (s : Scale d) : LiveScale d := fun _ => s

/-- bit.py 92-126: a bit scale `b`. The constructor keeps the model (line 96) and reads its item probabilities in
`transform` (lines 412, 474) and `jacobian`; orientation (line 111), starting theta (lines 115-126), chosen items and
population are stored when it is built. `inverse` raises (lines 224-225). `grads f` are the gradients of the item
probabilities of the model `f`. -/
noncomputable def Bit.live {d : ℕ} (b : Bit d) (grads : FittedModel d → (Fin d → ℝ) → List (List ℝ)) : LiveScale d :=
  fun f =>
    let now : Bit d := { b with probs := f.probs }
    ⟨now.transform, fun _ => .error .notImplemented, now.jacobian (grads f)⟩

/-- A model object: parameters and algorithm (`fitted`, whose own field `scales` is not used) and the list
`self.scale`. -/
structure ModelLife (d : ℕ) where
  fitted : FittedModel d
  scales : List (LiveScale d)

/-- base_irt_model.py 46-47: a new model has no scale transformations. -/
def ModelLife.new {d : ℕ} (f : FittedModel d) : ModelLife d := ⟨f, []⟩

/-- What a user does to a model object. -/
inductive LifeStep (d : ℕ)
  /-- base_irt_model.py 115-116 `fit`: training leaves some new parameters and algorithm -/
  | fit (f : FittedModel d)
  /-- base_irt_model.py 118-122 `add_scale_transformation` -/
  | add (s : LiveScale d)
  /-- base_irt_model.py 124-128 `detach_scale_transformations` -/
  | detach

def LifeStep.run {d : ℕ} (m : ModelLife d) : LifeStep d → ModelLife d
  | .fit f => { m with fitted := f }
  | .add s => { m with scales := m.scales ++ [s] }
  | .detach => { m with scales := [] }

def ModelLife.run {d : ℕ} (m : ModelLife d) (history : List (LifeStep d)) : ModelLife d :=
  history.foldl LifeStep.run m

/-- The model as its methods see it. -/
def ModelLife.now {d : ℕ} (m : ModelLife d) : FittedModel d :=
  { m.fitted with scales := m.scales.map fun s => s m.fitted }

/-- base_irt_model.py 144-146 `transform_theta`. -/
def ModelLife.transformTheta {d : ℕ} (m : ModelLife d) (theta : Thetas d) : Except PyErr (Thetas d) :=
  Irt.transformTheta m.now.scales theta

/-- base_irt_model.py 215-216 `item_probabilities` at one row of latent scores. -/
def ModelLife.itemProbabilities {d : ℕ} (m : ModelLife d) (t : Fin d → ℝ) : List (List ℝ) := m.now.probs t

/-- base_irt_model.py 583-646 `latent_scores` without standard errors. -/
noncomputable def ModelLife.latentScores {d : ℕ} (m : ModelLife d) (width : ℕ) (data : List (List Num))
    (method : String) (rescale : Bool) (points : Option ℕ) : Except PyErr (Option (Thetas d)) := do
  let r ← Irt.latentScores m.now width data method false rescale points
  return r.1

/-- bit.py 510-512: `expected_scores(theta).sum(dim=1)` at one row, for a model without an answer key, for which it
does not raise. -/
noncomputable def testScore {d : ℕ} (f : FittedModel d) (t : Fin d → ℝ) : ℝ :=
  match expectedSumScore (f.probs t) (maxCats f.cats) none with
  | .ok x => x
  | .error _ => 0

/-- `Bit(model, population_theta, start_theta, items, grid_points)` built from the model as it is now (bit.py 92-126,
504-515). -/
noncomputable def ModelLife.bit {d : ℕ} (m : ModelLife d) (population : Option (Thetas d))
    (startTheta : Option (List ℝ)) (items : Option (List ℕ)) (gridPoints : ℤ) : Except PyErr (Bit d) :=
  Bit.create m.fitted.probs (testScore m.fitted) m.fitted.cats.length population startTheta items gridPoints

end Irt
