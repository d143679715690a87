import Verif.Model.Constructors
import Verif.Model.Rescale

/-!
# `reset_parameters` (`irtorch/models/*.py`)

The functions of `torch.nn.init` write into the existing tensors, so that their number of entries stays.
-/

namespace Irt

/-- one_parameter_logistic.py 67-68. -/
def OnePL.reset (m : OnePL) : OnePL := { m with bias := m.bias.map fun _ => 0 }

/-- two_parameter_logistic.py 86-88. -/
def TwoPL.reset (m : TwoPL) : TwoPL := { m with weight := m.weight.map fun _ => 1, bias := m.bias.map fun _ => 0 }

/-- three_parameter_logistic.py 82-85. -/
noncomputable def ThreePL.reset (m : ThreePL) : ThreePL :=
  { m with weight := m.weight.map fun _ => 1, bias := m.bias.map fun _ => 0, guessing := m.guessing.map fun _ => -1.1 }

/-- generalized_partial_credit.py 98-100. -/
def GPC.reset (m : GPC) : GPC := { m with weight := m.weight.map fun _ => 1, bias := m.bias.map fun _ => 0 }

/-- nominal_response.py 100-103; `draw` are the normal draws. -/
def NRM.reset (m : NRM) (draw : ℕ → ℝ) : NRM :=
  { m with weight := (List.range m.weight.length).map draw, bias := m.bias.map fun _ => 0 }

/-- The item response models of the package. -/
inductive IrtModel
  | onePL (m : OnePL)
  | twoPL (m : TwoPL)
  | threePL (m : ThreePL)
  | gpc (m : GPC)
  | nrm (m : NRM)
  | grm (m : GRM)
  /-- `NestedLogit`, `MonotoneNN`, `MonotonePolynomial`, `MonotoneBSpline`, `SurprisalSpline` -/
  | other (params : List ℝ)
  | mix (models : List IrtModel)

/-- `model.reset_parameters()`. `draw` are the random numbers drawn. The classes of `IrtModel.other` have no such method (nor does
base_irt_model.py), and that of `ModelMix` (model_mix.py 47-49) refers to the attribute `weight_param` that a mix does not have: both are an
`AttributeError` of `nn.Module.__getattr__`. -/
noncomputable def IrtModel.resetParameters (draw : ℕ → ℝ) : IrtModel → Except PyErr IrtModel
  | .onePL m => .ok (.onePL m.reset)
  | .twoPL m => .ok (.twoPL m.reset)
  | .threePL m => .ok (.threePL m.reset)
  | .gpc m => .ok (.gpc m.reset)
  | .nrm m => .ok (.nrm (m.reset draw))
  | .grm m => .ok (.grm (m.reset ((List.range m.weight.length).map draw)))
  | .other _ => .error .attributeError
  | .mix _ => .error .attributeError

/-- A call of a constructor. -/
inductive ConstructorCall
  | onePL (data : Option ResponseData) (items : Option ℕ)
  | twoPL (data : Option ResponseData) (lv : ℕ) (items : Option ℕ) (rel : Option (List (List Bool)))
  | threePL (data : Option ResponseData) (lv : ℕ) (items : Option ℕ) (rel : Option (List (List Bool)))
  | gpc (data : Option ResponseData) (lv : ℕ) (cats : Option (List ℕ)) (rel : Option (List (List Bool)))
  | nrm (data : Option ResponseData) (lv : ℕ) (cats : Option (List ℕ)) (rel : Option (List (List Bool))) (mc : Option (List ℤ))
  | grm (data : Option ResponseData) (lv : ℕ) (cats : Option (List ℕ)) (rel : Option (List (List Bool)))

/-- What the constructor returns (the constructors of Model/Constructors). -/
noncomputable def ConstructorCall.run (draw : ℕ → ℝ) : ConstructorCall → Except PyErr IrtModel
  | .onePL data items => (OnePL.construct data items).map .onePL
  | .twoPL data lv items rel => (TwoPL.construct data lv items rel).map .twoPL
  | .threePL data lv items rel => (ThreePL.construct data lv items rel).map .threePL
  | .gpc data lv cats rel => (GPC.construct data lv cats rel).map .gpc
  | .nrm data lv cats rel mc => (NRM.construct data lv cats rel mc draw).map .nrm
  | .grm data lv cats rel => (GRM.construct data lv cats rel draw).map .grm

/-- A model object: parameters, what its algorithm stored (base_irt_model.py 45, 116) and the attached scales (base_irt_model.py 46-47). -/
structure UsedModel (d : ℕ) where
  params : IrtModel
  attrs : AlgAttrs d := {}
  scales : List (Scale d) := []

/-- `model.reset_parameters()` does not touch algorithm and scales. -/
noncomputable def UsedModel.reset {d : ℕ} (o : UsedModel d) (draw : ℕ → ℝ) : Except PyErr (UsedModel d) := do
  let p ← o.params.resetParameters draw
  return { o with params := p }

/-- What happens to a model object. -/
inductive ObjectStep (d : ℕ)
  /-- base_irt_model.py 115-116 `fit`: training writes parameters of the same shape and leaves an algorithm -/
  | fit (write : IrtModel → IrtModel) (attrs : AlgAttrs d)
  /-- base_irt_model.py 987-1001 `load_model` of a model with the same structure: parameters, algorithm and scales of the file -/
  | load (write : IrtModel → IrtModel) (attrs : AlgAttrs d) (scales : List (Scale d))
  /-- base_irt_model.py 118-122 `add_scale_transformation` -/
  | add (s : Scale d)
  /-- base_irt_model.py 124-128 `detach_scale_transformations` -/
  | detach
  /-- `reset_parameters`; a call that raises changes nothing -/
  | reset (draw : ℕ → ℝ)

noncomputable def ObjectStep.run {d : ℕ} (o : UsedModel d) : ObjectStep d → UsedModel d
  | .fit write attrs => { o with params := write o.params, attrs }
  | .load write attrs scales => { params := write o.params, attrs, scales }
  | .add s => { o with scales := o.scales ++ [s] }
  | .detach => { o with scales := [] }
  | .reset draw => (o.reset draw).toOption.getD o

noncomputable def UsedModel.run {d : ℕ} (o : UsedModel d) (history : List (ObjectStep d)) : UsedModel d :=
  history.foldl ObjectStep.run o

end Irt
