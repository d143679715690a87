import Verif.Model.GradientFit
import Verif.Model.LatentScores
import Verif.Model.FitCrash

/-!
# What autograd remembers: flags, gradient buffers and the gradient mode

A parameter has, besides its value, a flag `requires_grad` and a buffer `.grad` to which `backward()` adds. Whether results of
operations are connected to their inputs depends on the gradient mode, which decorators switch: `@torch.no_grad()` off,
`@torch.inference_mode(False)` on. (torch, `c10/core/InferenceMode.h`: leaving inference mode means enabling gradients.)
The values of derivatives are those of the other parts of the model.
-/

namespace Irt

namespace Autograd

/-! ## Parameters and optimisers -/

/-- An entry of a parameter. (Flag and buffer belong to a whole tensor in torch; here every entry carries them.) `grad = none` is
`None`. -/
structure Param where
  value : ℝ
  requires : Bool := true
  grad : Option ℝ := none

/-- The trained parameters with the state of the optimiser for every entry, in two groups as in `FitState`. -/
structure State (A : Type) where
  weight : List (Param × A)
  rest : List (Param × A)

variable {A : Type}

/-- Values of the entries. -/
def values (l : List (Param × A)) : List ℝ := l.map fun s => s.1.value

/-- mml.py 269, jml.py 156, ae.py 227, flow.py 143, link_common_items.py 180: `optimizer.zero_grad()` sets the buffers to `None`. -/
def zeroGrad (l : List (Param × A)) : List (Param × A) := l.map fun s => ({ s.1 with grad := none }, s.2)

/-- mml.py 279, jml.py 159, ae.py 233, flow.py 144, link_common_items.py 187: `loss.backward()` adds the partial derivative `g k` to
the buffer of entry `k` if it requires a gradient. -/
def backward (g : ℕ → ℝ) (l : List (Param × A)) : List (Param × A) :=
  l.mapIdx fun k s => if s.1.requires then ({ s.1 with grad := some (s.1.grad.getD 0 + g k) }, s.2) else s

/-- mml.py 280, jml.py 160, ae.py 235, flow.py 145, link_common_items.py 188: `optimizer.step()` skips entries without a gradient. -/
def optimizerStep (rule : EntryRule A) (lr : ℝ) (l : List (Param × A)) : List (Param × A) :=
  l.map fun s =>
    match s.1.grad with
    | none => s
    | some g =>
      let u := rule lr s.2 s.1.value g
      ({ s.1 with value := u.2 }, u.1)

/-- mml.py 267-283 `_train_step`, jml.py 155-160, ae.py 226-235, flow.py 135-145, link_common_items.py 179-188. `loss i b w r` is the loss
of batch `b` in iteration `i`. `backward()` raises a `RuntimeError` if no parameter requires a gradient; it is raised here together with
the errors of the loss, as nothing happens in between. (The flow computes its loss before `zero_grad`, which makes no difference. All
parameters are taken to be used by the loss.) -/
noncomputable def trainer (loss : ℕ → List ℕ → List ℝ → List ℝ → Except PyErr Num) (rule : ℕ → EntryRule A) : Trainer (State A) where
  loss := fun i b s =>
    match loss i b (values s.weight) (values s.rest) with
    | .error e => .error e
    | .ok x => if (s.weight ++ s.rest).any fun e => e.1.requires then .ok x else .error .runtimeError
  update := fun i b lr s =>
    let s0 : State A := { weight := zeroGrad s.weight, rest := zeroGrad s.rest }
    let w := values s0.weight
    let r := values s0.rest
    let s1 : State A := { weight := backward (partialAt (fun p => loss i b p r) w) s0.weight
                          rest := backward (partialAt (fun p => loss i b w p) r) s0.rest }
    { weight := optimizerStep (rule i) lr s1.weight, rest := optimizerStep (rule i) lr s1.rest }

/-- mml.py 109-111: a new optimiser. -/
def attach (a₀ : A) (l : List Param) : List (Param × A) := l.map fun p => (p, a₀)

/-- mml.py 232-236: `load_state_dict` copies values into the parameters; flags and buffers stay. -/
def loadValues (vs : List ℝ) (l : List Param) : List Param := List.zipWith (fun v p => { p with value := v }) vs l

/-- mml.py 109-150, 183-236 `fit` on parameters with flags and buffers. -/
noncomputable def fit (loss : ℕ → List ℕ → List ℝ → List ℝ → Except PyErr Num) (rule : ℕ → EntryRule A) (a₀ : A) (c : TrainConfig)
    (lr : ℝ) (respondents maxEpochs : ℕ) (weight rest : List Param) : Except PyErr (List Param × List Param) :=
  match mmlEpochs (trainer loss rule) c (List.range respondents) maxEpochs (LoopState.start lr ⟨attach a₀ weight, attach a₀ rest⟩) with
  | .error (e, _) => .error e
  | .ok st => .ok (loadValues (values st.final.weight) (st.params.weight.map Prod.fst),
      loadValues (values st.final.rest) (st.params.rest.map Prod.fst))

/-! ## Scores by maximum likelihood: the parameters are frozen during the search -/

/-- Where `_ml_map_theta_scores` (base_irt_model.py 787-857) can be stopped. -/
inductive Point
  /-- 788-798: the prior of MAP -/
  | prior
  /-- 800-814: after `self.requires_grad_(False)`, before `optimized_theta_scores` exists -/
  | window
  /-- 816-822: optimiser and mask -/
  | setup
  /-- 836-853: some iteration, where `i` exists -/
  | search
  deriving DecidableEq

/-- base_irt_model.py 800, 856: `self.requires_grad_(flag)` on all parameters of the model. -/
def setRequires (flag : Bool) (l : List Param) : List Param := l.map fun p => { p with requires := flag }

/-- base_irt_model.py 787-857 `_ml_map_theta_scores`: what it does to the parameters, and how it ends (`none`: it returns scores). The
handler (849) reads `i`, the `finally` block (853-856) reads `optimized_theta_scores` before it sets the flags; both raise
`UnboundLocalError` (a `NameError`) if they do not exist yet. An interruption is no `Exception`: the handler does not run. -/
def searchCall (stop : Option (Point × Stop)) (l : List Param) : List Param × Option Stop :=
  match stop with
  | none => (setRequires true (setRequires false l), none)
  | some (.prior, _) => (l, some (.raised .nameError))
  | some (.window, _) => (setRequires false l, some (.raised .nameError))
  | some (.setup, .raised _) => (setRequires true (setRequires false l), some (.raised .nameError))
  | some (.setup, .interrupted) => (setRequires true (setRequires false l), some .interrupted)
  | some (.search, s) => (setRequires true (setRequires false l), some s)

/-! ## Calls that compute derivatives -/

/-- What a user can do with a model between two fits, as far as its parameters are concerned. -/
inductive Use
  /-- `latent_scores` by ML or MAP, and everything that calls it -/
  | scores (stop : Option (Point × Stop))
  /-- a call of `backward()` that is not followed by `zero_grad()`: `expected_item_score_gradients` (base_irt_model.py 352), `jacobian` of
  a flow or a link (flow.py 235, link_common_items.py 285), `LinkCommonItems.fit` for the parameters of the linked models
  (link_common_items.py 187). `gw k` and `gr k` are added to the buffers of the entries of the two groups. -/
  | derivatives (gw gr : ℕ → ℝ)

/-- `backward()` for parameters outside of an optimiser. -/
def addGrad (g : ℕ → ℝ) (l : List Param) : List Param :=
  l.mapIdx fun k p => if p.requires then { p with grad := some (p.grad.getD 0 + g k) } else p

/-- Effect of one use on the two groups of parameters. -/
def Use.run (u : Use) (l : List Param × List Param) : List Param × List Param :=
  match u with
  | .scores stop => ((searchCall stop l.1).1, (searchCall stop l.2).1)
  | .derivatives gw gr => (addGrad gw l.1, addGrad gr l.2)

/-- A history of uses. -/
def runUses (us : List Use) (l : List Param × List Param) : List Param × List Param := us.foldl (fun l u => u.run l) l

/-- `backward()` into a buffer. -/
noncomputable def fillBuffer {d : ℕ} (buffer : Option (Thetas d)) (g : Thetas d) : Thetas d :=
  match buffer with
  | none => g
  | some b => List.zipWith (fun x y => x + y) b g

/-- base_irt_model.py 348-353: the loop over the items. All items share the buffer `theta_scores.grad` (`none` before the first
`backward()`), which is set to zero before each of them. `g item` is the derivative of the sum of the scores on the item. -/
noncomputable def bufferLoop {d : ℕ} (g : ℕ → Except PyErr (Thetas d)) : List ℕ → Option (Thetas d) → Except PyErr (List (Thetas d))
  | [], _ => .ok []
  | item :: items, buffer => do
    let zeroed := buffer.map fun b => b.map fun _ => (0 : Fin d → ℝ)
    let gi ← g item
    let filled := fillBuffer zeroed gi
    let columns ← bufferLoop g items (some filled)
    return filled :: columns

/-- Flags of a tensor of latent scores. A leaf was created by the user or holds no history; the flag of other tensors cannot be
cleared. -/
structure Flags where
  requires : Bool
  leaf : Bool
  deriving DecidableEq

/-- How a scale transformation uses autograd. -/
inductive Kind
  /-- `Reverse`, `Rotate`, `RankCDF`: not at all (reverse.py, rotate.py, rank_cdf.py) -/
  | plain
  /-- `Bit`: `jacobian` clears the flag of its argument if there is one latent variable (bit.py 245-247), `transform` is decorated with `no_grad` (bit.py 141) -/
  | bit
  /-- `Flow` and `LinkCommonItems`: `jacobian` calls `backward()` (flow.py 235, link_common_items.py 285), `transform` has parameters -/
  | trained
  deriving DecidableEq

/-- A scale transformation with its kind. -/
structure GradScale (d : ℕ) where
  scale : Scale d
  kind : Kind

variable {d : ℕ}

/-- `requires_grad_(False)` if the flag is set (base_irt_model.py 337-338, bit.py 246-247): a `RuntimeError` unless the tensor is a
leaf. -/
def clearFlag (f : Flags) : Except PyErr Flags :=
  if f.requires then (if f.leaf then .ok { f with requires := false } else .error .runtimeError) else .ok f

/-- bit.py 245-247: only done for one latent variable. (For others `jacobian` raises.) -/
def bitFlags (d : ℕ) (f : Flags) : Except PyErr Flags := if d = 1 then clearFlag f else .ok f

/-- flow.py 230-237, link_common_items.py 278-287, bit.py 227-256, reverse.py, rotate.py, rank_cdf.py: `jacobian` in gradient mode `mode`;
also the flags of the argument afterwards. `backward()` raises in mode off, as the result is not connected to anything. -/
def GradScale.jacobian (s : GradScale d) (mode : Bool) (theta : Thetas d) (f : Flags) :
    Except PyErr (List (Matrix (Fin d) (Fin d) ℝ) × Flags) :=
  match s.kind with
  | .plain => do
    let j ← s.scale.jacobian theta
    return (j, f)
  | .bit => do
    let f' ← bitFlags d f
    let j ← s.scale.jacobian theta
    return (j, f')
  | .trained => do
    let j ← s.scale.jacobian theta
    if mode then return (j, f) else .error .runtimeError

/-- Flags of the result of `transform`: connected to the argument or to the parameters of the scale if gradients are on. -/
def GradScale.transformFlags (s : GradScale d) (mode : Bool) (f : Flags) : Flags :=
  let connected := match s.kind with
    | .plain => mode && f.requires
    | .bit => false
    | .trained => mode
  { requires := connected, leaf := !connected }

/-- base_irt_model.py 181-183: the loop of `theta_transform_jacobian`. -/
def jacobianLoopIn (mode : Bool) : List (GradScale d) → List (Matrix (Fin d) (Fin d) ℝ) → Thetas d → Flags →
    Except PyErr (List (Matrix (Fin d) (Fin d) ℝ))
  | [], jac, _, _ => .ok jac
  | s :: ss, jac, theta, f => do
    let j ← s.jacobian mode theta f
    let theta' ← s.scale.transform theta
    jacobianLoopIn mode ss (List.zipWith (fun a b => a * b) j.1 jac) theta' (s.transformFlags mode j.2)

/-- base_irt_model.py 180-184 `theta_transform_jacobian` in gradient mode `mode`. -/
def thetaTransformJacobianIn (mode : Bool) (scales : List (GradScale d)) (theta : Thetas d) (f : Flags) :
    Except PyErr (List (Matrix (Fin d) (Fin d) ℝ)) :=
  jacobianLoopIn mode scales (List.replicate theta.length 1) theta f

/-- base_irt_model.py 376-390 `_rescale_gradients` in gradient mode `mode`. -/
noncomputable def rescaleGradientsIn (mode : Bool) (scales : List (GradScale d)) (flat : List (Fin d → ℝ)) (theta : Thetas d) (f : Flags) :
    Except PyErr (List (Fin d → ℝ)) := do
  let jac ← thetaTransformJacobianIn mode scales theta f
  if jac.length = 0 then throw .zeroDivision
  else
    let rep := flat.length / jac.length
    let jt := jac.flatMap fun J => List.replicate rep J.transpose
    if jt.length = flat.length then (List.zip jt flat).mapM fun p => linalgSolve p.1 p.2
    else throw .runtimeError

/-- base_irt_model.py 507, 530-543 `probability_gradients`: decorated with `inference_mode(False)`, so the mode of the caller does not
matter. `theta.clone().requires_grad_(True)` is a leaf only if the caller's tensor does not require a gradient. The caller's flags are
not touched. -/
noncomputable def probabilityGradientsIn (_mode : Bool) (probs : (Fin d → ℝ) → List (List ℝ)) (items C : ℕ)
    (scales : List (GradScale d)) (rescale : Bool) (theta : Thetas d) (f : Flags) : Except PyErr (List (List (List (Fin d → ℝ)))) := do
  let g := theta.map (probabilityJacobian probs)
  if rescale && !scales.isEmpty then
    let r ← rescaleGradientsIn true scales (g.map List.flatten).flatten theta { requires := true, leaf := !f.requires }
    return (viewRows theta.length (items * C) r).map (viewRows items C)
  else return g

/-- base_irt_model.py 443-464 `information`. -/
noncomputable def informationIn (mode : Bool) (probs : (Fin d → ℝ) → List (List ℝ)) (items C : ℕ) (scales : List (GradScale d))
    (item : Bool) (degrees : Option (List ℝ)) (rescale : Bool) (theta : Thetas d) (f : Flags) : Except PyErr (Info d) := do
  if ∃ l, degrees = some l ∧ l.length ≠ d then throw .valueError
  let gradients ← probabilityGradientsIn mode probs items C scales rescale theta f
  let m := List.zipWith (fun t g => List.zipWith itemInformation (probs t) g) theta gradients
  match degrees with
  | some l =>
    if 1 < d then
      let v := m.map fun r => r.map fun (I : Matrix (Fin d) (Fin d) ℝ) =>
        ∑ i, ∑ j, cosDegrees l i * I i j * cosDegrees l j
      return if item then .itemsDirection v else .testDirection (v.map List.sum)
    else return if item then .items m else .test (m.map List.sum)
  | none => return if item then .items m else .test (m.map List.sum)

/-- base_irt_model.py 294, 337-358 `expected_item_score_gradients`: decorated with `inference_mode(False)`; clears the flag of the
caller's tensor, which it then passes on to the scales. Gives the gradients and the caller's flags afterwards. -/
noncomputable def expectedScoreGradientsIn (_mode : Bool) (probs : (Fin d → ℝ) → List (List ℝ)) (cats : List ℕ)
    (mc : Option (List ℤ)) (scales : List (GradScale d)) (byItemScore rescale : Bool) (theta : Thetas d) (f : Flags) :
    Except PyErr (List (List (Fin d → ℝ)) × Flags) := do
  let f' ← clearFlag f
  let columns ← bufferLoop (fun item => gradOfSum (fun θ => do
    let s ← gradientScores probs cats mc byItemScore θ
    return s.map fun r => r.getD item 0) theta) (List.range cats.length) none
  let g : List (List (Fin d → ℝ)) := (List.range theta.length).map fun n => columns.map fun col => col.getD n 0
  if rescale && !scales.isEmpty then
    let r ← rescaleGradientsIn true scales g.flatten theta f'
    return (viewRows theta.length cats.length r, f')
  else return (g, f')

/-- base_irt_model.py 545, 635-644: the standard errors of `latent_scores`, which is decorated with `no_grad`: `theta_transform_jacobian`
runs with gradients off, `information` switches them on. The scores do not require gradients. `f.scales` is not used: the scales are
given with their kinds. -/
noncomputable def standardErrorsIn (f : FittedModel d) (scales : List (GradScale d)) (method : String) (rescale : Bool)
    (theta : Thetas d) (input : Option (List (List Num))) : Except PyErr (List (Fin d → Option ℝ)) :=
  if f.attrs.hasMeanSe = true ∧ method = "NN" then do
    let ms := f.meanSe (input.getD [])
    if rescale && !scales.isEmpty then
      let js ← thetaTransformJacobianIn false scales (ms.map Prod.fst) ⟨false, true⟩
      return List.zipWith (fun J (p : (Fin d → ℝ) × (Fin d → ℝ)) => fun k => some (deltaSe J p.2 k)) js ms
    else return ms.map fun p k => some (p.2 k)
  else do
    let info ← informationIn false f.probs f.cats.length (maxCats f.cats) scales false none rescale theta ⟨false, true⟩
    match info with
    | .test ms => return ms.map fun I k => invSqrt (I k k)
    | _ => .error .runtimeError

end Autograd

end Irt
