import Verif.Model.Logistic
import Verif.Model.Polytomous

/-! # Nested logit, surprisal spline and model mix -/

namespace Irt

/-! ## `irtorch/models/nested_logit.py` -/

/-- `xs.scatter(-1, [i], v)` on one row (`i` in range, else torch raises; the constructor checks it). -/
def scatterSet (xs : List ℝ) (i : ℕ) (v : ℝ) : List ℝ := xs.set i v

/-- `xs.scatter_add(-1, idx, src)` on one row. -/
noncomputable def scatterAdd : List ℝ → List ℕ → List ℝ → List ℝ
  | xs, i :: idx, v :: src => scatterAdd (xs.set i (xs.getD i 0 + v)) idx src
  | xs, _, _ => xs

/-- nested_logit.py 142-147: `full_range[~correct_mask[i]]`, the full index of each incorrect category. -/
def incorrectIndices (M key : ℕ) : List ℕ := (List.range M).filter fun k => decide (k ≠ key)

/-- nested_logit.py 102-105: constructor check of the keys. `mc_correct[item]` raises IndexError when a
key is missing. -/
def nestedCheckKeys (cats : List ℕ) (keys : List ℤ) : Except PyErr (List ℕ) :=
  (List.range cats.length).mapM fun (j : ℕ) =>
    match keys[j]?, cats[j]? with
    | some k, some c => if 0 > k ∨ k ≥ (c : ℤ) then .error .valueError else .ok k.toNat
    | _, _ => .error .indexError

/-- nested_logit.py 206-231 for one respondent and one item: `pcorrect`, `pincorrect` are the two
probabilities of the correct-response model and `q` the incorrect-response distribution over
`max_item_responses - 1` slots. -/
noncomputable def nestedRow (M key : ℕ) (pcorrect pincorrect : ℝ) (q : List ℝ) : List ℝ :=
  let scaled := q.map fun x => x * pincorrect
  scatterAdd (scatterSet (List.replicate M 0) key pcorrect) (incorrectIndices M key) scaled

/-- nested_logit.py 174-241 `forward` (= `item_probabilities`) for one respondent: `correct` is the
probability table of the correct-response model, `incorrect` that of the incorrect-response model. -/
noncomputable def nestedProbs (M : ℕ) (keys : List ℕ) (correct incorrect : List (List ℝ)) :
    List (List ℝ) :=
  List.zipWith (fun (kp : ℕ × List ℝ) q => nestedRow M kp.1 (kp.2.getD 1 0) (kp.2.getD 0 0) q)
    (List.zip keys correct) incorrect

/-- nested_logit.py 192-210, the `bspline` incorrect-response model for one respondent and one item:
`logits k` is the einsum of basis and coefficients for incorrect category `k`; slots the item lacks get
`-inf`. -/
noncomputable def nestedBsplineRow (M c : ℕ) (logits : ℕ → ℝ) : List ℝ :=
  softmax ((List.range (M - 1)).map fun k => if k < c - 1 then Logit.fin (logits k) else Logit.negInf)

/-- nested_logit.py 155-158 `_dichotomize_data` of one cell: `(data == correct).float()`, NaN compares
false. -/
def dichotomize (key : ℤ) (cell : Cell) : ℤ :=
  match cell with
  | some y => if y = key then 1 else 0
  | none => 0

/-! ## `irtorch/models/surprisal_spline.py` -/

/-- State of `SurprisalSpline` (surprisal_spline.py 66-102). `rel` is items × lv. -/
structure Surprisal where
  lv : ℕ
  cats : List ℕ
  nb : ℕ
  rel : List (List Bool)
  coef : List ℝ

/-- `max_item_responses`. -/
def Surprisal.M (m : Surprisal) : ℕ := maxCats m.cats

/-- Whether coefficient `(l, b, item, k)` exists (surprisal_spline.py 94-99): the item is related to
latent variable `l` and `k ≥ max - item_cat`. -/
def Surprisal.maskAt (m : Surprisal) (l item k : ℕ) : Bool :=
  match m.rel[item]?, m.cats[item]? with
  | some r, some c => (r.getD l false) && decide (m.M - c ≤ k)
  | _, _ => false

/-- The flat `spline_mask` (lv, n_bases, items, max-1) in row-major order (surprisal_spline.py 94-101). -/
def Surprisal.mask (m : Surprisal) : List Bool :=
  (List.range m.lv).flatMap fun l => (List.range m.nb).flatMap fun _ =>
    (List.range m.cats.length).flatMap fun i => (List.range (m.M - 1)).map fun k => m.maskAt l i k

/-- surprisal_spline.py 125-127: `all_coef[spline_mask] = softplus(coefficients)` at flat position
`(l, b, item, k)`. -/
noncomputable def Surprisal.coefAt (m : Surprisal) (l b item k : ℕ) : ℝ :=
  (scatterMask 0 m.mask (m.coef.map softplus)).getD
    (((l * m.nb + b) * m.cats.length + item) * (m.M - 1) + k) 0

/-- surprisal_spline.py 128: `all_coef.cumsum(dim=1)`. -/
noncomputable def Surprisal.cumCoef (m : Surprisal) (l b item k : ℕ) : ℝ :=
  ((List.range (b + 1)).map fun b' => m.coefAt l b' item k).sum

/-- surprisal_spline.py 130-131: surprisals of one respondent; `basis l b` are the B-spline basis values
of latent variable `l` (splinetorch, external). -/
noncomputable def Surprisal.surprisal (m : Surprisal) (basis : ℕ → ℕ → ℝ) (item : ℕ) : List ℝ :=
  (List.range (m.M - 1)).map fun k =>
    ((List.range m.lv).map fun l =>
      ((List.range m.nb).map fun b => basis l b * m.cumCoef l b item k).sum).sum

/-- surprisal_spline.py 133-137: probabilities of one item from its surprisals. -/
noncomputable def surprisalProbs (s : List ℝ) : List ℝ :=
  let a := 1 :: (cumsum s).map fun x => 1 / Real.exp x
  let b := (s.map fun x => 1 - 1 / Real.exp x) ++ [1]
  (List.zipWith (· * ·) a b).reverse

/-- surprisal_spline.py 118-137 `forward` (= `item_probabilities`) of one respondent. -/
noncomputable def Surprisal.probs (m : Surprisal) (basis : ℕ → ℕ → ℝ) : List (List ℝ) :=
  (List.range m.cats.length).map fun i => surprisalProbs (m.surprisal basis i)

/-! ## `irtorch/models/model_mix.py` -/

/-- One component of a `ModelMix`, seen through the methods the mix calls. `α` is the type of output
entries. `ll` receives the outputs, data and mask of all respondents. -/
structure MixComponent (α : Type) where
  items : ℕ
  M : ℕ
  forward : List ℝ → List α
  probsFrom : List α → List (List ℝ)
  ll : List (List α) → List (List Cell) → Option (List (List Bool)) → Reduction → Except PyErr LL

/-- `torch.split(t, sizes, dim=1)` on the rows of a 2D tensor; torch raises RuntimeError unless the
sizes add up to the width. -/
def splitCols {α : Type*} : List ℕ → List (List α) → List (List (List α))
  | [], _ => []
  | s :: ss, rows => rows.map (List.take s) :: splitCols ss (rows.map (List.drop s))

/-- The width check of `torch.split`. -/
def splitChecked {α : Type*} (sizes : List ℕ) (rows : List (List α)) :
    Except PyErr (List (List (List α))) :=
  if ∀ r ∈ rows, r.length = sizes.sum then .ok (splitCols sizes rows) else .error .runtimeError

/-- model_mix.py 65-67 `forward` for one respondent. -/
def mixForward {α : Type} (ms : List (MixComponent α)) (theta : List ℝ) : List α :=
  (ms.map fun m => m.forward theta).flatten

/-- model_mix.py 91-108 `_pad_and_concat(dim=1, pad_dim=2)` for one respondent: `pad[-5]` of six entries
pads the last dimension on the right with zeros up to the widest table. -/
def padTo (M : ℕ) (p : List ℝ) : List ℝ := p ++ List.replicate (M - p.length) 0

/-- model_mix.py 83-89 `probabilities_from_output` for one respondent. The width of a component's table
is its `max_item_responses`. -/
def mixProbs {α : Type} (ms : List (MixComponent α)) (output : List α) : Except PyErr (List (List ℝ)) := do
  let parts ← splitChecked (ms.map fun m => m.M * m.items) [output]
  let tables := List.zipWith (fun (m : MixComponent α) part => (part.map m.probsFrom).flatten) ms parts
  let width := maxCats (ms.map fun m => m.M)
  return (tables.map fun t => t.map (padTo width)).flatten

/-- Values of the components' log likelihoods under `sum`. -/
def LL.toScalar : LL → Except PyErr Logit
  | .scalar v => .ok v
  | .cells _ => .error .runtimeError

/-- Values of the components' log likelihoods under `none`. -/
def LL.toCells : LL → Except PyErr (List (Option Logit))
  | .cells vs => .ok vs
  | .scalar _ => .error .runtimeError

/-- model_mix.py 165-173: the mask of each component. -/
def mixMasks {α : Type} (ms : List (MixComponent α)) (mask : Option (List (List Bool))) :
    Except PyErr (List (Option (List (List Bool)))) :=
  match mask with
  | none => .ok (List.replicate ms.length none)
  | some mk =>
    match splitChecked (ms.map fun m => m.items) mk with
    | .ok parts => .ok (parts.map some)
    | .error e => .error e

/-- model_mix.py 154-183 `log_likelihood`. -/
noncomputable def mixLogLikelihood {α : Type} (ms : List (MixComponent α)) (output : List (List α))
    (data : List (List Cell)) (mask : Option (List (List Bool))) (red : Reduction) : Except PyErr LL := do
  let outs ← splitChecked (ms.map fun m => m.M * m.items) output
  let datas ← splitChecked (ms.map fun m => m.items) data
  let masks ← mixMasks ms mask
  let lls ← (List.zip ms (List.zip datas (List.zip masks outs))).mapM
    fun (p : MixComponent α × List (List Cell) × Option (List (List Bool)) × List (List α)) =>
      p.1.ll p.2.2.2 p.2.1 p.2.2.1 red
  match red with
  | .mean => .error .notImplemented
  | .sum => do
    let vs ← lls.mapM LL.toScalar
    return .scalar (Logit.sum vs)
  | .none => do
    let vs ← lls.mapM LL.toCells
    return .cells vs.flatten

/-- `log_likelihood` of a softmax model called with 2D tensors (base_irt_model.py 247-264). -/
noncomputable def baseLL2D (items M : ℕ) (outs : List (List Logit)) (data : List (List Cell))
    (mask : Option (List (List Bool))) (red : Reduction) : Except PyErr LL :=
  baseLogLikelihood (viewRows (outs.length * items) M outs.flatten) data.flatten
    (mask.map List.flatten) red

/-- A generalized partial credit model as a component. -/
noncomputable def GPC.component (m : GPC) : MixComponent Logit where
  items := m.cats.length
  M := m.M
  forward := m.forwardRow
  probsFrom := probabilitiesFromOutput m.cats.length m.M
  ll := baseLL2D m.cats.length m.M

/-- A nominal response model as a component. -/
noncomputable def NRM.component (m : NRM) : MixComponent Logit where
  items := m.cats.length
  M := m.M
  forward := m.forwardRow
  probsFrom := probabilitiesFromOutput m.cats.length m.M
  ll := baseLL2D m.cats.length m.M

/-- A three-parameter logistic model as a component: its `forward` returns one column per item, while
`max_item_responses` is 2. -/
noncomputable def ThreePL.component (m : ThreePL) : MixComponent ℝ where
  items := m.items
  M := 2
  forward := m.forwardRow
  probsFrom := fun out => out.map fun p => [1 - p, p]
  ll := fun outs data mask red =>
    tableLogLikelihood ((outs.flatten).map fun p => [1 - p, p]) data.flatten (mask.map List.flatten) red

end Irt
