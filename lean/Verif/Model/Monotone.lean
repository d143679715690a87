import Verif.Model.Modules
import Verif.Model.Polytomous

/-!
# `irtorch/models/monotone_polynomial.py`, `monotone_nn.py`, `monotone_b_spline.py`

One respondent at a time. `self.separate` is one of the two documented strings (any other string leaves
`self.separations` unset and the constructor fails with an AttributeError).
-/

namespace Irt

/-- The argument `separate`. -/
inductive Separate
  | items | categories
  deriving DecidableEq

/-- monotone_polynomial.py 73-76, monotone_nn.py 118-121: number of separate functions. -/
def Separate.count (s : Separate) (items M : ℕ) : ℕ :=
  match s with | .items => items | .categories => items * M

/-- monotone_polynomial.py 99-100, monotone_nn.py 214-215:
`if self.separate == "items": out = out.repeat_interleave(self.max_item_responses, dim=1)`. -/
def Separate.expand (s : Separate) (M : ℕ) (out : List ℝ) : List ℝ :=
  match s with | .items => repeatInterleave M out | .categories => out

/-- monotone_polynomial.py 102, monotone_nn.py 218: cumulative sums over the category slots. -/
noncomputable def cumCategories (items M : ℕ) (out : List ℝ) : List ℝ :=
  ((viewRows items M out).map cumsum).flatten

/-- monotone_polynomial.py 103-106, monotone_nn.py 222-225: add the intercepts of the categories that
exist and mask the others with `-inf`. -/
noncomputable def addBiasAndMask (M : ℕ) (cats : List ℕ) (bias : List ℝ) (out : List ℝ) : List Logit :=
  let b := scatterMask 0 ((missingMask M cats).map not) bias
  maskFill (missingMask M cats) .negInf ((List.zipWith (· + ·) out b).map Logit.fin)

/-! ## MonotonePolynomial -/

/-- State of `MonotonePolynomial` (monotone_polynomial.py 41-95). `directions` is present iff
`negative_latent_variable_item_relationships`. The parameters of `mono_poly` are functions of their
indices (latent variable, output). -/
structure MonoPolyModel where
  k : ℕ
  lv : ℕ
  cats : List ℕ
  sep : Separate
  rel : List (List Bool)
  omega : ℕ → ℕ → ℝ
  alpha : ℕ → ℕ → ℕ → ℝ
  tau : ℕ → ℕ → ℕ → ℝ
  directions : Option (ℕ → ℕ → ℝ)
  bias : List ℝ

/-- `max_item_responses`. -/
def MonoPolyModel.M (m : MonoPolyModel) : ℕ := maxCats m.cats

/-- Parameter shapes created by the constructor and kept by training. -/
structure MonoPolyModel.WF (m : MonoPolyModel) : Prop where
  catsPos : ∀ c ∈ m.cats, 0 < c
  relLen : m.rel.length = m.cats.length
  relRow : ∀ r ∈ m.rel, r.length = m.lv
  biasLen : m.bias.length = m.cats.sum

/-- monotone_polynomial.py 51-95, constructor with given `item_categories`. `tau` starts at -5, the other
parameters at zero; `dirs` are the random starting directions. -/
noncomputable def MonoPolyModel.init (lv : ℕ) (cats : List ℕ) (degree : ℕ) (rel : Option (List (List Bool)))
    (sep : Separate) (negative : Bool) (dirs : ℕ → ℕ → ℝ) : Except PyErr MonoPolyModel := do
  let r ← checkRelationships cats.length lv rel
  let M := maxCats cats
  let shared := match sep with | .categories => M | .items => 1
  let k ← MonoPoly.checkInit degree (sep.count cats.length M) true negative shared
  return { k, lv, cats, sep, rel := r, omega := fun _ _ => 0, alpha := fun _ _ _ => 0,
           tau := fun _ _ _ => -5, directions := if negative then some dirs else none,
           bias := List.replicate cats.sum 0 }

/-- monotone_polynomial.py 86: outputs that share a direction. -/
def MonoPolyModel.shared (m : MonoPolyModel) : ℕ :=
  match m.sep with | .categories => m.M | .items => 1

/-- monotone_polynomial.py 87-95: the polynomial module. The relationship matrix is
`item_theta_relationships.transpose(0, 1).repeat_interleave(shared, dim=1)`. -/
noncomputable def MonoPolyModel.poly (m : MonoPolyModel) : MonoPoly where
  k := m.k
  inDim := m.lv
  outDim := m.sep.count m.cats.length m.M
  omega := m.omega
  alpha := m.alpha
  tau := m.tau
  intercept := none
  rel := some fun i o => (m.rel.getD (o / m.shared) []).getD i false
  directions := m.directions
  shared := m.shared

/-- monotone_polynomial.py 97-107 `forward`. -/
noncomputable def MonoPolyModel.forwardRow (m : MonoPolyModel) (theta : ℕ → ℝ) : List Logit :=
  let out := (List.range m.poly.outDim).map (m.poly.forward theta)
  let out := m.sep.expand m.M out
  addBiasAndMask m.M m.cats m.bias (cumCategories m.cats.length m.M out)

/-- monotone_polynomial.py 123-124 `probabilities_from_output` after `forward`. -/
noncomputable def MonoPolyModel.probs (m : MonoPolyModel) (theta : ℕ → ℝ) : List (List ℝ) :=
  probabilitiesFromOutput m.cats.length m.M (m.forwardRow theta)

/-- monotone_polynomial.py 136-138 `item_theta_relationship_directions`: entry (item, latent variable),
`sign` of direction times mask. -/
noncomputable def MonoPolyModel.reportedDirection (m : MonoPolyModel) (item i : ℕ) : ℤ :=
  match m.directions with
  | some d => SignType.sign (d i item * if (m.rel.getD item []).getD i false then 1 else 0)
  | none => 1

/-! ## MonotoneNN -/

/-- State of `MonotoneNN` (monotone_nn.py 86-193). `layers[d]` are the `SoftplusLinear` layers of latent
variable `d`, `negs[d]` its `NegationLayer` (present iff `negative_latent_variable_item_relationships`). -/
structure MonoNN where
  lv : ℕ
  cats : List ℕ
  mc : Option (List ℕ)
  sep : Separate
  hidden : List ℕ
  bounded : Bool
  layers : List (List SoftplusLinear)
  negs : Option (List Negation)
  bias : List ℝ

/-- `max_item_responses`. -/
def MonoNN.M (m : MonoNN) : ℕ := maxCats m.cats

/-- monotone_nn.py 103-109: the check of `hidden_dim`, returning the widths used. -/
def checkHidden (hidden : Option (List ℕ)) (bounded : Bool) : Except PyErr (List ℕ) :=
  match hidden with
  | none => .ok (if bounded then [3] else [2])
  | some h =>
    if bounded && !(h.all fun x => x % 3 == 0) then .error .valueError
    else if !bounded && !(h.all fun x => x % 2 == 0) then .error .valueError
    else .ok h

/-- monotone_nn.py 143-151, 159, 165-168: outputs of a layer of width `h` that must be zero, for the
relationships `r` of the items with one latent variable. -/
def nnZeroOut (sep : Separate) (M : ℕ) (cats : List ℕ) (r : List Bool) (h : ℕ) : List Bool :=
  match sep with
  | .items => repeatInterleave h (r.map not)
  | .categories => List.zipWith (· || ·) (repeatInterleave h (missingMask M cats))
      (repeatInterleave (h * M) (r.map not))

/-- monotone_nn.py 156-180: the hidden layers after the first, for the widths `prev :: hs`. -/
noncomputable def nnHiddenLayers (sep : Separate) (M : ℕ) (cats : List ℕ) (r : List Bool) :
    ℕ → List ℕ → Except PyErr (List SoftplusLinear)
  | _, [] => .ok []
  | prev, h :: hs => do
    let n := sep.count cats.length M
    let l ← SoftplusLinear.init (prev * n) (n * h) (some (List.replicate n prev)) (some (List.replicate n h))
      (some (nnZeroOut sep M cats r prev)) (some (nnZeroOut sep M cats r h)) true
    let ls ← nnHiddenLayers sep M cats r h hs
    return l :: ls

/-- monotone_nn.py 139-180: all layers of one latent variable. -/
noncomputable def nnLayers (sep : Separate) (M : ℕ) (cats : List ℕ) (r : List Bool) :
    List ℕ → Except PyErr (List SoftplusLinear)
  | [] => .error .indexError
  | h :: hs => do
    let n := sep.count cats.length M
    let l ← SoftplusLinear.init 1 (n * h) none none none (some (nnZeroOut sep M cats r h)) true
    let ls ← nnHiddenLayers sep M cats r h hs
    return l :: ls

/-- monotone_nn.py 182-193 with negation_layer.py 4-29: the negation layer of one latent variable, with
weights 0.01. -/
noncomputable def nnNegation (sep : Separate) (M : ℕ) (cats : List ℕ) (r : List Bool) : Negation where
  perItem := match sep with | .items => 1 | .categories => M
  rel := r
  zeroOut := match sep with | .items => List.replicate cats.length false | .categories => missingMask M cats
  weightParam := List.replicate (countTrue r) 0.01

/-- monotone_nn.py 86-193, constructor with given `item_categories`. -/
noncomputable def MonoNN.init (lv : ℕ) (cats : List ℕ) (hidden : Option (List ℕ)) (mc : Option (List ℕ))
    (rel : Option (List (List Bool))) (sep : Separate) (negative bounded : Bool) : Except PyErr MonoNN := do
  checkMcCorrect cats (mc.map fun ks => ks.map fun k : ℕ => (k : ℤ))
  let r ← checkRelationships cats.length lv rel
  let h ← checkHidden hidden bounded
  let M := maxCats cats
  let column (d : ℕ) : List Bool := r.map fun row => row.getD d false
  let layers ← (List.range lv).mapM fun d => nnLayers sep M cats (column d) h
  let negs := if negative then some ((List.range lv).map fun d => nnNegation sep M cats (column d)) else none
  return { lv, cats, mc, sep, hidden := h, bounded, layers, negs, bias := List.replicate cats.sum 0 }

/-- monotone_nn.py 242-250 `_split_activation`: `stack(...).view` puts the activations of the strided slices
back in place. The bounded ELU (alpha 1) is always finite (C14), so the default 0 is never used. -/
noncomputable def splitActivation (ov : ℝ) (bounded : Bool) (x : List ℝ) : List ℝ :=
  if bounded then
    (List.range (x.length / 3)).flatMap fun j =>
      [elu (x.getD (3 * j) 0), -elu (-x.getD (3 * j + 1) 0), (boundedElu ov 1 (x.getD (3 * j + 2) 0)).getD 0]
  else
    (List.range (x.length / 2)).flatMap fun j => [elu (x.getD (2 * j) 0), -elu (-x.getD (2 * j + 1) 0)]

/-- monotone_nn.py 198-203: the layers of one latent variable, each followed by the activation. -/
noncomputable def nnStack (ov : ℝ) (bounded : Bool) (layers : List SoftplusLinear) (x : List ℝ) : List ℝ :=
  layers.foldl (fun x l => splitActivation ov bounded (l.forward x)) x

/-- monotone_nn.py 198-210: the contribution of latent variable `d`. -/
noncomputable def MonoNN.dimOut (m : MonoNN) (ov : ℝ) (d : ℕ) (t : ℝ) : List ℝ :=
  let out := nnStack ov m.bounded (m.layers.getD d []) [t]
  let out := (viewRows (m.sep.count m.cats.length m.M) (m.hidden.getLastD 0) out).map List.sum
  match m.negs with
  | some ns => match ns[d]? with | some n => n.forward out | none => out
  | none => out

/-- `mc_correct_output_idx` (monotone_nn.py 124-128). -/
def mcMask (items M : ℕ) (keys : List ℕ) : List Bool :=
  (List.range (items * M)).map fun s =>
    decide (s ∈ List.zipWith (fun j k => j * M + k) (List.range items) keys)

/-- `xs[mask] = vals`. -/
def assignMask {α : Type*} : List Bool → List α → List α → List α
  | true :: m, v :: vs, _ :: xs => v :: assignMask m vs xs
  | true :: m, [], x :: xs => x :: assignMask m [] xs
  | false :: m, vs, x :: xs => x :: assignMask m vs xs
  | _, _, _ => []

/-- monotone_nn.py 195-226 `forward`. -/
noncomputable def MonoNN.forwardRow (m : MonoNN) (ov : ℝ) (theta : ℕ → ℝ) : List Logit :=
  let out := sumRows (m.sep.count m.cats.length m.M) ((List.range m.lv).map fun d => m.dimOut ov d (theta d))
  let out := m.sep.expand m.M out
  let out := match m.mc with
    | none => cumCategories m.cats.length m.M out
    | some keys =>
      assignMask (mcMask m.cats.length m.M keys) ((viewRows m.cats.length m.M out).map List.sum) out
  addBiasAndMask m.M m.cats m.bias out

/-- monotone_nn.py 266-267 `probabilities_from_output` after `forward`. -/
noncomputable def MonoNN.probs (m : MonoNN) (ov : ℝ) (theta : ℕ → ℝ) : List (List ℝ) :=
  probabilitiesFromOutput m.cats.length m.M (m.forwardRow ov theta)

/-- monotone_nn.py 279-282 `item_theta_relationship_directions`: entry (item, latent variable). -/
noncomputable def MonoNN.reportedDirection (m : MonoNN) (item d : ℕ) : ℤ :=
  match m.negs with
  | some ns => match ns[d]? with
    | some n => SignType.sign (n.allItemWeights.getD item 0)
    | none => 0
  | none => 1

/-! ## MonotoneBSpline -/

/-- State of `MonotoneBSpline` (monotone_b_spline.py 66-114). With `separate="items"` the coefficients are
a tensor (lv, n_bases, items); with `separate="categories"` a flat list for the entries of `spline_mask`. -/
structure MonoBSpline where
  lv : ℕ
  nb : ℕ
  cats : List ℕ
  sep : Separate
  coefItems : ℕ → ℕ → ℕ → ℝ
  coefCats : List ℝ
  bias : List ℝ

/-- `max_item_responses`. -/
def MonoBSpline.M (m : MonoBSpline) : ℕ := maxCats m.cats

/-- monotone_b_spline.py 96-100: the flat `spline_mask` of shape (1, n_bases, items, categories). -/
def MonoBSpline.splineMask (m : MonoBSpline) : List Bool :=
  (List.range m.nb).flatMap fun _ => freeMask m.M m.cats

/-- Parameter shapes created by the constructor and kept by training. -/
structure MonoBSpline.WF (m : MonoBSpline) : Prop where
  catsPos : ∀ c ∈ m.cats, 0 < c
  coefLen : m.coefCats.length = countTrue m.splineMask
  biasLen : m.bias.length = countTrue (freeMask m.M m.cats)

/-- monotone_b_spline.py 148-150: the coefficients of `separate="categories"` before `cumsum`. -/
noncomputable def MonoBSpline.catCoef (m : MonoBSpline) (b item c : ℕ) : ℝ :=
  (scatterMask 0 m.splineMask (m.coefCats.map softplus)).getD ((b * m.cats.length + item) * m.M + c) 0

/-- monotone_b_spline.py 131-161 `forward`, logits of one item. `basis l b` is the value of basis function
`b` at the rescaled latent variable `l` (computed by the external package splinetorch). With
`separate="categories"` and several latent variables the boolean assignment of line 150 fails, because the
mask has leading dimension 1. -/
noncomputable def MonoBSpline.itemLogits (m : MonoBSpline) (basis : ℕ → ℕ → ℝ) (item : ℕ) : List ℝ :=
  (List.range m.M).map fun c : ℕ =>
    match m.sep with
    | .items => ((List.range m.lv).map fun l =>
        ((List.range m.nb).map fun b =>
          basis l b * ((List.range (b + 1)).map fun b' => softplus (m.coefItems l b' item)).sum).sum * (c : ℝ)).sum
    | .categories => ((List.range (c + 1)).map fun c' =>
        ((List.range m.nb).map fun b =>
          basis 0 b * ((List.range (b + 1)).map fun b' => m.catCoef b' item c').sum).sum).sum

/-- monotone_b_spline.py 131-161 `forward`, flattened. -/
noncomputable def MonoBSpline.forwardRow (m : MonoBSpline) (basis : ℕ → ℕ → ℝ) : Except PyErr (List Logit) :=
  if m.sep = .categories ∧ m.lv ≠ 1 then .error .indexError
  else
    let out := (List.range m.cats.length).flatMap (m.itemLogits basis)
    let b := scatterMask 0 (freeMask m.M m.cats) m.bias
    .ok (maskFill (missingMask m.M m.cats) .negInf ((List.zipWith (· + ·) out b).map Logit.fin))

/-- Softmax of every item (monotone_b_spline.py 176). -/
noncomputable def MonoBSpline.probs (m : MonoBSpline) (basis : ℕ → ℕ → ℝ) : Except PyErr (List (List ℝ)) := do
  let row ← m.forwardRow basis
  return probabilitiesFromOutput m.cats.length m.M row

end Irt
