import Verif.Model.Base

/-!
# `irtorch/torch_modules/monotone_polynomial.py`, `softplus_linear.py`, `negation_layer.py` and
`irtorch/activation_functions.py`

A parameter tensor of fixed shape is a function of its indices. Floats are reals, except that
`BoundedELU` keeps track of overflow of `exp`.
-/

namespace Irt

/-! ## BoundedELU -/

/-- A float that is finite, `inf` or `-inf`. -/
inductive Ext
  | negInf
  | fin (x : ℝ)
  | posInf

/-- `torch.exp` with overflow: the result is `inf` for an argument above `ov` (about 88.7 in single
precision). -/
noncomputable def expOv (ov x : ℝ) : Ext := if ov < x then .posInf else .fin (Real.exp x)

/-- `a * (e - 1) + b` for `a ≠ 0`, with the sign rules of infinities. (`0 * inf` is NaN; `alpha` is 1
in the package.) -/
noncomputable def affineExt (a b : ℝ) : Ext → Ext
  | .fin e => .fin (a * (e - 1) + b)
  | .posInf => if 0 < a then .posInf else .negInf
  | .negInf => if 0 < a then .negInf else .posInf

/-- `mask * part` for a 0/1 mask: `none` stands for a result that is not finite (`0 * inf` is NaN). -/
noncomputable def maskMul (b : Bool) : Ext → Option ℝ
  | .fin v => some (if b then v else 0)
  | _ => none

/-- Sum of three possibly undefined floats. -/
noncomputable def add3 (x y z : Option ℝ) : Option ℝ :=
  match x, y, z with
  | some a, some b, some c => some (a + b + c)
  | _, _, _ => none

/-- activation_functions.py 36-50 `BoundedELU.forward`. `none` is NaN or an infinity. -/
noncomputable def boundedElu (ov alpha x : ℝ) : Option ℝ :=
  let neg := decide (x ≤ -1)
  let pos := decide (1 ≤ x)
  let mid := !neg && !pos
  let negPart := affineExt alpha (-1) (expOv ov (x + 1))
  let posPart := affineExt (-alpha) 1 (expOv ov (-x + 1))
  let negPart := match negPart with | .posInf => .fin 0 | p => p
  let posPart := match posPart with | .negInf => .fin 0 | p => p
  add3 (maskMul neg negPart) (maskMul pos posPart) (maskMul mid (.fin x))

/-- `a * e` for `a ≠ 0`. -/
noncomputable def scaleExt (a : ℝ) : Ext → Ext
  | .fin e => .fin (a * e)
  | .posInf => if 0 < a then .posInf else .negInf
  | .negInf => if 0 < a then .negInf else .posInf

/-- activation_functions.py 78-91 `BoundedELU.backward`, the factor multiplying `grad_output`. -/
noncomputable def boundedEluGrad (ov alpha x : ℝ) : Option ℝ :=
  let neg := decide (x ≤ -1)
  let pos := decide (1 ≤ x)
  let mid := !neg && !pos
  let negPart := scaleExt alpha (expOv ov (x + 1))
  let posPart := scaleExt alpha (expOv ov (-x + 1))
  let negPart := match negPart with | .posInf => .fin 0 | p => p
  let posPart := match posPart with | .posInf => .fin 0 | p => p
  add3 (maskMul neg negPart) (maskMul pos posPart) (maskMul mid (.fin 1))

/-- `F.elu` (alpha 1). -/
noncomputable def elu (x : ℝ) : ℝ := if 0 < x then x else Real.exp x - 1

/-! ## MonotonePolynomialModule -/

/-- State of `MonotonePolynomialModule` (monotone_polynomial.py 27-66) of degree `2 k + 1`. `rel` is the
`relationship_matrix` (in, out), `directions` (in, out / shared) is present iff `negative_relationships`. -/
structure MonoPoly where
  k : ℕ
  inDim : ℕ
  outDim : ℕ
  omega : ℕ → ℕ → ℝ
  alpha : ℕ → ℕ → ℕ → ℝ
  tau : ℕ → ℕ → ℕ → ℝ
  intercept : Option (ℕ → ℝ)
  rel : Option (ℕ → ℕ → Bool)
  directions : Option (ℕ → ℕ → ℝ)
  shared : ℕ

/-- monotone_polynomial.py 37-66, the checks of the constructor: returns `k`. `directions_mask` needs a
relationship matrix (an AttributeError on `None` otherwise). -/
def MonoPoly.checkInit (degree outDim : ℕ) (hasRel negative : Bool) (shared : ℕ) : Except PyErr ℕ :=
  if degree % 2 = 0 then .error .valueError
  else if negative = true ∧ shared = 0 then .error .valueError
  else if negative = true ∧ outDim % shared ≠ 0 then .error .valueError
  else if negative = true ∧ hasRel = false then .error .attributeError
  else .ok ((degree - 1) / 2)

/-- One entry of `matrix` (monotone_polynomial.py 74-78). -/
noncomputable def polyMatrix (al st : ℝ) (r b : ℕ) : ℝ :=
  if r = b then 1 else if r = b + 1 then -2 * al else if r = b + 2 then al ^ 2 + st else 0

/-- `torch.einsum('abio,bio->aio', matrix, a)` for one (input, output) pair
(monotone_polynomial.py 79). -/
noncomputable def polyStep (al st : ℝ) (a : List ℝ) : List ℝ :=
  (List.range (a.length + 2)).map fun r =>
    ((List.range a.length).map fun b => polyMatrix al st r b * a.getD b 0).sum

/-- monotone_polynomial.py 70-79: the coefficients `a` before directions and masks. -/
noncomputable def MonoPoly.rawCoeffs (m : MonoPoly) (i o : ℕ) : List ℝ :=
  (List.range m.k).foldl (fun a s => polyStep (m.alpha s i o) (softplus (m.tau s i o)) a)
    [softplus (m.omega i o)]

/-- monotone_polynomial.py 64-65, 81-83: `effective_directions.repeat_interleave(shared, dim=1)`;
`directions_mask` reads the first relationship of each group of `shared` outputs. -/
noncomputable def MonoPoly.direction (m : MonoPoly) (i o : ℕ) : ℝ :=
  match m.directions, m.rel with
  | none, _ => 1
  | some d, some r => d i (o / m.shared) * (if r i (o / m.shared * m.shared) then 1 else 0)
  | some d, none => d i (o / m.shared)

/-- Whether line 86-87 keeps the pair. -/
def MonoPoly.related (m : MonoPoly) (i o : ℕ) : Bool :=
  match m.rel with
  | none => true
  | some r => r i o

/-- monotone_polynomial.py 81-87: `a` after directions and masks. -/
noncomputable def MonoPoly.coeffs (m : MonoPoly) (i o : ℕ) : List ℝ :=
  (m.rawCoeffs i o).map fun a => if m.related i o then a * m.direction i o else 0

/-- monotone_polynomial.py 69-95 `forward`, output `o` of one row `x` of the batch. -/
noncomputable def MonoPoly.forward (m : MonoPoly) (x : ℕ → ℝ) (o : ℕ) : ℝ :=
  ((List.range m.inDim).map fun i =>
    ((List.range (2 * m.k + 1)).map fun c =>
      x i ^ (c + 1) * ((m.coeffs i o).getD c 0 / ((c + 1 : ℕ) : ℝ))).sum).sum +
  (match m.intercept with | some b => b o | none => 0)

/-- monotone_polynomial.py 107-126 `get_polynomial_coefficients` for one pair: here each step is divided
by `i + 1`, and there is no division by the position at the end. -/
noncomputable def MonoPoly.reportedCoeffs (m : MonoPoly) (i o : ℕ) : List ℝ :=
  ((List.range m.k).foldl (fun a s =>
      (polyStep (m.alpha s i o) (softplus (m.tau s i o)) a).map fun v => v / ((s + 1 : ℕ) : ℝ))
    [softplus (m.omega i o)]).map fun a => if m.related i o then a * m.direction i o else 0

/-! ## SoftplusLinear -/

/-- State of `SoftplusLinear` (softplus_linear.py 42-80). `freeWeight` has one row per output. -/
structure SoftplusLinear where
  inF : ℕ
  outF : ℕ
  positive : Bool
  freeWeight : List (List Bool)
  freeBias : List Bool
  rawWeight : List ℝ
  bias : List ℝ

/-- softplus_linear.py 49-53: sizes of the output groups when they are not given. -/
def evenGroups (outF groups : ℕ) : List ℕ :=
  List.replicate (outF % groups) (outF / groups + 1) ++ List.replicate (groups - outF % groups) (outF / groups)

/-- softplus_linear.py 82-92 `separate_weights`: whether output `o` and input `i` are in the same block.
`so`, `si` are the offsets `cumsum - size`. -/
def sameBlock : List ℕ → List ℕ → ℕ → ℕ → ℕ → ℕ → Bool
  | gi :: gis, go :: gos, si, so, o, i =>
    (decide (so ≤ o ∧ o < so + go) && decide (si ≤ i ∧ i < si + gi)) ||
      sameBlock gis gos (si + gi) (so + go) o i
  | _, _, _, _, _, _ => false

/-- softplus_linear.py 42-80: the constructor with zero parameters. `zeroIn`, `zeroOut` are masks; a mask of
the wrong length is an IndexError of boolean indexing (71-72). -/
noncomputable def SoftplusLinear.init (inF outF : ℕ) (sepIn sepOut : Option (List ℕ))
    (zeroIn zeroOut : Option (List Bool)) (positive : Bool) : Except PyErr SoftplusLinear :=
  let zi := zeroIn.getD (List.replicate inF false)
  let zo := zeroOut.getD (List.replicate outF false)
  let build (block : ℕ → ℕ → Bool) : SoftplusLinear :=
    let fw := (List.range outF).map fun o => (List.range inF).map fun i =>
      block o i && !(zo.getD o false) && !(zi.getD i false)
    let fb := zo.map not
    { inF, outF, positive, freeWeight := fw, freeBias := fb,
      rawWeight := List.replicate (countTrue fw.flatten) 0, bias := List.replicate (countTrue fb) 0 }
  let finish (block : ℕ → ℕ → Bool) : Except PyErr SoftplusLinear :=
    if zo.length ≠ outF then .error .indexError
    else if zi.length ≠ inF then .error .indexError
    else .ok (build block)
  match sepIn with
  | some gi =>
    let go := sepOut.getD (evenGroups outF gi.length)
    if gi.sum ≠ inF then .error .valueError
    else if go.sum ≠ outF then .error .valueError
    else finish fun o i => sameBlock gi go 0 0 o i
  | none =>
    match sepOut with
    | some _ => .error .valueError
    | none => finish fun _ _ => true

/-- Parameter shapes created by the constructor and kept by training. -/
structure SoftplusLinear.WF (l : SoftplusLinear) : Prop where
  rows : l.freeWeight.length = l.outF
  cols : ∀ r ∈ l.freeWeight, r.length = l.inF
  biasRow : l.freeBias.length = l.outF
  weightLen : l.rawWeight.length = countTrue l.freeWeight.flatten
  biasLen : l.bias.length = countTrue l.freeBias

/-- softplus_linear.py 115-120: the weight matrix. -/
noncomputable def SoftplusLinear.weight (l : SoftplusLinear) : List (List ℝ) :=
  viewRows l.outF l.inF (scatterMask 0 l.freeWeight.flatten
    (if l.positive then l.rawWeight.map softplus else l.rawWeight))

/-- softplus_linear.py 116, 121: the bias vector. -/
noncomputable def SoftplusLinear.biases (l : SoftplusLinear) : List ℝ := scatterMask 0 l.freeBias l.bias

/-- softplus_linear.py 115-123 `forward` on one row. -/
noncomputable def SoftplusLinear.forward (l : SoftplusLinear) (x : List ℝ) : List ℝ :=
  List.zipWith (fun w b => dot x w + b) l.weight l.biases

/-! ## NegationLayer -/

/-- State of `NegationLayer` (negation_layer.py 4-29). -/
structure Negation where
  perItem : ℕ
  rel : List Bool
  zeroOut : List Bool
  weightParam : List ℝ

/-- negation_layer.py 34-35: the weight vector. -/
noncomputable def Negation.weight (l : Negation) : List ℝ :=
  scatterMask 0 (repeatInterleave l.perItem l.rel) (repeatInterleave l.perItem l.weightParam)

/-- negation_layer.py 31-37 `forward` on one row. -/
noncomputable def Negation.forward (l : Negation) (x : List ℝ) : List ℝ :=
  List.zipWith (· * ·) (maskFill l.zeroOut 0 x) l.weight

/-- negation_layer.py 39-49 `all_item_weights`. -/
noncomputable def Negation.allItemWeights (l : Negation) : List ℝ := scatterMask 0 l.rel l.weightParam

end Irt
