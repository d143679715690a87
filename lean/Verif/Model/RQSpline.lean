import Verif.Model.Base

/-!
# `irtorch/torch_modules/rational_quadratic_spline.py` and `neural_spline_flow.py`

Floats are reals. `torch.log` and `torch.sqrt` are used on positive arguments only when the module is
well formed; the theorems prove that where they need it.
-/

namespace Irt

/-- rational_quadratic_spline.py 37-72: the state of a `RationalQuadraticSpline`. `uw`, `uh` and `ud` are
the unnormalised widths, heights and derivatives, one row for each variable. With `free_endpoints` the two
output bounds are trained like the other parameters; `outLo` and `outHi` (`deriv_outside_lower/upper`)
are computed once by the constructor. -/
structure RQSpline where
  /-- `num_bins` -/
  bins : ℕ
  /-- `lower_input_bound` -/
  loIn : ℝ
  /-- `upper_input_bound` -/
  hiIn : ℝ
  /-- `lower_output_bound` -/
  loOut : ℝ
  /-- `upper_output_bound` -/
  hiOut : ℝ
  /-- `min_bin_width` -/
  minW : ℝ
  /-- `min_bin_height` -/
  minH : ℝ
  /-- `min_derivative` -/
  minD : ℝ
  /-- `deriv_outside_lower` -/
  outLo : ℝ
  /-- `deriv_outside_upper` -/
  outHi : ℝ
  /-- `unnormalized_widths` -/
  uw : List (List ℝ)
  /-- `unnormalized_heights` -/
  uh : List (List ℝ)
  /-- `unnormalized_derivatives` -/
  ud : List (List ℝ)

/-- rational_quadratic_spline.py 37-72: the constructor. Equal input bounds divide by zero. -/
noncomputable def RQSpline.create (vars bins : ℕ) (loIn hiIn loOut hiOut minW minH minD : ℝ) :
    Except PyErr RQSpline :=
  if hiIn - loIn = 0 then .error .zeroDivision
  else
    let d := (hiOut - loOut) / (hiIn - loIn)
    .ok ⟨bins, loIn, hiIn, loOut, hiOut, minW, minH, minD, d, d,
      List.replicate vars (List.replicate bins 0),
      List.replicate vars (List.replicate bins 0),
      List.replicate vars (List.replicate (bins - 1) 0.5405)⟩

/-- rational_quadratic_spline.py 37-72: a module built with ordered bounds, minimum sizes that leave room
for all bins and a minimum derivative below one, holding parameters of the constructor's shapes. Trained
output bounds (`free_endpoints`) must still be in order. -/
structure RQSpline.WF (s : RQSpline) : Prop where
  bins : 0 < s.bins
  hIn : s.loIn < s.hiIn
  hOut : s.loOut < s.hiOut
  minW : 0 ≤ s.minW
  minW' : s.minW * s.bins ≤ 1
  minH : 0 ≤ s.minH
  minH' : s.minH * s.bins ≤ 1
  minD : 0 ≤ s.minD
  minD' : s.minD < 1
  outLo : 0 < s.outLo
  outHi : 0 < s.outHi
  uh : s.uh.length = s.uw.length
  ud : s.ud.length = s.uw.length
  uw_row : ∀ r ∈ s.uw, r.length = s.bins
  uh_row : ∀ r ∈ s.uh, r.length = s.bins
  ud_row : ∀ r ∈ s.ud, r.length = s.bins - 1

/-- rational_quadratic_spline.py 57-72: `s` is `s₀` after any training. The parameters change, keeping their
shapes; the output bounds are parameters only with `free_endpoints`. -/
def RQSpline.TrainedFrom (free : Bool) (s₀ s : RQSpline) : Prop :=
  s = { s₀ with uw := s.uw, uh := s.uh, ud := s.ud, loOut := s.loOut, hiOut := s.hiOut } ∧
  s.uw.map List.length = s₀.uw.map List.length ∧ s.uh.map List.length = s₀.uh.map List.length ∧
  s.ud.map List.length = s₀.ud.map List.length ∧
  (free = false → s.loOut = s₀.loOut ∧ s.hiOut = s₀.hiOut)

/-- rational_quadratic_spline.py 82-89 `_compute_cumparams` for one element: the knots and the distances
between them. -/
noncomputable def cumParams (bins : ℕ) (raw : List ℝ) (lo hi minSize : ℝ) : List ℝ × List ℝ :=
  let params := (softmax (raw.map Logit.fin)).map fun p => minSize + (1 - minSize * bins) * p
  let cum := (0 :: cumsum params).map fun x => (hi - lo) * x + lo
  (cum, List.zipWith (fun a b => a - b) cum.tail cum.dropLast)

/-- rational_quadratic_spline.py 91-97 `_pad_derivatives`: both ends get the constant that makes the end
derivative equal to one. -/
noncomputable def padDerivatives (minD : ℝ) (d : List ℝ) : List ℝ :=
  let const := Real.log (Real.exp (1 - minD) - 1)
  const :: d ++ [const]

/-- rational_quadratic_spline.py 148-154: `cum_boundaries[..., -1] += eps`. -/
noncomputable def bumpLast (eps : ℝ) (xs : List ℝ) : List ℝ :=
  match xs.getLast? with
  | some x => xs.dropLast ++ [x + eps]
  | none => []

/-- `t.gather(-1, idx)` for one index; torch raises outside the range. -/
def gatherAt (xs : List ℝ) (k : ℕ) : Except PyErr ℝ :=
  match xs[k]? with
  | some x => .ok x
  | none => .error .runtimeError

/-- rational_quadratic_spline.py 169-183: value and log derivative in inverse mode, given the quantities of
the bin. -/
noncomputable def binInverse (x xk w yk h delta d0 d1 : ℝ) : ℝ × ℝ :=
  let a := (x - yk) * (d0 + d1 - 2 * delta) + h * (delta - d0)
  let b := h * d0 - (x - yk) * (d0 + d1 - 2 * delta)
  let c := -delta * (x - yk)
  let disc := b ^ 2 - 4 * a * c
  let root := (2 * c) / (-b - Real.sqrt disc)
  let out := root * w + xk
  let t1 := root * (1 - root)
  let denom := delta + (d0 + d1 - 2 * delta) * t1
  let num := delta ^ 2 * (d1 * root ^ 2 + 2 * delta * t1 + d0 * (1 - root) ^ 2)
  (out, -(Real.log num - 2 * Real.log denom))

/-- rational_quadratic_spline.py 184-194: value and log derivative in forward mode, given the quantities of
the bin. -/
noncomputable def binForward (x xk w yk h delta d0 d1 : ℝ) : ℝ × ℝ :=
  let theta := (x - xk) / w
  let t1 := theta * (1 - theta)
  let num := h * (delta * theta ^ 2 + d0 * t1)
  let denom := delta + (d0 + d1 - 2 * delta) * t1
  let out := yk + num / denom
  let numDeriv := delta ^ 2 * (d1 * theta ^ 2 + 2 * delta * t1 + d0 * (1 - theta) ^ 2)
  (out, Real.log numDeriv - 2 * Real.log denom)

/-- rational_quadratic_spline.py 135-194 `_rational_quadratic_spline` for one element. The size check
(137-138) is made once for all elements in the code and for each element here; `bin_idx` of -1 makes
`gather` raise. -/
noncomputable def RQSpline.insideValue (s : RQSpline) (x : ℝ) (uw uh ud : List ℝ) (inverse : Bool) :
    Except PyErr (ℝ × ℝ) :=
  if 1 < s.minW * s.bins ∨ 1 < s.minH * s.bins then .error .valueError
  else do
    let numBins := uw.length
    let cumW := (cumParams s.bins uw s.loIn s.hiIn s.minW).1
    let widths := (cumParams s.bins uw s.loIn s.hiIn s.minW).2
    let cumH := (cumParams s.bins uh s.loOut s.hiOut s.minH).1
    let heights := (cumParams s.bins uh s.loOut s.hiOut s.minH).2
    let derivs := ud.map fun d => s.minD + softplus d
    let delta := List.zipWith (fun h w => h / w) heights widths
    let bounds := bumpLast 1e-6 (if inverse then cumH else cumW)
    let count := bounds.countP (fun b => decide (b ≤ x))
    if count = 0 then .error .runtimeError
    else
      let k := min (count - 1) (numBins - 1)
      let xk ← gatherAt cumW k
      let w ← gatherAt widths k
      let yk ← gatherAt cumH k
      let dl ← gatherAt delta k
      let d0 ← gatherAt derivs k
      let d1 ← gatherAt derivs.tail k
      let h ← gatherAt heights k
      if inverse then .ok (binInverse x xk w yk h dl d0 d1)
      else .ok (binForward x xk w yk h dl d0 d1)

/-- rational_quadratic_spline.py 101-114: the affine continuation below the bounds. -/
noncomputable def RQSpline.lowerTrans (s : RQSpline) (inverse : Bool) (x : ℝ) : ℝ :=
  if inverse then s.loIn + (x - s.loOut) / s.outLo else s.loOut + (x - s.loIn) * s.outLo

/-- rational_quadratic_spline.py 101-114: the affine continuation above the bounds. -/
noncomputable def RQSpline.upperTrans (s : RQSpline) (inverse : Bool) (x : ℝ) : ℝ :=
  if inverse then s.hiIn + (x - s.hiOut) / s.outHi else s.hiOut + (x - s.hiIn) * s.outHi

/-- rational_quadratic_spline.py 116. -/
noncomputable def RQSpline.below (s : RQSpline) (inverse : Bool) (x : ℝ) : Bool :=
  decide (x < if inverse then s.loOut else s.loIn)

/-- rational_quadratic_spline.py 117. -/
noncomputable def RQSpline.above (s : RQSpline) (inverse : Bool) (x : ℝ) : Bool :=
  decide ((if inverse then s.hiOut else s.hiIn) < x)

/-- `t[mask] = values`: the values are consumed in row-major order of the true positions. -/
def maskAssign {α : Type*} : List Bool → List α → List α → List α
  | true :: m, v :: vs, _ :: xs => v :: maskAssign m vs xs
  | true :: m, [], x :: xs => x :: maskAssign m [] xs
  | false :: m, vs, x :: xs => x :: maskAssign m vs xs
  | _, _, _ => []

/-- rational_quadratic_spline.py 74-80 and 99-133: `forward` with `_spline_transform` on a batch, given as
the list of its rows. The result is the pair of flat (row-major) tensors of outputs and log derivatives.
When an element is inside the bounds, the boolean mask of the input must have the shape of the parameter
tensors. -/
noncomputable def RQSpline.forward (s : RQSpline) (inputs : List (List ℝ)) (inverse : Bool) :
    Except PyErr (List ℝ × List ℝ) := do
  let bs := inputs.length
  let flat := inputs.flatten
  let widths := tile bs s.uw
  let heights := tile bs s.uh
  let derivs := (tile bs s.ud).map (padDerivatives s.minD)
  let below := flat.map (s.below inverse)
  let above := flat.map (s.above inverse)
  let inside := List.zipWith (fun b a => !(b || a)) below above
  let outputs := flat.map fun _ => (0 : ℝ)
  let outputs := List.zipWith (fun b p => if b then s.lowerTrans inverse p.1 else p.2) below
    (List.zip flat outputs)
  let outputs := List.zipWith (fun b p => if b then s.upperTrans inverse p.1 else p.2) above
    (List.zip flat outputs)
  let logabsdet := flat.map fun _ => (0 : ℝ)
  if inside.any id then
    if ∃ r ∈ inputs, r.length ≠ s.uw.length then .error .indexError
    else
      let elems := List.zip (gatherMask inside flat)
        (List.zip (gatherMask inside widths) (List.zip (gatherMask inside heights)
          (gatherMask inside derivs)))
      let res ← elems.mapM fun e => s.insideValue e.1 e.2.1 e.2.2.1 e.2.2.2 inverse
      .ok (maskAssign inside (res.map Prod.fst) outputs, maskAssign inside (res.map Prod.snd) logabsdet)
  else .ok (outputs, logabsdet)

/-- neural_spline_flow.py 36-37 `NeuralSplineFlow.forward`: the flat tensor of transformed values. -/
noncomputable def NeuralSplineFlow.forward (s : RQSpline) (inputs : List (List ℝ)) :
    Except PyErr (List ℝ) := do
  return (← s.forward inputs false).1

/-- neural_spline_flow.py 76-77 `NeuralSplineFlow.inverse`. -/
noncomputable def NeuralSplineFlow.inverse (s : RQSpline) (inputs : List (List ℝ)) :
    Except PyErr (List ℝ) := do
  return (← s.forward inputs true).1

/-- neural_spline_flow.py 53-55 `NeuralSplineFlow.log_prob` for a base distribution with the given
elementwise log density. -/
noncomputable def NeuralSplineFlow.logProb (s : RQSpline) (logDensity : ℝ → ℝ)
    (inputs : List (List ℝ)) : Except PyErr (List ℝ) := do
  let r ← s.forward inputs false
  return List.zipWith (fun z l => logDensity z + l) r.1 r.2

/-- neural_spline_flow.py 57-60 `NeuralSplineFlow._sample_obs`; `noise` is the sample drawn from the base distribution. -/
noncomputable def NeuralSplineFlow.sampleObs (s : RQSpline) (noise : List (List ℝ)) : Except PyErr (List ℝ) := do
  return (← s.forward noise true).1

end Irt
