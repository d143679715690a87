import Verif.Model.Spline
import Verif.Model.Monotone
import Verif.Model.Composite
import Verif.Model.Scoring

/-!
# The spline models on a whole batch: layout of the basis tensor, `precompute_basis` and the backward pass

`irtorch/models/monotone_b_spline.py` 131-136, 192-202, `surprisal_spline.py` 118-123, 202-212, `nested_logit.py`
189-195, 323-326, `irtorch/torch_modules/b_spline.py`. The basis is a flat row-major tensor, because
`rescaled_theta.T.flatten()` and `basis.view(lv, -1, n_bases)` go through the flat layout.
-/

namespace Irt

/-- `theta.sigmoid().T.flatten()` (monotone_b_spline.py 134-135, 200-201): all values of the first latent variable, then
all values of the second, … -/
noncomputable def flatScores {d : ℕ} (theta : Thetas d) : List ℝ :=
  (List.finRange d).flatMap fun l => theta.map fun r => sigmoid (r l)

/-- torch_modules/b_spline.py 15-18 `b_spline_basis(x, knots, degree)`: one row of `n_bases` values for every entry of
`x`, flattened. The values are those of the specification `bspline` (the code of splinetorch is not in the repository). -/
noncomputable def basisTensor (interior : List ℝ) (degree : ℕ) (xs : List ℝ) : List ℝ :=
  xs.flatMap fun x => (List.range (splineBases interior degree)).map fun b =>
    bspline (fun i => (splineKnots interior degree).getD i 1) degree b x

/-- The size that `-1` stands for in `basis.view(lv, -1, n_bases)`. -/
def basisBatch (lv nb : ℕ) (t : List ℝ) : ℕ := t.length / (lv * nb)

/-- Entry `[l, p, b]` of `basis.view(lv, -1, n_bases)`. -/
noncomputable def basisAt (lv nb : ℕ) (t : List ℝ) (p l b : ℕ) : ℝ :=
  t.getD ((l * basisBatch lv nb t + p) * nb + b) 0

/-- A spline model: the knots, the degree, the attribute `basis`, and `row`, which computes the output of one row from
the row of latent scores and its basis values. -/
structure SplineModel (d : ℕ) (Out : Type) where
  interior : List ℝ
  degree : ℕ
  basis : Option (List ℝ) := none
  row : (Fin d → ℝ) → (ℕ → ℕ → ℝ) → Except PyErr Out

/-- monotone_b_spline.py 192-202, surprisal_spline.py 202-212, nested_logit.py 323-326 `precompute_basis`. -/
noncomputable def SplineModel.precomputeBasis {d : ℕ} {Out : Type} (m : SplineModel d Out) (theta : Thetas d) :
    SplineModel d Out :=
  { m with basis := some (basisTensor m.interior m.degree (flatScores theta)) }

/-- mml.py 229-231 `model.basis = None`. -/
def SplineModel.clearBasis {d : ℕ} {Out : Type} (m : SplineModel d Out) : SplineModel d Out :=
  { m with basis := none }

/-- The basis used by `forward` (monotone_b_spline.py 131-136, surprisal_spline.py 118-123, nested_logit.py 190-195). -/
noncomputable def SplineModel.usedBasis {d : ℕ} {Out : Type} (m : SplineModel d Out) (theta : Thetas d) : List ℝ :=
  match m.basis with
  | some t => t
  | none => basisTensor m.interior m.degree (flatScores theta)

/-- `forward` of `MonotoneBSpline` and `SurprisalSpline` on a batch: the number of output rows is the batch size of the
basis; the scores themselves are used for nothing else (`row` is given the zero row). -/
noncomputable def SplineModel.forward {d : ℕ} {Out : Type} (m : SplineModel d Out) (theta : Thetas d) :
    Except PyErr (List Out) :=
  let nb := splineBases m.interior m.degree
  let t := m.usedBasis theta
  (List.range (basisBatch d nb t)).mapM fun p => m.row (fun _ => 0) (basisAt d nb t p)

/-- `forward` of `NestedLogit` with `incorrect_response_model="bspline"` (nested_logit.py 168-235) on a batch: the correct
response model sees the scores and the incorrect responses see the basis. Batch sizes that differ are refused (torch
broadcasts if one of them is 1, which is not modelled). -/
noncomputable def SplineModel.forwardNested {d : ℕ} {Out : Type} (m : SplineModel d Out) (theta : Thetas d) :
    Except PyErr (List Out) :=
  let nb := splineBases m.interior m.degree
  let t := m.usedBasis theta
  if basisBatch d nb t ≠ theta.length then .error .runtimeError
  else (List.zip theta (List.range theta.length)).mapM fun rp => m.row rp.1 (basisAt d nb t rp.2)

/-- `MonotoneBSpline` as a spline model. -/
noncomputable def MonoBSpline.asSpline (m : MonoBSpline) (d : ℕ) (interior : List ℝ) (degree : ℕ) :
    SplineModel d (List Logit) where
  interior := interior
  degree := degree
  row := fun _ basis => m.forwardRow basis

/-- `SurprisalSpline` as a spline model. -/
noncomputable def Surprisal.asSpline (m : Surprisal) (d : ℕ) (interior : List ℝ) (degree : ℕ) :
    SplineModel d (List (List ℝ)) where
  interior := interior
  degree := degree
  row := fun _ basis => .ok (m.probs basis)

/-- `NestedLogit` with B-spline incorrect responses as a spline model (nested_logit.py 174-235): `correct` gives the
probabilities of the correct response model, `coef l b item k` the entries of `all_coef`. -/
noncomputable def nestedSpline (d : ℕ) (interior : List ℝ) (degree : ℕ) (cats keys : List ℕ)
    (correct : (Fin d → ℝ) → List (List ℝ)) (coef : ℕ → ℕ → ℕ → ℕ → ℝ) : SplineModel d (List (List ℝ)) where
  interior := interior
  degree := degree
  row := fun r basis => .ok (nestedProbs (maxCats cats) keys (correct r)
    ((List.range cats.length).map fun i => nestedBsplineRow (maxCats cats) (cats.getD i 0) fun k =>
      ((List.range d).map fun l =>
        ((List.range (splineBases interior degree)).map fun b => basis l b * coef l b i k).sum).sum))

/-- The models for which `MML.fit` calls `precompute_basis` (mml.py 190-191). The second disjunct of the source repeats
`MonotoneBSpline`, so that `SurprisalSpline` is left out. -/
inductive SplineKind
  | monotone | surprisal | nestedBspline
  deriving DecidableEq

/-- mml.py 190. -/
def SplineKind.precomputes : SplineKind → Bool
  | .monotone | .nestedBspline => true
  | .surprisal => false

/-- `model(latent_combos)` in the MML training step (mml.py 286), by kind of spline model. -/
noncomputable def SplineModel.call {d : ℕ} {Out : Type} (m : SplineModel d Out) (k : SplineKind) (theta : Thetas d) :
    Except PyErr (List Out) :=
  match k with
  | .nestedBspline => m.forwardNested theta
  | _ => m.forward theta

/-- mml.py 190-191: the model during the epochs of an MML fit with the quadrature points `points`. -/
noncomputable def SplineModel.duringMml {d : ℕ} {Out : Type} (m : SplineModel d Out) (k : SplineKind)
    (points : Thetas d) : SplineModel d Out :=
  if k.precomputes then m.precomputeBasis points else m

/-- mml.py 229-231: the model after the epochs. -/
def SplineModel.afterMml {d : ℕ} {Out : Type} (m : SplineModel d Out) (k : SplineKind) : SplineModel d Out :=
  if k.precomputes then m.clearBasis else m

/-- torch_modules/b_spline.py 21-58 `backward`: `(grad_output * d_basis_dx).sum(dim=-1)`, where
`dB b x = b_spline_basis_derivative(x, knots, degree, order=1)[b]` is computed by splinetorch; the gradients of the knots
and of the degree are `None`. -/
noncomputable def splineBackward (nb : ℕ) (dB : ℕ → ℝ → ℝ) (xs : List ℝ) (grad : ℕ → ℕ → ℝ) : List ℝ :=
  (List.range xs.length).map fun p => ((List.range nb).map fun b => grad p b * dB b (xs.getD p 0)).sum

end Irt
