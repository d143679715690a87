import Verif.Model.LatentFunctions
import Verif.Model.Mixture
import Verif.Model.Splits

/-!
# `irtorch/quantile_mv_normal.py` and the density approximation of the evaluator
-/

namespace Irt

/-- A fitted `QuantileMVNormal` (quantile_mv_normal.py 21-23). -/
structure QuantileNormal (n d : ℕ) where
  data : Fin n → Fin d → ℝ
  qtData : Fin n → Fin d → ℝ
  mean : Fin d → ℝ
  cov : Matrix (Fin d) (Fin d) ℝ

/-- quantile_mv_normal.py 57-60: the mean and the covariance with denominator `n - 1`. -/
noncomputable def scoreMean {n d : ℕ} (data : Fin n → Fin d → ℝ) : Fin d → ℝ := fun k => (∑ i, data i k) / n

/-- quantile_mv_normal.py 58-59. -/
noncomputable def scoreCov {n d : ℕ} (data : Fin n → Fin d → ℝ) : Matrix (Fin d) (Fin d) ℝ :=
  Matrix.of fun a b => (∑ i, (data i a - scoreMean data a) * (data i b - scoreMean data b)) / ((n : ℝ) - 1)

open Classical in
/-- quantile_mv_normal.py 25-60 `fit`; the constructor of `MultivariateNormal` refuses a covariance that is not positive
definite (with one row the entries are NaN in the code and zero here, refused in both cases). -/
noncomputable def quantileFit {n d : ℕ} (argsort : (Fin n → ℝ) → Fin n → Fin n) (icdf : ℝ → ℝ) (data : Fin n → Fin d → ℝ) :
    Except PyErr (QuantileNormal n d) :=
  let qt : Fin n → Fin d → ℝ := fun i k => quantileTransform argsort icdf (fun r => data r k) i
  if (scoreCov qt).PosDef then .ok ⟨data, qt, scoreMean qt, scoreCov qt⟩ else .error .valueError

/-- quantile_mv_normal.py 76-80 `pdf` at one point; `none` if a coordinate is not finite. -/
noncomputable def QuantileNormal.pdf {n d : ℕ} (q : QuantileNormal n d) (x : Fin d → ℝ) : Except PyErr Num := do
  let coords ← (List.finRange d).mapM fun k => interp (List.ofFn fun i => (q.data i k, q.qtData i k)) (x k)
  return (coords.mapM id).map fun z => Real.exp (mvnLogDensity q.mean q.cov fun k => z.getD k 0)

/-! ## `_cv_gaussian_mixture_model` (evaluator.py 109-140) -/

/-- A list of rows as a tensor. -/
def rowsTensor {d : ℕ} (rows : List (Fin d → ℝ)) : Fin rows.length → Fin d → ℝ := fun i => rows.get i

/-- evaluator.py 121-122, 131-136: a mixture with `K` components, constructed with random means and fitted with the default
of 100 iterations. -/
noncomputable def fitMixture {d : ℕ} (K : ℕ) (randn : Fin K → Fin d → ℝ) (rows : List (Fin d → ℝ)) :
    Except PyErr (GMM K d) := do
  let g ← gmmInit K d randn
  gmmFit g (rowsTensor rows) 100

/-- evaluator.py 118-125: the log likelihood of fold `i` under a mixture fitted to the other folds. `torch.cat` refuses an
empty list. `randn i` are the random means of that fit. -/
noncomputable def foldLogLik {d : ℕ} (K : ℕ) (randn : ℕ → Fin K → Fin d → ℝ) (chunks : List (List (Fin d → ℝ))) (i : ℕ) :
    Except PyErr ℝ := do
  let others := chunks.eraseIdx i
  if others = [] then throw .runtimeError
  let g ← fitMixture K (randn i) others.flatten
  gmmForward g (rowsTensor (chunks.getD i []))

/-- evaluator.py 115-128: the average over five places, of which those without a fold keep their zero. -/
noncomputable def averageFoldLogLik {d : ℕ} (K : ℕ) (randn : ℕ → Fin K → Fin d → ℝ) (data : List (Fin d → ℝ)) :
    Except PyErr ℝ := do
  let chunks ← torchChunk data 5
  let lls ← (List.range chunks.length).mapM (foldLogLik K randn chunks)
  return ((lls ++ List.replicate (5 - lls.length) 0).sum) / 5

/-- evaluator.py 110-130, 134: the number of components. `argmax` is torch's; `cvRandn j K` are the random means of the folds
for the `j`-th entry of the list. -/
noncomputable def selectComponents {d : ℕ} (argmax : List ℝ → ℕ) (cvRandn : ℕ → (K : ℕ) → ℕ → Fin K → Fin d → ℝ)
    (data : List (Fin d → ℝ)) (components : List ℕ) : Except PyErr ℕ :=
  if 1 < components.length then do
    let averages ← components.zipIdx.mapM fun p => averageFoldLogLik p.1 (cvRandn p.2 p.1) data
    match components[argmax averages]? with
    | some K => return K
    | none => throw .indexError
  else
    match components[0]? with
    | some K => .ok K
    | none => .error .indexError

/-- evaluator.py 109-137 `_cv_gaussian_mixture_model`; `randn K` are the random means of the final fit. -/
noncomputable def cvMixture {d : ℕ} (argmax : List ℝ → ℕ) (cvRandn : ℕ → (K : ℕ) → ℕ → Fin K → Fin d → ℝ)
    (randn : (K : ℕ) → Fin K → Fin d → ℝ) (data : List (Fin d → ℝ)) (components : List ℕ) :
    Except PyErr ((K : ℕ) × GMM K d) := do
  let K ← selectComponents argmax cvRandn data components
  let g ← fitMixture K (randn K) data
  return ⟨K, g⟩

/-- evaluator.py 98-107 `approximate_latent_density`: which approximation is fitted. -/
noncomputable def approximateDensity {d : ℕ} (argmax : List ℝ → ℕ) (cvRandn : ℕ → (K : ℕ) → ℕ → Fin K → Fin d → ℝ)
    (randn : (K : ℕ) → Fin K → Fin d → ℝ) (argsort : {n : ℕ} → (Fin n → ℝ) → Fin n → Fin n) (icdf : ℝ → ℝ)
    (scores : List (Fin d → ℝ)) (approximation : String) (components : Option (List ℕ)) :
    Except PyErr (QuantileNormal scores.length d ⊕ (K : ℕ) × GMM K d) :=
  if approximation = "gmm" then
    (cvMixture argmax cvRandn randn scores (components.getD [2, 3, 4, 5, 10])).map .inr
  else if approximation = "qmvn" then (quantileFit argsort icdf (rowsTensor scores)).map .inl
  else .error .valueError

end Irt
