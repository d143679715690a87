import Verif.Model.Base
import Verif.Model.Mixture
import Verif.Model.Rescale
import Verif.Model.Composite

/-!
# Latent score estimation: `irtorch/models/base_irt_model.py` 583-969 and the likelihood tables used there
and in `irtorch/estimation_algorithms/mml.py`

A fitted model is seen through its two row-wise operations: `forward` (the output of one latent score
vector) and `log_likelihood` with `loss_reduction="none"`.
-/

namespace Irt

/-- What the scoring code uses of a model with `d` latent variables. `logLik outs data mask` is
`model.log_likelihood(data, outs, mask, loss_reduction="none")` on flattened data and mask: one value per
cell, `none` for NaN. -/
structure Scorer (d : ℕ) where
  Out : Type
  items : ℕ
  forward : (Fin d → ℝ) → Out
  logLik : List Out → List Cell → List Bool → Except PyErr (List (Option Logit))

/-- _internal_utils.py 390 `get_missing_mask` and irt_dataset.py 37: NaN or -1. -/
def cellMissing : Cell → Bool
  | none => true
  | some y => decide (y = -1)

/-- `.nansum()` of one row of log likelihoods. -/
noncomputable def nansum (row : List (Option Logit)) : Logit := Logit.sum (row.filterMap id)

/-- `lls.view(-1, items).nansum(dim=1)` (base_irt_model.py 671, 919; mml.py 272). -/
noncomputable def sumItems (items : ℕ) (ll : List (Option Logit)) : List Logit := (view items ll).map nansum

/-- base_irt_model.py 911-919 (and 664-671): the log likelihood of every respondent at every point, the
points varying fastest. -/
noncomputable def respondentMajorLL {d : ℕ} (m : Scorer d) (data : List (List Cell)) (grid : Thetas d) :
    Except PyErr (List Logit) := do
  let logits := grid.map m.forward
  let repData := repeatInterleave grid.length data
  let repLogits := tile data.length logits
  let mask := repData.map fun r => r.map cellMissing
  let ll ← m.logLik repLogits repData.flatten mask.flatten
  return sumItems m.items ll

open Classical in
/-- `MultivariateNormal(mean, cov).log_prob(points)` for a list of points. -/
noncomputable def mvnLogProbs {d : ℕ} (mean : Fin d → ℝ) (cov : Matrix (Fin d) (Fin d) ℝ) (pts : Thetas d) :
    Except PyErr (List ℝ) :=
  if cov.PosDef then .ok (pts.map (mvnLogDensity mean cov)) else .error .valueError

/-- Division that is NaN for a zero denominator (used where the numerator is then zero too). -/
noncomputable def nanDiv (a b : ℝ) : Option ℝ := if b = 0 then none else some (a / b)

/-- base_irt_model.py 904-935: the expected a posteriori scores on a grid with a normal prior. A row is
`none` when the posterior of a respondent is NaN. (`view(-1, 0)` raises for an empty grid.) -/
noncomputable def eapOnGrid {d : ℕ} (m : Scorer d) (data : List (List Cell)) (grid : Thetas d)
    (cov : Matrix (Fin d) (Fin d) ℝ) : Except PyErr (List (Option (Fin d → ℝ))) := do
  let logPrior ← mvnLogProbs 0 cov grid
  let lls ← respondentMajorLL m data grid
  if grid.length = 0 then .error .runtimeError
  else
    let logPosterior := List.zipWith (fun p l => Logit.add (.fin p) l) (tile data.length logPrior) lls
    let exps := (view grid.length logPosterior).map fun r => r.map Logit.exp
    let posterior := (exps.map fun r => r.map fun e => nanDiv e r.sum).flatten
    let times := List.zipWith (fun (θ : Fin d → ℝ) p => p.map fun q => fun k => θ k * q)
      (tile data.length grid) posterior
    return (view grid.length times).map fun rows => (rows.mapM id).map List.sum

/-- `torch.linspace(a, b, n)`. -/
noncomputable def linspace (a b : ℝ) (n : ℕ) : List ℝ :=
  (List.range n).map fun i : ℕ => a + (b - a) * i / ((n : ℝ) - 1)

/-- `torch.cartesian_prod(*columns)` reshaped to rows (base_irt_model.py 901, 967-969; mml.py 307): the
last column varies fastest. -/
def cartesianProd : {d : ℕ} → (Fin d → List ℝ) → List (Fin d → ℝ)
  | 0, _ => [Fin.elim0]
  | _ + 1, cols => (cols 0).flatMap fun a => (cartesianProd fun i => cols i.succ).map fun v => Fin.cons a v

/-- `.min(dim=0)` of a nonempty column. -/
noncomputable def columnMin (xs : List ℝ) : ℝ := xs.foldr min (xs.headD 0)

/-- `.max(dim=0)` of a nonempty column. -/
noncomputable def columnMax (xs : List ℝ) : ℝ := xs.foldr max (xs.headD 0)

/-- base_irt_model.py 954-969 `_theta_grid` with the grid size given. (`min` of an empty tensor raises.) -/
noncomputable def thetaGrid {d : ℕ} (scores : Thetas d) (n : ℕ) : Except PyErr (Thetas d) :=
  if scores = [] then .error .indexError
  else .ok (cartesianProd fun k =>
    let lo := columnMin (scores.map fun t => t k)
    let hi := columnMax (scores.map fun t => t k)
    let pm := (hi - lo) * 0.25
    linspace (lo - pm) (hi + pm) n)

/-- base_irt_model.py 892-894: the sample covariance of the training scores (also 791-793). -/
noncomputable def sampleCov {d : ℕ} (scores : Thetas d) : Matrix (Fin d) (Fin d) ℝ :=
  let mean : Fin d → ℝ := fun k => (scores.map fun t => t k).sum / scores.length
  Matrix.of fun a b => (scores.map fun t => (t a - mean a) * (t b - mean b)).sum / ((scores.length : ℝ) - 1)

/-- The attributes of a fitting algorithm that the scoring code looks at. `trainingThetas` is `none` when
the object has no attribute `training_theta_scores`, `some none` when it is `None`; the same convention for
`imputationMethod`; `covariance` is `none` when the attribute does not exist, `some none` when it is
`None`. -/
structure AlgAttrs (d : ℕ) where
  trainingThetas : Option (Option (Thetas d)) := none
  covariance : Option (Option (Matrix (Fin d) (Fin d) ℝ)) := none
  hasEncoder : Bool := false
  oneHotEncoded : Option Bool := none
  imputationMethod : Option (Option String) := none
  hasMeanSe : Bool := false

/-- base_irt_model.py 880-885: the default number of grid points per latent variable. -/
def eapDefaultPoints (d : ℕ) : ℕ :=
  if d = 1 then 200 else if d = 2 then 15 else if d = 3 then 7 else if d = 4 then 5 else 15

/-- base_irt_model.py 887-906: the grid and the prior covariance.
`MultivariateNormal(means, None)` raises `ValueError`. -/
noncomputable def eapGrid {d : ℕ} (a : AlgAttrs d) (points : ℕ) :
    Except PyErr (Thetas d × Matrix (Fin d) (Fin d) ℝ) :=
  match a.trainingThetas with
  | some none => .error .valueError
  | some (some ts) => do
    let g ← thetaGrid ts points
    return (g, sampleCov ts)
  | none =>
    let g := cartesianProd fun _ => linspace (-3) 3 points
    match a.covariance with
    | some none => .error .valueError
    | some (some c) => .ok (g, c)
    | none => .ok (g, 1)

/-- base_irt_model.py 876-935 `_eap_theta_scores`. -/
noncomputable def eapScores {d : ℕ} (m : Scorer d) (a : AlgAttrs d) (data : List (List Cell))
    (points : Option ℕ) : Except PyErr (List (Option (Fin d → ℝ))) :=
  if 4 < d then .error .valueError
  else do
    let (grid, cov) ← eapGrid a (points.getD (eapDefaultPoints d))
    eapOnGrid m data grid cov

/-! ## Starting values -/

/-- `a < b` for log likelihoods, minus infinity being the smallest. -/
noncomputable def Logit.ltb : Logit → Logit → Bool
  | .negInf, .fin _ => true
  | .fin a, .fin b => decide (a < b)
  | _, .negInf => false

/-- `.argmax()` of a row: the first position of the largest entry. -/
noncomputable def argmaxLogit (row : List Logit) : ℕ :=
  ((List.range row.length).foldl (fun best i =>
    match row[best]?, row[i]? with
    | some b, some x => if Logit.ltb b x then i else best
    | _, _ => best) 0)

/-- base_irt_model.py 661-676: the starting value of each respondent among the candidates `thetas`
(all training scores, or the sample drawn for large data). The index arithmetic
`arange(N) * T + argmax` into the `N·T` repeated rows is kept. -/
noncomputable def initialFromCandidates {d : ℕ} (m : Scorer d) (data : List (List Cell)) (thetas : Thetas d) :
    Except PyErr (Thetas d) := do
  let lls ← respondentMajorLL m data thetas
  let rows := viewRows data.length thetas.length lls
  let rep := tile data.length thetas
  (List.range data.length).mapM fun i =>
    match rows[i]? with
    | none => .error .indexError
    | some row =>
      match rep[i * thetas.length + argmaxLogit row]? with
      | some t => .ok t
      | none => .error .indexError

/-- `.median(dim=0).values` of one column: the lower middle value of the sorted column. -/
noncomputable def lowerMedian (xs : List ℝ) : ℝ :=
  (xs.mergeSort (fun a b => decide (a ≤ b))).getD ((xs.length - 1) / 2) 0

/-- base_irt_model.py 648-683 `_initial_theta_from_training_data`. `perm` is the draw of
`torch.randperm`. Any exception gives zeros. -/
noncomputable def initialTheta {d : ℕ} (m : Scorer d) (data : List (List Cell)) (training : Thetas d)
    (perm : List ℕ) : Thetas d :=
  let zeros : Thetas d := List.replicate data.length (fun _ => 0)
  let run : Except PyErr (Thetas d) :=
    if data.length * training.length > 1000000 then
      if data.length > 500000 then
        .ok (List.replicate data.length fun k => lowerMedian (training.map fun t => t k))
      else
        let sampled := (perm.take (1000000 / data.length)).filterMap fun i => training[i]?
        initialFromCandidates m data sampled
    else initialFromCandidates m data training
  match run with
  | .ok t => t
  | .error _ => zeros

/-! ## The MML objective -/

/-- mml.py 183-186, 269-272: the log likelihood of every respondent at every point, the respondents varying
fastest. -/
noncomputable def pointMajorLL {d : ℕ} (m : Scorer d) (data : List (List Cell)) (points : Thetas d) :
    Except PyErr (List Logit) := do
  let grid := repeatInterleave data.length points
  let repData := tile points.length data
  let mask := repData.map fun r => r.map cellMissing
  let ll ← m.logLik (grid.map m.forward) repData.flatten mask.flatten
  return sumItems m.items ll

/-- The value of a finite entry. -/
def Logit.finite? : Logit → Option ℝ
  | .fin v => some v
  | .negInf => none

/-- mml.py 274-277 for one respondent: `log(Σ exp(x - max)) + max` of the column of values at all points.
Entries of minus infinity are not the maximum and contribute `exp(-inf) = 0`; if every entry is minus
infinity then `x - max` is NaN and so is the result (`none`). -/
noncomputable def shiftedLogSumExp (col : List Logit) : Option ℝ :=
  let xs := col.filterMap Logit.finite?
  if xs = [] then none
  else
    let c := columnMax xs
    some (Real.log ((xs.map fun x => Real.exp (x - c)).sum) + c)

/-- mml.py 183-186, 267-279: the loss of `_train_step`; `none` is NaN. `log_weights` is repeated like the
points. -/
noncomputable def mmlLoss {d : ℕ} (m : Scorer d) (data : List (List Cell)) (points : Thetas d)
    (logWeights : List ℝ) : Except PyErr (Option ℝ) := do
  let lls ← pointMajorLL m data points
  let lw := repeatInterleave data.length logWeights
  let sums := List.zipWith (fun w l => Logit.add (.fin w) l) lw lls
  let rows := viewRows points.length data.length sums
  let perRespondent := (List.range data.length).mapM fun i =>
    shiftedLogSumExp (rows.map fun r => r.getD i .negInf)
  return perRespondent.map fun vs => -vs.sum

/-! ## Concrete models as scorers -/

/-- A model with the base class's `log_likelihood` (base_irt_model.py 247-264): `forward` gives the flat row
of logits of one respondent. -/
noncomputable def softmaxScorer {d : ℕ} (items M : ℕ) (forward : (Fin d → ℝ) → List Logit) : Scorer d where
  Out := List Logit
  items := items
  forward := forward
  logLik := fun outs data mask =>
    baseLogLikelihood (viewRows (outs.length * items) M outs.flatten) data (some mask) .none >>= LL.toCells

/-- A model that looks the responses up in its probability table (three_parameter_logistic.py 157-176,
graded_response.py 193-214); the output is identified with the table computed from it. -/
noncomputable def tableScorer {d : ℕ} (items : ℕ) (probs : (Fin d → ℝ) → List (List ℝ)) : Scorer d where
  Out := List (List ℝ)
  items := items
  forward := probs
  logLik := fun outs data mask =>
    tableLogLikelihood outs.flatten data (some mask) .none >>= LL.toCells

/-! ## What the estimation algorithms leave behind -/

/-- The four estimation algorithms. -/
inductive Algorithm
  | mml | jml | ae | vae
  deriving DecidableEq

/-- The attributes that scoring looks at after a completed `fit`.
base_irt_algorithm.py 13-14 sets `training_theta_scores = None` for every algorithm; jml.py 121-127 and
ae.py 148-160 / vae.py 148-162 replace it by the scores of the training data; mml.py never does.
mml.py 96-102 stores `covariance_matrix`; ae.py 29-34, 100-102 stores `one_hot_encoded` and
`imputation_method`; vae.py 84-162 stores `one_hot_encoded` only, so that `imputation_method` keeps the
`None` of the constructor (ae.py 33). `ts` are the training scores, `cov` the covariance used by MML,
`oneHot` and `imputation` the arguments of `fit`. -/
def Algorithm.afterFit {d : ℕ} (alg : Algorithm) (ts : Thetas d) (cov : Matrix (Fin d) (Fin d) ℝ)
    (oneHot : Bool) (imputation : Option String) : AlgAttrs d :=
  match alg with
  | .mml => { trainingThetas := some none, covariance := some (some cov) }
  | .jml => { trainingThetas := some (some ts), covariance := some none }
  | .ae => { trainingThetas := some (some ts), hasEncoder := true, oneHotEncoded := some oneHot
             imputationMethod := some imputation }
  | .vae => { trainingThetas := some (some ts), hasEncoder := true, oneHotEncoded := some oneHot
              imputationMethod := some none, hasMeanSe := true }

end Irt
