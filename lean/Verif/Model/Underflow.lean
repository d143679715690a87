import Verif.Model.Scoring
import Verif.Model.Logistic
import Verif.Model.Scorers

/-!
# Marginal likelihood and EAP scores with a floating point exponential

The other model files use the exponential function of the real numbers. Here the exponential is a parameter `E`, and so
is the sigmoid `S` of the three parameter logistic model, in order to follow values that are rounded to zero (underflow)
or to one (saturation). All other operations stay exact; overflow is not modelled (a log density above 709).
-/

namespace Irt

/-- `.exp()` of a log likelihood with the exponential `E` (`exp(-inf) = 0`). -/
def Logit.expWith (E : ℝ → ℝ) : Logit → ℝ
  | .negInf => 0
  | .fin x => E x

/-- base_irt_model.py 904-935: as `eapOnGrid`, with the exponential of lines 928-929 (`.to(float64).exp()`, without a
shift) given by `E`. -/
noncomputable def eapOnGridWith (E : ℝ → ℝ) {d : ℕ} (m : Scorer d) (data : List (List Cell)) (grid : Thetas d)
    (cov : Matrix (Fin d) (Fin d) ℝ) : Except PyErr (List (Option (Fin d → ℝ))) := do
  let logPrior ← mvnLogProbs 0 cov grid
  let lls ← respondentMajorLL m data grid
  if grid.length = 0 then .error .runtimeError
  else
    let logPosterior := List.zipWith (fun p l => Logit.add (.fin p) l) (tile data.length logPrior) lls
    let exps := (view grid.length logPosterior).map fun r => r.map (Logit.expWith E)
    let posterior := (exps.map fun r => r.map fun e => nanDiv e r.sum).flatten
    let times := List.zipWith (fun (θ : Fin d → ℝ) p => p.map fun q => fun k => θ k * q)
      (tile data.length grid) posterior
    return (view grid.length times).map fun rows => (rows.mapM id).map List.sum

/-- base_irt_model.py 876-935 `_eap_theta_scores` with the exponential `E`. -/
noncomputable def eapScoresWith (E : ℝ → ℝ) {d : ℕ} (m : Scorer d) (a : AlgAttrs d) (data : List (List Cell))
    (points : Option ℕ) : Except PyErr (List (Option (Fin d → ℝ))) :=
  if 4 < d then .error .valueError
  else do
    let (grid, cov) ← eapGrid a (points.getD (eapDefaultPoints d))
    eapOnGridWith E m data grid cov

/-- mml.py 274-277 for one respondent with the exponential `E`: the largest entry is subtracted first. -/
noncomputable def shiftedLogSumExpWith (E : ℝ → ℝ) (col : List Logit) : Option ℝ :=
  let xs := col.filterMap Logit.finite?
  if xs = [] then none
  else
    let c := columnMax xs
    some (Real.log ((xs.map fun x => E (x - c)).sum) + c)

/-- mml.py 183-186, 267-279: the loss of `_train_step` with the exponential `E`. -/
noncomputable def mmlLossWith (E : ℝ → ℝ) {d : ℕ} (m : Scorer d) (data : List (List Cell)) (points : Thetas d)
    (logWeights : List ℝ) : Except PyErr (Option ℝ) := do
  let lls ← pointMajorLL m data points
  let lw := repeatInterleave data.length logWeights
  let sums := List.zipWith (fun w l => Logit.add (.fin w) l) lw lls
  let rows := viewRows points.length data.length sums
  let perRespondent := (List.range data.length).mapM fun i =>
    shiftedLogSumExpWith E (rows.map fun r => r.getD i .negInf)
  return perRespondent.map fun vs => -vs.sum

/-- three_parameter_logistic.py 101-111 and 128-129 for one respondent with the sigmoid `S`. -/
noncomputable def ThreePL.probsWith (S : ℝ → ℝ) (m : ThreePL) (theta : List ℝ) : List (List ℝ) :=
  let wt := m.weights.map fun w => dot theta w
  let ps := (List.zipWith (· + ·) wt m.bias).map S
  let gs := m.guessing.map S
  (List.zipWith (fun p g => p * (1 - g) + g) ps gs).map fun p => [1 - p, p]

/-- The three parameter logistic model with the sigmoid `S` as the scoring code sees it
(three_parameter_logistic.py 157-176: `probabilities[...].log()`). -/
noncomputable def ThreePL.scorerWith (S : ℝ → ℝ) (m : ThreePL) (d : ℕ) : Scorer d :=
  tableScorer m.items fun θ => m.probsWith S (List.ofFn θ)

end Irt
