import Verif.Model.Scoring
import Verif.Model.Data
import Verif.Model.Information

/-!
# `latent_scores`: `irtorch/models/base_irt_model.py` 543-646, 787-803

The encoder network and the LBFGS optimiser are parameters.
-/

namespace Irt

/-- A response as an integer (`.long()`, used by `log_likelihood`). -/
noncomputable def numToCell : Num → Cell
  | none => none
  | some x => some (truncInt x)

/-- A fitted model as `latent_scores` sees it. `encode` is `algorithm.theta_scores`, `meanSe` is
`algorithm.latent_mean_se` (vae.py 407-409, mean and standard error of each latent variable), `optimise` the
LBFGS optimisation of lines 806-846, given the prior covariance for MAP and `none` for ML. `permutation` and
`draw` are the random draws of the starting values and of the imputation. -/
structure FittedModel (d : ℕ) where
  scorer : Scorer d
  cats : List ℕ
  attrs : AlgAttrs d
  probs : (Fin d → ℝ) → List (List ℝ)
  scales : List (Scale d)
  encode : List (List Num) → Thetas d
  meanSe : List (List Num) → List ((Fin d → ℝ) × (Fin d → ℝ))
  optimise : Option (Matrix (Fin d) (Fin d) ℝ) → List (List Cell) → Thetas d → Thetas d
  permutation : List ℕ
  draw : ℕ → ℕ → ℕ

open Classical in
/-- base_irt_model.py 788-799: the prior covariance of MAP. A covariance that `MultivariateNormal` refuses, and
`None.to`, raise inside the `try` before the loop variable `i` exists, so that the handler (line 849) raises
`UnboundLocalError`, a `NameError`; without any covariance `prior_density` is unbound in the closure (line 829), a
`NameError` as well. -/
noncomputable def mapPrior {d : ℕ} (a : AlgAttrs d) : Except PyErr (Matrix (Fin d) (Fin d) ℝ) :=
  match a.trainingThetas with
  | some (some ts) => if (sampleCov ts).PosDef then .ok (sampleCov ts) else .error .nameError
  | _ =>
    match a.covariance with
    | some (some c) => if c.PosDef then .ok c else .error .nameError
    | _ => .error .nameError

/-- base_irt_model.py 787-857 `_ml_map_theta_scores`. -/
noncomputable def mlMapScores {d : ℕ} (f : FittedModel d) (method : String) (data : List (List Cell))
    (start : Thetas d) : Except PyErr (Thetas d) :=
  if method = "MAP" then do
    let c ← mapPrior f.attrs
    return f.optimise (some c) data start
  else .ok (f.optimise none data start)

/-- base_irt_model.py 597-621: the encoder's scores, or the starting values of the optimiser; with the input
of the encoder. -/
noncomputable def startScores {d : ℕ} (f : FittedModel d) (width : ℕ) (data : List (List Num)) :
    Except PyErr (Thetas d × Option (List (List Num))) :=
  match f.attrs.oneHotEncoded with
  | some oneHot => do
    let input ← (latentScoresEncoderInput width f.cats oneHot (f.attrs.imputationMethod.getD none) data f.draw).1
    return (f.encode input, some input)
  | none =>
    match f.attrs.trainingThetas with
    | some (some ts) =>
      .ok (initialTheta f.scorer (data.map fun r => r.map numToCell) ts f.permutation, none)
    | _ => .ok (List.replicate data.length fun _ => 0, none)

/-- base_irt_model.py 583-627: the scores before rescaling and the encoder input. The scores are `none` if a score
is NaN. -/
noncomputable def rawScores {d : ℕ} (f : FittedModel d) (width : ℕ) (data : List (List Num)) (method : String)
    (standardErrors : Bool) (points : Option ℕ) :
    Except PyErr (Option (Thetas d) × Option (List (List Num))) :=
  if method ∉ ["NN", "ML", "EAP", "MAP"] then .error .valueError
  else if standardErrors = true ∧ method ∉ ["ML", "NN"] then .error .valueError
  else if f.attrs.hasEncoder = false ∧ method = "NN" then .error .valueError
  else if method = "EAP" then do
    let s ← eapScores f.scorer f.attrs (data.map fun r => r.map numToCell) points
    return (s.mapM id, none)
  else do
    let (start, input) ← startScores f width data
    if method ∈ ["ML", "MAP"] then
      let s ← mlMapScores f method (data.map fun r => r.map numToCell) start
      return (some s, input)
    else return (some start, input)

/-- base_irt_model.py 629-632: rescaling of the scores to be returned. -/
def rescaleScores {d : ℕ} (f : FittedModel d) (rescale : Bool) (theta : Option (Thetas d)) :
    Except PyErr (Option (Thetas d)) :=
  match theta with
  | none => .ok none
  | some t =>
    if rescale && !f.scales.isEmpty then do
      let t' ← transformTheta f.scales t
      return some t'
    else .ok (some t)

/-- `1 / sqrt(x)`; `none` is infinity. -/
noncomputable def invSqrt (x : ℝ) : Option ℝ := if x = 0 then none else some (1 / Real.sqrt x)

/-- base_irt_model.py 638-641: delta method, `sqrt(einsum("ij,jk,ik->i", J, diag(se)², J))`. -/
noncomputable def deltaSe {d : ℕ} (J : Matrix (Fin d) (Fin d) ℝ) (se : Fin d → ℝ) : Fin d → ℝ :=
  fun i => Real.sqrt (∑ j, ∑ k, J i j * (Matrix.diagonal fun l => se l ^ 2 : Matrix (Fin d) (Fin d) ℝ) j k * J i k)

/-- base_irt_model.py 635-644: the standard errors, for scores `theta` and encoder input `input`; an entry is
`none` when it is infinite. The variational autoencoder's own standard errors are used with NN; otherwise the
reciprocal square roots of the diagonal of the information matrix. -/
noncomputable def standardErrorsOf {d : ℕ} (f : FittedModel d) (method : String) (rescale : Bool)
    (theta : Thetas d) (input : Option (List (List Num))) : Except PyErr (List (Fin d → Option ℝ)) :=
  if f.attrs.hasMeanSe = true ∧ method = "NN" then do
    let ms := f.meanSe (input.getD [])
    if rescale && !f.scales.isEmpty then
      let js ← thetaTransformJacobian f.scales (ms.map Prod.fst)
      return List.zipWith (fun J (p : (Fin d → ℝ) × (Fin d → ℝ)) => fun k => some (deltaSe J p.2 k)) js ms
    else return ms.map fun p k => some (p.2 k)
  else do
    let info ← information f.probs f.cats.length (maxCats f.cats) f.scales false none rescale theta
    match info with
    | .test ms => return ms.map fun I k => invSqrt (I k k)
    | _ => .error .runtimeError

/-- base_irt_model.py 583-646 `latent_scores`: the scores (`none` if one is NaN) and the standard errors if asked
for. -/
noncomputable def latentScores {d : ℕ} (f : FittedModel d) (width : ℕ) (data : List (List Num)) (method : String)
    (standardErrors rescale : Bool) (points : Option ℕ) :
    Except PyErr (Option (Thetas d) × Option (List (Fin d → Option ℝ))) := do
  let (theta, input) ← rawScores f width data method standardErrors points
  let out ← rescaleScores f rescale theta
  if standardErrors then
    let se ← standardErrorsOf f method rescale (theta.getD []) input
    return (out, some se)
  else return (out, none)

end Irt
