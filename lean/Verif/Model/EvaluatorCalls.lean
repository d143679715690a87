import Verif.Model.Dependence
import Verif.Model.Lifecycle

/-!
# Calls of the evaluator one after the other: `irtorch/evaluator.py` 37-70 and the methods that use it

`Model/Evaluator.lean` and `Model/Dependence.lean` give the numbers that the methods compute from a data matrix and a
matrix of latent scores. Here a method is called on a tensor of the user, or without data, with or without scores, and
the tensors are objects that calls write to. Simplifications: responses are whole numbers (or NaN); the keyword
arguments passed on to `latent_scores` are `theta_estimation` and `eap_theta_integration_points`; tests with simulated
data (`sample_hypothesis_test`) are not asked for; random draws are the same in every call.
-/

namespace Irt

/-- What does not change between calls: `torch.argmax` on a row, the second result of `torch.sort`, and the answer key
of the model. -/
structure EvalEnv where
  argmax : List ℝ → ℕ
  sort : List ℝ → List ℕ
  mc : Option (List ℤ)

/-- The methods of `Evaluator` that take data and scores, with their other arguments. -/
inductive Evaluation (d : ℕ)
  | residuals (averageOver : String)
  | groupFitResiduals (groups : ℤ) (k : Fin d) (rescale standardize : Bool)
  | accuracy (level : String)
  | predictions
  | infitOutfit (level : String)
  | logLikelihood (reduction level : String)
  | groupFitLogLikelihood (groups : ℕ) (k : Fin d)
  | latentGroupProbabilities (groups : ℤ) (k : Fin d) (rescale : Bool)
  | mutualInformationDifference (base : ℝ)
  | q3

/-- What a call returns. `nanScores` stands for whatever is computed from a matrix of scores with a NaN. -/
inductive Evaluated
  | numbers (r : Reduced)
  | groupResiduals (r : List (List (List Num))) (mids : List Num)
  | table (rows : List ItemMetrics)
  | fit (infit outfit : List Num)
  | groupFit (xs : List (Option Logit))
  | groups (g : GroupProbabilities)
  | information (p : ℕ) (mid amid : Fin p → Fin p → ℝ)
  | correlations (p : ℕ) (q : Fin p → Fin p → Num)
  | nanScores

/-- The responses as integers. -/
noncomputable def cellRows (data : List (List Num)) : List (List Cell) := data.map fun r => r.map numToCell

/-- The bodies of the methods after `_evaluate_data_theta_input`: residuals 174-196, group_fit_residuals 242-266, accuracy
298-309, predictions 354-391, infit_outfit 449-478, log_likelihood 515-538, group_fit_log_likelihood 576-596,
latent_group_probabilities 639-670, mutual_information_difference 724-750, q3 888-890. `given` tells whether the caller
passed data (group_fit_residuals looks at its own argument, line 256). -/
noncomputable def Evaluation.value {d : ℕ} (env : EvalEnv) (f : FittedModel d) (given : Bool) (data : List (List Num))
    (theta : Thetas d) : Evaluation d → Except PyErr Evaluated
  | .residuals averageOver =>
    (Irt.residuals (maxCats f.cats) f.cats.length env.mc averageOver (theta.map f.probs) (cellRows data)).map .numbers
  | .groupFitResiduals groups k rescale standardize =>
    (Irt.groupFitResiduals f env.sort k groups rescale standardize theta (cellRows data)
      (if given then some (cellRows data) else none)).map fun r => .groupResiduals r.1 r.2
  | .accuracy level => .ok (.numbers (Irt.accuracy env.argmax f.cats.length level (theta.map f.probs) (cellRows data)))
  | .predictions => .ok (.table (Irt.predictions env.argmax f.cats (theta.map f.probs) (cellRows data)))
  | .infitOutfit level =>
    (Irt.infitOutfit (maxCats f.cats) f.cats.length env.mc level (theta.map f.probs) (cellRows data)).map fun r =>
      .fit r.1 r.2
  | .logLikelihood reduction level => (evaluatorLogLikelihood f.scorer reduction level theta (cellRows data)).map .numbers
  | .groupFitLogLikelihood groups k =>
    (Irt.groupFitLogLikelihood f.scorer (env.sort (theta.map fun t => t k)) groups theta (cellRows data)).map .groupFit
  | .latentGroupProbabilities groups k rescale =>
    (Irt.latentGroupProbabilities f env.sort k groups rescale theta (cellRows data)).map .groups
  | .mutualInformationDifference base =>
    (Irt.mutualInformationDifference (n := data.length) (p := f.cats.length) base (maxCats f.cats)
      (fun r i => ((cellRows data).getD r []).getD i none) (theta.map f.probs)).map fun r => .information _ r.1 r.2
  | .q3 =>
    (Irt.q3 data.length f.cats.length (maxCats f.cats) env.mc (theta.map f.probs) (cellRows data)).map
      (.correlations f.cats.length)

/-- evaluator.py 175: `data[torch.isnan(data)] = -1` in `residuals`, which `q3` calls on its data (888). -/
def Evaluation.writes {d : ℕ} : Evaluation d → Bool
  | .residuals _ => true
  | .q3 => true
  | _ => false

/-- A call `model.evaluate.method(data, theta, ...)`. `data` names a tensor of the user. -/
structure EvalCall (d : ℕ) where
  data : Option ℕ
  theta : Option (Thetas d)
  method : String
  points : Option ℕ
  what : Evaluation d

/-- What raises before data and scores are looked at: an invalid level (evaluator.py 444-445), and keyword arguments that
`latent_group_probabilities` (605-612, called with them in 242-251) does not have. -/
def EvalCall.refused {d : ℕ} (c : EvalCall d) : Option PyErr :=
  match c.what with
  | .infitOutfit level => if level ∉ ["item", "respondent"] then some .valueError else none
  | .groupFitResiduals _ _ _ _ => if c.points = none then none else some .typeError
  | .latentGroupProbabilities _ _ _ => if c.points = none then none else some .typeError
  | _ => none

/-- A model object, the tensors of the user (content and number of columns), and which of them
`model.algorithm.train_data` is: after a first fit the attribute is the tensor passed to `fit` itself
(base_irt_algorithm.py 32-36). `none`: no algorithm. -/
structure EvalSession (d : ℕ) where
  life : ModelLife d
  store : ℕ → List (List Num)
  width : ℕ → ℕ
  train : Option ℕ

/-- evaluator.py 59-62: the tensor that is evaluated; `None.train_data` raises. -/
def EvalCall.tensor {d : ℕ} (s : EvalSession d) (c : EvalCall d) : Except PyErr ℕ :=
  match c.data with
  | some i => .ok i
  | none =>
    match s.train with
    | some i => .ok i
    | none => .error .attributeError

/-- base_irt_model.py 583-616: the tensor after a call of `latent_scores` (of which the one-hot encoding writes). -/
noncomputable def scoringWrites {d : ℕ} (f : FittedModel d) (width : ℕ) (data : List (List Num)) (method : String) :
    List (List Num) :=
  if method ∉ ["NN", "ML", "EAP", "MAP"] then data
  else if f.attrs.hasEncoder = false ∧ method = "NN" then data
  else if method = "EAP" then data
  else
    match f.attrs.oneHotEncoded with
    | some oneHot => (latentScoresEncoderInput width f.cats oneHot (f.attrs.imputationMethod.getD none) data f.draw).2
    | none => data

/-- evaluator.py 64-66: the scores used, `none` if one is NaN. -/
noncomputable def EvalCall.scores {d : ℕ} (s : EvalSession d) (c : EvalCall d) (i : ℕ) : Except PyErr (Option (Thetas d)) :=
  match c.theta with
  | some t => .ok (some t)
  | none => s.life.latentScores (s.width i) (s.store i) c.method false c.points

/-- The tensor `i` after lines 64-66. -/
noncomputable def EvalCall.scored {d : ℕ} (s : EvalSession d) (c : EvalCall d) (i : ℕ) : List (List Num) :=
  match c.theta with
  | some _ => s.store i
  | none => scoringWrites s.life.now (s.width i) (s.store i) c.method

/-- What a call returns. -/
noncomputable def EvalCall.result {d : ℕ} (env : EvalEnv) (s : EvalSession d) (c : EvalCall d) : Except PyErr Evaluated :=
  match c.refused with
  | some e => .error e
  | none => do
    let i ← c.tensor s
    match ← c.scores s i with
    | none => return .nanScores
    | some t => c.what.value env s.life.now c.data.isSome (c.scored s i) t

/-- The tensors after a call. (A call that raises in the method itself has written before.) -/
noncomputable def EvalCall.after {d : ℕ} (s : EvalSession d) (c : EvalCall d) : EvalSession d :=
  match c.refused with
  | some _ => s
  | none =>
    match c.tensor s with
    | .error _ => s
    | .ok i =>
      match c.scores s i with
      | .error _ => { s with store := Function.update s.store i (c.scored s i) }
      | .ok _ =>
        let data := if c.what.writes then residualsCallerData (c.scored s i) else c.scored s i
        { s with store := Function.update s.store i data }

/-- What a user does between two fits. -/
inductive EvalStep (d : ℕ)
  /-- an evaluation -/
  | evaluate (c : EvalCall d)
  /-- `model.latent_scores(data, theta_estimation=method, rescale=rescale, ...)` (base_irt_model.py 543-646) -/
  | score (i : ℕ) (method : String) (rescale : Bool) (points : Option ℕ)
  /-- base_irt_model.py 118-122 `add_scale_transformation` -/
  | add (scale : LiveScale d)
  /-- base_irt_model.py 124-128 `detach_scale_transformations` -/
  | detach

noncomputable def EvalStep.run {d : ℕ} (s : EvalSession d) : EvalStep d → EvalSession d
  | .evaluate c => c.after s
  | .score i method _ _ =>
    { s with store := Function.update s.store i (scoringWrites s.life.now (s.width i) (s.store i) method) }
  | .add scale => { s with life := LifeStep.run s.life (.add scale) }
  | .detach => { s with life := LifeStep.run s.life .detach }

noncomputable def EvalSession.run {d : ℕ} (s : EvalSession d) (history : List (EvalStep d)) : EvalSession d :=
  history.foldl EvalStep.run s

end Irt
