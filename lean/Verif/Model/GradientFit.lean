import Verif.Model.Training
import Verif.Model.MmlSetup
import Verif.Model.Scorers
import Mathlib.Analysis.Calculus.Deriv.Basic
import Mathlib.Analysis.SpecialFunctions.Sqrt

/-!
# Fitting the slopes and intercepts by gradient steps

`irtorch/estimation_algorithms/mml.py` 87-150, 196-236, 267-283: `Adam` updates every entry of the parameters from the
partial derivative of the loss with respect to that entry. The rule for one entry is an argument of the model, so that the
theorems hold for every optimiser that treats the entries alike; `adamRule` is the one the code asks for.
-/

namespace Irt

/-- `optimizer.step()` for one entry of a parameter: learning rate, optimiser state of the entry, value, partial derivative; gives
the new state and value. -/
abbrev EntryRule (A : Type) := ℝ → A → ℝ → ℝ → A × ℝ

/-- State of `torch.optim.Adam(amsgrad=True)` for one entry: `step`, `exp_avg`, `exp_avg_sq`, `max_exp_avg_sq`. -/
structure AdamState where
  step : ℕ := 0
  avg : ℝ := 0
  avgSq : ℝ := 0
  maxSq : ℝ := 0

/-- mml.py 110-112: `torch.optim.Adam(..., amsgrad=True)` with its default `betas=(0.9, 0.999)`, `eps=1e-8`, no weight decay. (Library
code, written from its documentation.) -/
noncomputable def adamRule : EntryRule AdamState := fun lr a v g =>
  let step := a.step + 1
  let avg := 0.9 * a.avg + 0.1 * g
  let avgSq := 0.999 * a.avgSq + 0.001 * g ^ 2
  let maxSq := max a.maxSq avgSq
  let denom := Real.sqrt maxSq / Real.sqrt (1 - 0.999 ^ step) + 1e-8
  ({ step, avg, avgSq, maxSq }, v - lr / (1 - 0.9 ^ step) * avg / denom)

/-- The trained parameters: `weight_param` and the other parameters of the model, every entry with its optimiser state. -/
structure FitState (A : Type) where
  weight : List (ℝ × A)
  rest : List (ℝ × A)

/-- Value of a loss as a number, for differentiation. (Errors and NaN do not occur where the theorems use it.) -/
noncomputable def lossValue : Except PyErr Num → ℝ
  | .ok (some x) => x
  | _ => 0

/-- `loss.backward()` for entry `i` of a parameter `p`: the partial derivative of the loss. -/
noncomputable def partialAt (loss : List ℝ → Except PyErr Num) (p : List ℝ) (i : ℕ) : ℝ :=
  deriv (fun x => lossValue (loss (p.set i x))) (p.getD i 0)

/-- mml.py 267-283 `_train_step` with the optimiser: the loss at the current parameters, and one step of the rule for every entry. The
optimiser is told the iteration number (`rule i`). -/
noncomputable def gradientTrainer {A : Type} (loss : List ℝ → List ℝ → Except PyErr Num) (rule : ℕ → EntryRule A) :
    Trainer (FitState A) where
  loss := fun _ _ s => loss (s.weight.map Prod.fst) (s.rest.map Prod.fst)
  update := fun i _ lr s =>
    let w := s.weight.map Prod.fst
    let r := s.rest.map Prod.fst
    let stepOf (l : List ℝ → Except PyErr Num) (p : List ℝ) (k : ℕ) (e : ℝ × A) : ℝ × A :=
      let u := rule i lr e.2 e.1 (partialAt l p k)
      (u.2, u.1)
    { weight := s.weight.mapIdx (stepOf (fun p => loss p r) w)
      rest := s.rest.mapIdx (stepOf (fun p => loss w p) r) }

/-- mml.py 183-236: training from starting values; gives the parameters of the best epoch. -/
noncomputable def gradientFit {A : Type} (loss : List ℝ → List ℝ → Except PyErr Num) (rule : ℕ → EntryRule A) (a₀ : A)
    (c : TrainConfig) (lr : ℝ) (respondents maxEpochs : ℕ) (weight rest : List ℝ) : Except PyErr (List ℝ × List ℝ) :=
  match mmlEpochs (gradientTrainer loss rule) c (List.range respondents) maxEpochs
      (LoopState.start lr ⟨weight.map fun v => (v, a₀), rest.map fun v => (v, a₀)⟩) with
  | .error (e, _) => .error e
  | .ok st => .ok (st.final.weight.map Prod.fst, st.final.rest.map Prod.fst)

/-- What an estimation by MML is given besides the model and the data: the library functions, the optimiser, and the arguments of
`fit` (mml.py 53-66). -/
structure MmlSettings (d : ℕ) (A : Type) where
  hermgauss : ℕ → Except PyErr (List ℝ × List ℝ)
  cholesky : Matrix (Fin d) (Fin d) ℝ → Except PyErr (Matrix (Fin d) (Fin d) ℝ)
  rule : ℕ → EntryRule A
  start : A
  config : TrainConfig
  lr : ℝ
  maxEpochs : ℕ
  method : String
  points : Option ℕ

/-- mml.py 87-150 `fit` of a parameterised model `scorer weight rest` with the default covariance matrix. -/
noncomputable def MmlSettings.fit {d : ℕ} {A : Type} (S : MmlSettings d A) (scorer : List ℝ → List ℝ → Scorer d)
    (data : List (List Cell)) (weight rest : List ℝ) : Except PyErr (List ℝ × List ℝ) := do
  let (pts, lw) ← mmlIntegration S.hermgauss S.cholesky S.method S.points none
  gradientFit (fun w r => mmlLoss (scorer w r) data pts lw) S.rule S.start S.config S.lr data.length S.maxEpochs weight rest

/-- `TwoParameterLogistic(latent_variables=d, items=items)` (two_parameter_logistic.py 56-88) fitted by `MML`. -/
noncomputable def TwoPL.fitMml {d : ℕ} {A : Type} (S : MmlSettings d A) (items : ℕ) (data : List (List Cell)) :
    Except PyErr TwoPL := do
  let m ← TwoPL.init items d none
  let (w, r) ← S.fit (fun w r => ({ m with weight := w, bias := r } : TwoPL).scorer d) data m.weight m.bias
  return { m with weight := w, bias := r }

/-- three_parameter_logistic.py 52-85: constructor and `reset_parameters` (weights 1, biases 0, `guessing_param` -1.1). -/
noncomputable def ThreePL.init (items lv : ℕ) (rel : Option (List (List Bool))) : Except PyErr ThreePL := do
  let r ← checkRelationships items lv rel
  return { items, lv, rel := r, weight := List.replicate (countTrue r.flatten) 1,
           bias := List.replicate items 0, guessing := List.replicate items (-1.1) }

/-- `ThreeParameterLogistic(latent_variables=d, items=items)` fitted by `MML`; the other parameters are the biases followed by the
guessing parameters. -/
noncomputable def ThreePL.fitMml {d : ℕ} {A : Type} (S : MmlSettings d A) (items : ℕ) (data : List (List Cell)) :
    Except PyErr ThreePL := do
  let m ← ThreePL.init items d none
  let (w, r) ← S.fit (fun w r => ({ m with weight := w, bias := r.take items, guessing := r.drop items } : ThreePL).scorer d)
    data m.weight (m.bias ++ m.guessing)
  return { m with weight := w, bias := r.take items, guessing := r.drop items }

/-- `GeneralizedPartialCredit(latent_variables=d, item_categories=cats)` (generalized_partial_credit.py 49-101) fitted by `MML`. -/
noncomputable def GPC.fitMml {d : ℕ} {A : Type} (S : MmlSettings d A) (cats : List ℕ) (data : List (List Cell)) :
    Except PyErr GPC := do
  let m ← GPC.init d cats none
  let (w, r) ← S.fit (fun w r => ({ m with weight := w, bias := r } : GPC).scorer d) data m.weight m.bias
  return { m with weight := w, bias := r }

end Irt
