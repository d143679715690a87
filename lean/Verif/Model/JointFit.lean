import Verif.Model.Joint
import Verif.Model.GradientFit

/-!
# Joint maximum likelihood with gradient steps: `irtorch/estimation_algorithms/jml.py` 60-195

`Verif.Model.Joint` with the update written out: `Adam` over the latent scores of the training data and the parameters of the
model, every entry moved by the same rule from the partial derivative of the loss of the batch.
-/

namespace Irt

/-- `training_theta_scores` (jml.py 87-89) as a table, from its entries in row-major order. -/
def scoreRows (respondents d : ℕ) (r : List ℝ) : Thetas d := (List.range respondents).map fun i k => r.getD (i * d + k) 0

/-- jml.py 155-158: the loss of a batch as a function of the parameters and the latent scores. -/
noncomputable def jmlLoss {d : ℕ} (scorer : List ℝ → Scorer d) (ds : Dataset) (respondents : ℕ) (b : List ℕ) (params scores : List ℝ) :
    Except PyErr Num :=
  (jmlObjective (scorer params) (takeRows (scoreRows respondents d scores) b) (takeRows ds.data b) (takeRows ds.mask b)).map
    fun l => lossOf (some l)

/-- jml.py 91-93, 156-161: `zero_grad`, the loss of the batch, `backward` and one step of the optimiser for every entry, those of
respondents outside the batch included (their partial derivatives are zero). In `FitState` the parameters of the model are `weight`
and the latent scores `rest`. -/
noncomputable def jmlGradientTrainer {d : ℕ} {A : Type} (scorer : List ℝ → Scorer d) (ds : Dataset) (respondents : ℕ)
    (rule : ℕ → EntryRule A) : Trainer (FitState A) where
  loss := fun i b s => (gradientTrainer (jmlLoss scorer ds respondents b) rule).loss i b s
  update := fun i b lr s => (gradientTrainer (jmlLoss scorer ds respondents b) rule).update i b lr s

/-- jml.py 67-121, 154-195 `fit` with the starting scores `start`: the parameters and the latent scores afterwards. -/
noncomputable def jmlGradientFit {d : ℕ} {A : Type} (scorer : List ℝ → Scorer d) (rule : ℕ → EntryRule A) (a₀ : A) (width : ℕ)
    (cats : List ℕ) (mc : Option (List ℤ)) (data : List (List Num)) (start : Thetas d) (batchSize : Option ℕ) (c : TrainConfig) (lr : ℝ)
    (maxEpochs : ℕ) (params : List ℝ) : Except PyErr (List ℝ × Thetas d) :=
  if start.length ≠ data.length then .error .valueError
  else do
    let ds ← (Dataset.init width data false (some cats) none mc fun _ _ => 0).1
    if batchSize.getD data.length = 0 then .error .valueError
    else
      match jmlEpochs (jmlGradientTrainer scorer ds data.length rule) c
          (loaderBatches (batchSize.getD data.length) (List.range data.length)) maxEpochs
          (LoopState.start lr ⟨params.map fun v => (v, a₀), (start.flatMap List.ofFn).map fun v => (v, a₀)⟩) with
      | .error e => .error e.1
      | .ok st => .ok (st.final.weight.map Prod.fst, scoreRows data.length d (st.final.rest.map Prod.fst))

end Irt
