import Verif.Model.Autoencoder
import Verif.Model.Scorers

/-!
# Joint maximum likelihood: `irtorch/estimation_algorithms/jml.py` 30-195

What is trained are the parameters of the model and the latent scores of the training data. Gradients and Adam
updates are an argument (`update`), as in `Verif.Model.Training`. Moving between devices is left out.
-/

namespace Irt

/-- jml.py 157-158: the log likelihood of a batch, at the latent scores of its respondents. A `mask` cell is true where
the response is missing; `loss_reduction="sum"` sums the values that `loss_reduction="none"` gives for the other cells. -/
noncomputable def jmlObjective {d : ℕ} (m : Scorer d) (thetas : Thetas d) (data : List (List Num)) (mask : List (List Bool)) :
    Except PyErr Logit := do
  let ll ← m.logLik (thetas.map m.forward) (data.map fun r => r.map numToCell).flatten mask.flatten
  return Logit.sum (ll.filterMap id)

/-- jml.py 155-161 with the rows of a batch picked by the data loader (irt_dataset.py 69) and
`self.training_theta_scores[idx]`. -/
noncomputable def jmlTrainer {S : Type} {d : ℕ} (scorer : S → Scorer d)
    (update : ℕ → List ℕ → ℝ → S × Thetas d → S × Thetas d) (ds : Dataset) : Trainer (S × Thetas d) where
  loss := fun _ b s => (jmlObjective (scorer s.1) (takeRows s.2 b) (takeRows ds.data b) (takeRows ds.mask b)).map
    fun l => lossOf (some l)
  update := update

/-- jml.py 67-121, 154-195 `fit` with `start_thetas` given (their number of columns is the type; the default scores are
`jmlStart`): parameters and latent scores afterwards. The data loader does not shuffle (line 108). -/
noncomputable def jmlFit {S : Type} {d : ℕ} (scorer : S → Scorer d)
    (update : ℕ → List ℕ → ℝ → S × Thetas d → S × Thetas d) (width : ℕ) (cats : List ℕ) (mc : Option (List ℤ))
    (data : List (List Num)) (start : Thetas d) (batchSize : Option ℕ) (c : TrainConfig) (lr : ℝ) (maxEpochs : ℕ) (s : S) :
    Except PyErr (S × Thetas d) :=
  if start.length ≠ data.length then .error .valueError
  else do
    let ds ← (Dataset.init width data false (some cats) none mc fun _ _ => 0).1
    if batchSize.getD data.length = 0 then .error .valueError
    else
      match jmlEpochs (jmlTrainer scorer update ds) c (loaderBatches (batchSize.getD data.length) (List.range data.length))
          maxEpochs (LoopState.start lr (s, start)) with
      | .error e => .error e.1
      | .ok st => .ok st.final

end Irt
