import Verif.Model.Training
import Verif.Model.VAE
import Verif.Model.LatentScores
import Verif.Model.Splits

/-!
# Fitting an autoencoder: `irtorch/estimation_algorithms/ae.py` 89-341, `vae.py` 84-195, 305-322

The networks are functions of their parameters; gradients and Adam updates are an argument (`update`), as in
`Verif.Model.Training`. `_batch_fit_measures` (ae.py 300-323, vae.py 282-303) is never called and is left out, and so is
moving the networks between devices.
-/

namespace Irt

/-- `self.encoder(row)` (standard_encoder.py 44, bounded_encoder.py 40, ae.py 340-341) for one row, in evaluation mode or without
batch normalisation, where rows do not influence each other. A NaN in the input makes every output NaN (`none`): every
unit of the first linear layer sums over all inputs. -/
def encodeRow {τ : Type} (net : List ℝ → τ) (r : List Num) : Option τ := (r.mapM id).map net

/-- ae.py 292-297 `_train_batch`: minus the loss of a batch, `none` for NaN. A `mask` cell is true where the response is missing.
`log_likelihood(..., loss_reduction="sum")` is the sum of the values that `loss_reduction="none"` gives for the cells that are not
masked. If some but not all rows of the input contained NaN, NaN would come from line 296 unless those rows were masked
altogether; `fit` never makes such an input. -/
noncomputable def aeObjective {d : ℕ} (m : Scorer d) (net : List ℝ → Fin d → ℝ) (data : List (List Num)) (mask : List (List Bool))
    (input : List (List Num)) : Except PyErr (Option Logit) :=
  match input.mapM (encodeRow net) with
  | none => .ok none
  | some thetas => do
    let ll ← m.logLik (thetas.map m.forward) (data.map fun r => r.map numToCell).flatten mask.flatten
    return if data.length = 0 then none else some (Logit.div (Logit.sum (ll.filterMap id)) (data.length : ℝ))

/-- The loss as a number. (An infinite loss is treated like NaN: its gradient is not a number.) -/
noncomputable def lossOf : Option Logit → Num
  | some (.fin x) => some (-x)
  | _ => none

/-- ae.py 292-297 with the rows of a batch picked by the data loader (irt_dataset.py 69). -/
noncomputable def aeTrainer {S : Type} {d : ℕ} (scorer : S → Scorer d) (net : S → List ℝ → Fin d → ℝ)
    (update : ℕ → List ℕ → ℝ → S → S) (ds : Dataset) : Trainer S where
  loss := fun _ b s =>
    (aeObjective (scorer s) (net s) (takeRows ds.data b) (takeRows ds.mask b) (takeRows ds.input b)).map lossOf
  update := update

/-- vae.py 164-195 `_train_batch` with the rows of a batch picked by the data loader. `net` gives mean and log variance, `eps` the
standard normal draws of each iteration. -/
noncomputable def vaeTrainer {S : Type} {d : ℕ} (scorer : S → Scorer d) (net : S → List ℝ → (Fin d → ℝ) × (Fin d → ℝ))
    (samples : ℕ) (anneal : Bool) (annealing : ℕ) (eps : ℕ → Thetas d) (update : ℕ → List ℕ → ℝ → S → S) (ds : Dataset) :
    Trainer S where
  loss := fun i b s =>
    match (takeRows ds.input b).mapM (encodeRow (net s)) with
    | none => .ok none
    | some out => (vaeObjective (scorer s) samples anneal i annealing ((takeRows ds.data b).map fun r => r.map numToCell)
        (out.map Prod.fst) (out.map Prod.snd) (eps i)).map lossOf
  update := update

/-- `torch.utils.data.DataLoader(data, batch_size, shuffle=True)`: consecutive pieces of a permutation of the respondents. -/
def loaderBatches (batchSize : ℕ) (perm : List ℕ) : List (List ℕ) := blocks (batchSize - 1) perm

/-- What a fit leaves in the algorithm object and the model: parameters, training scores (`none`: NaN) and recorded losses. -/
structure AEFit (S : Type) (d : ℕ) where
  params : S
  scores : List (Option (Fin d → ℝ))
  history : List ℝ

/-- ae.py 89-165 and vae.py 84-162 `fit`. `trainer` gives the loss for a data set, `score` the latent scores of a row of encoder
input (ae.py 341; vae.py 322: the mean). `perm e` is the order in which epoch `e` visits the respondents, `draw` the random
numbers of the imputation. The data loader refuses a batch size of zero. -/
noncomputable def autoencoderFit {S : Type} {d : ℕ} (trainer : Dataset → Trainer S) (score : S → List ℝ → Fin d → ℝ)
    (width : ℕ) (cats : List ℕ) (mc : Option (List ℤ)) (data : List (List Num)) (oneHot : Bool) (imputation : Option String)
    (batchSize : Option ℕ) (batchNorm : Bool) (c : TrainConfig) (interval : ℕ) (lr : ℝ) (maxEpochs : ℕ) (perm : ℕ → List ℕ)
    (draw : ℕ → ℕ → ℕ) (start : S) : Except PyErr (AEFit S d) :=
  if oneHot = false ∧ imputation = none then .error .valueError
  else do
    let ds ← (Dataset.init width data oneHot (some cats) imputation mc draw).1
    if batchSize.getD data.length = 0 then .error .valueError
    else
      match aeEpochs (trainer ds) c interval batchNorm (fun e => loaderBatches (batchSize.getD data.length) (perm e)) maxEpochs 0
          (AEState.start lr start) with
      | .error e => .error e.1
      | .ok st => .ok ⟨st.final, ds.input.map (encodeRow (score st.final)), st.history⟩

end Irt
