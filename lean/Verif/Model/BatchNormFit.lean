import Verif.Model.EncoderNet
import Verif.Model.Autoencoder

/-! # Training autoencoders with batch normalisation

Modelled: which batches the training loop passes to the encoder in training mode, and the errors of the encoder
there. The rest of a training step (loss, optimiser) is a parameter. -/

namespace Irt

/-- ae.py 21, 101: the attribute `batch_normalization` in the training loop. `AE.fit` stores its argument; `VAE.fit`
(vae.py 84-103) does not, so that the attribute keeps the `False` of the constructor. -/
def EncoderKind.storedNorm (k : EncoderKind) (batchNormalization : Bool) : Bool :=
  match k with
  | .ae => batchNormalization
  | .vae => false

/-- ae.py 292-297, vae.py 177-195: the loss of a batch, where the rows of the batch go through the encoder in
training mode (ae.py 218) first. `net s` are the layers for parameters `s`, `rest` everything after the encoder. -/
noncomputable def normTrainer {S : Type} (net : S → List NetLayer) (input : List (List ℝ))
    (rest : ℕ → List ℕ → S → List (List ℝ) → Num) (update : ℕ → List ℕ → ℝ → S → S) : Trainer S where
  loss := fun i b s => (runNet true (net s) (takeRows input b)).1.map (rest i b s)
  update := update

/-- ae.py 174-198 with the loader of ae.py 136-141 / vae.py 133-138: the training of an encoder of class `kind` with
argument `batch_normalization_encoder = norm`. -/
noncomputable def normTraining {S : Type} (kind : EncoderKind) (norm : Bool) (net : S → List NetLayer)
    (input : List (List ℝ)) (rest : ℕ → List ℕ → S → List (List ℝ) → Num) (update : ℕ → List ℕ → ℝ → S → S)
    (batchSize : ℕ) (c : TrainConfig) (interval : ℕ) (lr : ℝ) (maxEpochs : ℕ) (perm : ℕ → List ℕ) (start : S) :
    Except (PyErr × AEState S) (AEState S) :=
  aeEpochs (normTrainer net input rest update) c interval (kind.storedNorm norm)
    (fun e => loaderBatches batchSize (perm e)) maxEpochs 0 (AEState.start lr start)

end Irt
