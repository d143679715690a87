import Verif.Model.Scorers
import Verif.Model.Composite

/-!
# A mix of models as object of fitting and scoring: `irtorch/models/model_mix.py`

Latent score estimation (base_irt_model.py 583-969), MML (mml.py 183-279), JML (jml.py 154-166) and the evaluator (evaluator.py
513-538) use a model through `forward` and `log_likelihood`. Simplification: the data are float tensors, so that `data.long()` gives a
new contiguous tensor.
-/

namespace Irt

/-- `ModelMix` seen that way: `forward` (model_mix.py 52-67) and `log_likelihood` with a mask and `loss_reduction="none"`
(model_mix.py 127-183), which splits data and mask of shape (respondents, items) by columns. -/
noncomputable def mixScorer {α : Type} (d : ℕ) (ms : List (MixComponent α)) : Scorer d where
  Out := List α
  items := (ms.map fun m => m.items).sum
  forward := fun θ => mixForward ms (List.ofFn θ)
  logLik := fun outs data mask =>
    mixLogLikelihood ms outs (viewRows outs.length (ms.map fun m => m.items).sum data)
      (some (viewRows outs.length (ms.map fun m => m.items).sum mask)) .none >>= LL.toCells

end Irt
