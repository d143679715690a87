import Verif.Model.FitCrash

/-!
# Specification: failed calls of `fit`
-/

namespace Irt.Spec

variable {S E X : Type} {d : ℕ}

/-- `s'` are the parameters after `n` optimiser updates from `s`, with whatever batches and learning rates. -/
inductive AfterUpdates (update : ℕ → List ℕ → ℝ → S → S) (s : S) : ℕ → S → Prop
  | start : AfterUpdates update s 0 s
  | next {n : ℕ} {t : S} (b : List ℕ) (lr : ℝ) : AfterUpdates update s n t → AfterUpdates update s (n + 1) (update n b lr t)

/-- Data with another number of items is stored already. -/
def OtherItems (stored : Option DataTensor) (data : DataTensor) : Prop := ∃ old, stored = some old ∧ old.width ≠ data.width

/-- The call is refused because of its arguments. -/
def Refused (stored : Option DataTensor) : AlgorithmCall S E X d → Prop
  | .mml c => OtherItems stored c.data ∨ (c.points = none ∧ 3 < d) ∨
      (∃ m, c.covariance = some m ∧ (m.rows ≠ d ∨ m.cols ≠ d)) ∨ c.lr < 0 ∨
      ∃ e, mmlIntegration c.hermgauss c.cholesky c.method c.points c.covariance = .error e
  | .jml c => OtherItems stored c.data ∨ (∃ e, c.start = .error e) ∨ c.lr < 0 ∨ ∃ e, c.batches = .error e
  | .ae c => OtherItems stored c.data ∨ (c.oneHot = false ∧ c.imputation = none) ∨ (∃ e, c.batches = .error e) ∨ c.lr < 0

/-- The training loop cannot raise: the loss can be computed, and for autoencoders there are batches and an evaluation
interval. -/
def LossComputable : AlgorithmCall S E X d → Prop
  | .mml c => ∀ p i b s, ∃ x, (c.trainer p).loss i b s = .ok x
  | .jml c => ∀ i b s, ∃ x, c.trainer.loss i b s = .ok x
  | .ae c => (∀ i b s, ∃ x, c.trainer.loss i b s = .ok x) ∧ c.interval ≠ 0 ∧ ∀ bs, c.batches = .ok bs → ∀ e, bs e ≠ []

/-- The model is as it was: parameters, mode, stored basis and the algorithm it points to. -/
def SameModel (w w' : FitWorld S E X d) : Prop :=
  w'.params = w.params ∧ w'.training = w.training ∧ w'.basis = w.basis ∧ w'.attached = w.attached

/-- `s'` are model parameters after `n` optimiser updates of the call from `s`. -/
def ParamsAfter (c : AlgorithmCall S E X d) (s : S) (n : ℕ) (s' : S) : Prop :=
  match c with
  | .mml c => ∃ p, AfterUpdates (c.trainer p).update s n s'
  | .jml c => (n = 0 ∧ s' = s) ∨ ∃ x x', AfterUpdates c.trainer.update (s, x) n (s', x')
  | .ae c => ∃ x', AfterUpdates c.trainer.update (s, c.fresh) n (s', x')

/-- `now` are the rows of `old`, if anything was stored before, followed by those of `data`, which has as many items. -/
def Appended (old : Option DataTensor) (data : DataTensor) (now : Option DataTensor) : Prop :=
  match old with
  | none => now = some data
  | some o => o.width = data.width ∧ now = some { width := data.width, rows := o.rows ++ data.rows }

/-- The data of the call is stored, or what was stored before. -/
def OldOr (old : Option DataTensor) (data : DataTensor) (now : Option DataTensor) : Prop := now = old ∨ Appended old data now

/-- Two states from which the call starts alike: same parameters and, where the call does not set them itself, the same stored
basis (`MML` sets it for spline models) and the same stored setting of batch normalisation (`AE` sets it, `VAE` does not). -/
def SameStart (c : AlgorithmCall S E X d) (w w' : FitWorld S E X d) : Prop :=
  w'.params = w.params ∧
  match c with
  | .mml c => c.isSpline = false → w'.basis = w.basis
  | .jml _ => w'.basis = w.basis
  | .ae c => w'.basis = w.basis ∧ (c.variational = true → w'.batchNorm = w.batchNorm)

/-- Everything a completed fit of this kind leaves behind, apart from the stored data. -/
def SameFit (c : AlgorithmCall S E X d) (w w' : FitWorld S E X d) : Prop :=
  SameModel w w' ∧ w'.history = w.history ∧
  match c with
  | .mml _ => w'.covariance = w.covariance
  | .jml _ => w'.scores = w.scores
  | .ae c => w'.scores = w.scores ∧ w'.encoder = w.encoder ∧ w'.oneHot = w.oneHot ∧
      (c.variational = false → w'.batchNorm = w.batchNorm ∧ w'.imputation = w.imputation)

end Irt.Spec
