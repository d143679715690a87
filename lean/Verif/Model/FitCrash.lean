import Verif.Model.Sharing
import Verif.Model.Autoencoder
import Verif.Model.MmlSetup

/-!
# Calls of `fit` statement by statement, with interruptions

A call of `model.fit(train_data, algorithm=…)` is a program over the attributes of the model and of the algorithm object.
Every statement that changes an attribute is one step, and the call may be interrupted (keyboard interrupt, out of memory)
before any step; it may also raise. What was done up to then stays done: there is no rollback in
`irtorch/models/base_irt_model.py` 115-116 or in the algorithms. The parts of the training loops that are local variables
are those of `Verif.Model.Training`.
-/

namespace Irt

/-- Why a call ended early. -/
inductive Stop
  /-- Python raised in the call -/
  | raised (e : PyErr)
  /-- it was interrupted from outside -/
  | interrupted
  deriving DecidableEq

/-- A program over a state `W`. The first argument is the number of steps after which it is interrupted (`none`: never).
It gives the result and what is left of this number, or why it ended; and the state in any case. -/
def Crash (W α : Type) : Type := Option ℕ → W → Except Stop (α × Option ℕ) × W

namespace Crash

variable {W α β : Type}

def pure (a : α) : Crash W α := fun k w => (.ok (a, k), w)

def bind (m : Crash W α) (f : α → Crash W β) : Crash W β := fun k w =>
  match m k w with
  | (.ok (a, k'), w') => f a k' w'
  | (.error e, w') => (.error e, w')

instance : Monad (Crash W) where
  pure := Crash.pure
  bind := Crash.bind

/-- A statement that changes the state. -/
def stmt (f : W → W) : Crash W Unit := fun k w =>
  match k with
  | some 0 => (.error .interrupted, w)
  | some (n + 1) => (.ok ((), some n), f w)
  | none => (.ok ((), none), f w)

/-- An expression that is computed from the state and may raise. -/
def eval (f : W → Except PyErr α) : Crash W α := fun k w =>
  match f w with
  | .ok a => (.ok (a, k), w)
  | .error e => (.error (.raised e), w)

/-- A statement under an `if`. -/
def stmtIf (b : Bool) (f : W → W) : Crash W Unit := if b = true then stmt f else Crash.pure ()

end Crash

/-- The attributes of a model and of one algorithm object. -/
structure FitWorld (S E X : Type) (d : ℕ) where
  /-- parameters of the model -/
  params : S
  /-- `model.training` -/
  training : Bool
  /-- `model.basis` of spline models (monotone_b_spline.py 83), by the scores it was computed from -/
  basis : Option (Thetas d) := none
  /-- `model.algorithm` is this algorithm object -/
  attached : Bool
  /-- `train_data` (base_irt_algorithm.py 13) -/
  trainData : Option DataTensor := none
  /-- `training_history["train_loss"]` -/
  history : List Num := []
  /-- `covariance_matrix` (mml.py 41) -/
  covariance : Option (Matrix (Fin d) (Fin d) ℝ) := none
  /-- `training_theta_scores` (base_irt_algorithm.py 14) -/
  scores : Option X := none
  /-- `encoder` (ae.py 22): its parameters and whether it is in training mode -/
  encoder : Option (E × Bool) := none
  /-- `one_hot_encoded` (ae.py 20) -/
  oneHot : Bool := true
  /-- `batch_normalization` (ae.py 21) -/
  batchNorm : Bool := false
  /-- `imputation_method` (ae.py 23) -/
  imputation : Option String := none

variable {S E X : Type} {d : ℕ}

open Crash

/-- base_irt_algorithm.py 32-36, vae.py 84-87: the data is stored. -/
def storeData (data : DataTensor) : Crash (FitWorld S E X d) Unit := do
  let stored ← eval fun w => appendData w.trainData data
  stmt fun w => { w with trainData := some stored }

/-- `torch.optim.Adam(…, lr=learning_rate)` refuses a negative learning rate. -/
noncomputable def newAdam (lr : ℝ) : Crash (FitWorld S E X d) Unit :=
  eval fun _ => if lr < 0 then .error .valueError else .ok ()

/-! ## MML -/

/-- Arguments of a fit with `MML` and what it meets: `trainer` depends on the integration points and their weights. -/
structure MmlCall (S : Type) (d : ℕ) where
  data : DataTensor
  maxEpochs : ℕ
  method : String
  points : Option ℕ
  covariance : Option CovArg
  lr : ℝ
  config : TrainConfig
  hermgauss : ℕ → Except PyErr (List ℝ × List ℝ)
  cholesky : Matrix (Fin d) (Fin d) ℝ → Except PyErr (Matrix (Fin d) (Fin d) ℝ)
  isSpline : Bool
  trainer : Thetas d × List ℝ → Trainer S

/-- mml.py 196-223 with `_train_step` 267-283. -/
noncomputable def mmlLoop (T : Trainer S) (c : TrainConfig) (batch : List ℕ) :
    ℕ → LoopState S → Crash (FitWorld S E X d) (LoopState S)
  | 0, st => Crash.pure st
  | n + 1, st => do
    stmt fun w => { w with training := true }
    let st' ← eval fun _ => (trainIteration T c batch st).mapError Prod.fst
    stmt fun w => { w with params := st'.params }
    stmt fun w => { w with history := st'.history }
    if c.limit ≤ st'.lrUpdates then Crash.pure st' else mmlLoop T c batch n st'

/-- mml.py 87-147 `fit`. -/
noncomputable def mmlFitCall (c : MmlCall S d) : Crash (FitWorld S E X d) Unit := do
  storeData c.data
  stmt fun w => { w with history := [] }
  let n ← eval fun _ => mmlPoints d c.points
  let cov ← eval fun _ => mmlCovariance d c.covariance
  stmt fun w => { w with covariance := some cov }
  newAdam c.lr
  let pts ← eval fun _ => mmlIntegration c.hermgauss c.cholesky c.method (some n) c.covariance
  let batch := List.range c.data.rows.length
  let grid := pts.1.flatMap fun t => c.data.rows.map fun _ => t
  stmtIf c.isSpline fun w => { w with basis := some grid }
  let start ← eval fun w => .ok (LoopState.start c.lr w.params)
  let st ← mmlLoop (c.trainer pts) c.config batch c.maxEpochs start
  stmtIf c.isSpline fun w => { w with basis := none }
  stmt fun w => { w with params := st.final }
  stmt fun w => { w with training := false }

/-! ## JML -/

/-- Arguments of a fit with `JML`: `start` is what `jml.py` 74-84 makes of `start_thetas` and the data, an error if it is
refused; `batches` are the batches of the data loader. The trained parameters are those of the model and the scores. -/
structure JmlCall (S X : Type) where
  data : DataTensor
  maxEpochs : ℕ
  start : Except PyErr X
  lr : ℝ
  config : TrainConfig
  batches : Except PyErr (List (List ℕ))
  trainer : Trainer (S × X)

/-- One iteration, jml.py 156-183: both parameters are changed by the same `optimizer.step()`. -/
noncomputable def jmlStep (T : Trainer (S × X)) (c : TrainConfig) (b : List ℕ) (st : LoopState (S × X)) :
    Crash (FitWorld S E X d) (LoopState (S × X)) := do
  let st' ← eval fun _ => (trainIteration T c b st).mapError Prod.fst
  stmt fun w => { w with params := st'.params.1, scores := some st'.params.2 }
  stmt fun w => { w with history := st'.history }
  Crash.pure st'

/-- jml.py 155-184. -/
noncomputable def jmlBatchLoop (T : Trainer (S × X)) (c : TrainConfig) :
    List (List ℕ) → LoopState (S × X) → Crash (FitWorld S E X d) (LoopState (S × X))
  | [], st => Crash.pure st
  | b :: bs, st => do
    let st' ← jmlStep T c b st
    if st'.sched.lr ≠ st.prevLr ∧ c.limit ≤ st'.lrUpdates then Crash.pure st' else jmlBatchLoop T c bs st'

/-- jml.py 154-188. -/
noncomputable def jmlLoop (T : Trainer (S × X)) (c : TrainConfig) (batches : List (List ℕ)) :
    ℕ → LoopState (S × X) → Crash (FitWorld S E X d) (LoopState (S × X))
  | 0, st => Crash.pure st
  | n + 1, st => do
    let st' ← jmlBatchLoop T c batches st
    if c.limit ≤ st'.lrUpdates then Crash.pure st' else jmlLoop T c batches n st'

/-- jml.py 64-120 `fit`. -/
noncomputable def jmlFitCall (c : JmlCall S X) : Crash (FitWorld S E X d) Unit := do
  storeData c.data
  stmt fun w => { w with history := [] }
  let x ← eval fun _ => c.start
  stmt fun w => { w with scores := some x }
  newAdam c.lr
  let batches ← eval fun _ => c.batches
  stmt fun w => { w with training := true }
  let start ← eval fun w => .ok (LoopState.start c.lr (w.params, x))
  let st ← jmlLoop c.trainer c.config batches c.maxEpochs start
  stmt fun w => { w with scores := some st.final.2 }
  stmt fun w => { w with params := st.final.1 }
  stmt fun w => { w with training := false }

/-! ## AE and VAE -/

/-- Arguments of a fit with `AE` (`variational = false`) or `VAE`: `fresh` is the encoder that is created, `batches` the
batches of each epoch (an error if the data set or the loader cannot be built), `score` the scores of the training data
that a trained encoder in evaluation mode gives. -/
structure AeCall (S E X : Type) where
  variational : Bool
  data : DataTensor
  oneHot : Bool
  imputation : Option String
  batchNorm : Bool
  fresh : E
  maxEpochs : ℕ
  lr : ℝ
  config : TrainConfig
  interval : ℕ
  batches : Except PyErr (ℕ → List (List ℕ))
  trainer : Trainer (S × E)
  score : E → X

/-- ae.py 222-270: the batches of one epoch. Model and encoder are changed by the same `optimizer.step()`, before anything after it
can raise; the loss of an evaluation interval is recorded afterwards. `skip` is `self.batch_normalization`. -/
noncomputable def aeBatchLoop (T : Trainer (S × E)) (c : TrainConfig) (interval : ℕ) (skip : Bool) :
    List (List ℕ) → AEState (S × E) → Crash (FitWorld S E X d) (AEState (S × E) × Bool)
  | [], st => Crash.pure (st, false)
  | b :: bs, st =>
    if b.length < 4 ∧ skip = true then aeBatchLoop T c interval skip bs st
    else
      match aeBatch T c interval b st with
      | .error (e, st') => do
        stmt fun w => { w with params := st'.params.1, encoder := some (st'.params.2, true) }
        eval fun _ => .error e
      | .ok r => do
        stmt fun w => { w with params := r.1.params.1, encoder := some (r.1.params.2, true) }
        stmt fun w => { w with history := r.1.history.map some }
        match r.2 with
        | .nan => Crash.pure (r.1, true)
        | .stop => Crash.pure (r.1, false)
        | .next => aeBatchLoop T c interval skip bs r.1

/-- ae.py 187-192. -/
noncomputable def aeLoop (T : Trainer (S × E)) (c : TrainConfig) (interval : ℕ) (skip : Bool) (batches : ℕ → List (List ℕ)) :
    ℕ → ℕ → AEState (S × E) → Crash (FitWorld S E X d) (AEState (S × E))
  | 0, _, st => Crash.pure st
  | n + 1, e, st => do
    stmt fun w => { w with encoder := w.encoder.map fun p => (p.1, true) }
    stmt fun w => { w with training := true }
    let r ← aeBatchLoop T c interval skip (batches e) st
    if r.2 = true then Crash.pure r.1
    else if batches e = [] then eval fun _ => .error .zeroDivision
    else if c.limit ≤ r.1.lrUpdates then Crash.pure r.1
    else aeLoop T c interval skip batches n (e + 1) r.1

/-- ae.py 89-165 and vae.py 84-162 `fit`. `VAE.fit` does not store `batch_normalization` and `imputation_method`. (Other
attributes of the training loop are local to a call: they are set again at the beginning of every call.) -/
noncomputable def aeFitCall (c : AeCall S E X) : Crash (FitWorld S E X d) Unit := do
  storeData c.data
  stmt fun w => { w with history := [] }
  stmt fun w => { w with oneHot := c.oneHot }
  stmtIf (!c.variational) fun w => { w with batchNorm := c.batchNorm }
  stmtIf (!c.variational) fun w => { w with imputation := c.imputation }
  stmt fun w => { w with encoder := some (c.fresh, true) }
  eval fun _ => if c.oneHot = false ∧ c.imputation = none then .error .valueError else .ok ()
  let batches ← eval fun _ => c.batches
  newAdam c.lr
  let start ← eval fun w => .ok (AEState.start c.lr (w.params, c.fresh))
  let skip ← eval fun w => .ok w.batchNorm
  let st ← aeLoop c.trainer c.config c.interval skip batches c.maxEpochs 0 start
  stmt fun w => { w with params := st.final.1 }
  stmt fun w => { w with encoder := some (st.final.2, true) }
  stmt fun w => { w with encoder := some (st.final.2, false) }
  stmt fun w => { w with training := false }
  stmt fun w => { w with scores := some (c.score st.final.2) }

/-! ## `model.fit` -/

/-- A call of `fit` with one of the algorithms. -/
inductive AlgorithmCall (S E X : Type) (d : ℕ)
  | mml (c : MmlCall S d)
  | jml (c : JmlCall S X)
  | ae (c : AeCall S E X)

/-- The data of the call. -/
def AlgorithmCall.data : AlgorithmCall S E X d → DataTensor
  | .mml c => c.data
  | .jml c => c.data
  | .ae c => c.data

/-- `algorithm.fit(model, train_data, …)`. -/
noncomputable def AlgorithmCall.program : AlgorithmCall S E X d → Crash (FitWorld S E X d) Unit
  | .mml c => mmlFitCall c
  | .jml c => jmlFitCall c
  | .ae c => aeFitCall c

/-- base_irt_model.py 115-116 `model.fit`. -/
noncomputable def modelFit (c : AlgorithmCall S E X d) : Crash (FitWorld S E X d) Unit := do
  c.program
  stmt fun w => { w with attached := true }

/-- The call, interrupted before step `k` if it gets that far: why it ended early, if it did, and the state. -/
noncomputable def attempt (c : AlgorithmCall S E X d) (k : Option ℕ) (w : FitWorld S E X d) : Option Stop × FitWorld S E X d :=
  match modelFit c k w with
  | (.ok _, w') => (none, w')
  | (.error e, w') => (some e, w')

end Irt
