import Verif.Model.Data
import Verif.Model.Scoring

/-!
# Training loops

`irtorch/estimation_algorithms/mml.py` 183-236, 267-283; `jml.py` 74-84, 146-195; `ae.py` 187-270 (also used by
`vae.py`), and `ReduceLROnPlateau` of torch. The parameters and the state of the Adam optimiser are one value of
an arbitrary type; gradients and Adam updates are parameters.
-/

namespace Irt

/-- What the loops cannot look into. `loss i b s`: value of the loss of batch `b` (a list of respondents) in
iteration `i` for parameters `s`, `none` for NaN; it may raise. The iteration number stands for random draws. `update i b lr s`:
parameters after `loss.backward(); optimizer.step()` with learning rate `lr`. -/
structure Trainer (S : Type) where
  loss : ℕ → List ℕ → S → Except PyErr Num
  update : ℕ → List ℕ → ℝ → S → S

/-! ## `torch.optim.lr_scheduler.ReduceLROnPlateau` -/

/-- Settings of the scheduler and of the stopping rule (mml.py 122-131, jml.py 94-96, ae.py 149-151). `limit` is
`learning_rate_updates_before_stopping`. -/
structure TrainConfig where
  factor : ℝ
  patience : ℕ
  threshold : ℝ
  limit : ℕ

/-- State of the scheduler: learning rate, `best` (`none`: infinity) and `num_bad_epochs`. -/
structure Plateau where
  lr : ℝ
  best : Option ℝ
  bad : ℕ

open Classical in
/-- `current < best` where `none` is infinity on the right and NaN on the left. -/
noncomputable def improves (current : Num) (best : Option ℝ) : Bool :=
  match current, best with
  | none, _ => false
  | some _, none => true
  | some x, some y => decide (x < y)

/-- torch `ReduceLROnPlateau.step`, mode "min", relative threshold, `cooldown = 0`, `min_lr = 0`, `eps = 1e-8`. -/
noncomputable def Plateau.step (c : TrainConfig) (p : Plateau) (current : Num) : Plateau :=
  let p1 : Plateau :=
    if improves current (p.best.map fun b => b * (1 - c.threshold)) then { p with best := current, bad := 0 }
    else { p with bad := p.bad + 1 }
  if p1.bad > c.patience then
    let new := max (p1.lr * c.factor) 0
    { p1 with lr := if p1.lr - new > 1 / 10 ^ 8 then new else p1.lr, bad := 0 }
  else p1

/-! ## MML and JML -/

/-- Local state of the training loop. `bestLoss = none` is infinity; `history` is
`training_history["train_loss"]`. The trained parameters include the latent scores for JML. -/
structure LoopState (S : Type) where
  params : S
  sched : Plateau
  prevLr : ℝ
  lrUpdates : ℕ := 0
  bestLoss : Option ℝ := none
  bestState : Option S := none
  history : List Num := []

/-- State at the start of the loop (mml.py 183-195, jml.py 146-151). -/
def LoopState.start {S : Type} (lr : ℝ) (s : S) : LoopState S :=
  { params := s, sched := { lr := lr, best := none, bad := 0 }, prevLr := lr }

/-- mml.py 196-219 with `_train_step` 267-283, and jml.py 155-183: one iteration. The loss is computed before the
optimiser step and compared with the best loss; the parameters are copied after the step. When it raises, the
state is that at the beginning of the iteration. -/
noncomputable def trainIteration {S : Type} (T : Trainer S) (c : TrainConfig) (b : List ℕ) (st : LoopState S) :
    Except (PyErr × LoopState S) (LoopState S) :=
  match T.loss st.history.length b st.params with
  | .error e => .error (e, st)
  | .ok loss =>
    let params := T.update st.history.length b st.sched.lr st.params
    let sched := st.sched.step c loss
    let better := improves loss st.bestLoss
    .ok { params := params
          sched := sched
          prevLr := sched.lr
          lrUpdates := if sched.lr ≠ st.prevLr then st.lrUpdates + 1 else st.lrUpdates
          bestLoss := if better then loss else st.bestLoss
          bestState := if better then some params else st.bestState
          history := st.history ++ [loss] }

/-- mml.py 196-223: the epochs. -/
noncomputable def mmlEpochs {S : Type} (T : Trainer S) (c : TrainConfig) (batch : List ℕ) :
    ℕ → LoopState S → Except (PyErr × LoopState S) (LoopState S)
  | 0, st => .ok st
  | n + 1, st => do
    let st' ← trainIteration T c batch st
    if c.limit ≤ st'.lrUpdates then return st' else mmlEpochs T c batch n st'

/-- jml.py 155-184: the batches of one epoch; left early only in an iteration that changed the learning rate. -/
noncomputable def jmlBatches {S : Type} (T : Trainer S) (c : TrainConfig) :
    List (List ℕ) → LoopState S → Except (PyErr × LoopState S) (LoopState S)
  | [], st => .ok st
  | b :: bs, st => do
    let st' ← trainIteration T c b st
    if st'.sched.lr ≠ st.prevLr ∧ c.limit ≤ st'.lrUpdates then return st' else jmlBatches T c bs st'

/-- jml.py 154-188: the epochs. -/
noncomputable def jmlEpochs {S : Type} (T : Trainer S) (c : TrainConfig) (batches : List (List ℕ)) :
    ℕ → LoopState S → Except (PyErr × LoopState S) (LoopState S)
  | 0, st => .ok st
  | n + 1, st => do
    let st' ← jmlBatches T c batches st
    if c.limit ≤ st'.lrUpdates then return st' else jmlEpochs T c batches n st'

/-- mml.py 232-236, jml.py 190-195: the best state is loaded if there is one. -/
def LoopState.final {S : Type} (st : LoopState S) : S := st.bestState.getD st.params

/-! ## Precomputed basis of spline models -/

/-- A model as `MML.fit` leaves it behind. `basis` is the attribute `basis` of the spline models
(monotone_b_spline.py 83, nested_logit.py 118), represented by the latent scores it was computed from. -/
structure CachedModel (S : Type) (d : ℕ) where
  params : S
  basis : Option (Thetas d) := none

/-- monotone_b_spline.py 131-162, nested_logit.py 189-193: `forward` evaluates the splines at the scores the stored
basis was computed from, if there is one. `f` is the model output for one row of scores. -/
def CachedModel.forward {S Out : Type} {d : ℕ} (f : S → (Fin d → ℝ) → Out) (m : CachedModel S d) (theta : Thetas d) :
    List Out :=
  (m.basis.getD theta).map (f m.params)

/-- mml.py 183-236 `_training_loop` on the model: the basis of spline models is stored before the first epoch
and removed after the last one; an exception in between propagates. `grid` are the repeated quadrature points.
Returns the model and the exception if one was raised. -/
noncomputable def mmlTrain {S : Type} {d : ℕ} (T : Trainer S) (c : TrainConfig) (lr : ℝ) (batch : List ℕ)
    (maxEpochs : ℕ) (isSpline : Bool) (grid : Thetas d) (m : CachedModel S d) : CachedModel S d × Option PyErr :=
  let basis := if isSpline then some grid else m.basis
  match mmlEpochs T c batch maxEpochs (LoopState.start lr m.params) with
  | .error (e, st) => ({ params := st.params, basis := basis }, some e)
  | .ok st => ({ params := st.final, basis := if isSpline then none else basis }, none)

/-! ## Autoencoders -/

/-- Attributes of the autoencoder that its loop uses (ae.py 93-98). `total` is `total_iterations`, `window` is
`batch_mean_losses`, `bestAvg` the first entry of `best_avg_loss` (`none`: infinity). -/
structure AEState (S : Type) where
  params : S
  sched : Plateau
  lrUpdates : ℕ := 0
  window : List ℝ := []
  total : ℕ := 0
  bestAvg : Option ℝ := none
  bestState : Option S := none
  history : List ℝ := []

/-- ae.py 93-98. -/
def AEState.start {S : Type} (lr : ℝ) (s : S) : AEState S :=
  { params := s, sched := { lr := lr, best := none, bad := 0 } }

/-- How a batch ended: go on, NaN loss (`return nan`), or `break` after enough learning rate reductions. -/
inductive BatchEnd
  | next | nan | stop
  deriving DecidableEq

/-- ae.py 227-267: one batch. `E` is `evaluation_interval_size`; with 0 the `%` of line 247 raises. The local
`learning_rate` is always the learning rate of the optimiser before the scheduler step. -/
noncomputable def aeBatch {S : Type} (T : Trainer S) (c : TrainConfig) (E : ℕ) (b : List ℕ) (st : AEState S) :
    Except (PyErr × AEState S) (AEState S × BatchEnd) :=
  match T.loss st.total b st.params with
  | .error e => .error (e, st)
  | .ok none => .ok (st, .nan)
  | .ok (some loss) =>
    let w := st.window ++ [loss]
    let w' := if w.length > E then w.drop 1 else w
    let st1 := { st with params := T.update st.total b st.sched.lr st.params, total := st.total + 1, window := w' }
    if E = 0 then .error (.zeroDivision, st1)
    else if st1.total % E = 0 ∧ st1.total ≠ 1 then
      let mean := w'.sum / (w'.length : ℝ)
      let sched := st1.sched.step c (some mean)
      let better := improves (some mean) st1.bestAvg
      let st2 : AEState S :=
        { st1 with
          history := st1.history ++ [mean]
          sched := sched
          lrUpdates := if st1.sched.lr ≠ sched.lr then st1.lrUpdates + 1 else st1.lrUpdates
          bestAvg := if better then some mean else st1.bestAvg
          bestState := if better then some st1.params else st1.bestState }
      .ok (st2, if c.limit ≤ st2.lrUpdates then .stop else .next)
    else .ok (st1, .next)

/-- ae.py 222-270: the batches of one epoch; batches of fewer than 4 respondents are skipped with batch
normalisation. The flag says whether the loss returned is NaN. (The sum of the losses is not NaN otherwise.) -/
noncomputable def aeBatches {S : Type} (T : Trainer S) (c : TrainConfig) (E : ℕ) (batchNorm : Bool) :
    List (List ℕ) → AEState S → Except (PyErr × AEState S) (AEState S × Bool)
  | [], st => .ok (st, false)
  | b :: bs, st =>
    if b.length < 4 ∧ batchNorm = true then aeBatches T c E batchNorm bs st
    else do
      let r ← aeBatch T c E b st
      match r.2 with
      | .nan => return (r.1, true)
      | .stop => return (r.1, false)
      | .next => aeBatches T c E batchNorm bs r.1

/-- ae.py 187-192: the epochs; `batches e` are the (shuffled) batches of epoch `e`. An empty data loader makes the
division of line 269 raise. -/
noncomputable def aeEpochs {S : Type} (T : Trainer S) (c : TrainConfig) (E : ℕ) (batchNorm : Bool)
    (batches : ℕ → List (List ℕ)) : ℕ → ℕ → AEState S → Except (PyErr × AEState S) (AEState S)
  | 0, _, st => .ok st
  | n + 1, e, st => do
    let r ← aeBatches T c E batchNorm (batches e) st
    if r.2 = true then return r.1
    else if batches e = [] then throw (.zeroDivision, r.1)
    else if c.limit ≤ r.1.lrUpdates then return r.1
    else aeEpochs T c E batchNorm batches n (e + 1) r.1

/-- ae.py 194-198. -/
def AEState.final {S : Type} (st : AEState S) : S := st.bestState.getD st.params

/-! ## Starting scores of JML -/

/-- _internal_utils.py 466-469 `sum_score`: a plain sum (NaN if a response is NaN; -1 counts as -1), or with an
answer key the number of responses equal to it (NaN and -1 equal nothing). The key has as many entries as there
are items. -/
noncomputable def sumScoreRow (mc : Option (List ℤ)) (r : List Num) : Num :=
  match mc with
  | none => (r.mapM id).map List.sum
  | some key => some ((List.zipWith (fun (x : Num) (k : ℤ) => if x = some (k : ℝ) then (1 : ℝ) else 0) r key).sum)

/-- jml.py 76: `(s - s.mean()) / s.std()` with the unbiased standard deviation. NaN for everyone if a score is
NaN, if there is only one respondent (0/0), or if the standard deviation is zero (0/0). -/
noncomputable def standardise (s : List Num) : List Num :=
  match s.mapM id with
  | none => s.map fun _ => none
  | some v =>
    let mean := v.sum / (v.length : ℝ)
    let var := (v.map fun x => (x - mean) ^ 2).sum / ((v.length : ℝ) - 1)
    if v.length = 1 ∨ Real.sqrt var = 0 then v.map fun _ => none
    else v.map fun x => some ((x - mean) / Real.sqrt var)

/-- jml.py 74-84: the starting scores; `noise` are the standard normal draws used with several latent variables.
`given` is `start_thetas` (rows of scores). -/
noncomputable def jmlStart (lv : ℕ) (mc : Option (List ℤ)) (data : List (List Num)) (noise : ℕ → ℕ → ℝ)
    (given : Option (List (List Num))) : Except PyErr (List (List Num)) :=
  match given with
  | none =>
    let s := standardise (data.map (sumScoreRow mc))
    .ok ((List.zip (List.range data.length) s).map fun p =>
      (List.range lv).map fun k => p.2.map fun x => if 1 < lv then x + noise p.1 k * (1 / 10) else x)
  | some t =>
    if t.length ≠ data.length then .error .valueError
    else if ∃ r ∈ t, r.length ≠ lv then .error .valueError
    else .ok t

end Irt
