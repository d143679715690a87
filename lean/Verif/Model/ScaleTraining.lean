import Verif.Model.Training

/-!
# Training of scale transformations

The loops of `irtorch/rescale/flow.py` 132-171 and `irtorch/rescale/link_common_items.py` 178-216. Both are the same loop
around different losses: the negative mean log density of the flow, and the Kullback-Leibler loss of the linked items. The
spline or network and the state of Adam are one value of an arbitrary type, as in `Model/Training`. Devices and the train or
eval mode of the modules are not modelled.
-/

namespace Irt

/-- Local variables of the loop (flow.py 132-134, link_common_items.py 178-180); `window` is `prev_losses`. -/
structure ScaleTraining (S : Type) where
  params : S
  sched : Plateau
  /-- The local variable `learning_rate`. -/
  prevLr : ℝ
  lrUpdates : ℕ := 0
  window : List ℝ := []
  total : ℕ := 0

/-- flow.py 126-134, link_common_items.py 166-180. `LinkCommonItems` goes on from the parameters it has; `Flow` makes a new
spline before. -/
def ScaleTraining.start {S : Type} (lr : ℝ) (s : S) : ScaleTraining S :=
  { params := s, sched := { lr := lr, best := none, bad := 0 }, prevLr := lr }

/-- flow.py 138-165, link_common_items.py 184-212: one batch. A NaN loss ends the epoch before the update. With
`evaluation_interval_size` `E` equal to zero the `%` raises, after the update. -/
noncomputable def scaleBatch {S : Type} (T : Trainer S) (c : TrainConfig) (E : ℕ) (b : List ℕ) (st : ScaleTraining S) :
    Except (PyErr × ScaleTraining S) (ScaleTraining S × BatchEnd) :=
  match T.loss st.total b st.params with
  | .error e => .error (e, st)
  | .ok none => .ok (st, .nan)
  | .ok (some loss) =>
    let w := st.window ++ [loss]
    let w' := if w.length > E then w.drop 1 else w
    let st1 := { st with params := T.update st.total b st.sched.lr st.params, total := st.total + 1, window := w' }
    if E = 0 then .error (.zeroDivision, st1)
    else
      let sched := if st1.total % E = 0 ∧ st1.total ≠ 1 then st1.sched.step c (some (w'.sum / (w'.length : ℝ))) else st1.sched
      let st2 : ScaleTraining S :=
        { st1 with
          sched := sched
          prevLr := sched.lr
          lrUpdates := if st1.prevLr ≠ sched.lr then st1.lrUpdates + 1 else st1.lrUpdates }
      .ok (st2, if c.limit ≤ st2.lrUpdates then .stop else .next)

/-- flow.py 137-165, link_common_items.py 183-212: the batches of one epoch. -/
noncomputable def scaleBatches {S : Type} (T : Trainer S) (c : TrainConfig) (E : ℕ) :
    List (List ℕ) → ScaleTraining S → Except (PyErr × ScaleTraining S) (ScaleTraining S × BatchEnd)
  | [], st => .ok (st, .next)
  | b :: bs, st => do
    let r ← scaleBatch T c E b st
    match r.2 with
    | .next => scaleBatches T c E bs r.1
    | e => return (r.1, e)

/-- flow.py 135-171, link_common_items.py 181-216: the epochs; `batches e` are the shuffled batches of epoch `e`. Without
batches the variable `loss` is not bound. Otherwise `torch.isnan(loss)` after the batches looks at the loss of the last
batch, which is NaN if and only if the epoch was left for that reason. -/
noncomputable def scaleEpochs {S : Type} (T : Trainer S) (c : TrainConfig) (E : ℕ) (batches : ℕ → List (List ℕ)) :
    ℕ → ℕ → ScaleTraining S → Except (PyErr × ScaleTraining S) (ScaleTraining S)
  | 0, _, st => .ok st
  | n + 1, e, st => do
    let r ← scaleBatches T c E (batches e) st
    if batches e = [] then .error (.nameError, r.1)
    else if r.2 = .nan then return r.1
    else if c.limit ≤ r.1.lrUpdates then return r.1
    else scaleEpochs T c E batches n (e + 1) r.1

/-- flow.py 127-129, link_common_items.py 167-169: the scheduler settings, with torch's default threshold; `limit` is
`learning_rate_updates_before_stopping`. -/
noncomputable def scaleConfig (limit : ℕ) : TrainConfig :=
  { factor := 3 / 5, patience := 1, threshold := 1 / 10000, limit := limit }

/-- The transformation `fit` leaves behind: the parameters after the last update. -/
noncomputable def scaleFit {S : Type} (T : Trainer S) (limit : ℕ) (E : ℕ) (batches : ℕ → List (List ℕ)) (maxEpochs : ℕ)
    (lr : ℝ) (s : S) : Except (PyErr × S) S :=
  match scaleEpochs T (scaleConfig limit) E batches maxEpochs 0 (ScaleTraining.start lr s) with
  | .ok st => .ok st.params
  | .error (e, st) => .error (e, st.params)

end Irt
