import Verif.Model.Splits
import Verif.Model.Data

/-!
# Algorithm objects shared between models, and `fit_multiple_models_cpu`

What a fit leaves in the algorithm object besides the stored data (encoder, training scores, covariance matrix, training
history) is one value of type `σ`; every fit replaces all of it (ae.py 87-105, vae.py 88-103, mml.py 89-107, jml.py 74-96).
What the optimiser makes of a model, and what it leaves behind, are arguments.
-/

namespace Irt

/-- A tensor of responses with its number of columns. -/
structure DataTensor where
  width : ℕ
  rows : List (List Cell)

/-- An algorithm object: base_irt_algorithm.py 13-14 and the attributes its subclasses add. -/
structure AlgObject (σ : Type) where
  trainData : Option DataTensor := none
  fitted : Option σ := none

/-- base_irt_algorithm.py 32-36 (and vae.py 84-87): the data is appended to what is stored; `torch.cat` refuses another
number of columns. -/
def appendData (stored : Option DataTensor) (new : DataTensor) : Except PyErr DataTensor :=
  match stored with
  | none => .ok new
  | some old => if old.width = new.width then .ok ⟨old.width, old.rows ++ new.rows⟩ else .error .runtimeError

/-- `algorithm.fit(model, train_data)` seen from the algorithm object: the data is stored first, then the fit replaces the
other attributes, and it may raise after that. -/
def AlgObject.fit {σ : Type} (a : AlgObject σ) (data : DataTensor) (left : σ) (raised : Option PyErr) :
    AlgObject σ × Option PyErr :=
  match appendData a.trainData data with
  | .ok d => (⟨some d, some left⟩, raised)
  | .error e => (a, some e)

/-- The objects of a session: algorithm objects and, for each model, the algorithm object it points to
(base_irt_model.py 45 `self.algorithm = None`). -/
structure Session (σ : Type) where
  algs : ℕ → AlgObject σ := fun _ => {}
  algorithm : ℕ → Option ℕ := fun _ => none

/-- One call `models[model].fit(data, algorithm=algs[alg])`; `left` and `raised` are what the optimisation does. -/
structure FitCall (σ : Type) where
  model : ℕ
  alg : ℕ
  data : DataTensor
  left : σ
  raised : Option PyErr := none

/-- base_irt_model.py 115-116: the algorithm object is changed in place, and the model points to it unless the call raised.
The second component is the exception. -/
def Session.fit {σ : Type} (w : Session σ) (c : FitCall σ) : Session σ × Option PyErr :=
  let r := (w.algs c.alg).fit c.data c.left c.raised
  ({ algs := Function.update w.algs c.alg r.1
     algorithm := if r.2 = none then Function.update w.algorithm c.model (some c.alg) else w.algorithm }, r.2)

/-- A history of calls. -/
def Session.run {σ : Type} (w : Session σ) (h : List (FitCall σ)) : Session σ := h.foldl (fun w c => (w.fit c).1) w

/-- `models[m].algorithm`, from which scores, default data and densities are taken. -/
def Session.seenBy {σ : Type} (w : Session σ) (m : ℕ) : Option (AlgObject σ) := (w.algorithm m).map w.algs

/-! ## `fit_multiple_models_cpu` (utils.py 460-517) -/

/-- `multiprocessing.Pool._map_async`, called by `starmap` without `chunksize`: the number of tasks sent together. -/
def poolChunkSize (tasks cores : ℕ) : ℕ := tasks / (cores * 4) + if tasks % (cores * 4) = 0 then 0 else 1

/-- utils.py 512-517 `_fit_model` for the models of one chunk, one after the other. The arguments of a chunk are pickled
together, so its models share one copy of the algorithm object; `train k` is what fitting model `k` gives: the fitted model
and what is left in the algorithm object. -/
def runChunk {π σ : Type} (train : ℕ → Except PyErr (π × σ)) (data : DataTensor) :
    AlgObject σ → List ℕ → Except PyErr (List π × AlgObject σ)
  | a, [] => .ok ([], a)
  | a, k :: ks => do
    let stored ← appendData a.trainData data
    let r ← train k
    let rest ← runChunk train data ⟨some stored, some r.2⟩ ks
    return (r.1 :: rest.1, rest.2)

/-- The results of one chunk: they are pickled together, so every model of the chunk has the same algorithm object. -/
def chunkResult {π σ : Type} (train : ℕ → Except PyErr (π × σ)) (data : DataTensor) (a : AlgObject σ) (ks : List ℕ) :
    Except PyErr (List (π × AlgObject σ)) := do
  let r ← runChunk train data a ks
  return r.1.map fun p => (p, r.2)

/-- `multiprocessing.pool.MapResult`: the results of the chunks are stored by position in the order in which they arrive,
`schedule`; if some raise, the first exception to arrive is raised in the end. -/
def poolCollect {β : Type} (schedule : List ℕ) (results : ℕ → Except PyErr β) (n : ℕ) : Except PyErr (List (Option β)) :=
  let step := fun (s : Option PyErr × (ℕ → Option β)) i =>
    match results i with
    | .ok v => (s.1, Function.update s.2 i (some v))
    | .error e => (some (s.1.getD e), s.2)
  match schedule.foldl step (none, fun _ => none) with
  | (some e, _) => .error e
  | (none, store) => .ok ((List.range n).map store)

/-- utils.py 496-510 `fit_multiple_models_cpu` for `n` models; `cpus` is `mp.cpu_count()` and `schedule` the order in which
the chunks are finished. `mp.Pool` refuses zero processes. -/
def fitMultiple {π σ : Type} (train : ℕ → Except PyErr (π × σ)) (data : DataTensor) (a : AlgObject σ) (n : ℕ)
    (coresToUse : Option ℕ) (cpus : ℕ) (schedule : List ℕ) : Except PyErr (List (π × AlgObject σ)) := do
  let cores := coresToUse.getD (min n cpus)
  if cores = 0 then throw .valueError
  let chunks := blocks (poolChunkSize n cores - 1) (List.range n)
  let rs ← poolCollect schedule (fun i => chunkResult train data a (chunks.getD i [])) chunks.length
  return (rs.map fun r => r.getD []).flatten

end Irt
