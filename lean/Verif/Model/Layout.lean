import Verif.Model.Composite
import Verif.Model.Data

/-!
# Memory layout of a table of answers

A torch tensor is a view of a block of memory: entry `(i, j)` of a two-dimensional tensor lies at position
`offset + i * s0 + j * s1`. `t.T`, `t[:, a:b]`, `t[a:b]`, `t[::k]` and `torch.split` make new views of the same memory.
Everywhere else in the model a tensor is the list of its rows. Here the calls that depend on the layout are modelled:
`contiguous`, `long`, `view(-1)` and writes in place. Simplification: an empty tensor counts as contiguous and dense
(its view never fails).
-/

namespace Irt

/-- A two-dimensional tensor of `n` rows and `m` columns. -/
structure Strided (α : Type*) where
  storage : List α
  offset : ℕ
  n : ℕ
  m : ℕ
  s0 : ℕ
  s1 : ℕ

/-- Where entry `(i, j)` lies. -/
def Strided.pos {α : Type*} (t : Strided α) (i j : ℕ) : ℕ := t.offset + i * t.s0 + j * t.s1

/-- The rows of the tensor (`t.tolist()`). -/
def Strided.rows {α : Type*} [Inhabited α] (t : Strided α) : List (List α) :=
  (List.range t.n).map fun i => (List.range t.m).map fun j => t.storage.getD (t.pos i j) default

/-- A fresh tensor (`torch.tensor(rows)`, also what `clone` of a tensor without a dense layout, `repeat` and `stack`
make): row after row. -/
def Strided.fresh {α : Type*} (m : ℕ) (rows : List (List α)) : Strided α := ⟨rows.flatten, 0, rows.length, m, m, 1⟩

/-- `t.T`. -/
def Strided.transpose {α : Type*} (t : Strided α) : Strided α := { t with n := t.m, m := t.n, s0 := t.s1, s1 := t.s0 }

/-- `t[:, a:a+k]`, one piece of `torch.split(t, sizes, dim=1)`. -/
def Strided.columns {α : Type*} (t : Strided α) (a k : ℕ) : Strided α := { t with offset := t.offset + a * t.s1, m := k }

/-- `t[a:a+k]`. -/
def Strided.slice {α : Type*} (t : Strided α) (a k : ℕ) : Strided α := { t with offset := t.offset + a * t.s0, n := k }

/-- `t.is_contiguous()`: strides of dimensions of size one do not matter. -/
def Strided.isContiguous {α : Type*} (t : Strided α) : Bool :=
  decide (t.n = 0) || decide (t.m = 0) ||
    ((decide (t.m = 1) || decide (t.s1 = 1)) && (decide (t.n = 1) || decide (t.s0 = t.m)))

/-- Non-overlapping and dense: the entries fill a block of memory, row after row or column after column. -/
def Strided.isDense {α : Type*} (t : Strided α) : Bool := t.isContiguous || t.transpose.isContiguous

/-- `t.contiguous()`: the tensor itself if it is contiguous, else a copy. -/
def Strided.contiguous {α : Type*} [Inhabited α] (t : Strided α) : Strided α :=
  if t.isContiguous then t else Strided.fresh t.m t.rows

/-- `t.long()`: the tensor itself if it holds 64-bit integers; else a copy, with the strides of the tensor if it is
dense (`torch.preserve_format`) and row after row otherwise. The conversion of the values is part of the log
likelihoods (`cellLong`); the copy of a dense tensor is written with the memory of the tensor, as only its entries
and strides can be observed. -/
def Strided.long {α : Type*} [Inhabited α] (int64 : Bool) (t : Strided α) : Strided α :=
  if int64 then t else if t.isDense then t else Strided.fresh t.m t.rows

/-- `t.view(-1)`: one stride has to reach all entries in order, else torch raises RuntimeError. -/
def Strided.flat {α : Type*} [Inhabited α] (t : Strided α) : Except PyErr (List α) :=
  if t.n = 0 ∨ t.m = 0 then .ok []
  else if t.m = 1 then .ok ((List.range t.n).map fun k => t.storage.getD (t.offset + k * t.s0) default)
  else if t.n = 1 ∨ t.s0 = t.m * t.s1 then
    .ok ((List.range (t.n * t.m)).map fun k => t.storage.getD (t.offset + k * t.s1) default)
  else .error .runtimeError

/-- `t[mask(t)] = ...`: writes to the entries of the tensor, `f` being the new value of an entry (the old one where
nothing is written). -/
def Strided.write {α : Type*} (f : α → α) (t : Strided α) : Strided α :=
  { t with storage := t.storage.mapIdx fun p x =>
      if (List.range t.n).any (fun i => (List.range t.m).any fun j => decide (t.pos i j = p)) then f x else x }

/-- `log_likelihood` of a model on tensors (base_irt_model.py 247-264, graded_response.py 194-203,
three_parameter_logistic.py 158-167, nested_logit.py 303-312, surprisal_spline.py 182-191): `data.long().view(-1)`,
`missing_mask.view(-1)`, then the computation `ll` on the flat answers and the flat mask. -/
def tensorLogLikelihood (ll : List Cell → Option (List Bool) → Except PyErr LL) (int64 : Bool) (data : Strided Cell)
    (mask : Option (Strided Bool)) : Except PyErr LL := do
  let ys ← (data.long int64).flat
  match mask with
  | none => ll ys none
  | some mk => do
    let ms ← mk.flat
    ll ys (some ms)

/-- model_mix.py 159-177: each model gets its columns of the data. (No mask.) -/
def mixTensorParts {α : Type} (int64 : Bool) (data : Strided Cell) (red : Reduction) :
    ℕ → List (MixComponent α) → List (List (List α)) → Except PyErr (List LL)
  | a, c :: cs, out :: outs => do
    let v ← tensorLogLikelihood (fun ys _ => c.ll out (viewRows data.n c.items ys) none red) int64
      (data.columns a c.items) none
    let vs ← mixTensorParts int64 data red (a + c.items) cs outs
    return v :: vs
  | _, _, _ => .ok []

/-- model_mix.py 154-183 `log_likelihood` on a tensor, without a mask. -/
noncomputable def mixTensorLogLikelihood {α : Type} (ms : List (MixComponent α)) (output : List (List α)) (int64 : Bool)
    (data : Strided Cell) (red : Reduction) : Except PyErr LL := do
  let outs ← splitChecked (ms.map fun c => c.M * c.items) output
  if data.m = (ms.map fun c => c.items).sum then
    let lls ← mixTensorParts int64 data red 0 ms outs
    match red with
    | .mean => .error .notImplemented
    | .sum => do
      let vs ← lls.mapM LL.toScalar
      return .scalar (Logit.sum vs)
    | .none => do
      let vs ← lls.mapM LL.toCells
      return .cells vs.flatten
  else .error .runtimeError

/-- evaluator.py 59-62 and 175 (`residuals`), base_irt_model.py 590 and _internal_utils.py 356 (the one-hot encoding in
`latent_scores`): the memory of the caller's tensor after `data = data.contiguous(); data[data.isnan()] = -1`. -/
noncomputable def afterContiguousWrite (t : Strided Num) : List Num :=
  if t.isContiguous then (t.write nanToNegOne).storage else t.storage

/-- irt_dataset.py 42 with _internal_utils.py 356: the memory of the caller's tensor after a fit that one-hot encodes
without imputation; `fit` passes the tensor on without `contiguous` (ae.py 128-134, vae.py 125-131). -/
noncomputable def afterFitWrite (t : Strided Num) : List Num := (t.write nanToNegOne).storage

/-- mml.py 186: `train_data.repeat(points, 1)`. -/
def Strided.repeatRows {α : Type*} [Inhabited α] (k : ℕ) (t : Strided α) : Strided α :=
  Strided.fresh t.m (List.replicate k t.rows).flatten

/-- A batch of the data loader (jml.py 103-108, ae.py 135-140, vae.py 132-137): the rows with the given indices,
stacked. -/
def Strided.batch {α : Type*} [Inhabited α] (idx : List ℕ) (t : Strided α) : Strided α :=
  Strided.fresh t.m (idx.map fun i => t.rows.getD i [])

end Irt
