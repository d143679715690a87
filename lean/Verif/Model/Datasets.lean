import Verif.Model.Data

/-!
# `irtorch/load_dataset.py`: the Swedish SAT data and the cache of the Big Five data

The contents of the files are arguments. `Except PyErr` for a file is the outcome of reading it.
-/

namespace Irt

/-- A two-dimensional tensor with its number of columns (which torch knows also without rows). -/
structure Table2D where
  width : ℕ
  rows : List (List Num)

/-- Every row has the number of columns of the tensor. -/
def Table2D.WF (t : Table2D) : Prop := ∀ r ∈ t.rows, r.length = t.width

/-- load_dataset.py 62-63, 87-88: `[int(char) - 1 for char in text.replace("\n", "") if char.isdigit()]`, for files
with ASCII digits only. -/
def answerKey (text : List Char) : List ℤ :=
  ((text.filter fun c => c ≠ '\n').filter Char.isDigit).map fun c => ((c.toNat : ℤ) - 48) - 1

/-- load_dataset.py 45-67 `swedish_sat_verbal`, 69-92 `swedish_sat_quantitative`: any exception becomes a
`RuntimeError`. -/
def loadSatPart (tensor : Except PyErr Table2D) (text : Except PyErr (List Char)) : Except PyErr (Table2D × List ℤ) :=
  match tensor with
  | .error _ => .error .runtimeError
  | .ok data =>
    match text with
    | .error _ => .error .runtimeError
    | .ok chars => .ok (data, answerKey chars)

/-- `torch.cat((a, b), dim=1)`: refused if the numbers of rows differ. -/
def catColumns (a b : Table2D) : Except PyErr Table2D :=
  if a.rows.length ≠ b.rows.length then .error .runtimeError
  else .ok ⟨a.width + b.width, List.zipWith (· ++ ·) a.rows b.rows⟩

/-- load_dataset.py 94-109 `swedish_sat`; the arguments are the files of the quantitative and of the verbal part. -/
def swedishSat (quant verb : Except PyErr Table2D × Except PyErr (List Char)) : Except PyErr (Table2D × List ℤ) := do
  let q ← loadSatPart quant.1 quant.2
  let v ← loadSatPart verb.1 verb.2
  let data ← catColumns q.1 v.1
  return (data, q.2 ++ v.2)

/-- `(data == correct_scores).float()` on one cell (load_dataset.py 128-129): NaN compares false. -/
noncomputable def scoreCell (cell : Num) (key : ℤ) : Num :=
  match cell with
  | some x => if x = key then some 1 else some 0
  | none => some 0

/-- load_dataset.py 128-129 with torch broadcasting of the key along the rows. -/
noncomputable def scoreTable (t : Table2D) (key : List ℤ) : Except PyErr Table2D :=
  if key.length = t.width then .ok ⟨t.width, t.rows.map fun r => List.zipWith scoreCell r key⟩
  else match key with
    | [k] => .ok ⟨t.width, t.rows.map fun r => r.map fun x => scoreCell x k⟩
    | _ => if t.width = 1 then .ok ⟨key.length, t.rows.map fun r => key.map fun k => scoreCell (r.getD 0 none) k⟩
      else .error .runtimeError

/-- load_dataset.py 111-131 `swedish_sat_binary`. -/
noncomputable def swedishSatBinary (quant verb : Except PyErr Table2D × Except PyErr (List Char)) :
    Except PyErr Table2D := do
  let q ← loadSatPart quant.1 quant.2
  let v ← loadSatPart verb.1 verb.2
  let data ← catColumns q.1 v.1
  scoreTable data (q.2 ++ v.2)

/-! ## The cache of `big_five` -/

/-- The file `big_five_processed.pkl`. -/
inductive CacheFile (α : Type)
  | absent
  | truncated
  | complete (v : α)

/-- Exceptions of `big_five`: from the download and the processing, from reading or writing the cache, from reading the
names of the items. -/
inductive LoadErr
  | download | pickle | items
  deriving DecidableEq

/-- What the environment does during one call. `download` is the processed data or a failure anywhere before the cache is
written; `dumpOk` is false if the process is interrupted or the disk is full while `pickle.dump` writes; `itemsOk` whether
`items.txt` can be read. -/
structure LoadEnv (α : Type) where
  download : Option α
  dumpOk : Bool
  itemsOk : Bool

/-- load_dataset.py 273-279, and the return. -/
def readItems {α : Type} (itemsOk : Bool) (v : α) : Except LoadErr α :=
  if itemsOk then .ok v else .error .items

/-- load_dataset.py 226-281 `big_five`: the outcome and the cache file afterwards. `open(path, "wb")` creates an empty
file, which the dump then fills. -/
def bigFiveCall {α : Type} (env : LoadEnv α) (cache : CacheFile α) : Except LoadErr α × CacheFile α :=
  match cache with
  | .complete v => (readItems env.itemsOk v, .complete v)
  | .truncated => (.error .pickle, .truncated)
  | .absent =>
    match env.download with
    | none => (.error .download, .absent)
    | some v =>
      if env.dumpOk then (readItems env.itemsOk v, .complete v)
      else (.error .pickle, .truncated)

/-- A history of calls, each with its own environment, starting without a cache file: the outcomes and the cache file at
the end. -/
def bigFiveHistory {α : Type} : List (LoadEnv α) → CacheFile α → List (Except LoadErr α) × CacheFile α
  | [], cache => ([], cache)
  | e :: es, cache =>
    let r := bigFiveCall e cache
    let rest := bigFiveHistory es r.2
    (r.1 :: rest.1, rest.2)

end Irt
