import Verif.Model.Data

/-!
# Data splitting and cross-validation: model of `utils.py`

Rows are of an arbitrary type. The random permutation is an argument. `n * ratio` is the exact product;
Python rounds it to a double before truncating.
-/

namespace Irt

/-- `data[indices]` for in-range indices. -/
def takeRows {α : Type} (data : List α) (idx : List ℕ) : List α := idx.filterMap fun i => data[i]?

/-- Python `xs[:k]`. -/
def pySliceTo {α : Type} (xs : List α) (k : ℤ) : List α :=
  if k < 0 then xs.take ((xs.length : ℤ) + k).toNat else xs.take k.toNat

/-- Python `xs[k:]`. -/
def pySliceFrom {α : Type} (xs : List α) (k : ℤ) : List α :=
  if k < 0 then xs.drop ((xs.length : ℤ) + k).toNat else xs.drop k.toNat

/-- utils.py 547-557 `split_data`; `perm` is the outcome of `torch.randperm`. -/
noncomputable def splitData {α : Type} (data : List α) (ratio : ℝ) (shuffle : Bool) (perm : List ℕ) :
    List α × List α :=
  let shuffled := if shuffle then takeRows data perm else data
  let size := truncInt ((data.length : ℝ) * ratio)
  (pySliceTo shuffled size, pySliceFrom shuffled size)

/-- Consecutive blocks of `k + 1` rows, the last one possibly shorter. -/
def blocks {α : Type} (k : ℕ) : List α → List (List α)
  | [] => []
  | x :: xs => (x :: xs.take k) :: blocks k (xs.drop k)
  termination_by xs => xs.length
  decreasing_by simp

/-- `torch.chunk(xs, chunks, dim=0)`: block size `ceil(n / chunks)`; an empty tensor gives `chunks` empty
blocks; `chunks <= 0` is an error. -/
def torchChunk {α : Type} (xs : List α) (chunks : ℤ) : Except PyErr (List (List α)) :=
  if chunks ≤ 0 then .error .runtimeError
  else if xs = [] then .ok (List.replicate chunks.toNat [])
  else .ok (blocks ((xs.length + chunks.toNat - 1) / chunks.toNat - 1) xs)

/-- utils.py 15-18 `_prepare_cross_validation_data`. -/
def cvFolds {α : Type} (data : List α) (folds : ℤ) (perm : List ℕ) : Except PyErr (List (List α)) :=
  torchChunk (takeRows data perm) folds

/-- utils.py 172-173: the training data of fold `i`. -/
def cvTrain {α : Type} (folds : List (List α)) (i : ℕ) : Except PyErr (List α) :=
  let others := folds.eraseIdx i
  if others = [] then .error .runtimeError else .ok others.flatten

/-! ## Parameter dictionaries -/

/-- A Python value passed as a fit argument: `None`, a number (or bool), or something else. -/
inductive PyVal
  | none
  | num (x : ℝ)
  | other (s : String)

/-- A Python dict with string keys in insertion order. -/
abbrev PyDict := List (String × PyVal)

/-- `d[k] = v`. -/
def PyDict.set (d : PyDict) (k : String) (v : PyVal) : PyDict :=
  if k ∈ d.map Prod.fst then d.map fun p => if p.1 = k then (k, v) else p else d ++ [(k, v)]

/-- `d.update(kw)`. -/
def PyDict.update (d kw : PyDict) : PyDict := kw.foldl (fun d p => d.set p.1 p.2) d

/-- `itertools.product(*lists)`, last coordinate fastest. -/
def pyProduct {α : Type} : List (List α) → List (List α)
  | [] => [[]]
  | l :: ls => l.flatMap fun x => (pyProduct ls).map fun r => x :: r

/-- utils.py 20-31 `_create_param_grid`. -/
def createParamGrid (grid : List (String × List PyVal)) (kwargs : PyDict) : List PyDict :=
  (pyProduct (grid.map Prod.snd)).map fun vs => PyDict.update ((grid.map Prod.fst).zip vs) kwargs

/-- A summand of `sum(values)`: adding a value that is no number to the running total raises. -/
def pyNumber : PyVal → Except PyErr ℝ
  | .num x => .ok x
  | _ => .error .typeError

/-- `d[k]`. (A missing key is a KeyError, shown as an index error.) -/
def PyDict.getItem (d : PyDict) (k : String) : Except PyErr PyVal :=
  match d.lookup k with
  | some v => .ok v
  | none => .error .indexError

/-- `sum(values) / len(values)` for a list of Python values. -/
noncomputable def pyAverage (vals : List PyVal) : Except PyErr PyVal := do
  let xs ← vals.mapM pyNumber
  return .num (xs.sum / xs.length)

/-- The fitting and scoring the cross-validation calls: `fit params algorithm model data` returns the
model after `irt_model.fit` (which updates the object it is called on), and `eval model data` the log
likelihood. Both are parameters of the model. -/
structure CvProcedure (Model Row : Type) where
  fit : PyDict → Option PyVal → Model → List Row → Except PyErr Model
  eval : Model → List Row → Except PyErr ℝ

/-- utils.py 176-189, 204-211: the dictionary one fold contributes. -/
def foldResult (params : PyDict) (alg : Option PyVal) (ll : ℝ) : PyDict :=
  let r := PyDict.set params "log_likelihood" (.num ll)
  match alg with
  | none | some .none => r
  | some v => r.set "algorithm" v

/-- utils.py 170-189, the loop over the folds. One model object is used for all folds: each `fit`
starts from the state the previous one left. -/
def cvLoop {Model Row : Type} (P : CvProcedure Model Row) (params : PyDict) (folds : List (List Row)) :
    List ℕ → Model → Except PyErr (List PyDict)
  | [], _ => .ok []
  | i :: rest, m => do
    let train ← cvTrain folds i
    let foldParams := params.filter fun p => p.1 ≠ "algorithm"
    let alg := params.lookup "algorithm"
    let m' ← P.fit foldParams alg m train
    let ll ← P.eval m' (folds.getD i [])
    let tail ← cvLoop P params folds rest m'
    return foldResult foldParams alg ll :: tail

/-- utils.py 194-197: one entry of the averaged dictionary. -/
noncomputable def averageEntry (results : List PyDict) (p : String × PyVal) :
    Except PyErr (String × PyVal) :=
  if p.1 = "algorithm" then .ok p
  else do
    let vals ← results.mapM fun d => PyDict.getItem d p.1
    let v ← pyAverage vals
    return (p.1, v)

/-- utils.py 167-202 `_cv_param_combination`. (`results[0]` on no folds is an IndexError.) -/
noncomputable def cvCombination {Model Row : Type} (P : CvProcedure Model Row) (m : Model)
    (folds : List (List Row)) (params : PyDict) : Except PyErr PyDict := do
  let results ← cvLoop P params folds (List.range folds.length) m
  match results with
  | [] => .error .indexError
  | r :: _ => r.mapM (averageEntry results)

/-- utils.py 105-121 `cross_validation` (sequential; the parallel branch maps the same function over
the same arguments): each combination gets its own copy of the model. A keyword argument that is no
column of the result is a KeyError when the columns are dropped, shown here as an index error. -/
noncomputable def crossValidation {Model Row : Type} (P : CvProcedure Model Row) (m : Model)
    (data : List Row) (folds : ℤ) (grid : List (String × List PyVal)) (kwargs : PyDict)
    (perm : List ℕ) : Except PyErr (List PyDict) := do
  let fs ← cvFolds data folds perm
  let results ← (createParamGrid grid kwargs).mapM (cvCombination P m fs)
  if kwargs.all fun p => results.any fun d => (d.map Prod.fst).contains p.1 then
    return results.map fun d => d.filter fun q => !(kwargs.map Prod.fst).contains q.1
  else .error .indexError

end Irt
