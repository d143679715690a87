import Verif.Model.Base
import Mathlib.Algebra.Order.Floor.Ring
import Mathlib.Algebra.Order.Archimedean.Real.Basic

/-!
# `irtorch/_internal_utils.py`, `irtorch/utils.py`, `irtorch/irt_dataset.py` — data handling

A data tensor is a list of rows; an entry is `none` for NaN and `some x` for a number. `-1` is the
second code for a missing response. Functions that write to a tensor of the caller also return the
content of that tensor after the call.
-/

namespace Irt

/-- One entry of a float tensor: `none` is NaN. -/
abbrev Num := Option ℝ

/-- _internal_utils.py 390 `get_missing_mask` for one cell: `(data == -1) | data.isnan()`. -/
noncomputable def isMissing : Num → Bool
  | none => true
  | some x => decide (x = -1)

/-- _internal_utils.py 390 `get_missing_mask`. -/
noncomputable def missingMaskOf (data : List (List Num)) : List (List Bool) :=
  data.map fun r => r.map isMissing

/-- `torch.round` on one number: to the nearest integer, ties to the even one. -/
noncomputable def torchRound (x : ℝ) : ℤ :=
  if x - ⌊x⌋ < 1 / 2 then ⌊x⌋
  else if 1 / 2 < x - ⌊x⌋ then ⌊x⌋ + 1
  else if ⌊x⌋ % 2 = 0 then ⌊x⌋ else ⌊x⌋ + 1

/-- `data[data.isnan()] = -1` on one cell. -/
noncomputable def nanToNegOne : Num → Num
  | none => some (-1)
  | some x => some x

/-- `data.isnan().any()`. -/
def anyNaN (data : List (List Num)) : Bool := data.any fun r => r.any Option.isNone

/-- Tensor index along a dimension of size `n`: negative indices count from the end, others raise. -/
def pyIndex (n : ℕ) (y : ℤ) : Except PyErr ℕ :=
  if 0 ≤ y ∧ y < n then .ok y.toNat
  else if y < 0 ∧ -(n : ℤ) ≤ y then .ok (y + n).toNat
  else .error .indexError

/-- _internal_utils.py 363-370: the block of one respondent for one item, from the rounded response. -/
def oneHotBlock (c : ℕ) (y : ℤ) : Except PyErr (List ℕ) :=
  if y = -1 then .ok (List.replicate c 0)
  else do
    let k ← pyIndex c y
    return (List.range c).map fun j => if j = k then 1 else 0

/-- The integer stored for a cell after `data[data.isnan()] = -1; data.round().long()`
(_internal_utils.py 356-361). -/
noncomputable def roundedCell : Num → ℤ
  | none => -1
  | some x => torchRound x

/-- _internal_utils.py 349-374 `one_hot_encode_test_data`: the result, and the caller's tensor after
the call (line 357 writes to it). `width` is `data.shape[1]`. The code fills the matrix item by item;
here it is built row by row, with the same entries and the same error. The final `.float()` is left out:
the entries are the naturals 0 and 1. -/
noncomputable def oneHotEncode (cats : List ℕ) (width : ℕ) (data : List (List Num)) :
    Except PyErr (List (List ℕ)) × List (List Num) :=
  if width ≠ cats.length then (.error .valueError, data)
  else
    let data' := if anyNaN data then data.map fun r => r.map nanToNegOne else data
    (data'.mapM fun r => do
        let blocks ← (List.zip cats r).mapM fun p => oneHotBlock p.1 (roundedCell p.2)
        return blocks.flatten,
      data')

/-! ## Imputation -/

/-- _internal_utils.py 418-419, utils.py 327-328: `imputed_data[imputed_data == -1] = nan`. -/
noncomputable def negOneToNaN : Num → Num
  | none => none
  | some x => if x = -1 then none else some x

/-- `tensor.nanmean()` of one column: NaN if there is no observation. -/
noncomputable def nanMean (xs : List Num) : Num :=
  match xs.filterMap id with
  | [] => none
  | y :: ys => some ((y :: ys).sum / (y :: ys).length)

/-- `tensor[:, j]`. -/
def column (data : List (List Num)) (j : ℕ) : List Num := data.map fun r => r.getD j none

/-- `torch.where(isnan, fill_j, x)` for a value `fill j` per column. -/
def fillRow (fill : ℕ → Num) (r : List Num) : List Num :=
  r.mapIdx fun j x => match x with
    | none => fill j
    | some v => some v

/-- _internal_utils.py 439-440: the category values other than the key. -/
def incorrectValues (c : ℕ) (key : ℤ) : List ℕ :=
  (List.range c).filter fun k => decide ((k : ℤ) ≠ key)

/-- Larger of a number and a running maximum; `none` is `-inf`. -/
noncomputable def maxStep (x : ℝ) : Option ℝ → Option ℝ
  | none => some x
  | some m => some (max x m)

/-- `.max(dim=0)` of one column after NaN was replaced by `-inf`; `none` is `-inf`. -/
noncomputable def colMax (xs : List Num) : Option ℝ := (xs.filterMap id).foldr maxStep none

/-- `.int()` of a float: truncation towards zero. -/
noncomputable def truncInt (x : ℝ) : ℤ := if 0 ≤ x then ⌊x⌋ else ⌈x⌉

/-- generalized_partial_credit.py 61, graded_response.py 65, nominal_response.py 61, nested_logit.py 78,
surprisal_spline.py 70, monotone_nn.py 91, _internal_utils.py 435, utils.py 346: the category count
inferred for one column, `(where(~isnan, data, -inf).max(dim=0).values + 1).int()`. A column without any
observation gives `-inf`, whose integer value is unspecified (`none`). -/
noncomputable def inferredCategories (xs : List Num) : Option ℤ :=
  (colMax xs).map fun m => truncInt (m + 1)

/-- utils.py 294 `get_item_categories`: only rows without any NaN are used. `max()` of an empty
selection raises. -/
noncomputable def getItemCategories (width : ℕ) (data : List (List Num)) : Except PyErr (List ℤ) :=
  (List.range width).mapM fun j =>
    match colMax (column (data.filter fun r => !(r.any Option.isNone)) j) with
    | none => .error .runtimeError
    | some m => .ok (truncInt m + 1)

/-- _internal_utils.py 437-446, utils.py 348-356: fill the missing cells of one column with random
incorrect responses. `draw i` is the index drawn for row `i` (torch draws one index per missing cell;
naming the draws by row is only a relabelling). `torch.randint` raises when there is no incorrect
response to draw from, and `arange` when the category count is not known (no observation). -/
def randomColumn (c : Option ℤ) (key : ℤ) (draw : ℕ → ℕ) (xs : List Num) :
    Except PyErr (List (Option (ℕ ⊕ ℝ))) :=
  match c with
  | none => .error .runtimeError
  | some c =>
    if c < 0 then .error .runtimeError
    else if incorrectValues c.toNat key = [] then .error .runtimeError
    else .ok (xs.mapIdx fun i x => match x with
      | none => ((incorrectValues c.toNat key)[draw i]?).map .inl
      | some v => some (.inr v))

/-- The number held by a filled cell. -/
def filledValue : Option (ℕ ⊕ ℝ) → Num
  | none => none
  | some (.inl k) => some (k : ℝ)
  | some (.inr v) => some v

/-- Rows of a matrix given by its columns. -/
def ofColumns (n : ℕ) (cols : List (List Num)) : List (List Num) :=
  (List.range n).map fun i => cols.map fun c => c.getD i none

/-- _internal_utils.py 431-446 / utils.py 340-356 once the key is known. With one respondent and
several items the code fails: `.squeeze()` (line 442) turns the mask into a zero-dimensional one, after
which `col` indexes the rows (an exception at the latest for `col = 1`; which class depends on the
first column). -/
def randomIncorrect (width : ℕ) (cats : List (Option ℤ)) (mc : List ℤ) (draw : ℕ → ℕ → ℕ)
    (data : List (List Num)) : Except PyErr (List (List Num)) :=
  if data.length = 1 ∧ 1 < width then .error .indexError
  else if cats.length < width ∨ mc.length < width then .error .indexError
  else do
    let cols ← (List.range width).mapM fun j =>
      randomColumn (cats.getD j none) (mc.getD j 0) (draw j) (column data j)
    return ofColumns data.length (cols.map fun c => c.map filledValue)

/-- _internal_utils.py 416-448 `impute_missing_internal`. -/
noncomputable def imputeMissingInternal (width : ℕ) (data : List (List Num)) (method : String)
    (mc : Option (List ℤ)) (cats : Option (List ℤ)) (draw : ℕ → ℕ → ℕ) :
    Except PyErr (List (List Num)) :=
  let d := data.map fun r => r.map negOneToNaN
  if method = "zero" then .ok (d.map (fillRow fun _ => some 0))
  else if method = "mean" then .ok (d.map (fillRow fun j => nanMean (column d j)))
  else if method = "random incorrect" then
    match mc with
    | none => .error .valueError
    | some mc =>
      let cs := match cats with
        | some cs => cs.map some
        | none => (List.range width).map fun j => inferredCategories (column d j)
      randomIncorrect width cs mc draw d
  else .error .valueError

/-- What `impute_missing` uses of a model: its key, its category counts and its expected item scores
at theta zero. -/
structure ImputeModel where
  mcCorrect : Option (List ℤ)
  cats : List ℕ
  priorScores : List ℝ

/-- utils.py 325-374 `impute_missing`. -/
noncomputable def imputeMissing (width : ℕ) (data : List (List Num)) (method : String)
    (model : Option ImputeModel) (mc : Option (List ℤ)) (cats : Option (List ℤ))
    (draw : ℕ → ℕ → ℕ) : Except PyErr (List (List Num)) :=
  let d := data.map fun r => r.map negOneToNaN
  if method = "zero" then .ok (d.map (fillRow fun _ => some 0))
  else if method = "mean" then .ok (d.map (fillRow fun j => nanMean (column d j)))
  else if method = "random incorrect" then
    match model with
    | some m =>
      match m.mcCorrect with
      | some _ => .error .valueError
      | none => -- `mc_correct = model.mc_correct` is None and is then subscripted (line 351)
        if width = 0 then .ok d else .error .typeError
    | none =>
      match mc with
      | none => .error .valueError
      | some mc =>
        let cs := match cats with
          | some cs => cs.map some
          | none => (List.range width).map fun j => inferredCategories (column d j)
        randomIncorrect width cs mc draw d
  else if method = "prior expected" then
    match model with
    | none => .error .valueError
    | some m =>
      match m.mcCorrect with
      | some _ => .error .valueError
      | none => .ok (d.map (fillRow fun j => (m.priorScores[j]?).map fun x => ((torchRound x : ℤ) : ℝ)))
  else .error .valueError

/-! ## Data set object and the callers that write to the data -/

/-- irt_dataset.py 25-49: stored data, missing mask and encoder input, and the caller's tensor after
the construction. `data.clone()` protects the stored copy; the encoder input is built from the caller's
tensor unless it was imputed (which clones). -/
structure Dataset where
  data : List (List Num)
  mask : List (List Bool)
  input : List (List Num)

/-- irt_dataset.py 25-49 `PytorchIRTDataset.__init__`. -/
noncomputable def Dataset.init (width : ℕ) (data : List (List Num)) (oneHot : Bool)
    (cats : Option (List ℕ)) (imputation : Option String) (mc : Option (List ℤ))
    (draw : ℕ → ℕ → ℕ) : Except PyErr Dataset × List (List Num) :=
  let mask := missingMaskOf data
  match imputation with
  | some method =>
    match imputeMissingInternal width data method mc (cats.map fun cs => cs.map fun c : ℕ => (c : ℤ)) draw with
    | .error e => (.error e, data)
    | .ok imputed =>
      if oneHot then
        match cats with
        | none => (.error .valueError, data)
        | some cs => ((oneHotEncode cs width imputed).1.map fun h =>
            ⟨data, mask, h.map fun r => r.map fun k : ℕ => some (k : ℝ)⟩, data)
      else (.ok ⟨data, mask, imputed⟩, data)
  | none =>
    if oneHot then
      match cats with
      | none => (.error .valueError, data)
      | some cs => ((oneHotEncode cs width data).1.map fun h =>
          ⟨data, mask, h.map fun r => r.map fun k : ℕ => some (k : ℝ)⟩, (oneHotEncode cs width data).2)
    else (.ok ⟨data, mask, data⟩, data)

/-- base_irt_model.py 586-615: the encoder input of `latent_scores` for an autoencoder algorithm and the
caller's (contiguous) tensor after it. -/
noncomputable def latentScoresEncoderInput (width : ℕ) (cats : List ℕ) (oneHot : Bool)
    (imputation : Option String) (data : List (List Num)) (draw : ℕ → ℕ → ℕ) :
    Except PyErr (List (List Num)) × List (List Num) :=
  let hasMissing := data.any fun r => r.any isMissing
  let encode (d : List (List Num)) : Except PyErr (List (List Num)) × List (List Num) :=
    if oneHot then
      ((oneHotEncode cats width d).1.map fun h => h.map fun r => r.map fun k : ℕ => some (k : ℝ),
        (oneHotEncode cats width d).2)
    else (.ok d, d)
  if hasMissing then
    match imputation with
    | some method =>
      match imputeMissingInternal width data method none none draw with
      | .error e => (.error e, data)
      | .ok d => ((encode d).1, data)
    | none => if oneHot then encode data else (.error .valueError, data)
  else encode data

/-- evaluator.py 172-175: the caller's (contiguous) tensor after `Evaluator.residuals`. -/
noncomputable def residualsCallerData (data : List (List Num)) : List (List Num) :=
  data.map fun r => r.map nanToNegOne

/-- base_irt_algorithm.py 32-36 (and vae.py 84-87): `self.train_data` after one `fit`. `torch.cat`
copies, so only on the first fit does the attribute share memory with the caller's tensor and see what
`after` (the writes of the fit, see `Dataset.init`) does to it. -/
def storeTrainData (stored : Option (List (List Num))) (after : List (List Num) → List (List Num))
    (new : List (List Num)) : Option (List (List Num)) :=
  match stored with
  | some old => some (old ++ new)
  | none => some (after new)

end Irt
