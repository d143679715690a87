import Verif.Model.LatentFunctions
import Verif.Model.Bit
import Mathlib.LinearAlgebra.Matrix.NonsingularInverse
import Mathlib.Analysis.SpecialFunctions.Sqrt

/-!
# Helper functions of `irtorch/_internal_utils.py` (20-148, 253-299), `irtorch/load_dataset.py` 247-271 and the encoders

A data matrix with `n` rows and `p` columns is a function `Fin n → Fin p → Num`, `none` for NaN.
-/

namespace Irt

/-! ## Linear regression -/

/-- _internal_utils.py 20: the design matrix with a leading column of ones. -/
def withBias {m n : ℕ} (x : Matrix (Fin m) (Fin n) ℝ) : Matrix (Fin m) (Fin (n + 1)) ℝ :=
  Matrix.of fun i => Fin.cons 1 (x i)

/-- _internal_utils.py 20-25 `linear_regression`; `torch.inverse` raises for a singular matrix. -/
noncomputable def linearRegression {m n o : ℕ} (x : Matrix (Fin m) (Fin n) ℝ) (y : Matrix (Fin m) (Fin o) ℝ) :
    Except PyErr (Matrix (Fin (n + 1)) (Fin o) ℝ) :=
  let b := withBias x
  if (b.transpose * b).det = 0 then .error .runtimeError
  else .ok ((b.transpose * b)⁻¹ * b.transpose * y)

/-! ## Correlations -/

/-- The mean of a column without missing values. -/
noncomputable def colMean {n : ℕ} (a : Fin n → ℝ) : ℝ := (∑ i, a i) / n

/-- _internal_utils.py 45-50: covariances of complete data. -/
noncomputable def covComplete {n : ℕ} (a b : Fin n → ℝ) : ℝ :=
  (∑ i, (a i - colMean a) * (b i - colMean b)) / ((n : ℝ) - 1)

/-- The values of the rows where `a` and `b` are both observed. -/
def pairRows {n : ℕ} (a b : Fin n → Num) : List (ℝ × ℝ) :=
  (List.finRange n).filterMap fun i => (a i).bind fun x => (b i).map fun y => (x, y)

/-- `torch.nanmean` of a column; `none` if nothing is observed. -/
noncomputable def nanColMean {n : ℕ} (a : Fin n → Num) : Num :=
  let obs := (List.finRange n).filterMap a
  floatDiv obs.sum obs.length

/-- One entry of the centred matrix (_internal_utils.py 52-55): zero where missing. -/
noncomputable def centred {n : ℕ} (a : Fin n → Num) (i : Fin n) : ℝ :=
  match a i with
  | some x => x - (nanColMean a).getD 0
  | none => 0

/-- _internal_utils.py 57-63: one covariance of data with missing values. -/
noncomputable def covMissing {n : ℕ} (a b : Fin n → Num) : ℝ :=
  let k : ℕ := (pairRows a b).length
  (∑ i, centred a i * centred b i) / (if k > 1 then (k : ℝ) - 1 else 1)

/-- `sqrt(sum((v - mean(v))²) / (len(v) - 1))` (_internal_utils.py 73-74). -/
noncomputable def listStd (v : List ℝ) : ℝ :=
  Real.sqrt ((v.map fun x => (x - v.sum / v.length) ^ 2).sum / ((v.length : ℝ) - 1))

/-- _internal_utils.py 66-80: the entry above the diagonal for columns `a` (left) and `b`. -/
noncomputable def corrMissing {n : ℕ} (a b : Fin n → Num) : Num :=
  let rows := pairRows a b
  if rows.length > 1 then
    floatDiv (covMissing a b) (listStd (rows.map Prod.fst) * listStd (rows.map Prod.snd))
  else some 0

open Classical in
/-- _internal_utils.py 41-82 `correlation_matrix`; `none` is NaN or infinite. The standard deviation of complete data
is that of `x.std(dim=0, unbiased=True)`. -/
noncomputable def correlationMatrix {n p : ℕ} (x : Fin n → Fin p → Num) : Fin p → Fin p → Num :=
  if ∀ i j, x i j ≠ none then
    let col : Fin p → Fin n → ℝ := fun j i => (x i j).getD 0
    fun j k =>
      if n = 1 then none
      else floatDiv (covComplete (col j) (col k))
        (Real.sqrt (covComplete (col j) (col j)) * Real.sqrt (covComplete (col k) (col k)))
  else
    fun j k =>
      if j = k then some 1
      else if j < k then corrMissing (fun i => x i j) (fun i => x i k)
      else corrMissing (fun i => x i k) (fun i => x i j)

/-! ## Random guessing -/

/-- The response distribution of one item in `random_guessing_data` (_internal_utils.py 127-144): the probability of
each category. `key` is the correct response if `mc_correct` is given. An item with one category divides by zero; a
correct response outside the categories raises. -/
noncomputable def guessingItem (cats : ℕ) (g : ℝ) (key : Option ℕ) : Except PyErr (ℕ → ℝ) :=
  if cats = 2 then .ok fun r => if r = 0 then 1 - g else if r = 1 then g else 0
  else match key with
    | none => .ok fun r => if r = 0 then 1 else 0
    | some k =>
      if cats = 1 then .error .zeroDivision
      else if cats ≤ k then .error .indexError
      else
        let p₁ : ℕ → ℝ := fun r => if r = k then g else (1 - g) / ((cats : ℝ) - 1)
        let p₂ : ℕ → ℝ := fun r => if p₁ r ≠ g then (1 - g) / ((cats : ℝ) - 1) else p₁ r
        .ok fun r => if r < cats then p₂ r / ∑ s ∈ Finset.range cats, p₂ s else 0

/-- _internal_utils.py 109-148 `random_guessing_data`: the response distributions of the items. `probs = none` is
`guessing_probabilities=None`, which the type check refuses. -/
noncomputable def guessingData (cats : List ℕ) (probs : Option (List ℝ)) (key : Option (List ℕ)) :
    Except PyErr (List (ℕ → ℝ)) :=
  match probs with
  | none => .error .valueError
  | some gs =>
    if gs.length ≠ cats.length then .error .valueError
    else if ¬ (∀ g ∈ gs, 0 ≤ g ∧ g < 1) then .error .valueError
    else (List.range cats.length).mapM fun j =>
      match key with
      | none => guessingItem (cats.getD j 0) (gs.getD j 0) none
      | some ks =>
        if cats.getD j 0 = 2 then guessingItem 2 (gs.getD j 0) none
        else match ks[j]? with
          | some k => guessingItem (cats.getD j 0) (gs.getD j 0) (some k)
          | none => if cats.getD j 0 = 1 then .error .zeroDivision else .error .indexError

/-! ## Entropies

`entropy` itself (_internal_utils.py 253-260) is in `Verif/Model/Bit.lean`. -/

/-- `torch.unique(rows, dim=0, return_counts=True)`: the counts in some fixed order. -/
def uniqueCounts {α : Type} [DecidableEq α] (rows : List α) : List ℕ := rows.dedup.map fun r => rows.count r

/-- _internal_utils.py 281-297: the proportions written for one pair of columns into a row of `m` zeros. The slice
assignment raises when there are more combinations than entries. -/
noncomputable def pairProportions (m : ℕ) (rows : List (ℤ × ℤ)) : Except PyErr (List ℝ) :=
  if rows.length > 1 then
    let counts := uniqueCounts rows
    if counts.length > m then .error .runtimeError
    else .ok (counts.map (fun c : ℕ => (c : ℝ) / ((counts.sum : ℕ) : ℝ)) ++ List.replicate (m - counts.length) 0)
  else .ok (List.replicate m 0)

/-- The pairs of (integer) responses of the respondents who answered both items. -/
def pairCells {n : ℕ} (a b : Fin n → Cell) : List (ℤ × ℤ) :=
  (List.finRange n).filterMap fun i => (a i).bind fun x => (b i).map fun y => (x, y)

/-- _internal_utils.py 282-283 `max_combos`: the squared number of values up to the largest response. `data.int()` turns
NaN into the smallest integer, so that data without any observed response gives one (the square wraps around). -/
def maxCombos (cells : List Cell) : ℕ :=
  match (cells.filterMap id).max? with
  | some top => ((top + 1) ^ 2).toNat
  | none => 1

/-- _internal_utils.py 278-299 `joint_entropy_matrix`. The largest value of no cells raises. The loop computes the
pairs with `i ≤ j` and copies them. -/
noncomputable def jointEntropyMatrix {n p : ℕ} (base : ℝ) (x : Fin n → Fin p → Cell) :
    Except PyErr (List (List ℝ)) := do
  let cells := (List.finRange n).flatMap fun r => (List.finRange p).map (x r)
  if cells = [] then throw .runtimeError
  let props ← (List.finRange p).mapM fun i => (List.finRange p).mapM fun j =>
    pairProportions (maxCombos cells)
      (if i ≤ j then pairCells (fun r => x r i) (fun r => x r j) else pairCells (fun r => x r j) (fun r => x r i))
  props.mapM fun row => row.mapM (entropy base)

/-! ## Big Five data -/

/-- load_dataset.py 262-266. -/
def reverseItems : List String :=
  ["EXT2", "EXT4", "EXT6", "EXT8", "EXT10", "AGR1", "AGR3", "AGR5", "AGR7",
   "CSN2", "CSN4", "CSN6", "CSN8", "EST2", "EST4", "OPN2", "OPN4", "OPN6"]

/-- A row of the raw file: the 50 answers, the 50 response times in milliseconds, and the column IPC. -/
structure BigFiveRow where
  answers : List Num
  times : List Num
  ipc : Num

/-- load_dataset.py 250-258: whether the row is kept. Comparisons with NaN are false. -/
noncomputable def bigFiveKeep (r : BigFiveRow) : Bool :=
  r.times.all (fun t => match t with | some ms => !decide (ms / 1000 < 0) && !decide (ms / 1000 > 300) | none => true) &&
  decide (r.ipc = some 1) &&
  match r.answers.mapM id with
  | none => false
  | some v => decide (0 < v.sum)

/-- load_dataset.py 259-269: one answer of the item with the given name. -/
noncomputable def bigFiveCell (name : String) (a : Num) : Num :=
  let a1 : Num := if a = some 0 then none else a
  let a2 : Num :=
    if name ∈ reverseItems then
      let c := a1.map fun x => (1 - x / 5) * 5 + 1
      if c = some 6 then some 0 else c
    else a1
  a2.map fun x => x - 1

/-- load_dataset.py 248-270: the processed data; `names` are the names of the answer columns. -/
noncomputable def bigFive (names : List String) (raw : List BigFiveRow) : List (List Num) :=
  (raw.filter bigFiveKeep).map fun r => List.zipWith bigFiveCell names r.answers

/-! ## Encoder networks -/

/-- Names of the layers. The names `"batchnorm0"` and `"batchnorm0{i}"` are `.batchnorm none` and
`.batchnorm (some i)`. -/
inductive LayerName
  | linear (i : ℕ) | batchnorm (i : Option ℕ) | nonlinear (i : ℕ) | tanh (i : ℕ)
  deriving DecidableEq

/-- Layers, as far as sizes are concerned. -/
inductive Layer
  | linear (inSize outSize : ℕ) | batchnorm (size : ℕ) | pointwise
  deriving DecidableEq

/-- `Sequential.add_module(name, layer)`: a layer with an existing name is replaced at its place. -/
def addModule (s : List (LayerName × Layer)) (name : LayerName) (l : Layer) : List (LayerName × Layer) :=
  if s.any (fun p => decide (p.1 = name)) then s.map fun p => if p.1 = name then (name, l) else p
  else s ++ [(name, l)]

/-- The size after one layer; a layer of another size raises. -/
def Layer.run (l : Layer) (w : ℕ) : Except PyErr ℕ :=
  match l with
  | .linear a b => if w = a then .ok b else .error .runtimeError
  | .batchnorm k => if w = k then .ok w else .error .runtimeError
  | .pointwise => .ok w

/-- `Sequential.forward`, sizes only. -/
def runLayers (s : List (LayerName × Layer)) (w : ℕ) : Except PyErr ℕ := s.foldlM (fun w p => p.2.run w) w

/-- standard_encoder.py 18-33, variational_encoder.py 18-33, bounded_encoder.py 18-33: the hidden layers. `ownNames`:
the batch normalisations of the hidden layers have their own names (standard encoder only). -/
def hiddenLayers (ownNames : Bool) (input : ℕ) (hidden : List ℕ) (batchNorm : Bool) :
    Except PyErr (List (LayerName × Layer)) :=
  match hidden with
  | [] => .error .indexError
  | h0 :: _ =>
    let s0 := addModule [] (.linear 0) (.linear input h0)
    let s1 := if batchNorm then addModule s0 (.batchnorm none) (.batchnorm h0) else s0
    let s2 := addModule s1 (.nonlinear 0) .pointwise
    .ok ((List.range' 1 (hidden.length - 1)).foldl (fun s i =>
      let s := addModule s (.linear i) (.linear (hidden.getD (i - 1) 0) (hidden.getD i 0))
      let s := if batchNorm then
          addModule s (.batchnorm (if ownNames then some i else none)) (.batchnorm (hidden.getD i 0)) else s
      addModule s (.nonlinear i) .pointwise) s2)

/-- standard_encoder.py 18-38: the output size for an input of the right size. -/
def standardEncoder (input latent : ℕ) (hidden : List ℕ) (batchNorm : Bool) : Except PyErr ℕ := do
  let s ← hiddenLayers true input hidden batchNorm
  runLayers (addModule s (.linear (hidden.length + 1)) (.linear (hidden.getLastD 0) latent)) input

/-- bounded_encoder.py 18-38. -/
def boundedEncoder (input latent : ℕ) (hidden : List ℕ) (batchNorm : Bool) : Except PyErr ℕ := do
  let s ← hiddenLayers false input hidden batchNorm
  let s := addModule s (.linear (hidden.length + 1)) (.linear (hidden.getLastD 0) latent)
  runLayers (addModule s (.tanh (hidden.length + 1)) .pointwise) input

/-- variational_encoder.py 18-52: the sizes of the mean and of the log variance. -/
def variationalEncoder (input latent : ℕ) (hidden : List ℕ) (batchNorm : Bool) : Except PyErr (ℕ × ℕ) := do
  let s ← hiddenLayers false input hidden batchNorm
  let w ← runLayers s input
  let mu ← (Layer.linear (hidden.getLastD 0) latent).run w
  let sigma ← (Layer.linear (hidden.getLastD 0) latent).run w
  return (mu, sigma)

end Irt
