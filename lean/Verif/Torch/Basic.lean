import Mathlib.Analysis.SpecialFunctions.Log.Basic
import Mathlib.Algebra.BigOperators.Group.List.Basic
import Mathlib.Tactic.Ring
import Mathlib.Tactic.Linarith
import Mathlib.Tactic.Positivity
import Mathlib.Tactic.FieldSimp

/-!
# Torch operations used by irtorch, as list functions

These definitions are the vocabulary of the model. They describe documented torch semantics (exact
reals instead of floats); they are not taken from `/repo`.
-/

namespace Irt

/-- Python exception classes raised by the modelled code. -/
inductive PyErr
  | valueError | indexError | runtimeError | typeError | notImplemented | assertionError
  | zeroDivision | nameError | attributeError
  deriving DecidableEq, Repr

/-- A logit or a log likelihood: a real number or `-inf`. -/
inductive Logit
  | negInf
  | fin (x : ℝ)

/-- `exp` of a logit (`exp(-inf) = 0`). -/
noncomputable def Logit.exp : Logit → ℝ
  | .negInf => 0
  | .fin x => Real.exp x

/-- Sum of two values of which any may be `-inf`. -/
noncomputable def Logit.add : Logit → Logit → Logit
  | .fin x, .fin y => .fin (x + y)
  | _, _ => .negInf

/-- Sum of a list of values that may contain `-inf`. -/
noncomputable def Logit.sum (xs : List Logit) : Logit := xs.foldr Logit.add (.fin 0)

/-- `torch.log` on nonnegative input: `log 0 = -inf`. -/
noncomputable def logE (x : ℝ) : Logit := if x = 0 then .negInf else .fin (Real.log x)

/-- `F.softmax` over one row. (All entries `-inf` gives NaN in torch; every use below has a finite
entry, and theorems assume it.) -/
noncomputable def softmax (xs : List Logit) : List ℝ :=
  xs.map fun x => x.exp / (xs.map Logit.exp).sum

/-- `F.log_softmax` over one row, `x - logsumexp(row)`. -/
noncomputable def logSoftmax (xs : List Logit) : List Logit :=
  xs.map fun x => match x with
    | .negInf => .negInf
    | .fin v => .fin (v - Real.log (xs.map Logit.exp).sum)

/-- `torch.sigmoid` on a real. -/
noncomputable def sigmoid (x : ℝ) : ℝ := 1 / (1 + Real.exp (-x))

/-- `F.softplus`. -/
noncomputable def softplus (x : ℝ) : ℝ := Real.log (1 + Real.exp x)

/-- `t.repeat_interleave(k)` along the only dimension of a flat list. -/
def repeatInterleave {α : Type*} (k : ℕ) (xs : List α) : List α := xs.flatMap (List.replicate k)

/-- `t.repeat(n)` of a flat list (or of the rows of a 2D tensor for `t.repeat(n, 1)`). -/
def tile {α : Type*} (n : ℕ) (xs : List α) : List α := (List.replicate n xs).flatten

/-- Row-major `view` of a flat list as `n` rows of `k` entries. -/
def viewRows {α : Type*} : ℕ → ℕ → List α → List (List α)
  | 0, _, _ => []
  | n + 1, k, xs => xs.take k :: viewRows n k (xs.drop k)

/-- `t.view(-1, k)`: the number of rows is inferred from the number of entries. (Torch raises if `k`
does not divide the number of entries; every use below is on a multiple.) -/
def view {α : Type*} (k : ℕ) (xs : List α) : List (List α) := viewRows (xs.length / k) k xs

/-- Inner product of two rows. -/
noncomputable def dot (xs ys : List ℝ) : ℝ := (List.zipWith (· * ·) xs ys).sum

/-- `t = zeros(...); t[mask] = params` on flat lists: the parameters are consumed in row-major order
of the true mask positions. Torch raises on a count mismatch; constructors create exactly
`mask.sum()` parameters, and theorems carry that as a hypothesis. -/
def scatterMask {α : Type*} (z : α) : List Bool → List α → List α
  | [], _ => []
  | false :: m, p => z :: scatterMask z m p
  | true :: m, [] => z :: scatterMask z m []
  | true :: m, x :: p => x :: scatterMask z m p

/-- Boolean mask selection `t[mask]` on flat lists. -/
def gatherMask {α : Type*} : List Bool → List α → List α
  | true :: m, x :: xs => x :: gatherMask m xs
  | false :: m, _ :: xs => gatherMask m xs
  | _, _ => []

/-- `t[mask] = v` for a constant `v`. -/
def maskFill {α : Type*} (mask : List Bool) (v : α) (xs : List α) : List α :=
  List.zipWith (fun b x => if b then v else x) mask xs

/-- `torch.cumsum` of a list. -/
noncomputable def cumsum (xs : List ℝ) : List ℝ := (xs.inits.tail).map List.sum

/-- Number of true entries, `mask.sum()`. -/
def countTrue (m : List Bool) : ℕ := m.count true

end Irt
