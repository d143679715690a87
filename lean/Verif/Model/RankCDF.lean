import Verif.Model.Rescale
import Mathlib.Data.List.Sort
import Mathlib.Data.List.Dedup

/-!
# `irtorch/rescale/rank_cdf.py`

A distribution is represented by its `icdf`, a function of the reals; theorems state what they need of it.
-/

namespace Irt

/-- `torch.sort(x).values`. -/
noncomputable def sortValues (xs : List ℝ) : List ℝ := xs.insertionSort (· ≤ ·)

/-- `torch.unique(x, return_inverse=True, sorted=True)`: the different values in increasing order and, for
each entry, the position of its value among them. -/
noncomputable def uniqueInverse (xs : List ℝ) : List ℝ × List ℕ :=
  let u := xs.dedup.insertionSort (· ≤ ·)
  (u, xs.map fun x => u.findIdx (· = x))

/-- `t.scatter_add(0, index, src)` on one dimension. -/
noncomputable def scatterAdd1 (t : List ℝ) (index : List ℕ) (src : List ℝ) : List ℝ :=
  (index.zip src).foldl (fun acc p => acc.modify p.1 (· + p.2)) t

/-- `t.argmin()`: position of the first smallest entry; raises on an empty tensor. -/
noncomputable def argmin : List ℝ → Except PyErr ℕ
  | [] => .error .indexError
  | x :: xs => .ok ((x :: xs).findIdx fun y => decide (∀ z ∈ x :: xs, y ≤ z))

/-- rank_cdf.py 61-74: the unique values of one latent variable and their average ranks. -/
noncomputable def rankFeature (nSamples : ℕ) (column : List ℝ) : List ℝ × List ℝ :=
  let sorted := sortValues column
  let rank := (List.range nSamples).map fun i : ℕ => (i : ℝ) + 1
  let (vals, inv) := uniqueInverse sorted
  let rankSum := scatterAdd1 (List.replicate vals.length 0) inv rank
  let rankCount := scatterAdd1 (List.replicate vals.length 0) inv (List.replicate rank.length 1)
  (vals, List.zipWith (· / ·) rankSum rankCount)

/-- State of a `RankCDF` for `d` latent variables. -/
structure RankCDF (d : ℕ) where
  nSamples : ℕ
  distributions : List (ℝ → ℝ)
  features : Fin d → List ℝ × List ℝ

/-- rank_cdf.py 44-76 `__init__`. `normal` is the `icdf` of `Normal(0, 1)`. -/
noncomputable def RankCDF.create {d : ℕ} (normal : ℝ → ℝ) (theta : Thetas d)
    (distributions : Option (List (ℝ → ℝ))) : Except PyErr (RankCDF d) :=
  let features := fun k => rankFeature theta.length (theta.map fun t => t k)
  match distributions with
  | none => .ok ⟨theta.length, List.replicate d normal, features⟩
  | some ds =>
    if d ≠ ds.length ∧ ds.length ≠ 1 then .error .valueError
    else if ds.length = 1 then .ok ⟨theta.length, List.replicate d (ds.getD 0 id), features⟩
    else .ok ⟨theta.length, ds, features⟩

/-- rank_cdf.py 95-106: one entry of the result of `transform`. -/
noncomputable def RankCDF.entry {d : ℕ} (r : RankCDF d) (k : Fin d) (x : ℝ) : Except PyErr ℝ := do
  let (vals, ranks) := r.features k
  let i ← argmin (vals.map fun v => |v - x|)
  let rankNormalized := ranks.getD i 0 / ((r.nSamples : ℝ) + 1)
  return (r.distributions.getD k id) rankNormalized

/-- rank_cdf.py 78-108 `transform`. The results are collected by respondent rather than by latent variable;
entries do not interact, so only the order of evaluation differs. -/
noncomputable def RankCDF.transform {d : ℕ} (r : RankCDF d) (theta : Thetas d) : Except PyErr (Thetas d) :=
  theta.mapM fun t => do
    let row ← (List.finRange d).mapM fun k => r.entry k (t k)
    return fun k => row.getD k 0

/-- rank_cdf.py 110-111 `inverse`. -/
def RankCDF.inverse {d : ℕ} (_ : RankCDF d) (_ : Thetas d) : Except PyErr (Thetas d) := .error .notImplemented

/-- rank_cdf.py 113-130 `jacobian`. -/
def RankCDF.jacobian {d : ℕ} (_ : RankCDF d) (_ : Thetas d) :
    Except PyErr (List (Matrix (Fin d) (Fin d) ℝ)) := .error .notImplemented

end Irt
