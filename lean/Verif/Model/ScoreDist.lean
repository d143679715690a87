import Verif.Torch.Basic

/-!
# `irtorch/_internal_utils.py` — sum score distribution and multiple choice collapsing

One quadrature point (one row of the batch) is modelled; torch applies the same operations to each
row.
-/

namespace Irt

/-- `acc[j : j + len(xs)] = xs + acc[j : j + len(xs)]` (Python slices clip at the end). -/
noncomputable def addSlice (acc : List ℝ) (j : ℕ) (xs : List ℝ) : List ℝ :=
  acc.mapIdx fun k a => if j ≤ k ∧ k < j + xs.length then xs.getD (k - j) 0 + a else a

/-- _internal_utils.py 178-189: one pass of the loop over items. `prev` is `sprobs`, `p` the item's
probability row, `c` its category count and `reps` the number of iterations
`item_max - item_categories[item] + 2`. -/
noncomputable def scoreStep (prev p : List ℝ) (c reps : ℕ) : List ℝ :=
  (List.range reps).foldl
    (fun ns j => addSlice ns j ((p.take c).map fun x => prev.getD j 0 * x))
    (List.replicate prev.length 0)

/-- _internal_utils.py 177-189: the loop over the remaining items. `done` is the category counts of
the items already processed; `item_max` (line 178) is computed from `item_categories[: item + 1]`. -/
noncomputable def scoreLoop : List ℝ → List ℕ → List (List ℝ) → List ℕ → List ℝ
  | acc, done, p :: ps, c :: cs =>
    let itemMax : ℤ := ((done ++ [c]).sum : ℤ) - ((done ++ [c]).length : ℤ)
    scoreLoop (scoreStep acc p c (itemMax - (c : ℤ) + 2).toNat) (done ++ [c]) ps cs
  | acc, _, _, _ => acc

/-- _internal_utils.py 166-190 `conditional_score_distribution` at one quadrature point.
`max_score` uses the number of items in the probability tensor. A mismatch of the lengths, or a
negative tensor size, raises in torch (IndexError/RuntimeError, here one error). -/
noncomputable def conditionalScoreDistribution (probs : List (List ℝ)) (cats : List ℕ) :
    Except PyErr (List ℝ) :=
  let maxScore : ℤ := (cats.sum : ℤ) - probs.length
  if maxScore + 1 < 0 then .error .runtimeError
  else match probs, cats with
  | p :: ps, c :: cs =>
    if cs.length < ps.length then .error .indexError
    else .ok (scoreLoop
      (List.zipWith (fun (k : ℕ) z => if k < c then p.getD k 0 else z)
        (List.range (maxScore + 1).toNat) (List.replicate (maxScore + 1).toNat 0)) [c] ps cs)
  | _, _ => .error .indexError

/-- _internal_utils.py 216-232 `sum_incorrect_probabilities` at one quadrature point: for every item
the total probability of the non-key categories and the probability of the key. -/
noncomputable def sumIncorrectProbabilities (probs : List (List ℝ)) (mc : List ℕ) : List (List ℝ) :=
  List.zipWith (fun p k => [(p.take k ++ p.drop (k + 1)).sum, p.getD k 0]) probs mc

end Irt
