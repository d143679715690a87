import Verif.Model.Outlier

/-!
# `irtorch/rescale/bit.py` and `entropy` of `irtorch/_internal_utils.py`

The IRT model enters through two functions of one row of latent scores: its item response probabilities (one
row of probabilities per item) and the sum of its expected item scores. A starting theta found by estimating
random guessing data (bit.py 286-356) is any vector.
-/

namespace Irt

/-- _internal_utils.py 253-260 `entropy` of one distribution. The check is made on every distribution of the
tensor. (`surprisal` is never infinite, because `probabilities + 1e-10` is positive.) -/
noncomputable def entropy (base : ℝ) (p : List ℝ) : Except PyErr ℝ :=
  if |p.sum - 1| ≤ 1e-8 + 1e-5 * |(1 : ℝ)| then
    .ok ((p.map fun x => x * (-Real.log (x + 1e-10) / Real.log base)).sum)
  else .error .runtimeError

/-- `torch.linspace(0, 1, steps=n)`. -/
noncomputable def linspace01 (n : ℕ) : List ℝ :=
  if n = 1 then [0] else (List.range n).map fun i : ℕ => (i : ℝ) / ((n : ℝ) - 1)

/-- `torch.sort(x)[1]` of a list of reals: the positions in increasing order of value. -/
noncomputable def argsort (xs : List ℝ) : List ℕ :=
  (List.range xs.length).insertionSort fun i j => xs.getD i 0 ≤ xs.getD j 0

/-- `torch.sort(x)[1]` of a list of integers. -/
def argsortNat (xs : List ℕ) : List ℕ :=
  (List.range xs.length).insertionSort fun i j => xs.getD i 0 ≤ xs.getD j 0

/-- Python's `t[-n:]`; for `n = 0` this is the whole of `t`. -/
def lastSlice {α : Type*} (n : ℕ) (xs : List α) : List α := if n = 0 then xs else xs.drop (xs.length - n)

/-- State of a `Bit` scale for `d` latent variables. -/
structure Bit (d : ℕ) where
  /-- item probabilities of the model at one row of latent scores -/
  probs : (Fin d → ℝ) → List (List ℝ)
  /-- `expected_scores(theta).sum(dim=1)` of the model at one row of latent scores -/
  scoreSum : (Fin d → ℝ) → ℝ
  items : List ℕ
  gridPoints : ℕ
  population : Option (Thetas d)
  startTheta : Fin d → ℝ

/-- bit.py 504-515 `_get_inverted_scale_multiplier`. -/
noncomputable def invertMultiplier {d : ℕ} (scoreSum : (Fin d → ℝ) → ℝ) (k : Fin d) : ℝ :=
  if scoreSum (fun j => if j = k then -1 else 0) > scoreSum (fun j => if j = k then 1 else 0) then -1 else 1

/-- The multiplier stored by the constructor (bit.py 111). -/
noncomputable def Bit.multiplier {d : ℕ} (b : Bit d) : Fin d → ℝ := invertMultiplier b.scoreSum

/-- bit.py 92-126 `__init__` without `mc_start_theta_approx`. `nItems` is `len(model.item_categories)`. -/
noncomputable def Bit.create {d : ℕ} (probs : (Fin d → ℝ) → List (List ℝ)) (scoreSum : (Fin d → ℝ) → ℝ)
    (nItems : ℕ) (population : Option (Thetas d)) (startTheta : Option (List ℝ)) (items : Option (List ℕ))
    (gridPoints : ℤ) : Except PyErr (Bit d) :=
  if gridPoints ≤ 0 then .error .valueError
  else
    let items := items.getD (List.range nItems)
    match startTheta with
    | some s => if s.length ≠ d then .error .valueError
      else .ok ⟨probs, scoreSum, items, gridPoints.toNat, population, fun k => s.getD k 0⟩
    | none => .ok ⟨probs, scoreSum, items, gridPoints.toNat, population,
        fun k => invertMultiplier scoreSum k * (-10000)⟩

/-- bit.py 128-139 `set_start_theta`. -/
noncomputable def Bit.setStartTheta {d : ℕ} (b : Bit d) (s : List ℝ) : Except PyErr (Bit d) :=
  if s.length ≠ d then .error .valueError else .ok { b with startTheta := fun k => s.getD k 0 }

/-- bit.py 160, 205: the starting theta on the orientation adjusted scale. -/
noncomputable def Bit.startAdj {d : ℕ} (b : Bit d) (k : Fin d) : ℝ := b.startTheta k * b.multiplier k

/-- bit.py 161, 167, 206, 211: `torch.max(theta * multiplier, start_theta_adjusted)` for one row. -/
noncomputable def Bit.adjust {d : ℕ} (b : Bit d) (t : Fin d → ℝ) (k : Fin d) : ℝ :=
  max (t k * b.multiplier k) (b.startAdj k)

/-- bit.py 518-543 `_get_grid_boundaries`. A non-outlier always exists (`C52_extremes`), so the infinities
that `getD` replaces do not occur. -/
noncomputable def Bit.gridBoundaries {d : ℕ} (b : Bit d) (population : Thetas d) :
    Except PyErr ((Fin d → ℝ) × (Fin d → ℝ)) := do
  let train := population.map b.adjust
  let status ← isOutlier 4 [b.startAdj] train true true
  let gridStart ← if ∃ k, status.getD 0 (fun _ => false) k = true then do
      let s ← smallestLargestNonOutlier 4 train true
      pure fun k => max (b.startAdj k) ((s k).getD 0)
    else pure b.startAdj
  let e ← smallestLargestNonOutlier 4 train false
  return (gridStart, fun k => (e k).getD 0)

/-- `torch.median(x, dim=0)` of one column: the lower of two middle values. -/
noncomputable def medianLower (xs : List ℝ) : ℝ := (sortValues xs).getD ((xs.length - 1) / 2) 0

/-- bit.py 162-170: start and end of the grid and the values at which the other latent variables are held. -/
noncomputable def Bit.gridSetup {d : ℕ} (b : Bit d) :
    Except PyErr ((Fin d → ℝ) × (Fin d → ℝ) × (Fin d → ℝ)) :=
  match b.population with
  | none => .ok (fun _ => -7, fun _ => 7, fun _ => 0)
  | some p => do
    let (s, e) ← b.gridBoundaries p
    return (s, e, fun k => medianLower ((p.map b.adjust).map fun t => t k))

/-- bit.py 412-413, 474-475: the entropies, in bits, of the selected items at one row of latent scores.
(Negative item numbers, which count from the end in torch, are not modelled.) -/
noncomputable def Bit.itemEntropies {d : ℕ} (b : Bit d) (t : Fin d → ℝ) : Except PyErr (List ℝ) := do
  let h ← (b.probs t).mapM (entropy 2)
  b.items.mapM fun i => match h[i]? with
    | some x => .ok x
    | none => .error .indexError

/-- bit.py 478-479, 482: for each grid point the sum over items of the absolute entropy change from the
previous grid point; zero at the first. -/
noncomputable def pointDiffs (ents : List (List ℝ)) : List ℝ :=
  (0 : ℝ) :: List.zipWith (fun a b => (List.zipWith (fun x y => |x - y|) a b).sum) ents.dropLast ents.tail

/-- bit.py 450-462: the column of the grid for one latent variable. -/
noncomputable def Bit.gridColumn {d : ℕ} (b : Bit d) (start gridStart gridEnd : ℝ) (column : List ℝ) : List ℝ :=
  let grid := ((linspace01 b.gridPoints).map fun r => (1 - r) * gridStart + r * gridEnd) ++ column
  let grid := grid.map fun x => max x start
  grid.set 0 start

/-- bit.py 464-485: the bit scores of one latent variable. -/
noncomputable def Bit.columnScores {d : ℕ} (b : Bit d) (medians : Fin d → ℝ) (v : Fin d)
    (start gridStart gridEnd : ℝ) (column : List ℝ) : Except PyErr (List ℝ) := do
  let grid := b.gridColumn start gridStart gridEnd column
  let sortedIndices := argsort grid
  let sorted := sortedIndices.map fun i => grid.getD i 0
  let (uniqueGrid, inverseIndices) := uniqueInverse sorted
  let ents ← uniqueGrid.mapM fun x =>
    b.itemEntropies fun k => (if k = v then x else medians k) * b.multiplier k
  let bitScoreGrid := cumsum (pointDiffs ents)
  let withDuplicates := inverseIndices.map fun i => bitScoreGrid.getD i 0
  let unsorted := (argsortNat sortedIndices).map fun i => withDuplicates.getD i 0
  let out := lastSlice column.length unsorted
  -- assigning to a slice of length `column.length` broadcasts one value and refuses other lengths
  if out.length = column.length then .ok out
  else if out.length = 1 then .ok (List.replicate column.length (out.getD 0 0))
  else .error .runtimeError

/-- bit.py 141-183 `transform`. -/
noncomputable def Bit.transform {d : ℕ} (b : Bit d) (theta : Thetas d) : Except PyErr (Thetas d) := do
  let (gridStart, gridEnd, medians) ← b.gridSetup
  let adjusted := theta.map b.adjust
  let columns ← (List.finRange d).mapM fun k =>
    b.columnScores medians k (b.startAdj k) (gridStart k) (gridEnd k) (adjusted.map fun t => t k)
  return (List.range theta.length).map fun i (k : Fin d) => (columns.getD k []).getD i 0

/-- bit.py 393-409: coordinate `k` of the path from the starting theta to one respondent, one value per step of
`linspace(0, 1)`; `x` is the adjusted score. `torch.clamp` with crossed bounds returns the upper one. -/
noncomputable def pathColumn (n : ℕ) (start gridStart gridEnd x : ℝ) : List ℝ :=
  let capped := min (max x gridStart) gridEnd
  let grid := (linspace01 n).map fun r => gridStart + r * (capped - gridStart)
  let grid := grid.map fun y => if x < gridStart then x else y
  let grid := grid.map fun y => max y start
  let grid := grid.modify (n - 1) fun y => if x > gridEnd then x else y
  grid.set 0 start

/-- bit.py 423-431 for one respondent and one item: sum of the absolute differences with the entry before
(`torch.roll` by one; the first difference is set to 0). -/
noncomputable def rolledVariation (e : List ℝ) : ℝ :=
  let rolled := e.rotate (e.length - 1)
  ((List.zipWith (fun a b => |a - b|) e rolled).set 0 0).sum

/-- bit.py 383-432 `_compute_1d_bit_scores` for the adjusted scores. The rows of the grid of all respondents
are stacked before the entropies are computed and split again afterwards. -/
noncomputable def Bit.pathScores {d : ℕ} (b : Bit d) (gridStart gridEnd : Fin d → ℝ) (adjusted : Thetas d) :
    Except PyErr (List ℝ) := do
  let stacked : Thetas d := adjusted.flatMap fun t =>
    (List.range b.gridPoints).map fun j (k : Fin d) =>
      (pathColumn b.gridPoints (b.startAdj k) (gridStart k) (gridEnd k) (t k)).getD j 0
  let entropies ← stacked.mapM fun t => b.itemEntropies fun k => t k * b.multiplier k
  let perRespondent := viewRows adjusted.length b.gridPoints entropies
  return perRespondent.map fun rows =>
    ((List.range b.items.length).map fun i => rolledVariation (rows.map fun r => r.getD i 0)).sum

/-- bit.py 185-229 `transform_to_1D`: one score per respondent. -/
noncomputable def Bit.transformTo1D {d : ℕ} (b : Bit d) (theta : Thetas d) : Except PyErr (List ℝ) :=
  if h : d = 1 then do
    let r ← b.transform theta
    return r.map fun t => t ⟨0, by omega⟩
  else do
    let (gridStart, gridEnd, _) ← b.gridSetup
    b.pathScores gridStart gridEnd (theta.map b.adjust)

/-- bit.py 230-231 `inverse`. -/
def Bit.inverse {d : ℕ} (_ : Bit d) (_ : Thetas d) : Except PyErr (Thetas d) := .error .notImplemented

/-- bit.py 251-252: one entry of `probs.log2() * prob_grads`, then `nansum`: a category with probability 0
contributes NaN, hence nothing. (Probability 0 with a nonzero gradient would give an infinity; a
differentiable nonnegative probability has gradient 0 where it is 0.) -/
noncomputable def entropyGradTerm (p g : ℝ) : ℝ := if p = 0 then 0 else Real.log p / Real.log 2 * g

/-- Indexing the item axis of a table (`[:, items]`). -/
def rowAt (table : List (List ℝ)) (i : ℕ) : Except PyErr (List ℝ) :=
  match table[i]? with
  | some r => .ok r
  | none => .error .indexError

/-- bit.py 249-254 for one respondent of a one-dimensional model: `probs` is the table of all items,
`grads` the derivatives of all items. `prob_grads` is restricted to the chosen items, `probs` is not; a
single row broadcasts, other different numbers of rows raise. -/
noncomputable def bitGradient (items : List ℕ) (probs grads : List (List ℝ)) : Except PyErr ℝ := do
  let sub ← items.mapM (rowAt grads)
  let n := probs.length
  let m := sub.length
  if n = m ∨ n = 1 ∨ m = 1 then
    let rows := (List.range (if n = 1 then m else n)).map fun i =>
      |(List.zipWith entropyGradTerm (probs.getD (if n = 1 then 0 else i) [])
        (sub.getD (if m = 1 then 0 else i) [])).sum|
    return rows.sum
  else throw .runtimeError

/-- bit.py 233-259 `jacobian`. `grads` is `probability_gradients(theta, rescale=False)[:, :, :, 0]`. -/
noncomputable def Bit.jacobian {d : ℕ} (b : Bit d) (grads : (Fin d → ℝ) → List (List ℝ)) (theta : Thetas d) :
    Except PyErr (List (Matrix (Fin d) (Fin d) ℝ)) :=
  if d = 1 then
    theta.mapM fun t => do
      let g ← bitGradient b.items (b.probs t) (grads t)
      return Matrix.of fun i _ => b.multiplier i * g
  else .error .notImplemented

end Irt
