import Verif.Model.Utils
import Verif.Model.Splits
import Verif.Model.ScoreDist
import Verif.Model.LatentScores

/-!
# `irtorch/evaluator.py`

The functions take the data and the latent scores that `_evaluate_data_theta_input` (41-70) returns, which is modelled
in `EvaluatorCalls.lean`. Data rows are lists of cells; the probability table of a respondent has one row of `M` probabilities per
item, `M` being the largest number of categories. `Num` values are `none` where torch gives NaN (or an infinity, where
stated).
-/

namespace Irt

/-- What the functions with several levels of aggregation return. -/
inductive Reduced
  | matrix (rows : List (List Num))
  | vector (xs : List Num)
  | scalar (x : Num)

/-- `tensor.nanmean(dim=dim)`, `tensor.nansum(dim=dim)` of a matrix with `items` columns. -/
noncomputable def reduceDim (f : List Num → Num) (items : ℕ) (dim : Option ℕ) (rows : List (List Num)) : Reduced :=
  match dim with
  | some 0 => .vector ((List.range items).map fun j => f (column rows j))
  | some _ => .vector (rows.map f)
  | none => .scalar (f rows.flatten)

/-! ## Residuals (172-196) -/

/-- evaluator.py 176-184, 188 for one cell of a model with a key: the response as an index (NaN has become -1, which is
the last category), one minus its probability, NaN where missing. -/
noncomputable def keyedResidual (p : List ℝ) (c : Cell) : Except PyErr Num := do
  let x ← pyGet p (c.getD (-1))
  return if cellMissing c then none else some (1 - x)

/-- evaluator.py 186-188 for one cell of a model without key. -/
noncomputable def scoreResidual (e : ℝ) (c : Cell) : Num :=
  if cellMissing c then none else some (((c.getD (-1) : ℤ) : ℝ) - e)

/-- evaluator.py 174-188: the residuals of one respondent with probability table `table`. -/
noncomputable def residualRow (M : ℕ) (mc : Option (List ℤ)) (table : List (List ℝ)) (row : List Cell) :
    Except PyErr (List Num) :=
  match mc with
  | some _ => (List.zip table row).mapM fun pc => keyedResidual pc.1 pc.2
  | none => do
    let e ← expectedItemScores table M none
    return List.zipWith scoreResidual e row

/-- evaluator.py 172-196 `residuals`. -/
noncomputable def residuals (M items : ℕ) (mc : Option (List ℤ)) (averageOver : String)
    (tables : List (List (List ℝ))) (data : List (List Cell)) : Except PyErr Reduced := do
  let rows ← (List.zip tables data).mapM fun td => residualRow M mc td.1 td.2
  if averageOver = "items" then return reduceDim nanMean items (some 1) rows
  else if averageOver = "respondents" then return reduceDim nanMean items (some 0) rows
  else if averageOver = "everything" then return reduceDim nanMean items none rows
  else return .matrix rows

/-! ## Accuracy and predictions (296-391) -/

/-- evaluator.py 299-300 for one cell. -/
noncomputable def accuracyCell (pred : ℕ) (c : Cell) : Num :=
  if cellMissing c then none else some (if c = some (pred : ℤ) then 1 else 0)

/-- evaluator.py 302-307: the dimension that a level stands for. -/
def levelDim (level : String) : Option ℕ :=
  if level = "item" then some 0 else if level = "respondent" then some 1 else none

/-- evaluator.py 296-309 `accuracy`; `argmax` is `torch.argmax` on one row of probabilities. -/
noncomputable def accuracy (argmax : List ℝ → ℕ) (items : ℕ) (level : String) (tables : List (List (List ℝ)))
    (data : List (List Cell)) : Reduced :=
  reduceDim nanMean items (levelDim level)
    (List.zipWith (fun t row => List.zipWith (fun p c => accuracyCell (argmax p) c) t row) tables data)

/-- evaluator.py 366-367: predicted and observed responses of one item, without the missing ones. -/
def observedPairs (preds : List ℕ) (col : List Cell) : List (ℕ × ℤ) :=
  (List.zip preds col).filterMap fun pc => if cellMissing pc.2 then none else pc.2.map fun y => (pc.1, y)

/-- evaluator.py 369: the number of true positives of response `r`. -/
def truePos (r : ℕ) (pairs : List (ℕ × ℤ)) : ℕ := pairs.countP fun q => decide (q.2 = (r : ℤ)) && decide (q.1 = r)

/-- evaluator.py 370. -/
def falsePos (r : ℕ) (pairs : List (ℕ × ℤ)) : ℕ := pairs.countP fun q => !decide (q.2 = (r : ℤ)) && decide (q.1 = r)

/-- evaluator.py 371. -/
def falseNeg (r : ℕ) (pairs : List (ℕ × ℤ)) : ℕ := pairs.countP fun q => decide (q.2 = (r : ℤ)) && !decide (q.1 = r)

/-- evaluator.py 368: the proportion of the observed responses that are `r`; NaN without observed responses. -/
noncomputable def responseWeight (r : ℕ) (pairs : List (ℕ × ℤ)) : Num :=
  floatDiv (pairs.countP fun q => decide (q.2 = (r : ℤ)) : ℕ) (pairs.length : ℕ)

/-- evaluator.py 372. -/
noncomputable def categoryPrecision (r : ℕ) (pairs : List (ℕ × ℤ)) : ℝ :=
  if truePos r pairs = 0 then 0 else (truePos r pairs : ℝ) / (truePos r pairs + falsePos r pairs)

/-- evaluator.py 373. -/
noncomputable def categoryRecall (r : ℕ) (pairs : List (ℕ × ℤ)) : ℝ :=
  if truePos r pairs = 0 then 0 else (truePos r pairs : ℝ) / (truePos r pairs + falseNeg r pairs)

/-- evaluator.py 374. -/
noncomputable def categoryF1 (r : ℕ) (pairs : List (ℕ × ℤ)) : ℝ :=
  if categoryPrecision r pairs * categoryRecall r pairs = 0 then 0
  else 2 * categoryPrecision r pairs * categoryRecall r pairs / (categoryPrecision r pairs + categoryRecall r pairs)

/-- evaluator.py 376-378: average over the categories of an item. -/
noncomputable def categoryAverage (cats : ℕ) (metric : ℕ → ℝ) : ℝ :=
  ((List.range cats).map fun r => metric r / cats).sum

/-- evaluator.py 379-381: sum weighted by the observed proportions. -/
noncomputable def weightedAverage (cats : ℕ) (pairs : List (ℕ × ℤ)) (metric : ℕ → ℝ) : Num :=
  ((List.range cats).mapM fun r => (responseWeight r pairs).map fun w => metric r * w).map List.sum

/-- The row of the data frame for one item. -/
structure ItemMetrics where
  precision : ℝ
  recall : ℝ
  f1 : ℝ
  wPrecision : Num
  wRecall : Num
  wF1 : Num

/-- evaluator.py 363-381: one item. -/
noncomputable def itemMetrics (cats : ℕ) (pairs : List (ℕ × ℤ)) : ItemMetrics where
  precision := categoryAverage cats fun r => categoryPrecision r pairs
  recall := categoryAverage cats fun r => categoryRecall r pairs
  f1 := categoryAverage cats fun r => categoryF1 r pairs
  wPrecision := weightedAverage cats pairs fun r => categoryPrecision r pairs
  wRecall := weightedAverage cats pairs fun r => categoryRecall r pairs
  wF1 := weightedAverage cats pairs fun r => categoryF1 r pairs

/-- evaluator.py 352-391 `predictions`: one row per item. -/
noncomputable def predictions (argmax : List ℝ → ℕ) (cats : List ℕ) (tables : List (List (List ℝ)))
    (data : List (List Cell)) : List ItemMetrics :=
  cats.mapIdx fun j c =>
    itemMetrics c (observedPairs (tables.map fun t => argmax (t.getD j [])) (data.map fun r => r.getD j none))

/-! ## Infit and outfit (444-478) -/

/-- Squared error and variance of one observed response. -/
structure FitCell where
  mse : ℝ
  variance : ℝ

/-- evaluator.py 449-467 for one respondent: `none` for missing responses. With a key the lengths of the key and of the
item list must agree (torch also broadcasts a key with one entry; not modelled). -/
noncomputable def fitRow (M : ℕ) (mc : Option (List ℤ)) (table : List (List ℝ)) (row : List Cell) :
    Except PyErr (List (Option FitCell)) := do
  let expected ← expectedItemScores table M mc
  match mc with
  | some keys =>
    if keys.length ≠ table.length then .error .runtimeError
    else
      let scores ← itemScores table.length M (some keys)
      let correct := List.zipWith dot table scores
      return (List.range row.length).map fun j =>
        let c := row.getD j none
        if cellMissing c then none
        else
          let o : ℝ := if c = keys[j]? then 1 else 0
          some ⟨(o - expected.getD j 0) ^ 2, correct.getD j 0 * (1 - correct.getD j 0)⟩
  | none =>
    return (List.range row.length).map fun j =>
      let c := row.getD j none
      if cellMissing c then none
      else some ⟨(((c.getD (-1) : ℤ) : ℝ) - expected.getD j 0) ^ 2,
        ((List.range M).map fun m : ℕ => ((m : ℝ) - expected.getD j 0) ^ 2 * (table.getD j []).getD m 0).sum⟩

/-- evaluator.py 472, 475: `mse.nansum() / variance.nansum()`; `none` for NaN and for infinity. -/
noncomputable def infitOf (cells : List (Option FitCell)) : Num :=
  floatDiv ((cells.filterMap id).map FitCell.mse).sum ((cells.filterMap id).map FitCell.variance).sum

/-- evaluator.py 468-469: `mse / variance`, zero where the error is zero. -/
noncomputable def weightedError (c : FitCell) : Num := if c.mse = 0 then some 0 else floatDiv c.mse c.variance

/-- evaluator.py 473, 476: `wmse.nanmean()`; `none` for NaN (no observed response) and for infinity (an error where
the variance is zero). -/
noncomputable def outfitOf (cells : List (Option FitCell)) : Num :=
  ((cells.filterMap id).mapM weightedError).bind fun ws => floatDiv ws.sum ws.length

/-- evaluator.py 444-478 `infit_outfit`. -/
noncomputable def infitOutfit (M items : ℕ) (mc : Option (List ℤ)) (level : String) (tables : List (List (List ℝ)))
    (data : List (List Cell)) : Except PyErr (List Num × List Num) :=
  if level ∉ ["item", "respondent"] then .error .valueError
  else do
    let rows ← (List.zip tables data).mapM fun td => fitRow M mc td.1 td.2
    if level = "item" then
      let cols := (List.range items).map fun j => rows.map fun r => r.getD j none
      return (cols.map infitOf, cols.map outfitOf)
    else return (rows.map infitOf, rows.map outfitOf)

/-! ## Log likelihood (513-596) -/

/-- evaluator.py 531: minus infinity becomes -30. -/
def floorLogLik : Option Logit → Num
  | none => none
  | some .negInf => some (-30)
  | some (.fin x) => some x

/-- `.nansum()`: zero for a row without values. -/
noncomputable def nanSum (xs : List Num) : Num := some (xs.filterMap id).sum

/-- evaluator.py 513-538 `log_likelihood`. `reduction in "mean"` (533) is a substring test. -/
noncomputable def evaluatorLogLikelihood {d : ℕ} (m : Scorer d) (reduction level : String) (theta : Thetas d)
    (data : List (List Cell)) : Except PyErr Reduced := do
  let mask := data.map fun r => r.map cellMissing
  let ll ← m.logLik (theta.map m.forward) data.flatten mask.flatten
  let rows := view m.items (ll.map floorLogLik)
  if reduction.toList <:+: "mean".toList then return reduceDim nanMean m.items (levelDim level) rows
  else if reduction = "sum" then return reduceDim nanSum m.items (levelDim level) rows
  else return .matrix rows

/-- `.sum(dim=1)` of one row: NaN if an entry is. -/
noncomputable def strictSum (row : List (Option Logit)) : Option Logit := (row.mapM id).map Logit.sum

/-- `.mean()`: NaN for an empty tensor and if an entry is NaN. -/
noncomputable def strictMean (xs : List (Option Logit)) : Option Logit :=
  (xs.mapM id).bind fun l =>
    if l = [] then none
    else match Logit.sum l with
      | .negInf => some .negInf
      | .fin x => some (.fin (x / l.length))

/-- evaluator.py 588-594: one pass of the loop over groups; the state is the start index and the groups so far. -/
def groupStep {α : Type} (xs : List α) (groups : ℕ) (s : ℕ × List (List α)) (g : ℕ) : ℕ × List (List α) :=
  let size := xs.length / groups + (if g < xs.length % groups then 1 else 0)
  (s.1 + size, s.2 ++ [(xs.drop s.1).take size])

/-- evaluator.py 585-595: the respondents of each group, in the order of the latent variable. -/
def groupSlices {α : Type} (xs : List α) (groups : ℕ) : List (List α) :=
  ((List.range groups).foldl (groupStep xs groups) (0, [])).2

/-- evaluator.py 574-596 `group_fit_log_likelihood`. `order` is the second result of `torch.sort` on the latent
variable. The mask is the one of the data before sorting (line 574). -/
noncomputable def groupFitLogLikelihood {d : ℕ} (m : Scorer d) (order : List ℕ) (groups : ℕ) (theta : Thetas d)
    (data : List (List Cell)) : Except PyErr (List (Option Logit)) := do
  let mask := data.map fun r => r.map cellMissing
  let theta := takeRows theta order
  let data := takeRows data order
  let ll ← m.logLik (theta.map m.forward) data.flatten mask.flatten
  let respondents := (view m.items ll).map strictSum
  return (groupSlices respondents groups).map strictMean

/-! ## Groups of respondents (242-266, 637-670, 1017-1060) -/

/-- `torch.bincount(xs, minlength=m)`. -/
def bincount (xs : List ℤ) (m : ℕ) : Except PyErr (List ℕ) :=
  if xs.any fun x => decide (x < 0) then .error .runtimeError
  else .ok ((List.range (max m (xs.foldr (fun x acc => max (x.toNat + 1) acc) 0))).map fun k : ℕ => xs.count (k : ℤ))

/-- evaluator.py 1056-1058: the observed proportions of one item in one group, assigned to a row of `M` entries. -/
noncomputable def groupProportions (M : ℕ) (col : List Cell) : Except PyErr (List Num) := do
  let counts ← bincount (col.filterMap fun c => if cellMissing c then none else c) M
  if counts.length ≠ M then .error .runtimeError
  else return counts.map fun k : ℕ => floatDiv k (counts.sum : ℕ)

/-- evaluator.py 1052-1060 `_grouped_data_probabilities`. -/
noncomputable def groupedDataProbabilities (M items : ℕ) (groups : List (List (List Cell))) :
    Except PyErr (List (List (List Num))) :=
  groups.mapM fun g => (List.range items).mapM fun j => groupProportions M (g.map fun r => r.getD j none)

/-- evaluator.py 1031-1035 `_grouped_theta_probabilities`. -/
noncomputable def groupedThetaProbabilities {d : ℕ} (M items : ℕ) (probs : (Fin d → ℝ) → List (List ℝ))
    (groups : List (Thetas d)) : List (List (List Num)) :=
  groups.map fun g => (List.range items).map fun j => (List.range M).map fun k =>
    floatDiv (g.map fun t => ((probs t).getD j []).getD k 0).sum (g.length : ℕ)

/-- `.mean()` of a column. -/
noncomputable def groupMean (xs : List ℝ) : Num := floatDiv xs.sum (xs.length : ℕ)

/-- `.median()` of a column: the lower of the two middle values. -/
noncomputable def groupMedian (xs : List ℝ) : Num := (xs.mergeSort fun a b => decide (a ≤ b))[(xs.length - 1) / 2]?

/-- What `latent_group_probabilities` returns. -/
structure GroupProbabilities where
  observed : List (List (List Num))
  model : List (List (List Num))
  midPoints : List Num

/-- evaluator.py 637-670 `latent_group_probabilities` for latent variable `k`. `sort` is the second result of
`torch.sort`, the positions in increasing order. -/
noncomputable def latentGroupProbabilities {d : ℕ} (f : FittedModel d) (sort : List ℝ → List ℕ) (k : Fin d)
    (groups : ℤ) (rescale : Bool) (theta : Thetas d) (data : List (List Cell)) : Except PyErr GroupProbabilities :=
  if rescale && !f.scales.isEmpty then do
    let transformed ← transformTheta f.scales theta
    let order := sort (transformed.map fun t => t k)
    let groupedTransformed ← torchChunk (takeRows transformed order) groups
    let groupedTheta ← torchChunk (takeRows theta order) groups
    let groupedData ← torchChunk (takeRows data order) groups
    let observed ← groupedDataProbabilities (maxCats f.cats) f.cats.length groupedData
    return ⟨observed, groupedThetaProbabilities (maxCats f.cats) f.cats.length f.probs groupedTheta,
      groupedTransformed.map fun g => groupMean (g.map fun t => t k)⟩
  else do
    let order := sort (theta.map fun t => t k)
    let groupedTheta ← torchChunk (takeRows theta order) groups
    let groupedData ← torchChunk (takeRows data order) groups
    let observed ← groupedDataProbabilities (maxCats f.cats) f.cats.length groupedData
    return ⟨observed, groupedThetaProbabilities (maxCats f.cats) f.cats.length f.probs groupedTheta,
      groupedTheta.map fun g => groupMedian (g.map fun t => t k)⟩

/-- evaluator.py 253: the difference of an observed and a model proportion. -/
noncomputable def rawResidual (o m : Num) : Num := o.bind fun x => m.map fun y => x - y

/-- evaluator.py 259: standardised; `none` for NaN and for the infinity of a variance zero. -/
noncomputable def standardResidual (n : ℕ) (o m : Num) : Num :=
  (rawResidual o m).bind fun r => m.bind fun p => floatDiv r (Real.sqrt (p * (1 - p) / n))

/-- evaluator.py 242-266 `group_fit_residuals`. `data` is the argument of the caller; with `None` the training data
`trainData` is used for the proportions, but `torch.chunk(None, groups)` (256) raises. Line 242 passes keyword arguments
on to a function that accepts none (`TypeError`); they are not modelled. -/
noncomputable def groupFitResiduals {d : ℕ} (f : FittedModel d) (sort : List ℝ → List ℕ) (k : Fin d) (groups : ℤ)
    (rescale standardize : Bool) (theta : Thetas d) (trainData : List (List Cell)) (data : Option (List (List Cell))) :
    Except PyErr (List (List (List Num)) × List Num) := do
  let g ← latentGroupProbabilities f sort k groups rescale theta (data.getD trainData)
  if standardize then
    match data with
    | none => .error .typeError
    | some rows =>
      let chunks ← torchChunk rows groups
      return (List.zipWith (fun c (om : List (List Num) × List (List Num)) =>
        List.zipWith (fun o m => List.zipWith (standardResidual c.length) o m) om.1 om.2)
        chunks (List.zip g.observed g.model), g.midPoints)
  else
    return (List.zipWith (fun o m => List.zipWith (fun (c : ℕ) (om : List Num × List Num) =>
      (List.zipWith rawResidual om.1 om.2).mapIdx fun i x => if i < c then x else none) f.cats (List.zip o m))
      g.observed g.model, g.midPoints)

/-! ## Sum score probabilities (819-839, 982-1014, 1062-1153) -/

/-- evaluator.py 1007-1014: from one standard deviation below the smallest score to one above the largest.
(`std` has divisor `n - 1`; with one score it is NaN, `none`.) -/
noncomputable def integrationRange (xs : List ℝ) : Option (ℝ × ℝ) :=
  if xs.length ≤ 1 then none
  else some (columnMin xs - listStd xs, columnMax xs + listStd xs)

/-- evaluator.py 1134-1148: the grid of `segments` points for each latent variable. -/
noncomputable def integrationGrid {d : ℕ} (segments : ℕ) (scores : Thetas d) : Option (Thetas d) :=
  ((List.finRange d).mapM fun k => integrationRange (scores.map fun t => t k)).map fun ranges =>
    cartesianProd fun k : Fin d =>
      let r := ranges.getD k (0, 0)
      linspace r.1 r.2 segments

/-- evaluator.py 1084-1092: the population scores. `draws` are the draws from the normal distribution after MML. Without
training scores and MML the name `theta_scores` is unbound. Scores of population data are always those of the encoder
(`theta_estimation="NN"`). -/
noncomputable def populationScores {d : ℕ} (f : FittedModel d) (isMml : Bool) (draws : Thetas d) (width : ℕ)
    (population : Option (List (List Num))) : Except PyErr (Thetas d) :=
  match population with
  | none =>
    match f.attrs.trainingThetas with
    | none => .error .attributeError
    | some (some ts) => .ok ts
    | some none => if isMml then .ok draws else .error .nameError
  | some data => do
    let s ← latentScores f width data "NN" false false none
    return s.1.getD []

/-- evaluator.py 1062-1111, 1150-1153: the theta values and their weights. `scores` are the population scores (training scores,
draws from the normal distribution after MML, or scores of the population data); `pdf` is the fitted latent density
(`QuantileMVNormal.pdf` or `GaussianMixtureModel.pdf`). `sample_latent_variables` is called without its argument `model`
(1100-1102), a `TypeError`. A result `none` stands for NaN weights. -/
noncomputable def thetaWeights {d : ℕ} (method : String) (isVae : Bool) (scores : Thetas d) (segments : ℕ)
    (pdf : (Fin d → ℝ) → ℝ) : Except PyErr (Option (List ((Fin d → ℝ) × ℝ))) :=
  if method ∉ ["data", "encoder sampling", "qmvn", "gmm"] then .error .valueError
  else if method = "encoder sampling" ∧ isVae = false then .error .valueError
  else if method = "encoder sampling" then .error .typeError
  else if method = "data" then .ok (some (scores.map fun t => (t, 1 / (scores.length : ℝ))))
  else
    .ok ((integrationGrid segments scores).bind fun grid =>
      if (grid.map pdf).sum = 0 then none else some (grid.map fun t => (t, pdf t / (grid.map pdf).sum)))

/-- `(dists * weights.view(-1, 1)).sum(dim=0)`: the sum over the rows, `len` being their common length. -/
noncomputable def weightedRows (len : ℕ) (rows : List (List ℝ × ℝ)) : List ℝ :=
  (List.range len).map fun s => (rows.map fun r => r.1.getD s 0 * r.2).sum

/-- evaluator.py 819-839 `sum_score_probabilities`; `none` for NaN. (A negative key counts from the end in
`sum_incorrect_probabilities`; not modelled.) -/
noncomputable def sumScoreProbabilities {d : ℕ} (probs : (Fin d → ℝ) → List (List ℝ)) (cats : List ℕ)
    (mc : Option (List ℕ)) (method : String) (isVae : Bool) (scores : Thetas d) (segments : ℕ)
    (pdf : (Fin d → ℝ) → ℝ) : Except PyErr (Option (List ℝ)) := do
  let w ← thetaWeights method isVae scores segments pdf
  match w with
  | none => return none
  | some pts =>
    let table := fun t => match mc with
      | some keys => sumIncorrectProbabilities (probs t) keys
      | none => probs t
    let cats := match mc with
      | some _ => List.replicate cats.length 2
      | none => cats
    let rows ← pts.mapM fun tw => do
      let dist ← conditionalScoreDistribution (table tw.1) cats
      return (dist, tw.2)
    return some (weightedRows (cats.sum - cats.length + 1) rows)

/-! ## The latent density an evaluator keeps (evaluator.py 37-39, 101-107, 1113-1132) -/

/-- The class of `Evaluator.latent_density`. -/
inductive DensityKind
  | qmvn | gmm
  deriving DecidableEq

/-- A fitted latent density: its class and the scores it was fitted to. (The numbers in it are those of the classes
modelled in `Mixture.lean` and `LatentFunctions.lean`.) -/
structure FittedDensity (d : ℕ) where
  kind : DensityKind
  scores : Thetas d

/-- evaluator.py 1120-1132: the density used by a call with method `kind` whose population scores are `scores`;
`population` says whether population data was given, `stored` is `self.latent_density` before the call. It is stored. -/
def densityForCall {d : ℕ} (stored : Option (FittedDensity d)) (kind : DensityKind) (population : Bool)
    (scores : Thetas d) : FittedDensity d :=
  if population || decide (stored.map FittedDensity.kind ≠ some kind) then ⟨kind, scores⟩
  else stored.getD ⟨kind, scores⟩

/-- One use of an evaluator that touches the density: a call of `sum_score_probabilities` with 'qmvn' or 'gmm', without
population data (the scores being those of the training data at that time) or with the scores of population data; or a
call of `approximate_latent_density` (101-107). -/
inductive DensityUse (d : ℕ)
  | training (kind : DensityKind) (scores : Thetas d)
  | population (kind : DensityKind) (scores : Thetas d)
  | approximate (kind : DensityKind) (scores : Thetas d)

/-- `self.latent_density` after a use. -/
def DensityUse.run {d : ℕ} (stored : Option (FittedDensity d)) : DensityUse d → Option (FittedDensity d)
  | .training k s => some (densityForCall stored k false s)
  | .population k s => some (densityForCall stored k true s)
  | .approximate k s => some ⟨k, s⟩

end Irt
