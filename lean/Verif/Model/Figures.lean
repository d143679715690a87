import Verif.Model.Plotter
import Verif.Model.Sampling
import Mathlib.Analysis.SpecialFunctions.Log.Base

/-! # The data behind the histogram, contour, heat map and history plots of plotter.py

As in Model/Plotter, what is modelled is the data handed to plotly. -/

namespace Irt

/-- plotter.py 60-64 and 68-72: the points of one curve. -/
def historyFrame (losses : List ℝ) (type : String) : List (ℕ × ℝ × String) :=
  List.zipWith (fun x y => (x, y, type)) ((List.range losses.length).map fun i => i + 1) losses

/-- plotter.py 59-66 and 67-74: the frame of a curve that is in the history and not empty. -/
def historyCurve (history : List (String × List ℝ)) (key type : String) : List (List (ℕ × ℝ × String)) :=
  match history.lookup key with
  | some losses => if 0 < losses.length then [historyFrame losses type] else []
  | none => []

/-- plotter.py 48-90 `training_history`: the points of the figure and whether it has a legend. The history is the
dictionary `algorithm.training_history`. -/
def trainingHistoryPlot (history : List (String × List ℝ)) : Except PyErr (List (ℕ × ℝ × String) × Bool) :=
  if history.all fun kv => kv.2.isEmpty then .error .attributeError
  else
    let frames := historyCurve history "train_loss" "Training" ++ historyCurve history "validation_loss" "Validation"
    if frames.isEmpty then .error .valueError
    else .ok (frames.flatten, decide (1 < (frames.flatten.map fun p => p.2.2).dedup.length))

/-- numpy's `_get_outer_edges` and `linspace`, called by `np.histogram2d` (plotter.py 1296): the edges of the bins along
one axis. -/
noncomputable def histEdges (xs : List ℝ) (bins : ℕ) : List ℝ :=
  if xs = [] then linspace 0 1 (bins + 1)
  else if columnMin xs = columnMax xs then linspace (columnMin xs - 1 / 2) (columnMax xs + 1 / 2) (bins + 1)
  else linspace (columnMin xs) (columnMax xs) (bins + 1)

/-- numpy's `histogramdd`, called by `np.histogram2d` (plotter.py 1296): `searchsorted(edges, x, side="right")`, minus one for a
value equal to the last edge. -/
noncomputable def histBin (edges : List ℝ) (x : ℝ) : ℕ :=
  edges.countP (fun e => decide (e ≤ x)) - if x = edges.getLastD 0 then 1 else 0

/-- A contour plot: heights by row (second variable) and column (first variable), and the centres of the columns and
rows. -/
structure Contour where
  z : List (List Num)
  x : List ℝ
  y : List ℝ

/-- plotter.py 1297-1298: the centres of the bins. -/
noncomputable def binCenters (edges : List ℝ) : List ℝ :=
  List.zipWith (fun a b => (a + b) / 2) edges.dropLast edges.tail

/-- plotter.py 1296 `np.histogram2d(..., density=True)`: the height in bin `k` of the first and bin `l` of the second
variable. Without points it is 0/0. -/
noncomputable def histDensity (pts : List (ℝ × ℝ)) (ex ey : List ℝ) (bins k l : ℕ) : Num :=
  let hist : ℕ → ℕ → ℝ := fun k l =>
    (pts.countP fun p => decide (histBin ex p.1 = k + 1 ∧ histBin ey p.2 = l + 1) : ℕ)
  let total := ((List.range bins).map fun k => ((List.range bins).map fun l => hist k l).sum).sum
  if total = 0 then none
  else some (hist k l / (ex.getD (k + 1) 0 - ex.getD k 0) / (ey.getD (l + 1) 0 - ey.getD l 0) / total)

/-- plotter.py 1294-1306 `_two_latent_variables_distribution_plot`. The default number of bins of no points is
`int(-inf)`, an `OverflowError` (written as `valueError`); a number of bins that is not positive is refused by numpy. -/
noncomputable def contourPlot (pts : List (ℝ × ℝ)) (bins : Option ℤ) : Except PyErr Contour :=
  if pts = [] ∧ bins = none then .error .valueError
  else
    let b : ℤ := match bins with
      | some b => b
      | none => ⌊Real.logb 2 pts.length⌋ + 1
    if b < 1 then .error .valueError
    else
      let ex := histEdges (pts.map Prod.fst) b.toNat
      let ey := histEdges (pts.map Prod.snd) b.toNat
      .ok ⟨(List.range b.toNat).map fun l => (List.range b.toNat).map fun k => histDensity pts ex ey b.toNat k l,
        binCenters ex, binCenters ey⟩

/-- A plot of the distribution of scores: the values of a histogram, or a contour plot. -/
inductive ScorePlot
  | histogram (values : List ℝ)
  | contour (c : Contour)

/-- plotter.py 1250-1265 `_distribution_plot` of the selected columns, and 1274 for a histogram: `squeeze` of the scores of
one respondent leaves no dimension, which pandas refuses. -/
noncomputable def distributionPlot {d : ℕ} (scores : Thetas d) (columns : List (Fin d)) (bins : Option ℤ) :
    Except PyErr ScorePlot :=
  match columns with
  | [] => .error .indexError
  | [i] => if scores.length = 1 then .error .valueError else .ok (.histogram (scores.map fun r => r i))
  | [i, j] => (contourPlot (scores.map fun r => (r i, r j)) bins).map .contour
  | _ => .error .valueError

/-- plotter.py 141-176 `latent_score_distribution`. `latentScores` is `model.latent_scores` with the keyword arguments. -/
noncomputable def latentScoreDistribution {d : ℕ} {δ : Type} (trainData : δ) (latentScores : δ → Bool → Except PyErr (Thetas d))
    (given : Option (Thetas d)) (population : Option δ) (lv : List ℤ) (bins : Option ℤ) (rescale : Bool) :
    Except PyErr ScorePlot := do
  if 2 < lv.length then .error .valueError
  else if d < lv.length then .error .valueError
  else
    let scores ← match given with
      | some s => .ok s
      | none => latentScores (population.getD trainData) rescale
    let columns ← lv.mapM (plotIndex d)
    distributionPlot scores columns bins

/-- plotter.py 474-503 `item_latent_variable_relationships`: the heat map, one row for each item and one column for each
latent variable. `training` is `algorithm.training_theta_scores`. -/
noncomputable def relationshipPlot {d : ℕ} (probs : (Fin d → ℝ) → List (List ℝ)) (cats : List ℕ) (mc : Option (List ℤ))
    (scales : List (Scale d)) (training : Option (Thetas d)) (given : Option (List (Fin d → ℝ)))
    (theta : Option (Thetas d)) : Except PyErr (Option (List (Fin d → ℝ))) :=
  match given with
  | some r => .ok (some r)
  | none => match theta with
    | some t => populationDiscrimination probs cats mc scales true t
    | none => match training with
      | some t => populationDiscrimination probs cats mc scales true t
      | none => .error .valueError

/-- plotter.py 409 and 415 `data.sum().item()`: NaN if a response is. -/
def responseSum (data : List Cell) : Option ℤ := (data.mapM id).map List.sum

/-- plotter.py 349-437 `log_likelihood(expected_sum_score=True)`: the points of the curve and the position of the vertical
line called "Observed sum score". With two latent variables line 429 asks for the second column of a tensor that has
one. -/
noncomputable def likelihoodSumPlot {d : ℕ} (m : PlotModel d) (probs : (Fin d → ℝ) → List (List ℝ)) (M : ℕ)
    (mc : Option (List ℤ)) (s : Scorer d) (data : List Cell) (keep : Option (ℕ → Bool)) (lv : List ℤ)
    (range1 range2 : Option (ℝ × ℝ)) (steps : ℕ) (fixed : Option (Fin d → ℝ)) (rescale : Bool) :
    Except PyErr (List (ℝ × Num) × Option ℤ) := do
  let idx ← plotIndices d lv
  let grid ← plotGrid m idx range1 range2 steps fixed rescale
  let scores ← sumScoreQuantity probs M mc none grid
  let values ← logLikQuantity s data keep grid
  match idx with
  | [_] => return (← trimCurve scores values, responseSum data)
  | _ => throw .indexError

end Irt
