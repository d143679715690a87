import Verif.Model.Rescale
import Verif.Model.Scoring
import Verif.Model.Evaluator
import Verif.Model.Information
import Verif.Model.Bit

/-! # The data behind the curves and surfaces of plotter.py

What is modelled is the tensors handed to plotly: the points of each line and surface. Titles, labels and
colours are not; the histogram, contour, heat map and history plots are in Model/Figures. -/

namespace Irt

/-- What the plots use of a fitted model: its scale transformations, each with its `invertible` attribute, and
`algorithm.training_theta_scores` (`none` when the algorithm has none, as after MML; otherwise not empty). -/
structure PlotModel (d : ℕ) where
  scales : List (Scale d × Bool)
  training : Option (Thetas d)

/-- The attached transformations. -/
def PlotModel.scaleList {d : ℕ} (m : PlotModel d) : List (Scale d) := m.scales.map Prod.fst

/-- plotter.py 907-913: `use_transformed_train_theta`. -/
def PlotModel.useTransformed {d : ℕ} (m : PlotModel d) (rescale : Bool) : Bool :=
  !m.scales.isEmpty && m.scales.all Prod.snd && rescale && m.training.isSome

/-- plotter.py 915-923: `theta_source`. -/
def plotSource {d : ℕ} (m : PlotModel d) (rescale : Bool) : Except PyErr (Option (Thetas d)) :=
  match m.training with
  | some t => if m.useTransformed rescale then (transformTheta m.scaleList t).map some else .ok (some t)
  | none => .ok none

/-- plotter.py 925-929: `fixed_thetas`. Given values are a vector indexed by latent variable here, of which only the
entries of variables that are not plotted are used; in the code they are listed in order. -/
noncomputable def plotFixed {d : ℕ} (src : Option (Thetas d)) (fixed : Option (Fin d → ℝ)) : Fin d → ℝ :=
  match fixed with
  | some f => f
  | none => match src with
    | some t => fun k => lowerMedian (t.map fun r => r k)
    | none => fun _ => 0

/-- plotter.py 931-947: `theta_range` and `second_theta_range`. -/
noncomputable def plotRange {d : ℕ} (src : Option (Thetas d)) (k : Fin d) (range : Option (ℝ × ℝ)) : ℝ × ℝ :=
  match range with
  | some r => r
  | none => match src with
    | some t => (columnMin (t.map fun r => r k), columnMax (t.map fun r => r k))
    | none => (-3, 3)

/-- plotter.py 949-964: the rows before the transformation back, for one or two latent variables. (No latent variable
raises an error of some kind.) -/
noncomputable def plotRows {d : ℕ} (src : Option (Thetas d)) (lv : List (Fin d)) (range1 range2 : Option (ℝ × ℝ))
    (steps : ℕ) (fixed : Option (Fin d → ℝ)) : Except PyErr (Thetas d) :=
  match lv with
  | [i] => .ok ((linspace (plotRange src i range1).1 (plotRange src i range1).2 steps).map fun a k =>
      if k = i then a else plotFixed src fixed k)
  | [i, j] => .ok ((linspace (plotRange src i range1).1 (plotRange src i range1).2 steps).flatMap fun a =>
      (linspace (plotRange src j range2).1 (plotRange src j range2).2 steps).map fun b k =>
        if k = j then b else if k = i then a else plotFixed src fixed k)
  | _ => .error .typeError

/-- plotter.py 904-967 `_get_theta_grid_for_plotting`. -/
noncomputable def plotGrid {d : ℕ} (m : PlotModel d) (lv : List (Fin d)) (range1 range2 : Option (ℝ × ℝ)) (steps : ℕ)
    (fixed : Option (Fin d → ℝ)) (rescale : Bool) : Except PyErr (Thetas d) := do
  let src ← plotSource m rescale
  let rows ← plotRows src lv range1 range2 steps fixed
  if m.useTransformed rescale then inverseTransformTheta m.scaleList rows else return rows

/-- plotter.py 229-234 (the same in every plot): the checks on the latent variables. -/
def plotChecks (d : ℕ) (lv : List ℤ) : Except PyErr Unit :=
  if 2 < lv.length then .error .typeError
  else if d < lv.length then .error .typeError
  else if ∃ v ∈ lv, (d : ℤ) < v then .error .typeError
  else .ok ()

/-- plotter.py 242: the column `v - 1` of a latent variable `v`, with a negative column counted from the end. -/
def plotIndex (d : ℕ) (v : ℤ) : Except PyErr (Fin d) :=
  if h : 0 ≤ v - 1 ∧ v - 1 < d then .ok ⟨(v - 1).toNat, by omega⟩
  else if h : v - 1 < 0 ∧ 0 ≤ v - 1 + d then .ok ⟨(v - 1 + d).toNat, by omega⟩
  else .error .indexError

/-- plotter.py 229-242: the columns of the latent variables to plot. -/
def plotIndices (d : ℕ) (lv : List ℤ) : Except PyErr (List (Fin d)) := do
  plotChecks d lv
  lv.mapM (plotIndex d)

/-- plotter.py 249-250 and 252: the scores of the rows, all columns. -/
def plotScores {d : ℕ} (m : PlotModel d) (rescale : Bool) (grid : Thetas d) : Except PyErr (Thetas d) :=
  if rescale && !m.scales.isEmpty then transformTheta m.scaleList grid else .ok grid

/-- plotter.py 257-267 (and 387-396, 748-757, 870-879, 1058-1067): the points of a line. -/
noncomputable def trimCurve {β : Type} (xs : List ℝ) (ys : List β) : Except PyErr (List (ℝ × β)) :=
  if xs = [] then .error .runtimeError
  else
    let minIndices := (List.range xs.length).filter fun i => decide (xs.getD i 0 = columnMin xs)
    if minIndices.getLastD 0 = xs.length - 1 then
      .ok ((xs.take (minIndices.headD 0)).zip (ys.take (minIndices.headD 0)))
    else .ok ((xs.drop (minIndices.getLastD 0)).zip (ys.drop (minIndices.getLastD 0)))

/-- The line of `item_entropy` (plotter.py 228-278), `log_likelihood` (349-404), `expected_sum_score` (831-890) and
`item_probabilities` with fixed values given (567-648), for one latent variable `i`. `quantity` computes the ordinate
of every row. -/
noncomputable def linePlot {d : ℕ} {β : Type} (m : PlotModel d) (quantity : Thetas d → Except PyErr (List β))
    (i : Fin d) (range : Option (ℝ × ℝ)) (steps : ℕ) (fixed : Option (Fin d → ℝ)) (rescale : Bool) :
    Except PyErr (List (ℝ × β)) := do
  let grid ← plotGrid m [i] range none steps fixed rescale
  let values ← quantity grid
  let scores ← plotScores m rescale grid
  trimCurve (scores.map fun r => r i) values

/-- The surface of the same plots for two latent variables (plotter.py 280-290, 891-902): the points in the order of
the grid; the reshaping to a square keeps it. -/
noncomputable def surfacePlot {d : ℕ} {β : Type} (m : PlotModel d) (quantity : Thetas d → Except PyErr (List β))
    (i j : Fin d) (range1 range2 : Option (ℝ × ℝ)) (steps : ℕ) (fixed : Option (Fin d → ℝ)) (rescale : Bool) :
    Except PyErr (List (ℝ × ℝ × β)) := do
  let grid ← plotGrid m [i, j] range1 range2 steps fixed rescale
  let values ← quantity grid
  let scores ← plotScores m rescale grid
  return List.zipWith (fun r v => (r i, r j, v)) scores values

/-- Either kind of plot, from the arguments a user gives. -/
inductive Drawn (β : Type)
  | line (points : List (ℝ × β))
  | surface (points : List (ℝ × ℝ × β))

/-- plotter.py 228-290: checks, then a line or a surface. -/
noncomputable def drawPlot {d : ℕ} {β : Type} (m : PlotModel d) (quantity : Thetas d → Except PyErr (List β))
    (lv : List ℤ) (range1 range2 : Option (ℝ × ℝ)) (steps : ℕ) (fixed : Option (Fin d → ℝ)) (rescale : Bool) :
    Except PyErr (Drawn β) := do
  let idx ← plotIndices d lv
  match idx with
  | [i] => return .line (← linePlot m quantity i range1 steps fixed rescale)
  | [i, j] => return .surface (← surfacePlot m quantity i j range1 range2 steps fixed rescale)
  | _ => throw .typeError

/-- plotter.py 849-854: the ordinates of `expected_sum_score`. `items` are positions; one listed twice counts twice. -/
noncomputable def sumScoreQuantity {d : ℕ} (probs : (Fin d → ℝ) → List (List ℝ)) (M : ℕ) (mc : Option (List ℤ))
    (items : Option (List ℕ)) (grid : Thetas d) : Except PyErr (List ℝ) :=
  grid.mapM fun θ => match items with
    | some l => do
      let e ← expectedItemScores (probs θ) M mc
      let picked ← l.mapM fun i => match e[i]? with
        | some x => (.ok x : Except PyErr ℝ)
        | none => .error .indexError
      return picked.sum
    | none => expectedSumScore (probs θ) M mc

/-- plotter.py 246-247: the ordinates of `item_entropy` for the item at position `item`. `entropy` checks every
distribution of the tensor. -/
noncomputable def entropyQuantity {d : ℕ} (probs : (Fin d → ℝ) → List (List ℝ)) (item : ℕ) (grid : Thetas d) :
    Except PyErr (List ℝ) :=
  grid.mapM fun θ => do
    let e ← (probs θ).mapM (entropy 2)
    match e[item]? with
    | some x => .ok x
    | none => .error .indexError

/-- plotter.py 611: the ordinates of `item_probabilities`: the first `cats[item]` probabilities of the item. -/
def probabilityQuantity {d : ℕ} (probs : (Fin d → ℝ) → List (List ℝ)) (cats : List ℕ) (item : ℕ) (grid : Thetas d) :
    Except PyErr (List (List ℝ)) :=
  grid.mapM fun θ => match (probs θ)[item]?, cats[item]? with
    | some p, some k => .ok (p.take k)
    | _, _ => .error .indexError

/-- `.sum(dim=1)` of one row of numbers: NaN if an entry is. -/
noncomputable def plainSum (row : List Num) : Num := (row.mapM id).map List.sum

/-- plotter.py 375-382: the ordinates of `log_likelihood` for one respondent's responses; `keep` is the item mask. -/
noncomputable def logLikQuantity {d : ℕ} (s : Scorer d) (data : List Cell) (keep : Option (ℕ → Bool))
    (grid : Thetas d) : Except PyErr (List Num) := do
  let r ← evaluatorLogLikelihood s "none" "all" grid (List.replicate grid.length data)
  match r with
  | .matrix rows => return rows.map fun row => match keep with
    | some k => plainSum (((List.range row.length).filter k).map fun j => row.getD j none)
    | none => plainSum row
  | _ => throw .runtimeError

/-- plotter.py 590-601: the fixed values of `item_probabilities`, medians of the scores as they were estimated. -/
noncomputable def probabilityFixed {d : ℕ} (m : PlotModel d) (fixed : Option (Fin d → ℝ)) : Fin d → ℝ :=
  plotFixed m.training fixed

/-- plotter.py 567-648 `item_probabilities` for one latent variable. -/
noncomputable def probabilityPlot {d : ℕ} (m : PlotModel d) (probs : (Fin d → ℝ) → List (List ℝ)) (cats : List ℕ)
    (item : ℕ) (i : Fin d) (range : Option (ℝ × ℝ)) (steps : ℕ) (fixed : Option (Fin d → ℝ)) (rescale : Bool) :
    Except PyErr (List (ℝ × List ℝ)) :=
  linePlot m (probabilityQuantity probs cats item) i range steps (some (probabilityFixed m fixed)) rescale

/-- plotter.py 706-765 `information` for one latent variable. With a scale all columns of the transformed rows are
kept (729), and a table with more than one column and row is refused by `pd.DataFrame` (978). (A single step is not
modelled for more than one latent variable.) -/
noncomputable def informationLine {d : ℕ} (m : PlotModel d) (quantity : Thetas d → Except PyErr (List ℝ))
    (degrees : Option (List ℝ)) (i : Fin d) (range : Option (ℝ × ℝ)) (steps : ℕ) (fixed : Option (Fin d → ℝ))
    (rescale : Bool) : Except PyErr (List (ℝ × ℝ)) := do
  if degrees = none ∧ 1 < d then throw .valueError
  let grid ← plotGrid m [i] range none steps fixed rescale
  let scores ← plotScores m rescale grid
  let values ← quantity grid
  if rescale && !m.scales.isEmpty && decide (1 < d) then throw .valueError
  trimCurve (scores.map fun r => r i) values

/-- plotter.py 766-777 `information` for two latent variables: with a scale the axes are the first two columns of the
transformed rows. -/
noncomputable def informationSurface {d : ℕ} (m : PlotModel d) (quantity : Thetas d → Except PyErr (List ℝ))
    (degrees : Option (List ℝ)) (i j : Fin d) (range1 range2 : Option (ℝ × ℝ)) (steps : ℕ)
    (fixed : Option (Fin d → ℝ)) (rescale : Bool) : Except PyErr (List (ℝ × ℝ × ℝ)) := do
  if degrees = none ∧ 1 < d then throw .valueError
  let grid ← plotGrid m [i, j] range1 range2 steps fixed rescale
  let scores ← plotScores m rescale grid
  let values ← quantity grid
  if h : (rescale && !m.scales.isEmpty) = true ∧ 1 < d then
    return List.zipWith (fun r v => (r ⟨0, by omega⟩, r ⟨1, h.2⟩, v)) scores values
  else return List.zipWith (fun r v => (r i, r j, v)) scores values

/-- plotter.py 1378-1412 `scale_transformations`: one line per latent variable. -/
noncomputable def scalePlot {d : ℕ} (m : PlotModel d) (i : Fin d) (range : Option (ℝ × ℝ)) (steps : ℕ)
    (fixed : Option (Fin d → ℝ)) : Except PyErr (List (List (ℝ × ℝ))) := do
  let grid ← plotGrid m [i] range none steps fixed false
  if m.scales.isEmpty then throw .valueError
  let transformed ← transformTheta m.scaleList grid
  return (List.finRange d).map fun k => List.zipWith (fun t u => (t i, u k)) grid transformed

end Irt
