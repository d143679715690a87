import Verif.Model.Plotter

/-!
# Figures of item probabilities: `irtorch/plotter.py` 1017-1214 and 1310-1334

Layout, titles and conversions to numpy are left out.
-/

namespace Irt

/-- plotter.py 1327-1330: the level of the three channels of the gray of category `i` of `n`, starting from `#b0b0b0` (176);
`astype(int)` cuts off the fraction. For a single category the code divides zero by zero; `nanInt` is what `astype(int)` makes of
NaN, which depends on the platform. -/
noncomputable def grayLevel (nanInt : ℤ) (n i : ℕ) : ℤ :=
  if n = 1 then nanInt else truncInt (176 + (0 - 176) * (i : ℝ) / ((n : ℝ) - 1))

/-- A colour of a trace: a name of the palette or a gray with a channel level. (The hexadecimal notation of line 1332 is left out.) -/
inductive Colour
  | named (name : String)
  | gray (level : ℤ)
  deriving DecidableEq

/-- plotter.py 1326-1333 `_generate_grayscale_colors`. -/
noncomputable def grayscaleColors (nanInt : ℤ) (n : ℕ) : List Colour := (List.range n).map fun i => .gray (grayLevel nanInt n i)

/-- Python's `l * n`. -/
def pyRepeat {α : Type} (n : ℕ) (l : List α) : List α := (List.replicate n l).flatten

/-- plotter.py 1081-1088: the colours of a figure with lines. `palette` is `px.colors.qualitative.Plotly`. -/
noncomputable def lineColors (nanInt : ℤ) (palette : List Colour) (gray : Bool) (n : ℕ) : List Colour :=
  let colors := if gray then grayscaleColors nanInt n else palette
  if colors.length < n then pyRepeat (n / colors.length + 1) colors else colors

/-- plotter.py 1181-1188: the colours of a figure with surfaces, and the palette afterwards: `colors += ...` changes the list
`px.colors.qualitative.Plotly` itself. -/
noncomputable def surfaceColors (nanInt : ℤ) (palette : List Colour) (gray : Bool) (n : ℕ) : List Colour × List Colour :=
  if gray then
    let colors := grayscaleColors nanInt n
    (if colors.length < n then colors ++ pyRepeat (n / colors.length + 1) colors else colors, palette)
  else
    let colors := if palette.length < n then palette ++ pyRepeat (n / palette.length + 1) palette else palette
    (colors, colors)

/-- The kinds of traces. -/
inductive TraceKind
  | line
  | data
  | model
  deriving DecidableEq

/-- `go.Scatter`: kind, name, colour, points. -/
structure Trace where
  kind : TraceKind
  name : String
  color : Option Colour
  points : List (Num × Num)

/-- The groups of respondents of a group fit: for each group the mean of the latent scores and the proportions of the categories of
the item in the data and from the model. -/
structure GroupFit where
  means : List Num
  data : List (List Num)
  model : List (List Num)

/-- plotter.py 1091-1120: the traces of one category. `pts` are the scores, each with the probabilities of the categories. -/
noncomputable def categoryTraces (hasKey : Bool) (colors : List Colour) (pts : List (ℝ × List ℝ)) (groups : Option GroupFit) (i : ℕ) :
    List Trace :=
  let color := colors[i % colors.length]?
  ⟨.line, if hasKey then "Option " ++ toString (i + 1) else toString i, color, pts.map fun p => (some p.1, p.2[i]?)⟩ ::
    match groups with
    | none => []
    | some g => [⟨.data, "Data", color, List.zip g.means (g.data.map fun r => r.getD i none)⟩,
        ⟨.model, "Model", color, List.zip g.means (g.model.map fun r => r.getD i none)⟩]

/-- plotter.py 1079-1120 `_item_probabilities_plot` after the trimming of lines 1058-1067 (`trimCurve`). -/
noncomputable def itemFigure (nanInt : ℤ) (palette : List Colour) (gray hasKey : Bool) (n : ℕ) (pts : List (ℝ × List ℝ))
    (groups : Option GroupFit) : List Trace :=
  (List.range n).flatMap (categoryTraces hasKey (lineColors nanInt palette gray n) pts groups)

/-- plotter.py 567-637 `item_probabilities` for one latent variable. `hasKey` says whether the model has an answer key. -/
noncomputable def probabilityFigure {d : ℕ} (nanInt : ℤ) (palette : List Colour) (m : PlotModel d) (probs : (Fin d → ℝ) → List (List ℝ))
    (cats : List ℕ) (hasKey gray : Bool) (item : ℕ) (i : Fin d) (range : Option (ℝ × ℝ)) (steps : ℕ) (fixed : Option (Fin d → ℝ))
    (rescale : Bool) (groups : Option GroupFit) : Except PyErr (List Trace) := do
  let pts ← probabilityPlot m probs cats item i range steps fixed rescale
  match cats[item]? with
  | some n => return itemFigure nanInt palette gray hasKey n pts groups
  | none => throw .indexError

/-- `go.Surface`: name, colour and the points by row and column. -/
structure Surface where
  name : String
  color : Option Colour
  points : List (List (ℝ × ℝ × Num))

/-- plotter.py 1167-1202 `_item_probabilities_3dplot`: the surfaces (without the empty traces of the legend) and the palette
afterwards. `reshape` to a square of another size raises a `ValueError`. -/
noncomputable def itemSurfaces (nanInt : ℤ) (palette : List Colour) (gray : Bool) (n : ℕ) (pts : List (ℝ × ℝ × List ℝ)) :
    Except PyErr (List Surface) × List Colour :=
  let steps := Nat.sqrt pts.length
  if steps * steps ≠ pts.length then (.error .valueError, palette)
  else
    let colors := surfaceColors nanInt palette gray n
    (.ok ((List.range n).map fun i => ⟨"Response " ++ toString i, colors.1[i % colors.1.length]?,
      viewRows steps steps (pts.map fun p => (p.1, p.2.1, p.2.2[i]?))⟩), colors.2)

/-- plotter.py 567-612 and 639-648 `item_probabilities` for two latent variables. -/
noncomputable def probabilitySurfaces {d : ℕ} (nanInt : ℤ) (palette : List Colour) (m : PlotModel d)
    (probs : (Fin d → ℝ) → List (List ℝ)) (cats : List ℕ) (gray : Bool) (item : ℕ) (i j : Fin d) (range1 range2 : Option (ℝ × ℝ))
    (steps : ℕ) (fixed : Option (Fin d → ℝ)) (rescale : Bool) : Except PyErr (List Surface) := do
  let pts ← surfacePlot m (probabilityQuantity probs cats item) i j range1 range2 steps (some (probabilityFixed m fixed)) rescale
  match cats[item]? with
  | some n => (itemSurfaces nanInt palette gray n pts).1
  | none => throw .indexError

/-- Figures of item probabilities a user draws in a session. -/
inductive FigureCall
  | lines (gray hasKey : Bool) (n : ℕ) (pts : List (ℝ × List ℝ)) (groups : Option GroupFit)
  | surfaces (gray : Bool) (n : ℕ) (pts : List (ℝ × ℝ × List ℝ))

/-- The palette after a figure. -/
noncomputable def FigureCall.palette (nanInt : ℤ) (p : List Colour) : FigureCall → List Colour
  | .lines .. => p
  | .surfaces gray n pts => (itemSurfaces nanInt p gray n pts).2

/-- The palette after a session. -/
noncomputable def paletteAfter (nanInt : ℤ) (p : List Colour) (calls : List FigureCall) : List Colour :=
  calls.foldl (fun q c => c.palette nanInt q) p

end Irt
