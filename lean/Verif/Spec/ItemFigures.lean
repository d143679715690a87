import Verif.Model.ItemFigures

/-! # What the figures of item probabilities should show -/

namespace Irt.Spec

/-- The label of a category in the legend: the options of an item with an answer key count from one, scores from zero. -/
def categoryLabel (hasKey : Bool) (i : ℕ) : String := if hasKey then "Option " ++ toString (i + 1) else toString i

/-- The colours of a palette, used in turn. -/
def turnColour (palette : List Colour) (i : ℕ) : Option Colour := palette[i % palette.length]?

/-- The lines of a figure. -/
def linesOf (fig : List Trace) : List Trace := fig.filter fun t => decide (t.kind = .line)

/-- The markers of one kind in a figure. -/
def markersOf (k : TraceKind) (fig : List Trace) : List Trace := fig.filter fun t => decide (t.kind = k)

end Irt.Spec
