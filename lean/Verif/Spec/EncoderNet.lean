import Verif.Model.EncoderNet

/-! # What encoder scores are to be -/

namespace Irt.Spec

/-- What one layer of a trained network makes of one row: an affine map; standardisation by the stored mean and
variance, followed by scale and shift; a function of each number. `none`: the row has not the size of the layer. -/
noncomputable def layerValue : NetLayer → List ℝ → Option (List ℝ)
  | .linear a rows, x =>
    if x.length = a then some (rows.map fun p => (List.zipWith (· * ·) p.1 x).sum + p.2) else none
  | .batchNorm k scale shift mean var, x =>
    if x.length = k then
      some (x.mapIdx fun j t => (t - mean j) / Real.sqrt (var j + 1 / 100000) * scale j + shift j) else none
  | .pointwise φ, x => some (x.map φ)

/-- What a trained network makes of one row. -/
noncomputable def netValue (layers : List NetLayer) (x : List ℝ) : Option (List ℝ) :=
  layers.foldlM (fun x l => layerValue l x) x

/-- A table of results is computed row by row: `f` succeeds exactly if `g` has a value for every row, and then
returns these values. So the value of a row depends neither on the other rows nor on the order of the rows. -/
def RowByRow {α β : Type} (f : List α → Except PyErr (List β)) (g : α → Option β) : Prop :=
  ∀ rows out, f rows = .ok out ↔ rows.mapM g = some out

/-- A fit of algorithm object `i`. -/
def IsFitOf (i : ℕ) : EncoderCall → Prop
  | .fit j .. => j = i
  | .score .. => False

/-- A fit that returned. -/
def Returned : EncoderCall → Prop
  | .fit _ _ _ oneHot imputation (.completed _) => oneHot = true ∨ imputation ≠ none
  | _ => False

end Irt.Spec
