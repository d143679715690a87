import Verif.Model.Layout
import Verif.Spec.Tensor

/-! # Specification: what a tensor holds, and which layouts `log_likelihood` accepts -/

namespace Irt.Spec

/-- The tensor is a table of `N` rows and `K` columns with entries `f i j`. -/
structure Holds {α : Type*} (t : Strided α) (N K : ℕ) (f : ℕ → ℕ → α) : Prop where
  rows : t.n = N
  columns : t.m = K
  entry : ∀ i j, i < N → j < K → t.storage[t.offset + i * t.s0 + j * t.s1]? = some (f i j)

/-- Each column is a block of memory and the columns follow each other (a transposed fresh tensor, or a table that numpy
or pandas stores column by column). -/
def ColumnAfterColumn {α : Type*} (t : Strided α) : Prop := t.s0 = 1 ∧ t.s1 = t.n

/-- Going through the rows one after the other means steps of one size through the memory. -/
def OneStride {α : Type*} (t : Strided α) : Prop := t.s0 = t.m * t.s1

/-- More than one row and more than one column. -/
def IsTable2D {α : Type*} (t : Strided α) : Prop := 2 ≤ t.n ∧ 2 ≤ t.m

/-- The layouts that `log_likelihood` refuses: several respondents and several items, as floats column after column, or as 64-bit
integers that are not reached in order with one stride. -/
def LayoutRefused {α : Type*} (int64 : Bool) (t : Strided α) : Prop :=
  IsTable2D t ∧ if int64 then ¬ OneStride t else ColumnAfterColumn t

end Irt.Spec
