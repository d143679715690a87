import Verif.Spec.Categorical
import Verif.Spec.Data
import Verif.Model.Constructors
import Mathlib.Order.Bounds.Basic

/-! # Vocabulary for property C109: test data and models built from them -/

namespace Irt.Spec
open Irt

/-- Somebody gave answer `k` to item `j`. -/
def Observed (d : ResponseData) (j k : ℕ) : Prop := ∃ row ∈ d.rows, row[j]? = some (some (k : ℝ))

/-- Test data: at least one respondent and one item, one cell per item, and each cell missing (NaN or -1) or one of 0, 1, ... -/
structure TestData (d : ResponseData) : Prop where
  respondents : d.rows ≠ []
  items : 0 < d.width
  rect : ∀ row ∈ d.rows, row.length = d.width
  cells : ∀ row ∈ d.rows, ∀ x ∈ row, Missing x ∨ ∃ k : ℕ, x = some (k : ℝ)

/-- Every item was answered by somebody. -/
def EachItemAnswered (d : ResponseData) : Prop := ∀ j, j < d.width → ∃ k, Observed d j k

/-- The category counts that the data call for: the largest observed answer plus one. -/
def CountsOf (d : ResponseData) (cats : List ℕ) : Prop :=
  cats.length = d.width ∧ ∀ j c, cats[j]? = some c → ∃ k, c = k + 1 ∧ IsGreatest {k | Observed d j k} k

/-- An acceptable relationship matrix: one row per item, one column per latent variable, each item related to some latent variable. -/
def GoodRelationships (items lv : ℕ) (rel : Option (List (List Bool))) : Prop :=
  ∀ R, rel = some R → R.length = items ∧ (∀ row ∈ R, row.length = lv) ∧ ∀ row ∈ R, true ∈ row

/-- A table that gives every answer in the data a positive probability. -/
def Explains (d : ResponseData) (t : List (List ℝ)) : Prop :=
  ∀ j k, Observed d j k → ∃ p x, t[j]? = some p ∧ p[k]? = some x ∧ 0 < x

/-- The same model object after its parameters were changed by training: shapes are kept. -/
def GPCTrained (m m' : GPC) : Prop :=
  m'.lv = m.lv ∧ m'.cats = m.cats ∧ m'.rel = m.rel ∧ m'.weight.length = m.weight.length ∧ m'.bias.length = m.bias.length

def NRMTrained (m m' : NRM) : Prop :=
  m'.lv = m.lv ∧ m'.cats = m.cats ∧ m'.rel = m.rel ∧ m'.weight.length = m.weight.length ∧ m'.bias.length = m.bias.length

def TwoPLTrained (m m' : TwoPL) : Prop :=
  m'.items = m.items ∧ m'.lv = m.lv ∧ m'.rel = m.rel ∧ m'.weight.length = m.weight.length ∧ m'.bias.length = m.bias.length

def ThreePLTrained (m m' : ThreePL) : Prop :=
  m'.items = m.items ∧ m'.lv = m.lv ∧ m'.rel = m.rel ∧ m'.weight.length = m.weight.length ∧ m'.bias.length = m.bias.length ∧
    m'.guessing.length = m.guessing.length

end Irt.Spec
