import Mathlib.Data.Real.Basic

/-! # Specification: what a data matrix may contain -/

namespace Irt

/-- A response is missing if it is NaN (`none`) or coded `-1`. -/
def Missing (x : Option ℝ) : Prop := x = none ∨ x = some (-1)

/-- A response to an item with `c` categories: missing, or one of `0 .. c-1`. -/
def ValidResponse (c : ℕ) (x : Option ℝ) : Prop := Missing x ∨ ∃ k : ℕ, k < c ∧ x = some (k : ℝ)

/-- Two cells hold the same response, up to how a missing one is coded. -/
def SameResponse (x y : Option ℝ) : Prop := (Missing x ∧ Missing y) ∨ (x = y ∧ ¬ Missing x)

/-- Every row has one cell per item, and each is a possible response to that item. -/
def ValidData (cats : List ℕ) (data : List (List (Option ℝ))) : Prop :=
  ∀ r ∈ data, r.length = cats.length ∧ ∀ (i c : ℕ) (x : Option ℝ), cats[i]? = some c → r[i]? = some x →
    ValidResponse c x

end Irt
