import Verif.Spec.Scoring
import Verif.Spec.Marginal
import Verif.Model.GradientFit

/-!
# Specification: recoding the answers of a data set

`P θ j r` is the probability of response `r` on item `j` at latent scores `θ`; `y i j` is the answer of respondent `i` to item `j`.
-/

namespace Irt.Spec

variable {d : ℕ}

/-- `σ j r` is the new name of response `r` of item `j`: different responses get different names, from the same `0, ..., c - 1`. -/
structure Renaming (cats : List ℕ) (σ : ℕ → ℕ → ℕ) : Prop where
  valid : ∀ j c r, cats[j]? = some c → r < c → σ j r < c
  inj : ∀ j c r s, cats[j]? = some c → r < c → s < c → σ j r = σ j s → r = s

/-- Reverse coding of the chosen items: `0, 1, ..., c - 1` become `c - 1, ..., 1, 0`. The other items keep their codes. -/
def reverseCoding (cats : List ℕ) (chosen : ℕ → Bool) (j r : ℕ) : ℕ :=
  if chosen j then cats.getD j 0 - 1 - r else r

/-- An answer under its new name; a missing answer stays as it is. -/
def renameCell (f : ℕ → ℕ) (x : Cell) : Cell := if cellMissing x then x else some (f (responseOf x) : ℤ)

/-- The recoded data. -/
def renamed (σ : ℕ → ℕ → ℕ) (y : ℕ → ℕ → Cell) (i j : ℕ) : Cell := renameCell (σ j) (y i j)

/-- `P'` gives to every renamed response the probability that `P` gives to the response. -/
def Follows (cats : List ℕ) (σ : ℕ → ℕ → ℕ) (P P' : (Fin d → ℝ) → ℕ → ℕ → ℝ) : Prop :=
  ∀ θ j c r, cats[j]? = some c → r < c → P' θ j (σ j r) = P θ j r

/-- Neighbouring categories are merged: `f j r` is the category that response `r` of item `j` becomes part of. The order of the
categories is kept, and the item has `cats'[j]` categories afterwards. -/
structure Merging (cats cats' : List ℕ) (f : ℕ → ℕ → ℕ) : Prop where
  items : cats'.length = cats.length
  valid : ∀ j c c' r, cats[j]? = some c → cats'[j]? = some c' → r < c → f j r < c'
  order : ∀ j c r s, cats[j]? = some c → r ≤ s → s < c → f j r ≤ f j s
  onto : ∀ j c c' s, cats[j]? = some c → cats'[j]? = some c' → s < c' → ∃ r, r < c ∧ f j r = s

/-- `P'` gives to every merged category the sum of the probabilities that `P` gives to its parts. -/
def AddsUp (cats cats' : List ℕ) (f : ℕ → ℕ → ℕ) (P P' : (Fin d → ℝ) → ℕ → ℕ → ℝ) : Prop :=
  ∀ θ j c c' s, cats[j]? = some c → cats'[j]? = some c' → s < c' →
    P' θ j s = ∑ r ∈ (Finset.range c).filter fun r => f j r = s, P θ j r

/-- No model of the family has a smaller loss than `m`. -/
def BestOf {S : Type} (family : S → Prop) (loss : S → Except PyErr Num) (m : S) : Prop :=
  family m ∧ ∀ n, family n → lossValue (loss m) ≤ lossValue (loss n)

end Irt.Spec
