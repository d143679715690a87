import Mathlib.Data.Real.Basic
import Mathlib.Data.List.Basic

/-! # Specification: direction of the dependence on one latent variable

`E θ` is a score expected at the latent traits `θ` of one respondent, one entry per latent variable. -/

namespace Irt

/-- Raising latent variable `r` alone always raises `E`. -/
def RaisedBy (E : List ℝ → ℝ) (lv r : ℕ) : Prop :=
  ∀ (θ : List ℝ) (x x' : ℝ), θ.length = lv → θ[r]? = some x → x < x' → E θ < E (θ.set r x')

/-- Raising latent variable `r` alone always lowers `E`. -/
def LoweredBy (E : List ℝ → ℝ) (lv r : ℕ) : Prop :=
  ∀ (θ : List ℝ) (x x' : ℝ), θ.length = lv → θ[r]? = some x → x < x' → E (θ.set r x') < E θ

/-- Latent variable `r` does not matter for `E`. -/
def UnaffectedBy (E : List ℝ → ℝ) (lv r : ℕ) : Prop :=
  ∀ (θ : List ℝ) (x' : ℝ), θ.length = lv → E (θ.set r x') = E θ

/-- `s` tells exactly how `E` depends on latent variable `r`: `1` for raised, `-1` for lowered, `0` for unaffected. -/
def TellsDirection (E : List ℝ → ℝ) (lv r : ℕ) (s : ℤ) : Prop :=
  (s = 1 ↔ RaisedBy E lv r) ∧ (s = -1 ↔ LoweredBy E lv r) ∧ (s = 0 ↔ UnaffectedBy E lv r)

end Irt
