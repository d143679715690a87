import Mathlib.Data.Real.Basic

/-! # Latent scores at which response curves are compared -/

namespace Irt.Spec

/-- All latent variables zero. -/
noncomputable def originScores (lv : ℕ) : List ℝ := List.replicate lv 0

/-- Latent variable `i` one, the others zero. -/
noncomputable def unitScores (lv i : ℕ) : List ℝ := (List.replicate lv 0).set i 1

/-- The `lv + 1` latent score vectors above. -/
def ProbeScores (lv : ℕ) (θ : List ℝ) : Prop := θ = originScores lv ∨ ∃ i, i < lv ∧ θ = unitScores lv i

end Irt.Spec
