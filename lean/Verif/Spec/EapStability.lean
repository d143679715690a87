import Verif.Spec.Scoring

/-!
# Specification: two models that are close, and how many answers a respondent gave
-/

namespace Irt.Spec

/-- The items a respondent answered. -/
def answeredItems (items : ℕ) (row : ℕ → Cell) : Finset ℕ := (Finset.range items).filter fun j => cellMissing (row j) = false

/-- At the latent scores of `grid` the log probabilities of all answers differ by at most `δ`. -/
def CloseOn {d : ℕ} (grid : List (Fin d → ℝ)) (cats : List ℕ) (P P' : (Fin d → ℝ) → ℕ → ℕ → ℝ) (δ : ℝ) : Prop :=
  ∀ θ ∈ grid, ∀ j c r, cats[j]? = some c → r < c → |Real.log (P θ j r) - Real.log (P' θ j r)| ≤ δ

end Irt.Spec
