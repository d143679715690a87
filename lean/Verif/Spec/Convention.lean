import Verif.Spec.Scoring

/-! # Specification: another origin and other units of the latent variables -/

namespace Irt.Spec

/-- The old latent scores `T φ + c` of a respondent whose scores on the new scale are `φ`. -/
noncomputable def oldScores {d : ℕ} (T : Matrix (Fin d) (Fin d) ℝ) (c φ : Fin d → ℝ) : Fin d → ℝ := T.mulVec φ + c

/-- A model with probabilities `Q` says on the new scale what a model with probabilities `P` says on the old one. -/
def SameOnNewScale {d : ℕ} (cats : List ℕ) (T : Matrix (Fin d) (Fin d) ℝ) (c : Fin d → ℝ) (P Q : (Fin d → ℝ) → ℕ → ℕ → ℝ) : Prop :=
  ∀ φ j n r, cats[j]? = some n → r < n → Q φ j r = P (oldScores T c φ) j r

/-- No item depends on a new latent variable unless the relationships between items and latent variables allow it. -/
def RespectsRelations {d : ℕ} (rel : List (List Bool)) (T : Matrix (Fin d) (Fin d) ℝ) : Prop :=
  ∀ (j : ℕ) row (l k : Fin d), rel[j]? = some row → row[(l : ℕ)]? = some true → T l k ≠ 0 → row[(k : ℕ)]? = some true

end Irt.Spec
