import Verif.Spec.Booklets
import Verif.Spec.OtherPopulation

/-!
# Specification: booklets for groups

A respondent belongs to group `g` with probability `share g`. The latent variables of a group have a normal distribution of their own, and every
group has its own booklets.
-/

namespace Irt.Spec

/-- The probability that `z` is what is seen of a respondent. -/
noncomputable def seenInGroups {G : Type} [Fintype G] {d : ℕ} (cats : List ℕ) (share : G → ℝ) (π : G → Finset (Fin cats.length) → ℝ)
    (P : (Fin d → ℝ) → ℕ → ℕ → ℝ) (μ : G → Fin d → ℝ) (cov : G → Matrix (Fin d) (Fin d) ℝ) (z : Fin cats.length → Option ℕ) : ℝ :=
  ∑ g, share g * seenFrom cats (byBooklet (π g)) (normalProbAt P (μ g) (cov g)) z

end Irt.Spec
