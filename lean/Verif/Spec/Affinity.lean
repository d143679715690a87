import Verif.Spec.Population

/-!
# Specification: how much an item tells two values of the latent variables apart
-/

namespace Irt.Spec

/-- The affinity of the answers to item `j` at the latent scores `θ` and `θ'`: one if both give every answer the same probability, zero if
no answer is possible at both. -/
noncomputable def affinity {d : ℕ} (P : (Fin d → ℝ) → ℕ → ℕ → ℝ) (cats : List ℕ) (θ θ' : Fin d → ℝ) (j : Fin cats.length) : ℝ :=
  ∑ r ∈ Finset.range cats[j], Real.sqrt (P θ j r * P θ' j r)

end Irt.Spec
