import Verif.Spec.Scoring
import Verif.Spec.Quadrature

/-!
# Renaming and turning round latent variables
-/

namespace Irt.Spec

/-- The latent scores after renaming the latent variables: the score of variable `k` is the old score of `σ k`. -/
def relabel {d : ℕ} (σ : Equiv.Perm (Fin d)) (θ : Fin d → ℝ) : Fin d → ℝ := fun k => θ (σ k)

/-- The latent scores after turning round the latent variables in `s`. -/
noncomputable def turnRound {d : ℕ} (s : Fin d → Bool) (θ : Fin d → ℝ) : Fin d → ℝ := fun k => if s k then -θ k else θ k

/-- Item response probabilities `P'` and `P` are those of one model with the latent scores transformed by `g`. -/
def SameUpTo {d : ℕ} (g : (Fin d → ℝ) → Fin d → ℝ) (P' P : (Fin d → ℝ) → ℕ → ℕ → ℝ) : Prop :=
  ∀ θ, P' θ = P (g θ)

/-- What numpy documents of Gauss-Hermite nodes and weights besides exactness: they are symmetric about zero. -/
def SymmetricRule (x w : List ℝ) : Prop := x.reverse = x.map (fun a => -a) ∧ w.reverse = w

end Irt.Spec
