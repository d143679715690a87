import Verif.Spec.Quadrature
import Verif.Spec.Marginal
import Verif.Model.Rescale

/-! # Specification of exact integration -/

namespace Irt.Spec

/-- `hermgauss n` returns, for every `n ≥ 1`, a rule that integrates every polynomial of degree below `2n` exactly. -/
def ExactRules (hermgauss : ℕ → Except PyErr (List ℝ × List ℝ)) : Prop :=
  ∀ n, 1 ≤ n → ∃ x w, hermgauss n = .ok (x, w) ∧ HermiteExact n x w

/-- The marginal likelihood of the answers of `N` respondents under a normal population with mean zero and covariance `cov`. -/
noncomputable def sampleLikelihood {d : ℕ} (P : (Fin d → ℝ) → ℕ → ℕ → ℝ) (items : ℕ) (cov : Matrix (Fin d) (Fin d) ℝ) (N : ℕ)
    (y : ℕ → ℕ → Cell) : ℝ := ∏ i ∈ Finset.range N, marginalLikelihood P items cov (y i)

end Irt.Spec
