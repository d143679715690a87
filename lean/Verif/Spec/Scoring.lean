import Verif.Model.Scoring
import Verif.Spec.Tensor
import Mathlib.Algebra.BigOperators.Field

/-!
# Specification of latent score estimation

`P θ j r` is the probability that the model gives response `r` on item `j` to a respondent with latent
scores `θ`. Responses are `y i j` (respondent `i`, item `j`), missing when NaN or -1.
-/

namespace Irt

/-- The response coded by an observed cell. -/
def responseOf : Cell → ℕ
  | some r => r.toNat
  | none => 0

/-- The likelihood of the observed responses of one respondent. -/
noncomputable def observedLikelihood {d : ℕ} (P : (Fin d → ℝ) → ℕ → ℕ → ℝ) (items : ℕ) (row : ℕ → Cell)
    (θ : Fin d → ℝ) : ℝ :=
  ∏ j ∈ Finset.range items, if cellMissing (row j) then 1 else P θ j (responseOf (row j))

/-- Every observed response is one of the categories of its item. -/
def ValidResponses (cats : List ℕ) (row : ℕ → Cell) : Prop :=
  ∀ j c, cats[j]? = some c → cellMissing (row j) = false → ∃ r : ℕ, row j = some (r : ℤ) ∧ r < c

/-- A scoreable model with item categories `cats` whose `log_likelihood(..., "none")` is, cell by cell, the
log probability of the response (property C02), the probabilities being nonnegative. -/
structure IsScorer {d : ℕ} (m : Scorer d) (cats : List ℕ) (P : (Fin d → ℝ) → ℕ → ℕ → ℝ) : Prop where
  items : m.items = cats.length
  items_pos : 0 < m.items
  nonneg : ∀ θ j r, 0 ≤ P θ j r
  logLik : ∀ (N : ℕ) (t : ℕ → Fin d → ℝ) (y : ℕ → ℕ → Cell), (∀ i, i < N → ValidResponses cats (y i)) →
    m.logLik ((List.range N).map fun i => m.forward (t i)) (flatTensor N m.items y)
        (flatTensor N m.items fun i j => cellMissing (y i j))
      = .ok (flatTensor N m.items fun i j =>
          if cellMissing (y i j) then none else some (logE (P (t i) j (responseOf (y i j)))))

/-- Entry of a probability table: response `r` on item `j`. -/
noncomputable def tableProb (t : List (List ℝ)) (j r : ℕ) : ℝ := ((t[j]?).bind fun p => p[r]?).getD 0

/-- The mean of the discrete distribution proportional to `w` on the points of `grid`. -/
noncomputable def weightedMean {d : ℕ} (w : (Fin d → ℝ) → ℝ) (grid : List (Fin d → ℝ)) : Fin d → ℝ :=
  fun k => (grid.map fun θ => w θ * θ k).sum / (grid.map w).sum

/-- The unnormalised posterior weight of a point: normal density times likelihood. -/
noncomputable def posteriorWeight {d : ℕ} (P : (Fin d → ℝ) → ℕ → ℕ → ℝ) (items : ℕ)
    (cov : Matrix (Fin d) (Fin d) ℝ) (row : ℕ → Cell) (θ : Fin d → ℝ) : ℝ :=
  Real.exp (mvnLogDensity 0 cov θ) * observedLikelihood P items row θ

end Irt
