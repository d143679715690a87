import Verif.Spec.LogitModel
import Mathlib.Analysis.Convex.Function
import Mathlib.Analysis.Calculus.FDeriv.Basic

/-!
# Maximum likelihood and maximum a posteriori scores
-/

namespace Irt

/-- What a score of one respondent is judged by: the likelihood of the answers with ML, the likelihood times the normal
prior density with MAP. -/
noncomputable def scoreWeight {d : ℕ} (P : (Fin d → ℝ) → ℕ → ℕ → ℝ) (items : ℕ) (prior : Option (Matrix (Fin d) (Fin d) ℝ))
    (row : ℕ → Cell) (θ : Fin d → ℝ) : ℝ :=
  match prior with
  | none => observedLikelihood P items row θ
  | some cov => posteriorWeight P items cov row θ

/-- `θ` is a mode: no scores have more weight. -/
def IsMode {d : ℕ} (w : (Fin d → ℝ) → ℝ) (θ : Fin d → ℝ) : Prop := ∀ t, w t ≤ w θ

/-- The gradient of `F`, a function of the scores `t 0, ..., t (N - 1)` of all respondents, is zero. -/
def Stationary {d : ℕ} (N : ℕ) (F : (ℕ → Fin d → ℝ) → ℝ) (t : ℕ → Fin d → ℝ) : Prop :=
  ∀ i, i < N → HasFDerivAt (fun θ => F (Function.update t i θ)) (0 : (Fin d → ℝ) →L[ℝ] ℝ) (t i)

/-- Every category of every item has positive probability everywhere, continuous and log-concave in the latent scores. -/
structure LogConcaveModel {d : ℕ} (cats : List ℕ) (P : (Fin d → ℝ) → ℕ → ℕ → ℝ) : Prop where
  pos : ∀ θ (j c r : ℕ), cats[j]? = some c → r < c → 0 < P θ j r
  le_one : ∀ θ (j c r : ℕ), cats[j]? = some c → r < c → P θ j r ≤ 1
  continuous : ∀ j c r : ℕ, cats[j]? = some c → r < c → Continuous fun θ => P θ j r
  concave : ∀ j c r : ℕ, cats[j]? = some c → r < c → ConcaveOn ℝ Set.univ fun θ => Real.log (P θ j r)

/-- The answers of a respondent, with one latent variable, leave room in both directions: some observed item has a
category with a steeper slope than the one chosen, and some observed item has one with a less steep slope. -/
structure MixedAnswers (cats : List ℕ) (A : ℕ → ℕ → Fin 1 → ℝ) (row : ℕ → Cell) : Prop where
  up : ∃ j c s, cats[j]? = some c ∧ s < c ∧ cellMissing (row j) = false ∧ A j (responseOf (row j)) 0 < A j s 0
  down : ∃ j c s, cats[j]? = some c ∧ s < c ∧ cellMissing (row j) = false ∧ A j s 0 < A j (responseOf (row j)) 0

/-- After call `i` of the optimiser the loss differs from the one after the call before by less than `10⁻⁸` per cell of
the data. -/
def Settled {σ : Type} (step : σ → σ) (loss : σ → Option ℝ) (cells : ℕ) (start : σ) (i : ℕ) : Prop :=
  2 ≤ i ∧ ∃ x l, loss (step^[i] start) = some x ∧ loss (step^[i - 1] start) = some l ∧ |x - l| < 1e-8 * cells

end Irt
