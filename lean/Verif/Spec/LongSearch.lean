import Verif.Spec.Population
import Verif.Spec.ScoreSearch
import Verif.Spec.LogitModel
import Verif.Model.ScoreSearch
import Verif.Spec.Tensor

/-! # Specification: maximum likelihood and maximum a posteriori scores of respondents whose answers follow the model -/

namespace Irt.Spec

open Finset

open Classical in
/-- The probability that the answers of a respondent with latent scores `θ` have the property `Q`. -/
noncomputable def chance {d : ℕ} (P : (Fin d → ℝ) → ℕ → ℕ → ℝ) (cats : List ℕ) (θ : Fin d → ℝ) (Q : (Fin cats.length → ℕ) → Prop) : ℝ :=
  ∑ x ∈ fullAnswers cats with Q x, answerProb P θ x

/-- There are scores with the most weight, and all such scores are closer than `ε` to `θ`. -/
def FoundWithin (w : (Fin 1 → ℝ) → ℝ) (θ : Fin 1 → ℝ) (ε : ℝ) : Prop :=
  (∃ t, IsMode w t) ∧ ∀ t, IsMode w t → |t 0 - θ 0| < ε

/-- The density of the prior: one without a prior. -/
noncomputable def priorOf {d : ℕ} (prior : Option (Matrix (Fin d) (Fin d) ℝ)) (θ : Fin d → ℝ) : ℝ :=
  match prior with
  | none => 1
  | some cov => Real.exp (mvnLogDensity 0 cov θ)

/-- The items of a multinomial logit model with one latent variable tell something: at most `C` categories per item, slopes and intercepts
up to `β`, and two categories with slopes that differ by at least `α`. -/
structure Telling (cats : List ℕ) (A : ℕ → ℕ → Fin 1 → ℝ) (B : ℕ → ℕ → ℝ) (α β : ℝ) (C : ℕ) : Prop where
  categories : ∀ (j c : ℕ), cats[j]? = some c → c ≤ C
  slopes : ∀ (j c r : ℕ), cats[j]? = some c → r < c → |A j r 0| ≤ β
  intercepts : ∀ (j c r : ℕ), cats[j]? = some c → r < c → |B j r| ≤ β
  apart : ∀ (j c : ℕ), cats[j]? = some c → ∃ r s, r < c ∧ s < c ∧ α ≤ A j r 0 - A j s 0

/-- The factor by which every answered item of such a test lowers the chance of a score that is off by `ε`, for respondents with scores up to `R`. -/
noncomputable def wrongRate (α β : ℝ) (C : ℕ) (R ε : ℝ) : ℝ :=
  1 - Real.exp (-(2 * β * (R + 1))) / C * (1 - Real.exp (-(α * ε / 4))) ^ 2 / 2

/-- The optimiser of `latent_scores` stops where the gradient of its objective is zero, with `t` as the score of the only respondent. -/
def StopsAt {d : ℕ} (f : FittedModel d) (prior : Option (Matrix (Fin d) (Fin d) ℝ)) (row : ℕ → Cell) (start : Thetas d)
    (t : Fin d → ℝ) : Prop :=
  f.optimise prior (rowsOf 1 f.cats.length fun _ => row) start = [t] ∧
  ∃ F, (∀ s, scoreObjective f.scorer prior (rowsOf 1 f.cats.length fun _ => row) ((List.range 1).map s) = .ok (.fin (F s))) ∧
    Stationary 1 F fun _ => t

end Irt.Spec
