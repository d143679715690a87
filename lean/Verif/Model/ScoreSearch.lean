import Verif.Model.LatentScores

/-!
# The search for maximum likelihood and maximum a posteriori scores
(base_irt_model.py 757-857 `_ml_map_theta_scores`)
-/

namespace Irt

/-- base_irt_model.py 823-833 and 839-845: minus the loss that the optimiser minimises, for a matrix of scores with one
row per respondent. `prior` is the covariance of the normal prior of MAP, `none` with ML. Simplification: the reduction
`"sum"` of `log_likelihood` is written as the sum of the values of the reduction `"none"` over the cells that are not
missing (C02). -/
noncomputable def scoreObjective {d : ℕ} (m : Scorer d) (prior : Option (Matrix (Fin d) (Fin d) ℝ)) (data : List (List Cell))
    (thetas : Thetas d) : Except PyErr Logit := do
  let mask := data.map fun r => r.map cellMissing
  let ll ← m.logLik (thetas.map m.forward) data.flatten mask.flatten
  match prior with
  | none => return nansum ll
  | some cov => do
    let lp ← mvnLogProbs 0 cov thetas
    return Logit.add (nansum ll) (.fin lp.sum)

open Classical in
/-- base_irt_model.py 849: `abs(loss - loss_history[-1]) / denominator < tolerance`, false without a history and for
losses that are infinite or NaN (`none`). (No cells: division by zero; theorems assume a cell.) -/
noncomputable def searchConverged (cells : ℕ) (last : Option (Option ℝ)) (loss : Option ℝ) : Bool :=
  match last, loss with
  | some (some l), some x => decide (|x - l| / (cells : ℝ) < 1e-8)
  | _, _ => false

/-- base_irt_model.py 836-853: at most `n` calls of `optimizer.step`. The state holds the scores and the memory of the
optimiser; `last` is the last entry of `loss_history`. -/
noncomputable def searchLoop {σ : Type} (step : σ → σ) (loss : σ → Option ℝ) (cells : ℕ) : ℕ → σ → Option (Option ℝ) → σ
  | 0, s, _ => s
  | n + 1, s, last =>
    if searchConverged cells last (loss (step s)) then step s
    else searchLoop step loss cells n (step s) (some (loss (step s)))

/-- base_irt_model.py 803-857: the search from the given scores; 40 calls of the optimiser on a CPU. (50 on a GPU, not
modelled.) -/
noncomputable def searchScores {σ : Type} (step : σ → σ) (loss : σ → Option ℝ) (cells : ℕ) (start : σ) : σ :=
  searchLoop step loss cells 40 start none

end Irt
