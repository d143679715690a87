import Verif.Model.Scoring

/-!
# `irtorch/estimation_algorithms/vae.py` 164-282: the objective of the variational autoencoder

The encoder is a parameter: its outputs `mean` and `logvar` (one row per respondent) are arguments, and so are the
standard normal draws of the reparameterisation.
-/

namespace Irt

/-- vae.py 231-234: the weight of the divergence; `total` is `total_iterations`. -/
noncomputable def annealingFactor (anneal : Bool) (total iterations : ℕ) : Except PyErr ℝ :=
  if anneal = true then
    if iterations = 0 then .error .zeroDivision else .ok (min 1 ((total : ℝ) / (iterations : ℝ)))
  else .ok 1

/-- vae.py 197-200 `reparameterize`, one row. -/
noncomputable def reparameterize {d : ℕ} (mean logvar eps : Fin d → ℝ) : Fin d → ℝ :=
  fun k => mean k + eps k * Real.exp (0.5 * logvar k)

/-- vae.py 254: the divergence used with one sample, one row. -/
noncomputable def vaeKl {d : ℕ} (mean logvar : Fin d → ℝ) : ℝ :=
  0.5 * ∑ k, (mean k ^ 2 + Real.exp (logvar k) - 1 - logvar k)

/-- `torch.distributions.Normal(loc, scale).log_prob(x)`. -/
noncomputable def normalLogProb (loc scale x : ℝ) : ℝ :=
  -((x - loc) ^ 2) / (2 * scale ^ 2) - Real.log scale - Real.log (Real.sqrt (2 * Real.pi))

/-- vae.py 257-262: the divergence of one sample, summed over the latent variables. -/
noncomputable def vaeSampleKl {d : ℕ} (mean logvar θ : Fin d → ℝ) : ℝ :=
  ∑ k, (normalLogProb (mean k) (Real.exp (0.5 * logvar k)) (θ k) - normalLogProb 0 1 (θ k))

/-- vae.py 186-192: the samples, `mean` and `logvar` repeated for every sample. -/
noncomputable def vaeSamples {d : ℕ} (S : ℕ) (mean logvar eps : Thetas d) : Thetas d :=
  List.zipWith (fun (ml : (Fin d → ℝ) × (Fin d → ℝ)) e => reparameterize ml.1 ml.2 e)
    (List.zip (tile S mean) (tile S logvar)) eps

/-- vae.py 192-265: for every sample and respondent the log likelihood of the observed responses minus the
weighted divergence. `iw_samples = 0` divides by zero. -/
noncomputable def vaeSampleBounds {d : ℕ} (m : Scorer d) (S : ℕ) (factor : ℝ) (data : List (List Cell))
    (mean logvar eps : Thetas d) : Except PyErr (List (List Logit)) := do
  let thetas := vaeSamples S mean logvar eps
  let repData := tile S data
  let mask := repData.map fun r => r.map cellMissing
  let ll ← m.logLik (thetas.map m.forward) repData.flatten mask.flatten
  if S * m.items = 0 then .error .zeroDivision
  else
    let sums := sumItems m.items ll
    let kl :=
      if S = 1 then List.zipWith vaeKl mean logvar
      else List.zipWith (fun (ml : (Fin d → ℝ) × (Fin d → ℝ)) t => vaeSampleKl ml.1 ml.2 t)
        (List.zip (tile S mean) (tile S logvar)) thetas
    return viewRows S (sums.length / S) (List.zipWith (fun l (k : ℝ) => Logit.add l (.fin (-(factor * k)))) sums kl)

/-- vae.py 266-269: `torch.logsumexp(..., dim=0) - log(iw_samples)` for several samples; with one sample its row. -/
noncomputable def vaeCombine (N : ℕ) (rows : List (List Logit)) : List Logit :=
  if rows.length = 1 then rows.headD []
  else (List.range N).map fun i =>
    Logit.add (logE ((rows.map fun r => (r.getD i .negInf).exp).sum)) (.fin (-Real.log (rows.length : ℝ)))

/-- `x / n`. -/
noncomputable def Logit.div : Logit → ℝ → Logit
  | .negInf, _ => .negInf
  | .fin x, n => .fin (x / n)

/-- vae.py 164-282: minus the loss of a batch, that is, the mean of the bounds of the respondents; `none` is NaN
(empty batch). -/
noncomputable def vaeObjective {d : ℕ} (m : Scorer d) (S : ℕ) (anneal : Bool) (total iterations : ℕ)
    (data : List (List Cell)) (mean logvar eps : Thetas d) : Except PyErr (Option Logit) := do
  let factor ← annealingFactor anneal total iterations
  let rows ← vaeSampleBounds m S factor data mean logvar eps
  let bounds := vaeCombine data.length rows
  return if bounds.length = 0 then none else some (Logit.div (Logit.sum bounds) (bounds.length : ℝ))

end Irt
