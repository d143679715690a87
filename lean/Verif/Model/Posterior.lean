import Verif.Model.VAE

/-!
# `irtorch/estimation_algorithms/vae.py` 324-409: what a fitted variational autoencoder reports

The encoder is a parameter; `icdf` is the quantile function of the standard normal distribution.
-/

namespace Irt

/-- `torch.distributions.Normal(mean, exp(0.5 * logvar)).icdf(p)`: `loc + scale * icdf(p)`. -/
noncomputable def posteriorQuantile (icdf : ℝ → ℝ) (mean logvar p : ℝ) : ℝ := mean + Real.exp (0.5 * logvar) * icdf p

/-- vae.py 370-390 `latent_credible_interval` for one respondent and one latent variable: lower bound, mean, upper bound. -/
noncomputable def credibleInterval (icdf : ℝ → ℝ) (mean logvar alpha : ℝ) : ℝ × ℝ × ℝ :=
  (posteriorQuantile icdf mean logvar (alpha / 2), mean, posteriorQuantile icdf mean logvar (1 - alpha / 2))

/-- vae.py 392-409 `latent_mean_se` for one respondent and one latent variable. -/
noncomputable def latentMeanSe (mean logvar : ℝ) : ℝ × ℝ := (mean, Real.exp (0.5 * logvar))

/-- vae.py 359-366 `sample_latent_variables`: `indices` are the draws of `torch.randint` (refused for empty data), `eps` the
standard normal draws; `encoder` maps a row of encoder input to its mean and log variance. -/
noncomputable def sampleLatent {ρ : Type} {d : ℕ} (encoder : ρ → (Fin d → ℝ) × (Fin d → ℝ)) (rows : List ρ)
    (indices : List ℕ) (eps : Thetas d) : Except PyErr (Thetas d) := do
  if rows = [] then throw .runtimeError
  let samples ← indices.mapM fun i =>
    match rows[i]? with
    | some r => .ok r
    | none => .error .indexError
  return List.zipWith (fun r e => reparameterize (encoder r).1 (encoder r).2 e) samples eps

end Irt
