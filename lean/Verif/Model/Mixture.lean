import Verif.Torch.Basic
import Mathlib.LinearAlgebra.Matrix.PosDef
import Mathlib.LinearAlgebra.Matrix.NonsingularInverse
import Mathlib.Analysis.SpecialFunctions.Log.Basic
import Mathlib.Analysis.SpecialFunctions.Trigonometric.Basic

/-!
# `irtorch/torch_modules/gaussian_mixture_model.py`

A tensor of shape (n, d) is a function `Fin n → Fin d → ℝ`. `torch.distributions.MultivariateNormal` is
modelled by its documented behaviour: the constructor refuses a covariance that is not positive definite,
and `log_prob` is the logarithm of the normal density.
-/

namespace Irt

/-- The log density of a multivariate normal distribution
(`torch.distributions.MultivariateNormal.log_prob`). -/
noncomputable def mvnLogDensity {d : ℕ} (mean : Fin d → ℝ) (cov : Matrix (Fin d) (Fin d) ℝ) (x : Fin d → ℝ) : ℝ :=
  -(1 / 2) * (d * Real.log (2 * Real.pi) + (x - mean) ⬝ᵥ (cov⁻¹.mulVec (x - mean))) - 1 / 2 * Real.log cov.det

open Classical in
/-- `MultivariateNormal(mean, covariance_matrix=cov).log_prob(data)`. -/
noncomputable def mvnLogProb {n d : ℕ} (mean : Fin d → ℝ) (cov : Matrix (Fin d) (Fin d) ℝ)
    (data : Fin n → Fin d → ℝ) : Except PyErr (Fin n → ℝ) :=
  if cov.PosDef then .ok fun i => mvnLogDensity mean cov (data i) else .error .valueError

/-- The parameters of a `GaussianMixtureModel` with `K` components and `d` features
(gaussian_mixture_model.py 61-67). -/
structure GMM (K d : ℕ) where
  weights : Fin K → ℝ
  means : Fin K → Fin d → ℝ
  covariances : Fin K → Matrix (Fin d) (Fin d) ℝ

/-- gaussian_mixture_model.py 55-67, the constructor; `randn` is the random draw of the means. -/
noncomputable def gmmInit (K d : ℕ) (randn : Fin K → Fin d → ℝ) : Except PyErr (GMM K d) :=
  if K < 1 then .error .valueError
  else if d < 1 then .error .valueError
  else .ok { weights := fun _ => 1 / K, means := randn, covariances := fun _ => 1 }

/-- The list comprehension `[MultivariateNormal(means[i], covariances[i]).log_prob(data) for i in ...]`
(gaussian_mixture_model.py 84, 95): it raises if any component raises. -/
noncomputable def gmmLogProbs {K d n : ℕ} (g : GMM K d) (data : Fin n → Fin d → ℝ) :
    Except PyErr (Fin K → Fin n → ℝ) := do
  let rows ← (List.finRange K).mapM fun k => mvnLogProb (g.means k) (g.covariances k) data
  return fun k => rows.getD k fun _ => 0

/-- gaussian_mixture_model.py 85, 96: `log_probs + torch.log(self.weights[:, None])`. -/
noncomputable def gmmWeighted {K d n : ℕ} (g : GMM K d) (lp : Fin K → Fin n → ℝ) : Fin K → Fin n → ℝ :=
  fun k i => lp k i + Real.log (g.weights k)

/-- `torch.logsumexp(weighted_log_probs, dim=0)`. -/
noncomputable def logSumExpCol {K n : ℕ} (a : Fin K → Fin n → ℝ) (i : Fin n) : ℝ :=
  Real.log (∑ k, Real.exp (a k i))

/-- gaussian_mixture_model.py 84-90 `forward`: the log likelihood. -/
noncomputable def gmmForward {K d n : ℕ} (g : GMM K d) (data : Fin n → Fin d → ℝ) : Except PyErr ℝ := do
  let lp ← gmmLogProbs g data
  return ∑ i, logSumExpCol (gmmWeighted g lp) i

/-- gaussian_mixture_model.py 93-99 `_e_step`: the responsibilities. -/
noncomputable def gmmEStep {K d n : ℕ} (g : GMM K d) (data : Fin n → Fin d → ℝ) :
    Except PyErr (Fin K → Fin n → ℝ) := do
  let lp ← gmmLogProbs g data
  let wl := gmmWeighted g lp
  return fun k i => Real.exp (wl k i - logSumExpCol wl i)

/-- gaussian_mixture_model.py 101-117 `_m_step`. -/
noncomputable def gmmMStep {K d n : ℕ} (data : Fin n → Fin d → ℝ) (r : Fin K → Fin n → ℝ) : GMM K d :=
  let means : Fin K → Fin d → ℝ := fun k j => (∑ i, r k i * data i j) / ∑ i, r k i
  { weights := fun k => (∑ i, r k i) / n
    means := means
    covariances := fun k => Matrix.of fun a b =>
      (∑ i, ((data i a - means k a) * r k i) * (data i b - means k b)) / ∑ i, r k i }

/-- gaussian_mixture_model.py 140-142: the EM iterations of `fit`. -/
noncomputable def gmmLoop {K d n : ℕ} (data : Fin n → Fin d → ℝ) : ℕ → GMM K d → Except PyErr (GMM K d)
  | 0, g => .ok g
  | it + 1, g => do
    let r ← gmmEStep g data
    gmmLoop data it (gmmMStep data r)

/-- gaussian_mixture_model.py 134-142 `fit`: data with `n` rows and `m` columns. -/
noncomputable def gmmFit {K d n m : ℕ} (g : GMM K d) (data : Fin n → Fin m → ℝ) (iterations : ℕ) :
    Except PyErr (GMM K d) :=
  if n = 0 then .error .valueError
  else if h : m = d then gmmLoop (h ▸ data) iterations g
  else .error .valueError

/-- gaussian_mixture_model.py 158-163 `pdf` at one point. -/
noncomputable def gmmPdf {K d : ℕ} (g : GMM K d) (x : Fin d → ℝ) : Except PyErr ℝ := do
  let lp ← gmmLogProbs g (fun _ : Fin 1 => x)
  return ∑ k, g.weights k * Real.exp (lp k 0)

end Irt
