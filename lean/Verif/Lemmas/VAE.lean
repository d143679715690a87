import Verif.Spec.VAE
import Verif.Lemmas.Scoring
import Mathlib.MeasureTheory.Integral.Pi

/-! # Lemmas on the variational objective -/

namespace Irt

open ProbabilityTheory MeasureTheory

theorem varOf_ne_zero (l : ℝ) : varOf l ≠ 0 := by
  intro h
  have h' : Real.exp l = 0 := congrArg NNReal.toReal h
  exact (Real.exp_pos l).ne' h'

theorem varOf_coe (l : ℝ) : ((varOf l : NNReal) : ℝ) = Real.exp l := rfl

theorem exp_half_sq (l : ℝ) : Real.exp (0.5 * l) ^ 2 = Real.exp l := by
  rw [← Real.exp_nat_mul]; congr 1; norm_num; ring

/-- The log density of the code is the logarithm of Mathlib's density. -/
theorem normalLogProb_eq (μ l x : ℝ) :
    normalLogProb μ (Real.exp (0.5 * l)) x = Real.log (gaussianPDFReal μ (varOf l) x) := by
  unfold normalLogProb gaussianPDFReal
  rw [exp_half_sq, varOf_coe, Real.log_mul (by positivity) (Real.exp_pos _).ne', Real.log_exp, Real.log_inv,
    Real.sqrt_mul (by positivity) (Real.exp l),
    Real.log_mul (x := Real.sqrt (2 * Real.pi)) (by positivity) (by positivity), Real.log_exp]
  have : Real.log (Real.sqrt (Real.exp l)) = 0.5 * l := by
    rw [Real.log_sqrt (Real.exp_pos l).le, Real.log_exp]; ring
  rw [this]; ring

theorem normalLogProb_zero_one (x : ℝ) : normalLogProb 0 1 x = Real.log (gaussianPDFReal 0 1 x) := by
  have h := normalLogProb_eq 0 0 x
  have e : varOf 0 = 1 := by
    apply NNReal.coe_injective; rw [varOf_coe]; simp
  rw [e] at h
  simpa using h

theorem log_ratio (μ l x : ℝ) : Real.log (gaussianPDFReal μ (varOf l) x / gaussianPDFReal 0 1 x)
    = (x ^ 2 - (x - μ) ^ 2 / Real.exp l - l) / 2 := by
  rw [Real.log_div (gaussianPDFReal_pos _ _ _ (varOf_ne_zero l)).ne' (gaussianPDFReal_pos _ _ _ one_ne_zero).ne',
    ← normalLogProb_eq, ← normalLogProb_zero_one]
  unfold normalLogProb
  rw [exp_half_sq, Real.log_exp, Real.log_one]
  have := (Real.exp_pos l).ne'
  field_simp
  ring

theorem integrable_sq_gaussian (μ c : ℝ) (v : NNReal) : Integrable (fun x => (x - c) ^ 2) (gaussianReal μ v) := by
  have h : MemLp (fun x : ℝ => x - c) 2 (gaussianReal μ v) :=
    (memLp_id_gaussianReal (μ := μ) (v := v) 2).sub (memLp_const c)
  exact h.integrable_sq

theorem integral_sq_gaussian (μ : ℝ) (v : NNReal) : ∫ x, (x - μ) ^ 2 ∂(gaussianReal μ v) = v := by
  have h := variance_fun_id_gaussianReal (μ := μ) (v := v)
  rw [variance_eq_integral measurable_id'.aemeasurable] at h
  simpa using h

theorem integrable_id_gaussian (μ : ℝ) (v : NNReal) : Integrable (fun x : ℝ => x) (gaussianReal μ v) :=
  (memLp_id_gaussianReal (μ := μ) (v := v) 1).integrable (by norm_num)

theorem integral_sq_gaussian_zero (μ : ℝ) (v : NNReal) : ∫ x, x ^ 2 ∂(gaussianReal μ v) = μ ^ 2 + v := by
  have e : (fun x : ℝ => x ^ 2) = fun x => ((x - μ) ^ 2 + 2 * μ * x) - μ ^ 2 := by ext x; ring
  have h2 : Integrable (fun x : ℝ => (x - μ) ^ 2 + 2 * μ * x) (gaussianReal μ v) :=
    (integrable_sq_gaussian μ μ v).add ((integrable_id_gaussian μ v).const_mul _)
  rw [e, integral_sub h2 (integrable_const _),
    integral_add (integrable_sq_gaussian μ μ v) ((integrable_id_gaussian μ v).const_mul _),
    integral_sq_gaussian, integral_const_mul, integral_id_gaussianReal]
  simp
  ring

theorem integrable_log_ratio (μ l : ℝ) :
    Integrable (fun x => Real.log (gaussianPDFReal μ (varOf l) x / gaussianPDFReal 0 1 x)) (gaussianReal μ (varOf l)) := by
  simp only [log_ratio]
  have h0 := integrable_sq_gaussian μ 0 (varOf l)
  simp only [sub_zero] at h0
  exact ((h0.sub ((integrable_sq_gaussian μ μ (varOf l)).div_const _)).sub (integrable_const l)).div_const 2

theorem normalDivergence_eq (μ l : ℝ) : normalDivergence μ (varOf l) = 0.5 * (μ ^ 2 + Real.exp l - 1 - l) := by
  unfold normalDivergence
  simp only [log_ratio]
  have h0 := integrable_sq_gaussian μ 0 (varOf l)
  simp only [sub_zero] at h0
  have h1 := (integrable_sq_gaussian μ μ (varOf l)).div_const (Real.exp l)
  have h2 : Integrable (fun x : ℝ => x ^ 2 - (x - μ) ^ 2 / Real.exp l) (gaussianReal μ (varOf l)) := h0.sub h1
  rw [integral_div, integral_sub h2 (integrable_const l), integral_sub h0 h1, integral_div,
    integral_sq_gaussian, integral_sq_gaussian_zero, varOf_coe, div_self (Real.exp_pos l).ne']
  simp
  ring

/-! ## Products of densities -/

theorem encoderDensity_pos {d : ℕ} (μ l θ : Fin d → ℝ) : 0 < encoderDensity μ l θ :=
  Finset.prod_pos fun _ _ => gaussianPDFReal_pos _ _ _ (varOf_ne_zero _)

theorem priorDensity_pos {d : ℕ} (θ : Fin d → ℝ) : 0 < priorDensity θ :=
  Finset.prod_pos fun _ _ => gaussianPDFReal_pos _ _ _ one_ne_zero

theorem vaeSampleKl_eq {d : ℕ} (μ l θ : Fin d → ℝ) :
    vaeSampleKl μ l θ = Real.log (encoderDensity μ l θ / priorDensity θ) := by
  unfold vaeSampleKl
  rw [Real.log_div (encoderDensity_pos _ _ _).ne' (priorDensity_pos _).ne']
  unfold encoderDensity priorDensity
  rw [Real.log_prod (fun k _ => (gaussianPDFReal_pos _ _ _ (varOf_ne_zero _)).ne'),
    Real.log_prod (fun k _ => (gaussianPDFReal_pos _ _ _ one_ne_zero).ne'), Finset.sum_sub_distrib]
  simp only [normalLogProb_eq, normalLogProb_zero_one]

section Product

variable {ι : Type*} [Fintype ι] [DecidableEq ι] {E : Type*} [MeasureSpace E] [SigmaFinite (volume : Measure E)]

theorem prod_update_eq (ρ : ι → E → ℝ) (k : ι) (g : E → ℝ) (x : ι → E) :
    (∏ i, ρ i (x i)) * g (x k) = ∏ i, (if i = k then fun y => ρ i y * g y else ρ i) (x i) := by
  have : ∀ i, (if i = k then fun y => ρ i y * g y else ρ i) (x i) = ρ i (x i) * if i = k then g (x i) else 1 := by
    intro i; split <;> simp
  simp only [this, Finset.prod_mul_distrib, Finset.prod_ite_eq', Finset.mem_univ, if_true]

/-- The expectation of a function of one coordinate under a product density. -/
theorem integral_prod_density (ρ : ι → E → ℝ) (h1 : ∀ i, ∫ y, ρ i y = 1) (k : ι) (g : E → ℝ) :
    ∫ x : ι → E, (∏ i, ρ i (x i)) * g (x k) = ∫ y, ρ k y * g y := by
  simp only [prod_update_eq]
  rw [integral_fintype_prod_volume_eq_prod (fun i => if i = k then fun y => ρ i y * g y else ρ i),
    Finset.prod_eq_single k]
  · simp
  · intro i _ hi; simp [hi, h1]
  · simp

theorem integrable_prod_density (ρ : ι → E → ℝ) (h1 : ∀ i, Integrable (ρ i)) (k : ι) (g : E → ℝ)
    (hg : Integrable fun y => ρ k y * g y) : Integrable fun x : ι → E => (∏ i, ρ i (x i)) * g (x k) := by
  simp only [prod_update_eq]
  exact Integrable.fintype_prod (f := fun i => if i = k then fun y => ρ i y * g y else ρ i) (fun i => by
    by_cases h : i = k
    · subst h; simpa using hg
    · simpa [h] using h1 i)

end Product

theorem integral_encoderDensity {d : ℕ} (μ l : Fin d → ℝ) : ∫ θ, encoderDensity μ l θ = 1 := by
  unfold encoderDensity
  rw [integral_fintype_prod_volume_eq_prod fun k x => gaussianPDFReal (μ k) (varOf (l k)) x]
  exact Finset.prod_eq_one fun k _ => integral_gaussianPDFReal_eq_one _ (varOf_ne_zero _)

theorem integrable_encoderDensity {d : ℕ} (μ l : Fin d → ℝ) : Integrable fun θ => encoderDensity μ l θ :=
  Integrable.fintype_prod (f := fun k x => gaussianPDFReal (μ k) (varOf (l k)) x)
    fun _ => integrable_gaussianPDFReal _ _

theorem integrable_withPdf (μ : ℝ) (l : ℝ) (g : ℝ → ℝ) (hg : Integrable g (gaussianReal μ (varOf l))) :
    Integrable fun x => gaussianPDFReal μ (varOf l) x * g x := by
  rw [gaussianReal_of_var_ne_zero _ (varOf_ne_zero l)] at hg
  rw [integrable_withDensity_iff_integrable_smul' (measurable_gaussianPDF _ _)
    (Filter.Eventually.of_forall fun _ => gaussianPDF_lt_top)] at hg
  simpa [toReal_gaussianPDF] using hg

theorem normalDivergence_volume (μ l : ℝ) :
    ∫ x, gaussianPDFReal μ (varOf l) x * Real.log (gaussianPDFReal μ (varOf l) x / gaussianPDFReal 0 1 x)
      = normalDivergence μ (varOf l) := by
  unfold normalDivergence
  rw [integral_gaussianReal_eq_integral_smul (varOf_ne_zero l)]
  rfl

theorem log_density_ratio {d : ℕ} (μ l θ : Fin d → ℝ) : Real.log (encoderDensity μ l θ / priorDensity θ)
    = ∑ k, Real.log (gaussianPDFReal (μ k) (varOf (l k)) (θ k) / gaussianPDFReal 0 1 (θ k)) := by
  unfold encoderDensity priorDensity
  rw [← Finset.prod_div_distrib, Real.log_prod fun k _ => (div_pos
    (gaussianPDFReal_pos _ _ _ (varOf_ne_zero _)) (gaussianPDFReal_pos _ _ _ one_ne_zero)).ne']

theorem integrable_divergence {d : ℕ} (μ l : Fin d → ℝ) :
    Integrable fun θ => encoderDensity μ l θ * Real.log (encoderDensity μ l θ / priorDensity θ) := by
  simp only [log_density_ratio, Finset.mul_sum]
  refine integrable_finsetSum _ fun k _ => ?_
  exact integrable_prod_density (fun k x => gaussianPDFReal (μ k) (varOf (l k)) x)
    (fun _ => integrable_gaussianPDFReal _ _) k
    (fun x => Real.log (gaussianPDFReal (μ k) (varOf (l k)) x / gaussianPDFReal 0 1 x))
    (integrable_withPdf _ _ _ (integrable_log_ratio _ _))

/-- The closed form divergence is the expectation of the log density ratio under the encoder's distribution. -/
theorem integral_divergence {d : ℕ} (μ l : Fin d → ℝ) :
    ∫ θ, encoderDensity μ l θ * Real.log (encoderDensity μ l θ / priorDensity θ) = vaeKl μ l := by
  simp only [log_density_ratio, Finset.mul_sum]
  have hi : ∀ k : Fin d, Integrable fun θ : Fin d → ℝ => encoderDensity μ l θ *
      Real.log (gaussianPDFReal (μ k) (varOf (l k)) (θ k) / gaussianPDFReal 0 1 (θ k)) := fun k =>
    integrable_prod_density (fun k x => gaussianPDFReal (μ k) (varOf (l k)) x)
      (fun _ => integrable_gaussianPDFReal _ _) k
      (fun x => Real.log (gaussianPDFReal (μ k) (varOf (l k)) x / gaussianPDFReal 0 1 x))
      (integrable_withPdf _ _ _ (integrable_log_ratio _ _))
  rw [integral_finsetSum _ fun k _ => hi k]
  unfold vaeKl
  rw [Finset.mul_sum]
  refine Finset.sum_congr rfl fun k _ => ?_
  have := integral_prod_density (fun k x => gaussianPDFReal (μ k) (varOf (l k)) x)
    (fun k => integral_gaussianPDFReal_eq_one _ (varOf_ne_zero _)) k
    (fun x => Real.log (gaussianPDFReal (μ k) (varOf (l k)) x / gaussianPDFReal 0 1 x))
  rw [← normalDivergence_eq, ← normalDivergence_volume]
  exact this

/-- Jensen's inequality for the logarithm under a density `q`. -/
theorem integral_log_le {X : Type*} [MeasureSpace X] (q W : X → ℝ) (hq0 : ∀ x, 0 ≤ q x) (hq : Integrable q)
    (hq1 : ∫ x, q x = 1) (hW0 : ∀ x, 0 < W x) (hW : Integrable fun x => q x * W x)
    (hlog : Integrable fun x => q x * Real.log (W x)) (hpos : 0 < ∫ x, q x * W x) :
    ∫ x, q x * Real.log (W x) ≤ Real.log (∫ x, q x * W x) := by
  set c := ∫ x, q x * W x with hc
  have hle : ∀ x, q x * Real.log (W x) ≤ (q x * W x) * c⁻¹ + q x * (Real.log c - 1) := by
    intro x
    have h := Real.log_le_sub_one_of_pos (div_pos (hW0 x) hpos)
    rw [Real.log_div (hW0 x).ne' hpos.ne'] at h
    have := mul_le_mul_of_nonneg_left h (hq0 x)
    rw [div_eq_mul_inv] at this
    nlinarith
  have h1 := hW.mul_const c⁻¹
  have h2 := hq.mul_const (Real.log c - 1)
  have h3 : Integrable fun x => (q x * W x) * c⁻¹ + q x * (Real.log c - 1) := h1.add h2
  refine (integral_mono hlog h3 hle).trans ?_
  rw [integral_add h1 h2, integral_mul_const, integral_mul_const, hq1, ← hc, mul_inv_cancel₀ hpos.ne']
  linarith

end Irt
