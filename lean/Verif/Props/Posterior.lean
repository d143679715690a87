import Verif.Model.Posterior
import Verif.Props.LatentFunctions
import Verif.Props.VAE

/-! # C81: credible intervals, standard errors and samples of a fitted variational autoencoder -/

namespace Irt

open ProbabilityTheory MeasureTheory

/-! ## The standard normal distribution function -/

theorem normal_cdf_strictMono : StrictMono (cdf (gaussianReal 0 1)) := by
  intro x y hxy
  have hpos : 0 < gaussianReal 0 1 (Set.Ioc x y) := by
    rw [pos_iff_ne_zero]
    intro h0
    have := gaussianReal_absolutelyContinuous' 0 (v := 1) one_ne_zero h0
    rw [Real.volume_Ioc, ENNReal.ofReal_eq_zero] at this
    linarith
  have h : (gaussianReal 0 1) (Set.Ioc x y) = ENNReal.ofReal (cdf (gaussianReal 0 1) y - cdf (gaussianReal 0 1) x) := by
    conv_lhs => rw [← measure_cdf (gaussianReal 0 1)]
    rw [StieltjesFunction.measure_Ioc]
  rw [h, ENNReal.ofReal_pos] at hpos
  linarith

theorem normal_cdf_neg (x : ℝ) : cdf (gaussianReal 0 1) (-x) = 1 - cdf (gaussianReal 0 1) x := by
  have : NullSingletonClass (gaussianReal 0 1) := nullSingletonClass_gaussianReal one_ne_zero
  have h1 : (gaussianReal 0 1).real (Set.Iic (-x)) = (gaussianReal 0 1).real (Set.Ici x) := by
    have h := gaussianReal_map_neg (μ := 0) (v := 1)
    rw [neg_zero] at h
    conv_lhs => rw [← h]
    rw [map_measureReal_apply (by fun_prop) measurableSet_Iic]
    congr 1
    ext y; simp
  have h2 : (gaussianReal 0 1).real (Set.Ici x) = (gaussianReal 0 1).real (Set.Ioi x) :=
    measureReal_congr Ioi_ae_eq_Ici.symm
  rw [cdf_eq_real, cdf_eq_real, h1, h2, ← Set.compl_Iic, probReal_compl_eq_one_sub measurableSet_Iic]

theorem normalQuantile_neg {icdf : ℝ → ℝ} (hq : IsNormalQuantile icdf) {p : ℝ} (h0 : 0 < p) (h1 : p < 1) :
    icdf (1 - p) = -icdf p := by
  apply normal_cdf_strictMono.injective
  rw [normal_cdf_neg, hq p h0 h1, hq (1 - p) (by linarith) (by linarith)]

theorem normalQuantile_lt {icdf : ℝ → ℝ} (hq : IsNormalQuantile icdf) {p q : ℝ} (h0 : 0 < p) (hpq : p < q) (h1 : q < 1) :
    icdf p < icdf q := by
  rw [← normal_cdf_strictMono.lt_iff_lt, hq p h0 (by linarith), hq q (by linarith) h1]
  exact hpq

theorem normalQuantile_half {icdf : ℝ → ℝ} (hq : IsNormalQuantile icdf) : icdf (1 / 2) = 0 := by
  have := normalQuantile_neg hq (p := 1 / 2) (by norm_num) (by norm_num)
  norm_num at this
  norm_num
  linarith

/-- The encoder's distribution of an interval, in units of its standard deviation. -/
theorem posterior_iic (μ l x : ℝ) :
    gaussianReal μ (varOf l) (Set.Iic (μ + Real.exp (0.5 * l) * x)) = ENNReal.ofReal (cdf (gaussianReal 0 1) x) := by
  rw [← C62_samples μ l, Measure.map_apply _ measurableSet_Iic]
  · rw [cdf_eq_real, ofReal_measureReal]
    congr 1
    ext e
    simp only [reparameterize, Set.mem_preimage, Set.mem_Iic]
    have := Real.exp_pos (0.5 * l)
    constructor
    · intro h; nlinarith
    · intro h; nlinarith
  · unfold reparameterize; fun_prop

/-! ## Credible intervals -/

/-- C81: for every level `alpha` strictly between 0 and 1 the credible interval holds the reported mean in its interior, at its
middle, and the encoder's normal distribution puts exactly `alpha / 2` below it, `alpha / 2` above it and `1 - alpha` in it. -/
theorem C81_interval {icdf : ℝ → ℝ} (hq : IsNormalQuantile icdf) (mean logvar alpha : ℝ) (h0 : 0 < alpha) (h1 : alpha < 1) :
    ∃ lower upper, credibleInterval icdf mean logvar alpha = (lower, mean, upper) ∧
      lower < mean ∧ mean < upper ∧ mean - lower = upper - mean ∧
      gaussianReal mean (varOf logvar) (Set.Iio lower) = ENNReal.ofReal (alpha / 2) ∧
      gaussianReal mean (varOf logvar) (Set.Ioi upper) = ENNReal.ofReal (alpha / 2) ∧
      gaussianReal mean (varOf logvar) (Set.Icc lower upper) = ENNReal.ofReal (1 - alpha) := by
  refine ⟨_, _, rfl, ?_⟩
  have hna : NullSingletonClass (gaussianReal mean (varOf logvar)) := nullSingletonClass_gaussianReal (varOf_ne_zero _)
  have hs := Real.exp_pos (0.5 * logvar)
  have hneg := normalQuantile_neg hq (p := alpha / 2) (by linarith) (by linarith)
  have hlt : icdf (alpha / 2) < 0 := by
    rw [← normalQuantile_half hq]
    exact normalQuantile_lt hq (by linarith) (by linarith) (by norm_num)
  have hle : posteriorQuantile icdf mean logvar (alpha / 2) ≤ posteriorQuantile icdf mean logvar (1 - alpha / 2) := by
    simp only [posteriorQuantile, hneg]; nlinarith
  have hlo : gaussianReal mean (varOf logvar) (Set.Iio (posteriorQuantile icdf mean logvar (alpha / 2)))
      = ENNReal.ofReal (alpha / 2) := by
    rw [measure_congr Iio_ae_eq_Iic, posteriorQuantile, posterior_iic, hq _ (by linarith) (by linarith)]
  have hiic : gaussianReal mean (varOf logvar) (Set.Iic (posteriorQuantile icdf mean logvar (1 - alpha / 2)))
      = ENNReal.ofReal (1 - alpha / 2) := by
    rw [posteriorQuantile, posterior_iic, hq _ (by linarith) (by linarith)]
  refine ⟨?_, ?_, ?_, hlo, ?_, ?_⟩
  · simp only [posteriorQuantile]; nlinarith
  · simp only [posteriorQuantile, hneg]; nlinarith
  · simp only [posteriorQuantile, hneg]; ring
  · rw [← Set.compl_Iic, prob_compl_eq_one_sub measurableSet_Iic, hiic, ← ENNReal.ofReal_one,
      ← ENNReal.ofReal_sub _ (by linarith)]
    congr 1; ring
  · rw [← Set.Iic_sdiff_Iio, measure_sdiff (Set.Iio_subset_Iic_iff.mpr hle)
      measurableSet_Iio.nullMeasurableSet (measure_ne_top _ _), hlo, hiic, ← ENNReal.ofReal_sub _ (by linarith)]
    congr 1; ring

example : ∃ icdf : ℝ → ℝ, ∃ lower upper, credibleInterval icdf 1 0 0.05 = (lower, 1, upper) ∧
    gaussianReal 1 (varOf 0) (Set.Icc lower upper) = ENNReal.ofReal (1 - 0.05) := by
  obtain ⟨icdf, hq⟩ := exists_normalQuantile
  obtain ⟨lo, hi, h, -, -, -, -, -, hm⟩ := C81_interval hq 1 0 0.05 (by norm_num) (by norm_num)
  exact ⟨icdf, lo, hi, h, hm⟩

/-- C81: a larger `alpha` gives an interval strictly inside. -/
theorem C81_nested {icdf : ℝ → ℝ} (hq : IsNormalQuantile icdf) (mean logvar alpha beta : ℝ) (h0 : 0 < alpha)
    (hab : alpha < beta) (h1 : beta < 1) :
    (credibleInterval icdf mean logvar alpha).1 < (credibleInterval icdf mean logvar beta).1 ∧
    (credibleInterval icdf mean logvar beta).2.2 < (credibleInterval icdf mean logvar alpha).2.2 := by
  have hs := Real.exp_pos (0.5 * logvar)
  have ha := normalQuantile_lt hq (p := alpha / 2) (q := beta / 2) (by linarith) (by linarith) (by linarith)
  have hb := normalQuantile_lt hq (p := 1 - beta / 2) (q := 1 - alpha / 2) (by linarith) (by linarith) (by linarith)
  simp only [credibleInterval, posteriorQuantile]
  constructor
  · nlinarith
  · nlinarith

/-- C81: no set of latent variable values that is as small as the interval has a larger probability under the encoder's
distribution. -/
theorem C81_smallest {icdf : ℝ → ℝ} (hq : IsNormalQuantile icdf) (mean logvar alpha : ℝ) (h0 : 0 < alpha) (h1 : alpha < 1)
    (A : Set ℝ) (hA : MeasurableSet A)
    (hsize : volume A ≤ ENNReal.ofReal
      ((credibleInterval icdf mean logvar alpha).2.2 - (credibleInterval icdf mean logvar alpha).1)) :
    gaussianReal mean (varOf logvar) A ≤ ENNReal.ofReal (1 - alpha) := by
  obtain ⟨lo, hi, h, hlm, hmh, hsym, -, -, hC⟩ := C81_interval hq mean logvar alpha h0 h1
  rw [h] at hsize
  simp only at hsize
  rw [← hC]
  set N := gaussianReal mean (varOf logvar) with hN
  set C := Set.Icc lo hi with hCdef
  have hCm : MeasurableSet C := measurableSet_Icc
  set c := gaussianPDFReal mean (varOf logvar) hi with hc
  have hv : (0 : ℝ) < ((varOf logvar : NNReal) : ℝ) := Real.exp_pos logvar
  -- the density decreases with the distance from the mean
  have hmono : ∀ x y, (x - mean) ^ 2 ≤ (y - mean) ^ 2 →
      gaussianPDFReal mean (varOf logvar) y ≤ gaussianPDFReal mean (varOf logvar) x := by
    intro x y hxy
    unfold gaussianPDFReal
    apply mul_le_mul_of_nonneg_left _ (by positivity)
    apply Real.exp_le_exp.mpr
    rw [neg_div, neg_div, neg_le_neg_iff]
    exact div_le_div_of_nonneg_right hxy (by positivity)
  have hin : ∀ x ∈ C, c ≤ gaussianPDFReal mean (varOf logvar) x := by
    intro x hx
    apply hmono
    have := hx.1; have := hx.2
    nlinarith
  have hout : ∀ x ∈ A \ C, gaussianPDFReal mean (varOf logvar) x ≤ c := by
    intro x hx
    apply hmono
    by_cases hxl : lo ≤ x
    · have : hi < x := by
        by_contra hh
        exact hx.2 ⟨hxl, not_lt.mp hh⟩
      nlinarith
    · push Not at hxl
      nlinarith
  have hAC : N (A \ C) ≤ ENNReal.ofReal c * volume (A \ C) := by
    rw [hN, gaussianReal_apply _ (varOf_ne_zero _)]
    calc ∫⁻ x in A \ C, gaussianPDF mean (varOf logvar) x
        ≤ ∫⁻ _ in A \ C, ENNReal.ofReal c :=
          setLIntegral_mono' (hA.diff hCm) fun x hx => ENNReal.ofReal_le_ofReal (hout x hx)
      _ = _ := by rw [setLIntegral_const]
  have hCA : ENNReal.ofReal c * volume (C \ A) ≤ N (C \ A) := by
    rw [hN, gaussianReal_apply _ (varOf_ne_zero _)]
    calc ENNReal.ofReal c * volume (C \ A) = ∫⁻ _ in C \ A, ENNReal.ofReal c := by rw [setLIntegral_const]
      _ ≤ _ := setLIntegral_mono' (hCm.diff hA) fun x hx => ENNReal.ofReal_le_ofReal (hin x hx.1)
  have hvol : volume (A \ C) ≤ volume (C \ A) := by
    have e1 := measure_sdiff_add_inter (μ := volume) A hCm
    have e2 := measure_sdiff_add_inter (μ := volume) C hA
    have hCv : volume C = ENNReal.ofReal (hi - lo) := Real.volume_Icc
    rw [← hCv, ← e1, ← e2, Set.inter_comm C A] at hsize
    have hfin : volume (A ∩ C) ≠ ⊤ := ne_top_of_le_ne_top (by rw [hCv]; exact ENNReal.ofReal_ne_top)
      (measure_mono Set.inter_subset_right)
    exact (ENNReal.add_le_add_iff_right hfin).mp hsize
  calc N A = N (A \ C) + N (A ∩ C) := (measure_sdiff_add_inter A hCm).symm
    _ ≤ N (C \ A) + N (C ∩ A) := by
      rw [Set.inter_comm C A]
      exact add_le_add_left (hAC.trans ((mul_le_mul_right hvol _).trans hCA)) _
    _ = N C := measure_sdiff_add_inter C hA

/-- A set as small as the interval: the interval moved to start at the mean. -/
example : ∃ icdf : ℝ → ℝ, ∃ lower upper, credibleInterval icdf 1 0 0.05 = (lower, 1, upper) ∧ lower < upper ∧
    gaussianReal 1 (varOf 0) (Set.Icc 1 (1 + (upper - lower))) ≤ ENNReal.ofReal (1 - 0.05) := by
  obtain ⟨icdf, hq⟩ := exists_normalQuantile
  obtain ⟨lo, hi, h, h1, h2, -⟩ := C81_interval hq 1 0 0.05 (by norm_num) (by norm_num)
  refine ⟨icdf, lo, hi, h, h1.trans h2, C81_smallest hq 1 0 0.05 (by norm_num) (by norm_num) _ measurableSet_Icc ?_⟩
  rw [h, Real.volume_Icc]
  apply le_of_eq
  congr 1
  ring

/-! ## Standard errors -/

/-- C81: the reported mean is the mean of the encoder's distribution and the standard error is positive, with the variance of the
encoder's distribution as its square. -/
theorem C81_mean_se (mean logvar : ℝ) :
    (latentMeanSe mean logvar).1 = ∫ x, x ∂(gaussianReal mean (varOf logvar)) ∧
    0 < (latentMeanSe mean logvar).2 ∧
    (latentMeanSe mean logvar).2 ^ 2 = Var[id; gaussianReal mean (varOf logvar)] := by
  refine ⟨?_, Real.exp_pos _, ?_⟩
  · rw [integral_id_gaussianReal]; rfl
  · rw [variance_id_gaussianReal, varOf_coe]
    exact exp_half_sq logvar

example : latentMeanSe 2 (Real.log 9) = (2, 3) := by
  have : (0.5 : ℝ) * Real.log 9 = Real.log 3 := by
    rw [show (9 : ℝ) = 3 ^ 2 by norm_num, Real.log_pow]; push_cast; ring
  simp only [latentMeanSe, this, Real.exp_log (by norm_num : (0 : ℝ) < 3)]

/-! ## Samples -/

/-- C81: sampling returns one sample for every requested row index; sample `s` is the encoder's mean of the drawn row plus its
standard deviation times the draw; and empty data are refused. -/
theorem C81_samples {ρ : Type} {d : ℕ} (encoder : ρ → (Fin d → ℝ) × (Fin d → ℝ)) (rows : List ρ) (indices : List ℕ)
    (eps : Thetas d) (hlen : eps.length = indices.length) (hidx : ∀ i ∈ indices, i < rows.length) (hrows : rows ≠ []) :
    ∃ out, sampleLatent encoder rows indices eps = .ok out ∧ out.length = indices.length ∧
      ∀ (s i : ℕ) (r : ρ) (e : Fin d → ℝ), indices[s]? = some i → rows[i]? = some r → eps[s]? = some e →
        out[s]? = some fun k => (encoder r).1 k + Real.sqrt (varOf ((encoder r).2 k)) * e k := by
  obtain ⟨r0, rs, hr⟩ := List.exists_cons_of_ne_nil hrows
  refine ⟨List.zipWith (fun r e => reparameterize (encoder r).1 (encoder r).2 e) (indices.map fun i => rows.getD i r0) eps,
    ?_, ?_, ?_⟩
  · unfold sampleLatent
    rw [if_neg hrows]
    rw [mapM_ok indices _ (fun i => rows.getD i r0)]
    · rfl
    · intro i hi
      have := hidx i hi
      simp [this]
  · simp [hlen]
  · intro s i r e hi hri he
    rw [List.getElem?_zipWith, List.getElem?_map, hi, he]
    simp only [Option.map_some, List.getD_eq_getElem?_getD, hri, Option.getD_some, Option.some.injEq]
    funext k
    simp only [reparameterize]
    rw [varOf_coe, show Real.sqrt (Real.exp ((encoder r).2 k)) = Real.exp (0.5 * (encoder r).2 k) by
      rw [← exp_half_sq, Real.sqrt_sq (Real.exp_pos _).le]]
    ring

example : sampleLatent (d := 1) (fun r : ℝ => ((fun _ => r), fun _ => 0)) [5, 7] [1, 1] [fun _ => 1, fun _ => -2]
    = .ok [fun _ => 8, fun _ => 5] := by
  simp only [sampleLatent, List.mapM_cons, List.mapM_nil]
  rw [if_neg (by simp)]
  norm_num [pure, Except.pure, bind, Except.bind]
  constructor <;> (funext k; norm_num [reparameterize])

/-- C81: empty data are refused. -/
theorem C81_samples_empty {ρ : Type} {d : ℕ} (encoder : ρ → (Fin d → ℝ) × (Fin d → ℝ)) (indices : List ℕ) (eps : Thetas d) :
    sampleLatent encoder [] indices eps = .error .runtimeError := rfl

/-- C81: over the random draws the sample of a row has the encoder's distribution of that row. -/
theorem C81_sample_law {d : ℕ} (μ l : Fin d → ℝ) :
    (Measure.pi fun _ : Fin d => gaussianReal 0 1).map (fun e => reparameterize μ l e)
      = Measure.pi fun k => gaussianReal (μ k) (varOf (l k)) := by
  have h1 : ∀ k, (gaussianReal 0 1).map (fun e => e * Real.exp (0.5 * l k) + μ k) = gaussianReal (μ k) (varOf (l k)) := by
    intro k
    rw [← C62_samples (μ k) (l k)]
    congr 1
    funext e
    simp [reparameterize]
    ring
  have h2 := Measure.pi_map_pi (μ := fun _ : Fin d => gaussianReal 0 1)
    (f := fun k e => e * Real.exp (0.5 * l k) + μ k)
    (hμ := fun k => by rw [h1]; infer_instance) (fun k => by fun_prop)
  simp only [h1] at h2
  rw [← h2]
  congr 1
  funext e k
  simp [reparameterize]
  ring

end Irt
