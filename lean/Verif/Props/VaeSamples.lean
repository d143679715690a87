import Verif.Props.VAE
import Verif.Lemmas.ImportanceSamples
import Verif.Lemmas.MinimumExists
import Verif.Lemmas.LogConcave

/-! # C62: what more importance samples are good for -/

open MeasureTheory ProbabilityTheory Filter Topology

namespace Irt

/-- The expectation, over `S` independent samples of the encoder's distribution, of the objective of a respondent with the likelihood `L`
(`C62_objective_many` at full weight). -/
noncomputable def expectedObjective {d : ℕ} (L : (Fin d → ℝ) → ℝ) (μ l : Fin d → ℝ) (S : ℕ) : ℝ :=
  ∫ θ : Fin S → Fin d → ℝ, (∏ s, encoderDensity μ l (θ s)) *
    Real.log ((∑ s, L (θ s) * (priorDensity (θ s) / encoderDensity μ l (θ s))) / S)

section
variable {d : ℕ} (L : (Fin d → ℝ) → ℝ) (μ l : Fin d → ℝ)

theorem weight_pos (hL : ∀ θ, 0 < L θ) (θ : Fin d → ℝ) : 0 < L θ * (priorDensity θ / encoderDensity μ l θ) :=
  mul_pos (hL θ) (div_pos (priorDensity_pos _) (encoderDensity_pos _ _ _))

theorem weight_cancel (θ : Fin d → ℝ) : encoderDensity μ l θ * (L θ * (priorDensity θ / encoderDensity μ l θ)) = priorDensity θ * L θ := by
  have := (encoderDensity_pos μ l θ).ne'; field_simp

theorem weight_log (hL : ∀ θ, 0 < L θ) (hlog : Integrable fun θ => encoderDensity μ l θ * Real.log (L θ)) :
    Integrable fun θ => encoderDensity μ l θ * Real.log (L θ * (priorDensity θ / encoderDensity μ l θ)) := by
  have hsplit : ∀ θ, encoderDensity μ l θ * Real.log (L θ * (priorDensity θ / encoderDensity μ l θ))
      = encoderDensity μ l θ * Real.log (L θ)
        - encoderDensity μ l θ * Real.log (encoderDensity μ l θ / priorDensity θ) := by
    intro θ
    rw [Real.log_mul (hL θ).ne' (div_pos (priorDensity_pos _) (encoderDensity_pos _ _ _)).ne',
      Real.log_div (encoderDensity_pos _ _ _).ne' (priorDensity_pos _).ne',
      Real.log_div (priorDensity_pos _).ne' (encoderDensity_pos _ _ _).ne']
    ring
  simp only [hsplit]
  exact hlog.sub (integrable_divergence μ l)

/-- C62: more samples do not lower the expected objective, which stays below the log of the marginal likelihood. -/
theorem C62_more_samples (hL : ∀ θ, 0 < L θ) (hint : Integrable fun θ => priorDensity θ * L θ)
    (hlog : Integrable fun θ => encoderDensity μ l θ * Real.log (L θ)) (S S' : ℕ) (hS : 0 < S) (hSS : S ≤ S') :
    expectedObjective L μ l S ≤ expectedObjective L μ l S' ∧ expectedObjective L μ l S' ≤ Real.log (∫ θ, priorDensity θ * L θ) := by
  have hw := weight_pos L μ l hL
  have hwi : Integrable fun θ => encoderDensity μ l θ * (L θ * (priorDensity θ / encoderDensity μ l θ)) := by
    simpa only [weight_cancel] using hint
  have hwl := weight_log L μ l hL hlog
  constructor
  · induction hSS with
    | refl => exact le_rfl
    | step h ih =>
      exact ih.trans (sampleBound_succ (encoderDensity μ l) _ (encoderDensity_pos μ l) (integrable_encoderDensity μ l)
        (integral_encoderDensity μ l) hw hwi hwl _ (hS.trans_le h))
  · exact C62_bound_many S' (hS.trans_le hSS) L hL hint μ l
      (integrable_sampleBound (encoderDensity μ l) _ (encoderDensity_pos μ l) (integrable_encoderDensity μ l) hw hwi hwl S' (hS.trans_le hSS))

/-- C62: with one sample the expected objective is the expected log likelihood minus the divergence of the encoder's distribution from
the prior, the objective that the code uses for one sample. -/
theorem C62_one_sample (hL : ∀ θ, 0 < L θ) (hlog : Integrable fun θ => encoderDensity μ l θ * Real.log (L θ)) :
    expectedObjective L μ l 1 = (∫ θ, encoderDensity μ l θ * Real.log (L θ)) - vaeKl μ l := by
  have h := integral_prod_density (fun _ : Fin 1 => encoderDensity μ l) (fun _ => integral_encoderDensity μ l) 0
    fun θ => Real.log (L θ * (priorDensity θ / encoderDensity μ l θ))
  have hsplit : ∀ θ, encoderDensity μ l θ * Real.log (L θ * (priorDensity θ / encoderDensity μ l θ))
      = encoderDensity μ l θ * Real.log (L θ)
        - encoderDensity μ l θ * Real.log (encoderDensity μ l θ / priorDensity θ) := by
    intro θ
    rw [Real.log_mul (hL θ).ne' (div_pos (priorDensity_pos _) (encoderDensity_pos _ _ _)).ne',
      Real.log_div (encoderDensity_pos _ _ _).ne' (priorDensity_pos _).ne',
      Real.log_div (priorDensity_pos _).ne' (encoderDensity_pos _ _ _).ne']
    ring
  simp only [hsplit] at h
  rw [integral_sub hlog (integrable_divergence μ l), integral_divergence] at h
  rw [← h, expectedObjective]
  simp only [Finset.univ_unique, Finset.sum_singleton, Finset.prod_singleton, Nat.cast_one, div_one, Fin.default_eq_zero]

/-- C62: with more and more samples the expected objective approaches the log of the marginal likelihood. -/
theorem C62_samples_limit (hL : ∀ θ, 0 < L θ) (hmeas : Measurable L) (hint : Integrable fun θ => priorDensity θ * L θ)
    (hlog : Integrable fun θ => encoderDensity μ l θ * Real.log (L θ)) :
    Tendsto (expectedObjective L μ l) atTop (𝓝 (Real.log (∫ θ, priorDensity θ * L θ))) := by
  have hqm : Measurable (encoderDensity μ l) := by unfold encoderDensity; fun_prop
  have hpm : Measurable (priorDensity (d := d)) := by unfold priorDensity; fun_prop
  have hwi : Integrable fun θ => encoderDensity μ l θ * (L θ * (priorDensity θ / encoderDensity μ l θ)) := by
    simpa only [weight_cancel] using hint
  have hpos : 0 < ∫ θ, priorDensity θ * L θ := by
    rw [integral_pos_iff_support_of_nonneg (fun θ => (mul_pos (priorDensity_pos θ) (hL θ)).le) hint]
    have : Function.support (fun θ : Fin d → ℝ => priorDensity θ * L θ) = Set.univ := by
      ext θ; simp [(priorDensity_pos θ).ne', (hL θ).ne']
    rw [this]
    exact NeZero.pos _
  have h := sampleBound_tendsto (encoderDensity μ l) (fun θ => L θ * (priorDensity θ / encoderDensity μ l θ)) (encoderDensity_pos μ l)
    (integrable_encoderDensity μ l) hqm (integral_encoderDensity μ l) (weight_pos L μ l hL) (hmeas.mul (hpm.div hqm)) hwi
    (weight_log L μ l hL hlog)
  simp only [weight_cancel] at h
  exact h hpos fun S hS => (C62_more_samples L μ l hL hint hlog S S hS le_rfl).2

end

/-! ## The models -/

theorem integrable_encoder_coord {d : ℕ} (μ l : Fin d → ℝ) (k : Fin d) : Integrable fun θ => encoderDensity μ l θ * θ k :=
  integrable_prod_density (fun k x => gaussianPDFReal (μ k) (varOf (l k)) x) (fun _ => integrable_gaussianPDFReal _ _) k id
    (integrable_withPdf _ _ _ ((memLp_id_gaussianReal 1).integrable le_rfl))

theorem integrable_encoder_affine {d : ℕ} (μ l w : Fin d → ℝ) (b : ℝ) :
    Integrable fun θ => encoderDensity μ l θ * (∑ k, w k * θ k + b) := by
  have e : ∀ θ, encoderDensity μ l θ * (∑ k, w k * θ k + b) = ∑ k, encoderDensity μ l θ * θ k * w k + encoderDensity μ l θ * b := by
    intro θ
    rw [mul_add, Finset.mul_sum]
    congr 1
    exact Finset.sum_congr rfl fun k _ => by ring
  simp only [e]
  exact (integrable_finsetSum _ fun k _ => (integrable_encoder_coord μ l k).mul_const _).add ((integrable_encoderDensity μ l).mul_const _)

section
variable {d : ℕ} {cats : List ℕ} {P : (Fin d → ℝ) → ℕ → ℕ → ℝ} {A : ℕ → ℕ → Fin d → ℝ} {B : ℕ → ℕ → ℝ}

theorem LogitModel.neg_log_le (h : LogitModel cats P A B) (θ : Fin d → ℝ) (j c r : ℕ) (hc : cats[j]? = some c) (hr : r < c) :
    |Real.log (P θ j r)| ≤ c + 2 * ∑ s ∈ Finset.range c, |∑ k, A j s k * θ k + B j s| := by
  have hpos := h.pos θ j c r hc hr
  have hle := h.le_one θ j c r hc hr
  rw [abs_of_nonpos (Real.log_nonpos hpos.le hle), h.log_eq θ j c r hc hr]
  set z : ℕ → ℝ := fun s => ∑ k, A j s k * θ k + B j s with hz
  have hmem : ∀ s ∈ Finset.range c, |z s| ≤ ∑ s ∈ Finset.range c, |z s| := fun s hs =>
    Finset.single_le_sum (f := fun s => |z s|) (fun _ _ => abs_nonneg _) hs
  have hc0 : (0 : ℝ) < c := by exact_mod_cast (by omega : 0 < c)
  have hZ : ∑ s ∈ Finset.range c, Real.exp (z s) ≤ c * Real.exp (∑ s ∈ Finset.range c, |z s|) := by
    calc ∑ s ∈ Finset.range c, Real.exp (z s) ≤ ∑ _s ∈ Finset.range c, Real.exp (∑ s ∈ Finset.range c, |z s|) :=
          Finset.sum_le_sum fun s hs => Real.exp_le_exp.2 ((le_abs_self _).trans (hmem s hs))
      _ = _ := by simp
  have hZ0 : 0 < ∑ s ∈ Finset.range c, Real.exp (z s) := Finset.sum_pos (fun _ _ => Real.exp_pos _) ⟨r, Finset.mem_range.2 hr⟩
  have h1 := Real.log_le_log hZ0 hZ
  rw [Real.log_mul hc0.ne' (Real.exp_pos _).ne', Real.log_exp] at h1
  have h2 := Real.log_le_self hc0.le
  have h3 := (neg_abs_le (z r)).trans le_rfl
  have h4 := hmem r (Finset.mem_range.2 hr)
  change -(z r - Real.log (∑ s ∈ Finset.range c, Real.exp (z s))) ≤ _
  linarith

/-- C62: the likelihood of any answers under a model with log odds that are linear in the latent variables meets the conditions of the bounds. -/
theorem LogitModel.weights (h : LogitModel cats P A B) (row : ℕ → Cell) (hrow : ValidResponses cats row) (μ l : Fin d → ℝ) :
    (∀ θ, 0 < observedLikelihood P cats.length row θ) ∧ Measurable (observedLikelihood P cats.length row) ∧
      (Integrable fun θ => priorDensity θ * observedLikelihood P cats.length row θ) ∧
      Integrable fun θ => encoderDensity μ l θ * Real.log (observedLikelihood P cats.length row θ) := by
  have hcont := h.logConcave.likelihood_continuous row hrow
  have hpos := h.logConcave.likelihood_pos row hrow
  have hp : Integrable fun θ : Fin d → ℝ => priorDensity θ :=
    Integrable.fintype_prod (f := fun _ x => gaussianPDFReal 0 1 x) fun _ => integrable_gaussianPDFReal _ _
  refine ⟨hpos, hcont.measurable, hp.mul_bdd (c := 1) hcont.aestronglyMeasurable (Eventually.of_forall fun θ => ?_), ?_⟩
  · rw [Real.norm_eq_abs, abs_of_pos (hpos θ)]
    exact h.logConcave.likelihood_le_one row hrow θ
  · have hfac : ∀ θ, ∀ j ∈ Finset.range cats.length, (if cellMissing (row j) then (1 : ℝ) else P θ j (responseOf (row j))) ≠ 0 :=
      fun θ j hj => (h.logConcave.cell_pos row hrow θ j (Finset.mem_range.1 hj)).1.ne'
    have e : ∀ θ, encoderDensity μ l θ * Real.log (observedLikelihood P cats.length row θ)
        = ∑ j ∈ Finset.range cats.length, encoderDensity μ l θ *
            Real.log (if cellMissing (row j) then (1 : ℝ) else P θ j (responseOf (row j))) := by
      intro θ
      rw [observedLikelihood, Real.log_prod (hfac θ), Finset.mul_sum]
    simp only [e]
    refine integrable_finsetSum _ fun j hj => ?_
    obtain ⟨c, hc⟩ := getElem?_of_lt cats j (Finset.mem_range.1 hj)
    cases hm : cellMissing (row j) with
    | true => simpa using integrable_zero (Fin d → ℝ) ℝ volume
    | false =>
      have hr := observed_lt cats row hrow j c hc hm
      simp only [Bool.false_eq_true, if_false]
      have hdom : Integrable fun θ => encoderDensity μ l θ * c
          + ∑ s ∈ Finset.range c, |encoderDensity μ l θ * (∑ k, A j s k * θ k + B j s)| * 2 :=
        ((integrable_encoderDensity μ l).mul_const _).add
          (integrable_finsetSum _ fun s _ => (integrable_encoder_affine μ l (A j s) (B j s)).abs.mul_const _)
      refine hdom.mono ?_ (Eventually.of_forall fun θ => ?_)
      · exact ((integrable_encoderDensity μ l).aemeasurable.mul
          (h.logConcave.continuous j c _ hc hr).measurable.log.aemeasurable).aestronglyMeasurable
      · have hq := encoderDensity_pos μ l θ
        have hb := h.neg_log_le θ j c _ hc hr
        have hsum : encoderDensity μ l θ * c + ∑ s ∈ Finset.range c, |encoderDensity μ l θ * (∑ k, A j s k * θ k + B j s)| * 2
            = encoderDensity μ l θ * (c + 2 * ∑ s ∈ Finset.range c, |∑ k, A j s k * θ k + B j s|) := by
          simp only [abs_mul, abs_of_pos hq]
          rw [mul_add, Finset.mul_sum, Finset.mul_sum]
          congr 1
          exact Finset.sum_congr rfl fun s _ => by ring
        rw [hsum, Real.norm_eq_abs, Real.norm_eq_abs, abs_mul, abs_of_pos hq]
        refine (mul_le_mul_of_nonneg_left hb hq.le).trans (le_abs_self _)

/-- C62 for the models with log odds that are linear in the latent variables: for the answers of any respondent and any output of the
encoder, more samples bring the expected objective closer to the log marginal likelihood, from below, as close as one likes. -/
theorem C62_logit_samples (h : LogitModel cats P A B) (row : ℕ → Cell) (hrow : ValidResponses cats row) (μ l : Fin d → ℝ) :
    (∀ S S' : ℕ, 0 < S → S ≤ S' → expectedObjective (observedLikelihood P cats.length row) μ l S
        ≤ expectedObjective (observedLikelihood P cats.length row) μ l S') ∧
      (∀ S : ℕ, 0 < S → expectedObjective (observedLikelihood P cats.length row) μ l S
        ≤ Real.log (∫ θ, priorDensity θ * observedLikelihood P cats.length row θ)) ∧
      Tendsto (expectedObjective (observedLikelihood P cats.length row) μ l) atTop
        (𝓝 (Real.log (∫ θ, priorDensity θ * observedLikelihood P cats.length row θ))) := by
  obtain ⟨h1, h2, h3, h4⟩ := h.weights row hrow μ l
  exact ⟨fun S S' hS hSS => (C62_more_samples _ μ l h1 h3 h4 S S' hS hSS).1,
    fun S hS => (C62_more_samples _ μ l h1 h3 h4 S S hS le_rfl).2, C62_samples_limit _ μ l h1 h2 h3 h4⟩

end

/-- The hypotheses of `C62_more_samples`, `C62_one_sample`, `C62_samples_limit` and `C62_logit_samples`: the answers of the example data
under a generalized partial credit model. -/
example (μ l : Fin 1 → ℝ) : let L := observedLikelihood (fun θ => tableProb (exScore.probs (List.ofFn θ))) exScore.cats.length (exResponses 0)
    expectedObjective L μ l 1 ≤ expectedObjective L μ l 5 ∧
      Tendsto (expectedObjective L μ l) atTop (𝓝 (Real.log (∫ θ, priorDensity θ * L θ))) := by
  intro L
  have h := C62_logit_samples (exScore.logitModel exScore_wf 1) (exResponses 0) (exResponses_valid 0) μ l
  exact ⟨h.1 1 5 (by norm_num) (by norm_num), h.2.2⟩

end Irt
