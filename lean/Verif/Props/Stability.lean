import Verif.Spec.Stability
import Verif.Props.ScoreSearch
import Verif.Lemmas.LogitModel

/-! # C140: MAP scores are stable -/

namespace Irt

open Spec Finset Matrix

variable {d : ℕ} {cats : List ℕ} {P : (Fin d → ℝ) → ℕ → ℕ → ℝ}

/-! ## The prior keeps the posterior curved -/

theorem quad_comb (M : Matrix (Fin d) (Fin d) ℝ) (x y : Fin d → ℝ) (a : ℝ) :
    (a • x + (1 - a) • y) ⬝ᵥ (M.mulVec (a • x + (1 - a) • y))
      = a * (x ⬝ᵥ (M.mulVec x)) + (1 - a) * (y ⬝ᵥ (M.mulVec y)) - a * (1 - a) * ((x - y) ⬝ᵥ (M.mulVec (x - y))) := by
  simp only [Matrix.mulVec_add, Matrix.mulVec_sub, Matrix.mulVec_smul, dotProduct_add, add_dotProduct, dotProduct_sub, sub_dotProduct, dotProduct_smul,
    smul_dotProduct, smul_eq_mul]
  ring

theorem mvn_comb (cov : Matrix (Fin d) (Fin d) ℝ) (x y : Fin d → ℝ) (a : ℝ) :
    mvnLogDensity 0 cov (a • x + (1 - a) • y)
      = a * mvnLogDensity 0 cov x + (1 - a) * mvnLogDensity 0 cov y + a * (1 - a) / 2 * distSq cov x y := by
  simp only [mvnLogDensity, sub_zero, quad_comb, distSq]
  ring

theorem distSq_comm (cov : Matrix (Fin d) (Fin d) ℝ) (x y : Fin d → ℝ) : distSq cov x y = distSq cov y x := by
  rw [distSq, distSq, ← neg_sub y x, Matrix.mulVec_neg, neg_dotProduct, dotProduct_neg, neg_neg]

theorem distSq_nonneg (cov : Matrix (Fin d) (Fin d) ℝ) (h : cov.PosDef) (x y : Fin d → ℝ) : 0 ≤ distSq cov x y := by
  obtain ⟨B, -, -, hq⟩ := mvn_factor cov h
  rw [distSq, hq]
  exact sum_nonneg fun _ _ => sq_nonneg _

theorem slopeVar_nonneg (cov : Matrix (Fin d) (Fin d) ℝ) (h : cov.PosDef) (g : Fin d → ℝ) : 0 ≤ slopeVar cov g := by
  have := h.posSemidef.dotProduct_mulVec_nonneg g
  simpa [slopeVar] using this

/-- Cauchy's inequality for the prior's covariance matrix and its inverse. -/
theorem dot_sq_le (cov : Matrix (Fin d) (Fin d) ℝ) (h : cov.PosDef) (g x y : Fin d → ℝ) :
    (g ⬝ᵥ (x - y)) ^ 2 ≤ slopeVar cov g * distSq cov x y := by
  set v := x - y with hv
  have hu : IsUnit cov.det := h.det_pos.ne'.isUnit
  have hsym : covᵀ = cov := by
    have := h.isHermitian
    rwa [Matrix.IsHermitian, Matrix.conjTranspose_eq_transpose_of_trivial] at this
  have key : ∀ s : ℝ, 0 ≤ distSq cov x y * (s * s) + (-2 * (g ⬝ᵥ v)) * s + slopeVar cov g := by
    intro s
    have h1 := slopeVar_nonneg cov h (g - s • cov⁻¹.mulVec v)
    have e1 : cov.mulVec (cov⁻¹.mulVec v) = v := by
      rw [Matrix.mulVec_mulVec, Matrix.mul_nonsing_inv _ hu, Matrix.one_mulVec]
    have e2 : (cov⁻¹.mulVec v) ⬝ᵥ (cov.mulVec g) = g ⬝ᵥ v := by
      rw [Matrix.dotProduct_mulVec, ← Matrix.mulVec_transpose, hsym, e1, dotProduct_comm]
    have e3 : (cov⁻¹.mulVec v) ⬝ᵥ v = distSq cov x y := dotProduct_comm _ _
    have : slopeVar cov (g - s • cov⁻¹.mulVec v) = distSq cov x y * (s * s) + (-2 * (g ⬝ᵥ v)) * s + slopeVar cov g := by
      unfold slopeVar
      simp only [Matrix.mulVec_sub, Matrix.mulVec_smul, dotProduct_sub, sub_dotProduct, dotProduct_smul, smul_dotProduct, smul_eq_mul, e1, e2, e3]
      ring
    rwa [this] at h1
  have := discrim_le_zero key
  unfold discrim at this
  nlinarith

theorem le_of_dot (cov : Matrix (Fin d) (Fin d) ℝ) (h : cov.PosDef) (g x y : Fin d → ℝ) (hd : distSq cov x y ≤ g ⬝ᵥ (x - y)) :
    distSq cov x y ≤ slopeVar cov g := by
  have h1 := dot_sq_le cov h g x y
  have h2 := distSq_nonneg cov h x y
  rcases h2.lt_or_eq with h3 | h3
  · have : distSq cov x y * distSq cov x y ≤ slopeVar cov g * distSq cov x y := by nlinarith
    exact le_of_mul_le_mul_right this h3
  · rw [← h3]; exact slopeVar_nonneg cov h g

section Curved

variable (h : LogConcaveModel cats P) (cov : Matrix (Fin d) (Fin d) ℝ) (hcov : cov.PosDef) (row : ℕ → Cell) (hrow : ValidResponses cats row)

include h hcov hrow

theorem posterior_comb (x y : Fin d → ℝ) (a : ℝ) (ha : 0 ≤ a) (ha1 : a ≤ 1) :
    a * Real.log (posteriorWeight P cats.length cov row x) + (1 - a) * Real.log (posteriorWeight P cats.length cov row y)
      + a * (1 - a) / 2 * distSq cov x y ≤ Real.log (posteriorWeight P cats.length cov row (a • x + (1 - a) • y)) := by
  have e := h.log_weight cov row hrow
  simp only [scoreWeight] at e
  have hc := (h.likelihood_concave row hrow).2 (Set.mem_univ x) (Set.mem_univ y) ha (by linarith : 0 ≤ 1 - a) (by ring)
  simp only [smul_eq_mul] at hc
  rw [e, e, e, mvn_comb]
  linarith

/-- Away from the MAP score the log posterior is lower by at least half the squared distance. -/
theorem mode_gap (θ : Fin d → ℝ) (hθ : IsMode (posteriorWeight P cats.length cov row) θ) (t : Fin d → ℝ) :
    Real.log (posteriorWeight P cats.length cov row t) + distSq cov t θ / 2 ≤ Real.log (posteriorWeight P cats.length cov row θ) := by
  have hpos := h.weight_pos (some cov) row hrow
  simp only [scoreWeight] at hpos
  have hD := distSq_nonneg cov hcov t θ
  set D := distSq cov t θ
  set f := fun t => Real.log (posteriorWeight P cats.length cov row t) with hf
  have step : ∀ a : ℝ, 0 < a → a ≤ 1 → f t + (1 - a) / 2 * D ≤ f θ := by
    intro a ha ha1
    have h1 := posterior_comb h cov hcov row hrow t θ a ha.le ha1
    have h2 := Real.log_le_log (hpos (a • t + (1 - a) • θ)) (hθ (a • t + (1 - a) • θ))
    have h3 : a * (f t + (1 - a) / 2 * D) ≤ a * f θ := by
      simp only [hf]
      nlinarith
    exact le_of_mul_le_mul_left h3 ha
  show f t + D / 2 ≤ f θ
  by_contra hcon
  push Not at hcon
  have hft : f t ≤ f θ := by simpa using step 1 one_pos le_rfl
  have hDpos : 0 < D := by linarith
  have ha := step ((f t + D / 2 - f θ) / D) (div_pos (by linarith) hDpos) ((div_le_one hDpos).2 (by linarith))
  have e : (1 - (f t + D / 2 - f θ) / D) / 2 * D = (D - (f t + D / 2 - f θ)) / 2 := by field_simp
  rw [e] at ha
  linarith

/-- The tangent plane lies above the log posterior, by at least half the squared distance. -/
theorem tangent_gap (t : Fin d → ℝ) (L : (Fin d → ℝ) →L[ℝ] ℝ)
    (hL : HasFDerivAt (fun θ => Real.log (posteriorWeight P cats.length cov row θ)) L t) (x : Fin d → ℝ) :
    Real.log (posteriorWeight P cats.length cov row x) + distSq cov x t / 2 ≤ Real.log (posteriorWeight P cats.length cov row t) + L (x - t) := by
  set f := fun t => Real.log (posteriorWeight P cats.length cov row t) with hf
  set D := distSq cov x t
  have hd : HasDerivAt (fun s : ℝ => f (t + s • (x - t)) + s ^ 2 / 2 * D - s / 2 * D) (L (x - t) - D / 2) 0 := by
    have h1 : HasDerivAt (fun s : ℝ => t + s • (x - t)) (x - t) 0 := by
      simpa using ((hasDerivAt_id (0 : ℝ)).smul_const (x - t)).const_add t
    have h2 : HasFDerivAt f L (t + (0 : ℝ) • (x - t)) := by simpa using hL
    have h3 := h2.comp_hasDerivAt (0 : ℝ) h1
    have h4 : HasDerivAt (fun s : ℝ => s ^ 2 / 2 * D) 0 0 := by
      have := ((hasDerivAt_pow 2 (0 : ℝ)).div_const 2).mul_const D
      simpa using this
    have h5 : HasDerivAt (fun s : ℝ => s / 2 * D) (D / 2) 0 := by
      have := ((hasDerivAt_id (0 : ℝ)).div_const 2).mul_const D
      exact this.congr_deriv (by ring)
    have := (h3.add h4).sub h5
    rw [add_zero] at this
    exact this
  have hslope := hd.tendsto_slope_zero_right
  have hle : f x - f t ≤ L (x - t) - D / 2 := by
    refine ge_of_tendsto hslope ?_
    have : Set.Ioc (0:ℝ) 1 ∈ nhdsWithin (0:ℝ) (Set.Ioi 0) := Ioc_mem_nhdsGT one_pos
    filter_upwards [this] with s hs
    have h1 := posterior_comb h cov hcov row hrow x t s hs.1.le hs.2
    have e : t + (0 + s) • (x - t) = s • x + (1 - s) • t := by
      funext k
      simp only [Pi.add_apply, Pi.smul_apply, Pi.sub_apply, smul_eq_mul]
      ring
    have e0 : t + (0:ℝ) • (x - t) = t := by simp
    simp only [smul_eq_mul]
    rw [e, e0, inv_mul_eq_div, le_div_iff₀ hs.1]
    simp only [hf]
    have : s * (1 - s) / 2 * distSq cov x t = s / 2 * D - s ^ 2 / 2 * D := by ring
    rw [this] at h1
    nlinarith
  simp only [hf] at hle
  linarith

end Curved

/-! ## A search that stops early -/

/-- C140: a score at which the gradient of the log posterior is `g` is as close to the MAP score as `g` is small. -/
theorem C140_gradient (h : LogConcaveModel cats P) (cov : Matrix (Fin d) (Fin d) ℝ) (hcov : cov.PosDef) (row : ℕ → Cell)
    (hrow : ValidResponses cats row) (θ : Fin d → ℝ) (hθ : IsMode (posteriorWeight P cats.length cov row) θ) (t g : Fin d → ℝ)
    (hg : HasGrad (fun θ => Real.log (posteriorWeight P cats.length cov row θ)) g t) :
    distSq cov t θ ≤ slopeVar cov g := by
  have h1 := mode_gap h cov hcov row hrow θ hθ t
  have h2 := tangent_gap h cov hcov row hrow t _ hg θ
  rw [distSq_comm] at h1 ⊢
  refine le_of_dot cov hcov g θ t ?_
  have e : (∑ k, g k • ContinuousLinearMap.proj (R := ℝ) (φ := fun _ : Fin d => ℝ) k) (θ - t) = g ⬝ᵥ (θ - t) := by
    simp [dotProduct, ContinuousLinearMap.sum_apply]
  rw [e] at h2
  linarith

/-- The gradient of the objective with respect to the scores of one respondent is the gradient of that respondent's log posterior. -/
theorem gradient_row {m : Scorer d} (hm : IsScorer m cats P) (h : LogConcaveModel cats P) (prior : Option (Matrix (Fin d) (Fin d) ℝ))
    (hprior : ∀ cov, prior = some cov → cov.PosDef) (N : ℕ) (y : ℕ → ℕ → Cell)
    (hy : ∀ i, i < N → ValidResponses cats (y i)) (F : (ℕ → Fin d → ℝ) → ℝ)
    (hF : ∀ t, scoreObjective m prior (rowsOf N cats.length y) ((List.range N).map t) = .ok (.fin (F t)))
    (t : ℕ → Fin d → ℝ) (i : ℕ) (hi : i < N) (L : (Fin d → ℝ) →L[ℝ] ℝ) (hL : HasFDerivAt (fun θ => F (Function.update t i θ)) L (t i)) :
    HasFDerivAt (fun θ => Real.log (scoreWeight P cats.length prior (y i) θ)) L (t i) := by
  obtain ⟨G, hG, hsum, -⟩ := C102_rows hm h prior hprior N y hy
  have hFG : ∀ t, F t = G t := by
    intro t
    have := (hF t).symm.trans (hG t)
    simpa using this
  have e : (fun θ => F (Function.update t i θ)) = fun θ => Real.log (scoreWeight P cats.length prior (y i) θ)
      + ∑ k ∈ (range N).erase i, Real.log (scoreWeight P cats.length prior (y k) (t k)) := by
    funext θ
    rw [hFG, hsum, ← add_sum_erase _ _ (mem_range.2 hi), Function.update_self,
      sum_congr rfl fun k hk => by rw [Function.update_of_ne (ne_of_mem_erase hk)]]
  rw [e] at hL
  simpa using hL

/-- C140: `latent_scores(theta_estimation="MAP")` when the optimiser does not stop exactly where the gradient is zero: with gradient `g i` for
respondent `i`, the score is as close to the respondent's MAP score as `g i` is small. -/
theorem C140_scores_gradient (f : FittedModel d) (hm : IsScorer f.scorer f.cats P)
    (h : LogConcaveModel f.cats P) (cov : Matrix (Fin d) (Fin d) ℝ) (hcov : mapPrior f.attrs = .ok cov) (N : ℕ)
    (y : ℕ → ℕ → Cell) (hy : ∀ i, i < N → ValidResponses f.cats (y i)) (F : (ℕ → Fin d → ℝ) → ℝ)
    (hF : ∀ t, scoreObjective f.scorer (some cov) (rowsOf N f.cats.length y) ((List.range N).map t) = .ok (.fin (F t)))
    (start : Thetas d) (t g : ℕ → Fin d → ℝ)
    (ht : f.optimise (some cov) (rowsOf N f.cats.length y) start = (List.range N).map t)
    (hg : ∀ i, i < N → HasGrad (fun θ => F (Function.update t i θ)) (g i) (t i)) :
    mlMapScores f "MAP" (rowsOf N f.cats.length y) start = .ok ((List.range N).map t) ∧
    ∀ i, i < N → ∀ θ, IsMode (posteriorWeight P f.cats.length cov (y i)) θ → distSq cov (t i) θ ≤ slopeVar cov (g i) := by
  have hpd := mapPrior_posDef f.attrs cov hcov
  refine ⟨?_, fun i hi θ hθ => ?_⟩
  · simp only [mlMapScores, if_true, hcov, bind_ok, ht]
    rfl
  · exact C140_gradient h cov hpd (y i) (hy i hi) θ hθ (t i) (g i)
      (gradient_row hm h (some cov) (by rintro _ ⟨⟩; exact hpd) N y hy F hF t i hi _ (hg i hi))

/-- C140: `latent_scores(theta_estimation="MAP")` when the optimiser stops with an objective at most `δ` below the maximum: the squared distances
of all scores to the MAP scores `θ` add up to at most `2 δ`. -/
theorem C140_scores_objective (f : FittedModel d) (hm : IsScorer f.scorer f.cats P)
    (h : LogConcaveModel f.cats P) (cov : Matrix (Fin d) (Fin d) ℝ) (hcov : mapPrior f.attrs = .ok cov) (N : ℕ)
    (y : ℕ → ℕ → Cell) (hy : ∀ i, i < N → ValidResponses f.cats (y i)) (F : (ℕ → Fin d → ℝ) → ℝ)
    (hF : ∀ t, scoreObjective f.scorer (some cov) (rowsOf N f.cats.length y) ((List.range N).map t) = .ok (.fin (F t)))
    (start : Thetas d) (t θ : ℕ → Fin d → ℝ) (δ : ℝ)
    (ht : f.optimise (some cov) (rowsOf N f.cats.length y) start = (List.range N).map t) (hδ : ∀ t', F t' ≤ F t + δ)
    (hθ : ∀ i, i < N → IsMode (posteriorWeight P f.cats.length cov (y i)) (θ i)) :
    mlMapScores f "MAP" (rowsOf N f.cats.length y) start = .ok ((List.range N).map t) ∧
    ∑ i ∈ range N, distSq cov (t i) (θ i) ≤ 2 * δ := by
  have hpd := mapPrior_posDef f.attrs cov hcov
  refine ⟨?_, ?_⟩
  · simp only [mlMapScores, if_true, hcov, bind_ok, ht]
    rfl
  · obtain ⟨G, hG, hsum, -⟩ := C102_rows hm h (some cov) (by rintro _ ⟨⟩; exact hpd) N y hy
    have hFG : ∀ t, F t = G t := by
      intro t
      have := (hF t).symm.trans (hG t)
      simpa using this
    have h1 := hδ θ
    rw [hFG, hFG, hsum, hsum] at h1
    have h2 : ∑ i ∈ range N, (Real.log (scoreWeight P f.cats.length (some cov) (y i) (t i)) + distSq cov (t i) (θ i) / 2)
        ≤ ∑ i ∈ range N, Real.log (scoreWeight P f.cats.length (some cov) (y i) (θ i)) :=
      sum_le_sum fun i hi => mode_gap h cov hpd (y i) (hy i (mem_range.1 hi)) (θ i) (hθ i (mem_range.1 hi)) (t i)
    rw [sum_add_distrib, ← sum_div] at h2
    linarith

/-- C140: the same for an objective `C` that is computed with errors of at most `ε` (see C139): if the search ends at a score whose computed log
posterior is at most `δ` below that of the MAP score, the squared distance is at most `4 ε + 2 δ`. -/
theorem C140_computed (h : LogConcaveModel cats P) (cov : Matrix (Fin d) (Fin d) ℝ) (hcov : cov.PosDef) (row : ℕ → Cell)
    (hrow : ValidResponses cats row) (θ : Fin d → ℝ) (hθ : IsMode (posteriorWeight P cats.length cov row) θ) (t : Fin d → ℝ)
    (C : (Fin d → ℝ) → ℝ) (ε δ : ℝ) (h1 : |C t - Real.log (posteriorWeight P cats.length cov row t)| ≤ ε)
    (h2 : |C θ - Real.log (posteriorWeight P cats.length cov row θ)| ≤ ε) (h3 : C θ ≤ C t + δ) :
    distSq cov t θ ≤ 4 * ε + 2 * δ := by
  have h4 := mode_gap h cov hcov row hrow θ hθ t
  rw [abs_le] at h1 h2
  linarith [h1.1, h1.2, h2.1, h2.2]

/-! ## One answer more, less or different -/

theorem two_modes {Q : (Fin d → ℝ) → ℕ → ℕ → ℝ} {cats' : List ℕ} (hP : LogConcaveModel cats P) (hQ : LogConcaveModel cats' Q)
    (cov : Matrix (Fin d) (Fin d) ℝ) (hcov : cov.PosDef)
    (y y' : ℕ → Cell) (hy : ValidResponses cats y) (hy' : ValidResponses cats' y') (θ θ' : Fin d → ℝ)
    (hθ : IsMode (posteriorWeight P cats.length cov y) θ) (hθ' : IsMode (posteriorWeight Q cats'.length cov y') θ') :
    distSq cov θ θ' ≤ (Real.log (observedLikelihood P cats.length y θ) - Real.log (observedLikelihood Q cats'.length y' θ))
      - (Real.log (observedLikelihood P cats.length y θ') - Real.log (observedLikelihood Q cats'.length y' θ')) := by
  have h1 := mode_gap hP cov hcov y hy θ hθ θ'
  have h2 := mode_gap hQ cov hcov y' hy' θ' hθ' θ
  have e1 := hP.log_weight cov y hy
  have e2 := hQ.log_weight cov y' hy'
  simp only [scoreWeight] at e1 e2
  rw [e1, e1] at h1
  rw [e2, e2] at h2
  rw [distSq_comm] at h1
  linarith

/-- The log probability of an answer changes by at most the change of the difference of two logits. -/
theorem logit_cell_diff {A : ℕ → ℕ → Fin d → ℝ} {B : ℕ → ℕ → ℝ} (hm : LogitModel cats P A B) (j c r : ℕ) (hc : cats[j]? = some c) (hr : r < c)
    (x y : Fin d → ℝ) (K : ℝ) (hK : ∀ s, s < c → |(fun k => A j r k - A j s k) ⬝ᵥ (x - y)| ≤ K) :
    |Real.log (P x j r) - Real.log (P y j r)| ≤ K := by
  have one : ∀ x y : Fin d → ℝ, (∀ s, s < c → |(fun k => A j r k - A j s k) ⬝ᵥ (x - y)| ≤ K) →
      Real.log (P x j r) - Real.log (P y j r) ≤ K := by
    intro x y hK
    have hz : ∀ z : Fin d → ℝ, 0 < ∑ s ∈ range c, Real.exp (∑ k, A j s k * z k + B j s) := fun z =>
      sum_pos (fun _ _ => Real.exp_pos _) ⟨r, mem_range.2 hr⟩
    rw [hm.log_eq _ _ _ _ hc hr, hm.log_eq _ _ _ _ hc hr]
    have : Real.log (∑ s ∈ range c, Real.exp (∑ k, A j s k * y k + B j s))
        ≤ Real.log (∑ s ∈ range c, Real.exp (∑ k, A j s k * x k + B j s)) + (K - ∑ k, A j r k * x k + ∑ k, A j r k * y k) := by
      rw [← Real.log_exp (K - _ + _), ← Real.log_mul (hz x).ne' (Real.exp_pos _).ne']
      refine Real.log_le_log (hz y) ?_
      rw [sum_mul]
      refine sum_le_sum fun s hs => ?_
      rw [← Real.exp_add]
      refine Real.exp_le_exp.2 ?_
      have h1 := (abs_le.1 (hK s (mem_range.1 hs))).2
      have e : (fun k => A j r k - A j s k) ⬝ᵥ (x - y)
          = (∑ k, A j r k * x k - ∑ k, A j r k * y k) - (∑ k, A j s k * x k - ∑ k, A j s k * y k) := by
        simp only [dotProduct, Pi.sub_apply, ← sum_sub_distrib]
        exact sum_congr rfl fun k _ => by ring
      rw [e] at h1
      linarith
    linarith
  rw [abs_le]
  constructor
  · have := one y x fun s hs => by
      have := hK s hs
      rwa [← neg_sub x y, dotProduct_neg, abs_neg]
    linarith
  · exact one x y hK

/-- C140: two answer patterns that differ in some items, by other answers or by answers that are missing: the distance of the MAP scores is at most
the sum of the largest slopes of these items, in the units of the prior. -/
theorem C140_answers {A : ℕ → ℕ → Fin d → ℝ} {B : ℕ → ℕ → ℝ} (hm : LogitModel cats P A B) (cov : Matrix (Fin d) (Fin d) ℝ) (hcov : cov.PosDef)
    (y y' : ℕ → Cell) (hy : ValidResponses cats y) (hy' : ValidResponses cats y') (θ θ' : Fin d → ℝ)
    (hθ : IsMode (posteriorWeight P cats.length cov y) θ) (hθ' : IsMode (posteriorWeight P cats.length cov y') θ') (κ : ℕ → ℝ)
    (hκ : ∀ j c r s, cats[j]? = some c → r < c → s < c → slopeVar cov (fun k => A j r k - A j s k) ≤ κ j ^ 2) (hκ0 : ∀ j, 0 ≤ κ j) :
    √(distSq cov θ θ') ≤ ∑ j ∈ (range cats.length).filter (fun j => y j ≠ y' j), κ j := by
  have hlc := hm.logConcave
  have h1 := two_modes hlc hlc cov hcov y y' hy hy' θ θ' hθ hθ'
  have hD := distSq_nonneg cov hcov θ θ'
  set D := distSq cov θ θ' with hDdef
  rw [hlc.log_likelihood y hy, hlc.log_likelihood y hy, hlc.log_likelihood y' hy', hlc.log_likelihood y' hy', ← sum_sub_distrib, ← sum_sub_distrib,
    ← sum_sub_distrib] at h1
  have bound : ∀ (j c r s : ℕ), cats[j]? = some c → r < c → s < c → |(fun k => A j r k - A j s k) ⬝ᵥ (θ - θ')| ≤ κ j * √D := by
    intro j c r s hc hr hs
    have h2 := dot_sq_le cov hcov (fun k => A j r k - A j s k) θ θ'
    have h3 := mul_le_mul_of_nonneg_right (hκ j c r s hc hr hs) hD
    refine abs_le_of_sq_le_sq ?_ (mul_nonneg (hκ0 j) (Real.sqrt_nonneg D))
    rw [mul_pow, Real.sq_sqrt hD]
    linarith
  have hsum : D ≤ (∑ j ∈ (range cats.length).filter (fun j => y j ≠ y' j), κ j) * √D := by
    refine h1.trans ?_
    rw [sum_mul, sum_filter]
    refine sum_le_sum fun j hj => ?_
    obtain ⟨c, hc⟩ := getElem?_of_lt cats j (mem_range.1 hj)
    by_cases hyy : y j = y' j
    · rw [if_neg (not_not.2 hyy), hyy]
      simp
    · rw [if_pos hyy]
      have cell : ∀ (z : ℕ → Cell), ValidResponses cats z → cellMissing (z j) = false → ∃ r : ℕ, z j = some (r : ℤ) ∧ responseOf (z j) = r ∧ r < c := by
        intro z hz hmz
        obtain ⟨r, hr, hrc⟩ := hz j c hc hmz
        exact ⟨r, hr, by simp [hr, responseOf], hrc⟩
      have hk := mul_nonneg (hκ0 j) (Real.sqrt_nonneg D)
      by_cases m1 : cellMissing (y j) = true <;> by_cases m2 : cellMissing (y' j) = true
      · simp only [m1, m2, if_true]
        simpa using hk
      · obtain ⟨r, -, e, hr⟩ := cell y' hy' (by simpa using m2)
        have := abs_le.1 (logit_cell_diff hm j c r hc hr θ θ' _ fun s hs => bound j c r s hc hr hs)
        simp only [m1, m2, if_true, e]
        simp only [Bool.false_eq_true, if_false]
        linarith [this.1]
      · obtain ⟨r, -, e, hr⟩ := cell y hy (by simpa using m1)
        have := abs_le.1 (logit_cell_diff hm j c r hc hr θ θ' _ fun s hs => bound j c r s hc hr hs)
        simp only [m1, m2, if_true, e]
        simp only [Bool.false_eq_true, if_false]
        linarith [this.2]
      · obtain ⟨r, -, e, hr⟩ := cell y hy (by simpa using m1)
        obtain ⟨s, -, e', hs⟩ := cell y' hy' (by simpa using m2)
        have hb := (abs_le.1 (bound j c r s hc hr hs)).2
        simp only [m1, m2, e, e', Bool.false_eq_true, if_false]
        rw [hm.log_eq _ _ _ _ hc hr, hm.log_eq _ _ _ _ hc hr, hm.log_eq _ _ _ _ hc hs, hm.log_eq _ _ _ _ hc hs]
        have ed : (fun k => A j r k - A j s k) ⬝ᵥ (θ - θ')
            = (∑ k, A j r k * θ k - ∑ k, A j r k * θ' k) - (∑ k, A j s k * θ k - ∑ k, A j s k * θ' k) := by
          simp only [dotProduct, Pi.sub_apply, ← sum_sub_distrib]
          exact sum_congr rfl fun k _ => by ring
        rw [ed] at hb
        linarith
  rcases (Real.sqrt_nonneg D).lt_or_eq with hpos | h0
  · refine le_of_mul_le_mul_right ?_ hpos
    rwa [Real.mul_self_sqrt hD]
  · rw [← h0]; exact sum_nonneg fun j _ => hκ0 j

/-- C140: answer patterns with the same missing answers: the distance of the MAP scores is at most that of the weighted numbers of points. -/
theorem C140_points {A : ℕ → ℕ → Fin d → ℝ} {B : ℕ → ℕ → ℝ} (hm : LogitModel cats P A B) (cov : Matrix (Fin d) (Fin d) ℝ) (hcov : cov.PosDef)
    (y y' : ℕ → Cell) (hy : ValidResponses cats y) (hy' : ValidResponses cats y')
    (hmiss : ∀ j, j < cats.length → cellMissing (y j) = cellMissing (y' j)) (θ θ' : Fin d → ℝ)
    (hθ : IsMode (posteriorWeight P cats.length cov y) θ) (hθ' : IsMode (posteriorWeight P cats.length cov y') θ') :
    let g := fun k => ∑ j ∈ range cats.length, if cellMissing (y j) then 0 else A j (responseOf (y j)) k - A j (responseOf (y' j)) k
    distSq cov θ θ' ≤ g ⬝ᵥ (θ - θ') ∧ distSq cov θ θ' ≤ slopeVar cov g := by
  intro g
  have hlc := hm.logConcave
  have h1 := two_modes hlc hlc cov hcov y y' hy hy' θ θ' hθ hθ'
  rw [hlc.log_likelihood y hy, hlc.log_likelihood y hy, hlc.log_likelihood y' hy', hlc.log_likelihood y' hy', ← sum_sub_distrib, ← sum_sub_distrib,
    ← sum_sub_distrib] at h1
  have h2 : distSq cov θ θ' ≤ g ⬝ᵥ (θ - θ') := by
    refine h1.trans (le_of_eq ?_)
    have e : g ⬝ᵥ (θ - θ') = ∑ j ∈ range cats.length, ∑ k, (if cellMissing (y j) then 0 else A j (responseOf (y j)) k - A j (responseOf (y' j)) k)
        * (θ k - θ' k) := by
      rw [sum_comm]
      simp only [g, dotProduct, sum_mul, Pi.sub_apply]
    rw [e]
    refine sum_congr rfl fun j hj => ?_
    obtain ⟨c, hc⟩ := getElem?_of_lt cats j (mem_range.1 hj)
    rw [← hmiss j (mem_range.1 hj)]
    by_cases m1 : cellMissing (y j) = true
    · simp [m1]
    · have m2 : cellMissing (y' j) = false := by rw [← hmiss j (mem_range.1 hj)]; simpa using m1
      obtain ⟨r, hr, hrc⟩ := hy j c hc (by simpa using m1)
      obtain ⟨s, hs, hsc⟩ := hy' j c hc m2
      have er : responseOf (y j) = r := by simp [hr, responseOf]
      have es : responseOf (y' j) = s := by simp [hs, responseOf]
      simp only [m1, er, es, Bool.false_eq_true, if_false]
      rw [hm.log_eq _ _ _ _ hc hrc, hm.log_eq _ _ _ _ hc hrc, hm.log_eq _ _ _ _ hc hsc, hm.log_eq _ _ _ _ hc hsc]
      have ed : ∑ k, (A j r k - A j s k) * (θ k - θ' k)
          = (∑ k, A j r k * θ k - ∑ k, A j r k * θ' k) - (∑ k, A j s k * θ k - ∑ k, A j s k * θ' k) := by
        simp only [← sum_sub_distrib]
        exact sum_congr rfl fun k _ => by ring
      rw [ed]
      ring
  exact ⟨h2, le_of_dot cov hcov g θ θ' h2⟩

/-- C140: with one latent variable, more weighted points never give a lower MAP score. -/
theorem C140_better_answers {P : (Fin 1 → ℝ) → ℕ → ℕ → ℝ} {A : ℕ → ℕ → Fin 1 → ℝ} {B : ℕ → ℕ → ℝ} (hm : LogitModel cats P A B)
    (cov : Matrix (Fin 1) (Fin 1) ℝ) (hcov : cov.PosDef) (y y' : ℕ → Cell) (hy : ValidResponses cats y) (hy' : ValidResponses cats y')
    (hmiss : ∀ j, j < cats.length → cellMissing (y j) = cellMissing (y' j)) (θ θ' : Fin 1 → ℝ)
    (hθ : IsMode (posteriorWeight P cats.length cov y) θ) (hθ' : IsMode (posteriorWeight P cats.length cov y') θ')
    (hmore : ∑ j ∈ range cats.length, (if cellMissing (y' j) then 0 else A j (responseOf (y' j)) 0)
      < ∑ j ∈ range cats.length, if cellMissing (y j) then 0 else A j (responseOf (y j)) 0) : θ' 0 ≤ θ 0 := by
  have h1 := (C140_points hm cov hcov y y' hy hy' hmiss θ θ' hθ hθ').1
  have h2 := distSq_nonneg cov hcov θ θ'
  have e : (fun k : Fin 1 => ∑ j ∈ range cats.length, if cellMissing (y j) then 0 else A j (responseOf (y j)) k - A j (responseOf (y' j)) k)
      ⬝ᵥ (θ - θ') = (∑ j ∈ range cats.length, (if cellMissing (y j) then 0 else A j (responseOf (y j)) 0)
        - ∑ j ∈ range cats.length, if cellMissing (y' j) then 0 else A j (responseOf (y' j)) 0) * (θ 0 - θ' 0) := by
    simp only [dotProduct, Fin.sum_univ_one, Pi.sub_apply, ← sum_sub_distrib]
    congr 1
    refine sum_congr rfl fun j hj => ?_
    rw [← hmiss j (mem_range.1 hj)]
    split_ifs <;> simp
  rw [e] at h1
  by_contra hcon
  push Not at hcon
  nlinarith

/-! ## Errors of the item parameters -/

/-- C140: scores with estimated parameters. If at both scores the logits of the two parameter sets differ by at most `l`, the squared distance of
the MAP scores is at most `4 l` per answered item. -/
theorem C140_parameters {Q : (Fin d → ℝ) → ℕ → ℕ → ℝ} {A A' : ℕ → ℕ → Fin d → ℝ} {B B' : ℕ → ℕ → ℝ} (hm : LogitModel cats P A B)
    (hm' : LogitModel cats Q A' B') (cov : Matrix (Fin d) (Fin d) ℝ) (hcov : cov.PosDef) (y : ℕ → Cell) (hy : ValidResponses cats y)
    (θ θ' : Fin d → ℝ) (hθ : IsMode (posteriorWeight P cats.length cov y) θ) (hθ' : IsMode (posteriorWeight Q cats.length cov y) θ') (l : ℝ)
    (hl : ∀ x, x = θ ∨ x = θ' → ∀ j c r, cats[j]? = some c → r < c →
      |(∑ k, A j r k * x k + B j r) - (∑ k, A' j r k * x k + B' j r)| ≤ l) :
    distSq cov θ θ' ≤ 4 * l * ((range cats.length).filter fun j => cellMissing (y j) = false).card := by
  have hlc := hm.logConcave
  have hlc' := hm'.logConcave
  have h1 := two_modes hlc hlc' cov hcov y y hy hy θ θ' hθ hθ'
  rw [hlc.log_likelihood y hy, hlc.log_likelihood y hy, hlc'.log_likelihood y hy, hlc'.log_likelihood y hy, ← sum_sub_distrib, ← sum_sub_distrib,
    ← sum_sub_distrib] at h1
  refine h1.trans ?_
  rw [mul_comm, ← nsmul_eq_mul, ← sum_const, sum_filter]
  refine sum_le_sum fun j hj => ?_
  obtain ⟨c, hc⟩ := getElem?_of_lt cats j (mem_range.1 hj)
  by_cases m1 : cellMissing (y j) = true
  · simp [m1]
  · obtain ⟨r, hr, hrc⟩ := hy j c hc (by simpa using m1)
    have er : responseOf (y j) = r := by simp [hr, responseOf]
    have close : ∀ x, x = θ ∨ x = θ' → |Real.log (P x j r) - Real.log (Q x j r)| ≤ 2 * l := by
      intro x hx
      have hl' := hl x hx j c
      rw [hm.log_eq _ _ _ _ hc hrc, hm'.log_eq _ _ _ _ hc hrc]
      have half : ∀ f g : ℕ → ℝ, (∀ s, s < c → |f s - g s| ≤ l) →
          Real.log (∑ s ∈ range c, Real.exp (f s)) ≤ Real.log (∑ s ∈ range c, Real.exp (g s)) + l := by
        intro f g hfg
        have hz : ∀ f : ℕ → ℝ, 0 < ∑ s ∈ range c, Real.exp (f s) := fun f => sum_pos (fun _ _ => Real.exp_pos _) ⟨r, mem_range.2 hrc⟩
        rw [← Real.log_exp l, ← Real.log_mul (hz g).ne' (Real.exp_pos _).ne']
        refine Real.log_le_log (hz f) ?_
        rw [sum_mul]
        refine sum_le_sum fun s hs => ?_
        rw [← Real.exp_add]
        exact Real.exp_le_exp.2 (by linarith [(abs_le.1 (hfg s (mem_range.1 hs))).2])
      have a1 := half _ _ fun s hs => hl' s hc hs
      have a2 := half (fun s => ∑ k, A' j s k * x k + B' j s) (fun s => ∑ k, A j s k * x k + B j s) fun s hs => by
        rw [abs_sub_comm]; exact hl' s hc hs
      have a3 := abs_le.1 (hl' r hc hrc)
      rw [abs_le]
      constructor <;> linarith [a3.1, a3.2]
    have c1 := abs_le.1 (close θ (Or.inl rfl))
    have c2 := abs_le.1 (close θ' (Or.inr rfl))
    have m1' : cellMissing (y j) = false := by simpa using m1
    simp only [m1', er, Bool.false_eq_true, if_false, if_true]
    linarith [c1.2, c2.1]

/-! ## The models -/

theorem slopeVar_scale (cov : Matrix (Fin d) (Fin d) ℝ) (a : ℝ) (g : Fin d → ℝ) : slopeVar cov (fun k => a * g k) = a ^ 2 * slopeVar cov g := by
  have e : (fun k => a * g k) = a • g := rfl
  rw [slopeVar, slopeVar, e, Matrix.mulVec_smul, dotProduct_smul, smul_dotProduct, smul_eq_mul, smul_eq_mul]
  ring

/-- Models in which the logits of an item are multiples of one slope. -/
theorem answers_of_slopes {a : ℕ → Fin d → ℝ} {B : ℕ → ℕ → ℝ} (hm : LogitModel cats P (fun j r k => r * a j k) B)
    (cov : Matrix (Fin d) (Fin d) ℝ) (hcov : cov.PosDef)
    (y y' : ℕ → Cell) (hy : ValidResponses cats y) (hy' : ValidResponses cats y') (θ θ' : Fin d → ℝ)
    (hθ : IsMode (posteriorWeight P cats.length cov y) θ) (hθ' : IsMode (posteriorWeight P cats.length cov y') θ') :
    √(distSq cov θ θ') ≤ ∑ j ∈ (range cats.length).filter (fun j => y j ≠ y' j), ((cats.getD j 0 - 1 : ℕ) : ℝ) * √(slopeVar cov (a j)) := by
  refine C140_answers hm cov hcov y y' hy hy' θ θ' hθ hθ' (fun j => ((cats.getD j 0 - 1 : ℕ) : ℝ) * √(slopeVar cov (a j))) ?_ fun j => by positivity
  intro j c r s hc hr hs
  have e : (fun k => (r : ℝ) * a j k - s * a j k) = fun k => ((r : ℝ) - s) * a j k := by funext k; ring
  have ec : cats.getD j 0 = c := by simp [List.getD_eq_getElem?_getD, hc]
  have h0 := slopeVar_nonneg cov hcov (a j)
  rw [e, slopeVar_scale, mul_pow, Real.sq_sqrt h0, ec]
  refine mul_le_mul_of_nonneg_right ?_ h0
  refine sq_le_sq' ?_ ?_
  · have : s ≤ (c - 1) + r := by omega
    have h2 : (s : ℝ) ≤ ((c - 1 : ℕ) : ℝ) + r := by exact_mod_cast this
    linarith
  · have : r ≤ (c - 1) + s := by omega
    have h2 : (r : ℝ) ≤ ((c - 1 : ℕ) : ℝ) + s := by exact_mod_cast this
    linarith

/-- C140: in a two-parameter logistic model, answers that are changed, added or removed move the MAP score by at most the sum of the slopes of
these items, in the units of the prior. -/
theorem C140_twoPL (m : TwoPL) (hwf : m.WF) (cov : Matrix (Fin d) (Fin d) ℝ) (hcov : cov.PosDef) (y y' : ℕ → Cell)
    (hy : ValidResponses (List.replicate m.items 2) y) (hy' : ValidResponses (List.replicate m.items 2) y') (θ θ' : Fin d → ℝ)
    (hθ : IsMode (posteriorWeight (fun θ => tableProb (m.probs (List.ofFn θ))) m.items cov y) θ)
    (hθ' : IsMode (posteriorWeight (fun θ => tableProb (m.probs (List.ofFn θ))) m.items cov y') θ') :
    √(distSq cov θ θ') ≤ ∑ j ∈ (range m.items).filter (fun j => y j ≠ y' j), √(slopeVar cov fun k => slopeOf m.itemParameters j k) := by
  have h := answers_of_slopes (a := fun j k => slopeOf m.itemParameters j k) (m.logitModel hwf d) cov hcov y y' hy hy' θ θ'
    (by rwa [List.length_replicate]) (by rwa [List.length_replicate])
  refine h.trans (le_of_eq ?_)
  rw [List.length_replicate]
  refine sum_congr rfl fun j hj => ?_
  have hj' := mem_range.1 (mem_filter.1 hj).1
  simp [hj']

/-- C140: the same for generalized partial credit, with the slope times the largest score of the item. -/
theorem C140_gpc (m : GPC) (hwf : m.WF) (cov : Matrix (Fin d) (Fin d) ℝ) (hcov : cov.PosDef) (y y' : ℕ → Cell)
    (hy : ValidResponses m.cats y) (hy' : ValidResponses m.cats y') (θ θ' : Fin d → ℝ)
    (hθ : IsMode (posteriorWeight (fun θ => tableProb (m.probs (List.ofFn θ))) m.cats.length cov y) θ)
    (hθ' : IsMode (posteriorWeight (fun θ => tableProb (m.probs (List.ofFn θ))) m.cats.length cov y') θ') :
    √(distSq cov θ θ') ≤ ∑ j ∈ (range m.cats.length).filter (fun j => y j ≠ y' j),
      ((m.cats.getD j 0 - 1 : ℕ) : ℝ) * √(slopeVar cov fun k => slopeOf m.itemParameters j k) :=
  answers_of_slopes (a := fun j k => slopeOf m.itemParameters j k) (m.logitModel hwf d) cov hcov y y' hy hy' θ θ' hθ hθ'

/-- One latent variable with a standard normal prior: the distance is the difference of the scores and the slope is the slope. -/
theorem C140_units (x y g : Fin 1 → ℝ) : √(distSq 1 x y) = |x 0 - y 0| ∧ √(slopeVar 1 g) = |g 0| := by
  constructor
  · rw [distSq, inv_one, Matrix.one_mulVec, dotProduct, Fin.sum_univ_one, Pi.sub_apply, ← sq, Real.sqrt_sq_eq_abs]
  · rw [slopeVar, Matrix.one_mulVec, dotProduct, Fin.sum_univ_one, ← sq, Real.sqrt_sq_eq_abs]

/-! ## The hypotheses are met -/

/-- A right instead of a wrong answer to an item with slope one moves the MAP score by at most one. -/
example : ∃ θ θ' : Fin 1 → ℝ,
    IsMode (posteriorWeight (fun θ : Fin 1 → ℝ => tableProb (exOnePL.probs (θ 0))) 2 1 (exThreePatterns 0)) θ ∧
    IsMode (posteriorWeight (fun θ : Fin 1 → ℝ => tableProb (exOnePL.probs (θ 0))) 2 1 (exThreePatterns 2)) θ' ∧
    |θ 0 - θ' 0| ≤ 1 := by
  have hlm := exOnePL.logitModel exOnePL_wf
  obtain ⟨θ, hθ, -⟩ := C102_map hlm.logConcave 1 Matrix.PosDef.one (exThreePatterns 0) (exThreePatterns_valid _ 0)
  obtain ⟨θ', hθ', -⟩ := C102_map hlm.logConcave 1 Matrix.PosDef.one (exThreePatterns 2) (exThreePatterns_valid _ 2)
  refine ⟨θ, θ', hθ, hθ', ?_⟩
  have e : (fun (_ : ℕ) (r : ℕ) (_ : Fin 1) => (r : ℝ)) = fun (j r : ℕ) (k : Fin 1) => (r : ℝ) * (fun (_ : ℕ) (_ : Fin 1) => (1 : ℝ)) j k := by
    funext _ r _; simp
  rw [e] at hlm
  have h := answers_of_slopes (a := fun _ _ => 1) hlm 1 Matrix.PosDef.one _ _ (exThreePatterns_valid _ 0) (exThreePatterns_valid _ 2) θ θ' hθ hθ'
  rw [(C140_units θ θ' fun _ => 1).1] at h
  simp only [(C140_units θ θ' fun _ => 1).2] at h
  refine h.trans ?_
  simp [exOnePL, exThreePatterns, sum_filter, sum_range_succ]

theorem hasGrad_of_differentiable {f : (Fin d → ℝ) → ℝ} {t : Fin d → ℝ} (h : DifferentiableAt ℝ f t) :
    HasGrad f (fun k => fderiv ℝ f t (Pi.single k 1)) t := by
  have e : (∑ k, fderiv ℝ f t (Pi.single k 1) • ContinuousLinearMap.proj (R := ℝ) (φ := fun _ : Fin d => ℝ) k) = fderiv ℝ f t := by
    ext x
    have hx : x = ∑ k, x k • Pi.single k (1 : ℝ) := by
      funext j
      simp [Finset.sum_apply, Pi.single_apply]
    conv_rhs => rw [hx, map_sum]
    simp [mul_comm]
  rw [HasGrad, e]
  exact h.hasFDerivAt

/-- A 1PL model with an optimiser that gives up at its starting values: the scores of the three respondents are as close to the MAP scores as the
gradients there are small. -/
example : ∃ (f : FittedModel 1) (g : ℕ → Fin 1 → ℝ), mlMapScores f "MAP" (rowsOf 3 2 exThreePatterns) ((List.range 3).map fun _ => 0)
      = .ok ((List.range 3).map fun _ => 0) ∧
    ∀ i, i < 3 → ∀ θ, IsMode (posteriorWeight (fun θ : Fin 1 → ℝ => tableProb (exOnePL.probs (θ 0))) 2 1 (exThreePatterns i)) θ →
      distSq 1 0 θ ≤ slopeVar 1 (g i) := by
  have hlm := exOnePL.logitModel exOnePL_wf
  have hlc := hlm.logConcave
  have hm := exOnePL.isScorer exOnePL_wf (by norm_num [exOnePL])
  have hp : ∀ cov, some (1 : Matrix (Fin 1) (Fin 1) ℝ) = some cov → cov.PosDef := by
    rintro _ ⟨⟩; exact Matrix.PosDef.one
  obtain ⟨F, hF, hsum, -⟩ := C102_rows hm hlc (some 1) hp 3 exThreePatterns fun i _ => exThreePatterns_valid _ i
  let f : FittedModel 1 := {
    scorer := exOnePL.scorer
    cats := List.replicate exOnePL.items 2
    attrs := { covariance := some (some 1) }
    probs := fun θ => exOnePL.probs (θ 0)
    scales := []
    encode := fun _ => []
    meanSe := fun _ => []
    optimise := fun _ _ start => start
    permutation := []
    draw := fun _ _ => 0 }
  let t : ℕ → Fin 1 → ℝ := fun _ => 0
  have hd : ∀ i, i < 3 → DifferentiableAt ℝ (fun θ => F (Function.update t i θ)) (t i) := by
    intro i hi
    have e : (fun θ => F (Function.update t i θ)) = fun θ =>
        Real.log (scoreWeight (fun θ : Fin 1 → ℝ => tableProb (exOnePL.probs (θ 0))) (List.replicate exOnePL.items 2).length (some 1) (exThreePatterns i) θ)
          + ∑ k ∈ (range 3).erase i,
            Real.log (scoreWeight (fun θ : Fin 1 → ℝ => tableProb (exOnePL.probs (θ 0))) (List.replicate exOnePL.items 2).length (some 1) (exThreePatterns k) (t k)) := by
      funext θ
      rw [hsum, ← add_sum_erase _ _ (mem_range.2 hi), Function.update_self,
        sum_congr rfl fun k hk => by rw [Function.update_of_ne (ne_of_mem_erase hk)]]
    rw [e]
    exact (hlm.log_posterior_differentiable 1 (exThreePatterns i) (exThreePatterns_valid _ i) (t i)).add_const _
  exact ⟨f, _, C140_scores_gradient f hm hlc 1 (by simp [mapPrior, f, Matrix.PosDef.one]) 3 exThreePatterns
    (fun i _ => exThreePatterns_valid _ i) F hF ((List.range 3).map fun _ => 0) t _ rfl fun i hi => hasGrad_of_differentiable (hd i hi)⟩

/-- An intercept that is off by a tenth, two answers: the MAP scores differ by at most `√0.8`. -/
example (θ θ' : Fin 1 → ℝ) (hθ : IsMode (posteriorWeight (fun θ : Fin 1 → ℝ => tableProb (exOnePL.probs (θ 0))) 2 1 (exThreePatterns 0)) θ)
    (hθ' : IsMode (posteriorWeight (fun θ : Fin 1 → ℝ => tableProb (({ items := 2, bias := [3 / 5, -1] } : OnePL).probs (θ 0))) 2 1
      (exThreePatterns 0)) θ') : (θ 0 - θ' 0) ^ 2 ≤ 4 / 5 := by
  have hlm := exOnePL.logitModel exOnePL_wf
  have hlm' := ({ items := 2, bias := [3 / 5, -1] } : OnePL).logitModel (by simp [OnePL.WF])
  have h := C140_parameters hlm hlm' 1 Matrix.PosDef.one (exThreePatterns 0) (exThreePatterns_valid _ 0) θ θ' hθ hθ' (1 / 10) (by
    intro x _ j c r hc hr
    obtain ⟨hj, rfl⟩ := replicate_getElem? _ _ _ _ hc
    have hj : j < 2 := hj
    interval_cases j <;> interval_cases r <;> simp [OnePL.itemParameters, exOnePL] <;> norm_num [abs_le])
  have hu := (C140_units θ θ' fun _ => 1).1
  have hsq := distSq_nonneg 1 Matrix.PosDef.one θ θ'
  rw [← sq_abs, ← hu, Real.sq_sqrt hsq]
  refine h.trans ?_
  have : ((range (List.replicate exOnePL.items 2).length).filter fun j => cellMissing (exThreePatterns 0 j) = false).card ≤ 2 :=
    (card_filter_le _ _).trans (by simp [exOnePL])
  have h2 : (((range (List.replicate exOnePL.items 2).length).filter fun j => cellMissing (exThreePatterns 0 j) = false).card : ℝ) ≤ 2 := by
    exact_mod_cast this
  linarith

end Irt
