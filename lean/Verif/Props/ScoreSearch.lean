import Verif.Model.ScoreSearch
import Verif.Lemmas.LogConcave
import Verif.Props.Autoencoder
import Verif.Props.Sufficient
import Verif.Props.Sampling

/-! # Property C102: maximum likelihood and maximum a posteriori scores -/

namespace Irt

open Finset

/-! ## The objective -/

section Objective

variable {d : ℕ} {m : Scorer d} {cats : List ℕ} {P : (Fin d → ℝ) → ℕ → ℕ → ℝ}

/-- C102: what the optimiser maximises for all respondents together is the logarithm of the product of the weights of the
respondents, each at their own scores: likelihoods with ML, likelihoods times normal density with MAP. -/
theorem C102_objective (hm : IsScorer m cats P) (prior : Option (Matrix (Fin d) (Fin d) ℝ))
    (hprior : ∀ cov, prior = some cov → cov.PosDef) (N : ℕ) (y : ℕ → ℕ → Cell)
    (hy : ∀ i, i < N → ValidResponses cats (y i)) (t : ℕ → Fin d → ℝ) :
    scoreObjective m prior (rowsOf N cats.length y) ((List.range N).map t)
      = .ok (logE (∏ i ∈ range N, scoreWeight P cats.length prior (y i) (t i))) := by
  have hll := hm.logLik N t y hy
  rw [hm.items] at hll
  have hmask : ((rowsOf N cats.length y).map fun r => r.map cellMissing).flatten
      = flatTensor N cats.length fun i j => cellMissing (y i j) := by
    simp [rowsOf, flatTensor, List.flatMap_def, Function.comp_def]
  have hexp : (nansum (flatTensor N cats.length fun i j =>
      if cellMissing (y i j) then none else some (logE (P (t i) j (responseOf (y i j)))))).exp
      = ∏ i ∈ range N, observedLikelihood P cats.length (y i) (t i) := by
    unfold flatTensor
    rw [exp_nansum_flatMap, list_prod_range]
    exact prod_congr rfl fun i _ => exp_logLikAt P hm.nonneg _ _ _
  unfold scoreObjective
  dsimp only
  rw [hmask, rowsOf_flatten, List.map_map]
  change (do let ll ← m.logLik ((List.range N).map fun i => m.forward (t i)) _ _; _) = _
  rw [hll, bind_ok]
  cases prior with
  | none => exact congrArg Except.ok (logit_of_exp _ _ hexp)
  | some cov =>
    dsimp only
    rw [mvnLogProbs, if_pos (hprior cov rfl), bind_ok]
    refine congrArg Except.ok (logit_of_exp _ _ ?_)
    rw [exp_add, hexp, List.map_map, list_sum_range]
    simp only [scoreWeight, posteriorWeight, Logit.exp, Function.comp]
    rw [Real.exp_sum, prod_mul_distrib, mul_comm]

theorem LogConcaveModel.weight_pos (h : LogConcaveModel cats P) (prior : Option (Matrix (Fin d) (Fin d) ℝ)) (row : ℕ → Cell)
    (hrow : ValidResponses cats row) (θ : Fin d → ℝ) : 0 < scoreWeight P cats.length prior row θ := by
  have := h.likelihood_pos row hrow θ
  cases prior with
  | none => exact this
  | some cov => exact mul_pos (Real.exp_pos _) this

theorem LogConcaveModel.log_weight (h : LogConcaveModel cats P) (cov : Matrix (Fin d) (Fin d) ℝ) (row : ℕ → Cell)
    (hrow : ValidResponses cats row) (θ : Fin d → ℝ) : Real.log (scoreWeight P cats.length (some cov) row θ)
      = mvnLogDensity 0 cov θ + Real.log (observedLikelihood P cats.length row θ) := by
  rw [scoreWeight, posteriorWeight, Real.log_mul (Real.exp_pos _).ne' (h.likelihood_pos row hrow θ).ne', Real.log_exp]

theorem LogConcaveModel.weight_concave (h : LogConcaveModel cats P) (prior : Option (Matrix (Fin d) (Fin d) ℝ))
    (hprior : ∀ cov, prior = some cov → cov.PosDef) (row : ℕ → Cell) (hrow : ValidResponses cats row) :
    ConcaveOn ℝ Set.univ fun θ => Real.log (scoreWeight P cats.length prior row θ) := by
  cases prior with
  | none => exact h.likelihood_concave row hrow
  | some cov =>
    simp only [h.log_weight cov row hrow]
    exact (mvn_strictConcave cov (hprior cov rfl)).concaveOn.add (h.likelihood_concave row hrow)

theorem LogConcaveModel.posterior_strictConcave (h : LogConcaveModel cats P) (cov : Matrix (Fin d) (Fin d) ℝ)
    (hcov : cov.PosDef) (row : ℕ → Cell) (hrow : ValidResponses cats row) :
    StrictConcaveOn ℝ Set.univ fun θ => Real.log (scoreWeight P cats.length (some cov) row θ) := by
  simp only [h.log_weight cov row hrow]
  exact (mvn_strictConcave cov hcov).add_concaveOn (h.likelihood_concave row hrow)

/-- C102: the objective is a sum with one term per respondent, so a matrix of scores is best exactly when the scores of
every respondent are the best for their own answers. -/
theorem C102_rows (hm : IsScorer m cats P) (h : LogConcaveModel cats P) (prior : Option (Matrix (Fin d) (Fin d) ℝ))
    (hprior : ∀ cov, prior = some cov → cov.PosDef) (N : ℕ) (y : ℕ → ℕ → Cell)
    (hy : ∀ i, i < N → ValidResponses cats (y i)) :
    ∃ F : (ℕ → Fin d → ℝ) → ℝ,
      (∀ t, scoreObjective m prior (rowsOf N cats.length y) ((List.range N).map t) = .ok (.fin (F t))) ∧
      (∀ t, F t = ∑ i ∈ range N, Real.log (scoreWeight P cats.length prior (y i) (t i))) ∧
      ∀ t, (∀ t', F t' ≤ F t) ↔ ∀ i, i < N → IsMode (scoreWeight P cats.length prior (y i)) (t i) := by
  have hpos : ∀ i, i < N → ∀ θ, 0 < scoreWeight P cats.length prior (y i) θ := fun i hi => h.weight_pos prior (y i) (hy i hi)
  refine ⟨fun t => ∑ i ∈ range N, Real.log (scoreWeight P cats.length prior (y i) (t i)), fun t => ?_, fun _ => rfl, fun t => ⟨fun ht i hi u => ?_, fun ht t' => ?_⟩⟩
  · have hne : ∏ i ∈ range N, scoreWeight P cats.length prior (y i) (t i) ≠ 0 :=
      (prod_pos fun i hi => hpos i (mem_range.1 hi) (t i)).ne'
    rw [C102_objective hm prior hprior N y hy t, logE, if_neg hne, Real.log_prod fun i hi => (hpos i (mem_range.1 hi) (t i)).ne']
  · have := ht (Function.update t i u)
    dsimp only at this
    rw [← add_sum_erase _ _ (mem_range.2 hi), ← add_sum_erase _ _ (mem_range.2 hi), Function.update_self,
      sum_congr rfl fun k hk => by rw [Function.update_of_ne (ne_of_mem_erase hk)]] at this
    have h1 : Real.log (scoreWeight P cats.length prior (y i) u) ≤ Real.log (scoreWeight P cats.length prior (y i) (t i)) := by
      linarith
    exact (Real.log_le_log_iff (hpos i hi u) (hpos i hi (t i))).1 h1
  · exact sum_le_sum fun i hi => Real.log_le_log (hpos i (mem_range.1 hi) _) (ht i (mem_range.1 hi) _)

/-! ## Which points the optimiser may stop at -/

/-- A point where the gradient of a concave function is zero is a maximum. -/
theorem concave_stationary {f : (Fin d → ℝ) → ℝ} (hf : ConcaveOn ℝ Set.univ f) (θ : Fin d → ℝ)
    (h : HasFDerivAt f (0 : (Fin d → ℝ) →L[ℝ] ℝ) θ) (t : Fin d → ℝ) : f t ≤ f θ := by
  have hg : ConcaveOn ℝ Set.univ fun s : ℝ => f (θ + s • (t - θ)) := by
    refine ⟨convex_univ, fun x _ z _ a b ha hb hab => ?_⟩
    have e : θ + (a • x + b • z) • (t - θ) = a • (θ + x • (t - θ)) + b • (θ + z • (t - θ)) := by
      have e1 : θ = a • θ + b • θ := by rw [← add_smul, hab, one_smul]
      funext k
      have e2 := congrFun e1 k
      simp only [Pi.add_apply, Pi.smul_apply, Pi.sub_apply, smul_eq_mul] at e2 ⊢
      linear_combination e2
    dsimp only
    rw [e]
    exact hf.2 (Set.mem_univ _) (Set.mem_univ _) ha hb hab
  have hd : HasDerivAt (fun s : ℝ => f (θ + s • (t - θ))) 0 0 := by
    have h1 : HasDerivAt (fun s : ℝ => θ + s • (t - θ)) (t - θ) 0 := by
      simpa using ((hasDerivAt_id (0 : ℝ)).smul_const (t - θ)).const_add θ
    have h2 : HasFDerivAt f (0 : (Fin d → ℝ) →L[ℝ] ℝ) (θ + (0 : ℝ) • (t - θ)) := by simpa using h
    have h3 := h2.comp_hasDerivAt (0 : ℝ) h1
    rw [ContinuousLinearMap.zero_apply] at h3
    exact h3
  have := hg.slope_le_of_hasDerivAt (Set.mem_univ 0) (Set.mem_univ 1) one_pos hd
  simp [slope_def_field] at this
  exact this

/-- C102: for an item response model with log-concave probabilities there are no false maxima: a local maximum of a
respondent's weight, or a point with zero gradient, is a mode. With ML and with MAP. -/
theorem C102_no_false_maxima (h : LogConcaveModel cats P) (prior : Option (Matrix (Fin d) (Fin d) ℝ))
    (hprior : ∀ cov, prior = some cov → cov.PosDef) (row : ℕ → Cell) (hrow : ValidResponses cats row) (θ : Fin d → ℝ) :
    (IsLocalMax (scoreWeight P cats.length prior row) θ → IsMode (scoreWeight P cats.length prior row) θ) ∧
    (HasFDerivAt (fun θ => Real.log (scoreWeight P cats.length prior row θ)) (0 : (Fin d → ℝ) →L[ℝ] ℝ) θ →
      IsMode (scoreWeight P cats.length prior row) θ) := by
  have hpos := h.weight_pos prior row hrow
  have hc := h.weight_concave prior hprior row hrow
  refine ⟨fun hl t => ?_, fun hs t => (Real.log_le_log_iff (hpos t) (hpos θ)).1 (concave_stationary hc θ hs t)⟩
  have hl' : IsLocalMax (fun θ => Real.log (scoreWeight P cats.length prior row θ)) θ :=
    hl.mono fun x hx => Real.log_le_log (hpos x) hx
  exact (Real.log_le_log_iff (hpos t) (hpos θ)).1 (IsMaxOn.of_isLocalMax_of_convex_univ hl' hc t)

/-- C102: the MAP scores of a respondent exist and are unique, whatever the respondent answered, and are the only local
maximum and the only point with zero gradient. -/
theorem C102_map (h : LogConcaveModel cats P) (cov : Matrix (Fin d) (Fin d) ℝ) (hcov : cov.PosDef) (row : ℕ → Cell)
    (hrow : ValidResponses cats row) :
    ∃ θ, IsMode (posteriorWeight P cats.length cov row) θ ∧ ∀ θ',
      (IsMode (posteriorWeight P cats.length cov row) θ' → θ' = θ) ∧
      (IsLocalMax (posteriorWeight P cats.length cov row) θ' → θ' = θ) ∧
      (HasFDerivAt (fun θ => Real.log (posteriorWeight P cats.length cov row θ)) (0 : (Fin d → ℝ) →L[ℝ] ℝ) θ' → θ' = θ) := by
  have hpos := h.weight_pos (some cov) row hrow
  have hsc := h.posterior_strictConcave cov hcov row hrow
  obtain ⟨θ, hθ⟩ : ∃ θ, IsMode (posteriorWeight P cats.length cov row) θ := by
    let l := Real.log (scoreWeight P cats.length (some cov) row 0)
    have hK := mvn_compact cov hcov l
    have hmem : ∀ x, l ≤ Real.log (scoreWeight P cats.length (some cov) row x) → x ∈ {x | l ≤ mvnLogDensity 0 cov x} := by
      intro x hx
      rw [h.log_weight cov row hrow] at hx
      have := Real.log_nonpos (h.likelihood_pos row hrow x).le (h.likelihood_le_one row hrow x)
      exact hx.trans (by linarith)
    have hcont : Continuous (scoreWeight P cats.length (some cov) row) :=
      (Real.continuous_exp.comp (mvn_continuous cov)).mul (h.likelihood_continuous row hrow)
    obtain ⟨θ, -, hθ⟩ := hK.exists_isMaxOn ⟨0, hmem 0 le_rfl⟩ hcont.continuousOn
    refine ⟨θ, fun x => ?_⟩
    by_cases hx : l ≤ Real.log (scoreWeight P cats.length (some cov) row x)
    · exact hθ (hmem x hx)
    · have h1 := (Real.log_lt_log_iff (hpos x) (hpos 0)).1 (not_le.1 hx)
      exact h1.le.trans (hθ (hmem 0 le_rfl))
  have huniq : ∀ θ', IsMode (posteriorWeight P cats.length cov row) θ' → θ' = θ := by
    intro θ' hθ'
    by_contra hne
    have := hsc.2 (Set.mem_univ θ') (Set.mem_univ θ) hne (show (0 : ℝ) < 1 / 2 by norm_num) (show (0 : ℝ) < 1 / 2 by norm_num)
      (by norm_num)
    set mid := (1 / 2 : ℝ) • θ' + (1 / 2 : ℝ) • θ
    have h1 := Real.log_le_log (hpos mid) (hθ mid)
    have h2 := Real.log_le_log (hpos mid) (hθ' mid)
    simp only [smul_eq_mul] at this
    simp only [scoreWeight] at this h1 h2
    linarith
  refine ⟨θ, hθ, fun θ' => ⟨huniq θ', fun hl => huniq θ' ?_, fun hs => huniq θ' ?_⟩⟩
  · exact (C102_no_false_maxima h (some cov) (by rintro _ ⟨⟩; exact hcov) row hrow θ').1 hl
  · exact (C102_no_false_maxima h (some cov) (by rintro _ ⟨⟩; exact hcov) row hrow θ').2 hs

/-- The gradient of the objective with respect to the scores of one respondent is the gradient of that respondent's log
weight. -/
theorem stationary_row (hm : IsScorer m cats P) (h : LogConcaveModel cats P) (prior : Option (Matrix (Fin d) (Fin d) ℝ))
    (hprior : ∀ cov, prior = some cov → cov.PosDef) (N : ℕ) (y : ℕ → ℕ → Cell)
    (hy : ∀ i, i < N → ValidResponses cats (y i)) (F : (ℕ → Fin d → ℝ) → ℝ)
    (hF : ∀ t, scoreObjective m prior (rowsOf N cats.length y) ((List.range N).map t) = .ok (.fin (F t)))
    (t : ℕ → Fin d → ℝ) (hst : Stationary N F t) (i : ℕ) (hi : i < N) :
    HasFDerivAt (fun θ => Real.log (scoreWeight P cats.length prior (y i) θ)) (0 : (Fin d → ℝ) →L[ℝ] ℝ) (t i) := by
  obtain ⟨G, hG, hsum, -⟩ := C102_rows hm h prior hprior N y hy
  have hFG : ∀ t, F t = G t := by
    intro t
    have := (hF t).symm.trans (hG t)
    simpa using this
  have := hst i hi
  have e : (fun θ => F (Function.update t i θ)) = fun θ => Real.log (scoreWeight P cats.length prior (y i) θ)
      + ∑ k ∈ (range N).erase i, Real.log (scoreWeight P cats.length prior (y k) (t k)) := by
    funext θ
    rw [hFG, hsum, ← add_sum_erase _ _ (mem_range.2 hi), Function.update_self,
      sum_congr rfl fun k hk => by rw [Function.update_of_ne (ne_of_mem_erase hk)]]
  rw [e] at this
  simpa using this

end Objective

theorem mapPrior_posDef {d : ℕ} (a : AlgAttrs d) (cov : Matrix (Fin d) (Fin d) ℝ) (h : mapPrior a = .ok cov) : cov.PosDef := by
  unfold mapPrior at h
  split at h
  · split at h
    · rename_i hp
      rw [← Except.ok.inj h]; exact hp
    · cases h
  · split at h
    · split at h
      · rename_i hp
        rw [← Except.ok.inj h]; exact hp
      · cases h
    · cases h

/-- C102: if the optimiser stops where the gradient of its objective is zero, the scores of
`latent_scores(theta_estimation="MAP")` are, for every respondent, the one mode of the posterior. In particular they do
not depend on the starting values. -/
theorem C102_map_scores {d : ℕ} (f : FittedModel d) {P : (Fin d → ℝ) → ℕ → ℕ → ℝ} (hm : IsScorer f.scorer f.cats P)
    (h : LogConcaveModel f.cats P) (cov : Matrix (Fin d) (Fin d) ℝ) (hcov : mapPrior f.attrs = .ok cov) (N : ℕ)
    (y : ℕ → ℕ → Cell) (hy : ∀ i, i < N → ValidResponses f.cats (y i)) (F : (ℕ → Fin d → ℝ) → ℝ)
    (hF : ∀ t, scoreObjective f.scorer (some cov) (rowsOf N f.cats.length y) ((List.range N).map t) = .ok (.fin (F t)))
    (start : Thetas d) (t : ℕ → Fin d → ℝ)
    (ht : f.optimise (some cov) (rowsOf N f.cats.length y) start = (List.range N).map t) (hst : Stationary N F t) :
    mlMapScores f "MAP" (rowsOf N f.cats.length y) start = .ok ((List.range N).map t) ∧
    ∀ i, i < N → IsMode (posteriorWeight P f.cats.length cov (y i)) (t i) ∧
      ∀ θ, IsMode (posteriorWeight P f.cats.length cov (y i)) θ → θ = t i := by
  have hpd := mapPrior_posDef f.attrs cov hcov
  refine ⟨?_, fun i hi => ?_⟩
  · simp only [mlMapScores, if_true, hcov, bind_ok, ht]
    rfl
  · have hrow := stationary_row hm h (some cov) (by rintro _ ⟨⟩; exact hpd) N y hy F hF t hst i hi
    obtain ⟨θ, hθ, huniq⟩ := C102_map h cov hpd (y i) (hy i hi)
    have hti := (huniq (t i)).2.2 hrow
    exact ⟨hti ▸ hθ, fun θ' hθ' => ((huniq θ').1 hθ').trans hti.symm⟩

/-- C102: if the optimiser stops where the gradient is zero, the scores of `latent_scores(theta_estimation="ML")` maximise
the likelihood of every respondent. -/
theorem C102_ml_scores {d : ℕ} (f : FittedModel d) {P : (Fin d → ℝ) → ℕ → ℕ → ℝ} (hm : IsScorer f.scorer f.cats P)
    (h : LogConcaveModel f.cats P) (N : ℕ)
    (y : ℕ → ℕ → Cell) (hy : ∀ i, i < N → ValidResponses f.cats (y i)) (F : (ℕ → Fin d → ℝ) → ℝ)
    (hF : ∀ t, scoreObjective f.scorer none (rowsOf N f.cats.length y) ((List.range N).map t) = .ok (.fin (F t)))
    (start : Thetas d) (t : ℕ → Fin d → ℝ)
    (ht : f.optimise none (rowsOf N f.cats.length y) start = (List.range N).map t) (hst : Stationary N F t) :
    mlMapScores f "ML" (rowsOf N f.cats.length y) start = .ok ((List.range N).map t) ∧
    ∀ i, i < N → IsMode (observedLikelihood P f.cats.length (y i)) (t i) := by
  refine ⟨?_, fun i hi => ?_⟩
  · simp [mlMapScores, ht]
  · have hrow := stationary_row hm h none (by rintro _ ⟨⟩) N y hy F hF t hst i hi
    exact (C102_no_false_maxima h none (by rintro _ ⟨⟩) (y i) (hy i hi) (t i)).2 hrow

/-! ## When maximum likelihood scores exist -/

section OneVariable

variable {cats : List ℕ} {P : (Fin 1 → ℝ) → ℕ → ℕ → ℝ} {A : ℕ → ℕ → Fin 1 → ℝ} {B : ℕ → ℕ → ℝ}

/-- An observed answer bounds the likelihood by an exponential of the difference between two slopes. -/
theorem LogitModel.likelihood_bound (h : LogitModel cats P A B) (row : ℕ → Cell) (hrow : ValidResponses cats row) (j c s : ℕ)
    (hc : cats[j]? = some c) (hs : s < c) (hobs : cellMissing (row j) = false) (θ : Fin 1 → ℝ) :
    Real.log (observedLikelihood P cats.length row θ)
      ≤ (A j (responseOf (row j)) 0 - A j s 0) * θ 0 + (B j (responseOf (row j)) - B j s) := by
  have hlc := h.logConcave
  have hr := observed_lt cats row hrow j c hc hobs
  have hj := lt_of_getElem?_some hc
  rw [hlc.log_likelihood row hrow]
  have h1 : ∑ j ∈ range cats.length, (if cellMissing (row j) then 0 else Real.log (P θ j (responseOf (row j))))
      ≤ Real.log (P θ j (responseOf (row j))) := by
    rw [← add_sum_erase _ _ (mem_range.2 hj), hobs]
    simp only [Bool.false_eq_true, if_false]
    have : ∑ k ∈ (range cats.length).erase j, (if cellMissing (row k) then 0 else Real.log (P θ k (responseOf (row k)))) ≤ 0 := by
      refine sum_nonpos fun k hk => ?_
      obtain ⟨ck, hck⟩ := getElem?_of_lt cats k (mem_range.1 (mem_of_mem_erase hk))
      cases hmk : cellMissing (row k) with
      | true => simp
      | false =>
        simp only [Bool.false_eq_true, if_false]
        have hrk := observed_lt cats row hrow k ck hck hmk
        exact Real.log_nonpos (hlc.pos θ k ck _ hck hrk).le (hlc.le_one θ k ck _ hck hrk)
    linarith
  refine h1.trans ?_
  rw [h.log_eq θ j c _ hc hr]
  have h2 : ∑ k, A j s k * θ k + B j s ≤ Real.log (∑ s ∈ range c, Real.exp (∑ k, A j s k * θ k + B j s)) := by
    rw [← Real.log_exp (∑ k, A j s k * θ k + B j s)]
    exact Real.log_le_log (Real.exp_pos _) (single_le_sum (f := fun s => Real.exp (∑ k, A j s k * θ k + B j s))
      (fun _ _ => (Real.exp_pos _).le) (mem_range.2 hs))
  simp only [univ_unique, Fin.default_eq_zero, sum_singleton] at h2 ⊢
  linarith

/-- Without a steeper category the likelihood never falls. -/
theorem LogitModel.likelihood_mono (h : LogitModel cats P A B) (row : ℕ → Cell) (hrow : ValidResponses cats row) (σ : ℝ)
    (hup : ∀ j c s, cats[j]? = some c → s < c → cellMissing (row j) = false → σ * A j s 0 ≤ σ * A j (responseOf (row j)) 0)
    (x y : Fin 1 → ℝ) (hxy : y 0 = x 0 + σ) :
    observedLikelihood P cats.length row x ≤ observedLikelihood P cats.length row y := by
  have hlc := h.logConcave
  refine prod_le_prod (fun j hj => (hlc.cell_pos row hrow x j (mem_range.1 hj)).1.le) fun j hj => ?_
  obtain ⟨c, hc⟩ := getElem?_of_lt cats j (mem_range.1 hj)
  cases hm : cellMissing (row j) with
  | true => simp
  | false =>
    simp only [Bool.false_eq_true, if_false]
    have hr := observed_lt cats row hrow j c hc hm
    rw [h x j c _ hc hr, h y j c _ hc hr,
      div_le_div_iff₀ (sum_pos (fun _ _ => Real.exp_pos _) ⟨_, mem_range.2 hr⟩)
        (sum_pos (fun _ _ => Real.exp_pos _) ⟨_, mem_range.2 hr⟩), mul_sum, mul_sum]
    refine sum_le_sum fun s hs => ?_
    rw [← Real.exp_add, ← Real.exp_add]
    refine Real.exp_le_exp.2 ?_
    have := hup j c s hc (mem_range.1 hs) hm
    simp only [univ_unique, Fin.default_eq_zero, sum_singleton, hxy]
    nlinarith

/-- C102: with one latent variable a multinomial logit model has exactly one maximum likelihood score for a respondent if
and only if their answers leave room in both directions. A respondent who chose the steepest, or the least steep, category
of every answered item has none, or all scores are equally likely. -/
theorem C102_ml_exists_iff (h : LogitModel cats P A B) (row : ℕ → Cell) (hrow : ValidResponses cats row) :
    (∃! θ, IsMode (observedLikelihood P cats.length row) θ) ↔ MixedAnswers cats A row := by
  have hlc := h.logConcave
  have hpos := hlc.likelihood_pos row hrow
  constructor
  · rintro ⟨θ, hθ, huniq⟩
    have shift : ∀ σ : ℝ, σ ≠ 0 → ¬ ∀ j c s, cats[j]? = some c → s < c → cellMissing (row j) = false →
        σ * A j s 0 ≤ σ * A j (responseOf (row j)) 0 := by
      intro σ hσ hall
      have hle := h.likelihood_mono row hrow σ hall θ (fun k => θ k + σ) rfl
      have := congrFun (huniq (fun k => θ k + σ) fun t => (hθ t).trans hle) 0
      simp at this
      exact hσ this
    constructor
    · have := shift 1 one_ne_zero
      push Not at this
      obtain ⟨j, c, s, hc, hs, ho, hlt⟩ := this
      exact ⟨j, c, s, hc, hs, ho, by linarith⟩
    · have := shift (-1) (by norm_num)
      push Not at this
      obtain ⟨j, c, s, hc, hs, ho, hlt⟩ := this
      exact ⟨j, c, s, hc, hs, ho, by linarith⟩
  · rintro ⟨⟨j, c, s, hc, hs, ho, hlt⟩, ⟨j', c', s', hc', hs', ho', hlt'⟩⟩
    let l := Real.log (observedLikelihood P cats.length row 0)
    set K := {θ : Fin 1 → ℝ | l ≤ Real.log (observedLikelihood P cats.length row θ)} with hKd
    have hcont := hlc.likelihood_continuous row hrow
    have hK : IsCompact K := by
      refine Metric.isCompact_of_isClosed_isBounded ?_ ?_
      · exact isClosed_le continuous_const (hcont.log fun θ => (hpos θ).ne')
      · set D := A j s 0 - A j (responseOf (row j)) 0
        set E := B j (responseOf (row j)) - B j s - l
        set D' := A j' (responseOf (row j')) 0 - A j' s' 0
        set E' := B j' (responseOf (row j')) - B j' s' - l
        have hD : 0 < D := by simp only [D]; linarith
        have hD' : 0 < D' := by simp only [D']; linarith
        refine (Metric.isBounded_closedBall (x := (0 : Fin 1 → ℝ)) (r := |E / D| + |E' / D'|)).subset fun θ hθ => ?_
        rw [mem_closedBall_zero_iff, pi_norm_le_iff_of_nonneg (by positivity)]
        intro k
        rw [Subsingleton.elim k 0, Real.norm_eq_abs]
        have b1 := (show l ≤ _ from hθ).trans (h.likelihood_bound row hrow j c s hc hs ho θ)
        have b2 := (show l ≤ _ from hθ).trans (h.likelihood_bound row hrow j' c' s' hc' hs' ho' θ)
        have u1 : θ 0 ≤ E / D := by
          rw [le_div_iff₀ hD]; simp only [D, E]; linarith
        have u2 : -(E' / D') ≤ θ 0 := by
          rw [neg_le, le_div_iff₀ hD']; simp only [D', E']; linarith
        have := le_abs_self (E / D)
        have := le_abs_self (E' / D')
        have := abs_nonneg (E / D)
        have := abs_nonneg (E' / D')
        exact abs_le.2 ⟨by linarith, by linarith⟩
    obtain ⟨θ, -, hθ⟩ := hK.exists_isMaxOn ⟨0, le_refl l⟩ hcont.continuousOn
    have hmode : IsMode (observedLikelihood P cats.length row) θ := by
      intro x
      by_cases hx : x ∈ K
      · exact hθ hx
      · have h1 := (Real.log_lt_log_iff (hpos x) (hpos 0)).1 (not_le.1 hx)
        exact h1.le.trans (hθ (show (0 : Fin 1 → ℝ) ∈ K from le_refl l))
    refine ⟨θ, hmode, fun θ' hθ' => ?_⟩
    by_contra hne
    have hne0 : θ' 0 ≠ θ 0 := fun he => hne (funext fun k => by rw [Subsingleton.elim k 0]; exact he)
    set mid := (1 / 2 : ℝ) • θ' + (1 / 2 : ℝ) • θ with hmid
    have hstrict : 1 / 2 * Real.log (observedLikelihood P cats.length row θ')
        + 1 / 2 * Real.log (observedLikelihood P cats.length row θ) < Real.log (observedLikelihood P cats.length row mid) := by
      simp only [hlc.log_likelihood row hrow, mul_sum]
      rw [← sum_add_distrib]
      have hhalf : (1 / 2 : ℝ) + 1 / 2 = 1 := by norm_num
      refine sum_lt_sum (fun k hk => ?_) ⟨j, mem_range.2 (lt_of_getElem?_some hc), ?_⟩
      · obtain ⟨ck, hck⟩ := getElem?_of_lt cats k (mem_range.1 hk)
        cases hmk : cellMissing (row k) with
        | true => simp
        | false =>
          simp only [Bool.false_eq_true, if_false]
          exact (hlc.concave k ck _ hck (observed_lt cats row hrow k ck hck hmk)).2 (Set.mem_univ θ') (Set.mem_univ θ)
            (by norm_num) (by norm_num) hhalf
      · have hr := observed_lt cats row hrow j c hc ho
        simp only [ho, Bool.false_eq_true, if_false]
        rw [h.log_eq _ j c _ hc hr, h.log_eq _ j c _ hc hr, h.log_eq _ j c _ hc hr]
        simp only [hmid, affine_comb _ _ θ' θ _ _ hhalf]
        have := log_sum_exp_lt (range c) (fun s => ∑ k, A j s k * θ' k + B j s) (fun s => ∑ k, A j s k * θ k + B j s)
          (1 / 2) (1 / 2) (by norm_num) (by norm_num) hhalf s (responseOf (row j)) (mem_range.2 hs) (mem_range.2 hr) (by
            simp only [univ_unique, Fin.default_eq_zero, sum_singleton]
            intro he
            have e2 : (A j s 0 - A j (responseOf (row j)) 0) * (θ' 0 - θ 0) = 0 := by linear_combination he
            rcases mul_eq_zero.1 e2 with e3 | e3
            · linarith
            · exact hne0 (sub_eq_zero.1 e3))
        linarith
    have h1 := Real.log_le_log (hpos mid) (hmode mid)
    have h2 := Real.log_le_log (hpos mid) (hθ' mid)
    linarith

end OneVariable

/-! ## The loop -/

theorem searchConverged_iff {σ : Type} (step : σ → σ) (loss : σ → Option ℝ) (cells : ℕ) (hc : 0 < cells) (start : σ) (i : ℕ) :
    searchConverged cells (if i = 0 then none else some (loss (step^[i] start))) (loss (step^[i + 1] start)) = true
      ↔ Settled step loss cells start (i + 1) := by
  have hc' : (0 : ℝ) < cells := by exact_mod_cast hc
  unfold Settled
  by_cases h0 : i = 0
  · subst h0
    simp [searchConverged]
  · rw [if_neg h0]
    rw [Nat.add_sub_cancel]
    cases hl : loss (step^[i] start) with
    | none => simp [searchConverged]
    | some l =>
      cases hx : loss (step^[i + 1] start) with
      | none => simp [searchConverged]
      | some x =>
        simp only [searchConverged, decide_eq_true_eq, div_lt_iff₀ hc', Option.some.injEq]
        constructor
        · intro h
          exact ⟨by omega, x, l, rfl, rfl, h⟩
        · rintro ⟨-, x', l', rfl, rfl, h⟩
          exact h

theorem searchLoop_spec {σ : Type} (step : σ → σ) (loss : σ → Option ℝ) (cells : ℕ) (hc : 0 < cells) (start : σ) (n : ℕ) :
    ∀ j, ∃ k, (if n = 0 then k = j else j < k) ∧ k ≤ j + n ∧
      searchLoop step loss cells n (step^[j] start) (if j = 0 then none else some (loss (step^[j] start))) = step^[k] start ∧
      (k = j + n ∨ Settled step loss cells start k) ∧ ∀ i, j < i → i < k → ¬ Settled step loss cells start i := by
  induction n with
  | zero => exact fun j => ⟨j, by simp, le_rfl, rfl, Or.inl rfl, fun i h1 h2 => by omega⟩
  | succ n ih =>
    intro j
    have hs : step (step^[j] start) = step^[j + 1] start := (Function.iterate_succ_apply' step j start).symm
    rw [searchLoop, hs]
    by_cases hcv : Settled step loss cells start (j + 1)
    · rw [if_pos ((searchConverged_iff step loss cells hc start j).2 hcv)]
      exact ⟨j + 1, by simp, by omega, rfl, Or.inr hcv, fun i h1 h2 => by omega⟩
    · rw [if_neg (fun hh => hcv ((searchConverged_iff step loss cells hc start j).1 hh))]
      obtain ⟨k, h1, h2, h3, h4, h5⟩ := ih (j + 1)
      rw [if_neg (by omega)] at h3
      refine ⟨k, ?_, by omega, h3, ?_, fun i hi1 hi2 => ?_⟩
      · rw [if_neg (by omega)]
        split at h1 <;> omega
      · rcases h4 with h4 | h4
        · exact Or.inl (by omega)
        · exact Or.inr h4
      · rcases Nat.lt_or_eq_of_le (show j + 1 ≤ i from hi1) with h | h
        · exact h5 i h hi2
        · exact h ▸ hcv

/-- C102: the search ends after the first call of the optimiser that changes the loss by less than `10⁻⁸` per cell, and
after 40 calls at the latest; it does not end after the first call. -/
theorem C102_loop {σ : Type} (step : σ → σ) (loss : σ → Option ℝ) (cells : ℕ) (hc : 0 < cells) (start : σ) :
    ∃ k, 1 ≤ k ∧ k ≤ 40 ∧ searchScores step loss cells start = step^[k] start ∧
      (k = 40 ∨ Settled step loss cells start k) ∧ ∀ i, 1 ≤ i → i < k → ¬ Settled step loss cells start i := by
  obtain ⟨k, h1, h2, h3, h4, h5⟩ := searchLoop_spec step loss cells hc start 40 0
  rw [if_neg (by norm_num)] at h1
  exact ⟨k, h1, by omega, h3, by simpa using h4, h5⟩

/-! ## The models -/

/-- C102: the models with log-concave probabilities: 1PL, 2PL, generalized partial credit, nominal response, and graded
response with ordered intercepts, for any number of latent variables. -/
theorem C102_models :
    (∀ m : OnePL, m.WF → LogConcaveModel (List.replicate m.items 2) fun θ : Fin 1 → ℝ => tableProb (m.probs (θ 0))) ∧
    (∀ (m : TwoPL) (d : ℕ), m.WF →
      LogConcaveModel (List.replicate m.items 2) fun θ : Fin d → ℝ => tableProb (m.probs (List.ofFn θ))) ∧
    (∀ (m : GPC) (d : ℕ), m.WF → LogConcaveModel m.cats fun θ : Fin d → ℝ => tableProb (m.probs (List.ofFn θ))) ∧
    (∀ (m : NRM) (d : ℕ), LogConcaveModel m.cats fun θ : Fin d → ℝ => tableProb (m.probs (List.ofFn θ))) ∧
    ∀ (m : GRM) (d : ℕ), m.Ordered → LogConcaveModel m.cats fun θ : Fin d → ℝ => tableProb (m.probs (List.ofFn θ)) :=
  ⟨fun m h => (m.logitModel h).logConcave, fun m d h => (m.logitModel h d).logConcave, fun m d h => (m.logitModel h d).logConcave,
    fun m d => (m.logitModel d).logConcave, fun m d h => m.logConcave h d⟩

theorem binary_mixed (n : ℕ) (a : ℕ → ℝ) (ha : ∀ j, j < n → 0 < a j) (row : ℕ → Cell) (hrow : ValidResponses (List.replicate n 2) row) :
    MixedAnswers (List.replicate n 2) (fun j r _ => (r : ℝ) * a j) row ↔
      (∃ j, j < n ∧ row j = some 0) ∧ ∃ j, j < n ∧ row j = some 1 := by
  have cell : ∀ j, j < n → cellMissing (row j) = false → row j = some 0 ∨ row j = some 1 := by
    intro j hj ho
    obtain ⟨r, hr, h2⟩ := hrow j 2 (by simp [hj]) ho
    interval_cases r
    · exact Or.inl hr
    · exact Or.inr hr
  constructor
  · rintro ⟨⟨j, c, s, hc, hs, ho, hlt⟩, ⟨j', c', s', hc', hs', ho', hlt'⟩⟩
    obtain ⟨hj, rfl⟩ := replicate_getElem? _ _ _ _ hc
    obtain ⟨hj', rfl⟩ := replicate_getElem? _ _ _ _ hc'
    have p := ha j hj
    have p' := ha j' hj'
    constructor
    · refine ⟨j, hj, (cell j hj ho).resolve_right fun h1 => ?_⟩
      rw [h1] at hlt
      have : (s : ℝ) ≤ 1 := by exact_mod_cast (show s ≤ 1 by omega)
      simp only [responseOf, Int.toNat_one, Nat.cast_one, one_mul] at hlt
      nlinarith
    · refine ⟨j', hj', (cell j' hj' ho').resolve_left fun h1 => ?_⟩
      rw [h1] at hlt'
      have : (0 : ℝ) ≤ s' := Nat.cast_nonneg s'
      simp only [responseOf, Int.toNat_zero, Nat.cast_zero, zero_mul] at hlt'
      nlinarith
  · rintro ⟨⟨j, hj, h0⟩, ⟨j', hj', h1⟩⟩
    constructor
    · refine ⟨j, 2, 1, by simp [hj], by norm_num, by rw [h0]; rfl, ?_⟩
      rw [h0]
      simpa [responseOf] using ha j hj
    · refine ⟨j', 2, 0, by simp [hj'], by norm_num, by rw [h1]; rfl, ?_⟩
      rw [h1]
      simpa [responseOf] using ha j' hj'

/-- C102: in the 1PL model a respondent has exactly one maximum likelihood score if and only if they have a right and a
wrong answer. -/
theorem C102_onePL_ml (m : OnePL) (hwf : m.WF) (row : ℕ → Cell) (hrow : ValidResponses (List.replicate m.items 2) row) :
    (∃! θ, IsMode (observedLikelihood (fun θ : Fin 1 → ℝ => tableProb (m.probs (θ 0))) m.items row) θ) ↔
      (∃ j, j < m.items ∧ row j = some 0) ∧ ∃ j, j < m.items ∧ row j = some 1 := by
  have h := C102_ml_exists_iff (m.logitModel hwf) row hrow
  rw [List.length_replicate] at h
  rw [h, ← binary_mixed m.items (fun _ => 1) (fun _ _ => one_pos) row hrow]
  simp only [mul_one]

/-- C102: the same for the 2PL model with one latent variable and positive slopes. -/
theorem C102_twoPL_ml (m : TwoPL) (hwf : m.WF) (ha : ∀ j, j < m.items → 0 < slopeOf m.itemParameters j 0) (row : ℕ → Cell)
    (hrow : ValidResponses (List.replicate m.items 2) row) :
    (∃! θ, IsMode (observedLikelihood (fun θ : Fin 1 → ℝ => tableProb (m.probs (List.ofFn θ))) m.items row) θ) ↔
      (∃ j, j < m.items ∧ row j = some 0) ∧ ∃ j, j < m.items ∧ row j = some 1 := by
  have h := C102_ml_exists_iff (m.logitModel hwf 1) row hrow
  rw [List.length_replicate] at h
  rw [h, ← binary_mixed m.items (fun j => slopeOf m.itemParameters j 0) ha row hrow]
  have e : (fun (j r : ℕ) (k : Fin 1) => (r : ℝ) * slopeOf m.itemParameters j k) = fun j (r : ℕ) _ => (r : ℝ) * slopeOf m.itemParameters j 0 := by
    funext j r k
    rw [Subsingleton.elim k 0]; rfl
  rw [e]

/-- The claim that `theta_estimation="ML"` can return a maximum likelihood score for every respondent who answered
something. -/
def MlScoreExists : Prop :=
  ∀ (m : OnePL), m.WF → ∀ row, ValidResponses (List.replicate m.items 2) row → (∃ j, j < m.items ∧ cellMissing (row j) = false) →
    ∃ θ, IsMode (observedLikelihood (fun θ : Fin 1 → ℝ => tableProb (m.probs (θ 0))) m.items row) θ

/-- C102: it cannot: whatever score is returned to a respondent with only right answers, a higher one is more likely. -/
theorem C102_ml_perfect_false : ¬ MlScoreExists := by
  intro claim
  have hrow := exThreePatterns_valid exOnePL.items 2
  obtain ⟨θ, hθ⟩ := claim exOnePL exOnePL_wf (exThreePatterns 2) hrow ⟨0, by simp [exOnePL], rfl⟩
  have hlm := exOnePL.logitModel exOnePL_wf
  have hlc := hlm.logConcave
  have key : ∀ x y : Fin 1 → ℝ, x 0 < y 0 →
      observedLikelihood (fun θ : Fin 1 → ℝ => tableProb (exOnePL.probs (θ 0))) exOnePL.items (exThreePatterns 2) x
        < observedLikelihood (fun θ : Fin 1 → ℝ => tableProb (exOnePL.probs (θ 0))) exOnePL.items (exThreePatterns 2) y := by
    intro x y hxy
    refine prod_lt_prod_of_nonempty (fun j hj => ?_) (fun j hj => ?_) ⟨0, by simp [exOnePL]⟩
    · have := (hlc.cell_pos _ hrow x j (by simpa using hj)).1
      exact this
    · have hj' := mem_range.1 hj
      have hc : (List.replicate exOnePL.items 2)[j]? = some 2 := by simp [hj']
      have e : exThreePatterns 2 j = some 1 := by simp [exThreePatterns]
      simp only [e, cellMissing, responseOf, show decide ((1 : ℤ) = -1) = false from rfl, Bool.false_eq_true, if_false, Int.toNat_one]
      have ex := hlm x j 2 1 hc (by norm_num)
      have ey := hlm y j 2 1 hc (by norm_num)
      dsimp only at ex ey
      rw [ex, ey]
      simp only [sum_range_succ, sum_range_zero, univ_unique, Fin.default_eq_zero, sum_singleton, Nat.cast_zero, Nat.cast_one,
        zero_mul, one_mul, add_zero, zero_add, Real.exp_zero]
      have he := Real.exp_lt_exp.2 (show x 0 + exOnePL.itemParameters.getD j 0 < y 0 + exOnePL.itemParameters.getD j 0 by linarith)
      rw [div_lt_div_iff₀ (by positivity) (by positivity)]
      nlinarith
  have := key θ (fun k => θ k + 1) (by simp)
  exact absurd (hθ fun k => θ k + 1) (not_le.2 this)

/-! ## 3PL -/

/-- The claim of C102 for the 3PL model: a local maximum of the likelihood is a maximum. -/
def ThreePLNoFalseMaxima : Prop :=
  ∀ (m : ThreePL), m.WF → ∀ row, ValidResponses (List.replicate m.items 2) row → ∀ θ : Fin 1 → ℝ,
    IsLocalMax (observedLikelihood (fun θ => tableProb (m.probs (List.ofFn θ))) m.items row) θ →
    IsMode (observedLikelihood (fun θ => tableProb (m.probs (List.ofFn θ))) m.items row) θ

/-- A steep hard item and an item of average slope and difficulty, both with guessing probability one half. -/
noncomputable def exBump : ThreePL := ⟨2, 1, [[true], [true]], [20, 1], [-20 * Real.log 5, 0], [0, 0]⟩

theorem exBump_wf : exBump.WF where
  relLen := rfl
  relRow := by simp [exBump]
  weightLen := by simp [exBump, countTrue]
  biasLen := rfl
  guessLen := rfl

theorem exBump_parameters : exBump.itemParameters = [([20], -20 * Real.log 5, sigmoid 0), ([1], 0, sigmoid 0)] := by
  simp [ThreePL.itemParameters, ThreePL.weights, exBump, viewRows, scatterMask, List.range_succ]

/-- C102 does not hold for the 3PL model: a respondent with the hard item right and the average item wrong has a local
maximum of the likelihood at a high score, although a low score is far more likely. -/
theorem C102_threePL_false : ¬ ThreePLNoFalseMaxima := by
  intro claim
  have hs0 : sigmoid 0 = 1 / 2 := by norm_num [sigmoid]
  have r0 : ∀ θ : Fin 1 → ℝ, (exBump.probs (List.ofFn θ))[0]? = some [1 - (1 / 2 + (1 - 1 / 2) * logistic (θ 0 * 20 + -20 * Real.log 5)),
      1 / 2 + (1 - 1 / 2) * logistic (θ 0 * 20 + -20 * Real.log 5)] := by
    intro θ
    have := C03_threePL_formula exBump (List.ofFn θ) 0 [20] (-20 * Real.log 5) (sigmoid 0) (by simp [exBump_parameters])
    rw [this, dot_ofFn, hs0]; simp
  have r1 : ∀ θ : Fin 1 → ℝ, (exBump.probs (List.ofFn θ))[1]? = some [1 - (1 / 2 + (1 - 1 / 2) * logistic (θ 0)),
      1 / 2 + (1 - 1 / 2) * logistic (θ 0)] := by
    intro θ
    have := C03_threePL_formula exBump (List.ofFn θ) 1 [1] 0 (sigmoid 0) (by simp [exBump_parameters])
    rw [this, dot_ofFn, hs0]; simp
  set g : ℝ → ℝ := fun x => (1 / 2 + 1 / 2 * sigmoid (x * 20 + -20 * Real.log 5)) * (1 / 2 * (1 - sigmoid x)) with hg
  have hL : ∀ θ : Fin 1 → ℝ, observedLikelihood (fun θ => tableProb (exBump.probs (List.ofFn θ))) exBump.items (exThreePatterns 0) θ
      = g (θ 0) := by
    intro θ
    rw [show exBump.items = 2 from rfl]
    simp only [observedLikelihood, prod_range_succ, prod_range_zero, one_mul, exThreePatterns, tableProb, r0, r1]
    simp only [cellMissing, responseOf, logistic_eq_sigmoid, hg]
    norm_num
    left; ring
  have hsig : Continuous sigmoid := by
    unfold sigmoid
    exact continuous_const.div (by fun_prop) fun x => by positivity
  have hcont : Continuous g := by
    simp only [hg]
    exact (continuous_const.add (continuous_const.mul (hsig.comp (by fun_prop)))).mul
      (continuous_const.mul (continuous_const.sub hsig))
  have val : ∀ u : ℝ, 0 < u → g (Real.log u) = (1 / 2 + 1 / 2 * (1 / (1 + (5 / u) ^ 20))) * (1 / 2 * (1 / (1 + u))) := by
    intro u hu
    have e1 : Real.exp (-(Real.log u * 20 + -20 * Real.log 5)) = (5 / u) ^ 20 := by
      rw [← Real.exp_log (show 0 < 5 / u by positivity), ← Real.exp_nat_mul, Real.log_div (by norm_num) hu.ne']
      congr 1; push_cast; ring
    have e2 : 1 - sigmoid (Real.log u) = 1 / (1 + u) := by
      rw [sigmoid_eq, Real.exp_log hu]; field_simp; ring
    simp only [hg, e2]
    rw [sigmoid, e1]
  have v4 := val 4 (by norm_num)
  have v6 := val 6 (by norm_num)
  have v20 := val 20 (by norm_num)
  have v0 := val (1 / 10) (by norm_num)
  have l1 : Real.log 4 < Real.log 6 := Real.log_lt_log (by norm_num) (by norm_num)
  have l2 : Real.log 6 < Real.log 20 := Real.log_lt_log (by norm_num) (by norm_num)
  obtain ⟨c, hc, hmax⟩ := (isCompact_Icc (a := Real.log 4) (b := Real.log 20)).exists_isMaxOn
    ⟨Real.log 6, l1.le, l2.le⟩ hcont.continuousOn
  have h6 : g (Real.log 6) ≤ g c := hmax ⟨l1.le, l2.le⟩
  have n4 : g (Real.log 4) < g (Real.log 6) := by rw [v4, v6]; norm_num
  have n20 : g (Real.log 20) < g (Real.log 6) := by rw [v20, v6]; norm_num
  have hc1 : Real.log 4 < c := lt_of_le_of_ne hc.1 fun he => by rw [← he] at h6; linarith
  have hc2 : c < Real.log 20 := lt_of_le_of_ne hc.2 fun he => by rw [he] at h6; linarith
  have hloc : IsLocalMax g c := hmax.isLocalMax (Icc_mem_nhds hc1 hc2)
  have hmode := claim exBump exBump_wf (exThreePatterns 0) (exThreePatterns_valid _ _) (fun _ => c) (by
    have : ∀ᶠ θ in nhds (fun _ : Fin 1 => c), g (θ 0) ≤ g c := (continuous_apply (0 : Fin 1)).tendsto (fun _ : Fin 1 => c) |>.eventually hloc
    refine this.mono fun θ hθ => ?_
    rw [hL, hL]; exact hθ)
  have hup : g c ≤ 1 / 2 * (1 / (1 + 4)) := by
    have hs1 := sigmoid_lt_one (c * 20 + -20 * Real.log 5)
    have hs2 := sigmoid_pos (c * 20 + -20 * Real.log 5)
    have hm4 : sigmoid (Real.log 4) ≤ sigmoid c := sigmoid_strictMono.monotone hc1.le
    have e4 : 1 - sigmoid (Real.log 4) = 1 / (1 + 4) := by
      rw [sigmoid_eq, Real.exp_log (by norm_num)]; norm_num
    have hc0 := sigmoid_lt_one c
    simp only [hg]
    nlinarith
  have hlow := hmode fun _ => Real.log (1 / 10)
  rw [hL, hL, v0] at hlow
  have : (1 : ℝ) / 2 * (1 / (1 + 4)) < (1 / 2 + 1 / 2 * (1 / (1 + (5 / (1 / 10)) ^ 20))) * (1 / 2 * (1 / (1 + 1 / 10))) := by norm_num
  linarith

/-! ## The hypotheses are met -/

theorem LogitModel.log_posterior_differentiable {d : ℕ} {cats : List ℕ} {P : (Fin d → ℝ) → ℕ → ℕ → ℝ} {A : ℕ → ℕ → Fin d → ℝ}
    {B : ℕ → ℕ → ℝ} (h : LogitModel cats P A B) (cov : Matrix (Fin d) (Fin d) ℝ) (row : ℕ → Cell)
    (hrow : ValidResponses cats row) : Differentiable ℝ fun θ => Real.log (scoreWeight P cats.length (some cov) row θ) := by
  have hlc := h.logConcave
  simp only [hlc.log_weight cov row hrow, hlc.log_likelihood row hrow]
  refine Differentiable.add ?_ (Differentiable.fun_sum fun j hj => ?_)
  · unfold mvnLogDensity
    simp only [dotProduct, Matrix.mulVec]
    fun_prop
  · obtain ⟨c, hc⟩ := getElem?_of_lt cats j (mem_range.1 hj)
    cases hm : cellMissing (row j) with
    | true => simp
    | false =>
      have hr := observed_lt cats row hrow j c hc hm
      simp only [Bool.false_eq_true, if_false, h.log_eq _ j c _ hc hr]
      refine Differentiable.sub (by fun_prop) (Differentiable.log (by fun_prop) fun θ => ?_)
      exact (sum_pos (fun _ _ => Real.exp_pos _) ⟨_, mem_range.2 hr⟩).ne'

/-- A 1PL model with an optimiser that finds the zero of the gradient: the scores of three respondents, one of them with
only right answers, are the modes of their posteriors. -/
example : ∃ (f : FittedModel 1) (t : ℕ → Fin 1 → ℝ), mlMapScores f "MAP" (rowsOf 3 2 exThreePatterns) [] = .ok ((List.range 3).map t) ∧
    ∀ i, i < 3 → IsMode (posteriorWeight (fun θ : Fin 1 → ℝ => tableProb (exOnePL.probs (θ 0))) 2 1 (exThreePatterns i)) (t i) := by
  have hlm := exOnePL.logitModel exOnePL_wf
  have hlc := hlm.logConcave
  have hm := exOnePL.isScorer exOnePL_wf (by norm_num [exOnePL])
  have hp : ∀ cov, some (1 : Matrix (Fin 1) (Fin 1) ℝ) = some cov → cov.PosDef := by
    rintro _ ⟨⟩; exact Matrix.PosDef.one
  have hmode := fun i => C102_map hlc 1 Matrix.PosDef.one (exThreePatterns i) (exThreePatterns_valid _ i)
  choose t ht _ using hmode
  obtain ⟨F, hF, hsum, -⟩ := C102_rows hm hlc (some 1) hp 3 exThreePatterns fun i _ => exThreePatterns_valid _ i
  let f : FittedModel 1 := {
    scorer := exOnePL.scorer
    cats := List.replicate exOnePL.items 2
    attrs := { covariance := some (some 1) }
    probs := fun θ => exOnePL.probs (θ 0)
    scales := []
    encode := fun _ => []
    meanSe := fun _ => []
    optimise := fun _ _ _ => (List.range 3).map t
    permutation := []
    draw := fun _ _ => 0 }
  obtain ⟨h1, h2⟩ := C102_map_scores f hm hlc 1 (by simp [mapPrior, f, Matrix.PosDef.one]) 3 exThreePatterns
    (fun i _ => exThreePatterns_valid _ i) F hF [] t rfl (by
      intro i hi
      have e : (fun θ => F (Function.update t i θ)) = fun θ =>
          Real.log (scoreWeight (fun θ : Fin 1 → ℝ => tableProb (exOnePL.probs (θ 0))) (List.replicate exOnePL.items 2).length (some 1) (exThreePatterns i) θ)
            + ∑ k ∈ (range 3).erase i,
              Real.log (scoreWeight (fun θ : Fin 1 → ℝ => tableProb (exOnePL.probs (θ 0))) (List.replicate exOnePL.items 2).length (some 1) (exThreePatterns k) (t k)) := by
        funext θ
        rw [hsum, ← add_sum_erase _ _ (mem_range.2 hi), Function.update_self,
          sum_congr rfl fun k hk => by rw [Function.update_of_ne (ne_of_mem_erase hk)]]
      rw [e]
      have hd := (hlm.log_posterior_differentiable 1 (exThreePatterns i) (exThreePatterns_valid _ i) (t i)).hasFDerivAt
      have hl : IsLocalMax (fun θ => Real.log (scoreWeight (fun θ : Fin 1 → ℝ => tableProb (exOnePL.probs (θ 0)))
          (List.replicate exOnePL.items 2).length (some 1) (exThreePatterns i) θ)) (t i) :=
        Filter.Eventually.of_forall fun x => Real.log_le_log (hlc.weight_pos _ _ (exThreePatterns_valid _ i) x) (ht i x)
      rw [hl.hasFDerivAt_eq_zero hd] at hd
      simpa using hd)
  exact ⟨f, t, h1, fun i hi => (h2 i hi).1⟩

/-- A right and a wrong answer: exactly one maximum likelihood score. -/
example : ∃! θ, IsMode (observedLikelihood (fun θ : Fin 1 → ℝ => tableProb (exOnePL.probs (θ 0))) exOnePL.items (exThreePatterns 0)) θ :=
  (C102_onePL_ml exOnePL exOnePL_wf _ (exThreePatterns_valid _ _)).2
    ⟨⟨1, by norm_num [exOnePL], by simp [exThreePatterns]⟩, ⟨0, by norm_num [exOnePL], by simp [exThreePatterns]⟩⟩

example : exGraded.Ordered := exGraded_ordered

/-- An optimiser that halves the loss stops long before the last call when the data are large. -/
example : ∃ k, 1 ≤ k ∧ k ≤ 40 ∧ searchScores (fun x : ℝ => x / 2) some 1000 1 = (fun x : ℝ => x / 2)^[k] 1 ∧
    (k = 40 ∨ Settled (fun x : ℝ => x / 2) some 1000 1 k) := by
  obtain ⟨k, h1, h2, h3, h4, -⟩ := C102_loop (fun x : ℝ => x / 2) some 1000 (by norm_num) 1
  exact ⟨k, h1, h2, h3, h4⟩

end Irt
