import Verif.Props.LongTests
import Verif.Props.ScoreSearch
import Verif.Spec.LongSearch

/-! # C138: maximum likelihood and MAP scores of long tests are as exact as one likes -/

namespace Irt
open Spec Finset

variable {cats : List ℕ} {P : (Fin 1 → ℝ) → ℕ → ℕ → ℝ}

/-! ## Where the modes of a log-concave weight are -/

theorem found_of_lower {w : (Fin 1 → ℝ) → ℝ} (hpos : ∀ θ, 0 < w θ) (hcont : Continuous w)
    (hc : ConcaveOn ℝ Set.univ fun θ => Real.log (w θ)) (θ : Fin 1 → ℝ) (ε : ℝ) (hε : 0 < ε)
    (hp : w (fun _ => θ 0 + ε) < w θ) (hm : w (fun _ => θ 0 - ε) < w θ) : FoundWithin w θ ε := by
  have out : ∀ (σ : ℝ), |σ| = 1 → w (fun _ => θ 0 + σ * ε) < w θ → ∀ s : ℝ, ε ≤ s → w (fun _ => θ 0 + σ * s) < w θ := by
    intro σ _ hσ s hs
    by_contra hge
    push Not at hge
    have hs0 : 0 < s := hε.trans_le hs
    have h := hc.2 (Set.mem_univ θ) (Set.mem_univ (fun _ : Fin 1 => θ 0 + σ * s)) 
      (show 0 ≤ 1 - ε / s by rw [sub_nonneg, div_le_one hs0]; exact hs) (div_pos hε hs0).le (by ring)
    have e : (1 - ε / s) • θ + (ε / s) • (fun _ : Fin 1 => θ 0 + σ * s) = fun _ => θ 0 + σ * ε := by
      funext k
      rw [Subsingleton.elim k 0]
      simp only [Pi.add_apply, Pi.smul_apply, smul_eq_mul]
      field_simp
      ring
    simp only [e, smul_eq_mul] at h
    have hl := Real.log_le_log (hpos θ) hge
    have hl' := Real.log_lt_log (hpos _) hσ
    have hb : 0 < ε / s := div_pos hε hs0
    nlinarith
  have far : ∀ t : Fin 1 → ℝ, ε ≤ |t 0 - θ 0| → w t < w θ := by
    intro t ht
    rcases le_total 0 (t 0 - θ 0) with h | h
    · rw [abs_of_nonneg h] at ht
      have := out 1 (by simp) (by simpa using hp) _ ht
      have e : (fun _ : Fin 1 => θ 0 + 1 * (t 0 - θ 0)) = t := by
        funext k
        rw [Subsingleton.elim k 0]; ring
      rwa [e] at this
    · rw [abs_of_nonpos h] at ht
      have := out (-1) (by simp) (by simpa [sub_eq_add_neg] using hm) _ ht
      have e : (fun _ : Fin 1 => θ 0 + -1 * -(t 0 - θ 0)) = t := by
        funext k
        rw [Subsingleton.elim k 0]; ring
      rwa [e] at this
  have hK : IsCompact (Set.Icc (θ 0 - ε) (θ 0 + ε)) := isCompact_Icc
  obtain ⟨s, hs, hmax⟩ := hK.exists_isMaxOn ⟨θ 0, by constructor <;> linarith⟩
    ((hcont.comp (continuous_pi fun _ : Fin 1 => continuous_id)).continuousOn (s := Set.Icc (θ 0 - ε) (θ 0 + ε)))
  have hθs : w θ ≤ w fun _ => s := by
    have := hmax (show θ 0 ∈ Set.Icc (θ 0 - ε) (θ 0 + ε) by constructor <;> linarith)
    have e : (fun _ : Fin 1 => θ 0) = θ := by
      funext k
      rw [Subsingleton.elim k 0]
    simpa [e] using this
  refine ⟨⟨fun _ => s, fun t => ?_⟩, fun t ht => ?_⟩
  · rcases le_or_gt ε |t 0 - θ 0| with h | h
    · exact (far t h).le.trans hθs
    · have := hmax (show t 0 ∈ Set.Icc (θ 0 - ε) (θ 0 + ε) by
        rw [abs_lt] at h
        constructor <;> linarith [h.1, h.2])
      have e : (fun _ : Fin 1 => t 0) = t := by
        funext k
        rw [Subsingleton.elim k 0]
      simpa [e] using this
  · by_contra h
    push Not at h
    exact absurd (ht θ) (not_le.2 (far t h))

/-! ## The weight of answers -/

theorem observedLikelihood_asked {K : ℕ} (T : Finset (Fin K)) (x : Fin K → ℕ) (θ : Fin 1 → ℝ) :
    observedLikelihood P K (answersTo T x) θ = ∏ j : Fin K, if j ∈ T then P θ j (x j) else 1 := by
  rw [observedLikelihood, ← Fin.prod_univ_eq_prod_range (fun j => if cellMissing (answersTo T x j) then 1
    else P θ j (responseOf (answersTo T x j)))]
  refine prod_congr rfl fun j _ => ?_
  by_cases hj : j ∈ T
  · have e : answersTo T x j = some (x j : ℤ) := by simp [answersTo, hj]
    rw [e, if_pos hj]
    have : cellMissing (some (x j : ℤ)) = false := by
      simp [cellMissing]
    rw [this]
    simp [responseOf]
  · have e : answersTo T x j = none := by simp [answersTo, hj]
    rw [e, if_neg hj]
    simp [cellMissing]

theorem scoreWeight_eq (K : ℕ) (prior : Option (Matrix (Fin 1) (Fin 1) ℝ)) (row : ℕ → Cell) (θ : Fin 1 → ℝ) :
    scoreWeight P K prior row θ = priorOf prior θ * observedLikelihood P K row θ := by
  cases prior with
  | none => simp [scoreWeight, priorOf]
  | some cov => rfl

theorem priorOf_pos (prior : Option (Matrix (Fin 1) (Fin 1) ℝ)) (θ : Fin 1 → ℝ) : 0 < priorOf prior θ := by
  cases prior with
  | none => exact one_pos
  | some cov => exact Real.exp_pos _

theorem priorOf_continuous (prior : Option (Matrix (Fin 1) (Fin 1) ℝ)) : Continuous (priorOf prior) := by
  cases prior with
  | none => exact continuous_const
  | some cov =>
    show Continuous fun θ => Real.exp (mvnLogDensity 0 cov θ)
    unfold mvnLogDensity
    fun_prop

/-- The sum over all answers of the geometric mean of two weights. -/
theorem sum_sqrt_asked (hpos : ∀ (θ : Fin 1 → ℝ) (j c r : ℕ), cats[j]? = some c → r < c → 0 < P θ j r) (hP : ProperProbs P cats)
    (T : Finset (Fin cats.length)) (θ θ' : Fin 1 → ℝ) :
    ∑ x ∈ fullAnswers cats, answerProb P θ x * Real.sqrt (observedLikelihood P cats.length (answersTo T x) θ'
        / observedLikelihood P cats.length (answersTo T x) θ)
      = ∏ j ∈ T, affinity P cats θ θ' j := by
  have hc : ∀ j : Fin cats.length, cats[(j : ℕ)]? = some cats[j] := fun j => List.getElem?_eq_getElem j.2
  have e1 : ∀ x ∈ fullAnswers cats, answerProb P θ x * Real.sqrt (observedLikelihood P cats.length (answersTo T x) θ'
        / observedLikelihood P cats.length (answersTo T x) θ)
      = ∏ j, if j ∈ T then Real.sqrt (P θ j (x j) * P θ' j (x j)) else P θ j (x j) := by
    intro x hx
    have hx' : ∀ j, x j < cats[j] := fun j => mem_range.1 (Fintype.mem_piFinset.1 hx j)
    rw [observedLikelihood_asked, observedLikelihood_asked, ← prod_div_distrib, Real.sqrt_prod, answerProb, ← prod_mul_distrib]
    · refine prod_congr rfl fun j _ => ?_
      have h0 := hpos θ j _ _ (hc j) (hx' j)
      have h1 := hpos θ' j _ _ (hc j) (hx' j)
      by_cases hj : j ∈ T
      · simp only [hj, if_true]
        rw [Real.sqrt_div h1.le, Real.sqrt_mul h0.le]
        have := Real.mul_self_sqrt h0.le
        have hs := Real.sqrt_pos.2 h0
        field_simp
        nlinarith [Real.sq_sqrt h0.le]
      · simp [hj]
    · intro j _
      have h0 := hpos θ j _ _ (hc j) (hx' j)
      have h1 := hpos θ' j _ _ (hc j) (hx' j)
      split
      · positivity
      · norm_num
  rw [sum_congr rfl e1]
  unfold fullAnswers
  rw [← prod_univ_sum (fun j => range cats[j]) fun j r => if j ∈ T then Real.sqrt (P θ j r * P θ' j r) else P θ j r]
  rw [← prod_filter_mul_prod_filter_not univ (fun j => j ∈ T)]
  have e2 : (univ.filter fun j => j ∈ T) = T := by ext; simp
  rw [e2]
  have e3 : ∏ j ∈ univ.filter (fun j => ¬ j ∈ T), ∑ r ∈ range cats[j],
      (if j ∈ T then Real.sqrt (P θ j r * P θ' j r) else P θ j r) = 1 := by
    refine prod_eq_one fun j hj => ?_
    have hj := (mem_filter.1 hj).2
    simp only [hj, if_false]
    exact hP θ j _ (hc j)
  rw [e3, mul_one]
  refine prod_congr rfl fun j hj => ?_
  simp only [hj, if_true]
  rfl

/-! ## The chance of a wrong score -/

theorem chance_le {d : ℕ} {P : (Fin d → ℝ) → ℕ → ℕ → ℝ} {θ : Fin d → ℝ} (Q : (Fin cats.length → ℕ) → Prop) (g : (Fin cats.length → ℕ) → ℝ)
    (h0 : ∀ x ∈ fullAnswers cats, 0 ≤ g x) (h : ∀ x ∈ fullAnswers cats, Q x → answerProb P θ x ≤ g x) :
    chance P cats θ Q ≤ ∑ x ∈ fullAnswers cats, g x := by
  classical
  unfold chance
  refine (sum_le_sum fun x hx => ?_).trans (sum_le_sum_of_subset_of_nonneg (filter_subset _ _) fun x hx _ => h0 x hx)
  exact h x (mem_filter.1 hx).1 (mem_filter.1 hx).2

/-- C138: in a log-concave model the probability that the maximum likelihood (or MAP) score of a respondent with latent score `θ` does not
exist or is off by `ε` or more is at most the sum of the products of the affinities of the items asked at `θ` and at `θ ± ε`. -/
theorem C138_error (h : LogConcaveModel cats P) (hP : ProperProbs P cats) (prior : Option (Matrix (Fin 1) (Fin 1) ℝ))
    (hprior : ∀ cov, prior = some cov → cov.PosDef) (T : Finset (Fin cats.length)) (θ : Fin 1 → ℝ) (ε : ℝ) (hε : 0 < ε) :
    chance P cats θ (fun x => ¬ FoundWithin (scoreWeight P cats.length prior (answersTo T x)) θ ε)
      ≤ Real.sqrt (priorOf prior (fun _ => θ 0 + ε) / priorOf prior θ) * ∏ j ∈ T, affinity P cats θ (fun _ => θ 0 + ε) j
        + Real.sqrt (priorOf prior (fun _ => θ 0 - ε) / priorOf prior θ) * ∏ j ∈ T, affinity P cats θ (fun _ => θ 0 - ε) j := by
  have hpos : ∀ (θ : Fin 1 → ℝ) (j c r : ℕ), cats[j]? = some c → r < c → 0 < P θ j r := fun θ j c r => h.pos θ j c r
  rw [← sum_sqrt_asked hpos hP, ← sum_sqrt_asked hpos hP, mul_sum, mul_sum, ← sum_add_distrib]
  have hprob : ∀ x ∈ fullAnswers cats, 0 < answerProb P θ x := fun x hx =>
    prod_pos fun j _ => h.pos θ j _ _ (List.getElem?_eq_getElem j.2) (mem_range.1 (Fintype.mem_piFinset.1 hx j))
  have hterm : ∀ (θ' : Fin 1 → ℝ) (x : Fin cats.length → ℕ), Real.sqrt (priorOf prior θ' / priorOf prior θ)
        * (answerProb P θ x * Real.sqrt (observedLikelihood P cats.length (answersTo T x) θ'
          / observedLikelihood P cats.length (answersTo T x) θ))
      = answerProb P θ x * Real.sqrt (scoreWeight P cats.length prior (answersTo T x) θ'
          / scoreWeight P cats.length prior (answersTo T x) θ) := by
    intro θ' x
    rw [scoreWeight_eq, scoreWeight_eq, mul_div_mul_comm, Real.sqrt_mul (div_pos (priorOf_pos _ _) (priorOf_pos _ _)).le]
    ring
  simp only [hterm]
  refine chance_le _ _ (fun x hx => ?_) fun x hx hbad => ?_
  · have := (hprob x hx).le
    positivity
  · have hv := answersTo_valid T hx
    have hwpos := h.weight_pos prior _ hv
    have hwcont : Continuous (scoreWeight P cats.length prior (answersTo T x)) := by
      have e : scoreWeight P cats.length prior (answersTo T x)
          = fun θ => priorOf prior θ * observedLikelihood P cats.length (answersTo T x) θ := funext fun θ => scoreWeight_eq _ _ _ θ
      rw [e]
      exact (priorOf_continuous prior).mul (h.likelihood_continuous _ hv)
    have key : ∀ θ', scoreWeight P cats.length prior (answersTo T x) θ ≤ scoreWeight P cats.length prior (answersTo T x) θ' →
        1 ≤ Real.sqrt (scoreWeight P cats.length prior (answersTo T x) θ' / scoreWeight P cats.length prior (answersTo T x) θ) := by
      intro θ' hle
      rw [Real.one_le_sqrt, one_le_div (hwpos θ)]
      exact hle
    have hp0 := hprob x hx
    by_cases h1 : scoreWeight P cats.length prior (answersTo T x) θ ≤ scoreWeight P cats.length prior (answersTo T x) fun _ => θ 0 + ε
    · exact le_add_of_le_of_nonneg (le_mul_of_one_le_right hp0.le (key _ h1)) (mul_nonneg hp0.le (Real.sqrt_nonneg _))
    · by_cases h2 : scoreWeight P cats.length prior (answersTo T x) θ ≤ scoreWeight P cats.length prior (answersTo T x) fun _ => θ 0 - ε
      · exact le_add_of_nonneg_of_le (mul_nonneg hp0.le (Real.sqrt_nonneg _)) (le_mul_of_one_le_right hp0.le (key _ h2))
      · exact absurd (found_of_lower hwpos hwcont (h.weight_concave prior hprior _ hv) θ ε hε (not_le.1 h1) (not_le.1 h2)) hbad

/-! ## Multinomial logit models -/

theorem affinity_eq (hpos : ∀ (θ : Fin 1 → ℝ) (j c r : ℕ), cats[j]? = some c → r < c → 0 < P θ j r) (hP : ProperProbs P cats)
    (θ θ' : Fin 1 → ℝ) (j : Fin cats.length) :
    affinity P cats θ θ' j = 1 - (∑ r ∈ range cats[j], (Real.sqrt (P θ j r) - Real.sqrt (P θ' j r)) ^ 2) / 2 := by
  have hc : cats[(j : ℕ)]? = some cats[j] := List.getElem?_eq_getElem j.2
  have e : ∀ r ∈ range cats[j], (Real.sqrt (P θ j r) - Real.sqrt (P θ' j r)) ^ 2
      = P θ j r + P θ' j r - 2 * Real.sqrt (P θ j r * P θ' j r) := by
    intro r hr
    have h0 := (hpos θ j _ r hc (mem_range.1 hr)).le
    have h1 := (hpos θ' j _ r hc (mem_range.1 hr)).le
    rw [Real.sqrt_mul h0, sub_sq, Real.sq_sqrt h0, Real.sq_sqrt h1]
    ring
  rw [sum_congr rfl e, sum_sub_distrib, sum_add_distrib, ← mul_sum, hP θ j _ hc, hP θ' j _ hc, affinity]
  ring

/-- Two categories whose odds change by a factor `y ^ 4` keep the affinity away from one. -/
theorem affinity_le (hpos : ∀ (θ : Fin 1 → ℝ) (j c r : ℕ), cats[j]? = some c → r < c → 0 < P θ j r) (hP : ProperProbs P cats)
    (θ θ' : Fin 1 → ℝ) (j : Fin cats.length) (r s : ℕ) (hr : r < cats[j]) (hs : s < cats[j]) (y p : ℝ) (hy : 1 ≤ y)
    (hodds : y ^ 4 * (P θ j r * P θ' j s) ≤ P θ' j r * P θ j s) (hpr : p ≤ P θ j r) (hps : p ≤ P θ j s) :
    affinity P cats θ θ' j ≤ 1 - p * (1 - y⁻¹) ^ 2 / 2 := by
  have hc : cats[(j : ℕ)]? = some cats[j] := List.getElem?_eq_getElem j.2
  have hur := hpos θ j _ r hc hr
  have hur' := hpos θ' j _ r hc hr
  have hvs := hpos θ j _ s hc hs
  have hvs' := hpos θ' j _ s hc hs
  rw [affinity_eq hpos hP]
  have hy0 : 0 < y := by linarith
  have hinv : 0 ≤ 1 - y⁻¹ := by
    rw [sub_nonneg]; exact inv_le_one_of_one_le₀ hy
  have hsq : y ^ 2 * (Real.sqrt (P θ j r) * Real.sqrt (P θ' j s)) ≤ Real.sqrt (P θ' j r) * Real.sqrt (P θ j s) := by
    have := Real.sqrt_le_sqrt hodds
    rwa [Real.sqrt_mul hur'.le, Real.sqrt_mul (by positivity), Real.sqrt_mul hur.le,
      show y ^ 4 = (y ^ 2) ^ 2 by ring, Real.sqrt_sq (by positivity)] at this
  have hu := Real.sqrt_pos.2 hur
  have hu' := Real.sqrt_pos.2 hur'
  have hv := Real.sqrt_pos.2 hvs
  have hv' := Real.sqrt_pos.2 hvs'
  have hsum : p * (1 - y⁻¹) ^ 2 ≤ ∑ r ∈ range cats[j], (Real.sqrt (P θ j r) - Real.sqrt (P θ' j r)) ^ 2 := by
    have one : ∀ q ∈ range cats[j], (Real.sqrt (P θ j q) - Real.sqrt (P θ' j q)) ^ 2
        ≤ ∑ r ∈ range cats[j], (Real.sqrt (P θ j r) - Real.sqrt (P θ' j r)) ^ 2 := fun q hq =>
      single_le_sum (f := fun r => (Real.sqrt (P θ j r) - Real.sqrt (P θ' j r)) ^ 2) (fun _ _ => sq_nonneg _) hq
    by_cases h1 : y * Real.sqrt (P θ j r) ≤ Real.sqrt (P θ' j r)
    · refine le_trans ?_ (one r (mem_range.2 hr))
      have hd : (1 - y⁻¹) * Real.sqrt (P θ j r) ≤ Real.sqrt (P θ' j r) - Real.sqrt (P θ j r) := by
        have : 1 - y⁻¹ ≤ y - 1 := by
          have : 0 ≤ (y - 1) ^ 2 / y := by positivity
          have e : (y - 1) ^ 2 / y = y - 1 - (1 - y⁻¹) := by field_simp
          linarith
        nlinarith
      calc p * (1 - y⁻¹) ^ 2 ≤ P θ j r * (1 - y⁻¹) ^ 2 := mul_le_mul_of_nonneg_right hpr (sq_nonneg _)
        _ = ((1 - y⁻¹) * Real.sqrt (P θ j r)) ^ 2 := by rw [mul_pow, Real.sq_sqrt hur.le]; ring
        _ ≤ (Real.sqrt (P θ' j r) - Real.sqrt (P θ j r)) ^ 2 := pow_le_pow_left₀ (mul_nonneg hinv hu.le) hd 2
        _ = _ := by ring
    · have h2 : y * Real.sqrt (P θ' j s) ≤ Real.sqrt (P θ j s) := by
        by_contra h2
        push Not at h1 h2
        have := mul_lt_mul'' h1 h2 hu'.le hv.le
        nlinarith
      refine le_trans ?_ (one s (mem_range.2 hs))
      have hd : (1 - y⁻¹) * Real.sqrt (P θ j s) ≤ Real.sqrt (P θ j s) - Real.sqrt (P θ' j s) := by
        have : Real.sqrt (P θ' j s) ≤ y⁻¹ * Real.sqrt (P θ j s) := by
          rw [inv_mul_eq_div, le_div_iff₀ hy0]; linarith
        linarith
      calc p * (1 - y⁻¹) ^ 2 ≤ P θ j s * (1 - y⁻¹) ^ 2 := mul_le_mul_of_nonneg_right hps (sq_nonneg _)
        _ = ((1 - y⁻¹) * Real.sqrt (P θ j s)) ^ 2 := by rw [mul_pow, Real.sq_sqrt hvs.le]; ring
        _ ≤ _ := pow_le_pow_left₀ (mul_nonneg hinv hv.le) hd 2
  linarith

section Logit

variable {A : ℕ → ℕ → Fin 1 → ℝ} {B : ℕ → ℕ → ℝ} {α β : ℝ} {C : ℕ}

theorem Spec.Telling.bound (h : LogitModel cats P A B) (ht : Telling cats A B α β C) (R : ℝ) (θ : Fin 1 → ℝ) (hθ : |θ 0| ≤ R)
    (j c r : ℕ) (hc : cats[j]? = some c) (hr : r < c) : Real.exp (-(2 * β * (R + 1))) / C ≤ P θ j r := by
  have hlin : ∀ s, s < c → |∑ k, A j s k * θ k + B j s| ≤ β * (R + 1) := by
    intro s hs
    have h1 := ht.slopes j c s hc hs
    have h2 := ht.intercepts j c s hc hs
    rw [univ_unique, sum_singleton, Fin.default_eq_zero]
    calc |A j s 0 * θ 0 + B j s| ≤ |A j s 0 * θ 0| + |B j s| := abs_add_le _ _
      _ ≤ β * R + β := by
        rw [abs_mul]
        exact add_le_add (mul_le_mul h1 hθ (abs_nonneg _) ((abs_nonneg _).trans h1)) h2
      _ = _ := by ring
  have hC : (c : ℝ) ≤ C := by exact_mod_cast ht.categories j c hc
  have hc0 : (0:ℝ) < c := by exact_mod_cast (by omega : 0 < c)
  have hsum : ∑ s ∈ range c, Real.exp (∑ k, A j s k * θ k + B j s) ≤ C * Real.exp (β * (R + 1)) := by
    calc _ ≤ ∑ _s ∈ range c, Real.exp (β * (R + 1)) :=
          sum_le_sum fun s hs => Real.exp_le_exp.2 ((le_abs_self _).trans (hlin s (mem_range.1 hs)))
      _ = c * Real.exp (β * (R + 1)) := by rw [sum_const, card_range, nsmul_eq_mul]
      _ ≤ _ := mul_le_mul_of_nonneg_right hC (Real.exp_pos _).le
  have hsum0 : 0 < ∑ s ∈ range c, Real.exp (∑ k, A j s k * θ k + B j s) :=
    sum_pos (fun _ _ => Real.exp_pos _) ⟨r, mem_range.2 hr⟩
  rw [h θ j c r hc hr, div_le_div_iff₀ (hc0.trans_le hC) hsum0]
  have hlo : Real.exp (-(β * (R + 1))) ≤ Real.exp (∑ k, A j r k * θ k + B j r) :=
    Real.exp_le_exp.2 (neg_le_of_abs_le (hlin r hr))
  calc Real.exp (-(2 * β * (R + 1))) * ∑ s ∈ range c, Real.exp (∑ k, A j s k * θ k + B j s)
      ≤ Real.exp (-(2 * β * (R + 1))) * (C * Real.exp (β * (R + 1))) := mul_le_mul_of_nonneg_left hsum (Real.exp_pos _).le
    _ = Real.exp (-(β * (R + 1))) * C := by
      rw [show -(2 * β * (R + 1)) = -(β * (R + 1)) + -(β * (R + 1)) by ring, Real.exp_add, Real.exp_neg]
      field_simp
    _ ≤ _ := mul_le_mul_of_nonneg_right hlo (hc0.trans_le hC).le

theorem LogitModel.odds (h : LogitModel cats P A B) (θ θ' : Fin 1 → ℝ) (j c r s : ℕ) (hc : cats[j]? = some c) (hr : r < c) (hs : s < c) :
    P θ' j r * P θ j s = Real.exp ((A j r 0 - A j s 0) * (θ' 0 - θ 0)) * (P θ j r * P θ' j s) := by
  rw [h θ' j c r hc hr, h θ j c s hc hs, h θ j c r hc hr, h θ' j c s hc hs, div_mul_div_comm, div_mul_div_comm, mul_div_assoc',
    ← Real.exp_add, ← Real.exp_add, ← Real.exp_add, mul_comm (∑ s ∈ range c, Real.exp (∑ k, A j s k * θ' k + B j s))]
  congr 2
  simp only [univ_unique, sum_singleton, Fin.default_eq_zero]
  ring

theorem Spec.Telling.affinity_le (h : LogitModel cats P A B) (ht : Telling cats A B α β C) (R : ℝ) (θ θ' : Fin 1 → ℝ) (hθ : |θ 0| ≤ R)
    (ε : ℝ) (hε : 0 < ε) (hα : 0 < α) (hθ' : θ' 0 = θ 0 + ε ∨ θ' 0 = θ 0 - ε) (j : Fin cats.length) :
    affinity P cats θ θ' j ≤ wrongRate α β C R ε := by
  have hc : cats[(j : ℕ)]? = some cats[j] := List.getElem?_eq_getElem j.2
  obtain ⟨r, s, hr, hs, hrs⟩ := ht.apart j _ hc
  have hP : ProperProbs P cats := fun θ j c hc => by
    by_cases h0 : c = 0
    · subst h0
      exact absurd (ht.apart j 0 hc) (by simp)
    · exact h.sum_one θ j c hc (by omega)
  have hy : 1 ≤ Real.exp (α * ε / 4) := Real.one_le_exp (by positivity)
  have hy4 : Real.exp (α * ε / 4) ^ 4 = Real.exp (α * ε) := by
    rw [← Real.exp_nat_mul]; congr 1; push_cast; ring
  have key : ∀ r s, r < cats[j] → s < cats[j] → α * ε ≤ (A j r 0 - A j s 0) * (θ' 0 - θ 0) →
      affinity P cats θ θ' j ≤ wrongRate α β C R ε := by
    intro r s hr hs hle
    have := Irt.affinity_le (fun θ j c r => h.logConcave.pos θ j c r) hP θ θ' j r s hr hs (Real.exp (α * ε / 4))
      (Real.exp (-(2 * β * (R + 1))) / C) hy
      (by
        rw [hy4, h.odds θ θ' j _ r s hc hr hs]
        exact mul_le_mul_of_nonneg_right (Real.exp_le_exp.2 hle)
          (mul_pos (h.logConcave.pos θ j _ r hc hr) (h.logConcave.pos θ' j _ s hc hs)).le)
      (ht.bound h R θ hθ j _ r hc hr) (ht.bound h R θ hθ j _ s hc hs)
    rwa [← Real.exp_neg] at this
  rcases hθ' with e | e
  · refine key r s hr hs ?_
    rw [e]
    nlinarith
  · refine key s r hs hr ?_
    rw [e]
    nlinarith

theorem wrongRate_lt (hα : 0 < α) (hC : 0 < C) (R ε : ℝ) (hε : 0 < ε) : wrongRate α β C R ε < 1 := by
  unfold wrongRate
  have h1 : Real.exp (-(α * ε / 4)) < 1 := by
    rw [Real.exp_lt_one_iff]
    have : 0 < α * ε := mul_pos hα hε
    linarith
  have h2 : (0:ℝ) < C := by exact_mod_cast hC
  have h3 : 0 < 1 - Real.exp (-(α * ε / 4)) := by linarith
  have : 0 < Real.exp (-(2 * β * (R + 1))) / C * (1 - Real.exp (-(α * ε / 4))) ^ 2 / 2 := by positivity
  linarith

/-- C138: in a multinomial logit model whose items tell something, the chance of a maximum likelihood (or MAP) score that does not exist or
is off by `ε` or more falls geometrically with the number of items answered. -/
theorem C138_logit (h : LogitModel cats P A B) (ht : Telling cats A B α β C) (hα : 0 < α) (prior : Option (Matrix (Fin 1) (Fin 1) ℝ))
    (hprior : ∀ cov, prior = some cov → cov.PosDef) (T : Finset (Fin cats.length)) (R : ℝ) (θ : Fin 1 → ℝ) (hθ : |θ 0| ≤ R)
    (ε : ℝ) (hε : 0 < ε) :
    chance P cats θ (fun x => ¬ FoundWithin (scoreWeight P cats.length prior (answersTo T x)) θ ε)
      ≤ (Real.sqrt (priorOf prior (fun _ => θ 0 + ε) / priorOf prior θ) + Real.sqrt (priorOf prior (fun _ => θ 0 - ε) / priorOf prior θ))
        * wrongRate α β C R ε ^ T.card := by
  have hP : ProperProbs P cats := fun θ j c hc => by
    by_cases h0 : c = 0
    · subst h0
      exact absurd (ht.apart j 0 hc) (by simp)
    · exact h.sum_one θ j c hc (by omega)
  refine (C138_error h.logConcave hP prior hprior T θ ε hε).trans ?_
  have prod : ∀ θ' : Fin 1 → ℝ, (θ' 0 = θ 0 + ε ∨ θ' 0 = θ 0 - ε) → ∏ j ∈ T, affinity P cats θ θ' j ≤ wrongRate α β C R ε ^ T.card := by
    intro θ' hθ'
    rw [← prod_const]
    exact prod_le_prod (fun j _ => sum_nonneg fun _ _ => Real.sqrt_nonneg _) fun j _ => ht.affinity_le h R θ θ' hθ ε hε hα hθ' j
  rw [add_mul]
  exact add_le_add (mul_le_mul_of_nonneg_left (prod _ (Or.inl rfl)) (Real.sqrt_nonneg _))
    (mul_le_mul_of_nonneg_left (prod _ (Or.inr rfl)) (Real.sqrt_nonneg _))

end Logit

/-- C138: some number of answered items makes the score as exact as one likes, with a probability as close to one as one likes, in every
multinomial logit model whose items tell something and for every respondent with a score up to `R`. -/
theorem C138_long_tests (α β : ℝ) (C : ℕ) (hα : 0 < α) (prior : Option (Matrix (Fin 1) (Fin 1) ℝ))
    (hprior : ∀ cov, prior = some cov → cov.PosDef) (R ε δ : ℝ) (hε : 0 < ε) (hδ : 0 < δ) :
    ∃ n : ℕ, ∀ (cats : List ℕ) (P : (Fin 1 → ℝ) → ℕ → ℕ → ℝ) (A : ℕ → ℕ → Fin 1 → ℝ) (B : ℕ → ℕ → ℝ),
      LogitModel cats P A B → Telling cats A B α β C → ∀ T : Finset (Fin cats.length), n ≤ T.card → ∀ θ : Fin 1 → ℝ, |θ 0| ≤ R →
        chance P cats θ (fun x => ¬ FoundWithin (scoreWeight P cats.length prior (answersTo T x)) θ ε) < δ := by
  let c : ℝ → ℝ := fun u => Real.sqrt (priorOf prior (fun _ => u + ε) / priorOf prior fun _ => u)
    + Real.sqrt (priorOf prior (fun _ => u - ε) / priorOf prior fun _ => u)
  have hcont : Continuous c := by
    have h0 := priorOf_continuous prior
    have h1 : Continuous fun u : ℝ => priorOf prior fun _ => u := h0.comp (continuous_pi fun _ => continuous_id)
    refine Continuous.add (Continuous.sqrt (Continuous.div ?_ h1 fun u => (priorOf_pos _ _).ne'))
      (Continuous.sqrt (Continuous.div ?_ h1 fun u => (priorOf_pos _ _).ne'))
    · exact h0.comp (continuous_pi fun _ => continuous_id.add continuous_const)
    · exact h0.comp (continuous_pi fun _ => continuous_id.sub continuous_const)
  obtain ⟨M, hM⟩ := (isCompact_Icc (a := -R) (b := R)).bddAbove_image hcont.continuousOn
  have hM' : ∀ u : ℝ, |u| ≤ R → c u ≤ max M 1 := fun u hu =>
    (hM ⟨u, abs_le.1 hu, rfl⟩).trans (le_max_left _ _)
  have hM0 : 0 < max M 1 := lt_max_of_lt_right one_pos
  let ρ := max (wrongRate α β (max C 1) R ε) 0
  have hρ1 : ρ < 1 := max_lt (wrongRate_lt hα (by simp) R ε hε) one_pos
  obtain ⟨n, hn⟩ := exists_pow_lt_of_lt_one (div_pos hδ hM0) hρ1
  refine ⟨n, fun cats P A B h ht T hT θ hθ => ?_⟩
  have ht' : Telling cats A B α β (max C 1) :=
    ⟨fun j c hc => (ht.categories j c hc).trans (le_max_left _ _), ht.slopes, ht.intercepts, ht.apart⟩
  refine (C138_logit h ht' hα prior hprior T R θ hθ ε hε).trans_lt ?_
  have eθ : (fun _ : Fin 1 => θ 0) = θ := by
    funext k
    rw [Subsingleton.elim k 0]
  have hc' := hM' (θ 0) hθ
  simp only [c, eθ] at hc'
  have hpow : wrongRate α β (max C 1) R ε ^ T.card ≤ ρ ^ n := by
    by_cases hT0 : T = ∅
    · subst hT0
      rw [card_empty] at hT ⊢
      rw [Nat.le_zero.1 hT]
      simp
    · have hw : 0 ≤ wrongRate α β (max C 1) R ε := by
        obtain ⟨j, -⟩ := nonempty_iff_ne_empty.2 hT0
        exact (sum_nonneg fun _ _ => Real.sqrt_nonneg _).trans
          (ht'.affinity_le h R θ (fun _ => θ 0 + ε) hθ ε hε hα (Or.inl rfl) j)
      exact (pow_le_pow_left₀ hw (le_max_left _ _) _).trans (pow_le_pow_of_le_one (le_max_right _ _) hρ1.le hT)
  calc _ ≤ max M 1 * ρ ^ n := by
        refine mul_le_mul hc' hpow ?_ hM0.le
        by_cases hT0 : T = ∅
        · subst hT0; simp
        · obtain ⟨j, -⟩ := nonempty_iff_ne_empty.2 hT0
          exact pow_nonneg ((sum_nonneg fun _ _ => Real.sqrt_nonneg _).trans
            (ht'.affinity_le h R θ (fun _ => θ 0 + ε) hθ ε hε hα (Or.inl rfl) j)) _
    _ < max M 1 * (δ / max M 1) := mul_lt_mul_of_pos_left hn hM0
    _ = δ := mul_div_cancel₀ _ hM0.ne'

/-! ## The scores that `latent_scores` returns -/

theorem chance_mono {d : ℕ} {P : (Fin d → ℝ) → ℕ → ℕ → ℝ} {θ : Fin d → ℝ} (h : LogConcaveModel cats P)
    (Q Q' : (Fin cats.length → ℕ) → Prop) (hQ : ∀ x ∈ fullAnswers cats, Q x → Q' x) : chance P cats θ Q ≤ chance P cats θ Q' := by
  classical
  unfold chance
  refine sum_le_sum_of_subset_of_nonneg (fun x hx => ?_) fun x hx _ => ?_
  · exact mem_filter.2 ⟨(mem_filter.1 hx).1, hQ x (mem_filter.1 hx).1 (mem_filter.1 hx).2⟩
  · have hx := (mem_filter.1 hx).1
    exact prod_nonneg fun j _ => (h.pos θ j _ _ (List.getElem?_eq_getElem j.2) (mem_range.1 (Fintype.mem_piFinset.1 hx j))).le

/-- C138: `latent_scores(theta_estimation="ML")` with an optimiser that stops where the gradient is zero whenever the likelihood has a
maximum: with enough items that tell something, a respondent with latent score `θ` gets, with a probability as close to one as one likes, a
score as close to `θ` as one likes. -/
theorem C138_ml_scores (α β : ℝ) (C : ℕ) (hα : 0 < α) (R ε δ : ℝ) (hε : 0 < ε) (hδ : 0 < δ) :
    ∃ n : ℕ, ∀ (f : FittedModel 1) (P : (Fin 1 → ℝ) → ℕ → ℕ → ℝ) (A : ℕ → ℕ → Fin 1 → ℝ) (B : ℕ → ℕ → ℝ),
      IsScorer f.scorer f.cats P → LogitModel f.cats P A B → Telling f.cats A B α β C →
      ∀ (T : Finset (Fin f.cats.length)) (start : Thetas 1), n ≤ T.card →
      (∀ x ∈ fullAnswers f.cats, (∃ t, IsMode (observedLikelihood P f.cats.length (answersTo T x)) t) →
        ∃ t, StopsAt f none (answersTo T x) start t) →
      ∀ θ : Fin 1 → ℝ, |θ 0| ≤ R →
        chance P f.cats θ (fun x => ¬ ∃ t, mlMapScores f "ML" (rowsOf 1 f.cats.length fun _ => answersTo T x) start = .ok [t]
          ∧ |t 0 - θ 0| < ε) < δ := by
  obtain ⟨n, hn⟩ := C138_long_tests α β C hα none (by rintro _ ⟨⟩) R ε δ hε hδ
  refine ⟨n, fun f P A B hm h ht T start hT hopt θ hθ => (chance_mono h.logConcave _ _ fun x hx hbad hfound => hbad ?_).trans_lt
    (hn f.cats P A B h ht T hT θ hθ)⟩
  obtain ⟨t, hrun, F, hF, hst⟩ := hopt x hx hfound.1
  obtain ⟨h1, h2⟩ := C102_ml_scores f hm h.logConcave 1 (fun _ => answersTo T x) (fun _ _ => answersTo_valid T hx) F hF start
    (fun _ => t) hrun hst
  exact ⟨t, h1, hfound.2 t (h2 0 one_pos)⟩

/-- C138: the same for `latent_scores(theta_estimation="MAP")`. The mode of the posterior always exists. -/
theorem C138_map_scores (α β : ℝ) (C : ℕ) (hα : 0 < α) (cov : Matrix (Fin 1) (Fin 1) ℝ) (hcov : cov.PosDef) (R ε δ : ℝ)
    (hε : 0 < ε) (hδ : 0 < δ) :
    ∃ n : ℕ, ∀ (f : FittedModel 1) (P : (Fin 1 → ℝ) → ℕ → ℕ → ℝ) (A : ℕ → ℕ → Fin 1 → ℝ) (B : ℕ → ℕ → ℝ),
      IsScorer f.scorer f.cats P → LogitModel f.cats P A B → Telling f.cats A B α β C → mapPrior f.attrs = .ok cov →
      ∀ (T : Finset (Fin f.cats.length)) (start : Thetas 1), n ≤ T.card →
      (∀ x ∈ fullAnswers f.cats, ∃ t, StopsAt f (some cov) (answersTo T x) start t) →
      ∀ θ : Fin 1 → ℝ, |θ 0| ≤ R →
        chance P f.cats θ (fun x => ¬ ∃ t, mlMapScores f "MAP" (rowsOf 1 f.cats.length fun _ => answersTo T x) start = .ok [t]
          ∧ |t 0 - θ 0| < ε) < δ := by
  obtain ⟨n, hn⟩ := C138_long_tests α β C hα (some cov) (by rintro _ ⟨⟩; exact hcov) R ε δ hε hδ
  refine ⟨n, fun f P A B hm h ht hprior T start hT hopt θ hθ => (chance_mono h.logConcave _ _ fun x hx hbad hfound => hbad ?_).trans_lt
    (hn f.cats P A B h ht T hT θ hθ)⟩
  obtain ⟨t, hrun, F, hF, hst⟩ := hopt x hx
  obtain ⟨h1, h2⟩ := C102_map_scores f hm h.logConcave cov hprior 1 (fun _ => answersTo T x) (fun _ _ => answersTo_valid T hx) F hF start
    (fun _ => t) hrun hst
  exact ⟨t, h1, hfound.2 t (h2 0 one_pos).1⟩

/-! ## The models whose items tell something -/

/-- C138: 2PL items with slopes away from zero, and slopes and intercepts within bounds. -/
theorem C138_twoPL (m : TwoPL) (hwf : m.WF) (α β : ℝ)
    (hp : ∀ p ∈ m.itemParameters, ∃ s, p.1 = [s] ∧ α ≤ |s| ∧ |s| ≤ β ∧ |p.2| ≤ β) :
    Telling (List.replicate m.items 2) (fun j r k => r * slopeOf m.itemParameters j k)
      (fun j r => r * ((m.itemParameters[j]?).map Prod.snd).getD 0) α β 2 := by
  have par : ∀ j c, (List.replicate m.items 2)[j]? = some c → c = 2 ∧ ∃ s b, slopeOf m.itemParameters j 0 = s ∧
      ((m.itemParameters[j]?).map Prod.snd).getD 0 = b ∧ α ≤ |s| ∧ |s| ≤ β ∧ |b| ≤ β := by
    intro j c hc
    obtain ⟨hj, rfl⟩ := replicate_getElem? _ _ _ _ hc
    obtain ⟨w, b, hpj⟩ := m.exists_params hwf j hj
    obtain ⟨s, hs, h1, h2, h3⟩ := hp _ (List.mem_of_getElem? hpj)
    dsimp only at hs h3
    subst hs
    exact ⟨rfl, s, b, by rw [slopeOf_eq _ _ _ _ hpj]; rfl, by rw [hpj]; rfl, h1, h2, h3⟩
  have small : ∀ (r : ℕ) (u : ℝ), r < 2 → |u| ≤ β → |(r : ℝ) * u| ≤ β := by
    intro r u hr hu
    have h0 : 0 ≤ β := (abs_nonneg _).trans hu
    interval_cases r <;> simpa
  refine ⟨fun j c hc => (par j c hc).1.le, fun j c r hc hr => ?_, fun j c r hc hr => ?_, fun j c hc => ?_⟩
  · obtain ⟨rfl, s, b, hs, hb, h1, h2, h3⟩ := par j c hc
    simp only [Fin.val_zero, hs]
    exact small r s hr h2
  · obtain ⟨rfl, s, b, hs, hb, h1, h2, h3⟩ := par j c hc
    simp only [hb]
    exact small r b hr h3
  · obtain ⟨rfl, s, b, hs, hb, h1, h2, h3⟩ := par j c hc
    simp only [Fin.val_zero, hs]
    rcases le_total 0 s with h | h
    · exact ⟨1, 0, by norm_num, by norm_num, by rw [abs_of_nonneg h] at h1; simpa using h1⟩
    · exact ⟨0, 1, by norm_num, by norm_num, by rw [abs_of_nonpos h] at h1; simpa using h1⟩

/-- C138: 1PL items with difficulties within bounds. -/
theorem C138_onePL (m : OnePL) (hwf : m.WF) (β : ℝ) (hβ : 1 ≤ β) (hp : ∀ b ∈ m.itemParameters, |b| ≤ β) :
    Telling (List.replicate m.items 2) (fun _ r _ => (r : ℝ)) (fun j r => r * m.itemParameters.getD j 0) 1 β 2 := by
  refine ⟨fun j c hc => (replicate_getElem? _ _ _ _ hc).2.le, fun j c r hc hr => ?_, fun j c r hc hr => ?_, fun j c hc => ?_⟩
  · obtain ⟨hj, rfl⟩ := replicate_getElem? _ _ _ _ hc
    interval_cases r
    · simpa using by linarith
    · simpa using hβ
  · obtain ⟨hj, rfl⟩ := replicate_getElem? _ _ _ _ hc
    obtain ⟨b, hb⟩ := getElem?_of_lt m.itemParameters j (by rw [OnePL.itemParameters, hwf]; exact hj)
    have := hp b (List.mem_of_getElem? hb)
    simp only [List.getD_eq_getElem?_getD, hb, Option.getD_some]
    interval_cases r
    · simpa using by linarith
    · simpa using this
  · obtain ⟨hj, rfl⟩ := replicate_getElem? _ _ _ _ hc
    exact ⟨1, 0, by norm_num, by norm_num, by norm_num⟩

/-- C138: generalized partial credit items with at least two and at most `C` categories, slopes away from zero, and slopes and intercepts
within bounds. -/
theorem C138_gpc (m : GPC) (α β : ℝ) (C : ℕ) (hcats : ∀ c ∈ m.cats, 2 ≤ c ∧ c ≤ C)
    (hp : ∀ p ∈ m.itemParameters, ∃ s, p.1 = [s] ∧ α ≤ |s| ∧ C * |s| ≤ β ∧ ∀ b ∈ p.2, |b| ≤ β) :
    Telling m.cats (fun j r k => r * slopeOf m.itemParameters j k)
      (fun j r => ((m.itemParameters[j]?).map fun p => p.2.getD r 0).getD 0) α β C := by
  have par : ∀ (j c : ℕ), m.cats[j]? = some c → 2 ≤ c ∧ c ≤ C ∧ ∃ s dl, m.itemParameters[j]? = some ([s], dl) ∧ dl.length = m.M ∧ c ≤ m.M ∧
      α ≤ |s| ∧ C * |s| ≤ β ∧ ∀ b ∈ dl, |b| ≤ β := by
    intro j c hc
    obtain ⟨w, dl, hpj, hlen⟩ := m.exists_params j (lt_of_getElem?_some hc)
    obtain ⟨s, hs, h1, h2, h3⟩ := hp _ (List.mem_of_getElem? hpj)
    dsimp only at hs h3
    subst hs
    exact ⟨(hcats c (List.mem_of_getElem? hc)).1, (hcats c (List.mem_of_getElem? hc)).2, s, dl, hpj, hlen,
      le_maxCats _ _ (List.mem_of_getElem? hc), h1, h2, h3⟩
  refine ⟨fun j c hc => (par j c hc).2.1, fun j c r hc hr => ?_, fun j c r hc hr => ?_, fun j c hc => ?_⟩
  · obtain ⟨-, hcC, s, dl, hpj, -, -, h1, h2, h3⟩ := par j c hc
    simp only [Fin.val_zero, slopeOf_eq _ _ _ _ hpj, List.getD_cons_zero, abs_mul, Nat.abs_cast]
    refine (mul_le_mul_of_nonneg_right ?_ (abs_nonneg s)).trans h2
    exact_mod_cast hr.le.trans hcC
  · obtain ⟨-, hcC, s, dl, hpj, hlen, hM, h1, h2, h3⟩ := par j c hc
    obtain ⟨b, hb⟩ := getElem?_of_lt dl r (by omega)
    simp only [hpj, Option.map_some, Option.getD_some, List.getD_eq_getElem?_getD, hb]
    exact h3 b (List.mem_of_getElem? hb)
  · obtain ⟨hc2, hcC, s, dl, hpj, hlen, hM, h1, h2, h3⟩ := par j c hc
    simp only [Fin.val_zero, slopeOf_eq _ _ _ _ hpj, List.getD_cons_zero]
    rcases le_total 0 s with h | h
    · exact ⟨1, 0, by omega, by omega, by rw [abs_of_nonneg h] at h1; simpa using h1⟩
    · exact ⟨0, 1, by omega, by omega, by rw [abs_of_nonpos h] at h1; simpa using h1⟩

/-! ## The hypotheses are met -/

theorem exLongTest_telling (n : ℕ) : Telling (List.replicate n 2) (fun j r k => r * slopeOf (exLongTest n).itemParameters j k)
    (fun j r => r * (((exLongTest n).itemParameters[j]?).map Prod.snd).getD 0) 1 1 2 :=
  C138_twoPL (exLongTest n) (exLongTest_wf n) 1 1 fun p hp => ⟨1, by rw [exLongTest_parameters n p hp]; simp⟩

theorem log_weight_differentiable {A : ℕ → ℕ → Fin 1 → ℝ} {B : ℕ → ℕ → ℝ} (h : LogitModel cats P A B)
    (prior : Option (Matrix (Fin 1) (Fin 1) ℝ)) (row : ℕ → Cell) (hrow : ValidResponses cats row) :
    Differentiable ℝ fun θ => Real.log (scoreWeight P cats.length prior row θ) := by
  cases prior with
  | some cov => exact h.log_posterior_differentiable cov row hrow
  | none =>
    have hlc := h.logConcave
    have e : (fun θ => Real.log (scoreWeight P cats.length none row θ)) = fun θ =>
        Real.log (scoreWeight P cats.length (some 1) row θ) - mvnLogDensity 0 1 θ := by
      funext θ
      rw [hlc.log_weight 1 row hrow θ]
      simp [scoreWeight]
    rw [e]
    refine (h.log_posterior_differentiable 1 row hrow).sub ?_
    unfold mvnLogDensity
    simp only [dotProduct, Matrix.mulVec]
    fun_prop

open Classical in
/-- A 2PL test of `n` items with an optimiser that stops where the gradient of its objective is zero, if there is such a place. -/
noncomputable def exSearcher (n : ℕ) : FittedModel 1 :=
  { scorer := (exLongTest n).scorer 1
    cats := List.replicate n 2
    attrs := { covariance := some (some 1) }
    probs := fun θ => (exLongTest n).probs (List.ofFn θ)
    scales := []
    encode := fun _ => []
    meanSe := fun _ => []
    optimise := fun prior rows _ =>
      if h : ∃ t, ∃ F, (∀ s, scoreObjective ((exLongTest n).scorer 1) prior rows ((List.range 1).map s) = .ok (.fin (F s))) ∧
        Stationary 1 F fun _ => t then [h.choose] else []
    permutation := []
    draw := fun _ _ => 0 }

theorem exSearcher_stops (n : ℕ) (prior : Option (Matrix (Fin 1) (Fin 1) ℝ)) (hprior : ∀ cov, prior = some cov → cov.PosDef)
    (row : ℕ → Cell) (hrow : ValidResponses (List.replicate (n + 1) 2) row)
    (hmode : ∃ t, IsMode (scoreWeight (fun θ : Fin 1 → ℝ => tableProb ((exLongTest (n + 1)).probs (List.ofFn θ)))
      (List.replicate (n + 1) 2).length prior row) t) : ∃ t, StopsAt (exSearcher (n + 1)) prior row [] t := by
  have hlm := (exLongTest (n + 1)).logitModel (exLongTest_wf (n + 1)) 1
  have hm := (exLongTest (n + 1)).isScorer (exLongTest_wf (n + 1)) (Nat.succ_pos n) 1
  obtain ⟨t, ht⟩ := hmode
  obtain ⟨F, hF, hsum, -⟩ := C102_rows hm hlm.logConcave prior hprior 1 (fun _ => row) fun _ _ => hrow
  have hst : Stationary 1 F fun _ => t := by
    intro i hi
    obtain rfl : i = 0 := by omega
    have e : (fun θ => F (Function.update (fun _ => t) 0 θ)) = fun θ =>
        Real.log (scoreWeight (fun θ : Fin 1 → ℝ => tableProb ((exLongTest (n + 1)).probs (List.ofFn θ)))
          (List.replicate (n + 1) 2).length prior row θ) := by
      funext θ
      rw [hsum]
      simp [exLongTest]
    rw [e]
    have hd := (log_weight_differentiable hlm prior row hrow t).hasFDerivAt
    have hl : IsLocalMax (fun θ => Real.log (scoreWeight (fun θ : Fin 1 → ℝ => tableProb ((exLongTest (n + 1)).probs (List.ofFn θ)))
        (List.replicate (n + 1) 2).length prior row θ)) t :=
      Filter.Eventually.of_forall fun x => Real.log_le_log (hlm.logConcave.weight_pos _ _ hrow x) (ht x)
    have h0 := hl.hasFDerivAt_eq_zero hd
    rw [show fderiv ℝ _ t = 0 from h0] at hd
    exact hd
  have hex : ∃ t, ∃ F, (∀ s, scoreObjective ((exLongTest (n + 1)).scorer 1) prior (rowsOf 1 (List.replicate (n + 1) 2).length fun _ => row)
      ((List.range 1).map s) = .ok (.fin (F s))) ∧ Stationary 1 F fun _ => t := ⟨t, F, hF, hst⟩
  refine ⟨hex.choose, ?_, hex.choose_spec⟩
  exact dif_pos hex

/-- Some number of items gives respondents with scores between -2 and 2 maximum likelihood and MAP scores that are off by less than 1/10, with
a probability above 99/100. -/
example : ∃ n : ℕ, ∀ θ : Fin 1 → ℝ, |θ 0| ≤ 2 → ∀ method ∈ ["ML", "MAP"],
    chance (fun θ : Fin 1 → ℝ => tableProb ((exLongTest (n + 1)).probs (List.ofFn θ))) (List.replicate (n + 1) 2) θ
      (fun x => ¬ ∃ t, mlMapScores (exSearcher (n + 1)) method (rowsOf 1 (List.replicate (n + 1) 2).length fun _ => answersTo univ x) [] = .ok [t]
        ∧ |t 0 - θ 0| < 1 / 10) < 1 / 100 := by
  obtain ⟨n1, h1⟩ := C138_ml_scores 1 1 2 one_pos 2 (1 / 10) (1 / 100) (by norm_num) (by norm_num)
  obtain ⟨n2, h2⟩ := C138_map_scores 1 1 2 one_pos 1 Matrix.PosDef.one 2 (1 / 10) (1 / 100) (by norm_num) (by norm_num)
  have hlm := fun n => (exLongTest n).logitModel (exLongTest_wf n) 1
  have hm := fun n => (exLongTest (n + 1)).isScorer (exLongTest_wf (n + 1)) (Nat.succ_pos n) 1
  refine ⟨max n1 n2, fun θ hθ method hmethod => ?_⟩
  have hcard : max n1 n2 ≤ (univ : Finset (Fin (exSearcher (max n1 n2 + 1)).cats.length)).card := by
    rw [card_univ, Fintype.card_fin]
    exact (Nat.le_succ _).trans (List.length_replicate (n := max n1 n2 + 1) (a := 2)).ge
  rcases List.mem_cons.1 hmethod with rfl | hmethod
  · exact h1 (exSearcher _) _ _ _ (hm _) (hlm _) (exLongTest_telling _) univ [] ((le_max_left _ _).trans hcard)
      (fun x hx ht => exSearcher_stops _ none (by rintro _ ⟨⟩) _ (answersTo_valid _ hx) ht) θ hθ
  · rw [List.mem_singleton] at hmethod
    subst hmethod
    exact h2 (exSearcher _) _ _ _ (hm _) (hlm _) (exLongTest_telling _) (by simp [mapPrior, exSearcher, Matrix.PosDef.one]) univ []
      ((le_max_right _ _).trans hcard) (fun x hx => exSearcher_stops _ (some 1) (by rintro _ ⟨⟩; exact Matrix.PosDef.one) _ (answersTo_valid _ hx)
        (by obtain ⟨t, ht, -⟩ := C102_map (hlm _).logConcave 1 Matrix.PosDef.one _ (answersTo_valid univ hx); exact ⟨t, ht⟩)) θ hθ

end Irt
