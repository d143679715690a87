import Verif.Spec.Fisher
import Mathlib.Analysis.Calculus.Deriv.Mul
import Mathlib.Analysis.Calculus.Deriv.Pi
import Mathlib.Analysis.Calculus.LocalExtr.Basic
import Mathlib.Analysis.SpecialFunctions.Log.Deriv
import Mathlib.Algebra.BigOperators.Ring.Finset
import Mathlib.Algebra.Order.BigOperators.Ring.Finset
import Mathlib.Algebra.BigOperators.Field
import Mathlib.Algebra.Order.Chebyshev
import Mathlib.Analysis.Calculus.ContDiff.Operations

/-! # Expectations over answer patterns -/

namespace Irt
open Spec

variable {d C : ℕ} {ι : Type} [Fintype ι] [DecidableEq ι] {P : (Fin d → ℝ) → ι → Fin C → ℝ}

theorem expect_prod (t : Fin d → ℝ) (G : ι → Fin C → ℝ) :
    expect P t (fun x => ∏ j, G j (x j)) = ∏ j, ∑ c, P t j c * G j c := by
  rw [Finset.prod_univ_sum, Fintype.piFinset_univ]
  exact Finset.sum_congr rfl fun x _ => (Finset.prod_mul_distrib).symm

theorem expect_one (h : ∀ t j, ∑ c, P t j c = 1) (t : Fin d → ℝ) : ∑ x, patternProb P x t = 1 := by
  have := expect_prod (P := P) t fun _ _ => 1
  simpa [expect, h] using this

theorem expect_single (h : ∀ t j, ∑ c, P t j c = 1) (t : Fin d → ℝ) (j : ι) (g : Fin C → ℝ) :
    expect P t (fun x => g (x j)) = ∑ c, P t j c * g c := by
  have e := expect_prod (P := P) t fun i c => if i = j then g c else 1
  have h1 : ∀ x : ι → Fin C, (∏ i, if i = j then g (x i) else 1) = g (x j) := fun x => by simp
  have h2 : (∏ i, ∑ c, P t i c * (if i = j then g c else 1)) = ∑ c, P t j c * g c := by
    rw [Finset.prod_eq_single j]
    · simp
    · intro i _ hi
      simp [hi, h]
    · simp
  simpa only [h1, h2] using e

theorem expect_pair (h : ∀ t j, ∑ c, P t j c = 1) (t : Fin d → ℝ) (j j' : ι) (hj : j ≠ j') (g g' : Fin C → ℝ) :
    expect P t (fun x => g (x j) * g' (x j')) = (∑ c, P t j c * g c) * ∑ c, P t j' c * g' c := by
  have e := expect_prod (P := P) t fun i c => (if i = j then g c else 1) * (if i = j' then g' c else 1)
  have h1 : ∀ x : ι → Fin C, (∏ i, (if i = j then g (x i) else 1) * (if i = j' then g' (x i) else 1)) = g (x j) * g' (x j') :=
    fun x => by rw [Finset.prod_mul_distrib]; simp
  have h2 : (∏ i, ∑ c, P t i c * ((if i = j then g c else 1) * (if i = j' then g' c else 1)))
      = (∑ c, P t j c * g c) * ∑ c, P t j' c * g' c := by
    rw [Finset.prod_eq_mul j j' hj]
    · simp [hj, hj.symm]
    · intro i _ hi
      simp [hi.1, hi.2, h]
    · simp
    · simp
  simpa only [h1, h2] using e

theorem expect_sum {κ : Type} (s : Finset κ) (t : Fin d → ℝ) (F : κ → (ι → Fin C) → ℝ) :
    expect P t (fun x => ∑ a ∈ s, F a x) = ∑ a ∈ s, expect P t (F a) := by
  unfold expect
  simp only [Finset.mul_sum]
  rw [Finset.sum_comm]

/-- A sum of terms with mean zero, one per item: only products of terms of the same item remain. -/
theorem expect_product_of_sums (h : ∀ t j, ∑ c, P t j c = 1) (t : Fin d → ℝ) (g g' : ι → Fin C → ℝ)
    (hg : ∀ j, ∑ c, P t j c * g j c = 0) :
    expect P t (fun x => (∑ j, g j (x j)) * ∑ j, g' j (x j)) = ∑ j, ∑ c, P t j c * (g j c * g' j c) := by
  have e1 : (fun x : ι → Fin C => (∑ j, g j (x j)) * ∑ j, g' j (x j)) = fun x => ∑ j, ∑ j', g j (x j) * g' j' (x j') := by
    funext x; rw [Finset.sum_mul_sum]
  rw [e1, expect_sum]
  refine Finset.sum_congr rfl fun j _ => ?_
  rw [expect_sum, Finset.sum_eq_single j]
  · exact expect_single h t j fun c => g j c * g' j c
  · intro j' _ hj'
    rw [expect_pair h t j j' hj'.symm, hg, zero_mul]
  · simp

/-! ## Derivatives -/

/-- Derivative of a probability divided by the probability. -/
noncomputable def relSlope (P : (Fin d → ℝ) → ι → Fin C → ℝ) (t : Fin d → ℝ) (k : Fin d) (j : ι) (c : Fin C) : ℝ :=
  partialD (fun s => P s j c) t k / P t j c

theorem zero_slope {f : (Fin d → ℝ) → ℝ} (hf : ∀ t, 0 ≤ f t) (t : Fin d → ℝ) (k : Fin d) (h : f t = 0) : partialD f t k = 0 := by
  unfold partialD
  apply IsLocalMin.deriv_eq_zero
  refine Filter.Eventually.of_forall fun v => ?_
  show f (Function.update t k (t k)) ≤ f (Function.update t k v)
  rw [Function.update_eq_self, h]
  exact hf _

theorem mul_relSlope (hP : SmoothTest P) (t : Fin d → ℝ) (k : Fin d) (j : ι) (c : Fin C) :
    P t j c * relSlope P t k j c = partialD (fun s => P s j c) t k := by
  unfold relSlope
  by_cases h : P t j c = 0
  · rw [h, zero_mul, zero_slope (fun s => hP.nonneg s j c) t k h]
  · field_simp

theorem relSlope_mean (hP : SmoothTest P) (t : Fin d → ℝ) (k : Fin d) (j : ι) : ∑ c, P t j c * relSlope P t k j c = 0 := by
  simp only [mul_relSlope hP]
  unfold partialD
  rw [← deriv_fun_sum fun c _ => hP.diff t j c k]
  simp only [hP.sum, deriv_const]

theorem patternProb_nonneg (hP : SmoothTest P) (x : ι → Fin C) (t : Fin d → ℝ) : 0 ≤ patternProb P x t :=
  Finset.prod_nonneg fun j _ => hP.nonneg t j (x j)

theorem patternProb_slope (hP : SmoothTest P) (x : ι → Fin C) (t : Fin d → ℝ) (k : Fin d) :
    HasDerivAt (fun v => patternProb P x (Function.update t k v)) (patternProb P x t * ∑ j, relSlope P t k j (x j)) (t k) := by
  by_cases hz : patternProb P x t = 0
  · have hd : DifferentiableAt ℝ (fun v => patternProb P x (Function.update t k v)) (t k) := by
      unfold patternProb
      exact DifferentiableAt.fun_finset_prod fun j _ => hP.diff t j (x j) k
    have h0 := zero_slope (patternProb_nonneg hP x) t k hz
    rw [hz, zero_mul, ← h0]
    exact hd.hasDerivAt
  · have hne : ∀ j, P t j (x j) ≠ 0 := fun j hj => hz (Finset.prod_eq_zero (Finset.mem_univ j) hj)
    have h := HasDerivAt.fun_finsetProd (u := Finset.univ) fun j _ => (hP.diff t j (x j) k).hasDerivAt
    unfold patternProb
    refine h.congr_deriv ?_
    rw [Finset.mul_sum]
    refine Finset.sum_congr rfl fun j _ => ?_
    simp only [Function.update_eq_self, smul_eq_mul]
    rw [← Finset.prod_erase_mul _ _ (Finset.mem_univ j), mul_assoc, mul_relSlope hP]
    rfl

theorem score_eq (hP : SmoothTest P) (x : ι → Fin C) (t : Fin d → ℝ) (k : Fin d) (hz : patternProb P x t ≠ 0) :
    partialD (patternLogLik P x) t k = ∑ j, relSlope P t k j (x j) := by
  unfold partialD patternLogLik
  rw [((patternProb_slope hP x t k).log (by rw [Function.update_eq_self]; exact hz)).deriv, Function.update_eq_self,
    mul_div_cancel_left₀ _ hz]

theorem expect_congr {t : Fin d → ℝ} {F G : (ι → Fin C) → ℝ} (h : ∀ x, patternProb P x t ≠ 0 → F x = G x) :
    expect P t F = expect P t G := by
  refine Finset.sum_congr rfl fun x _ => ?_
  by_cases hz : patternProb P x t = 0
  · rw [hz, zero_mul, zero_mul]
  · rw [h x hz]

/-- The expected outer product is a sum over items. -/
theorem expectedOuter_items (hP : SmoothTest P) (t : Fin d → ℝ) (k k' : Fin d) :
    expectedOuter P t k k' = ∑ j, ∑ c, P t j c * (relSlope P t k j c * relSlope P t k' j c) := by
  rw [← expect_product_of_sums hP.sum t _ _ fun j => relSlope_mean hP t k j]
  exact expect_congr fun x hz => by rw [score_eq hP x t k hz, score_eq hP x t k' hz]

/-- The derivative of an expectation is its covariance with the gradient of the log likelihood. -/
theorem expect_slope (hP : SmoothTest P) (t : Fin d → ℝ) (k : Fin d) (T : (ι → Fin C) → ℝ) :
    partialD (fun s => expect P s T) t k
      = ∑ x, patternProb P x t * ((T x - expect P t T) * ∑ j, relSlope P t k j (x j)) := by
  have h1 : ∀ T : (ι → Fin C) → ℝ, partialD (fun s => expect P s T) t k
      = ∑ x, patternProb P x t * (∑ j, relSlope P t k j (x j)) * T x := by
    intro T
    unfold partialD expect
    exact (HasDerivAt.fun_sum fun x _ => (patternProb_slope hP x t k).mul_const (T x)).deriv
  have h2 := h1 fun _ => 1
  have h3 : ∀ s, expect P s (fun _ => (1 : ℝ)) = 1 := fun s => by simpa [expect] using expect_one hP.sum s
  have h4 : partialD (fun s => expect P s (fun _ => (1 : ℝ))) t k = 0 := by
    simp only [h3]; unfold partialD; simp
  rw [h4] at h2
  rw [h1, ← sub_zero (∑ x, patternProb P x t * (∑ j, relSlope P t k j (x j)) * T x), ← mul_zero (expect P t T), h2, Finset.mul_sum,
    ← Finset.sum_sub_distrib]
  refine Finset.sum_congr rfl fun x _ => ?_
  ring

theorem cauchy_schwarz (hP : SmoothTest P) (t : Fin d → ℝ) (F G : (ι → Fin C) → ℝ) :
    (∑ x, patternProb P x t * (F x * G x)) ^ 2 ≤ expect P t (fun x => F x ^ 2) * expect P t (fun x => G x ^ 2) := by
  have h := Finset.sum_mul_sq_le_sq_mul_sq Finset.univ (fun x => Real.sqrt (patternProb P x t) * F x)
    fun x => Real.sqrt (patternProb P x t) * G x
  have e : ∀ x (u v : ℝ), Real.sqrt (patternProb P x t) * u * (Real.sqrt (patternProb P x t) * v) = patternProb P x t * (u * v) := by
    intro x u v
    have := Real.mul_self_sqrt (patternProb_nonneg hP x t)
    calc _ = Real.sqrt (patternProb P x t) * Real.sqrt (patternProb P x t) * (u * v) := by ring
      _ = _ := by rw [this]
  simp only [sq (_ * _), e] at h
  simpa only [expect, sq] using h

/-- Cramér-Rao. -/
theorem cramer_rao (hP : SmoothTest P) (t : Fin d → ℝ) (k : Fin d) (T : (ι → Fin C) → ℝ) :
    partialD (fun s => expect P s T) t k ^ 2 ≤ variance P t T * expectedOuter P t k k := by
  rw [expect_slope hP]
  refine (cauchy_schwarz hP t _ _).trans (le_of_eq ?_)
  unfold variance
  congr 1
  exact expect_congr fun x hz => by rw [score_eq hP x t k hz, sq]

/-- The smallest variance of a locally unbiased statistic is the reciprocal of the information. -/
theorem least_variance (hP : SmoothTest P) (t : Fin d → ℝ) (k : Fin d) (hI : expectedOuter P t k k ≠ 0) :
    IsLeast (unbiasedVariances P t k) (1 / expectedOuter P t k k) := by
  have hsq : expectedOuter P t k k = expect P t fun x => (∑ j, relSlope P t k j (x j)) ^ 2 :=
    expect_congr fun x hz => by rw [score_eq hP x t k hz, sq]
  have hI0 : 0 < expectedOuter P t k k := by
    refine lt_of_le_of_ne ?_ hI.symm
    rw [hsq]
    exact Finset.sum_nonneg fun x _ => mul_nonneg (patternProb_nonneg hP x t) (sq_nonneg _)
  constructor
  · set I := expectedOuter P t k k with hIdef
    have hmean : expect P t (fun x => ∑ j, relSlope P t k j (x j)) = 0 := by
      rw [expect_sum]
      refine Finset.sum_eq_zero fun j _ => ?_
      rw [expect_single hP.sum t j]
      exact relSlope_mean hP t k j
    have hT : expect P t (fun x => t k + (∑ j, relSlope P t k j (x j)) / I) = t k := by
      have h1 := expect_one hP.sum t
      unfold expect at hmean ⊢
      simp only [mul_add, ← mul_div_assoc]
      rw [Finset.sum_add_distrib, ← Finset.sum_mul, h1, ← Finset.sum_div, hmean]
      simp
    refine ⟨fun x => t k + (∑ j, relSlope P t k j (x j)) / I, ⟨hT, ?_⟩, ?_⟩
    · rw [expect_slope hP, hT]
      have : ∀ x, patternProb P x t * ((t k + (∑ j, relSlope P t k j (x j)) / I - t k) * ∑ j, relSlope P t k j (x j))
          = patternProb P x t * (∑ j, relSlope P t k j (x j)) ^ 2 / I := fun x => by ring
      simp only [this]
      rw [← Finset.sum_div]
      change expect P t (fun x => (∑ j, relSlope P t k j (x j)) ^ 2) / I = 1
      rw [← hsq, div_self hI]
    · unfold variance
      rw [hT]
      unfold expect
      have : ∀ x, patternProb P x t * (t k + (∑ j, relSlope P t k j (x j)) / I - t k) ^ 2
          = patternProb P x t * (∑ j, relSlope P t k j (x j)) ^ 2 / I ^ 2 := fun x => by ring
      simp only [this]
      rw [← Finset.sum_div]
      change 1 / I = expect P t (fun x => (∑ j, relSlope P t k j (x j)) ^ 2) / I ^ 2
      rw [← hsq]
      field_simp
  · rintro v ⟨T, hT, rfl⟩
    have h := cramer_rao hP t k T
    rw [hT.2, one_pow] at h
    rw [div_le_iff₀ hI0]
    exact h

/-! ## Second derivatives -/

theorem partialD_fderiv {f : (Fin d → ℝ) → ℝ} {t : Fin d → ℝ} (hf : DifferentiableAt ℝ f t) (k : Fin d) :
    HasDerivAt (fun v => f (Function.update t k v)) (fderiv ℝ f t (Pi.single k 1)) (t k) := by
  have h : HasFDerivAt f (fderiv ℝ f t) (Function.update t k (t k)) := by rw [Function.update_eq_self]; exact hf.hasFDerivAt
  exact h.comp_hasDerivAt (t k) (hasDerivAt_update t k (t k))

theorem partialD_contDiff {f : (Fin d → ℝ) → ℝ} (hf : ContDiff ℝ 2 f) (k : Fin d) : ContDiff ℝ 1 fun s => partialD f s k := by
  have e : (fun s => partialD f s k) = fun s => fderiv ℝ f s (Pi.single k 1) := by
    funext s
    exact (partialD_fderiv (hf.differentiable (by norm_num) s) k).deriv
  rw [e]
  exact (hf.fderiv_right (m := 1) (by norm_num)).clm_apply contDiff_const

theorem partialD_hasDerivAt {f : (Fin d → ℝ) → ℝ} (hf : ContDiff ℝ 1 f) (t : Fin d → ℝ) (k : Fin d) :
    HasDerivAt (fun v => f (Function.update t k v)) (partialD f t k) (t k) := by
  have h := partialD_fderiv (hf.differentiable (by norm_num) t) k
  unfold partialD
  rw [h.deriv]
  exact h

/-- Second derivatives of the logarithm of a positive function. -/
theorem log_second {L : (Fin d → ℝ) → ℝ} (hL : ContDiff ℝ 2 L) (hpos : ∀ t, 0 < L t) (t : Fin d → ℝ) (k k' : Fin d) :
    L t * partialD (fun s => partialD (fun u => Real.log (L u)) s k) t k'
      = partialD (fun s => partialD L s k) t k' - L t * (partialD (fun u => Real.log (L u)) t k * partialD (fun u => Real.log (L u)) t k') := by
  have h1 : ∀ s k, partialD (fun u => Real.log (L u)) s k = partialD L s k / L s := by
    intro s k
    have h := (partialD_hasDerivAt (hL.of_le (by norm_num)) s k).log (by rw [Function.update_eq_self]; exact (hpos s).ne')
    unfold partialD at h ⊢
    rw [h.deriv, Function.update_eq_self]
  have h2 := (partialD_hasDerivAt (partialD_contDiff hL k) t k').div (partialD_hasDerivAt (hL.of_le (by norm_num)) t k')
    (by rw [Function.update_eq_self]; exact (hpos t).ne')
  have h3 : partialD (fun s => partialD (fun u => Real.log (L u)) s k) t k'
      = (partialD (fun s => partialD L s k) t k' * L t - partialD L t k * partialD L t k') / L t ^ 2 := by
    simp only [h1]
    have := h2.deriv
    simp only [Function.update_eq_self] at this
    exact this
  rw [h3, h1, h1]
  have := (hpos t).ne'
  field_simp

theorem expectedHessian_eq (hP : SmoothTest P) (hC : ∀ j c, ContDiff ℝ 2 fun t => P t j c)
    (hpos : ∀ j c, (∀ t, 0 < P t j c) ∨ ∀ t, P t j c = 0) (t : Fin d → ℝ) : expectedHessian P t = -expectedOuter P t := by
  ext k k'
  have hL : ∀ x : ι → Fin C, ContDiff ℝ 2 (patternProb P x) := by
    intro x
    have : patternProb P x = fun t => ∏ j, P t j (x j) := rfl
    rw [this]
    exact contDiff_prod fun j _ => hC j (x j)
  have hcase : ∀ x : ι → Fin C, (∀ t, 0 < patternProb P x t) ∨ ∀ t, patternProb P x t = 0 := by
    intro x
    by_cases h : ∀ j, ∀ t, 0 < P t j (x j)
    · exact Or.inl fun t => Finset.prod_pos fun j _ => h j t
    · push Not at h
      obtain ⟨j, s, hs⟩ := h
      refine Or.inr fun t => Finset.prod_eq_zero (Finset.mem_univ j) ?_
      rcases hpos j (x j) with h' | h'
      · exact absurd (h' s) (not_lt.2 hs)
      · exact h' t
  have hterm : ∀ x : ι → Fin C, patternProb P x t * partialD (fun s => partialD (patternLogLik P x) s k) t k'
      = partialD (fun s => partialD (patternProb P x) s k) t k'
        - patternProb P x t * (partialD (patternLogLik P x) t k * partialD (patternLogLik P x) t k') := by
    intro x
    rcases hcase x with h | h
    · exact log_second (hL x) h t k k'
    · have h0 : patternProb P x = fun _ => 0 := funext h
      rw [h0]
      simp [partialD]
  have hsum : ∑ x, partialD (fun s => partialD (patternProb P x) s k) t k' = 0 := by
    have e1 : ∀ s, ∑ x, partialD (patternProb P x) s k = 0 := by
      intro s
      have h := (HasDerivAt.fun_sum (u := Finset.univ) fun x _ => partialD_hasDerivAt ((hL x).of_le (by norm_num)) s k).deriv
      rw [← h]
      simp only [expect_one hP.sum]
      simp
    have h := (HasDerivAt.fun_sum (u := Finset.univ) fun x _ => partialD_hasDerivAt (partialD_contDiff (hL x) k) t k').deriv
    rw [← h]
    simp only [e1]
    simp
  simp only [expectedHessian, expectedOuter, Matrix.of_apply, Matrix.neg_apply, expect, hterm, Finset.sum_sub_distrib, hsum, zero_sub]

end Irt
