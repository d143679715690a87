import Verif.Props.RQSpline
import Mathlib.MeasureTheory.Function.JacobianOneDim
import Mathlib.Probability.Distributions.Gaussian.Real

/-!
# C96: the density of a normalizing flow

`q z = exp (logDensity z)` is the density of the base distribution.
-/

namespace Irt

open MeasureTheory Set

/-- The log density that the flow assigns to a value of variable `j`. -/
noncomputable def RQSpline.logDensityAt (s : RQSpline) (ld : ℝ → ℝ) (j : ℕ) (x : ℝ) : ℝ :=
  ld (s.at false j x).1 + (s.at false j x).2

theorem flatTensor_zipWith (N K : ℕ) (a b : ℕ → ℕ → ℝ) (op : ℝ → ℝ → ℝ) :
    List.zipWith op (flatTensor N K a) (flatTensor N K b) = flatTensor N K fun i j => op (a i j) (b i j) := by
  unfold flatTensor
  induction List.range N with
  | nil => rfl
  | cons i is ih =>
    rw [List.flatMap_cons, List.flatMap_cons, List.flatMap_cons, List.zipWith_append (by simp), ih]
    congr 1
    rw [List.zipWith_map_left, List.zipWith_map_right]
    simp [List.zipWith_self]

theorem flow_logProb (s : RQSpline) (hs : s.WF) (ld : ℝ → ℝ) (N : ℕ) (x : ℕ → ℕ → ℝ) :
    NeuralSplineFlow.logProb s ld (rowsOf N s.uw.length x)
      = .ok (flatTensor N s.uw.length fun i j => s.logDensityAt ld j (x i j)) := by
  unfold NeuralSplineFlow.logProb
  rw [s.forward_eq hs false]
  simp only [bind, Except.bind, pure, Except.pure]
  rw [flatTensor_zipWith]
  rfl

/-- The change of variables on an interval on which the spline has the derivative `exp l`. -/
theorem flow_change {f l ld : ℝ → ℝ} {S : Set ℝ} (hS : MeasurableSet S) (hinj : Function.Injective f)
    (hd : ∀ x ∈ S, HasDerivAt f (Real.exp (l x)) x) :
    ∫ x in S, Real.exp (ld (f x) + l x) = ∫ z in f '' S, Real.exp (ld z) := by
  rw [integral_image_eq_integral_abs_deriv_smul hS (fun x hx => (hd x hx).hasDerivWithinAt) hinj.injOn]
  refine setIntegral_congr_fun hS fun x _ => ?_
  simp only [abs_of_pos (Real.exp_pos _), smul_eq_mul]
  rw [Real.exp_add, mul_comm]

theorem image_Ioo_of {f g : ℝ → ℝ} (hf : StrictMono f) (hg : ∀ y, f (g y) = y) (a b : ℝ) : f '' Ioo a b = Ioo (f a) (f b) := by
  ext y
  constructor
  · rintro ⟨x, ⟨h1, h2⟩, rfl⟩
    exact ⟨hf h1, hf h2⟩
  · rintro ⟨h1, h2⟩
    refine ⟨g y, ⟨?_, ?_⟩, hg y⟩
    · rw [← hf.lt_iff_lt, hg]; exact h1
    · rw [← hf.lt_iff_lt, hg]; exact h2

theorem image_Iio_of {f g : ℝ → ℝ} (hf : StrictMono f) (hg : ∀ y, f (g y) = y) (a : ℝ) : f '' Iio a = Iio (f a) := by
  ext y
  constructor
  · rintro ⟨x, h1, rfl⟩
    exact hf h1
  · intro h1
    refine ⟨g y, ?_, hg y⟩
    show g y < a
    rw [← hf.lt_iff_lt, hg]; exact h1

theorem image_Ioi_of {f g : ℝ → ℝ} (hf : StrictMono f) (hg : ∀ y, f (g y) = y) (a : ℝ) : f '' Ioi a = Ioi (f a) := by
  ext y
  constructor
  · rintro ⟨x, h1, rfl⟩
    exact hf h1
  · intro h1
    refine ⟨g y, ?_, hg y⟩
    show a < g y
    rw [← hf.lt_iff_lt, hg]; exact h1

/-- C96, within the bounds of the spline: the exponential of `log_prob` integrates, over any interval of observed values, to the
probability that the base distribution gives to the transformed interval, which is also the probability that a sample drawn
from the flow lies in the interval. Missing: values outside the bounds, for which this is false. -/
theorem C96_inside_partial (s : RQSpline) (hs : s.WF) (ld : ℝ → ℝ) :
    ∃ f g lp : ℕ → ℝ → ℝ,
      (∀ (N : ℕ) (x : ℕ → ℕ → ℝ),
        NeuralSplineFlow.forward s (rowsOf N s.uw.length x) = .ok (flatTensor N s.uw.length fun i j => f j (x i j)) ∧
        NeuralSplineFlow.sampleObs s (rowsOf N s.uw.length x) = .ok (flatTensor N s.uw.length fun i j => g j (x i j)) ∧
        NeuralSplineFlow.logProb s ld (rowsOf N s.uw.length x) = .ok (flatTensor N s.uw.length fun i j => lp j (x i j))) ∧
      ∀ j < s.uw.length, ∀ a b, s.loIn ≤ a → b ≤ s.hiIn →
        (∫ x in Ioo a b, Real.exp (lp j x)) = (∫ z in Ioo (f j a) (f j b), Real.exp (ld z)) ∧
        (∫ x in Ioo a b, Real.exp (lp j x)) = ∫ z in {z | g j z ∈ Ioo a b}, Real.exp (ld z) := by
  refine ⟨fun j x => (s.at false j x).1, fun j x => (s.at true j x).1, s.logDensityAt ld, fun N x => ⟨?_, ?_, flow_logProb s hs ld N x⟩,
    fun j hj a b ha hb => ?_⟩
  · unfold NeuralSplineFlow.forward
    rw [s.forward_eq hs false]; rfl
  · unfold NeuralSplineFlow.sampleObs
    rw [s.forward_eq hs true]; rfl
  · have G := s.glued hs hj
    have hfg : ∀ y, (s.at false j (s.at true j y).1).1 = y := fun y => G.f_g y
    have h1 : (∫ x in Ioo a b, Real.exp (s.logDensityAt ld j x))
        = ∫ z in Ioo (s.at false j a).1 (s.at false j b).1, Real.exp (ld z) := by
      unfold RQSpline.logDensityAt
      rw [flow_change (f := fun x => (s.at false j x).1) (l := fun x => (s.at false j x).2) measurableSet_Ioo G.strictMono.injective,
        image_Ioo_of (f := fun x => (s.at false j x).1) (g := fun y => (s.at true j y).1) G.strictMono hfg]
      intro x hx
      exact G.hasDerivAt x (by rw [s.X_zero hs hj]; exact ha.trans_lt hx.1) (by rw [s.X_last hs hj]; exact hx.2.trans_le hb)
    refine ⟨h1, h1.trans ?_⟩
    have : {z | (s.at true j z).1 ∈ Ioo a b} = Ioo (s.at false j a).1 (s.at false j b).1 := by
      ext z
      simp only [mem_ofPred_eq, mem_Ioo]
      have hm := G.strictMono
      constructor
      · rintro ⟨k1, k2⟩
        have e1 := hm k1
        have e2 := hm k2
        simp only [hfg] at e1 e2
        exact ⟨e1, e2⟩
      · rintro ⟨k1, k2⟩
        constructor
        · rw [← hm.lt_iff_lt]; simpa only [hfg] using k1
        · rw [← hm.lt_iff_lt]; simpa only [hfg] using k2
    rw [this]

/-- The line splits into two tails and an interval. -/
theorem integral_three {h : ℝ → ℝ} {a b : ℝ} (hab : a < b) (n1 : IntegrableOn h (Iio a)) (n2 : IntegrableOn h (Ioo a b))
    (n3 : IntegrableOn h (Ioi b)) :
    Integrable h ∧ ∫ x, h x = (∫ x in Iio a, h x) + (∫ x in Ioo a b, h x) + ∫ x in Ioi b, h x := by
  have n2' : IntegrableOn h (Icc a b) := (integrableOn_Icc_iff_integrableOn_Ioo (μ := volume)).mpr n2
  have n12 : IntegrableOn h (Iic b) := by
    rw [← Iio_union_Icc_eq_Iic hab.le]
    exact n1.union n2'
  constructor
  · rw [← integrableOn_univ, ← Iic_union_Ioi (a := b)]
    exact n12.union n3
  · rw [← setIntegral_univ, ← Iic_union_Ioi (a := b),
      setIntegral_union (Iic_disjoint_Ioi le_rfl) measurableSet_Ioi n12 n3, ← Iio_union_Icc_eq_Iic hab.le,
      setIntegral_union _ measurableSet_Icc n1 n2', integral_Icc_eq_integral_Ioo]
    rw [Set.disjoint_left]
    intro x h1 h2
    exact absurd h2.1 (not_le.mpr h1)

/-- The same on a set on which the spline has slope `c` and reports log determinant zero. -/
theorem flow_tail {f : ℝ → ℝ} {q : ℝ → ℝ} {S : Set ℝ} {c : ℝ} (hc : 0 < c) (hS : MeasurableSet S)
    (hinj : Function.Injective f) (hd : ∀ x ∈ S, HasDerivAt f c x) :
    ∫ x in S, q (f x) = (1 / c) * ∫ z in f '' S, q z := by
  rw [integral_image_eq_integral_abs_deriv_smul hS (fun x hx => (hd x hx).hasDerivWithinAt) hinj.injOn]
  simp only [abs_of_pos hc, smul_eq_mul]
  rw [integral_const_mul, ← mul_assoc, one_div, inv_mul_cancel₀ hc.ne', one_mul]

/-- C96, all values: the exponential of `log_prob` integrates to the base probability of the range of the spline, plus the base
probability of each tail divided by the slope that the spline has there. -/
theorem C96_total (s : RQSpline) (hs : s.WF) (ld : ℝ → ℝ) (hq : Integrable fun z => Real.exp (ld z)) :
    ∃ lp : ℕ → ℝ → ℝ,
      (∀ (N : ℕ) (x : ℕ → ℕ → ℝ),
        NeuralSplineFlow.logProb s ld (rowsOf N s.uw.length x) = .ok (flatTensor N s.uw.length fun i j => lp j (x i j))) ∧
      ∀ j < s.uw.length, Integrable (fun x => Real.exp (lp j x)) ∧
        ∫ x, Real.exp (lp j x) = (1 / s.outLo) * (∫ z in Iio s.loOut, Real.exp (ld z))
          + (∫ z in Ioo s.loOut s.hiOut, Real.exp (ld z)) + (1 / s.outHi) * ∫ z in Ioi s.hiOut, Real.exp (ld z) := by
  refine ⟨s.logDensityAt ld, flow_logProb s hs ld, fun j hj => ?_⟩
  have G := s.glued hs hj
  have hfg : ∀ y, (s.at false j (s.at true j y).1).1 = y := fun y => G.f_g y
  have hX0 := s.X_zero hs hj
  have hXn := s.X_last hs hj
  have hY0 := s.Y_zero hs hj
  have hYn := s.Y_last hs hj
  have hlt : s.loIn < s.hiIn := by
    have := knots_lt (s.X j) s.bins G.knots.hX 0 s.bins G.knots.pos le_rfl
    rwa [hX0, hXn] at this
  set F : ℝ → ℝ := fun x => (s.at false j x).1 with hF
  have hm : StrictMono F := G.strictMono
  have hF0 : F s.loIn = s.loOut := by
    have := G.f_knot (k := 0) (Nat.zero_le _)
    rwa [hX0, hY0] at this
  have hFn : F s.hiIn = s.hiOut := by
    have := G.f_knot (k := s.bins) le_rfl
    rwa [hXn, hYn] at this
  have i1 : F '' Iio s.loIn = Iio s.loOut := by
    rw [image_Iio_of (g := fun y => (s.at true j y).1) hm hfg, hF0]
  have i2 : F '' Ioo s.loIn s.hiIn = Ioo s.loOut s.hiOut := by
    rw [image_Ioo_of (g := fun y => (s.at true j y).1) hm hfg, hF0, hFn]
  have i3 : F '' Ioi s.hiIn = Ioi s.hiOut := by
    rw [image_Ioi_of (g := fun y => (s.at true j y).1) hm hfg, hFn]
  have d1 : ∀ x ∈ Iio s.loIn, HasDerivAt F s.outLo x := fun x hx => (G.deriv_lo x (by rw [hX0]; exact hx)).2
  have d3 : ∀ x ∈ Ioi s.hiIn, HasDerivAt F s.outHi x := fun x hx => (G.deriv_hi x (by rw [hXn]; exact hx)).2
  have l1 : ∀ x ∈ Iio s.loIn, (s.at false j x).2 = 0 := fun x hx => (G.deriv_lo x (by rw [hX0]; exact hx)).1
  have l3 : ∀ x ∈ Ioi s.hiIn, (s.at false j x).2 = 0 := fun x hx => (G.deriv_hi x (by rw [hXn]; exact hx)).1
  have d2 : ∀ x ∈ Ioo s.loIn s.hiIn, HasDerivAt F (Real.exp (s.at false j x).2) x := fun x hx =>
    G.hasDerivAt x (by rw [hX0]; exact hx.1) (by rw [hXn]; exact hx.2)
  have e1 : EqOn (fun x => Real.exp (s.logDensityAt ld j x)) (fun x => Real.exp (ld (F x))) (Iio s.loIn) := by
    intro x hx
    simp only [RQSpline.logDensityAt, l1 x hx, add_zero, hF]
  have e3 : EqOn (fun x => Real.exp (s.logDensityAt ld j x)) (fun x => Real.exp (ld (F x))) (Ioi s.hiIn) := by
    intro x hx
    simp only [RQSpline.logDensityAt, l3 x hx, add_zero, hF]
  have v1 : ∫ x in Iio s.loIn, Real.exp (s.logDensityAt ld j x) = (1 / s.outLo) * ∫ z in Iio s.loOut, Real.exp (ld z) := by
    rw [setIntegral_congr_fun measurableSet_Iio e1, ← i1]
    exact flow_tail (q := fun z => Real.exp (ld z)) G.ha measurableSet_Iio hm.injective d1
  have v3 : ∫ x in Ioi s.hiIn, Real.exp (s.logDensityAt ld j x) = (1 / s.outHi) * ∫ z in Ioi s.hiOut, Real.exp (ld z) := by
    rw [setIntegral_congr_fun measurableSet_Ioi e3, ← i3]
    exact flow_tail (q := fun z => Real.exp (ld z)) G.hb measurableSet_Ioi hm.injective d3
  have v2 : ∫ x in Ioo s.loIn s.hiIn, Real.exp (s.logDensityAt ld j x) = ∫ z in Ioo s.loOut s.hiOut, Real.exp (ld z) := by
    rw [← i2]
    exact flow_change (f := F) (l := fun x => (s.at false j x).2) measurableSet_Ioo hm.injective d2
  have n1 : IntegrableOn (fun x => Real.exp (s.logDensityAt ld j x)) (Iio s.loIn) := by
    rw [integrableOn_congr_fun e1 measurableSet_Iio]
    have := (integrableOn_image_iff_integrableOn_abs_deriv_smul measurableSet_Iio
      (fun x hx => (d1 x hx).hasDerivWithinAt) hm.injective.injOn (fun z => Real.exp (ld z))).mp hq.integrableOn
    simp only [smul_eq_mul] at this
    have h2 := this.const_mul (|s.outLo|)⁻¹
    refine h2.congr (Filter.Eventually.of_forall fun x => ?_)
    have : |s.outLo| ≠ 0 := (abs_pos.mpr G.ha.ne').ne'
    simp only []
    rw [← mul_assoc, inv_mul_cancel₀ this, one_mul]
  have n3 : IntegrableOn (fun x => Real.exp (s.logDensityAt ld j x)) (Ioi s.hiIn) := by
    rw [integrableOn_congr_fun e3 measurableSet_Ioi]
    have := (integrableOn_image_iff_integrableOn_abs_deriv_smul measurableSet_Ioi
      (fun x hx => (d3 x hx).hasDerivWithinAt) hm.injective.injOn (fun z => Real.exp (ld z))).mp hq.integrableOn
    simp only [smul_eq_mul] at this
    have h2 := this.const_mul (|s.outHi|)⁻¹
    refine h2.congr (Filter.Eventually.of_forall fun x => ?_)
    have : |s.outHi| ≠ 0 := (abs_pos.mpr G.hb.ne').ne'
    simp only []
    rw [← mul_assoc, inv_mul_cancel₀ this, one_mul]
  have n2 : IntegrableOn (fun x => Real.exp (s.logDensityAt ld j x)) (Ioo s.loIn s.hiIn) := by
    have := (integrableOn_image_iff_integrableOn_abs_deriv_smul measurableSet_Ioo
      (fun x hx => (d2 x hx).hasDerivWithinAt) hm.injective.injOn (fun z => Real.exp (ld z))).mp hq.integrableOn
    refine this.congr (Filter.Eventually.of_forall fun x => ?_)
    simp only [abs_of_pos (Real.exp_pos _), smul_eq_mul, RQSpline.logDensityAt, hF]
    rw [Real.exp_add, mul_comm]
  obtain ⟨h1, h2⟩ := integral_three hlt n1 n2 n3
  exact ⟨h1, by rw [h2, v1, v2, v3]⟩

/-- C96, when the spline has slope one in both tails: `log_prob` is the log of a probability density. -/
theorem C96_density (s : RQSpline) (hs : s.WF) (ld : ℝ → ℝ) (hlo : s.outLo = 1) (hhi : s.outHi = 1)
    (hq : Integrable fun z => Real.exp (ld z)) (h1 : ∫ z, Real.exp (ld z) = 1) :
    ∃ lp : ℕ → ℝ → ℝ,
      (∀ (N : ℕ) (x : ℕ → ℕ → ℝ),
        NeuralSplineFlow.logProb s ld (rowsOf N s.uw.length x) = .ok (flatTensor N s.uw.length fun i j => lp j (x i j))) ∧
      ∀ j < s.uw.length, Integrable (fun x => Real.exp (lp j x)) ∧ ∫ x, Real.exp (lp j x) = 1 := by
  obtain ⟨lp, h, ht⟩ := C96_total s hs ld hq
  refine ⟨lp, h, fun j hj => ⟨(ht j hj).1, ?_⟩⟩
  rw [(ht j hj).2, hlo, hhi, div_one, one_mul, one_mul, ← h1]
  have hlt : s.loOut < s.hiOut := by
    have G := s.glued hs hj
    have := knots_lt (s.Y j) s.bins G.knots.hY 0 s.bins G.knots.pos le_rfl
    rwa [s.Y_zero hs hj, s.Y_last hs hj] at this
  exact (integral_three hlt hq.integrableOn hq.integrableOn hq.integrableOn).2.symm

/-- The log density of the standard normal base distribution. -/
noncomputable def stdNormalLogDensity (z : ℝ) : ℝ := Real.log (ProbabilityTheory.gaussianPDFReal 0 1 z)

theorem exp_stdNormal (z : ℝ) : Real.exp (stdNormalLogDensity z) = ProbabilityTheory.gaussianPDFReal 0 1 z :=
  Real.exp_log (ProbabilityTheory.gaussianPDFReal_pos 0 1 z one_ne_zero)

theorem stdNormal_facts : (Integrable fun z => Real.exp (stdNormalLogDensity z)) ∧ ∫ z, Real.exp (stdNormalLogDensity z) = 1 := by
  have : (fun z => Real.exp (stdNormalLogDensity z)) = ProbabilityTheory.gaussianPDFReal 0 1 := funext exp_stdNormal
  rw [this]
  exact ⟨ProbabilityTheory.integrable_gaussianPDFReal 0 1, ProbabilityTheory.integral_gaussianPDFReal_eq_one 0 one_ne_zero⟩

/-- A spline with equal bounds for the inputs and the outputs has slope one in its tails. -/
example : ∃ s, RQSpline.create 2 50 (-5.5) 5.5 (-5.5) 5.5 0.001 0.001 0.001 = .ok s ∧ s.WF ∧ s.outLo = 1 ∧ s.outHi = 1 := by
  refine ⟨_, if_neg (by norm_num), (C21_reachable 2 50 (-5.5) 5.5 (-5.5) 5.5 0.001 0.001 0.001 _ _ false
    (by norm_num) (by norm_num) (by norm_num) (by norm_num) (by norm_num) (by norm_num) (by norm_num)
    (by norm_num) (by norm_num) (if_neg (by norm_num)) ⟨rfl, rfl, rfl, rfl, fun _ => ⟨rfl, rfl⟩⟩
    (by simp)).1, ?_, ?_⟩ <;> norm_num

/-- C96 in full: for every flow, every base density, `log_prob` is the log of a probability density. -/
def C96_claim : Prop :=
  ∀ s : RQSpline, s.WF → ∀ ld : ℝ → ℝ, (Integrable fun z => Real.exp (ld z)) → ∫ z, Real.exp (ld z) = 1 →
    ∀ lp : ℝ → ℝ, (∀ x, NeuralSplineFlow.logProb s ld [[x]] = .ok [lp x]) → ∫ x, Real.exp (lp x) = 1

/-- C96 is false: with the default spline of `Flow` and a standard normal base distribution, the exponential of `log_prob`
integrates to more than one. -/
theorem C96_false : ¬ C96_claim := by
  intro h
  obtain ⟨s, hc, hs, hv⟩ : ∃ s, RQSpline.create 1 50 (-5.5) 5.5 (-3) 3 0.001 0.001 0.001 = .ok s ∧ s.WF ∧
      s.uw.length = 1 := by
    refine ⟨_, if_neg (by norm_num), C21_reachable 1 50 (-5.5) 5.5 (-3) 3 0.001 0.001 0.001 _ _ false
      (by norm_num) (by norm_num) (by norm_num) (by norm_num) (by norm_num) (by norm_num) (by norm_num)
      (by norm_num) (by norm_num) (if_neg (by norm_num)) ⟨rfl, rfl, rfl, rfl, fun _ => ⟨rfl, rfl⟩⟩
      (by simp)⟩
  obtain ⟨hq, h1⟩ := stdNormal_facts
  obtain ⟨lp, hl, ht⟩ := C96_total s hs stdNormalLogDensity hq
  rw [hv] at hl ht
  unfold RQSpline.create at hc
  rw [if_neg (by norm_num)] at hc
  simp only [Except.ok.injEq] at hc
  have hlo : s.outLo = 6 / 11 := by rw [← hc]; norm_num
  have hhi : s.outHi = 6 / 11 := by rw [← hc]; norm_num
  have ho : s.hiOut = 3 := by rw [← hc]
  have hl3 : s.loOut = -3 := by rw [← hc]
  have e := h s hs stdNormalLogDensity hq h1 (lp 0) fun x => by
    simpa [rowsOf, flatTensor] using hl 1 fun _ _ => x
  rw [(ht 0 (by norm_num)).2, hlo, hhi, ho, hl3] at e
  have hsplit := (integral_three (show (-3 : ℝ) < 3 by norm_num) hq.integrableOn hq.integrableOn hq.integrableOn).2
  have p1 : 0 ≤ ∫ z in Iio (-3 : ℝ), Real.exp (stdNormalLogDensity z) := integral_nonneg fun z => (Real.exp_pos _).le
  have p3 : 0 < ∫ z in Ioi (3 : ℝ), Real.exp (stdNormalLogDensity z) := by
    rw [setIntegral_pos_iff_support_of_nonneg_ae (Filter.Eventually.of_forall fun z => (Real.exp_pos _).le) hq.integrableOn]
    have : Function.support (fun z => Real.exp (stdNormalLogDensity z)) = univ :=
      Function.support_eq_univ fun z => (Real.exp_pos _).ne'
    rw [this, univ_inter, Real.volume_Ioi]
    exact ENNReal.zero_lt_top
  rw [h1] at hsplit
  norm_num at e
  linarith

end Irt
