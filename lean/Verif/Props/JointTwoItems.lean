import Verif.Props.Joint
import Mathlib.Probability.StrongLaw
import Mathlib.Probability.HasLawExists
import Mathlib.Probability.ProbabilityMassFunction.Constructions

/-! # C111: joint estimates with two items, in closed form, and what they tend to -/

namespace Irt

open Spec Finset MeasureTheory ProbabilityTheory Filter Topology

theorem isJointEstimate_iff (m : OnePL) (hwf : m.WF) (N : ℕ) (y : ℕ → ℕ → Cell)
    (hy : ∀ i, i < N → ValidResponses (List.replicate m.items 2) (y i)) :
    IsJointEstimate m N y ↔ ∀ t' b' (ε : ℝ), 0 < ε → ∃ t, raschLoss N m.items y t (fun j => m.itemParameters.getD j 0)
      < raschLoss N m.items y t' b' + ε := by
  unfold IsJointEstimate
  constructor
  · intro h t b ε hε
    obtain ⟨θ, hθ⟩ := h (OnePL.ofIntercepts m.items b) (OnePL.ofIntercepts_wf _ _) rfl (fun i _ => t i) ε hε
    rw [jointLoss_ofIntercepts _ _ _ hy, jointLoss_onePL m hwf N y hy] at hθ
    exact ⟨_, hθ⟩
  · intro h m' hwf' hit θ' ε hε
    obtain ⟨t, ht⟩ := h (fun i => θ' i 0) (fun j => m'.itemParameters.getD j 0) ε hε
    refine ⟨fun i _ => t i, ?_⟩
    have := jointLoss_onePL m' hwf' N y (by rw [hit]; exact hy) θ'
    rw [hit] at this
    rw [this, jointLoss_onePL m hwf N y hy]
    exact ht

theorem wrongLoss_small (ε : ℝ) (hε : 0 < ε) (x : ℝ) (hx : x ≤ Real.log ε) : wrongLoss x < ε := by
  have h1 : Real.exp x ≤ ε := (Real.le_log_iff_exp_le hε).1 hx
  have h2 : wrongLoss x < Real.exp x := by
    unfold wrongLoss
    have := Real.log_lt_sub_one_of_pos (show 0 < 1 + Real.exp x by positivity) (by linarith [Real.exp_pos x])
    linarith
  linarith

/-- The smallest loss a respondent can have when the intercepts of the two items differ by `δ`. -/
noncomputable def pairLoss (row : ℕ → Cell) (δ : ℝ) : ℝ :=
  if Answered row 1 0 then 2 * wrongLoss (-δ / 2) else if Answered row 0 1 then 2 * wrongLoss (δ / 2) else 0

/-- Everybody answered both items. -/
def BothAnswered (N : ℕ) (y : ℕ → ℕ → Cell) : Prop := ∀ i, i < N → ∃ a b : ℕ, a < 2 ∧ b < 2 ∧ Answered (y i) a b

theorem pairLoss_le (row : ℕ → Cell) (t b0 b1 : ℝ) :
    pairLoss row (b0 - b1) ≤ answerLoss (row 0) (t + b0) + answerLoss (row 1) (t + b1) := by
  unfold pairLoss
  split_ifs with h h
  · rw [h.1, h.2, answerLoss, answerLoss, if_pos rfl, if_neg (by simp), if_pos rfl]
    have := (wrongLoss_mid (-(t + b0)) (t + b1)).1
    rwa [show (-(t + b0) + (t + b1)) / 2 = -(b0 - b1) / 2 by ring] at this
  · rw [h.1, h.2, answerLoss, answerLoss, if_pos rfl, if_neg (by simp), if_pos rfl]
    have := (wrongLoss_mid (t + b0) (-(t + b1))).1
    rwa [show (t + b0 + -(t + b1)) / 2 = (b0 - b1) / 2 by ring] at this
  · exact add_nonneg (answerLoss_nonneg _ _) (answerLoss_nonneg _ _)

theorem pairLoss_close (row : ℕ → Cell) (hrow : ∃ a b : ℕ, a < 2 ∧ b < 2 ∧ Answered row a b) (b0 b1 ε : ℝ) (hε : 0 < ε) :
    ∃ t, answerLoss (row 0) (t + b0) + answerLoss (row 1) (t + b1) < pairLoss row (b0 - b1) + ε := by
  obtain ⟨a, b, ha, hb, h⟩ := hrow
  unfold pairLoss
  interval_cases a <;> interval_cases b
  · refine ⟨Real.log (ε / 2) - |b0| - |b1|, ?_⟩
    have e0 : row 0 = some 0 := h.1
    have e1 : row 1 = some 0 := h.2
    have n1 : ¬ Answered row 1 0 := fun h' => by have := h'.1; rw [e0] at this; simp at this
    have n2 : ¬ Answered row 0 1 := fun h' => by have := h'.2; rw [e1] at this; simp at this
    rw [if_neg n1, if_neg n2, e0, e1, answerLoss, answerLoss, if_neg (by simp), if_pos rfl, if_neg (by simp), if_pos rfl]
    have h1 := wrongLoss_small (ε / 2) (by positivity) (Real.log (ε / 2) - |b0| - |b1| + b0) (by linarith [le_abs_self b0, abs_nonneg b1])
    have h2 := wrongLoss_small (ε / 2) (by positivity) (Real.log (ε / 2) - |b0| - |b1| + b1) (by linarith [le_abs_self b1, abs_nonneg b0])
    linarith
  · refine ⟨-(b0 + b1) / 2, ?_⟩
    have e0 : row 0 = some 0 := h.1
    have e1 : row 1 = some 1 := h.2
    have n1 : ¬ Answered row 1 0 := fun h' => by have := h'.1; rw [e0] at this; simp at this
    rw [if_neg n1, if_pos ⟨e0, e1⟩, e0, e1, answerLoss, answerLoss, if_neg (by simp), if_pos rfl, if_pos rfl,
      show -(b0 + b1) / 2 + b0 = (b0 - b1) / 2 by ring, show -(-(b0 + b1) / 2 + b1) = (b0 - b1) / 2 by ring]
    linarith
  · refine ⟨-(b0 + b1) / 2, ?_⟩
    have e0 : row 0 = some 1 := h.1
    have e1 : row 1 = some 0 := h.2
    rw [if_pos ⟨e0, e1⟩, e0, e1, answerLoss, answerLoss, if_pos rfl, if_neg (by simp), if_pos rfl,
      show -(-(b0 + b1) / 2 + b0) = -(b0 - b1) / 2 by ring, show -(b0 + b1) / 2 + b1 = -(b0 - b1) / 2 by ring]
    linarith
  · refine ⟨-(Real.log (ε / 2) - |b0| - |b1|), ?_⟩
    have e0 : row 0 = some 1 := h.1
    have e1 : row 1 = some 1 := h.2
    have n1 : ¬ Answered row 1 0 := fun h' => by have := h'.2; rw [e1] at this; simp at this
    have n2 : ¬ Answered row 0 1 := fun h' => by have := h'.1; rw [e0] at this; simp at this
    rw [if_neg n1, if_neg n2, e0, e1, answerLoss, answerLoss, if_pos rfl, if_pos rfl]
    have h1 := wrongLoss_small (ε / 2) (by positivity) (-(-(Real.log (ε / 2) - |b0| - |b1|) + b0)) (by linarith [neg_abs_le b0, abs_nonneg b1])
    have h2 := wrongLoss_small (ε / 2) (by positivity) (-(-(Real.log (ε / 2) - |b0| - |b1|) + b1)) (by linarith [neg_abs_le b1, abs_nonneg b0])
    linarith

theorem sum_pairLoss (N : ℕ) (y : ℕ → ℕ → Cell) (δ : ℝ) :
    ∑ i ∈ range N, pairLoss (y i) δ
      = 2 * (countAnswered N y 1 0 * wrongLoss (-(δ / 2)) + countAnswered N y 0 1 * wrongLoss (δ / 2)) := by
  have : ∀ i, pairLoss (y i) δ = (if Answered (y i) 1 0 then 2 * wrongLoss (-(δ / 2)) else 0)
      + if Answered (y i) 0 1 then 2 * wrongLoss (δ / 2) else 0 := by
    intro i
    unfold pairLoss
    rw [show -δ / 2 = -(δ / 2) by ring]
    by_cases h1 : Answered (y i) 1 0
    · have h2 : ¬ Answered (y i) 0 1 := fun h' => by have := h'.1; rw [h1.1] at this; simp at this
      rw [if_pos h1, if_pos h1, if_neg h2, add_zero]
    · rw [if_neg h1, if_neg h1, zero_add]
  simp only [this, sum_add_distrib]
  rw [← sum_filter, ← sum_filter, sum_const, sum_const]
  unfold countAnswered
  simp only [nsmul_eq_mul]
  ring

/-- Gibbs' inequality for a coin. -/
theorem coin_minimum (n k : ℝ) (hn : 0 < n) (hk : 0 < k) (x : ℝ) :
    n * wrongLoss (-Real.log (n / k)) + k * wrongLoss (Real.log (n / k)) ≤ n * wrongLoss (-x) + k * wrongLoss x := by
  have ineq : ∀ u v : ℝ, 0 < u → 0 < v → 1 - v / u ≤ Real.log u - Real.log v := by
    intro u v hu hv
    have := Real.log_le_sub_one_of_pos (show 0 < v / u by positivity)
    rw [Real.log_div hv.ne' hu.ne'] at this
    linarith
  have e1 : Real.exp (Real.log (n / k)) = n / k := Real.exp_log (by positivity)
  have e2 : Real.exp (-Real.log (n / k)) = k / n := by rw [Real.exp_neg, e1, inv_div]
  have h1 := ineq (1 + Real.exp (-x)) (1 + k / n) (by positivity) (by positivity)
  have h2 := ineq (1 + Real.exp x) (1 + n / k) (by positivity) (by positivity)
  have h3 := mul_le_mul_of_nonneg_left h1 hn.le
  have h4 := mul_le_mul_of_nonneg_left h2 hk.le
  have h5 : n * (1 - (1 + k / n) / (1 + Real.exp (-x))) + k * (1 - (1 + n / k) / (1 + Real.exp x)) = 0 := by
    rw [Real.exp_neg]
    have := Real.exp_pos x
    field_simp
    ring
  unfold wrongLoss
  rw [e1, e2]
  linarith

/-- C111: with two items and somebody who solved only the first and somebody who solved only the second, the joint estimates of a one
parameter logistic model are those whose intercepts differ by twice the log of the ratio of the numbers of such respondents. -/
theorem C111_two_items (m : OnePL) (hwf : m.WF) (hit : m.items = 2) (N : ℕ) (y : ℕ → ℕ → Cell) (hy : BothAnswered N y)
    (hn : 0 < countAnswered N y 1 0) (hk : 0 < countAnswered N y 0 1) :
    IsJointEstimate m N y ↔ interceptDifference m = 2 * Real.log (countAnswered N y 1 0 / countAnswered N y 0 1) := by
  have hvalid : ∀ i, i < N → ValidResponses (List.replicate m.items 2) (y i) := by
    intro i hi j c hc _
    obtain ⟨hj, rfl⟩ := replicate_getElem? _ _ _ _ hc
    rw [hit] at hj
    obtain ⟨a, b, ha, hb, h⟩ := hy i hi
    interval_cases j
    · exact ⟨a, h.1, ha⟩
    · exact ⟨b, h.2, hb⟩
  have hn' : (0 : ℝ) < countAnswered N y 1 0 := by exact_mod_cast hn
  have hk' : (0 : ℝ) < countAnswered N y 0 1 := by exact_mod_cast hk
  have hlow : ∀ t b : ℕ → ℝ, ∑ i ∈ range N, pairLoss (y i) (b 0 - b 1) ≤ raschLoss N 2 y t b := by
    intro t b
    refine sum_le_sum fun i _ => ?_
    rw [sum_range_succ, sum_range_one]
    exact pairLoss_le _ _ _ _
  have hupp : ∀ (b : ℕ → ℝ) (ε : ℝ), 0 < ε → ∃ t, raschLoss N 2 y t b < ∑ i ∈ range N, pairLoss (y i) (b 0 - b 1) + ε := by
    intro b ε hε
    have hε' : 0 < ε / (N + 1) := by positivity
    have : ∀ i, ∃ t, i < N → answerLoss (y i 0) (t + b 0) + answerLoss (y i 1) (t + b 1) < pairLoss (y i) (b 0 - b 1) + ε / (N + 1) := by
      intro i
      by_cases hi : i < N
      · obtain ⟨t, ht⟩ := pairLoss_close (y i) (hy i hi) (b 0) (b 1) _ hε'
        exact ⟨t, fun _ => ht⟩
      · exact ⟨0, fun h => absurd h hi⟩
    choose t ht using this
    refine ⟨t, ?_⟩
    have h1 : raschLoss N 2 y t b ≤ ∑ i ∈ range N, (pairLoss (y i) (b 0 - b 1) + ε / (N + 1)) := by
      refine sum_le_sum fun i hi => ?_
      rw [sum_range_succ, sum_range_one]
      exact (ht i (mem_range.1 hi)).le
    rw [sum_add_distrib, sum_const, card_range, nsmul_eq_mul] at h1
    have h2 : (N : ℝ) * (ε / (N + 1)) < ε := by
      rw [mul_div_assoc', div_lt_iff₀ (by positivity)]
      nlinarith
    linarith
  rw [isJointEstimate_iff m hwf N y hvalid, hit]
  simp only [sum_pairLoss] at hlow hupp
  change _ ↔ m.itemParameters.getD 0 0 - m.itemParameters.getD 1 0 = _
  generalize countAnswered N y 1 0 = n at *
  generalize countAnswered N y 0 1 = k at *
  constructor
  · intro h
    have hmin : ∀ x : ℝ, n * wrongLoss (-((m.itemParameters.getD 0 0 - m.itemParameters.getD 1 0) / 2))
        + k * wrongLoss ((m.itemParameters.getD 0 0 - m.itemParameters.getD 1 0) / 2) ≤ n * wrongLoss (-x) + k * wrongLoss x := by
      intro x
      refine le_of_forall_pos_le_add fun ε hε => ?_
      obtain ⟨t', ht'⟩ := hupp (fun j => if j = 0 then 2 * x else 0) ε hε
      obtain ⟨t, ht⟩ := h t' (fun j => if j = 0 then 2 * x else 0) ε hε
      have := hlow t fun j => m.itemParameters.getD j 0
      simp only [if_true, one_ne_zero, if_false, sub_zero, mul_div_cancel_left₀ x (two_ne_zero)] at ht'
      linarith
    by_contra hne
    set x := (m.itemParameters.getD 0 0 - m.itemParameters.getD 1 0) / 2 with hx
    have hne' : x ≠ Real.log (n / k) := fun h' => hne (by rw [hx] at h'; linarith)
    have hmid := hmin ((x + Real.log (n / k)) / 2)
    have h1 := (wrongLoss_mid x (Real.log (n / k))).2 hne'
    have h2 := (wrongLoss_mid (-x) (-Real.log (n / k))).1
    have hg := coin_minimum n k hn' hk' x
    rw [show (-x + -Real.log (n / k)) / 2 = -((x + Real.log (n / k)) / 2) by ring] at h2
    have h3 := hmin (Real.log (n / k))
    have h4 := mul_lt_mul_of_pos_left h1 hk'
    have h5 := mul_le_mul_of_nonneg_left h2 hn'.le
    linarith
  · intro h t' b' ε hε
    obtain ⟨t, ht⟩ := hupp (fun j => m.itemParameters.getD j 0) ε hε
    refine ⟨t, ht.trans_le ?_⟩
    have h1 := hlow t' b'
    have h2 := coin_minimum n k hn' hk' ((b' 0 - b' 1) / 2)
    rw [h, mul_div_cancel_left₀ _ (two_ne_zero)]
    linarith

/-! ## Large samples -/

theorem answered_bothAnswers (p : Bool × Bool) (a b : Bool) :
    Answered (bothAnswers p) (if a then 1 else 0) (if b then 1 else 0) ↔ p = (a, b) := by
  obtain ⟨p, q⟩ := p
  cases p <;> cases q <;> cases a <;> cases b <;> simp [Answered, bothAnswers]

theorem bothAnswered_sample (N : ℕ) (Y : ℕ → Bool × Bool) : BothAnswered N fun i => bothAnswers (Y i) := by
  intro i _
  refine ⟨(Y i).1.toNat, (Y i).2.toNat, Bool.toNat_lt _, Bool.toNat_lt _, ?_⟩
  show Answered (bothAnswers (Y i)) _ _
  generalize Y i = p
  obtain ⟨p, q⟩ := p
  cases p <;> cases q <;> exact ⟨rfl, rfl⟩

theorem count_eq_sum (N : ℕ) (Y : ℕ → Bool × Bool) (a b : Bool) :
    (countAnswered N (fun i => bothAnswers (Y i)) (if a then 1 else 0) (if b then 1 else 0) : ℝ)
      = ∑ i ∈ range N, if Y i = (a, b) then (1 : ℝ) else 0 := by
  unfold countAnswered
  simp only [answered_bothAnswers]
  rw [card_filter]
  push_cast
  rfl

/-- Relative frequencies of a sample tend to the probabilities. -/
theorem frequencies {Ω : Type} [MeasurableSpace Ω] {μ : Measure Ω} [IsProbabilityMeasure μ] {m : OnePL} {ν : Measure ℝ}
    {Y : ℕ → Ω → Bool × Bool} (h : Sample μ m ν Y) (a b : Bool) :
    ∀ᵐ ω ∂μ, Tendsto (fun N : ℕ => (∑ i ∈ range N, if Y i ω = (a, b) then (1 : ℝ) else 0) / N) atTop
      (𝓝 (∫ t, onePLProb m (fun _ => t) 0 a.toNat * onePLProb m (fun _ => t) 1 b.toNat ∂ν)) := by
  let g : Bool × Bool → ℝ := fun p => if p = (a, b) then 1 else 0
  have hg : Measurable g := measurable_of_countable g
  have hident : ∀ i, IdentDistrib (Y i) (Y 0) μ μ := by
    intro i
    refine ⟨(h.measurable i).aemeasurable, (h.measurable 0).aemeasurable, ?_⟩
    refine Measure.ext_of_singleton fun p => ?_
    rw [Measure.map_apply (h.measurable i) (measurableSet_singleton p), Measure.map_apply (h.measurable 0) (measurableSet_singleton p)]
    have := (h.law i p.1 p.2).trans (h.law 0 p.1 p.2).symm
    exact (measureReal_eq_measureReal_iff).1 this
  have hmeas : MeasurableSet {ω | Y 0 ω = (a, b)} := h.measurable 0 (measurableSet_singleton _)
  have hX : (fun ω => g (Y 0 ω)) = Set.indicator {ω | Y 0 ω = (a, b)} fun _ => (1 : ℝ) := by
    funext ω
    simp only [g, Set.indicator]
    rfl
  have hlln := strong_law_ae_real (μ := μ) (fun i ω => g (Y i ω)) (by
      show Integrable (fun ω => g (Y 0 ω)) μ
      rw [hX]
      exact (integrable_const _).indicator hmeas)
    (fun i k hik => (h.independent.indepFun hik).comp hg hg)
    (fun i => (hident i).comp hg)
  have hmean : ∫ ω, g (Y 0 ω) ∂μ = ∫ t, onePLProb m (fun _ => t) 0 a.toNat * onePLProb m (fun _ => t) 1 b.toNat ∂ν := by
    rw [hX, integral_indicator_const _ hmeas, smul_eq_mul, mul_one, h.law]
  filter_upwards [hlln] with ω hω
  rw [hmean] at hω
  exact hω

theorem logistic_cont : Continuous logistic := by
  unfold logistic
  exact Continuous.div (by fun_prop) (by fun_prop) fun x => by positivity

/-- C111: with two items the joint estimates are not consistent. As the sample grows they exist almost surely, and the difference of
the intercepts tends to twice the true difference, whatever the distribution of the abilities. -/
theorem C111_inconsistent {Ω : Type} [MeasurableSpace Ω] (μ : Measure Ω) [IsProbabilityMeasure μ] (m : OnePL) (hwf : m.WF)
    (hit : m.items = 2) (ν : Measure ℝ) [IsProbabilityMeasure ν] (Y : ℕ → Ω → Bool × Bool) (h : Sample μ m ν Y) :
    ∀ᵐ ω ∂μ, (∀ᶠ N in atTop, ∃ e : OnePL, e.WF ∧ e.items = 2 ∧ IsJointEstimate e N fun i => bothAnswers (Y i ω)) ∧
      ∀ e : ℕ → OnePL, (∀ᶠ N in atTop, (e N).WF ∧ (e N).items = 2 ∧ IsJointEstimate (e N) N fun i => bothAnswers (Y i ω)) →
        Tendsto (fun N => interceptDifference (e N)) atTop (𝓝 (2 * interceptDifference m)) := by
  have hodds : ∀ x y : ℝ, logistic x * (1 - logistic y) = Real.exp (x - y) * ((1 - logistic x) * logistic y) := by
    intro x y
    unfold logistic
    have := Real.exp_pos x
    have := Real.exp_pos y
    rw [Real.exp_sub]
    field_simp
    ring
  set b0 := m.itemParameters.getD 0 0 with hb0
  set b1 := m.itemParameters.getD 1 0 with hb1
  set q := ∫ t, (1 - logistic (t + b0)) * logistic (t + b1) ∂ν with hq
  have eq1 : ∀ t : ℝ, onePLProb m (fun _ => t) 0 1 = logistic (t + b0) ∧ onePLProb m (fun _ => t) 0 0 = 1 - logistic (t + b0) :=
    fun t => onePLProb_eq m hwf (fun _ => t) 0 (by omega)
  have eq2 : ∀ t : ℝ, onePLProb m (fun _ => t) 1 1 = logistic (t + b1) ∧ onePLProb m (fun _ => t) 1 0 = 1 - logistic (t + b1) :=
    fun t => onePLProb_eq m hwf (fun _ => t) 1 (by omega)
  have l10 : ∫ t, onePLProb m (fun _ => t) 0 1 * onePLProb m (fun _ => t) 1 0 ∂ν = Real.exp (b0 - b1) * q := by
    rw [hq, ← integral_const_mul]
    refine integral_congr_ae (ae_of_all _ fun t => ?_)
    dsimp only
    rw [(eq1 t).1, (eq2 t).2, hodds, show t + b0 - (t + b1) = b0 - b1 by ring]
  have l01 : ∫ t, onePLProb m (fun _ => t) 0 0 * onePLProb m (fun _ => t) 1 1 ∂ν = q := by
    refine integral_congr_ae (ae_of_all _ fun t => ?_)
    dsimp only
    rw [(eq1 t).2, (eq2 t).1]
  have hqpos : 0 < q := by
    have hpos : ∀ t : ℝ, 0 < (1 - logistic (t + b0)) * logistic (t + b1) :=
      fun t => mul_pos (logistic_pos' _).2 (logistic_pos' _).1
    have hle : ∀ t : ℝ, (1 - logistic (t + b0)) * logistic (t + b1) ≤ 1 := fun t => by
      nlinarith [(logistic_pos' (t + b0)).1, (logistic_pos' (t + b0)).2, (logistic_pos' (t + b1)).1, (logistic_pos' (t + b1)).2]
    have hcont : Continuous fun t : ℝ => (1 - logistic (t + b0)) * logistic (t + b1) :=
      (continuous_const.sub (logistic_cont.comp (continuous_id.add continuous_const))).mul
        (logistic_cont.comp (continuous_id.add continuous_const))
    have hint : Integrable (fun t : ℝ => (1 - logistic (t + b0)) * logistic (t + b1)) ν :=
      Integrable.of_bound hcont.aestronglyMeasurable 1 (ae_of_all _ fun t => by
        rw [Real.norm_eq_abs, abs_of_pos (hpos t)]; exact hle t)
    rw [hq, integral_pos_iff_support_of_nonneg (fun t => (hpos t).le) hint]
    rw [show Function.support (fun t : ℝ => (1 - logistic (t + b0)) * logistic (t + b1)) = Set.univ from
      Set.eq_univ_of_forall fun t => (hpos t).ne']
    simp
  have h10 := frequencies h true false
  have h01 := frequencies h false true
  simp only [Bool.toNat_true, Bool.toNat_false] at h10 h01
  rw [l10] at h10
  rw [l01] at h01
  filter_upwards [h10, h01] with ω ht10 ht01
  have c10 : ∀ N, (countAnswered N (fun i => bothAnswers (Y i ω)) 1 0 : ℝ) = ∑ i ∈ range N, if Y i ω = (true, false) then (1 : ℝ) else 0 :=
    fun N => count_eq_sum N (fun i => Y i ω) true false
  have c01 : ∀ N, (countAnswered N (fun i => bothAnswers (Y i ω)) 0 1 : ℝ) = ∑ i ∈ range N, if Y i ω = (false, true) then (1 : ℝ) else 0 :=
    fun N => count_eq_sum N (fun i => Y i ω) false true
  simp only [← c10] at ht10
  simp only [← c01] at ht01
  have hqe : 0 < Real.exp (b0 - b1) * q := by positivity
  have pos : ∀ (f : ℕ → ℕ) (l : ℝ), 0 < l → Tendsto (fun N : ℕ => (f N : ℝ) / N) atTop (𝓝 l) → ∀ᶠ N in atTop, 0 < f N := by
    intro f l hl hf
    filter_upwards [hf.eventually (lt_mem_nhds hl)] with N hN
    by_contra hcon
    rw [Nat.le_zero.1 (not_lt.1 hcon)] at hN
    simp at hN
  have p10 := pos _ _ hqe ht10
  have p01 := pos _ _ hqpos ht01
  have closed : ∀ᶠ N in atTop, ∀ e : OnePL, e.WF → e.items = 2 → (IsJointEstimate e N (fun i => bothAnswers (Y i ω)) ↔
      interceptDifference e = 2 * Real.log (countAnswered N (fun i => bothAnswers (Y i ω)) 1 0 / countAnswered N (fun i => bothAnswers (Y i ω)) 0 1)) := by
    filter_upwards [p10, p01] with N hn hk e he hi
    exact C111_two_items e he hi N _ (bothAnswered_sample N fun i => Y i ω) hn hk
  constructor
  · filter_upwards [closed] with N hN
    refine ⟨OnePL.ofIntercepts 2 fun j => if j = 0 then 2 * Real.log (countAnswered N (fun i => bothAnswers (Y i ω)) 1 0
      / countAnswered N (fun i => bothAnswers (Y i ω)) 0 1) else 0, OnePL.ofIntercepts_wf _ _, rfl,
      (hN _ (OnePL.ofIntercepts_wf _ _) rfl).2 ?_⟩
    unfold interceptDifference
    rw [OnePL.ofIntercepts_getD 2 _ 0 (by norm_num), OnePL.ofIntercepts_getD 2 _ 1 (by norm_num)]
    simp
  · intro e he
    have hlim : Tendsto (fun N : ℕ => 2 * Real.log ((countAnswered N (fun i => bothAnswers (Y i ω)) 1 0 : ℝ)
        / countAnswered N (fun i => bothAnswers (Y i ω)) 0 1)) atTop (𝓝 (2 * interceptDifference m)) := by
      refine Tendsto.const_mul 2 ?_
      have hratio := ht10.div ht01 hqpos.ne'
      rw [mul_div_cancel_right₀ _ hqpos.ne'] at hratio
      have hlog := hratio.log (Real.exp_pos _).ne'
      rw [Real.log_exp] at hlog
      refine hlog.congr' ?_
      filter_upwards [eventually_gt_atTop 0] with N hN
      have : (N : ℝ) ≠ 0 := by exact_mod_cast hN.ne'
      simp only [Pi.div_apply]
      rw [div_div_div_cancel_right₀ this]
    refine hlim.congr' ?_
    filter_upwards [closed, he] with N hN hE
    exact ((hN _ hE.1 hE.2.1).1 hE.2.2).symm

/-- Samples exist for every model and every distribution of the abilities. -/
theorem sample_exists (m : OnePL) (hwf : m.WF) (hit : m.items = 2) (ν : Measure ℝ) [IsProbabilityMeasure ν] :
    ∃ (Ω : Type) (_ : MeasurableSpace Ω) (μ : Measure Ω) (Y : ℕ → Ω → Bool × Bool), IsProbabilityMeasure μ ∧ Sample μ m ν Y := by
  let P : ℕ → Bool → ℝ → ℝ := fun j a t => onePLProb m (fun _ => t) j a.toNat
  have hP : ∀ j, j < 2 → ∀ a t, P j a t = if a then logistic (t + m.itemParameters.getD j 0) else 1 - logistic (t + m.itemParameters.getD j 0) := by
    intro j hj a t
    have := onePLProb_eq m hwf (fun _ => t) j (by omega)
    cases a
    · exact this.2
    · exact this.1
  have hpos : ∀ j, j < 2 → ∀ a t, 0 < P j a t := by
    intro j hj a t
    rw [hP j hj]
    have := logistic_pos' (t + m.itemParameters.getD j 0)
    cases a
    · exact this.2
    · exact this.1
  have hone : ∀ j, j < 2 → ∀ t, P j true t + P j false t = 1 := by
    intro j hj t
    rw [hP j hj, hP j hj]
    simp
  have hcont : ∀ j, j < 2 → ∀ a, Continuous (P j a) := by
    intro j hj a
    have h1 : Continuous fun t : ℝ => logistic (t + m.itemParameters.getD j 0) := logistic_cont.comp (continuous_id.add continuous_const)
    cases a
    · exact (continuous_const.sub h1).congr fun t => (hP j hj false t).symm
    · exact h1.congr fun t => (hP j hj true t).symm
  have hle : ∀ j, j < 2 → ∀ a t, P j a t ≤ 1 := by
    intro j hj a t
    have h1 := hone j hj t
    have h2 := hpos j hj true t
    have h3 := hpos j hj false t
    cases a <;> linarith
  have hint : ∀ a b, Integrable (fun t => P 0 a t * P 1 b t) ν := by
    intro a b
    refine Integrable.of_bound ((hcont 0 (by norm_num) a).mul (hcont 1 (by norm_num) b)).aestronglyMeasurable 1 (ae_of_all _ fun t => ?_)
    have h0 := hpos 0 (by norm_num) a t
    have h1 := hpos 1 (by norm_num) b t
    rw [Real.norm_eq_abs, abs_of_pos (mul_pos h0 h1)]
    exact mul_le_one₀ (hle 0 (by norm_num) a t) h1.le (hle 1 (by norm_num) b t)
  let w : Bool × Bool → ℝ := fun p => ∫ t, P 0 p.1 t * P 1 p.2 t ∂ν
  have hw : ∀ p, 0 ≤ w p := fun p => integral_nonneg fun t => (mul_pos (hpos 0 (by norm_num) _ t) (hpos 1 (by norm_num) _ t)).le
  have hsum : ∑ p, ENNReal.ofReal (w p) = 1 := by
    rw [← ENNReal.ofReal_sum_of_nonneg fun p _ => hw p, ← integral_finsetSum _ fun p _ => hint p.1 p.2]
    have : ∀ t, ∑ p : Bool × Bool, P 0 p.1 t * P 1 p.2 t = 1 := by
      intro t
      rw [Fintype.sum_prod_type]
      simp only [Fintype.sum_bool]
      have h0 := hone 0 (by norm_num) t
      have h1 := hone 1 (by norm_num) t
      calc _ = (P 0 true t + P 0 false t) * (P 1 true t + P 1 false t) := by ring
        _ = 1 := by rw [h0, h1, one_mul]
    simp only [this]
    simp
  obtain ⟨Ω, hΩ, μ, Y, hmeas, hlaw, hind, hprob⟩ := exists_iid ℕ (PMF.ofFintype _ hsum).toMeasure
  refine ⟨Ω, hΩ, μ, Y, hprob, hmeas, hind, fun i a b => ?_⟩
  have h1 : μ {ω | Y i ω = (a, b)} = ENNReal.ofReal (w (a, b)) := by
    have h2 := (hlaw i).map_eq
    have h3 : μ.map (Y i) {(a, b)} = ENNReal.ofReal (w (a, b)) := by
      rw [h2, PMF.toMeasure_apply_singleton _ _ (measurableSet_singleton _), PMF.ofFintype_apply]
    rwa [Measure.map_apply (hmeas i) (measurableSet_singleton _)] at h3
  rw [Measure.real, h1, ENNReal.toReal_ofReal (hw _)]

/-- The claim that the joint estimates of the difference between two items tend to the true difference as the sample grows. -/
def JointConsistent : Prop :=
  ∀ (Ω : Type) [MeasurableSpace Ω] (μ : Measure Ω) [IsProbabilityMeasure μ] (m : OnePL), m.WF → m.items = 2 →
    ∀ (ν : Measure ℝ) [IsProbabilityMeasure ν] (Y : ℕ → Ω → Bool × Bool), Sample μ m ν Y →
    ∀ᵐ ω ∂μ, ∀ e : ℕ → OnePL, (∀ᶠ N in atTop, (e N).WF ∧ (e N).items = 2 ∧ IsJointEstimate (e N) N fun i => bothAnswers (Y i ω)) →
      Tendsto (fun N => interceptDifference (e N)) atTop (𝓝 (interceptDifference m))

/-- C111: they do not. -/
theorem C111_consistent_false : ¬ JointConsistent := by
  intro claim
  obtain ⟨Ω, _, μ, Y, _, hS⟩ := sample_exists ⟨2, [1, 0]⟩ rfl rfl (Measure.dirac 0)
  have h1 := claim Ω μ ⟨2, [1, 0]⟩ rfl rfl (Measure.dirac 0) Y hS
  have h2 := C111_inconsistent μ ⟨2, [1, 0]⟩ rfl rfl (Measure.dirac 0) Y hS
  obtain ⟨ω, ha, hex, hb⟩ := (h1.and h2).exists
  have : ∃ e : ℕ → OnePL, ∀ᶠ N in atTop, (e N).WF ∧ (e N).items = 2 ∧ IsJointEstimate (e N) N fun i => bothAnswers (Y i ω) := by
    obtain ⟨K, hK⟩ := eventually_atTop.1 hex
    refine ⟨fun N => if h : K ≤ N then (hK N h).choose else ⟨0, []⟩, ?_⟩
    filter_upwards [eventually_ge_atTop K] with N hN
    rw [dif_pos hN]
    exact (hK N hN).choose_spec
  obtain ⟨e, he⟩ := this
  have := tendsto_nhds_unique (ha e he) (hb e he)
  simp [interceptDifference, OnePL.itemParameters] at this

/-- Two respondents solved only the first item, one only the second, one both. -/
def exFourAnswers (i : ℕ) : ℕ → Cell := bothAnswers (if i < 2 then (true, false) else if i = 2 then (false, true) else (true, true))

example : IsJointEstimate ⟨2, [2 * Real.log 2, 0]⟩ 4 exFourAnswers ∧ ¬ IsJointEstimate ⟨2, [Real.log 2, 0]⟩ 4 exFourAnswers := by
  have h1 : countAnswered 4 exFourAnswers 1 0 = 2 := by decide
  have h2 : countAnswered 4 exFourAnswers 0 1 = 1 := by decide
  have hy : BothAnswered 4 exFourAnswers := bothAnswered_sample 4 _
  rw [C111_two_items ⟨2, [2 * Real.log 2, 0]⟩ rfl rfl 4 _ hy (by omega) (by omega),
    C111_two_items ⟨2, [Real.log 2, 0]⟩ rfl rfl 4 _ hy (by omega) (by omega), h1, h2]
  have := Real.log_pos (show (1 : ℝ) < 2 by norm_num)
  constructor
  · simp [interceptDifference, OnePL.itemParameters]
  · simp only [interceptDifference, OnePL.itemParameters]
    intro h
    norm_num at h

/-- With two items of equal difficulty the true difference is the limit; with a difference of one it is two. -/
example : ∃ (Ω : Type) (_ : MeasurableSpace Ω) (μ : Measure Ω) (Y : ℕ → Ω → Bool × Bool), IsProbabilityMeasure μ ∧
    ∀ᵐ ω ∂μ, ∀ e : ℕ → OnePL, (∀ᶠ N in atTop, (e N).WF ∧ (e N).items = 2 ∧ IsJointEstimate (e N) N fun i => bothAnswers (Y i ω)) →
      Tendsto (fun N => interceptDifference (e N)) atTop (𝓝 2) := by
  obtain ⟨Ω, _, μ, Y, hp, hS⟩ := sample_exists ⟨2, [1, 0]⟩ rfl rfl (Measure.dirac 3)
  refine ⟨Ω, _, μ, Y, hp, ?_⟩
  filter_upwards [C111_inconsistent μ ⟨2, [1, 0]⟩ rfl rfl (Measure.dirac 3) Y hS] with ω hω e he
  have := hω.2 e he
  simpa [interceptDifference, OnePL.itemParameters] using this

end Irt
