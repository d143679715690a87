import Verif.Props.NormalPopulation
import Verif.Props.LinkRecovery
import Mathlib.Analysis.SpecialFunctions.Trigonometric.DerivHyp

/-! # C151: with the default integration method the estimates do not converge to the truth -/

namespace Irt
open Spec MeasureTheory Filter Topology

/-! ## A right answer in a normal population and between -3 and 3 -/

/-- The latent scores that the default method uses. -/
def insideBox : Set (Fin 1 → ℝ) := Set.Icc (fun _ => -3) fun _ => 3

theorem mem_insideBox (θ : Fin 1 → ℝ) : θ ∈ insideBox ↔ |θ 0| ≤ 3 := by
  simp only [insideBox, Set.mem_Icc, Pi.le_def, Fin.forall_fin_one, abs_le]

/-- The probability of a right answer in the part of the standard normal population between -3 and 3. -/
noncomputable def insideProb (b : ℝ) : ℝ :=
  (∫ θ in insideBox, Real.exp (mvnLogDensity 0 1 θ) * logistic (θ 0 + b)) / ∫ θ in insideBox, Real.exp (mvnLogDensity 0 1 θ)

theorem logistic_pair (b t : ℝ) :
    logistic (t + b) + logistic (-t + b) = 1 + (Real.exp b ^ 2 - 1) / (2 * Real.exp b * Real.cosh t + 1 + Real.exp b ^ 2) := by
  have hb := Real.exp_pos b
  have ht := Real.exp_pos t
  have e1 : Real.exp (t + b) = Real.exp t * Real.exp b := Real.exp_add _ _
  have e2 : Real.exp (-t + b) = Real.exp b / Real.exp t := by rw [Real.exp_add, Real.exp_neg]; field_simp
  have e3 : 2 * Real.cosh t = Real.exp t + 1 / Real.exp t := by rw [Real.cosh_eq, Real.exp_neg]; ring
  have e4 : 2 * Real.exp b * Real.cosh t + 1 + Real.exp b ^ 2 = Real.exp b * (Real.exp t + 1 / Real.exp t) + 1 + Real.exp b ^ 2 := by
    rw [← e3]; ring
  unfold logistic
  rw [e1, e2, e4]
  have h1 : (1 : ℝ) + Real.exp t * Real.exp b ≠ 0 := by positivity
  have h2 : (1 : ℝ) + Real.exp b / Real.exp t ≠ 0 := by positivity
  have h3 : Real.exp b * (Real.exp t + 1 / Real.exp t) + 1 + Real.exp b ^ 2 ≠ 0 := by positivity
  field_simp
  ring

theorem logistic_pair_lt {b s t : ℝ} (hb : 0 < b) (hst : |s| < |t|) :
    logistic (t + b) + logistic (-t + b) < logistic (s + b) + logistic (-s + b) := by
  rw [logistic_pair, logistic_pair]
  have h1 : 1 < Real.exp b := Real.one_lt_exp_iff.2 hb
  have h2 := Real.cosh_lt_cosh.2 hst
  have h3 := Real.cosh_pos s
  have h4 := Real.cosh_pos t
  have : (Real.exp b ^ 2 - 1) / (2 * Real.exp b * Real.cosh t + 1 + Real.exp b ^ 2)
      < (Real.exp b ^ 2 - 1) / (2 * Real.exp b * Real.cosh s + 1 + Real.exp b ^ 2) :=
    div_lt_div_of_pos_left (by nlinarith) (by positivity) (by nlinarith)
  linarith

theorem mvn_even (θ : Fin 1 → ℝ) : mvnLogDensity 0 1 (-θ) = mvnLogDensity 0 1 θ := by
  unfold mvnLogDensity
  simp [Matrix.mulVec_neg]

theorem standard_integrable : Integrable fun θ : Fin 1 → ℝ => Real.exp (mvnLogDensity 0 1 θ) := by
  simpa using integrable_mvn_mul (d := 1) Matrix.PosDef.one (fun _ => 1) continuous_const (by simp)

/-- Averaged over a score and its opposite. -/
noncomputable def pairProb (b : ℝ) (θ : Fin 1 → ℝ) : ℝ := (logistic (θ 0 + b) + logistic (-(θ 0) + b)) / 2

theorem pairProb_integrable (b : ℝ) : Integrable fun θ : Fin 1 → ℝ => Real.exp (mvnLogDensity 0 1 θ) * pairProb b θ := by
  refine integrable_mvn_mul Matrix.PosDef.one _ ?_ fun θ => ?_
  · unfold pairProb
    exact (((continuous_logistic'.comp (by fun_prop : Continuous fun θ : Fin 1 → ℝ => θ 0 + b))).add
      (continuous_logistic'.comp (by fun_prop : Continuous fun θ : Fin 1 → ℝ => -(θ 0) + b))).div_const _
  · have h1 := logistic_unit (θ 0 + b)
    have h2 := logistic_unit (-(θ 0) + b)
    unfold pairProb
    exact abs_le.2 ⟨by linarith [h1.1, h2.1], by linarith [h1.2, h2.2]⟩

/-- For sets that contain with every score its opposite the average may be taken. -/
theorem pairProb_integral (b : ℝ) (S : Set (Fin 1 → ℝ)) (hS : MeasurableSet S) (hneg : ∀ θ, θ ∈ S ↔ -θ ∈ S) :
    ∫ θ in S, Real.exp (mvnLogDensity 0 1 θ) * logistic (θ 0 + b) = ∫ θ in S, Real.exp (mvnLogDensity 0 1 θ) * pairProb b θ := by
  have h1 : ∫ θ in S, Real.exp (mvnLogDensity 0 1 θ) * logistic (-(θ 0) + b)
      = ∫ θ in S, Real.exp (mvnLogDensity 0 1 θ) * logistic (θ 0 + b) := by
    rw [← integral_indicator hS, ← integral_indicator hS, ← integral_neg_eq_self]
    congr 1
    funext θ
    by_cases h : θ ∈ S
    · rw [Set.indicator_of_mem ((hneg θ).1 h), Set.indicator_of_mem h, mvn_even]
      simp
    · rw [Set.indicator_of_notMem (fun h' => h ((hneg θ).2 h')), Set.indicator_of_notMem h]
  have hi1 := (rightProb_integrable b).integrableOn (s := S)
  have hi2 : Integrable (fun θ : Fin 1 → ℝ => Real.exp (mvnLogDensity 0 1 θ) * logistic (-(θ 0) + b)) :=
    integrable_mvn_mul Matrix.PosDef.one _ (continuous_logistic'.comp (by fun_prop)) fun θ =>
      abs_le.2 ⟨by linarith [(logistic_unit (-(θ 0) + b)).1], (logistic_unit _).2.le⟩
  have h2 : ∫ θ in S, Real.exp (mvnLogDensity 0 1 θ) * pairProb b θ
      = ((∫ θ in S, Real.exp (mvnLogDensity 0 1 θ) * logistic (θ 0 + b)) + ∫ θ in S, Real.exp (mvnLogDensity 0 1 θ) * logistic (-(θ 0) + b)) / 2 := by
    rw [← integral_add hi1 hi2.integrableOn, ← integral_div]
    congr 1
    funext θ
    unfold pairProb
    ring
  rw [h2, h1]
  ring

theorem insideBox_measurable : MeasurableSet insideBox := measurableSet_Icc

theorem outside_open : IsOpen insideBoxᶜ := (isClosed_Icc (a := fun _ : Fin 1 => (-3 : ℝ)) (b := fun _ => 3)).isOpen_compl

theorem outside_pos (F : (Fin 1 → ℝ) → ℝ) (hi : Integrable F) (h0 : ∀ θ ∈ insideBoxᶜ, 0 < F θ) : 0 < ∫ θ in insideBoxᶜ, F θ := by
  rw [setIntegral_pos_iff_support_of_nonneg_ae ((ae_restrict_iff' insideBox_measurable.compl).2
    (Eventually.of_forall fun θ hθ => (h0 θ hθ).le)) hi.integrableOn]
  have : Function.support F ∩ insideBoxᶜ = insideBoxᶜ := Set.inter_eq_right.2 fun θ hθ => (h0 θ hθ).ne'
  rw [this]
  refine outside_open.measure_pos _ ⟨fun _ => 4, fun h => ?_⟩
  rw [mem_insideBox] at h
  norm_num at h

/-- An easy item is solved more often by the part of the population between -3 and 3 than by the whole population. -/
theorem rightProb_lt_inside {b : ℝ} (hb : 0 < b) : rightProb b < insideProb b := by
  have hneg : ∀ θ : Fin 1 → ℝ, θ ∈ insideBox ↔ -θ ∈ insideBox := fun θ => by
    rw [mem_insideBox, mem_insideBox, Pi.neg_apply, abs_neg]
  have hall : rightProb b = ∫ θ : Fin 1 → ℝ, Real.exp (mvnLogDensity 0 1 θ) * pairProb b θ := by
    have := pairProb_integral b Set.univ MeasurableSet.univ fun θ => by simp
    simp only [setIntegral_univ] at this
    exact this
  have hsplit := integral_add_compl insideBox_measurable (pairProb_integrable b)
  have hsplit1 := integral_add_compl insideBox_measurable standard_integrable
  rw [integral_mvn 0 1 Matrix.PosDef.one] at hsplit1
  set c := pairProb b fun _ => 3 with hc
  set a := ∫ θ in insideBox, Real.exp (mvnLogDensity 0 1 θ) with ha
  set u := ∫ θ in insideBoxᶜ, Real.exp (mvnLogDensity 0 1 θ) with hu
  set X := ∫ θ in insideBox, Real.exp (mvnLogDensity 0 1 θ) * pairProb b θ with hX
  set Y := ∫ θ in insideBoxᶜ, Real.exp (mvnLogDensity 0 1 θ) * pairProb b θ with hY
  have hapos : 0 < a := box_integral_pos _ _ (fun _ => by norm_num) _ (continuous_mvn 0 1) fun θ => Real.exp_pos _
  have hupos : 0 < u := outside_pos _ standard_integrable fun θ _ => Real.exp_pos _
  have hin : c * a ≤ X := by
    rw [ha, ← integral_const_mul]
    refine setIntegral_mono_on (standard_integrable.const_mul c).integrableOn (pairProb_integrable b).integrableOn insideBox_measurable fun θ hθ => ?_
    rw [mul_comm c]
    refine mul_le_mul_of_nonneg_left ?_ (Real.exp_pos _).le
    rw [mem_insideBox] at hθ
    rcases hθ.lt_or_eq with h | h
    · have := logistic_pair_lt (s := θ 0) (t := 3) hb (by rwa [abs_of_pos (by norm_num : (0:ℝ) < 3)])
      rw [hc]; unfold pairProb; linarith
    · rw [hc]; unfold pairProb
      rcases abs_eq (by norm_num : (0:ℝ) ≤ 3) |>.1 h with h | h
      · rw [h]
      · rw [h]; simp only [neg_neg]; linarith
  have hout : Y < c * u := by
    have h1 : 0 < ∫ θ in insideBoxᶜ, (c * Real.exp (mvnLogDensity 0 1 θ) - Real.exp (mvnLogDensity 0 1 θ) * pairProb b θ) := by
      refine outside_pos _ ((standard_integrable.const_mul c).sub (pairProb_integrable b)) fun θ hθ => ?_
      rw [Set.mem_compl_iff, mem_insideBox, not_le] at hθ
      have h2 := logistic_pair_lt (s := 3) (t := θ 0) hb (by rwa [abs_of_pos (by norm_num : (0:ℝ) < 3)])
      have h3 : pairProb b θ < c := by rw [hc]; unfold pairProb; linarith
      rw [mul_comm c, ← mul_sub]
      exact mul_pos (Real.exp_pos _) (sub_pos.2 h3)
    rw [integral_sub (standard_integrable.const_mul c).integrableOn (pairProb_integrable b).integrableOn, integral_const_mul] at h1
    linarith
  rw [hall, ← hsplit, insideProb, pairProb_integral b _ insideBox_measurable hneg, ← hX, ← ha, lt_div_iff₀ hapos]
  have h1 := mul_lt_mul_of_pos_right hout hapos
  have h2 := mul_le_mul_of_nonneg_right hin hupos.le
  have h3 : X = X * a + X * u := by rw [← mul_add, hsplit1, mul_one]
  have h4 : (X + Y) * a = X * a + Y * a := add_mul _ _ _
  have h5 : c * u * a = c * a * u := by ring
  linarith

theorem insideProb_close (b h : ℝ) (hh : 0 ≤ h) : insideProb b - h ≤ insideProb (b - h) := by
  have hapos : 0 < ∫ θ in insideBox, Real.exp (mvnLogDensity 0 1 θ) :=
    box_integral_pos _ _ (fun _ => by norm_num) _ (continuous_mvn 0 1) fun θ => Real.exp_pos _
  unfold insideProb
  rw [sub_le_iff_le_add, ← sub_le_iff_le_add', ← sub_div, div_le_iff₀ hapos,
    ← integral_sub (rightProb_integrable b).integrableOn (rightProb_integrable (b - h)).integrableOn, ← integral_const_mul]
  refine setIntegral_mono_on ((rightProb_integrable b).sub (rightProb_integrable (b - h))).integrableOn (standard_integrable.const_mul h).integrableOn
    insideBox_measurable fun θ _ => ?_
  rw [← mul_sub, mul_comm h]
  refine mul_le_mul_of_nonneg_left ?_ (Real.exp_pos _).le
  rw [logistic_sub (θ 0 + (b - h)) (θ 0 + b)]
  have h1 := logistic_unit (θ 0 + b)
  have h2 := logistic_unit (θ 0 + (b - h))
  have h3 := Real.add_one_le_exp (θ 0 + (b - h) - (θ 0 + b))
  have h4 : Real.exp (θ 0 + (b - h) - (θ 0 + b)) ≤ 1 := Real.exp_le_one_iff.2 (by linarith)
  calc logistic (θ 0 + b) * (1 - logistic (θ 0 + (b - h))) * (1 - Real.exp (θ 0 + (b - h) - (θ 0 + b)))
      ≤ 1 * (1 - Real.exp (θ 0 + (b - h) - (θ 0 + b))) := by
        refine mul_le_mul_of_nonneg_right ?_ (by linarith)
        nlinarith [h1.1, h1.2, h2.1, h2.2]
    _ ≤ h := by linarith

/-! ## One item -/

/-- The 1PL model with one item. -/
noncomputable def oneItem (b : ℝ) : OnePL := onePLWith fun _ : Fin 1 => b

/-- The probabilities of the answers to it. -/
noncomputable def oneItemProb (b : ℝ) (θ : Fin 1 → ℝ) : ℕ → ℕ → ℝ := tableProb ((oneItem b).probs (θ 0))

theorem oneItem_answer (b : ℝ) (θ : Fin 1 → ℝ) :
    answerProb (K := (List.replicate 1 2).length) (oneItemProb b) θ (fun _ => 1) = logistic (θ 0 + b) := by
  haveI : Subsingleton (Fin (List.replicate 1 2).length) := inferInstanceAs (Subsingleton (Fin 1))
  unfold answerProb
  rw [Fintype.prod_subsingleton _ ⟨0, by simp⟩, oneItemProb, oneItem, onePLWith_prob]
  simp

theorem oneItem_answers : fullAnswers (List.replicate 1 2) = {fun _ => 0, fun _ => 1} := by
  haveI : Subsingleton (Fin (List.replicate 1 2).length) := inferInstanceAs (Subsingleton (Fin 1))
  ext x
  unfold fullAnswers
  simp only [Fintype.mem_piFinset, Finset.mem_range, Finset.mem_insert, Finset.mem_singleton]
  have hcat : ∀ j : Fin (List.replicate 1 2).length, (List.replicate 1 2)[(j : ℕ)] = 2 := fun j => List.getElem_replicate _
  constructor
  · intro h
    have h0 : x ⟨0, by simp⟩ < 2 := (h ⟨0, by simp⟩).trans_eq (hcat _)
    have : x ⟨0, by simp⟩ = 0 ∨ x ⟨0, by simp⟩ = 1 := by omega
    refine this.imp (fun e => ?_) fun e => ?_ <;>
    · funext j
      rw [Subsingleton.elim j ⟨0, by simp⟩, e]
  · rintro (rfl | rfl) j <;> exact lt_of_lt_of_eq (by norm_num) (hcat j).symm

theorem oneItem_distinct : (fun _ => 0 : Fin (List.replicate 1 2).length → ℕ) ≠ fun _ => 1 := fun h =>
  absurd (congrFun h ⟨0, by simp⟩) (by norm_num)

theorem oneItem_normal (b : ℝ) : normalProb (K := (List.replicate 1 2).length) (oneItemProb b) 1 (fun _ => 1) = rightProb b := by
  unfold normalProb rightProb
  simp only [oneItem_answer]

theorem oneItem_scorer (b : ℝ) : IsScorer (oneItem b).scorer (List.replicate 1 2) (oneItemProb b) :=
  (oneItem b).isScorer (onePLWith_wf _) one_pos

theorem oneItem_positive (b : ℝ) : PositiveProbs (oneItemProb b) (List.replicate 1 2) := (oneItem b).positive (onePLWith_wf _)

theorem oneItem_proper (b : ℝ) : ProperProbs (oneItemProb b) (List.replicate 1 2) := onePLWith_proper _

theorem oneItem_continuous (b : ℝ) : ContinuousProbs (oneItemProb b) := fun j r =>
  (onePLWith_jointly j r).comp (by fun_prop : Continuous fun θ : Fin 1 → ℝ => ((fun _ : Fin 1 => b), θ))

/-! ## The default integration method -/

section Default

variable (hg : ℕ → Except PyErr (List ℝ × List ℝ)) (ch : Matrix (Fin 1) (Fin 1) ℝ → Except PyErr (Matrix (Fin 1) (Fin 1) ℝ))

/-- The rule of the default method. -/
theorem default_rule {n : ℕ} (hn : 1 ≤ n) {pts : Thetas 1} {lw : List ℝ}
    (hok : mmlIntegration hg ch "quasi_mc" (some n) none = .ok (pts, lw)) :
    lw.length = pts.length ∧ pts ≠ [] ∧ (∀ θ ∈ pts, |θ 0| ≤ 3) ∧ pts = (cartesianProd fun _ : Fin 1 => linspace (-3) 3 n) ∧
      ∀ f : (Fin 1 → ℝ) → ℝ, weighted pts (lw.map Real.exp) f = (pts.map fun θ => Real.exp (mvnLogDensity 0 1 θ) * f θ).sum := by
  have h1 := ((C80_setup (d := 1) le_rfl hg ch (some n) none).2.2 n (Or.inl rfl)).1 rfl
  rw [h1] at hok
  have h2 : quasiMc n (1 : Matrix (Fin 1) (Fin 1) ℝ) = .ok (cartesianProd fun _ : Fin 1 => linspace (-3) 3 n,
      (cartesianProd fun _ : Fin 1 => linspace (-3) 3 n).map fun θ => mvnLogDensity 0 1 θ) := by
    unfold quasiMc mvnLogProbs
    simp only [if_pos (Matrix.PosDef.one (n := Fin 1) (R := ℝ))]
    rfl
  rw [h2] at hok
  obtain ⟨rfl, rfl⟩ := Prod.mk.inj (Except.ok.inj hok)
  have hlen : (cartesianProd fun _ : Fin 1 => linspace (-3) 3 n).length = n ^ 1 := length_cartesianProd _ n fun k => length_linspace _ _ _
  refine ⟨by simp, fun h => ?_, fun θ hθ => ?_, rfl, fun f => ?_⟩
  · rw [h, List.length_nil, pow_one] at hlen
    omega
  · rw [mem_cartesianProd] at hθ
    have := hθ 0
    rw [mem_linspace] at this
    obtain ⟨i, hi, e⟩ := this
    rw [e]
    have hi' : (i : ℝ) ≤ (n : ℝ) - 1 := by
      have : (i : ℝ) + 1 ≤ n := by exact_mod_cast hi
      linarith
    have h0 : (0:ℝ) ≤ i := by positivity
    have hle : (i : ℝ) / ((n : ℝ) - 1) ≤ 1 := div_le_one_of_le₀ hi' (by linarith)
    have hge : (0:ℝ) ≤ (i : ℝ) / ((n : ℝ) - 1) := div_nonneg h0 (by linarith)
    rw [abs_le]
    constructor
    · first
      | nlinarith
      | (have : (3 - -3) * (i : ℝ) / ((n : ℝ) - 1) = 6 * ((i : ℝ) / ((n : ℝ) - 1)) := by ring
         linarith)
    · first
      | nlinarith
      | (have : (3 - -3) * (i : ℝ) / ((n : ℝ) - 1) = 6 * ((i : ℝ) / ((n : ℝ) - 1)) := by ring
         linarith)
  · unfold weighted
    generalize (cartesianProd fun _ : Fin 1 => linspace (-3) 3 n) = g
    induction g with
    | nil => simp
    | cons q g ih =>
      simp only [List.map_cons, List.zipWith_cons_cons, List.sum_cons] at ih ⊢
      rw [ih]

/-- The probability of a right answer that the rule gives. -/
theorem default_right {n : ℕ} (hn : 1 ≤ n) {pts : Thetas 1} {lw : List ℝ}
    (hok : mmlIntegration hg ch "quasi_mc" (some n) none = .ok (pts, lw)) (b : ℝ) :
    populationProb (K := (List.replicate 1 2).length) (oneItemProb b) pts (lw.map Real.exp) (fun _ => 1)
      = (pts.map fun θ => Real.exp (mvnLogDensity 0 1 θ) * logistic (θ 0 + b)).sum / (pts.map fun θ => Real.exp (mvnLogDensity 0 1 θ)).sum := by
  obtain ⟨h1, _, _, _, h5⟩ := default_rule hg ch hn hok
  unfold populationProb
  rw [← weighted_const_one pts _ (by simpa using h1), h5, h5]
  simp only [oneItem_answer, mul_one]

theorem default_limit (b : ℝ) : ∀ c, c < insideProb b → ∃ n₀ : ℕ, 1 ≤ n₀ ∧ ∀ n, n₀ ≤ n → ∀ pts lw,
    mmlIntegration hg ch "quasi_mc" (some n) none = .ok (pts, lw) →
    c < populationProb (K := (List.replicate 1 2).length) (oneItemProb b) pts (lw.map Real.exp) (fun _ => 1) := by
  intro c hc
  have hF : Continuous fun θ : Fin 1 → ℝ => Real.exp (mvnLogDensity 0 1 θ) * logistic (θ 0 + b) :=
    (continuous_mvn 0 1).mul (continuous_logistic'.comp (by fun_prop))
  have hapos : 0 < ∫ θ in insideBox, Real.exp (mvnLogDensity 0 1 θ) :=
    box_integral_pos _ _ (fun _ => by norm_num) _ (continuous_mvn 0 1) fun θ => Real.exp_pos _
  have l1 := box_grid_tendsto (fun _ : Fin 1 => (-3 : ℝ)) (fun _ => 3) (fun _ => by norm_num) _ hF
  have l2 := box_grid_tendsto (fun _ : Fin 1 => (-3 : ℝ)) (fun _ => 3) (fun _ => by norm_num) _ (continuous_mvn 0 (1 : Matrix (Fin 1) (Fin 1) ℝ))
  have l3 := (l1.div l2 hapos.ne').eventually_const_lt hc
  obtain ⟨k, hk⟩ := eventually_atTop.1 l3
  refine ⟨k + 2, by omega, fun n hn pts lw hok => ?_⟩
  obtain ⟨k', rfl⟩ : ∃ k', n = k' + 1 := ⟨n - 1, by omega⟩
  have hpts := (default_rule hg ch (by omega) hok).2.2.2.1
  rw [default_right hg ch (by omega) hok b, hpts]
  have hk' := hk k' (by omega)
  simp only [Pi.div_apply] at hk'
  rwa [mul_div_mul_left _ _ (Finset.prod_ne_zero_iff.2 fun _ _ => by
    have : (k' : ℝ) ≠ 0 := by exact_mod_cast (by omega : k' ≠ 0)
    exact div_ne_zero (by norm_num) this)] at hk'

theorem default_mono {n : ℕ} (hn : 1 ≤ n) {pts : Thetas 1} {lw : List ℝ}
    (hok : mmlIntegration hg ch "quasi_mc" (some n) none = .ok (pts, lw)) {b b' : ℝ} (h : b ≤ b') :
    populationProb (K := (List.replicate 1 2).length) (oneItemProb b) pts (lw.map Real.exp) (fun _ => 1)
      ≤ populationProb (K := (List.replicate 1 2).length) (oneItemProb b') pts (lw.map Real.exp) (fun _ => 1) := by
  rw [default_right hg ch hn hok, default_right hg ch hn hok]
  refine div_le_div_of_nonneg_right (List.sum_le_sum fun θ _ => mul_le_mul_of_nonneg_left (logistic_strictMono.monotone (by linarith))
    (Real.exp_pos _).le) (List.sum_nonneg fun v hv => ?_)
  obtain ⟨θ, _, rfl⟩ := List.mem_map.1 hv
  exact (Real.exp_pos _).le

/-- Whatever the probability of a right answer, if the bounds are wide enough the rule gives it for some intercept. -/
theorem default_matches {n : ℕ} (hn : 1 ≤ n) {pts : Thetas 1} {lw : List ℝ}
    (hok : mmlIntegration hg ch "quasi_mc" (some n) none = .ok (pts, lw)) (π β : ℝ) (hlow : logistic (3 - β) ≤ π) (hhigh : π ≤ logistic (β - 3))
    (hβ : 0 ≤ β) : ∃ b, |b| ≤ β ∧ populationProb (K := (List.replicate 1 2).length) (oneItemProb b) pts (lw.map Real.exp) (fun _ => 1) = π := by
  obtain ⟨hl, hne, hbox, _, _⟩ := default_rule hg ch hn hok
  have hWpos : 0 < (pts.map fun θ => Real.exp (mvnLogDensity 0 1 θ)).sum := by
    refine List.sum_pos _ (fun v hv => ?_) (by simpa using hne)
    obtain ⟨θ, _, rfl⟩ := List.mem_map.1 hv
    exact Real.exp_pos _
  have hc : Continuous fun b : ℝ => populationProb (K := (List.replicate 1 2).length) (oneItemProb b) pts (lw.map Real.exp) (fun _ => 1) := by
    simp only [default_right hg ch hn hok]
    refine Continuous.div_const ?_ _
    generalize pts = g
    induction g with
    | nil => simpa using continuous_const
    | cons q g ih =>
      simp only [List.map_cons, List.sum_cons]
      exact (continuous_const.mul (continuous_logistic'.comp (by fun_prop))).add ih
  have hle : ∀ b c : ℝ, (∀ θ ∈ pts, logistic (θ 0 + b) ≤ c) →
      populationProb (K := (List.replicate 1 2).length) (oneItemProb b) pts (lw.map Real.exp) (fun _ => 1) ≤ c := by
    intro b c h
    rw [default_right hg ch hn hok, div_le_iff₀ hWpos, ← List.sum_map_mul_left]
    exact List.sum_le_sum fun θ hθ => by
      rw [mul_comm c]; exact mul_le_mul_of_nonneg_left (h θ hθ) (Real.exp_pos _).le
  have hge : ∀ b c : ℝ, (∀ θ ∈ pts, c ≤ logistic (θ 0 + b)) →
      c ≤ populationProb (K := (List.replicate 1 2).length) (oneItemProb b) pts (lw.map Real.exp) (fun _ => 1) := by
    intro b c h
    rw [default_right hg ch hn hok, le_div_iff₀ hWpos, ← List.sum_map_mul_left]
    exact List.sum_le_sum fun θ hθ => by
      rw [mul_comm c]; exact mul_le_mul_of_nonneg_left (h θ hθ) (Real.exp_pos _).le
  have h1 := hle (-β) π fun θ hθ => (logistic_strictMono.monotone (by linarith [(abs_le.1 (hbox θ hθ)).2])).trans hlow
  have h2 := hge β π fun θ hθ => hhigh.trans (logistic_strictMono.monotone (by linarith [(abs_le.1 (hbox θ hθ)).1]))
  obtain ⟨b, hb, e⟩ := intermediate_value_Icc (by linarith : -β ≤ β) hc.continuousOn ⟨h1, h2⟩
  exact ⟨b, abs_le.2 hb, e⟩

/-- C151 is false for the default method: respondents from a standard normal population, one easy item. There is an intercept below the true
one such that, with enough points and respondents, the estimates (the intercepts with the smallest loss within any bounds that are wide
enough) are below it with a probability as close to one as one likes. -/
theorem C151_default_false {b₀ : ℝ} (hb₀ : 0 < b₀) :
    ∃ b₁ < b₀, ∃ β₀ : ℝ, ∃ n₀ : ℕ, ∀ risk : ℝ, 0 < risk → ∃ N₀ : ℕ, ∀ β, β₀ ≤ β → ∀ n, n₀ ≤ n → ∀ N, N₀ ≤ N →
      ∀ pts lw, mmlIntegration hg ch "quasi_mc" (some n) none = .ok (pts, lw) →
      ∀ estimate : (Fin N → Fin (List.replicate 1 2).length → ℕ) → ℝ,
      (∀ s ∈ samples N (List.replicate 1 2), |estimate s| ≤ β ∧
        ∃ L' : ℝ, mmlLoss (oneItem (estimate s)).scorer (rowsOf N (List.replicate 1 2).length (sampleCells s)) pts lw = .ok (some L') ∧
          ∀ b, |b| ≤ β → ∃ L : ℝ, mmlLoss (oneItem b).scorer (rowsOf N (List.replicate 1 2).length (sampleCells s)) pts lw = .ok (some L) ∧ L' ≤ L) →
      ∀ near : Finset (Fin N → Fin (List.replicate 1 2).length → ℕ), near ⊆ samples N (List.replicate 1 2) →
        (∀ s ∈ near, b₁ ≤ estimate s) → ∑ s ∈ near, sampleProb (normalProb (oneItemProb b₀) 1) s ≤ risk := by
  have hgap := rightProb_lt_inside hb₀
  set π := rightProb b₀ with hπ
  set c := insideProb b₀ - π with hcdef
  have hc : 0 < c := by linarith
  set P₀ : (Fin (List.replicate 1 2).length → ℕ) → ℝ := normalProb (oneItemProb b₀) 1 with hP₀
  have hle1 : ∀ b (θ : Fin 1 → ℝ) j r, oneItemProb b θ j r ≤ 1 := fun b θ j r => onePLWith_le_one _ _ j r
  have hp : ∀ x ∈ fullAnswers (List.replicate 1 2), 0 < P₀ x := fun x hx =>
    normalProb_pos (oneItem_positive b₀) (oneItem_continuous b₀) (oneItem_scorer b₀).nonneg (hle1 b₀) Matrix.PosDef.one hx
  have hps : ∑ x ∈ fullAnswers (List.replicate 1 2), P₀ x = 1 :=
    normalProb_sum (oneItem_proper b₀) (oneItem_continuous b₀) (oneItem_scorer b₀).nonneg (hle1 b₀) Matrix.PosDef.one
  have hp1 : P₀ (fun _ => 1) = π := oneItem_normal b₀
  have hps' := hps
  rw [oneItem_answers, Finset.sum_pair oneItem_distinct, hp1] at hps'
  have hπ0 : 0 < π := by
    rw [← hp1]; exact hp _ (by rw [oneItem_answers]; simp)
  have hπ1 : π < 1 := by
    have := hp (fun _ => 0) (by rw [oneItem_answers]; simp)
    linarith
  obtain ⟨β₁, hβ₁⟩ : ∃ β₁ : ℝ, ∀ β, β₁ ≤ β → logistic (3 - β) ≤ π ∧ π ≤ logistic (β - 3) := by
    have key : ∀ v : ℝ, 0 < v → ∃ z : ℝ, ∀ x, x ≤ z → logistic x ≤ v := by
      intro v hv
      refine ⟨Real.log v, fun x hx => ?_⟩
      have h1 : Real.exp x ≤ v := by rw [← Real.exp_log hv]; exact Real.exp_le_exp.2 hx
      unfold logistic
      exact (div_le_self (Real.exp_pos x).le (by linarith [Real.exp_pos x])).trans h1
    obtain ⟨z, hz⟩ := key π hπ0
    obtain ⟨z', hz'⟩ := key (1 - π) (by linarith)
    refine ⟨max (3 - z) (3 - z'), fun β hβ => ⟨hz _ (by linarith [le_max_left (3 - z) (3 - z')]), ?_⟩⟩
    have := hz' (3 - β) (by linarith [le_max_right (3 - z) (3 - z')])
    have e : logistic (β - 3) = 1 - logistic (3 - β) := by rw [← logistic_neg']; congr 1; ring
    linarith
  have hb₁ := insideProb_close b₀ (c / 2) (by linarith)
  obtain ⟨n₀, hn₀, hlim⟩ := default_limit hg ch (b₀ - c / 2) (π + c / 4) (by linarith)
  refine ⟨b₀ - c / 2, by linarith, max β₁ 0, n₀, fun risk hrisk => ?_⟩
  obtain ⟨k, hk⟩ := exists_nat_gt (32 * ((fullAnswers (List.replicate 1 2)).card - 1) / (c / 4) ^ 2 / risk)
  refine ⟨k + 1, fun β hβ n hn N hN pts lw hok estimate hest near hnear hhigh => ?_⟩
  have hn1 : 1 ≤ n := hn₀.trans hn
  obtain ⟨hl, hne, -, -, -⟩ := default_rule hg ch hn1 hok
  obtain ⟨h1, h2⟩ := hβ₁ β ((le_max_left _ _).trans hβ)
  obtain ⟨bm, hbm, hmatch⟩ := default_matches hg ch hn1 hok π β h1 h2 ((le_max_right _ _).trans hβ)
  have hsame : ∀ x ∈ fullAnswers (List.replicate 1 2), populationProb (oneItemProb bm) pts (lw.map Real.exp) x = P₀ x := by
    have hs := populationProb_sum pts lw hl hne (oneItem_proper bm)
    rw [oneItem_answers, Finset.sum_pair oneItem_distinct, hmatch] at hs
    intro x hx
    rw [oneItem_answers, Finset.mem_insert, Finset.mem_singleton] at hx
    rcases hx with rfl | rfl
    · linarith
    · rw [hmatch, hp1]
  have hNpos : 0 < N := by omega
  have hN' : (0:ℝ) < N := by exact_mod_cast hNpos
  refine (C151_probability (oneItem_scorer bm) (oneItem_positive bm) hp hps pts lw hl hne 0 (fun x hx => by rw [hsame x hx, add_zero]) hNpos
    (fit := fun s => (oneItem (estimate s)).scorer) (P' := fun s => oneItemProb (estimate s)) (fun s hs => ?_) (c / 4) (by linarith) (by rw [mul_zero]; positivity)
    near hnear fun s hs => ?_).trans ?_
  · obtain ⟨_, L', hL', hbest⟩ := hest s hs
    obtain ⟨L, hL, hle⟩ := hbest bm hbm
    exact ⟨oneItem_scorer _, oneItem_positive _, oneItem_proper _, L, L', hL, hL', hle⟩
  · have g1 := hlim n hn pts lw hok
    have g2 := default_mono hg ch hn1 hok (hhigh s hs)
    unfold patternDistance
    rw [oneItem_answers, Finset.sum_pair oneItem_distinct, hp1]
    refine le_trans ?_ (le_add_of_nonneg_left (abs_nonneg _))
    exact le_trans (by linarith) (le_abs_self _)
  · have h1 : (k:ℝ) ≤ N := by exact_mod_cast (by omega : k ≤ N)
    rw [div_div, mul_comm (N:ℝ), ← div_div, div_le_iff₀ hN']
    rw [div_lt_iff₀ hrisk] at hk
    nlinarith

end Default

/-- There are such estimates: for every sample some intercept within bounds has the smallest loss. With intercept 1, enough points and
respondents, they are too low with a probability of at least 95 percent. -/
example : ∃ b₁ : ℝ, b₁ < 1 ∧ ∃ (β : ℝ) (n₀ N₀ : ℕ), ∀ n, n₀ ≤ n → ∀ N, N₀ ≤ N →
    ∃ (pts : Thetas 1) (lw : List ℝ) (estimate : (Fin N → Fin (List.replicate 1 2).length → ℕ) → ℝ),
      mmlIntegration (fun _ => .error .valueError) (fun _ => .error .valueError) "quasi_mc" (some n) none = .ok (pts, lw) ∧
      (∀ s ∈ samples N (List.replicate 1 2), |estimate s| ≤ β) ∧
      ∀ near : Finset (Fin N → Fin (List.replicate 1 2).length → ℕ), near ⊆ samples N (List.replicate 1 2) →
        (∀ s ∈ near, b₁ ≤ estimate s) → ∑ s ∈ near, sampleProb (normalProb (oneItemProb 1) 1) s ≤ 1 / 20 := by
  classical
  obtain ⟨b₁, h1, β₀, n₀, h⟩ := C151_default_false (fun _ => .error .valueError) (fun _ => .error .valueError) (b₀ := 1) one_pos
  obtain ⟨N₀, hN₀⟩ := h (1 / 20) (by norm_num)
  refine ⟨b₁, h1, max β₀ 0, max n₀ 1, N₀, fun n hn N hN => ?_⟩
  have hn1 : 1 ≤ n := (le_max_right _ _).trans hn
  obtain ⟨pts, lw, hq, -⟩ := (C80_points (d := 1) n 1).1 Matrix.PosDef.one
  have hok : mmlIntegration (d := 1) (fun _ => .error .valueError) (fun _ => .error .valueError) "quasi_mc" (some n) none = .ok (pts, lw) := by
    rw [((C80_setup (d := 1) le_rfl _ _ (some n) none).2.2 n (Or.inl rfl)).1 rfl, hq]
  obtain ⟨hl, hne, -⟩ := default_rule _ _ hn1 hok
  choose! estimate hb hmin using C133_onePL_exists (items := 1) one_pos pts lw hl hne (max β₀ 0) (le_max_right _ _) N
  refine ⟨pts, lw, fun s => estimate s 0, hok, fun s hs => hb s hs 0, hN₀ _ (le_max_left _ _) n ((le_max_left _ _).trans hn) N hN pts lw hok
    (fun s => estimate s 0) fun s hs => ⟨hb s hs 0, ?_⟩⟩
  obtain ⟨L', hL', hbest⟩ := hmin s hs
  refine ⟨L', ?_, fun b hb' => hbest (fun _ => b) fun _ => hb'⟩
  have e : (fun _ : Fin 1 => estimate s 0) = estimate s := funext fun j => by rw [Subsingleton.elim j 0]
  rw [oneItem, e]
  exact hL'

end Irt
