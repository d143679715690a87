import Verif.Lemmas.BitLimit
import Verif.Props.Categorical
import Mathlib.Analysis.SpecialFunctions.Log.Deriv
import Mathlib.Analysis.SpecialFunctions.ExpDeriv
import Mathlib.MeasureTheory.Integral.IntervalIntegral.IntegrationByParts

/-! # C104: more grid points make the bit scores approach the documented integral -/

namespace Irt

open Spec Filter Topology

variable {d : ℕ}

theorem Bit.hasGrid (b : Bit d) (hb : 0 < b.gridPoints) (gs ge : Fin d → ℝ) (θ : Thetas d) (k : Fin d) :
    HasGrid b.gridPoints (gs k) (ge k) (b.startAdj k) (b.gridFor gs ge θ k) := by
  intro i h1 h2
  obtain ⟨pre, hp, -, -, hpm⟩ := gridColumn_props b hb (b.startAdj k) (gs k) (ge k) (θ.map fun t => b.adjust t k) (by
    intro y hy
    obtain ⟨t, -, rfl⟩ := List.mem_map.1 hy
    exact le_max_right _ _)
  unfold Bit.gridFor
  rw [hp, List.mem_append]
  refine Or.inl ((hpm _).2 (Or.inr ⟨i, h1, _, linspace01_getElem? _ _ h2, ?_⟩))
  congr 1
  ring

theorem Bit.mem_gridFor (b : Bit d) (hb : 0 < b.gridPoints) (gs ge : Fin d → ℝ) (θ : Thetas d) (k : Fin d)
    (t : Fin d → ℝ) (ht : t ∈ θ) : b.adjust t k ∈ b.gridFor gs ge θ k := by
  obtain ⟨pre, hp, -⟩ := gridColumn_props b hb (b.startAdj k) (gs k) (ge k) (θ.map fun t => b.adjust t k) (by
    intro y hy
    obtain ⟨t, -, rfl⟩ := List.mem_map.1 hy
    exact le_max_right _ _)
  unfold Bit.gridFor
  rw [hp]
  exact List.mem_append_right _ (List.mem_map_of_mem ht)

/-- The conditions under which the bit scores of latent variable `k` approach the documented integral, for a
respondent with orientation adjusted score `x`: along the curve the entropies of the chosen items are
continuously differentiable, and outside the grid, that is between the starting theta and the start of the
grid and between the end of the grid and `x`, each of them only rises or only falls. -/
def Bit.Resolved (b : Bit d) (gs ge med : Fin d → ℝ) (k : Fin d) (x : ℝ) : Prop :=
  gs k < ge k ∧ ∀ h ∈ b.curveEntropies med k, ContDiff ℝ 1 h ∧ OneWayOn h (Set.Icc (b.startAdj k) (gs k)) ∧
    OneWayOn h (Set.Icc (ge k) x)

/-- C104: for a usable scale and any batch of respondents, the bit scores with more and more grid points tend to
the documented sum of integrals of absolute entropy derivatives. Missing: entropies that turn
outside the grid, for which the claim is false (`C104_default_false`). -/
theorem C104_limit_partial (b : Bit d) (hb : b.Usable) (gs ge med : Fin d → ℝ)
    (hset : b.gridSetup = .ok (gs, ge, med)) (θ : Thetas d) (hθ : θ ≠ []) :
    ∃ B : ℕ → (Fin d → ℝ) → Fin d → ℝ,
      (∀ n, 1 ≤ n → ({ b with gridPoints := n } : Bit d).transform θ = .ok (θ.map (B n))) ∧
      ∀ t ∈ θ, ∀ k, b.Resolved gs ge med k (b.adjust t k) →
        Tendsto (fun n => B n t k) atTop
          (𝓝 (bitIntegral (b.curveEntropies med k) (b.startAdj k) (b.adjust t k))) := by
  let c : ℕ → Bit d := fun n => { b with gridPoints := n }
  have hc : ∀ n, 1 ≤ n → (c n).Usable := fun n hn => ⟨hb.sums, hb.items, hn, hb.population⟩
  refine ⟨fun n t k => gridScore (b.curveEntropies med k) (b.startAdj k) ((c n).gridFor gs ge θ k) (b.adjust t k),
    ?_, ?_⟩
  · intro n hn
    exact (c n).transform_eq (hc n hn) gs ge med hset θ hθ
  · intro t ht k hr
    rw [← tendsto_add_atTop_iff_nat 1]
    simp only [gridScore, varFrom_sumDist, bitIntegral]
    apply tendsto_list_sum
    intro h hh
    obtain ⟨h1, h2, h3⟩ := hr.2 h hh
    have := gridVar_tendsto h1 hr.1 (show b.startAdj k ≤ b.adjust t k from le_max_right _ _)
      (fun n => (c (max n 1)).gridFor gs ge θ k)
      (fun n => (c (max n 1)).mem_gridFor (by show 0 < max n 1; omega) gs ge θ k t ht)
      (fun n hn => by
        have := (c (max n 1)).hasGrid (by show 0 < max n 1; omega) gs ge θ k
        have e : (c (max n 1)).gridPoints = n := max_eq_left (by omega)
        rw [e] at this
        exact this) h2 h3
    rw [← tendsto_add_atTop_iff_nat 1] at this
    refine this.congr fun n => ?_
    rw [show max (n + 1) 1 = n + 1 by omega]

/-- C104: with any number of grid points and whatever the batch, a bit score never exceeds the documented
integral. -/
theorem C104_never_above (b : Bit d) (hb : b.Usable) (gs ge med : Fin d → ℝ)
    (hset : b.gridSetup = .ok (gs, ge, med)) (hsm : ∀ k, ∀ h ∈ b.curveEntropies med k, ContDiff ℝ 1 h)
    (θ : Thetas d) (hθ : θ ≠ []) :
    ∃ B : (Fin d → ℝ) → Fin d → ℝ, b.transform θ = .ok (θ.map B) ∧
      ∀ t ∈ θ, ∀ k, B t k ≤ bitIntegral (b.curveEntropies med k) (b.startAdj k) (b.adjust t k) := by
  refine ⟨_, b.transform_eq hb gs ge med hset θ hθ, ?_⟩
  intro t _ k
  rw [gridScore, varFrom_sumDist, bitIntegral]
  apply List.sum_le_sum
  intro h hh
  apply varFrom_le_integral (hsm k h hh) _ _ _ (show b.startAdj k ≤ b.adjust t k from le_max_right _ _)
  · rw [List.pairwise_cons]
    refine ⟨?_, (gridPts_sorted _).sublist List.filter_sublist⟩
    intro u hu
    have := (List.mem_filter.1 hu).2
    simp only [decide_eq_true_eq] at this
    exact this.1
  · intro u hu
    have := (List.mem_filter.1 hu).2
    simp only [decide_eq_true_eq] at this
    exact this.2

/-! ## The scale of the latent variable does not matter -/

/-- The documented integral is the same on every increasing relabelling of the latent scale. -/
theorem bitIntegral_comp (H : List (ℝ → ℝ)) (hH : ∀ h ∈ H, ContDiff ℝ 1 h) (φ : ℝ → ℝ) (hφ : ContDiff ℝ 1 φ)
    (hm : Monotone φ) (s x : ℝ) :
    bitIntegral (H.map fun h y => h (φ y)) s x = bitIntegral H (φ s) (φ x) := by
  unfold bitIntegral
  rw [List.map_map]
  congr 1
  apply List.map_congr_left
  intro h hh
  have h1 := hH h hh
  have := intervalIntegral.integral_comp_mul_deriv (a := s) (b := x) (f := φ) (f' := deriv φ)
    (g := fun t => |deriv h t|) (fun y _ => ((hφ.differentiable one_ne_zero) y).hasDerivAt)
    (hφ.continuous_deriv le_rfl).continuousOn (continuous_abs_deriv h1)
  rw [← this]
  apply intervalIntegral.integral_congr
  intro y _
  simp only [Function.comp]
  have e : deriv (fun y => h (φ y)) y = deriv h (φ y) * deriv φ y :=
    (((h1.differentiable one_ne_zero) (φ y)).hasDerivAt.comp y
      ((hφ.differentiable one_ne_zero) y).hasDerivAt).deriv
  rw [e, abs_mul, abs_of_nonneg (hm.deriv_nonneg : 0 ≤ deriv φ y)]

/-- C104: bit scores do not depend on the scale of the latent variable. When one model is the other with its
latent variable relabelled by an increasing function `φ`, the bit scores of a respondent under the two models
tend to the same number, the documented integral, as the number of grid points grows. -/
theorem C104_relabelled (b b' : Bit 1) (hb : b.Usable) (hb' : b'.Usable) (φ : ℝ → ℝ) (hφ : ContDiff ℝ 1 φ)
    (hm : Monotone φ) (hprobs : ∀ t, b'.probs t = b.probs fun _ => φ (t 0)) (hitems : b'.items = b.items)
    (hmul : b.multiplier 0 = 1) (hmul' : b'.multiplier 0 = 1) (hstart : φ (b'.startTheta 0) = b.startTheta 0)
    (gs ge med gs' ge' med' : Fin 1 → ℝ) (hset : b.gridSetup = .ok (gs, ge, med))
    (hset' : b'.gridSetup = .ok (gs', ge', med')) (t : ℝ) (ht : b'.startTheta 0 ≤ t)
    (hr : b.Resolved gs ge med 0 (φ t)) (hr' : b'.Resolved gs' ge' med' 0 t) :
    ∃ B B' : ℕ → ℝ,
      (∀ n, 1 ≤ n → ({ b with gridPoints := n } : Bit 1).transform [fun _ => φ t] = .ok [fun _ => B n] ∧
        ({ b' with gridPoints := n } : Bit 1).transform [fun _ => t] = .ok [fun _ => B' n]) ∧
      ∃ L, Tendsto B atTop (𝓝 L) ∧ Tendsto B' atTop (𝓝 L) := by
  obtain ⟨B, hB, hlim⟩ := C104_limit_partial b hb gs ge med hset [fun _ => φ t] (by simp)
  obtain ⟨B', hB', hlim'⟩ := C104_limit_partial b' hb' gs' ge' med' hset' [fun _ => t] (by simp)
  have ha : b.adjust (fun _ => φ t) 0 = φ t := by
    unfold Bit.adjust Bit.startAdj
    rw [hmul, mul_one, mul_one, ← hstart, max_eq_left (hm ht)]
  have ha' : b'.adjust (fun _ => t) 0 = t := by
    unfold Bit.adjust Bit.startAdj
    rw [hmul', mul_one, mul_one, max_eq_left ht]
  have hs : b.startAdj 0 = φ (b'.startTheta 0) := by rw [Bit.startAdj, hmul, mul_one, hstart]
  have hs' : b'.startAdj 0 = b'.startTheta 0 := by rw [Bit.startAdj, hmul', mul_one]
  have hcurve : ∀ x, b.curve med 0 x = fun _ => x := by
    intro x
    funext j
    rw [Subsingleton.elim j 0, Bit.curve, if_pos rfl, hmul, mul_one]
  have hcurve' : ∀ x, b'.curve med' 0 x = fun _ => x := by
    intro x
    funext j
    rw [Subsingleton.elim j 0, Bit.curve, if_pos rfl, hmul', mul_one]
  have hH : b'.curveEntropies med' 0 = (b.curveEntropies med 0).map fun h y => h (φ y) := by
    unfold Bit.curveEntropies
    rw [List.map_map, hitems]
    apply List.map_congr_left
    intro i _
    funext y
    simp only [Function.comp, hcurve, hcurve', Bit.itemEntropy, hprobs]
  refine ⟨fun n => B n (fun _ => φ t) 0, fun n => B' n (fun _ => t) 0, ?_,
    bitIntegral (b.curveEntropies med 0) (b.startAdj 0) (φ t), ?_, ?_⟩
  · intro n hn
    rw [hB n hn, hB' n hn]
    constructor
    · simp only [List.map_cons, List.map_nil]
      congr 2
      funext j
      rw [Subsingleton.elim j 0]
    · simp only [List.map_cons, List.map_nil]
      congr 2
      funext j
      rw [Subsingleton.elim j 0]
  · have := hlim _ (List.mem_singleton.2 rfl) 0 (by rw [ha]; exact hr)
    rwa [ha] at this
  · have := hlim' _ (List.mem_singleton.2 rfl) 0 (by rw [ha']; exact hr')
    rw [hH, bitIntegral_comp _ (fun h hh => (hr.2 h hh).1) φ hφ hm, hs', ha', ← hs] at this
    exact this

/-! ## Items with two categories -/

/-- Entropy in bits, as the package computes it, of an answer that is correct with log odds `z`. -/
noncomputable def oddsEntropy (z : ℝ) : ℝ := smoothEntropy [1 - logistic z, logistic z]

theorem oddsEntropy_eq (z : ℝ) : oddsEntropy z =
    ((1 - sigmoid z) * -Real.log (1 - sigmoid z + 1e-10) + sigmoid z * -Real.log (sigmoid z + 1e-10)) / Real.log 2 := by
  unfold oddsEntropy smoothEntropy
  rw [logistic_eq_sigmoid]
  simp only [List.map_cons, List.map_nil, List.sum_cons, List.sum_nil]
  ring

theorem sigmoid_neg' (z : ℝ) : sigmoid (-z) = 1 - sigmoid z := by
  unfold sigmoid
  rw [neg_neg, Real.exp_neg]
  have := Real.exp_pos z
  field_simp
  ring

theorem oddsEntropy_neg (z : ℝ) : oddsEntropy (-z) = oddsEntropy z := by
  rw [oddsEntropy_eq, oddsEntropy_eq, sigmoid_neg', sub_sub_cancel]
  ring

theorem oddsEntropy_contDiff : ContDiff ℝ 1 oddsEntropy := by
  have hs : ContDiff ℝ 1 sigmoid := by
    unfold sigmoid
    apply ContDiff.div contDiff_const
    · exact contDiff_const.add (Real.contDiff_exp.comp contDiff_neg)
    · intro x; positivity
  have h1 : ContDiff ℝ 1 fun z => 1 - sigmoid z := contDiff_const.sub hs
  have : oddsEntropy = fun z => ((1 - sigmoid z) * -Real.log (1 - sigmoid z + 1e-10) +
      sigmoid z * -Real.log (sigmoid z + 1e-10)) / Real.log 2 := funext oddsEntropy_eq
  rw [this]
  apply ContDiff.div_const
  apply ContDiff.add
  · apply h1.mul
    apply ContDiff.neg
    apply ContDiff.log (h1.add contDiff_const)
    intro x
    have := sigmoid_lt_one x
    have : (0 : ℝ) < 1e-10 := by norm_num
    linarith
  · apply hs.mul
    apply ContDiff.neg
    apply ContDiff.log (hs.add contDiff_const)
    intro x
    have := sigmoid_pos x
    have : (0 : ℝ) < 1e-10 := by norm_num
    linarith

/-- The entropy of a two-category item rises until the log odds are zero. -/
theorem oddsEntropy_mono : MonotoneOn oddsEntropy (Set.Iic 0) := by
  have hl2 : 0 < Real.log 2 := Real.log_pos (by norm_num)
  set e : ℝ := 1e-10 with he
  have hepos : 0 < e := by norm_num [he]
  have hF : MonotoneOn (fun p => (1 - p) * -Real.log (1 - p + e) + p * -Real.log (p + e)) (Set.Icc 0 (1 / 2)) := by
    have hd : ∀ p ∈ Set.Icc (0 : ℝ) (1 / 2), HasDerivAt
        (fun p => (1 - p) * -Real.log (1 - p + e) + p * -Real.log (p + e))
        ((-1) * -Real.log (1 - p + e) + (1 - p) * -(-1 / (1 - p + e)) +
          (1 * -Real.log (p + e) + p * -(1 / (p + e)))) p := by
      intro p hp
      have a1 : HasDerivAt (fun p : ℝ => 1 - p) (-1) p := by simpa using (hasDerivAt_id p).const_sub 1
      have a2 := (a1.add_const e).log (by have := hp.2; intro h; linarith)
      have a3 := ((hasDerivAt_id p).add_const e).log (by have := hp.1; simp only [id]; intro h; linarith)
      exact (a1.mul a2.neg).add ((hasDerivAt_id p).mul a3.neg)
    apply monotoneOn_of_deriv_nonneg (convex_Icc _ _)
    · exact fun p hp => (hd p hp).continuousAt.continuousWithinAt
    · intro p hp
      rw [interior_Icc] at hp
      exact (hd p ⟨hp.1.le, hp.2.le⟩).differentiableAt.differentiableWithinAt
    · intro p hp
      rw [interior_Icc] at hp
      rw [(hd p ⟨hp.1.le, hp.2.le⟩).deriv]
      obtain ⟨h0, h1⟩ := hp
      have hA : 0 < p + e := by linarith
      have hB : 0 < 1 - p + e := by linarith
      have l1 : Real.log (p + e) ≤ Real.log (1 - p + e) := Real.log_le_log hA (by linarith)
      have l2 : p * (1 / (p + e)) ≤ (1 - p) * (1 / (1 - p + e)) := by
        rw [mul_one_div, mul_one_div, div_le_div_iff₀ hA hB]
        nlinarith
      have l3 : (1 - p) * -(-1 / (1 - p + e)) = (1 - p) * (1 / (1 - p + e)) := by ring
      have l4 : p * -(1 / (p + e)) = -(p * (1 / (p + e))) := by ring
      rw [l3, l4]
      have := add_nonneg (sub_nonneg.2 l1) (sub_nonneg.2 l2)
      refine this.trans (le_of_eq ?_)
      ring
  intro y hy z hz hyz
  rw [oddsEntropy_eq, oddsEntropy_eq]
  apply div_le_div_of_nonneg_right _ hl2.le
  have h0 : sigmoid 0 = 1 / 2 := by unfold sigmoid; norm_num
  exact hF ⟨(sigmoid_pos y).le, h0 ▸ sigmoid_strictMono.monotone hy⟩
    ⟨(sigmoid_pos z).le, h0 ▸ sigmoid_strictMono.monotone hz⟩ (sigmoid_strictMono.monotone hyz)

theorem oddsEntropy_anti : AntitoneOn oddsEntropy (Set.Ici 0) := by
  intro y hy z hz hyz
  rw [← oddsEntropy_neg y, ← oddsEntropy_neg z]
  exact oddsEntropy_mono (show -z ≤ 0 by simpa using hz) (show -y ≤ 0 by simpa using hy) (by linarith)

/-- The entropy is largest at even odds, and only there. -/
theorem oddsEntropy_lt (z : ℝ) (hz : z ≠ 0) : oddsEntropy z < oddsEntropy 0 := by
  have h0 : sigmoid 0 = 1 / 2 := by unfold sigmoid; norm_num
  have := smoothEntropy_lt_half (sigmoid z) (sigmoid_pos z) (sigmoid_lt_one z)
    (by rw [← h0]; exact sigmoid_strictMono.injective.ne hz)
  unfold oddsEntropy
  rw [logistic_eq_sigmoid, logistic_eq_sigmoid, h0]
  norm_num at this ⊢
  exact this

/-- The integral for one two-category item with easiness `c`, between `s` and `x`: entropy gained on the way up
to the difficulty and lost on the way down after it. -/
noncomputable def rampBits (c s x : ℝ) : ℝ :=
  if x + c ≤ 0 then oddsEntropy (x + c) - oddsEntropy (s + c)
  else 2 * oddsEntropy 0 - oddsEntropy (s + c) - oddsEntropy (x + c)

theorem ramp_contDiff (c : ℝ) : ContDiff ℝ 1 fun y => oddsEntropy (y + c) :=
  oddsEntropy_contDiff.comp (contDiff_id.add contDiff_const)

theorem ramp_mono (c : ℝ) : MonotoneOn (fun y => oddsEntropy (y + c)) (Set.Iic (-c)) := by
  intro y hy z hz hyz
  have hy' : y ≤ -c := hy
  have hz' : z ≤ -c := hz
  exact oddsEntropy_mono (show y + c ≤ 0 by linarith) (show z + c ≤ 0 by linarith) (by linarith)

theorem ramp_anti (c : ℝ) : AntitoneOn (fun y => oddsEntropy (y + c)) (Set.Ici (-c)) := by
  intro y hy z hz hyz
  have hy' : -c ≤ y := hy
  have hz' : -c ≤ z := hz
  exact oddsEntropy_anti (show 0 ≤ y + c by linarith) (show 0 ≤ z + c by linarith) (by linarith)

theorem ramp_integral (c s x : ℝ) (hs : s + c ≤ 0) (hsx : s ≤ x) :
    (∫ t in s..x, |deriv (fun y => oddsEntropy (y + c)) t|) = rampBits c s x := by
  have hi : ∀ p q : ℝ, IntervalIntegrable (fun t => |deriv (fun y => oddsEntropy (y + c)) t|)
      MeasureTheory.volume p q := fun p q => (continuous_abs_deriv (ramp_contDiff c)).intervalIntegrable _ _
  unfold rampBits
  split_ifs with h
  · rw [step_oneWay (ramp_contDiff c) hsx (Or.inl ((ramp_mono c).mono fun y hy => by
      show y ≤ -c
      linarith [hy.2])), abs_sub_comm, abs_of_nonneg]
    exact sub_nonneg.2 (oddsEntropy_mono hs h (by linarith))
  · push Not at h
    rw [← intervalIntegral.integral_add_adjacent_intervals (hi s (-c)) (hi (-c) x),
      step_oneWay (ramp_contDiff c) (by linarith) (Or.inl ((ramp_mono c).mono fun y hy => hy.2)),
      step_oneWay (ramp_contDiff c) (by linarith) (Or.inr ((ramp_anti c).mono fun y hy => hy.1)),
      neg_add_cancel, abs_sub_comm, abs_of_nonneg, abs_of_nonneg]
    · ring
    · exact sub_nonneg.2 (oddsEntropy_anti (Set.mem_Ici.2 le_rfl) (show 0 ≤ x + c from h.le) h.le)
    · exact sub_nonneg.2 (oddsEntropy_mono hs (Set.mem_Iic.2 le_rfl) hs)

/-- The bit scale of a 1PL model with the default starting theta and without a population sample. -/
noncomputable def OnePL.bit (m : OnePL) (n : ℕ) : Bit 1 :=
  ⟨fun t => m.probs (t 0), fun t => ((m.probs (t 0)).map fun p => p.getD 1 0).sum, List.range m.items, n, none,
    fun _ => -10000⟩

theorem OnePL.probs_eq (m : OnePL) (hm : m.WF) (x : ℝ) :
    m.probs x = m.bias.map fun c => [1 - logistic (x + c), logistic (x + c)] := by
  apply List.ext_getElem?
  intro j
  rw [List.getElem?_map]
  by_cases hj : j < m.items
  · obtain ⟨c, hc⟩ := getElem?_of_lt m.bias j (by rw [hm]; exact hj)
    rw [C03_onePL_formula m hm x j c hc, hc]
    rfl
  · rw [List.getElem?_eq_none (l := m.bias) (by rw [hm]; omega), Option.map_none, List.getElem?_eq_none]
    unfold OnePL.probs probabilitiesFromOutput
    rw [List.length_map, length_viewRows]
    omega

theorem OnePL.bit_multiplier (m : OnePL) (hm : m.WF) (n : ℕ) : (m.bit n).multiplier 0 = 1 := by
  unfold Bit.multiplier invertMultiplier
  rw [if_neg]
  simp only [OnePL.bit, if_true, gt_iff_lt, not_lt, m.probs_eq hm, List.map_map]
  apply List.sum_le_sum
  intro c _
  simp only [Function.comp, List.getD_cons_succ, List.getD_cons_zero, logistic_eq_sigmoid]
  exact sigmoid_strictMono.monotone (by linarith)

/-- The scale is the one that `Bit(model, grid_points=n)` creates. -/
theorem OnePL.bit_created (m : OnePL) (hm : m.WF) (n : ℕ) (hn : 1 ≤ n) :
    Bit.create (fun t : Fin 1 → ℝ => m.probs (t 0)) (fun t => ((m.probs (t 0)).map fun p => p.getD 1 0).sum) m.items
      none none none n = .ok (m.bit n) := by
  have h := m.bit_multiplier hm n
  unfold Bit.create
  rw [if_neg (by simp; omega)]
  simp only [Option.getD_none, Int.toNat_natCast]
  unfold OnePL.bit
  congr 2
  funext k
  rw [Subsingleton.elim k 0]
  have h' : invertMultiplier (fun t : Fin 1 → ℝ => ((m.probs (t 0)).map fun p => p.getD 1 0).sum) 0 = 1 := h
  rw [h', one_mul]

theorem OnePL.bit_usable (m : OnePL) (hm : m.WF) (n : ℕ) (hn : 1 ≤ n) : (m.bit n).Usable := by
  refine ⟨?_, ?_, hn, by intro p hp; simp [OnePL.bit] at hp⟩
  · intro t p hp
    simp only [OnePL.bit, m.probs_eq hm] at hp
    obtain ⟨c, -, rfl⟩ := List.mem_map.1 hp
    simp
  · intro t i hi
    simp only [OnePL.bit, m.probs_eq hm, List.length_map, List.mem_range] at hi ⊢
    rw [hm]
    exact hi

theorem OnePL.bit_entropies (m : OnePL) (hm : m.WF) (n : ℕ) :
    (m.bit n).curveEntropies (fun _ => 0) 0 = m.bias.map fun c y => oddsEntropy (y + c) := by
  unfold Bit.curveEntropies
  have hcurve : ∀ x, (m.bit n).curve (fun _ => 0) 0 x 0 = x := by
    intro x
    rw [Bit.curve, if_pos rfl, m.bit_multiplier hm, mul_one]
  apply List.ext_getElem
  · simp [OnePL.bit, hm.symm]
  · intro i h1 h2
    have hi : i < m.bias.length := by simpa using h2
    simp only [List.getElem_map]
    funext y
    have hgi : (m.bit n).items[i]'(by simpa using h1) = i := by simp [OnePL.bit]
    rw [hgi]
    unfold Bit.itemEntropy oddsEntropy
    show smoothEntropy ((m.probs ((m.bit n).curve (fun _ => 0) 0 y 0)).getD i []) = _
    rw [hcurve, m.probs_eq hm, List.getD_eq_getElem _ _ (by simpa using hi)]
    simp

/-- C104, 1PL: with the default settings and all difficulties within the grid, the bit score of a respondent in
any batch tends to the closed form of the documented integral. -/
theorem C104_onePL (m : OnePL) (hm : m.WF) (hdiff : ∀ c ∈ m.bias, |c| ≤ 7) (θ : Thetas 1) (hθ : θ ≠ []) :
    ∃ B : ℕ → (Fin 1 → ℝ) → Fin 1 → ℝ, (∀ n, 1 ≤ n → (m.bit n).transform θ = .ok (θ.map (B n))) ∧
      ∀ t ∈ θ, -10000 ≤ t 0 →
        Tendsto (fun n => B n t 0) atTop (𝓝 (m.bias.map fun c => rampBits c (-10000) (t 0)).sum) := by
  obtain ⟨B, hB, hlim⟩ := C104_limit_partial (m.bit 1) (m.bit_usable hm 1 le_rfl) _ _ _ rfl θ hθ
  refine ⟨B, hB, ?_⟩
  intro t ht ht0
  have hs : (m.bit 1).startAdj 0 = -10000 := by
    rw [Bit.startAdj, m.bit_multiplier hm, mul_one]; rfl
  have ha : (m.bit 1).adjust t 0 = t 0 := by
    rw [Bit.adjust, m.bit_multiplier hm, mul_one, hs, max_eq_left ht0]
  have := hlim t ht 0 (by
    refine ⟨by norm_num, ?_⟩
    rw [m.bit_entropies hm]
    intro h hh
    obtain ⟨c, hc, rfl⟩ := List.mem_map.1 hh
    have hc7 := abs_le.1 (hdiff c hc)
    refine ⟨ramp_contDiff c, Or.inl ((ramp_mono c).mono fun y hy => ?_), Or.inr ((ramp_anti c).mono fun y hy => ?_)⟩
    · show y ≤ -c
      linarith [hy.2, hc7.2]
    · show -c ≤ y
      linarith [hy.1, hc7.1])
  rw [m.bit_entropies hm, hs, ha, bitIntegral, List.map_map] at this
  have e : (m.bias.map ((fun h : ℝ → ℝ => ∫ t in (-10000 : ℝ)..t 0, |deriv h t|) ∘ fun c y => oddsEntropy (y + c)))
      = m.bias.map fun c => rampBits c (-10000) (t 0) := by
    apply List.map_congr_left
    intro c hc
    have hc7 := abs_le.1 (hdiff c hc)
    exact ramp_integral c _ _ (by linarith [hc7.2]) ht0
  rw [e] at this
  exact this

/-! ## The default settings do not resolve items outside the grid -/

/-- The documented claim, for the default starting theta and no population sample: more grid points lead to the
documented integral. -/
def BitConverges : Prop := ∀ (m : OnePL), m.WF → ∀ (t : ℝ), -10000 ≤ t → ∀ B : ℕ → ℝ,
  (∀ n, 1 ≤ n → (m.bit n).transform [fun _ => t] = .ok [fun _ => B n]) →
  Tendsto B atTop (𝓝 (bitIntegral ((m.bit 1).curveEntropies (fun _ => 0) 0) (-10000) t))

/-- C104: with the default settings a 1PL item easier than -7 is never resolved, however many grid points are
used. For a respondent at 0 and an item with difficulty `-c` between -5000 and -7, every bit score stays below
the documented integral by at least twice the entropy the item loses between its difficulty and -7. -/
theorem C104_outside_grid (c : ℝ) (hc7 : 7 < c) (hc5 : c ≤ 5000) :
    ∃ B : ℕ → ℝ, (∀ n, 1 ≤ n → ((⟨1, [c]⟩ : OnePL).bit n).transform [fun _ => 0] = .ok [fun _ => B n]) ∧
      0 < oddsEntropy 0 - oddsEntropy (c - 7) ∧
      ∀ n, 1 ≤ n → B n ≤ bitIntegral (((⟨1, [c]⟩ : OnePL).bit 1).curveEntropies (fun _ => 0) 0) (-10000) 0
        - 2 * (oddsEntropy 0 - oddsEntropy (c - 7)) := by
  let m : OnePL := ⟨1, [c]⟩
  have hm : m.WF := rfl
  have hmul : ∀ n, (m.bit n).multiplier 0 = 1 := m.bit_multiplier hm
  have hs : ∀ n, (m.bit n).startAdj 0 = -10000 := by
    intro n; rw [Bit.startAdj, hmul, mul_one]; rfl
  have ha : ∀ n, (m.bit n).adjust (fun _ => 0) 0 = 0 := by
    intro n
    rw [Bit.adjust, hmul, mul_one, hs, max_eq_left (by norm_num)]
  have hH : ∀ n, (m.bit n).curveEntropies (fun _ => 0) 0 = [fun y => oddsEntropy (y + c)] := fun n => by
    rw [m.bit_entropies hm]; rfl
  let B : ℕ → ℝ := fun n => gridScore [fun y => oddsEntropy (y + c)] (-10000)
    ((m.bit n).gridFor (fun _ => -7) (fun _ => 7) [fun _ => 0] 0) 0
  have hB : ∀ n, 1 ≤ n → (m.bit n).transform [fun _ => 0] = .ok [fun _ => B n] := by
    intro n hn
    rw [(m.bit n).transform_eq (m.bit_usable hm n hn) _ _ _ rfl _ (by simp)]
    simp only [List.map_cons, List.map_nil]
    congr 2
    funext k
    rw [Subsingleton.elim k 0, hH, hs, ha]
  refine ⟨B, hB, sub_pos.2 (oddsEntropy_lt (c - 7) (by linarith)), ?_⟩
  show ∀ n, 1 ≤ n → B n ≤ bitIntegral ((m.bit 1).curveEntropies (fun _ => 0) 0) (-10000) 0 - _
  rw [hH]
  simp only [bitIntegral, List.map_cons, List.map_nil, List.sum_cons, List.sum_nil, add_zero]
  rw [ramp_integral c (-10000) 0 (by linarith) (by norm_num), rampBits, if_neg (by linarith), zero_add]
  intro n hn
  show gridScore _ _ _ _ ≤ _
  rw [gridScore, varFrom_sumDist]
  simp only [List.map_cons, List.map_nil, List.sum_cons, List.sum_nil, add_zero]
  set g := (m.bit n).gridFor (fun _ => -7) (fun _ => 7) [fun _ => 0] 0 with hg
  set l := (gridPts g).filter fun u => decide ((-10000 : ℝ) < u ∧ u ≤ 0) with hl
  have hmem : ∀ u ∈ l, -7 ≤ u ∧ u ≤ 0 := by
    intro u hu
    rw [hl, List.mem_filter, mem_gridPts, decide_eq_true_eq] at hu
    obtain ⟨hu, h1, h2⟩ := hu
    refine ⟨?_, h2⟩
    obtain ⟨pre, hp, -, -, hpm⟩ := gridColumn_props (m.bit n) hn ((m.bit n).startAdj 0) (-7) 7
      ([fun _ => (0 : ℝ)].map fun t : Fin 1 → ℝ => (m.bit n).adjust t 0) (by
        intro y hy
        obtain ⟨t, -, rfl⟩ := List.mem_map.1 hy
        exact le_max_right _ _)
    rw [hg, Bit.gridFor, hp, List.mem_append] at hu
    rcases hu with hu | hu
    · rcases (hpm u).1 hu with e | ⟨i, _, r, hr, e⟩
      · rw [hs] at e; linarith
      · have hlt : i < n := by
          have := (List.getElem?_eq_some_iff.1 hr).1
          rw [length_linspace01] at this
          exact this
        rw [show (m.bit n).gridPoints = n from rfl, linspace01_getElem? _ _ hlt] at hr
        have hr' := Option.some.inj hr
        have hn1 : (0 : ℝ) ≤ (n : ℝ) - 1 := by
          have : (1 : ℝ) ≤ n := by exact_mod_cast hn
          linarith
        have hr0 : 0 ≤ r := by rw [← hr']; positivity
        rw [e]
        exact le_trans (by linarith) (le_max_left _ _)
    · simp only [List.map_cons, List.map_nil, List.mem_singleton, ha] at hu
      rw [hu]; norm_num
  have hpw : l.Pairwise (· < ·) := (gridPts_sorted _).sublist List.filter_sublist
  clear_value l
  have hstart : ∀ u, -7 ≤ u → u ≤ 0 → oddsEntropy (-10000 + c) ≤ oddsEntropy (u + c) := by
    intro u h1 h2
    rw [← oddsEntropy_neg (-10000 + c)]
    exact oddsEntropy_anti (show (0 : ℝ) ≤ u + c by linarith) (show (0 : ℝ) ≤ -(-10000 + c) by linarith) (by linarith)
  have hend : ∀ u, -7 ≤ u → oddsEntropy (u + c) ≤ oddsEntropy (c - 7) := fun u h1 =>
    oddsEntropy_anti (show (0 : ℝ) ≤ c - 7 by linarith) (show (0 : ℝ) ≤ u + c by linarith) (by linarith)
  have h7 := hstart 0 (by norm_num) le_rfl
  have h8 := hend 0 (by norm_num)
  rw [zero_add] at h7 h8
  cases l with
  | nil =>
    simp only [varFrom]
    linarith
  | cons a l =>
    obtain ⟨hc1, hc2⟩ := hmem a (by simp)
    have h1 := varFrom_le_integral (ramp_contDiff c) 0 l a hc2 hpw
      fun u hu => (hmem u (List.mem_cons_of_mem _ hu)).2
    rw [step_oneWay (ramp_contDiff c) hc2 (Or.inr ((ramp_anti c).mono fun y hy => by
      show -c ≤ y
      linarith [hy.1])), zero_add] at h1
    have h2 : oddsEntropy c ≤ oddsEntropy (a + c) :=
      oddsEntropy_anti (show (0 : ℝ) ≤ a + c by linarith) (show (0 : ℝ) ≤ c by linarith) (by linarith)
    have h3 := hend a hc1
    have h4 := hstart a hc1 hc2
    rw [abs_of_nonneg (by linarith)] at h1
    simp only [varFrom]
    rw [abs_sub_comm, abs_of_nonneg (by linarith)]
    linarith

/-- C104 is false as documented: an item with difficulty -8 is enough. -/
theorem C104_default_false : ¬ BitConverges := by
  intro hall
  obtain ⟨B, hB, hpos, hbound⟩ := C104_outside_grid 8 (by norm_num) (by norm_num)
  have hlim := hall ⟨1, [8]⟩ rfl 0 (by norm_num) B hB
  have := le_of_tendsto hlim (eventually_atTop.2 ⟨1, hbound⟩)
  linarith

/-! ## Non-vacuity -/

/-- Two items with difficulties -1 and 2, and a batch of two respondents: `C104_onePL` applies. -/
example : ∃ m : OnePL, m.WF ∧ (∀ c ∈ m.bias, |c| ≤ 7) ∧ m.items = 2 ∧
    (m.bias.map fun c => rampBits c (-10000) 0).sum =
      (2 * oddsEntropy 0 - oddsEntropy (-9999) - oddsEntropy 1) + (oddsEntropy (-2) - oddsEntropy (-10002)) := by
  refine ⟨⟨2, [1, -2]⟩, rfl, by norm_num, rfl, ?_⟩
  norm_num [rampBits]

/-- A Rasch item and the same item on the scale `t = 2 u + 1` meet the hypotheses of `C104_relabelled`. -/
example : ∃ (b b' : Bit 1) (φ : ℝ → ℝ), b.Usable ∧ b'.Usable ∧ ContDiff ℝ 1 φ ∧ Monotone φ ∧
    (∀ t, b'.probs t = b.probs fun _ => φ (t 0)) ∧ b'.items = b.items ∧ b.multiplier 0 = 1 ∧ b'.multiplier 0 = 1 ∧
    φ (b'.startTheta 0) = b.startTheta 0 ∧
    b.gridSetup = .ok (fun _ => -7, fun _ => 7, fun _ => 0) ∧ b'.gridSetup = .ok (fun _ => -7, fun _ => 7, fun _ => 0) ∧
    b'.startTheta 0 ≤ 2 ∧ b.Resolved (fun _ => -7) (fun _ => 7) (fun _ => 0) 0 (φ 2) ∧
    b'.Resolved (fun _ => -7) (fun _ => 7) (fun _ => 0) 0 2 := by
  let P : (Fin 1 → ℝ) → List (List ℝ) := fun t => [[1 - logistic (t 0), logistic (t 0)]]
  let φ : ℝ → ℝ := fun u => 2 * u + 1
  let b : Bit 1 := ⟨P, fun t => logistic (t 0), [0], 5, none, fun _ => -3⟩
  let b' : Bit 1 := ⟨fun t => P fun _ => φ (t 0), fun t => logistic (φ (t 0)), [0], 5, none, fun _ => -2⟩
  have hmono : Monotone logistic := by
    intro x y h
    rw [logistic_eq_sigmoid, logistic_eq_sigmoid]
    exact sigmoid_strictMono.monotone h
  have hφ : ContDiff ℝ 1 φ := (contDiff_const.mul contDiff_id).add contDiff_const
  have hb : b.Usable := by
    refine ⟨?_, ?_, by norm_num [b], by intro p hp; simp [b] at hp⟩
    · intro t p hp
      simp only [b, P, List.mem_singleton] at hp
      subst hp; simp
    · intro t i hi; simpa [b, P] using hi
  have hb' : b'.Usable := ⟨fun t p hp => hb.sums (fun _ => φ (t 0)) p hp, fun t i hi => hb.items (fun _ => φ (t 0)) i hi, by norm_num [b'],
    by intro p hp; simp [b'] at hp⟩
  have hm : b.multiplier 0 = 1 := by
    unfold Bit.multiplier invertMultiplier
    rw [if_neg]
    simp only [b, if_true, gt_iff_lt, not_lt]
    exact hmono (by norm_num)
  have hm' : b'.multiplier 0 = 1 := by
    unfold Bit.multiplier invertMultiplier
    rw [if_neg]
    simp only [b', φ, if_true, gt_iff_lt, not_lt]
    exact hmono (by norm_num)
  have hs : b.startAdj 0 = -3 := by rw [Bit.startAdj, hm, mul_one]
  have hs' : b'.startAdj 0 = -2 := by rw [Bit.startAdj, hm', mul_one]
  have hempty : ∀ (h : ℝ → ℝ) (p q : ℝ), q < p → OneWayOn h (Set.Icc p q) := by
    intro h p q hpq
    rw [Set.Icc_eq_empty (by linarith)]
    exact Or.inl fun x hx => absurd hx (Set.notMem_empty x)
  have hH : b.curveEntropies (fun _ => 0) 0 = [oddsEntropy] := by
    show [fun x => smoothEntropy [1 - logistic (b.curve (fun _ => 0) 0 x 0), logistic (b.curve (fun _ => 0) 0 x 0)]] = _
    congr 1
    funext x
    rw [Bit.curve, if_pos rfl, hm, mul_one]
    rfl
  have hH' : b'.curveEntropies (fun _ => 0) 0 = [fun x => oddsEntropy (φ x)] := by
    show [fun x => smoothEntropy [1 - logistic (φ (b'.curve (fun _ => 0) 0 x 0)),
      logistic (φ (b'.curve (fun _ => 0) 0 x 0))]] = _
    congr 1
    funext x
    rw [Bit.curve, if_pos rfl, hm', mul_one]
    rfl
  refine ⟨b, b', φ, hb, hb', hφ, fun x y h => by simp only [φ]; linarith, fun _ => rfl, rfl, hm, hm',
    by norm_num [φ, b, b'], rfl, rfl, by norm_num [b'], ⟨by norm_num, ?_⟩, ⟨by norm_num, ?_⟩⟩
  · rw [hH, hs]
    intro h hh
    rw [List.mem_singleton] at hh
    subst hh
    exact ⟨oddsEntropy_contDiff, hempty _ _ _ (by norm_num), hempty _ _ _ (by norm_num [φ])⟩
  · rw [hH', hs']
    intro h hh
    rw [List.mem_singleton] at hh
    subst hh
    exact ⟨oddsEntropy_contDiff.comp hφ, hempty _ _ _ (by norm_num), hempty _ _ _ (by norm_num)⟩

end Irt
