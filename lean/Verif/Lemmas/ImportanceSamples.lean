import Verif.Lemmas.VAE
import Mathlib.Analysis.Convex.SpecificFunctions.Basic
import Mathlib.Probability.StrongLaw
import Mathlib.Probability.HasLawExists

/-! # Averages of more and more importance weights -/

open MeasureTheory ProbabilityTheory Filter Topology

namespace Irt

section
variable {E : Type*} [MeasureSpace E] [SigmaFinite (volume : Measure E)]

/-- The expectation of the log of the average of `S` independent weights. -/
noncomputable def sampleBound (q w : E → ℝ) (S : ℕ) : ℝ :=
  ∫ θ : Fin S → E, (∏ s, q (θ s)) * Real.log ((∑ s, w (θ s)) / S)

theorem log_average_le {S : ℕ} (hS : 0 < S) (x : Fin S → ℝ) (hx : ∀ s, 0 < x s) :
    (∑ s, Real.log (x s)) / S ≤ Real.log ((∑ s, x s) / S) := by
  have hS' : (0 : ℝ) < S := by exact_mod_cast hS
  have hne : (Finset.univ : Finset (Fin S)).Nonempty := ⟨⟨0, hS⟩, Finset.mem_univ _⟩
  have h := strictConcaveOn_log_Ioi.concaveOn.le_map_sum (t := Finset.univ) (w := fun _ : Fin S => (S : ℝ)⁻¹) (p := x)
    (fun _ _ => by positivity) (by simp; field_simp) (fun s _ => hx s)
  simp only [smul_eq_mul, ← Finset.mul_sum] at h
  rw [div_eq_inv_mul, div_eq_inv_mul]
  exact h

theorem integrable_sampleBound (q w : E → ℝ) (hq0 : ∀ x, 0 < q x) (hq : Integrable q) (hw0 : ∀ x, 0 < w x)
    (hw : Integrable fun x => q x * w x) (hlog : Integrable fun x => q x * Real.log (w x)) (S : ℕ) (hS : 0 < S) :
    Integrable fun θ : Fin S → E => (∏ s, q (θ s)) * Real.log ((∑ s, w (θ s)) / S) := by
  have hS' : (0 : ℝ) < S := by exact_mod_cast hS
  have hne : (Finset.univ : Finset (Fin S)).Nonempty := ⟨⟨0, hS⟩, Finset.mem_univ _⟩
  have hwm : AEMeasurable w := by
    have : w = fun x => (q x * w x) / q x := by
      funext x
      have := (hq0 x).ne'
      field_simp
    rw [this]
    exact hw.aemeasurable.div hq.aemeasurable
  have hws : ∀ s : Fin S, AEMeasurable fun θ : Fin S → E => w (θ s) := fun s =>
    hwm.comp_quasiMeasurePreserving (Measure.quasiMeasurePreserving_eval (fun _ : Fin S => (volume : Measure E)) s)
  have hprod : Integrable fun θ : Fin S → E => ∏ s, q (θ s) :=
    Integrable.fintype_prod (f := fun (_ : Fin S) x => q x) fun _ => hq
  have hdom : Integrable fun θ : Fin S → E => ∑ s, ((∏ r, q (θ r)) * |Real.log (w (θ s))| + (∏ r, q (θ r)) * w (θ s)) := by
    refine integrable_finsetSum _ fun s _ => Integrable.add ?_ ?_
    · refine integrable_prod_density (fun _ : Fin S => q) (fun _ => hq) s (fun x => |Real.log (w x)|) ?_
      refine hlog.abs.congr (Filter.Eventually.of_forall fun x => ?_)
      simp only [abs_mul, abs_of_pos (hq0 x)]
    · exact integrable_prod_density (fun _ : Fin S => q) (fun _ => hq) s w hw
  refine hdom.mono ?_ (Filter.Eventually.of_forall fun θ => ?_)
  · refine (hprod.aemeasurable.mul ?_).aestronglyMeasurable
    exact Real.measurable_log.comp_aemeasurable ((Finset.aemeasurable_fun_sum _ fun s _ => hws s).div_const _)
  · have hp : 0 < ∏ s, q (θ s) := Finset.prod_pos fun s _ => hq0 _
    have hsum : 0 < ∑ s, w (θ s) := Finset.sum_pos (fun s _ => hw0 _) hne
    have hone : (1 : ℝ) ≤ S := by exact_mod_cast hS
    have habs : |Real.log ((∑ s, w (θ s)) / S)| ≤ ∑ s, (|Real.log (w (θ s))| + w (θ s)) := by
      rw [Finset.sum_add_distrib]
      have hnn : 0 ≤ ∑ s, |Real.log (w (θ s))| := Finset.sum_nonneg fun s _ => abs_nonneg _
      rw [abs_le]
      constructor
      · have h1 := log_average_le hS (fun s => w (θ s)) fun s => hw0 _
        have h2 : -(∑ s, |Real.log (w (θ s))|) ≤ ∑ s, Real.log (w (θ s)) := by
          rw [← Finset.sum_neg_distrib]
          exact Finset.sum_le_sum fun s _ => neg_abs_le _
        have h3 : -(∑ s, |Real.log (w (θ s))|) ≤ (∑ s, Real.log (w (θ s))) / S := by
          rw [le_div_iff₀ hS']
          nlinarith
        linarith
      · have h1 := Real.log_le_sub_one_of_pos (div_pos hsum hS')
        have h2 : (∑ s, w (θ s)) / S ≤ ∑ s, w (θ s) := div_le_self hsum.le hone
        linarith
    rw [Real.norm_eq_abs, Real.norm_eq_abs, abs_mul, abs_of_pos hp]
    have hr : ∑ s, ((∏ r, q (θ r)) * |Real.log (w (θ s))| + (∏ r, q (θ r)) * w (θ s))
        = (∏ r, q (θ r)) * ∑ s, (|Real.log (w (θ s))| + w (θ s)) := by
      rw [Finset.mul_sum]
      exact Finset.sum_congr rfl fun s _ => (mul_add _ _ _).symm
    rw [hr, abs_mul, abs_of_pos hp]
    exact mul_le_mul_of_nonneg_left (habs.trans (le_abs_self _)) hp.le

theorem sampleBound_left_out (q : E → ℝ) (hq1 : ∫ x, q x = 1) (S : ℕ) (i : Fin (S + 1)) (f : (Fin S → E) → ℝ) :
    ∫ θ : Fin (S + 1) → E, (∏ s, q (θ s)) * f (fun s => θ (i.succAbove s)) = ∫ θ : Fin S → E, (∏ s, q (θ s)) * f θ := by
  have h := (volume_preserving_piFinSuccAbove (fun _ : Fin (S + 1) => E) i).integral_comp
    (MeasurableEquiv.measurableEmbedding _) (fun p : E × (Fin S → E) => q p.1 * ((∏ s, q (p.2 s)) * f p.2))
  have e : ∀ θ : Fin (S + 1) → E, (∏ s, q (θ s)) * f (fun s => θ (i.succAbove s))
      = (fun p : E × (Fin S → E) => q p.1 * ((∏ s, q (p.2 s)) * f p.2)) (MeasurableEquiv.piFinSuccAbove (fun _ => E) i θ) := by
    intro θ
    rw [Fin.prod_univ_succAbove _ i, mul_assoc]
    rfl
  simp only [e]
  rw [h]
  change ∫ p : E × (Fin S → E), q p.1 * ((∏ s, q (p.2 s)) * f p.2) ∂(volume.prod volume) = _
  rw [integral_prod_mul q fun θ : Fin S → E => (∏ s, q (θ s)) * f θ, hq1, one_mul]

theorem integrable_left_out (q : E → ℝ) (hq : Integrable q) (S : ℕ) (i : Fin (S + 1)) (f : (Fin S → E) → ℝ)
    (hf : Integrable fun θ : Fin S → E => (∏ s, q (θ s)) * f θ) :
    Integrable fun θ : Fin (S + 1) → E => (∏ s, q (θ s)) * f (fun s => θ (i.succAbove s)) := by
  have h := (volume_preserving_piFinSuccAbove (fun _ : Fin (S + 1) => E) i).integrable_comp_of_integrable (hq.mul_prod hf)
  refine h.congr (Filter.Eventually.of_forall fun θ => ?_)
  change q (θ i) * ((∏ s, q (θ (i.succAbove s))) * f fun s => θ (i.succAbove s)) = _
  dsimp only
  rw [Fin.prod_univ_succAbove (fun s => q (θ s)) i, mul_assoc]

/-- One more sample does not lower the bound. -/
theorem sampleBound_succ (q w : E → ℝ) (hq0 : ∀ x, 0 < q x) (hq : Integrable q) (hq1 : ∫ x, q x = 1) (hw0 : ∀ x, 0 < w x)
    (hw : Integrable fun x => q x * w x) (hlog : Integrable fun x => q x * Real.log (w x)) (S : ℕ) (hS : 0 < S) :
    sampleBound q w S ≤ sampleBound q w (S + 1) := by
  have hS' : (0 : ℝ) < S := by exact_mod_cast hS
  have hne : (Finset.univ : Finset (Fin S)).Nonempty := ⟨⟨0, hS⟩, Finset.mem_univ _⟩
  have hI := integrable_sampleBound q w hq0 hq hw0 hw hlog S hS
  have hI' := integrable_sampleBound q w hq0 hq hw0 hw hlog (S + 1) (Nat.succ_pos _)
  have hout := fun i => integrable_left_out q hq S i (fun θ => Real.log ((∑ s, w (θ s)) / S)) hI
  have hval := fun i => sampleBound_left_out q hq1 S i (fun θ => Real.log ((∑ s, w (θ s)) / S))
  have hpoint : ∀ θ : Fin (S + 1) → E,
      (∑ i : Fin (S + 1), (∏ s, q (θ s)) * Real.log ((∑ s : Fin S, w (θ (i.succAbove s))) / S)) / (S + 1 : ℕ)
        ≤ (∏ s, q (θ s)) * Real.log ((∑ s, w (θ s)) / (S + 1 : ℕ)) := by
    intro θ
    have hp : 0 < ∏ s, q (θ s) := Finset.prod_pos fun s _ => hq0 _
    have h := log_average_le (Nat.succ_pos S) (fun i : Fin (S + 1) => (∑ s : Fin S, w (θ (i.succAbove s))) / S)
      fun i => div_pos (Finset.sum_pos (fun s _ => hw0 _) hne) hS'
    have hs : ∑ i : Fin (S + 1), (∑ s : Fin S, w (θ (i.succAbove s))) / S = ∑ s, w (θ s) := by
      have : ∀ i : Fin (S + 1), (∑ s : Fin S, w (θ (i.succAbove s))) / S = ((∑ s, w (θ s)) - w (θ i)) / S := by
        intro i
        rw [Fin.sum_univ_succAbove (fun s => w (θ s)) i]; ring
      simp only [this]
      rw [← Finset.sum_div, Finset.sum_sub_distrib, Finset.sum_const, Finset.card_univ, Fintype.card_fin, nsmul_eq_mul]
      push_cast
      field_simp
      ring
    rw [hs] at h
    rw [← Finset.mul_sum, mul_div_assoc]
    exact mul_le_mul_of_nonneg_left h hp.le
  have hle := integral_mono ((integrable_finsetSum _ fun i _ => hout i).div_const ((S + 1 : ℕ) : ℝ)) hI' hpoint
  rw [integral_div, integral_finsetSum _ fun i _ => hout i] at hle
  simp only [hval] at hle
  rw [Finset.sum_const, Finset.card_univ, Fintype.card_fin, nsmul_eq_mul, mul_div_cancel_left₀ _ (by positivity)] at hle
  exact hle

theorem pi_density (q : E → ℝ) (hq0 : ∀ x, 0 < q x) (hq : Integrable q) (S : ℕ) :
    Measure.pi (fun _ : Fin S => (volume : Measure E).withDensity fun x => ENNReal.ofReal (q x))
      = (volume : Measure (Fin S → E)).withDensity fun θ => ENNReal.ofReal (∏ s, q (θ s)) := by
  have : IsFiniteMeasure ((volume : Measure E).withDensity fun x => ENNReal.ofReal (q x)) :=
    isFiniteMeasure_withDensity_ofReal hq.2
  refine Measure.pi_eq fun s hs => ?_
  have hbox : MeasurableSet (Set.univ.pi s) := MeasurableSet.univ_pi hs
  rw [withDensity_apply _ hbox]
  have hind : ∀ i, Integrable ((s i).indicator q) := fun i => hq.indicator (hs i)
  have hprod : ∀ θ : Fin S → E, (Set.univ.pi s).indicator (fun θ => ∏ r, q (θ r)) θ = ∏ r, (s r).indicator q (θ r) := by
    intro θ
    by_cases h : θ ∈ Set.univ.pi s
    · rw [Set.indicator_of_mem h]
      exact Finset.prod_congr rfl fun r _ => (Set.indicator_of_mem (h r (Set.mem_univ _)) _).symm
    · rw [Set.indicator_of_notMem h]
      simp only [Set.mem_univ_pi, not_forall] at h
      obtain ⟨r, hr⟩ := h
      exact (Finset.prod_eq_zero (Finset.mem_univ r) (Set.indicator_of_notMem hr _)).symm
  have hint : Integrable fun θ : Fin S → E => ∏ r, q (θ r) := Integrable.fintype_prod (f := fun _ => q) fun _ => hq
  rw [← ofReal_integral_eq_lintegral_ofReal hint.integrableOn
    (Eventually.of_forall fun θ => Finset.prod_nonneg fun r _ => (hq0 _).le), ← integral_indicator hbox]
  simp only [hprod]
  rw [integral_fintype_prod_volume_eq_prod (fun r => (s r).indicator q), ENNReal.ofReal_prod_of_nonneg
    fun r _ => integral_nonneg fun x => Set.indicator_nonneg (fun x _ => (hq0 x).le) x]
  refine Finset.prod_congr rfl fun r _ => ?_
  rw [withDensity_apply _ (hs r), integral_indicator (hs r), ofReal_integral_eq_lintegral_ofReal hq.integrableOn
    (Eventually.of_forall fun θ => (hq0 _).le)]

theorem integral_density {X : Type*} [MeasurableSpace X] {μ : Measure X} (q : X → ℝ) (hq0 : ∀ x, 0 ≤ q x) (hqm : Measurable q) (f : X → ℝ) :
    ∫ x, f x ∂(μ.withDensity fun x => ENNReal.ofReal (q x)) = ∫ x, q x * f x ∂μ := by
  rw [integral_withDensity_eq_integral_toReal_smul (by fun_prop) (Eventually.of_forall fun _ => ENNReal.ofReal_lt_top)]
  simp only [ENNReal.toReal_ofReal (hq0 _), smul_eq_mul]

theorem integrable_density {X : Type*} [MeasurableSpace X] {μ : Measure X} (q : X → ℝ) (hq0 : ∀ x, 0 ≤ q x) (hqm : Measurable q) (f : X → ℝ) :
    Integrable f (μ.withDensity fun x => ENNReal.ofReal (q x)) ↔ Integrable (fun x => q x * f x) μ := by
  rw [integrable_withDensity_iff_integrable_smul' (by fun_prop) (Eventually.of_forall fun _ => ENNReal.ofReal_lt_top)]
  simp only [ENNReal.toReal_ofReal (hq0 _), smul_eq_mul]

/-- The bound approaches the log of the expected weight. -/
theorem sampleBound_tendsto (q w : E → ℝ) (hq0 : ∀ x, 0 < q x) (hq : Integrable q) (hqm : Measurable q) (hq1 : ∫ x, q x = 1)
    (hw0 : ∀ x, 0 < w x) (hwm : Measurable w) (hw : Integrable fun x => q x * w x) (hlog : Integrable fun x => q x * Real.log (w x))
    (hc : 0 < ∫ x, q x * w x) (hup : ∀ S, 0 < S → sampleBound q w S ≤ Real.log (∫ x, q x * w x)) :
    Tendsto (sampleBound q w) atTop (𝓝 (Real.log (∫ x, q x * w x))) := by
  set ν := (volume : Measure E).withDensity fun x => ENNReal.ofReal (q x) with hν
  have : IsProbabilityMeasure ν := ⟨by
    rw [hν, withDensity_apply _ MeasurableSet.univ, Measure.restrict_univ,
      ← ofReal_integral_eq_lintegral_ofReal hq (Eventually.of_forall fun θ => (hq0 _).le), hq1, ENNReal.ofReal_one]⟩
  obtain ⟨Ω, _, P, X, hX, hlaw, hind, _⟩ := exists_iid ℕ ν
  have hwν : Integrable w ν := (integrable_density q (fun x => (hq0 x).le) hqm w).2 hw
  have hlν : Integrable (fun x => Real.log (w x)) ν := (integrable_density q (fun x => (hq0 x).le) hqm _).2 hlog
  have hlm : Measurable fun x => Real.log (w x) := hwm.log
  have hmap : ∀ i, P.map (X i) = ν := fun i => (hlaw i).map_eq
  have hWint : ∀ i, Integrable (fun ω => w (X i ω)) P := fun i => by
    have h := hwν
    rw [← hmap i] at h
    exact h.comp_measurable (hX i)
  have hLint : ∀ i, Integrable (fun ω => Real.log (w (X i ω))) P := fun i => by
    have h := hlν
    rw [← hmap i] at h
    exact h.comp_measurable (hX i)
  have hWval : ∀ i, ∫ ω, w (X i ω) ∂P = ∫ x, q x * w x := fun i => by
    rw [← integral_density q (fun x => (hq0 x).le) hqm w, ← hν, ← hmap i, integral_map (hX i).aemeasurable hwm.aestronglyMeasurable]
  have hLval : ∀ i, ∫ ω, Real.log (w (X i ω)) ∂P = ∫ x, q x * Real.log (w x) := fun i => by
    rw [← integral_density q (fun x => (hq0 x).le) hqm _, ← hν, ← hmap i, integral_map (hX i).aemeasurable hlm.aestronglyMeasurable]
  -- the law of the first `S` samples
  have hjoint : ∀ S : ℕ, P.map (fun ω (s : Fin S) => X s ω) = (volume : Measure (Fin S → E)).withDensity fun θ => ENNReal.ofReal (∏ s, q (θ s)) := by
    intro S
    have h := (iIndepFun_iff_map_fun_eq_pi_map (f := fun s : Fin S => X s) (fun s => (hX s).aemeasurable)).1
      (hind.precomp (g := fun s : Fin S => (s : ℕ)) Fin.val_injective)
    simp only [hmap] at h
    exact h.trans (pi_density q hq0 hq S)
  have hqS : ∀ S : ℕ, Measurable fun θ : Fin S → E => ∏ s, q (θ s) := fun S => by fun_prop
  have hfm : ∀ S : ℕ, Measurable fun θ : Fin S → E => Real.log ((∑ s, w (θ s)) / S) := fun S => by
    exact ((Finset.measurable_fun_sum _ fun s _ => hwm.comp (measurable_pi_apply s)).div_const _).log
  have hXS : ∀ S : ℕ, Measurable fun ω (s : Fin S) => X s ω := fun S => measurable_pi_lambda _ fun s => hX s
  have hBval : ∀ S : ℕ, ∫ ω, Real.log ((∑ s : Fin S, w (X s ω)) / S) ∂P = sampleBound q w S := fun S => by
    rw [sampleBound, ← integral_density _ (fun θ => Finset.prod_nonneg fun s _ => (hq0 _).le) (hqS S), ← hjoint S,
      integral_map (hXS S).aemeasurable (hfm S).aestronglyMeasurable]
  have hBint : ∀ S : ℕ, 0 < S → Integrable (fun ω => Real.log ((∑ s : Fin S, w (X s ω)) / S)) P := fun S hS => by
    have h := (integrable_density _ (fun θ => Finset.prod_nonneg fun s _ => (hq0 _).le) (hqS S) _).2
      (integrable_sampleBound q w hq0 hq hw0 hw hlog S hS)
    rw [← hjoint S] at h
    exact h.comp_measurable (hXS S)
  -- the strong law, twice
  have hid : ∀ i, IdentDistrib (X i) (X 0) P P := fun i => ⟨(hX i).aemeasurable, (hX 0).aemeasurable, by rw [hmap, hmap]⟩
  have hind2 : Pairwise fun i j => IndepFun (X i) (X j) P := fun i j h => hind.indepFun h
  have law1 := strong_law_ae_real (fun i ω => w (X i ω)) (hWint 0) (fun i j h => (hind2 h).comp hwm hwm) fun i => (hid i).comp hwm
  have law2 := strong_law_ae_real (fun i ω => Real.log (w (X i ω))) (hLint 0) (fun i j h => (hind2 h).comp hlm hlm) fun i => (hid i).comp hlm
  simp only [hWval, hLval] at law1 law2
  set c := ∫ x, q x * w x with hcdef
  set e := ∫ x, q x * Real.log (w x) with hedef
  have hsum : ∀ (S : ℕ) (f : ℕ → ℝ), ∑ s : Fin S, f s = ∑ s ∈ Finset.range S, f s := fun S f => Fin.sum_univ_eq_sum_range f S
  -- the difference of the two averages
  let Y : ℕ → Ω → ℝ := fun n ω => Real.log ((∑ s : Fin (n + 1), w (X s ω)) / (n + 1 : ℕ)) - (∑ s : Fin (n + 1), Real.log (w (X s ω))) / (n + 1 : ℕ)
  have hY0 : ∀ n ω, 0 ≤ Y n ω := fun n ω => sub_nonneg.2 (log_average_le (Nat.succ_pos n) (fun s : Fin (n + 1) => w (X s ω)) fun s => hw0 _)
  have hAint : ∀ n : ℕ, Integrable (fun ω => (∑ s : Fin (n + 1), Real.log (w (X s ω))) / (n + 1 : ℕ)) P := fun n =>
    (integrable_finsetSum Finset.univ fun (s : Fin (n + 1)) _ => hLint s).div_const _
  have hAval : ∀ n : ℕ, ∫ ω, (∑ s : Fin (n + 1), Real.log (w (X s ω))) / (n + 1 : ℕ) ∂P = e := fun n => by
    rw [integral_div, integral_finsetSum Finset.univ fun (s : Fin (n + 1)) _ => hLint s]
    simp only [hLval]
    rw [Finset.sum_const, Finset.card_univ, Fintype.card_fin, nsmul_eq_mul, mul_div_cancel_left₀ _ (by positivity)]
  have hYint : ∀ n, Integrable (Y n) P := fun n => (hBint (n + 1) (Nat.succ_pos n)).sub (hAint n)
  have hYval : ∀ n, ∫ ω, Y n ω ∂P = sampleBound q w (n + 1) - e := fun n => by
    rw [integral_sub (hBint (n + 1) (Nat.succ_pos n)) (hAint n), hBval, hAval]
  have hYlim : ∀ᵐ ω ∂P, Tendsto (fun n => Y n ω) atTop (𝓝 (Real.log c - e)) := by
    filter_upwards [law1, law2] with ω h1 h2
    have h1' := (h1.comp (tendsto_add_atTop_nat 1)).log hc.ne'
    have h2' := h2.comp (tendsto_add_atTop_nat 1)
    refine (h1'.sub h2').congr fun n => ?_
    simp only [Function.comp, Y]
    rw [hsum (n + 1) fun s => w (X s ω), hsum (n + 1) fun s => Real.log (w (X s ω))]
  have hmono : Monotone fun n => sampleBound q w (n + 1) :=
    monotone_nat_of_le_succ fun n => sampleBound_succ q w hq0 hq hq1 hw0 hw hlog (n + 1) (Nat.succ_pos n)
  have hbdd : BddAbove (Set.range fun n => sampleBound q w (n + 1)) := ⟨Real.log c, by
    rintro _ ⟨n, rfl⟩
    exact hup _ (Nat.succ_pos n)⟩
  have hB := tendsto_atTop_ciSup hmono hbdd
  set L := ⨆ n, sampleBound q w (n + 1) with hL
  have hLe : ∀ n, sampleBound q w (n + 1) ≤ L := fun n => le_ciSup hbdd n
  have hupper : L ≤ Real.log c := ciSup_le fun n => hup _ (Nat.succ_pos n)
  have hlow : 0 ≤ L - e := by
    have h0 : 0 ≤ ∫ ω, Y 0 ω ∂P := integral_nonneg fun ω => hY0 0 ω
    rw [hYval] at h0
    linarith [hLe 0]
  have hfatou := lintegral_liminf_le' (μ := P) (u := (atTop : Filter ℕ)) (f := fun n ω => ENNReal.ofReal (Y n ω))
    (fun n => (hYint n).aemeasurable.ennreal_ofReal)
  have hleft : ∫⁻ ω, liminf (fun n => ENNReal.ofReal (Y n ω)) atTop ∂P = ENNReal.ofReal (Real.log c - e) := by
    rw [lintegral_congr_ae (g := fun _ => ENNReal.ofReal (Real.log c - e)) (by
      filter_upwards [hYlim] with ω h
      exact (ENNReal.tendsto_ofReal h).liminf_eq)]
    simp
  have hright : liminf (fun n => ∫⁻ ω, ENNReal.ofReal (Y n ω) ∂P) atTop = ENNReal.ofReal (L - e) := by
    have : (fun n => ∫⁻ ω, ENNReal.ofReal (Y n ω) ∂P) = fun n => ENNReal.ofReal (sampleBound q w (n + 1) - e) := by
      funext n
      rw [← ofReal_integral_eq_lintegral_ofReal (hYint n) (Eventually.of_forall fun ω => hY0 n ω), hYval]
    rw [this]
    exact (ENNReal.tendsto_ofReal (hB.sub_const e)).liminf_eq
  rw [hleft, hright, ENNReal.ofReal_le_ofReal_iff hlow] at hfatou
  have hLeq : L = Real.log c := le_antisymm hupper (by linarith)
  rw [hLeq] at hB
  exact (tendsto_add_atTop_iff_nat 1).1 hB

end

end Irt
