import Verif.Spec.BitIntegral
import Verif.Props.Bit
import Mathlib.MeasureTheory.Integral.IntervalIntegral.FundThmCalculus
import Mathlib.Analysis.Calculus.ContDiff.Deriv
import Mathlib.Analysis.Calculus.Deriv.MeanValue
import Mathlib.Topology.UniformSpace.HeineCantor

/-! # Sums of absolute changes along a fine grid approximate the integral of the absolute derivative -/

namespace Irt

open Spec MeasureTheory intervalIntegral Filter Topology

theorem continuous_abs_deriv {h : ℝ → ℝ} (hc : ContDiff ℝ 1 h) : Continuous fun t => |deriv h t| :=
  (hc.continuous_deriv le_rfl).abs

/-- The change of a function over an interval never exceeds the integral of the absolute derivative. -/
theorem abs_sub_le_integral {h : ℝ → ℝ} (hc : ContDiff ℝ 1 h) {a b : ℝ} (hab : a ≤ b) :
    |h a - h b| ≤ ∫ t in a..b, |deriv h t| := by
  have e : ∫ t in a..b, deriv h t = h b - h a :=
    integral_deriv_eq_sub (fun x _ => (hc.differentiable one_ne_zero) x)
      ((hc.continuous_deriv le_rfl).intervalIntegrable _ _)
  rw [abs_sub_comm, ← e]
  exact abs_integral_le_integral_abs hab

/-- One step along the grid, on an interval on which the absolute derivative varies by at most `η`. -/
theorem step_close {h : ℝ → ℝ} (hc : ContDiff ℝ 1 h) {a b η : ℝ} (hab : a < b)
    (hη : ∀ s ∈ Set.Icc a b, ∀ t ∈ Set.Icc a b, |deriv h s| - |deriv h t| ≤ η) :
    (∫ t in a..b, |deriv h t|) - |h a - h b| ≤ η * (b - a) := by
  obtain ⟨ξ, hξ, he⟩ := exists_deriv_eq_slope h hab hc.continuous.continuousOn
    (hc.differentiable one_ne_zero).differentiableOn
  have hba : 0 < b - a := sub_pos.2 hab
  have h1 : |h a - h b| = |deriv h ξ| * (b - a) := by
    rw [he, abs_div, abs_of_pos hba, div_mul_cancel₀ _ hba.ne', abs_sub_comm]
  have h2 : (∫ t in a..b, |deriv h t|) ≤ ∫ _ in a..b, (|deriv h ξ| + η) := by
    apply integral_mono_on hab.le ((continuous_abs_deriv hc).intervalIntegrable _ _)
      (continuous_const.intervalIntegrable _ _)
    intro t ht
    have := hη t ht ξ ⟨hξ.1.le, hξ.2.le⟩
    linarith
  rw [intervalIntegral.integral_const, smul_eq_mul] at h2
  rw [h1]
  linarith

/-- Where a function only rises or only falls, its change is exactly the integral. -/
theorem step_oneWay {h : ℝ → ℝ} (hc : ContDiff ℝ 1 h) {a b : ℝ} (hab : a ≤ b) (hm : OneWayOn h (Set.Icc a b)) :
    (∫ t in a..b, |deriv h t|) = |h a - h b| := by
  have e : ∫ t in a..b, deriv h t = h b - h a :=
    integral_deriv_eq_sub (fun x _ => (hc.differentiable one_ne_zero) x)
      ((hc.continuous_deriv le_rfl).intervalIntegrable _ _)
  rcases hab.eq_or_lt with rfl | hlt
  · simp
  have hd : ∀ t ∈ Set.Icc a b, derivWithin h (Set.Icc a b) t = deriv h t := fun t ht =>
    ((hc.differentiable one_ne_zero) t).derivWithin (uniqueDiffOn_Icc hlt t ht)
  rcases hm with hm | hm
  · rw [abs_sub_comm, abs_of_nonneg (sub_nonneg.2 (hm ⟨le_rfl, hab⟩ ⟨hab, le_rfl⟩ hab)), ← e]
    apply integral_congr
    intro t ht
    rw [Set.uIcc_of_le hab] at ht
    apply abs_of_nonneg
    rw [← hd t ht]
    exact hm.derivWithin_nonneg
  · rw [abs_of_nonneg (sub_nonneg.2 (hm ⟨le_rfl, hab⟩ ⟨hab, le_rfl⟩ hab)), ← neg_sub (h b), ← e,
      ← intervalIntegral.integral_neg]
    apply integral_congr
    intro t ht
    rw [Set.uIcc_of_le hab] at ht
    apply abs_of_nonpos
    rw [← hd t ht]
    exact hm.derivWithin_nonpos

/-- Upper half: along any increasing list of points. -/
theorem varFrom_le_integral {h : ℝ → ℝ} (hc : ContDiff ℝ 1 h) (x : ℝ) :
    ∀ (l : List ℝ) (a : ℝ), a ≤ x → (a :: l).Pairwise (· < ·) → (∀ u ∈ l, u ≤ x) →
      varFrom (fun x y => |h x - h y|) a l ≤ ∫ t in a..x, |deriv h t| := by
  have hi : ∀ p q : ℝ, IntervalIntegrable (fun t => |deriv h t|) volume p q :=
    fun p q => (continuous_abs_deriv hc).intervalIntegrable _ _
  intro l
  induction l with
  | nil =>
    intro a hax _ _
    exact integral_nonneg hax fun t _ => abs_nonneg _
  | cons c l ih =>
    intro a hax hp hle
    obtain ⟨h1, h2⟩ := List.pairwise_cons.1 hp
    have hac := h1 c (by simp)
    have e := integral_add_adjacent_intervals (hi a c) (hi c x)
    have s1 := abs_sub_le_integral hc hac.le
    have s2 := ih c (hle c (by simp)) h2 fun u hu => hle u (List.mem_cons_of_mem _ hu)
    simp only [varFrom]
    linarith

/-- Lower half: along a list of points that ends in `x`, every step of which loses at most the increase of
`φ`. -/
theorem integral_sub_varFrom_le {h : ℝ → ℝ} (hc : ContDiff ℝ 1 h) (φ : ℝ → ℝ) (x : ℝ) :
    ∀ (l : List ℝ) (a : ℝ), (a :: l).getLast (by simp) = x →
      (a :: l).IsChain (fun u v => (∫ t in u..v, |deriv h t|) - |h u - h v| ≤ φ v - φ u) →
      (∫ t in a..x, |deriv h t|) - varFrom (fun x y => |h x - h y|) a l ≤ φ x - φ a := by
  have hi : ∀ p q : ℝ, IntervalIntegrable (fun t => |deriv h t|) volume p q :=
    fun p q => (continuous_abs_deriv hc).intervalIntegrable _ _
  intro l
  induction l with
  | nil =>
    intro a hx _
    simp only [List.getLast_singleton] at hx
    subst hx
    simp [varFrom]
  | cons c l ih =>
    intro a hx hch
    rw [List.isChain_cons_cons] at hch
    have s := ih c (by rw [← hx, List.getLast_cons (a := a) (by simp)]) hch.2
    have e := integral_add_adjacent_intervals (hi a c) (hi c x)
    have s1 := hch.1
    simp only [varFrom]
    linarith

/-- In an increasing list, neighbours are the pairs with no list element in between. -/
theorem isChain_of_gap {R : ℝ → ℝ → Prop} (L : List ℝ) (hL : L.Pairwise (· < ·))
    (hgap : ∀ u ∈ L, ∀ v ∈ L, u < v → (∀ w ∈ L, ¬ (u < w ∧ w < v)) → R u v) : L.IsChain R := by
  induction L with
  | nil => exact List.IsChain.nil
  | cons a l ih =>
    obtain ⟨h1, h2⟩ := List.pairwise_cons.1 hL
    cases l with
    | nil => exact List.IsChain.singleton a
    | cons c l =>
      rw [List.isChain_cons_cons]
      refine ⟨hgap a (by simp) c (by simp) (h1 c (by simp)) ?_, ih h2 ?_⟩
      · rintro w hw ⟨hw1, hw2⟩
        rcases List.mem_cons.1 hw with rfl | hw
        · exact lt_irrefl _ hw1
        · rcases List.mem_cons.1 hw with rfl | hw
          · exact lt_irrefl _ hw2
          · exact lt_asymm hw2 ((List.pairwise_cons.1 h2).1 w hw)
      · intro u hu v hv huv hn
        refine hgap u (List.mem_cons_of_mem _ hu) v (List.mem_cons_of_mem _ hv) huv ?_
        intro w hw
        rcases List.mem_cons.1 hw with rfl | hw
        · rintro ⟨hw1, -⟩
          exact lt_asymm hw1 (h1 u hu)
        · exact hn w hw

/-- The score on a grid of one function: never above the integral, and below it by at most the increase of
`φ` when every step between neighbouring grid points loses at most the increase of `φ`. -/
theorem gridVar_close {h : ℝ → ℝ} (hc : ContDiff ℝ 1 h) (φ : ℝ → ℝ) {start x : ℝ} (hsx : start ≤ x) (g : List ℝ)
    (hx : x ∈ g)
    (hstep : ∀ u v, start ≤ u → u < v → v ≤ x → (u = start ∨ u ∈ g) → v ∈ g →
      (∀ w ∈ g, ¬ (u < w ∧ w < v)) → (∫ t in u..v, |deriv h t|) - |h u - h v| ≤ φ v - φ u) :
    varFrom (fun x y => |h x - h y|) start ((gridPts g).filter fun u => decide (start < u ∧ u ≤ x))
        ≤ ∫ t in start..x, |deriv h t| ∧
      (∫ t in start..x, |deriv h t|) - varFrom (fun x y => |h x - h y|) start
        ((gridPts g).filter fun u => decide (start < u ∧ u ≤ x)) ≤ φ x - φ start := by
  set l := (gridPts g).filter fun u => decide (start < u ∧ u ≤ x) with hl
  have hmem : ∀ u, u ∈ l ↔ u ∈ g ∧ start < u ∧ u ≤ x := by
    intro u
    rw [hl, List.mem_filter, mem_gridPts, decide_eq_true_eq]
  have hpw : (start :: l).Pairwise (· < ·) := by
    rw [List.pairwise_cons]
    exact ⟨fun u hu => ((hmem u).1 hu).2.1, (gridPts_sorted _).sublist List.filter_sublist⟩
  refine ⟨varFrom_le_integral hc x l start hsx hpw fun u hu => ((hmem u).1 hu).2.2, ?_⟩
  apply integral_sub_varFrom_le hc φ x l start
  · -- the last point is `x`
    have hxl : x ∈ start :: l := by
      rcases hsx.eq_or_lt with e | e
      · rw [← e]; simp
      · exact List.mem_cons_of_mem _ ((hmem x).2 ⟨hx, e, le_rfl⟩)
    have hle : ∀ u ∈ start :: l, u ≤ x := by
      intro u hu
      rcases List.mem_cons.1 hu with rfl | hu
      · exact hsx
      · exact ((hmem u).1 hu).2.2
    apply le_antisymm (hle _ (List.getLast_mem _))
    exact (hpw.imp fun h => h.le).rel_getLast hxl
  · apply isChain_of_gap _ hpw
    intro u hu v hv huv hn
    have hv' : v ∈ l := by
      rcases List.mem_cons.1 hv with e | hv
      · exfalso
        rcases List.mem_cons.1 hu with e' | hu
        · rw [e, e'] at huv; exact lt_irrefl _ huv
        · rw [e] at huv; exact lt_asymm huv ((hmem u).1 hu).2.1
      · exact hv
    obtain ⟨hvg, hsv, hvx⟩ := (hmem v).1 hv'
    have hsu : start ≤ u := by
      rcases List.mem_cons.1 hu with e | hu
      · exact e.ge
      · exact ((hmem u).1 hu).2.1.le
    refine hstep u v hsu huv hvx ?_ hvg ?_
    · rcases List.mem_cons.1 hu with e | hu
      · exact Or.inl e
      · exact Or.inr ((hmem u).1 hu).1
    · intro w hw hbt
      exact hn w (List.mem_cons_of_mem _ ((hmem w).2 ⟨hw, hsu.trans_lt hbt.1, hbt.2.le.trans hvx⟩)) hbt

/-- A step that starts left of `c` and ends right of it, when the function only rises or only falls left of
`c` and its derivative is at most `M` right of it. -/
theorem step_straddle {h : ℝ → ℝ} (hc : ContDiff ℝ 1 h) {a c b M : ℝ} (hac : a ≤ c) (hcb : c ≤ b)
    (hm : OneWayOn h (Set.Icc a c)) (hM : ∀ t ∈ Set.Icc c b, |deriv h t| ≤ M) :
    (∫ t in a..b, |deriv h t|) - |h a - h b| ≤ 2 * M * (b - c) := by
  have hi : ∀ p q : ℝ, IntervalIntegrable (fun t => |deriv h t|) volume p q :=
    fun p q => (continuous_abs_deriv hc).intervalIntegrable _ _
  have e := integral_add_adjacent_intervals (hi a c) (hi c b)
  have e1 := step_oneWay hc hac hm
  have e2 := abs_sub_le_integral hc hcb
  have e3 : (∫ t in c..b, |deriv h t|) ≤ ∫ _ in c..b, M :=
    integral_mono_on hcb (hi c b) (continuous_const.intervalIntegrable _ _) hM
  rw [intervalIntegral.integral_const, smul_eq_mul] at e3
  have e4 := abs_sub_le (h a) (h b) (h c)
  rw [abs_sub_comm (h b)] at e4
  linarith

/-- Points of a grid with `n ≥ 2` points between `gs` and `ge`, cut off at `start`. -/
def HasGrid (n : ℕ) (gs ge start : ℝ) (g : List ℝ) : Prop :=
  ∀ i : ℕ, 1 ≤ i → i < n → max (gs + i / ((n : ℝ) - 1) * (ge - gs)) start ∈ g

/-- Between neighbouring points of a fine grid the sum of the absolute changes loses little. -/
theorem grid_step {h : ℝ → ℝ} (hc : ContDiff ℝ 1 h) {n : ℕ} (hn : 2 ≤ n) {gs ge start x η M : ℝ} (hge : gs < ge)
    {g : List ℝ} (hg : HasGrid n gs ge start g) (hη0 : 0 ≤ η) (hM0 : 0 ≤ M)
    (hlow : OneWayOn h (Set.Icc start gs)) (hhigh : OneWayOn h (Set.Icc ge x))
    (hM : ∀ t ∈ Set.Icc gs ge, |deriv h t| ≤ M)
    (hη : ∀ s ∈ Set.Icc start x, ∀ t ∈ Set.Icc start x, |s - t| ≤ (ge - gs) / ((n : ℝ) - 1) →
      |deriv h s| - |deriv h t| ≤ η)
    (u v : ℝ) (hsu : start ≤ u) (huv : u < v) (hvx : v ≤ x) (hgap : ∀ w ∈ g, ¬ (u < w ∧ w < v)) :
    (∫ t in u..v, |deriv h t|) - |h u - h v| ≤
      (η * v + 2 * M * min (max v gs) (gs + (ge - gs) / ((n : ℝ) - 1))) -
        (η * u + 2 * M * min (max u gs) (gs + (ge - gs) / ((n : ℝ) - 1))) := by
  have hn2 : (2 : ℝ) ≤ n := by exact_mod_cast hn
  have hn1 : (0 : ℝ) < (n : ℝ) - 1 := by linarith
  set s := (ge - gs) / ((n : ℝ) - 1) with hs
  have hs0 : 0 < s := div_pos (sub_pos.2 hge) hn1
  have hmono : min (max u gs) (gs + s) ≤ min (max v gs) (gs + s) :=
    min_le_min (max_le_max huv.le le_rfl) le_rfl
  have hM2 : 0 ≤ 2 * M * (min (max v gs) (gs + s) - min (max u gs) (gs + s)) :=
    mul_nonneg (by linarith) (sub_nonneg.2 hmono)
  have hη2 : 0 ≤ η * (v - u) := mul_nonneg hη0 (sub_nonneg.2 huv.le)
  have hpt : ∀ i : ℕ, 1 ≤ i → i < n → max (gs + i * s) start ∈ g := by
    intro i h1 h2
    have := hg i h1 h2
    rwa [show (i : ℝ) / ((n : ℝ) - 1) * (ge - gs) = i * s by rw [hs]; ring] at this
  have hlast : gs + ((n - 1 : ℕ) : ℝ) * s = ge := by
    rw [Nat.cast_sub (by omega), Nat.cast_one, hs, mul_div_cancel₀ _ hn1.ne']
    ring
  by_cases h1 : u < gs
  · -- the step that starts before the grid ends at its second point at the latest
    have hv : v ≤ gs + s := by
      by_contra hcon
      push Not at hcon
      have hp := hpt 1 le_rfl (by omega)
      rw [Nat.cast_one, one_mul, max_eq_left (by linarith)] at hp
      exact hgap _ hp ⟨by linarith, hcon⟩
    by_cases h2 : v ≤ gs
    · have hm : OneWayOn h (Set.Icc u v) :=
        hlow.imp (fun hm => hm.mono (Set.Icc_subset_Icc hsu h2)) fun hm => hm.mono (Set.Icc_subset_Icc hsu h2)
      rw [step_oneWay hc huv.le hm, sub_self]
      linarith
    · push Not at h2
      have hsge : s ≤ ge - gs := div_le_self (sub_pos.2 hge).le (by linarith)
      have hm : OneWayOn h (Set.Icc u gs) :=
        hlow.imp (fun hm => hm.mono (Set.Icc_subset_Icc hsu le_rfl)) fun hm => hm.mono (Set.Icc_subset_Icc hsu le_rfl)
      have := step_straddle hc h1.le h2.le hm (M := M) fun t ht => hM t ⟨ht.1, by linarith [ht.2]⟩
      rw [max_eq_left h2.le, max_eq_right h1.le, min_eq_left hv, min_eq_left (by linarith)]
      linarith
  · push Not at h1
    by_cases h2 : ge < v
    · have hu : ge ≤ u := by
        by_contra hcon
        push Not at hcon
        have hp := hpt (n - 1) (by omega) (by omega)
        rw [hlast, max_eq_left (by linarith)] at hp
        exact hgap _ hp ⟨hcon, h2⟩
      have hm : OneWayOn h (Set.Icc u v) :=
        hhigh.imp (fun hm => hm.mono (Set.Icc_subset_Icc hu hvx)) fun hm => hm.mono (Set.Icc_subset_Icc hu hvx)
      rw [step_oneWay hc huv.le hm, sub_self]
      linarith
    · push Not at h2
      have hlen : v - u ≤ s := by
        by_contra hcon
        push Not at hcon
        set j := ⌊(u - gs) / s⌋₊ with hj
        have hj0 : 0 ≤ (u - gs) / s := div_nonneg (by linarith) hs0.le
        have hj1 := Nat.floor_le hj0
        have hj2 := Nat.lt_floor_add_one ((u - gs) / s)
        rw [← hj] at hj1 hj2
        rw [le_div_iff₀ hs0] at hj1
        rw [div_lt_iff₀ hs0] at hj2
        have hlt : j + 1 < n := by
          by_contra hc'
          push Not at hc'
          have : ((n - 1 : ℕ) : ℝ) * s ≤ j * s :=
            mul_le_mul_of_nonneg_right (by exact_mod_cast (show n - 1 ≤ j by omega)) hs0.le
          linarith
        have hp := hpt (j + 1) (by omega) hlt
        push_cast at hp
        rw [max_eq_left (by linarith)] at hp
        exact hgap _ hp ⟨by linarith, by linarith⟩
      have := step_close hc huv (η := η) (by
        intro p hp q hq
        refine hη p ⟨hsu.trans hp.1, hp.2.trans hvx⟩ q ⟨hsu.trans hq.1, hq.2.trans hvx⟩ ?_
        rw [abs_le]
        constructor <;> linarith [hp.1, hp.2, hq.1, hq.2])
      linarith

/-- The score of one function on finer and finer grids tends to the integral of the absolute derivative, and
is never above it. -/
theorem gridVar_tendsto {h : ℝ → ℝ} (hc : ContDiff ℝ 1 h) {gs ge start x : ℝ} (hge : gs < ge) (hsx : start ≤ x)
    (g : ℕ → List ℝ) (hx : ∀ n, x ∈ g n) (hg : ∀ n, 2 ≤ n → HasGrid n gs ge start (g n))
    (hlow : OneWayOn h (Set.Icc start gs)) (hhigh : OneWayOn h (Set.Icc ge x)) :
    Tendsto (fun n => varFrom (fun x y => |h x - h y|) start
      ((gridPts (g n)).filter fun u => decide (start < u ∧ u ≤ x))) atTop (𝓝 (∫ t in start..x, |deriv h t|)) := by
  have hcd := continuous_abs_deriv hc
  obtain ⟨M, hM⟩ := isCompact_Icc.exists_bound_of_continuousOn (s := Set.Icc gs ge) (hcd.continuousOn)
  have hM' : ∀ t ∈ Set.Icc gs ge, |deriv h t| ≤ M := fun t ht => by simpa using hM t ht
  have hM0 : 0 ≤ M := (abs_nonneg _).trans (hM' gs ⟨le_rfl, hge.le⟩)
  have hstep : Tendsto (fun n : ℕ => (ge - gs) / ((n : ℝ) - 1)) atTop (𝓝 0) :=
    tendsto_const_nhds.div_atTop (tendsto_atTop_add_const_right _ (-1) tendsto_natCast_atTop_atTop)
  rw [Metric.tendsto_atTop]
  intro ε hε
  set η := ε / (2 * (x - start + 1)) with hη
  have hden : 0 < x - start + 1 := by linarith
  have hη0 : 0 < η := by positivity
  have huc := isCompact_Icc.uniformContinuousOn_of_continuous (s := Set.Icc start x) hcd.continuousOn
  rw [Metric.uniformContinuousOn_iff] at huc
  obtain ⟨δ, hδ0, hδ⟩ := huc η hη0
  have hev1 := (hstep.eventually (gt_mem_nhds hδ0))
  have hev2 : ∀ᶠ n : ℕ in atTop, 2 * M * ((ge - gs) / ((n : ℝ) - 1)) < ε / 2 := by
    have : Tendsto (fun n : ℕ => 2 * M * ((ge - gs) / ((n : ℝ) - 1))) atTop (𝓝 0) := by
      simpa using hstep.const_mul (2 * M)
    exact this.eventually (gt_mem_nhds (by linarith))
  obtain ⟨N, hN⟩ := eventually_atTop.1 (hev1.and (hev2.and (eventually_ge_atTop 2)))
  refine ⟨N, fun n hnN => ?_⟩
  obtain ⟨hn1, hn2, hn3⟩ := hN n hnN
  have hn2' : (2 : ℝ) ≤ n := by exact_mod_cast hn3
  have hs0 : 0 < (ge - gs) / ((n : ℝ) - 1) := div_pos (sub_pos.2 hge) (by linarith)
  obtain ⟨hup, hlo⟩ := gridVar_close hc
    (fun w => η * w + 2 * M * min (max w gs) (gs + (ge - gs) / ((n : ℝ) - 1))) hsx (g n) (hx n)
    (fun u v hsu huv hvx _ _ hgap => grid_step hc hn3 hge (hg n hn3) hη0.le hM0 hlow hhigh hM'
      (fun p hp q hq hpq => by
        have := hδ p hp q hq (by rw [Real.dist_eq]; linarith)
        rw [Real.dist_eq] at this
        exact (le_abs_self _).trans this.le) u v hsu huv hvx hgap)
  rw [Real.dist_eq, abs_sub_comm, abs_of_nonneg (sub_nonneg.2 hup)]
  refine hlo.trans_lt ?_
  have b1 : min (max x gs) (gs + (ge - gs) / ((n : ℝ) - 1)) ≤ gs + (ge - gs) / ((n : ℝ) - 1) := min_le_right _ _
  have b2 : gs ≤ min (max start gs) (gs + (ge - gs) / ((n : ℝ) - 1)) := le_min (le_max_right _ _) (by linarith)
  have b3 : 2 * M * (min (max x gs) (gs + (ge - gs) / ((n : ℝ) - 1))
      - min (max start gs) (gs + (ge - gs) / ((n : ℝ) - 1))) ≤ 2 * M * ((ge - gs) / ((n : ℝ) - 1)) :=
    mul_le_mul_of_nonneg_left (by linarith) (by linarith)
  have b4 : η * (x - start) ≤ ε / 2 := by
    rw [hη, div_mul_eq_mul_div, div_le_iff₀ (by positivity)]
    nlinarith
  linarith

end Irt
