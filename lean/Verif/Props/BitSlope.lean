import Verif.Props.BitJacobian
import Verif.Props.BitLimit
import Mathlib.MeasureTheory.Integral.IntervalIntegral.FundThmCalculus
import Mathlib.Analysis.Complex.ExponentialBounds

/-! # C148: `Bit.jacobian` is the slope of the bit scores -/

namespace Irt

open Spec Filter Topology

/-- The slope of `p ↦ -p log₂ (p + 10⁻¹⁰)` times that of `p`. -/
noncomputable def smoothGradTerm (p g : ℝ) : ℝ := -(g * (Real.log (p + 1e-10) + p / (p + 1e-10)) / Real.log 2)

theorem smooth_hasDerivAt {probs grads : (Fin 1 → ℝ) → List (List ℝ)} (hg : GradsOf probs grads)
    (hnn : ∀ t i j, 0 ≤ ((probs t).getD i []).getD j 0) (t : Fin 1 → ℝ) (i : ℕ) :
    HasDerivAt (fun x => smoothEntropy ((probs fun _ => x).getD i []))
      (∑ j ∈ Finset.range ((probs t).getD i []).length,
        smoothGradTerm (((probs t).getD i []).getD j 0) (((grads t).getD i []).getD j 0)) (t 0) := by
  set n := ((probs t).getD i []).length with hn
  have hlen : ∀ t', ((probs t').getD i []).length = n := fun t' => hg.cats t' t i
  have ht : (fun _ : Fin 1 => t 0) = t := by funext k; rw [Subsingleton.elim k 0]
  have hform : (fun x => smoothEntropy ((probs fun _ => x).getD i []))
      = fun x => ∑ j ∈ Finset.range n, ((probs fun _ => x).getD i []).getD j 0 *
          (-Real.log (((probs fun _ => x).getD i []).getD j 0 + 1e-10) / Real.log 2) := by
    funext x
    unfold smoothEntropy
    rw [sum_eq_finset_getD _ n (by rw [List.length_map, hlen])]
    apply Finset.sum_congr rfl
    intro j hj
    have hj' : j < ((probs fun _ => x).getD i []).length := by rw [hlen]; exact Finset.mem_range.1 hj
    rw [List.getD_eq_getElem _ _ (by simpa using hj'), List.getElem_map, List.getD_eq_getElem _ _ hj']
  rw [hform]
  refine HasDerivAt.fun_sum fun j _ => ?_
  have hd := hg.deriv t i j
  have hpos : 0 < ((probs fun _ => t 0).getD i []).getD j 0 + 1e-10 := by
    have := hnn (fun _ => t 0) i j
    positivity
  have := hd.mul (((hd.add_const (1e-10 : ℝ)).log hpos.ne').neg.div_const (Real.log 2))
  refine this.congr_deriv ?_
  simp only [Pi.neg_apply]
  rw [ht] at hpos ⊢
  unfold smoothGradTerm
  ring

theorem smooth_gap {u : ℝ} (hu : 0 < u) : |Real.log (1 + u) - u / (1 + u)| ≤ u ^ 2 := by
  have h1 : 0 < 1 + u := by positivity
  have hup := Real.log_le_sub_one_of_pos h1
  have hlo := Real.one_sub_inv_le_log_of_pos h1
  have e : u / (1 + u) = 1 - (1 + u)⁻¹ := by field_simp; ring
  have e2 : u - u / (1 + u) = u ^ 2 / (1 + u) := by field_simp; ring
  have e3 : u ^ 2 / (1 + u) ≤ u ^ 2 := div_le_self (by positivity) (by linarith)
  rw [abs_of_nonneg (by rw [e]; linarith)]
  linarith

/-- The smoothing of the logarithm changes the slope of an item entropy by at most `∑ |p'| (10⁻¹⁰ / p)² / ln 2`. -/
theorem smooth_near_shannon {probs grads : (Fin 1 → ℝ) → List (List ℝ)} (hg : GradsOf probs grads)
    (hp : PositiveOrPadded probs) (t : Fin 1 → ℝ) (i : ℕ) (hi : i < (probs t).length) :
    |deriv (fun x => smoothEntropy ((probs fun _ => x).getD i [])) (t 0)
        - deriv (fun x => shannonEntropy ((probs fun _ => x).getD i [])) (t 0)|
      ≤ ∑ j ∈ Finset.range ((probs t).getD i []).length, |((grads t).getD i []).getD j 0| *
          (1e-10 / ((probs t).getD i []).getD j 0) ^ 2 / Real.log 2 := by
  have hl2 : 0 < Real.log 2 := Real.log_pos (by norm_num)
  have hnn : ∀ t i j, 0 ≤ ((probs t).getD i []).getD j 0 := by
    intro t i j
    rcases hp.pos i j with h | h
    · exact (h t).le
    · exact (h t).ge
  rw [(smooth_hasDerivAt hg hnn t i).deriv, (shannon_hasDerivAt hg hp t i hi).deriv]
  set n := ((probs t).getD i []).length with hn
  have hgz : ∀ j, ((probs t).getD i []).getD j 0 = 0 → ((grads t).getD i []).getD j 0 = 0 := by
    intro j hj
    rcases hp.pos i j with h | h
    · exact absurd hj (h t).ne'
    · have hd := hg.deriv t i j
      have h0 : (fun x : ℝ => ((probs fun _ => x).getD i []).getD j 0) = fun _ => 0 := by
        funext x
        exact h _
      rw [h0] at hd
      exact hd.unique (hasDerivAt_const _ _)
  have hgsum : (∑ j ∈ Finset.range n, ((grads t).getD i []).getD j 0) = 0 := by
    have h1 : HasDerivAt (fun x => ∑ j ∈ Finset.range n, ((probs fun _ => x).getD i []).getD j 0)
        (∑ j ∈ Finset.range n, ((grads t).getD i []).getD j 0) (t 0) :=
      HasDerivAt.fun_sum fun j _ => hg.deriv t i j
    have h2 : (fun x : ℝ => ∑ j ∈ Finset.range n, ((probs fun _ => x).getD i []).getD j 0) = fun _ => (1 : ℝ) := by
      funext x
      rw [← sum_eq_finset_getD _ n (hg.cats _ t i)]
      apply hp.sums
      have hi' : i < (probs fun _ => x).length := by rw [hg.items _ t]; exact hi
      rw [List.getD_eq_getElem _ _ hi']
      exact List.getElem_mem _
    rw [h2] at h1
    exact h1.unique (hasDerivAt_const _ _)
  have hz : (List.zipWith entropyGradTerm ((probs t).getD i []) ((grads t).getD i [])).sum
      = ∑ j ∈ Finset.range n, (entropyGradTerm (((probs t).getD i []).getD j 0) (((grads t).getD i []).getD j 0)
          + ((grads t).getD i []).getD j 0 / Real.log 2) := by
    rw [Finset.sum_add_distrib, ← Finset.sum_div, hgsum, zero_div, add_zero,
      sum_eq_finset_getD _ n (by rw [List.length_zipWith, hg.cols, ← hn, min_self])]
    apply Finset.sum_congr rfl
    intro j hj
    have hj1 : j < ((probs t).getD i []).length := Finset.mem_range.1 hj
    have hj2 : j < ((grads t).getD i []).length := by rw [hg.cols]; exact hj1
    rw [List.getD_eq_getElem _ 0 hj1, List.getD_eq_getElem _ 0 hj2,
      List.getD_eq_getElem _ 0 (by rw [List.length_zipWith]; omega), List.getElem_zipWith]
  rw [hz, sub_neg_eq_add, ← Finset.sum_add_distrib]
  refine (Finset.abs_sum_le_sum_abs _ _).trans (Finset.sum_le_sum fun j _ => ?_)
  set p := ((probs t).getD i []).getD j 0 with hpj
  set g := ((grads t).getD i []).getD j 0 with hgj
  rcases (hnn t i j).eq_or_lt' with h | h
  · rw [← hpj] at h
    have h0 : g = 0 := hgz j h
    rw [h0, h]
    simp [smoothGradTerm, entropyGradTerm]
  · rw [← hpj] at h
    have hu : (0 : ℝ) < 1e-10 / p := by positivity
    have hgap := smooth_gap hu
    have e1 : Real.log (1 + 1e-10 / p) = Real.log (p + 1e-10) - Real.log p := by
      rw [← Real.log_div (by positivity) h.ne']
      congr 1
      field_simp
    have e2 : 1e-10 / p / (1 + 1e-10 / p) = 1e-10 / (p + 1e-10) := by
      field_simp
    have e : smoothGradTerm p g + (entropyGradTerm p g + g / Real.log 2)
        = -(g * (Real.log (1 + 1e-10 / p) - 1e-10 / p / (1 + 1e-10 / p)) / Real.log 2) := by
      rw [e1, e2]
      unfold smoothGradTerm entropyGradTerm
      rw [if_neg h.ne']
      have : p + 1e-10 ≠ 0 := by positivity
      field_simp
      ring
    rw [e, abs_neg, abs_div, abs_mul, abs_of_pos hl2]
    gcongr

theorem Bit.multiplier_cases {d : ℕ} (b : Bit d) (k : Fin d) : b.multiplier k = 1 ∨ b.multiplier k = -1 := by
  unfold Bit.multiplier invertMultiplier
  split_ifs
  · exact Or.inr rfl
  · exact Or.inl rfl

/-- A row of the batch that lies above the starting theta of the scale (in the direction in which the expected
score rises). -/
def Bit.AboveStart (b : Bit 1) (x : ℝ) : Prop := b.startTheta 0 * b.multiplier 0 < x * b.multiplier 0

/-- C148: at every latent score above the starting theta, the Jacobian that is returned is the slope of the
documented bit score, apart from the smoothing of the logarithm which only the transformation has; the smoothing
changes the slope by at most `∑ |p'| (10⁻¹⁰ / p)² / ln 2`. Missing: scores below the starting theta, for which
the claim is false (`C148_below_start_false`), and scales on part of the items (see `C30_false`). -/
theorem C148_slope_partial (b : Bit 1) (grads : (Fin 1 → ℝ) → List (List ℝ)) (hg : GradsOf b.probs grads)
    (hp : PositiveOrPadded b.probs) (hitems : ∀ t, b.items = List.range (b.probs t).length)
    (hcont : ∀ i j, Continuous fun x : ℝ => ((grads fun _ => x).getD i []).getD j 0) (x : ℝ) (hx : b.AboveStart x)
    (med : Fin 1 → ℝ) :
    ∃ J s : ℝ, b.jacobian grads [fun _ => x] = .ok [Matrix.of fun _ _ => J] ∧
      HasDerivAt (fun y => bitIntegral (b.curveEntropies med 0) (b.startAdj 0) (b.adjust (fun _ => y) 0)) s x ∧
      |J - s| ≤ (b.items.map fun i => ∑ j ∈ Finset.range ((b.probs fun _ => x).getD i []).length,
        |((grads fun _ => x).getD i []).getD j 0| * (1e-10 / ((b.probs fun _ => x).getD i []).getD j 0) ^ 2
          / Real.log 2).sum := by
  have hnn : ∀ t i j, 0 ≤ ((b.probs t).getD i []).getD j 0 := by
    intro t i j
    rcases hp.pos i j with h | h
    · exact (h t).le
    · exact (h t).ge
  set m := b.multiplier 0 with hm
  have hmm : m * m = 1 := by rcases b.multiplier_cases 0 with h | h <;> rw [hm, h] <;> norm_num
  have habs : |m| = 1 := by rcases b.multiplier_cases 0 with h | h <;> rw [hm, h] <;> norm_num
  -- the smoothed entropies are differentiable with continuous slopes
  have hS : ∀ i y, HasDerivAt (fun x => smoothEntropy ((b.probs fun _ => x).getD i []))
      (deriv (fun x => smoothEntropy ((b.probs fun _ => x).getD i [])) y) y := by
    intro i y
    have := smooth_hasDerivAt hg hnn (fun _ => y) i
    exact this.differentiableAt.hasDerivAt
  have hSc : ∀ i, Continuous (deriv fun x => smoothEntropy ((b.probs fun _ => x).getD i [])) := by
    intro i
    have hf : (deriv fun x => smoothEntropy ((b.probs fun _ => x).getD i []))
        = fun y => ∑ j ∈ Finset.range ((b.probs fun _ => 0).getD i []).length,
            smoothGradTerm (((b.probs fun _ => y).getD i []).getD j 0) (((grads fun _ => y).getD i []).getD j 0) := by
      funext y
      rw [(smooth_hasDerivAt hg hnn (fun _ => y) i).deriv, hg.cats (fun _ => y) (fun _ => 0) i]
    rw [hf]
    refine continuous_finsetSum _ fun j _ => ?_
    have hc : Continuous fun y : ℝ => ((b.probs fun _ => y).getD i []).getD j 0 :=
      continuous_iff_continuousAt.2 fun y => (hg.deriv (fun _ => y) i j).continuousAt
    have hpos : ∀ y : ℝ, ((b.probs fun _ => y).getD i []).getD j 0 + 1e-10 ≠ 0 := by
      intro y
      have := hnn (fun _ => y) i j
      positivity
    unfold smoothGradTerm
    exact ((((hcont i j).mul (((hc.add continuous_const).log hpos).add
      (hc.div (hc.add continuous_const) hpos)))).div_const _).neg
  have hcurve : ∀ i, (fun y => b.itemEntropy i (b.curve med 0 y))
      = fun y => smoothEntropy ((b.probs fun _ => y * m).getD i []) := by
    intro i
    funext y
    unfold Bit.itemEntropy
    congr 3
    funext k
    rw [Subsingleton.elim k 0]
    simp [Bit.curve, hm]
  have hcd : ∀ i y, HasDerivAt (fun y => b.itemEntropy i (b.curve med 0 y))
      (deriv (fun x => smoothEntropy ((b.probs fun _ => x).getD i [])) (y * m) * m) y := by
    intro i y
    rw [hcurve i]
    have h1 : HasDerivAt (fun y : ℝ => y * m) m y := by simpa using (hasDerivAt_id y).mul_const m
    exact (hS i (y * m)).comp y h1
  have hint : ∀ i, HasDerivAt (fun z => ∫ u in b.startAdj 0..z, |deriv (fun y => b.itemEntropy i (b.curve med 0 y)) u|)
      |deriv (fun x => smoothEntropy ((b.probs fun _ => x).getD i [])) x| (x * m) := by
    intro i
    have hf : (fun u => |deriv (fun y => b.itemEntropy i (b.curve med 0 y)) u|)
        = fun u => |deriv (fun x => smoothEntropy ((b.probs fun _ => x).getD i [])) (u * m)| := by
      funext u
      rw [(hcd i u).deriv, abs_mul, habs, mul_one]
    rw [hf]
    have hcc : Continuous fun u : ℝ => |deriv (fun x => smoothEntropy ((b.probs fun _ => x).getD i [])) (u * m)| :=
      ((hSc i).comp (continuous_id.mul continuous_const)).abs
    have := intervalIntegral.integral_hasDerivAt_right (hcc.intervalIntegrable (b.startAdj 0) (x * m))
      hcc.aestronglyMeasurable.stronglyMeasurableAtFilter hcc.continuousAt
    refine this.congr_deriv ?_
    rw [mul_assoc, hmm, mul_one]
  have hlist : ∀ l : List ℕ, HasDerivAt (fun z => bitIntegral (l.map fun i y => b.itemEntropy i (b.curve med 0 y))
      (b.startAdj 0) z) (l.map fun i => |deriv (fun x => smoothEntropy ((b.probs fun _ => x).getD i [])) x|).sum
      (x * m) := by
    intro l
    induction l with
    | nil => simpa [bitIntegral] using hasDerivAt_const (x * m) (0 : ℝ)
    | cons i l ih =>
      have := (hint i).add ih
      exact this
  refine ⟨_, m * (b.items.map fun i => |deriv (fun x => smoothEntropy ((b.probs fun _ => x).getD i [])) x|).sum,
    C30_all_items_partial b grads hg hp hitems [fun _ => x], ?_, ?_⟩
  · have hadj : (fun y : ℝ => bitIntegral (b.curveEntropies med 0) (b.startAdj 0) (b.adjust (fun _ => y) 0))
        =ᶠ[𝓝 x] fun y => bitIntegral (b.curveEntropies med 0) (b.startAdj 0) (y * m) := by
      have hcts : Continuous fun y : ℝ => y * m := continuous_id.mul continuous_const
      have : ∀ᶠ y in 𝓝 x, b.startAdj 0 < y * m := hcts.continuousAt.eventually_const_lt hx
      filter_upwards [this] with y hy
      unfold Bit.adjust
      rw [max_eq_left hy.le]
    have h1 : HasDerivAt (fun y : ℝ => y * m) m x := by simpa using (hasDerivAt_id x).mul_const m
    have h2 := (hlist b.items).comp x h1
    refine HasDerivAt.congr_of_eventuallyEq (h2.congr_deriv (mul_comm _ _)) hadj
  · dsimp only
    rw [← mul_sub, abs_mul, habs, one_mul]
    have : ∀ l : List ℕ, (∀ i ∈ l, i ∈ b.items) →
        |(l.map fun i => |deriv (fun x => shannonEntropy ((b.probs fun _ => x).getD i [])) x|).sum
          - (l.map fun i => |deriv (fun x => smoothEntropy ((b.probs fun _ => x).getD i [])) x|).sum|
        ≤ (l.map fun i => ∑ j ∈ Finset.range ((b.probs fun _ => x).getD i []).length,
        |((grads fun _ => x).getD i []).getD j 0| * (1e-10 / ((b.probs fun _ => x).getD i []).getD j 0) ^ 2
          / Real.log 2).sum := by
      intro l
      induction l with
      | nil => simp
      | cons i l ih =>
        intro hl
        have h1 := ih fun k hk => hl k (List.mem_cons_of_mem _ hk)
        have hi : i < (b.probs fun _ => x).length := by
          have := hl i List.mem_cons_self
          rwa [hitems fun _ => x, List.mem_range] at this
        have h2 := smooth_near_shannon hg hp (fun _ => x) i hi
        have h3 := abs_abs_sub_abs_le (deriv (fun x => shannonEntropy ((b.probs fun _ => x).getD i [])) x)
          (deriv (fun x => smoothEntropy ((b.probs fun _ => x).getD i [])) x)
        rw [abs_sub_comm] at h2
        simp only [List.map_cons, List.sum_cons]
        rw [add_sub_add_comm]
        exact (abs_add_le _ _).trans (add_le_add (h3.trans h2) h1)
    exact this b.items fun _ h => h

theorem Bit.curve_hasDerivAt (b : Bit 1) (grads : (Fin 1 → ℝ) → List (List ℝ)) (hg : GradsOf b.probs grads)
    (hp : PositiveOrPadded b.probs) (med : Fin 1 → ℝ) (i : ℕ) (y : ℝ) :
    HasDerivAt (fun y => b.itemEntropy i (b.curve med 0 y))
      (deriv (fun x => smoothEntropy ((b.probs fun _ => x).getD i [])) (y * b.multiplier 0) * b.multiplier 0) y := by
  have hnn : ∀ t i j, 0 ≤ ((b.probs t).getD i []).getD j 0 := by
    intro t i j
    rcases hp.pos i j with h | h
    · exact (h t).le
    · exact (h t).ge
  have hcurve : (fun y => b.itemEntropy i (b.curve med 0 y))
      = fun y => smoothEntropy ((b.probs fun _ => y * b.multiplier 0).getD i []) := by
    funext y
    unfold Bit.itemEntropy
    congr 3
    funext k
    rw [Subsingleton.elim k 0]
    simp [Bit.curve]
  rw [hcurve]
  have h1 : HasDerivAt (fun y : ℝ => y * b.multiplier 0) (b.multiplier 0) y := by
    simpa using (hasDerivAt_id y).mul_const (b.multiplier 0)
  exact ((smooth_hasDerivAt hg hnn (fun _ => y * b.multiplier 0) i).differentiableAt.hasDerivAt).comp y h1

theorem slope_list_gap {b : Bit 1} {grads : (Fin 1 → ℝ) → List (List ℝ)} (hg : GradsOf b.probs grads)
    (hp : PositiveOrPadded b.probs) (x : ℝ) : ∀ l : List ℕ, (∀ i ∈ l, i < (b.probs fun _ => x).length) →
      |(l.map fun i => |deriv (fun x => shannonEntropy ((b.probs fun _ => x).getD i [])) x|).sum
          - (l.map fun i => |deriv (fun x => smoothEntropy ((b.probs fun _ => x).getD i [])) x|).sum|
        ≤ (l.map fun i => ∑ j ∈ Finset.range ((b.probs fun _ => x).getD i []).length,
        |((grads fun _ => x).getD i []).getD j 0| * (1e-10 / ((b.probs fun _ => x).getD i []).getD j 0) ^ 2
          / Real.log 2).sum := by
  intro l
  induction l with
  | nil => simp
  | cons i l ih =>
    intro hl
    have h1 := ih fun k hk => hl k (List.mem_cons_of_mem _ hk)
    have h2 := smooth_near_shannon hg hp (fun _ => x) i (hl i List.mem_cons_self)
    have h3 := abs_abs_sub_abs_le (deriv (fun x => shannonEntropy ((b.probs fun _ => x).getD i [])) x)
      (deriv (fun x => smoothEntropy ((b.probs fun _ => x).getD i [])) x)
    rw [abs_sub_comm] at h2
    simp only [List.map_cons, List.sum_cons]
    rw [add_sub_add_comm]
    exact (abs_add_le _ _).trans (add_le_add (h3.trans h2) h1)

/-- The points of the grid that do not depend on the respondents. -/
noncomputable def Bit.ownGrid (b : Bit 1) (gs ge : Fin 1 → ℝ) : List ℝ := b.gridFor gs ge [] 0

theorem varFrom_concat (D : ℝ → ℝ → ℝ) (p q : ℝ) : ∀ (l : List ℝ) (s : ℝ),
    varFrom D s (l ++ [p, q]) = varFrom D s (l ++ [p]) + D p q := by
  intro l
  induction l with
  | nil => intro s; simp [varFrom]
  | cons a l ih =>
    intro s
    simp only [List.cons_append, varFrom, ih]
    ring

theorem gridScore_last (H : List (ℝ → ℝ)) (start a z : ℝ) (g g' : List ℝ) (ha : a ∈ g) (hs : start ≤ a)
    (haz : a < z) (hno : ∀ u ∈ g, u ≤ a ∨ z < u) (hg' : ∀ u, u ∈ g' ↔ u ∈ g ∨ u = z) :
    gridScore H start g' z = gridScore H start g a + sumDist H a z := by
  have hsort : ∀ (g : List ℝ) (P : ℝ → Bool), ((gridPts g).filter P).Pairwise (· < ·) :=
    fun g P => (gridPts_sorted g).sublist List.filter_sublist
  unfold gridScore
  have hz : (gridPts g').filter (fun u => decide (start < u ∧ u ≤ z))
      = (gridPts g).filter (fun u => decide (start < u ∧ u ≤ a)) ++ [z] := by
    apply sorted_eq_of_mem (hsort _ _)
    · rw [List.pairwise_append]
      refine ⟨hsort _ _, List.pairwise_singleton _ _, ?_⟩
      intro u hu v hv
      rw [List.mem_singleton] at hv
      rw [List.mem_filter, decide_eq_true_eq] at hu
      rw [hv]
      exact hu.2.2.trans_lt haz
    · intro u
      rw [List.mem_append, List.mem_singleton, List.mem_filter, List.mem_filter, decide_eq_true_eq,
        decide_eq_true_eq, mem_gridPts, mem_gridPts, hg']
      constructor
      · rintro ⟨h | h, h1, h2⟩
        · rcases hno u h with h3 | h3
          · exact Or.inl ⟨h, h1, h3⟩
          · exact absurd h3 (not_lt.2 h2)
        · exact Or.inr h
      · rintro (⟨h, h1, h2⟩ | rfl)
        · exact ⟨Or.inl h, h1, h2.trans haz.le⟩
        · exact ⟨Or.inr rfl, hs.trans_lt haz, le_rfl⟩
  rw [hz]
  rcases hs.eq_or_lt with h | h
  · subst h
    have : (gridPts g).filter (fun u => decide (start < u ∧ u ≤ start)) = [] := by
      rw [List.filter_eq_nil_iff]
      intro u _
      simp
    rw [this]
    simp [varFrom]
  · have hl : (gridPts g).filter (fun u => decide (start < u ∧ u ≤ a))
        = (gridPts g).filter (fun u => decide (start < u ∧ u < a)) ++ [a] := by
      apply sorted_eq_of_mem (hsort _ _)
      · rw [List.pairwise_append]
        refine ⟨hsort _ _, List.pairwise_singleton _ _, ?_⟩
        intro u hu v hv
        rw [List.mem_singleton] at hv
        rw [List.mem_filter, decide_eq_true_eq] at hu
        rw [hv]
        exact hu.2.2
      · intro u
        rw [List.mem_append, List.mem_singleton, List.mem_filter, List.mem_filter, decide_eq_true_eq,
          decide_eq_true_eq, mem_gridPts]
        constructor
        · rintro ⟨h1, h2, h3⟩
          rcases h3.eq_or_lt with h4 | h4
          · exact Or.inr h4
          · exact Or.inl ⟨h1, h2, h4⟩
        · rintro (⟨h1, h2, h3⟩ | rfl)
          · exact ⟨h1, h2, h3.le⟩
          · exact ⟨ha, h, le_rfl⟩
    rw [hl, List.append_assoc]
    exact varFrom_concat _ _ _ _ _

theorem Bit.transform_one (b : Bit 1) (hb : b.Usable) (gs ge med : Fin 1 → ℝ)
    (hset : b.gridSetup = .ok (gs, ge, med)) (y : ℝ) :
    b.transform [fun _ => y] = .ok [fun _ => gridScore (b.curveEntropies med 0) (b.startAdj 0)
      (b.gridFor gs ge [fun _ => y] 0) (b.adjust (fun _ => y) 0)] := by
  rw [b.transform_eq hb gs ge med hset [fun _ => y] (List.cons_ne_nil _ _)]
  simp only [List.map_cons, List.map_nil]
  congr 2
  funext k
  rw [Subsingleton.elim k 0]

theorem Bit.jacobian_one (b : Bit 1) (grads : (Fin 1 → ℝ) → List (List ℝ)) (hg : GradsOf b.probs grads)
    (hp : PositiveOrPadded b.probs) (hitems : ∀ t, b.items = List.range (b.probs t).length) (x : ℝ) :
    b.jacobian grads [fun _ => x] = .ok [Matrix.of fun _ _ => b.multiplier 0 *
      (b.items.map fun i => |deriv (fun x => shannonEntropy ((b.probs fun _ => x).getD i [])) x|).sum] :=
  C30_all_items_partial b grads hg hp hitems [fun _ => x]

theorem oneWay_step {h : ℝ → ℝ} {a c z s : ℝ} (hw : OneWayOn h (Set.Icc a c)) (hz : a < z ∧ z < c)
    (hd : HasDerivAt h s z) : HasDerivAt (fun y => |h a - h y|) |s| z := by
  have hn : Set.Icc a c ∈ 𝓝 z := Icc_mem_nhds hz.1 hz.2
  have hac : a ≤ c := (hz.1.trans hz.2).le
  have hs : derivWithin h (Set.Icc a c) z = s := by rw [derivWithin_of_mem_nhds hn, hd.deriv]
  rcases hw with hw | hw
  · have hpos : 0 ≤ s := by rw [← hs]; exact hw.derivWithin_nonneg
    have he : (fun y => |h a - h y|) =ᶠ[𝓝 z] fun y => h y - h a := by
      filter_upwards [hn] with y hy
      rw [abs_sub_comm, abs_of_nonneg (sub_nonneg.2 (hw ⟨le_rfl, hac⟩ hy hy.1))]
    rw [abs_of_nonneg hpos]
    exact (hd.sub_const _).congr_of_eventuallyEq he
  · have hneg : s ≤ 0 := by rw [← hs]; exact hw.derivWithin_nonpos
    have he : (fun y => |h a - h y|) =ᶠ[𝓝 z] fun y => h a - h y := by
      filter_upwards [hn] with y hy
      rw [abs_of_nonneg (sub_nonneg.2 (hw ⟨le_rfl, hac⟩ hy hy.1))]
    rw [abs_of_nonpos hneg]
    exact (hd.const_sub _).congr_of_eventuallyEq he

/-- C148: the bit scores that `transform` itself gives, with its finite grid. For a latent score strictly between
two neighbouring points `a` and `c` of the grid, between which no item entropy turns, the bit score as a function
of the latent score has the returned Jacobian as its slope, apart from the smoothing of the logarithm. Missing:
grid cells in which an entropy turns (there the score is not the documented one either, `C29_false`), scores below
the starting theta, for which the claim is false (`C148_below_start_false`), and scales on part of the items. -/
theorem C148_transform_partial (b : Bit 1) (hb : b.Usable) (grads : (Fin 1 → ℝ) → List (List ℝ))
    (hg : GradsOf b.probs grads) (hp : PositiveOrPadded b.probs)
    (hitems : ∀ t, b.items = List.range (b.probs t).length) (gs ge med : Fin 1 → ℝ)
    (hset : b.gridSetup = .ok (gs, ge, med)) (x a c : ℝ) (ha : a ∈ b.ownGrid gs ge)
    (hcell : a < x * b.multiplier 0 ∧ x * b.multiplier 0 < c) (hno : ∀ u ∈ b.ownGrid gs ge, u ≤ a ∨ c ≤ u)
    (hw : ∀ h ∈ b.curveEntropies med 0, OneWayOn h (Set.Icc a c)) :
    ∃ (B : ℝ → ℝ) (J s : ℝ), (∀ y, b.transform [fun _ => y] = .ok [fun _ => B y]) ∧
      b.jacobian grads [fun _ => x] = .ok [Matrix.of fun _ _ => J] ∧ HasDerivAt B s x ∧
      |J - s| ≤ (b.items.map fun i => ∑ j ∈ Finset.range ((b.probs fun _ => x).getD i []).length,
        |((grads fun _ => x).getD i []).getD j 0| * (1e-10 / ((b.probs fun _ => x).getD i []).getD j 0) ^ 2
          / Real.log 2).sum := by
  set m := b.multiplier 0 with hm
  have hmm : m * m = 1 := by rcases b.multiplier_cases 0 with h | h <;> rw [hm, h] <;> norm_num
  have habs : |m| = 1 := by rcases b.multiplier_cases 0 with h | h <;> rw [hm, h] <;> norm_num
  have hsa : b.startAdj 0 ≤ a := by
    obtain ⟨pre, hpre, -, hle, -⟩ := gridColumn_props b hb.grid (b.startAdj 0) (gs 0) (ge 0) [] (by simp)
    unfold Bit.ownGrid Bit.gridFor at ha
    rw [List.map_nil, hpre, List.append_nil] at ha
    exact hle a ha
  have hmem : ∀ (y u : ℝ), u ∈ b.gridFor gs ge [fun _ => y] 0 ↔ u ∈ b.ownGrid gs ge ∨ u = b.adjust (fun _ => y) 0 := by
    intro y u
    obtain ⟨pre, hpre, -, -, hpm⟩ := gridColumn_props b hb.grid (b.startAdj 0) (gs 0) (ge 0) [] (by simp)
    obtain ⟨pre', hpre', -, -, hpm'⟩ := gridColumn_props b hb.grid (b.startAdj 0) (gs 0) (ge 0)
      [b.adjust (fun _ => y) 0] (by
        intro v hv
        rw [List.mem_singleton] at hv
        rw [hv]
        exact le_max_right _ _)
    unfold Bit.ownGrid Bit.gridFor
    rw [List.map_nil, hpre, List.append_nil, List.map_cons, List.map_nil, hpre', List.mem_append, List.mem_singleton,
      hpm, hpm']
  set K := gridScore (b.curveEntropies med 0) (b.startAdj 0) (b.ownGrid gs ge) a with hK
  have hcts : Continuous fun y : ℝ => y * m := continuous_id.mul continuous_const
  have hev : (fun y : ℝ => gridScore (b.curveEntropies med 0) (b.startAdj 0) (b.gridFor gs ge [fun _ => y] 0)
      (b.adjust (fun _ => y) 0)) =ᶠ[𝓝 x] fun y => K + sumDist (b.curveEntropies med 0) a (y * m) := by
    have e1 : ∀ᶠ y in 𝓝 x, a < y * m := hcts.continuousAt.eventually_const_lt hcell.1
    have e2 : ∀ᶠ y in 𝓝 x, y * m < c := hcts.continuousAt.eventually_lt_const hcell.2
    filter_upwards [e1, e2] with y h1 h2
    have hadj : b.adjust (fun _ => y) 0 = y * m := by
      unfold Bit.adjust
      rw [max_eq_left (hsa.trans h1.le)]
    rw [hadj]
    refine gridScore_last _ _ a (y * m) (b.ownGrid gs ge) _ ha hsa h1 (fun u hu => ?_) (fun u => ?_)
    · exact (hno u hu).imp_right fun h => h2.trans_le h
    · rw [hmem y u, hadj]
  have hlist : ∀ l : List ℕ, (∀ i ∈ l, i ∈ b.items) →
      HasDerivAt (fun z => sumDist (l.map fun i y => b.itemEntropy i (b.curve med 0 y)) a z)
        (l.map fun i => |deriv (fun x => smoothEntropy ((b.probs fun _ => x).getD i [])) x|).sum (x * m) := by
    intro l
    induction l with
    | nil => intro _; simpa [sumDist] using hasDerivAt_const (x * m) (0 : ℝ)
    | cons i l ih =>
      intro hl
      have h1 := b.curve_hasDerivAt grads hg hp med i (x * m)
      rw [← hm, mul_assoc, hmm, mul_one] at h1
      have hone := hw _ (List.mem_map.2 ⟨i, hl i List.mem_cons_self, rfl⟩)
      have h2 := oneWay_step hone hcell h1
      rw [abs_mul, habs, mul_one] at h2
      exact h2.add (ih fun k hk => hl k (List.mem_cons_of_mem _ hk))
  refine ⟨fun y => gridScore (b.curveEntropies med 0) (b.startAdj 0) (b.gridFor gs ge [fun _ => y] 0)
      (b.adjust (fun _ => y) 0), _,
    m * (b.items.map fun i => |deriv (fun x => smoothEntropy ((b.probs fun _ => x).getD i [])) x|).sum, ?_,
    C30_all_items_partial b grads hg hp hitems [fun _ => x], ?_, ?_⟩
  · exact fun y => b.transform_one hb gs ge med hset y
  · have h1 : HasDerivAt (fun y : ℝ => y * m) m x := by simpa using (hasDerivAt_id x).mul_const m
    have h2 := ((hlist b.items fun _ h => h).comp x h1).const_add K
    exact (h2.congr_deriv (mul_comm _ _)).congr_of_eventuallyEq hev
  · dsimp only
    rw [← mul_sub, abs_mul, habs, one_mul]
    refine slope_list_gap hg hp x b.items fun i hi => ?_
    rwa [hitems fun _ => x, List.mem_range] at hi

/-- What a user would expect: wherever the bit scores are differentiable, the Jacobian is their slope, up to the
given tolerance. -/
def BitSlopeRight (tol : ℝ) : Prop := ∀ (b : Bit 1) (grads : (Fin 1 → ℝ) → List (List ℝ)), b.Usable →
  GradsOf b.probs grads → PositiveOrPadded b.probs → (∀ t, b.items = List.range (b.probs t).length) →
  ∀ (B : ℝ → ℝ) (x J s : ℝ), (∀ y, b.transform [fun _ => y] = .ok [fun _ => B y]) → HasDerivAt B s x →
    b.jacobian grads [fun _ => x] = .ok [Matrix.of fun _ _ => J] → |J - s| ≤ tol

/-- Two Rasch items with a starting theta of 5. -/
noncomputable def lateStart : Bit 1 :=
  ⟨raschTwo, fun t => sigmoid (t 0) + sigmoid (t 0 - 1), List.range 2, 100, none, fun k => [(5 : ℝ)].getD k 0⟩

theorem lateStart_created : Bit.create raschTwo (fun t => sigmoid (t 0) + sigmoid (t 0 - 1)) 2 none (some [5]) none 100
    = .ok lateStart := rfl

theorem lateStart_usable : lateStart.Usable := by
  refine ⟨raschTwo_positive.sums, ?_, by norm_num [lateStart], ?_⟩
  · intro t i hi
    have : i < 2 := by simpa [lateStart] using hi
    simpa [lateStart, raschTwo] using this
  · intro p hp
    cases hp

theorem lateStart_multiplier (k : Fin 1) : lateStart.multiplier k = 1 := by
  unfold Bit.multiplier invertMultiplier
  rw [if_neg]
  rw [Subsingleton.elim k 0]
  simp only [lateStart, if_true]
  have h1 := sigmoid_strictMono (show (-1 : ℝ) < 1 by norm_num)
  have h2 := sigmoid_strictMono (show (-1 - 1 : ℝ) < 1 - 1 by norm_num)
  linarith

/-- Below the starting theta the bit score of every respondent is zero, so its slope is zero. -/
theorem C148_below_start (b : Bit 1) (hb : b.Usable) (y : ℝ) (hy : y * b.multiplier 0 ≤ b.startTheta 0 * b.multiplier 0) :
    b.transform [fun _ => y] = .ok [fun _ => 0] := by
  obtain ⟨B, med, h1, h2⟩ := C28_scores b hb [fun _ => y] (List.cons_ne_nil _ _)
  rw [h1]
  show Except.ok [B fun _ => y] = _
  congr 2
  funext k
  rw [Subsingleton.elim k 0]
  exact (h2 _ (List.mem_singleton.2 rfl) 0).2.1 hy

/-- So the bit scores are flat below the starting theta. -/
theorem C148_below_start_flat (b : Bit 1) (hb : b.Usable) (B : ℝ → ℝ)
    (hB : ∀ y, b.transform [fun _ => y] = .ok [fun _ => B y]) (x : ℝ)
    (hx : x * b.multiplier 0 < b.startTheta 0 * b.multiplier 0) : HasDerivAt B 0 x := by
  refine (hasDerivAt_const x (0 : ℝ)).congr_of_eventuallyEq ?_
  have hcts : Continuous fun y : ℝ => y * b.multiplier 0 := continuous_id.mul continuous_const
  filter_upwards [hcts.continuousAt.eventually_lt_const hx] with y hy
  have h1 := (hB y).symm.trans (C148_below_start b hb y hy.le)
  injection h1 with h1
  injection h1 with h1 _
  exact congrFun h1 0

theorem rasch_slope (x : ℝ) : deriv (fun x => shannonEntropy ((raschTwo fun _ => x).getD 0 [])) x
    = -(sigmoid x * (1 - sigmoid x) * x / Real.log 2) := by
  have h := (shannon_hasDerivAt raschTwo_grads raschTwo_positive (fun _ => x) 0 (by simp [raschTwo])).deriv
  refine h.trans ?_
  have hp := sigmoid_pos x
  have hq : 0 < 1 - sigmoid x := sub_pos.2 (sigmoid_lt_one x)
  have hlog : Real.log (sigmoid x) - Real.log (1 - sigmoid x) = x := by
    rw [← Real.log_div hp.ne' hq.ne']
    have : sigmoid x / (1 - sigmoid x) = Real.exp x := by
      rw [← sigmoid_neg']
      unfold sigmoid
      rw [neg_neg, Real.exp_neg]
      field_simp
      ring
    rw [this, Real.log_exp]
  simp only [raschTwo, raschTwoGrads, List.getD_cons_zero, List.zipWith_cons_cons, List.zipWith_nil_left, List.sum_cons,
    List.sum_nil, entropyGradTerm, if_neg hp.ne', if_neg hq.ne']
  have e : Real.log (sigmoid x) = x + Real.log (1 - sigmoid x) := by linarith
  rw [e]
  field_simp
  ring

theorem rasch_slope_large : 0.19 < |deriv (fun x => shannonEntropy ((raschTwo fun _ => x).getD 0 [])) (-1)| := by
  rw [rasch_slope]
  have hl : Real.log 2 < 1 := by
    have := Real.log_lt_sub_one_of_pos (show (0 : ℝ) < 2 by norm_num) (by norm_num)
    linarith
  have hl0 : 0 < Real.log 2 := Real.log_pos (by norm_num)
  have he : sigmoid (-1) * (1 - sigmoid (-1)) = Real.exp 1 / (1 + Real.exp 1) ^ 2 := by
    unfold sigmoid
    rw [neg_neg]
    have := Real.exp_pos 1
    field_simp
    ring
  have h1 := Real.exp_one_gt_d9
  have h2 := Real.exp_one_lt_d9
  have hv : 0.19 < Real.exp 1 / (1 + Real.exp 1) ^ 2 := by
    rw [lt_div_iff₀ (by positivity)]
    nlinarith
  rw [he]
  have : -(Real.exp 1 / (1 + Real.exp 1) ^ 2 * -1 / Real.log 2) = Real.exp 1 / (1 + Real.exp 1) ^ 2 / Real.log 2 := by
    ring
  rw [this, abs_of_pos (by positivity), lt_div_iff₀ hl0]
  nlinarith

/-- The Jacobian does not know of the starting theta: at -1, below a starting theta of 5, all bit scores are zero
and the reported slope is more than 0.19. -/
theorem C148_below_start_false : ¬ BitSlopeRight 0.19 := by
  intro hall
  obtain ⟨gs, ge, med, hset⟩ := lateStart.gridSetup_ok lateStart_usable
  have hB := lateStart.transform_one lateStart_usable gs ge med hset
  have hd := C148_below_start_flat lateStart lateStart_usable _ hB (-1) (by
    rw [lateStart_multiplier]
    simp only [lateStart]
    norm_num)
  have hr : ∀ t, lateStart.items = List.range (lateStart.probs t).length := fun _ => rfl
  have hJ := lateStart.jacobian_one raschTwoGrads raschTwo_grads raschTwo_positive hr (-1)
  have h := hall lateStart raschTwoGrads lateStart_usable raschTwo_grads raschTwo_positive hr _ (-1) _ 0 hB hd hJ
  have hbig := rasch_slope_large
  rw [lateStart_multiplier, one_mul, sub_zero] at h
  have hsum : (lateStart.items.map fun i => |deriv (fun x => shannonEntropy ((lateStart.probs fun _ => x).getD i [])) (-1)|).sum
      = |deriv (fun x => shannonEntropy ((raschTwo fun _ => x).getD 0 [])) (-1)|
        + (|deriv (fun x => shannonEntropy ((raschTwo fun _ => x).getD 1 [])) (-1)| + 0) := rfl
  rw [hsum] at h
  have h' := (le_abs_self _).trans h
  have := abs_nonneg (deriv (fun x => shannonEntropy ((raschTwo fun _ => x).getD 1 [])) (-1))
  linarith

/-- Two Rasch items on a grid of whole numbers with a starting theta of -5. -/
noncomputable def wholeGrid : Bit 1 :=
  ⟨raschTwo, fun t => sigmoid (t 0) + sigmoid (t 0 - 1), List.range 2, 15, none, fun k => [(-5 : ℝ)].getD k 0⟩

theorem wholeGrid_usable : wholeGrid.Usable := by
  refine ⟨raschTwo_positive.sums, ?_, by norm_num [wholeGrid], ?_⟩
  · intro t i hi
    have : i < 2 := by simpa [wholeGrid] using hi
    simpa [wholeGrid, raschTwo] using this
  · intro p hp
    cases hp

theorem wholeGrid_multiplier (k : Fin 1) : wholeGrid.multiplier k = 1 := lateStart_multiplier k

theorem sigmoid_cont : Continuous sigmoid :=
  continuous_iff_continuousAt.2 fun x => (sigmoid_hasDerivAt x).continuousAt

theorem raschTwoGrads_cont (i j : ℕ) : Continuous fun x : ℝ => ((raschTwoGrads fun _ => x).getD i []).getD j 0 := by
  have h0 : Continuous fun x : ℝ => sigmoid x * (1 - sigmoid x) := sigmoid_cont.mul (continuous_const.sub sigmoid_cont)
  have h1 : Continuous fun x : ℝ => sigmoid (x - 1) * (1 - sigmoid (x - 1)) :=
    h0.comp (continuous_id.sub continuous_const)
  rcases i with _ | _ | i
  · rcases j with _ | _ | j
    · exact h0.neg
    · exact h0
    · exact continuous_const
  · rcases j with _ | _ | j
    · exact h1.neg
    · exact h1
    · exact continuous_const
  · exact continuous_const

/-- The hypotheses of `C148_slope_partial` are met by two Rasch items at the latent score 3. -/
example : GradsOf wholeGrid.probs raschTwoGrads ∧ PositiveOrPadded wholeGrid.probs ∧
    (∀ t, wholeGrid.items = List.range (wholeGrid.probs t).length) ∧
    (∀ i j, Continuous fun x : ℝ => ((raschTwoGrads fun _ => x).getD i []).getD j 0) ∧ wholeGrid.AboveStart 3 := by
  refine ⟨raschTwo_grads, raschTwo_positive, fun _ => rfl, raschTwoGrads_cont, ?_⟩
  unfold Bit.AboveStart
  rw [wholeGrid_multiplier]
  simp only [wholeGrid]
  norm_num

/-- The hypotheses of `C148_transform_partial` are met by two Rasch items at the latent score -1.5, which lies
between the grid points -2 and -1. -/
example : wholeGrid.Usable ∧ wholeGrid.gridSetup = .ok (fun _ => -7, fun _ => 7, fun _ => 0) ∧
    -2 ∈ wholeGrid.ownGrid (fun _ => -7) (fun _ => 7) ∧ -1 ∈ wholeGrid.ownGrid (fun _ => -7) (fun _ => 7) ∧
    (-2 < -1.5 * wholeGrid.multiplier 0 ∧ -1.5 * wholeGrid.multiplier 0 < -1) ∧
    (∀ u ∈ wholeGrid.ownGrid (fun _ => -7) (fun _ => 7), u ≤ -2 ∨ -1 ≤ u) ∧
    ∀ h ∈ wholeGrid.curveEntropies (fun _ => 0) 0, OneWayOn h (Set.Icc (-2) (-1)) := by
  have hsa : wholeGrid.startAdj 0 = -5 := by
    unfold Bit.startAdj
    rw [wholeGrid_multiplier]
    simp [wholeGrid]
  have hmem : ∀ u, u ∈ wholeGrid.ownGrid (fun _ => -7) (fun _ => 7) ↔ u = -5 ∨ ∃ i : ℕ, 1 ≤ i ∧ i < 15 ∧
      u = max (-7 + (i : ℝ)) (-5) := by
    intro u
    obtain ⟨pre, hpre, -, -, hpm⟩ := gridColumn_props wholeGrid wholeGrid_usable.grid (wholeGrid.startAdj 0) (-7) 7 []
      (by simp)
    unfold Bit.ownGrid Bit.gridFor
    rw [List.map_nil, hpre, List.append_nil, hpm, hsa]
    have h15 : wholeGrid.gridPoints = 15 := rfl
    constructor
    · rintro (h | ⟨i, h1, r, hr, rfl⟩)
      · exact Or.inl h
      · have hi : i < 15 := by
          have := (List.getElem?_eq_some_iff.1 hr).1
          rwa [length_linspace01, h15] at this
        rw [h15, linspace01_getElem? 15 i hi] at hr
        refine Or.inr ⟨i, h1, hi, ?_⟩
        rw [← Option.some.inj hr]
        congr 1
        push_cast
        ring
    · rintro (h | ⟨i, h1, hi, rfl⟩)
      · exact Or.inl h
      · refine Or.inr ⟨i, h1, _, by rw [h15]; exact linspace01_getElem? 15 i hi, ?_⟩
        congr 1
        push_cast
        ring
  refine ⟨wholeGrid_usable, rfl, (hmem _).2 (Or.inr ⟨5, by norm_num, by norm_num, by norm_num⟩),
    (hmem _).2 (Or.inr ⟨6, by norm_num, by norm_num, by norm_num⟩), ?_, ?_, ?_⟩
  · rw [wholeGrid_multiplier]
    norm_num
  · intro u hu
    rcases (hmem u).1 hu with rfl | ⟨i, -, -, rfl⟩
    · exact Or.inl (by norm_num)
    · rcases Nat.lt_or_ge i 6 with h | h
      · left
        have : (i : ℝ) ≤ 5 := by exact_mod_cast Nat.lt_succ_iff.1 h
        exact max_le (by linarith) (by norm_num)
      · right
        have : (6 : ℝ) ≤ i := by exact_mod_cast h
        exact le_max_of_le_left (by linarith)
  · have hc : ∀ y, wholeGrid.curve (fun _ => 0) 0 y 0 = y := by
      intro y
      unfold Bit.curve
      rw [if_pos rfl, wholeGrid_multiplier, mul_one]
    have hH : wholeGrid.curveEntropies (fun _ => 0) 0 = [fun y => oddsEntropy (y + 0), fun y => oddsEntropy (y + -1)] := by
      have : wholeGrid.curveEntropies (fun _ => 0) 0
          = [fun y => smoothEntropy [1 - sigmoid (wholeGrid.curve (fun _ => 0) 0 y 0), sigmoid (wholeGrid.curve (fun _ => 0) 0 y 0)],
             fun y => smoothEntropy [1 - sigmoid (wholeGrid.curve (fun _ => 0) 0 y 0 - 1),
               sigmoid (wholeGrid.curve (fun _ => 0) 0 y 0 - 1)]] := rfl
      rw [this]
      simp only [hc, add_zero, ← sub_eq_add_neg, oddsEntropy, logistic_eq_sigmoid]
    rw [hH]
    intro h hh
    simp only [List.mem_cons, List.not_mem_nil, or_false] at hh
    rcases hh with rfl | rfl
    · exact Or.inl ((ramp_mono 0).mono fun y hy => by simpa using hy.2.trans (by norm_num))
    · exact Or.inl ((ramp_mono (-1)).mono fun y hy => by simpa using hy.2.trans (by norm_num))

/-- The hypotheses of `C148_below_start_flat` are met by two Rasch items at -1 with a starting theta of 5. -/
example : lateStart.Usable ∧ (-1 : ℝ) * lateStart.multiplier 0 < lateStart.startTheta 0 * lateStart.multiplier 0 := by
  refine ⟨lateStart_usable, ?_⟩
  rw [lateStart_multiplier]
  simp only [lateStart]
  norm_num

end Irt
