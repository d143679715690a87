import Verif.Model.Modules
import Verif.Spec.Modules
import Mathlib.Analysis.Calculus.Deriv.Basic
import Mathlib.Analysis.SpecialFunctions.ExpDeriv
import Mathlib.Tactic.NormNum

/-! # Facts about the bounded ELU -/

namespace Irt

/-- for a positive `alpha` the forward pass returns the bounded ELU at every input, also where the
unused branch overflows. -/
theorem boundedElu_eq (ov α x : ℝ) (hov : 0 ≤ ov) (hα : 0 < α) : boundedElu ov α x = some (belu α x) := by
  unfold boundedElu belu
  by_cases h1 : x ≤ -1
  · have h2 : ¬ (1 ≤ x) := by linarith
    have h3 : ¬ (ov < x + 1) := by linarith
    simp only [h1, h2, decide_true, decide_false, Bool.not_true, Bool.false_and, expOv, h3, if_false,
      affineExt, maskMul]
    by_cases h4 : ov < -x + 1
    · simp only [h4, if_true, affineExt, show ¬ (0 < -α) by linarith, if_false, maskMul, add3]
      simp; ring
    · simp only [h4, if_false, affineExt, maskMul, add3]
      simp; ring
  · by_cases h2 : 1 ≤ x
    · have h3 : ¬ (ov < -x + 1) := by linarith
      simp only [h1, h2, decide_true, decide_false, Bool.not_false, Bool.not_true, Bool.and_false, expOv, h3,
        if_false, affineExt, maskMul]
      have e : -x + 1 = 1 - x := by ring
      by_cases h4 : ov < x + 1
      · simp only [h4, if_true, affineExt, hα, maskMul, add3, e]
        simp; ring
      · simp only [h4, if_false, affineExt, maskMul, add3, e]
        simp; ring
    · simp only [h1, h2, decide_false, Bool.not_false, Bool.and_self, if_false, maskMul]
      by_cases h4 : ov < x + 1 <;> by_cases h5 : ov < -x + 1 <;>
        simp [expOv, h4, h5, affineExt, hα, show ¬ (0 < -α) by linarith, maskMul, add3, hα.le]

/-- likewise the backward pass returns `beluDeriv`. -/
theorem boundedEluGrad_eq (ov α x : ℝ) (hov : 0 ≤ ov) (hα : 0 < α) :
    boundedEluGrad ov α x = some (beluDeriv α x) := by
  unfold boundedEluGrad beluDeriv
  have e : -x + 1 = 1 - x := by ring
  by_cases h1 : x ≤ -1
  · have h2 : ¬ (1 ≤ x) := by linarith
    have h3 : ¬ (ov < x + 1) := by linarith
    by_cases h4 : ov < -x + 1 <;> simp [h1, h2, expOv, h3, h4, scaleExt, hα, maskMul, add3]
  · by_cases h2 : 1 ≤ x
    · have h3 : ¬ (ov < 1 - x) := by linarith
      by_cases h4 : ov < x + 1 <;> simp [h1, h2, expOv, h3, h4, scaleExt, hα, maskMul, add3, e]
    · by_cases h4 : ov < x + 1 <;> by_cases h5 : ov < -x + 1 <;>
        simp [h1, h2, expOv, h4, h5, scaleExt, hα, maskMul, add3]

/-- odd. -/
theorem belu_odd (α x : ℝ) : belu α (-x) = -belu α x := by
  unfold belu
  by_cases h1 : x ≤ -1
  · have : ¬ (-x ≤ -1) := by linarith
    have h2 : 1 ≤ -x := by linarith
    simp only [this, h2, h1, if_true, if_false]
    rw [show (1 : ℝ) - -x = x + 1 by ring]; ring
  · by_cases h2 : 1 ≤ x
    · have : -x ≤ -1 := by linarith
      simp only [this, h1, h2, if_true, if_false]
      rw [show (1 : ℝ) - x = -x + 1 by ring]; ring
    · have h3 : ¬ (-x ≤ -1) := by linarith
      have h4 : ¬ (1 ≤ -x) := by linarith
      simp only [h1, h2, h3, h4, if_false]

/-- strictly increasing for positive `alpha`. -/
theorem belu_strictMono (α : ℝ) (hα : 0 < α) : StrictMono (belu α) := by
  intro x y hxy
  unfold belu
  have hE : ∀ a b : ℝ, a < b → α * (Real.exp a - 1) < α * (Real.exp b - 1) := fun a b h => by
    have := Real.exp_lt_exp.2 h
    exact mul_lt_mul_of_pos_left (by linarith) hα
  have hneg : ∀ a : ℝ, a ≤ 0 → α * (Real.exp a - 1) ≤ 0 := fun a h => by
    have : Real.exp a ≤ 1 := Real.exp_le_one_iff.2 h
    nlinarith
  by_cases hx1 : x ≤ -1
  · simp only [hx1, if_true]
    by_cases hy1 : y ≤ -1
    · simp only [hy1, if_true]
      have := hE (x + 1) (y + 1) (by linarith)
      linarith
    · have h0 := hneg (x + 1) (by linarith)
      simp only [hy1, if_false]
      by_cases hy2 : 1 ≤ y
      · simp only [hy2, if_true]
        have := hneg (1 - y) (by linarith)
        linarith
      · simp only [hy2, if_false]; linarith
  · have hy1 : ¬ (y ≤ -1) := by linarith
    simp only [hx1, hy1, if_false]
    by_cases hx2 : 1 ≤ x
    · have hy2 : 1 ≤ y := by linarith
      simp only [hx2, hy2, if_true]
      have := hE (1 - y) (1 - x) (by linarith)
      linarith
    · simp only [hx2, if_false]
      by_cases hy2 : 1 ≤ y
      · simp only [hy2, if_true]
        have := hneg (1 - y) (by linarith)
        linarith
      · simp only [hy2, if_false]; exact hxy

/-- nondecreasing for nonnegative `alpha`. -/
theorem belu_monotone (α : ℝ) (hα : 0 ≤ α) : Monotone (belu α) := by
  rcases hα.eq_or_lt with rfl | h
  · intro x y hxy
    unfold belu
    simp only [zero_mul]
    split_ifs <;> linarith
  · exact (belu_strictMono α h).monotone

/-- bounded by `1 + alpha`. -/
theorem belu_bounded (α x : ℝ) (hα : 0 < α) : -(1 + α) < belu α x ∧ belu α x < 1 + α := by
  have hpos := Real.exp_pos (x + 1)
  have hpos' := Real.exp_pos (1 - x)
  unfold belu
  by_cases h1 : x ≤ -1
  · have : Real.exp (x + 1) ≤ 1 := Real.exp_le_one_iff.2 (by linarith)
    simp only [h1, if_true]
    constructor <;> nlinarith
  · by_cases h2 : 1 ≤ x
    · have : Real.exp (1 - x) ≤ 1 := Real.exp_le_one_iff.2 (by linarith)
      simp only [h1, h2, if_true, if_false]
      constructor <;> nlinarith
    · simp only [h1, h2, if_false]
      constructor <;> linarith

theorem belu_eqOn_left (α : ℝ) : ∀ x, x ≤ -1 → belu α x = α * (Real.exp (x + 1) - 1) - 1 := by
  intro x h; simp [belu, h]

theorem belu_eqOn_mid (α : ℝ) : ∀ x, -1 ≤ x → x ≤ 1 → belu α x = x := by
  intro x h1 h2
  unfold belu
  by_cases h : x ≤ -1
  · have : x = -1 := le_antisymm h h1
    subst this; simp
  · by_cases h' : 1 ≤ x
    · have : x = 1 := le_antisymm h2 h'
      subst this; norm_num
    · simp [h, h']

theorem belu_eqOn_right (α : ℝ) : ∀ x, 1 ≤ x → belu α x = 1 - α * (Real.exp (1 - x) - 1) := by
  intro x h
  have : ¬ (x ≤ -1) := by linarith
  simp [belu, h, this]

theorem hasDeriv_left (α x : ℝ) :
    HasDerivAt (fun x => α * (Real.exp (x + 1) - 1) - 1) (α * Real.exp (x + 1)) x := by
  have h := (((Real.hasDerivAt_exp (x + 1)).comp x ((hasDerivAt_id x).add_const 1)).sub_const 1).const_mul α
  have h2 := h.sub_const 1
  simpa [Function.comp_def] using h2

theorem hasDeriv_right (α x : ℝ) :
    HasDerivAt (fun x => 1 - α * (Real.exp (1 - x) - 1)) (α * Real.exp (1 - x)) x := by
  have h := (((Real.hasDerivAt_exp (1 - x)).comp x ((hasDerivAt_id x).const_sub 1)).sub_const 1).const_mul α
  have h2 := h.const_sub 1
  simpa [Function.comp_def] using h2

/-- away from the joints, or everywhere for `alpha = 1`, the backward pass is the derivative of the
forward pass. -/
theorem belu_hasDerivAt (α x : ℝ) (h : α = 1 ∨ (x ≠ -1 ∧ x ≠ 1)) :
    HasDerivAt (belu α) (beluDeriv α x) x := by
  rcases lt_trichotomy x (-1) with hx | hx | hx
  · have e : beluDeriv α x = α * Real.exp (x + 1) := by simp [beluDeriv, hx.le]
    rw [e]
    refine (hasDeriv_left α x).congr_of_eventuallyEq ?_
    filter_upwards [Iio_mem_nhds hx] with y hy
    exact belu_eqOn_left α y (le_of_lt hy)
  · have hα : α = 1 := by
      rcases h with h | h
      · exact h
      · exact absurd hx h.1
    subst hα hx
    have e : beluDeriv 1 (-1) = 1 := by simp [beluDeriv]
    rw [e]
    have hl : HasDerivWithinAt (belu 1) 1 (Set.Iic (-1)) (-1) := by
      have := (hasDeriv_left 1 (-1)).hasDerivWithinAt (s := Set.Iic (-1))
      simp only [neg_add_cancel, Real.exp_zero, mul_one] at this
      exact this.congr (fun y hy => belu_eqOn_left 1 y hy) (belu_eqOn_left 1 (-1) le_rfl)
    have hr : HasDerivWithinAt (belu 1) 1 (Set.Icc (-1) 1) (-1) :=
      (hasDerivAt_id' (-1 : ℝ)).hasDerivWithinAt.congr (fun y hy => belu_eqOn_mid 1 y hy.1 hy.2)
        (belu_eqOn_mid 1 (-1) le_rfl (by norm_num))
    have hu := hl.union hr
    refine hu.hasDerivAt ?_
    refine Filter.mem_of_superset (Iio_mem_nhds (show (-1 : ℝ) < 1 by norm_num)) ?_
    intro y hy
    rcases le_total y (-1) with h1 | h1
    · exact Or.inl h1
    · exact Or.inr ⟨h1, le_of_lt hy⟩
  · rcases lt_trichotomy x 1 with hx1 | hx1 | hx1
    · have e : beluDeriv α x = 1 := by
        simp [beluDeriv, not_le.2 hx, not_le.2 hx1]
      rw [e]
      refine (hasDerivAt_id' x).congr_of_eventuallyEq ?_
      filter_upwards [Ioo_mem_nhds hx hx1] with y hy
      exact belu_eqOn_mid α y hy.1.le hy.2.le
    · have hα : α = 1 := by
        rcases h with h | h
        · exact h
        · exact absurd hx1 h.2
      subst hα hx1
      have e : beluDeriv 1 1 = 1 := by norm_num [beluDeriv]
      rw [e]
      have hl : HasDerivWithinAt (belu 1) 1 (Set.Ici 1) 1 := by
        have := (hasDeriv_right 1 1).hasDerivWithinAt (s := Set.Ici 1)
        simp only [sub_self, Real.exp_zero, mul_one] at this
        exact this.congr (fun y hy => belu_eqOn_right 1 y hy) (belu_eqOn_right 1 1 le_rfl)
      have hr : HasDerivWithinAt (belu 1) 1 (Set.Icc (-1) 1) 1 :=
        (hasDerivAt_id' (1 : ℝ)).hasDerivWithinAt.congr (fun y hy => belu_eqOn_mid 1 y hy.1 hy.2)
          (belu_eqOn_mid 1 1 (by norm_num) le_rfl)
      have hu := hl.union hr
      refine hu.hasDerivAt ?_
      refine Filter.mem_of_superset (Ioi_mem_nhds (show (-1 : ℝ) < 1 by norm_num)) ?_
      intro y hy
      rcases le_total 1 y with h1 | h1
      · exact Or.inl h1
      · exact Or.inr ⟨le_of_lt hy, h1⟩
    · have e : beluDeriv α x = α * Real.exp (1 - x) := by
        simp [beluDeriv, not_le.2 hx, hx1.le]
      rw [e]
      refine (hasDeriv_right α x).congr_of_eventuallyEq ?_
      filter_upwards [Ioi_mem_nhds hx1] with y hy
      exact belu_eqOn_right α y (le_of_lt hy)

/-- continuous for every `alpha`. -/
theorem belu_continuous (α : ℝ) : Continuous (belu α) := by
  have e : belu α = fun x => if x ≤ -1 then α * (Real.exp (x + 1) - 1) - 1
      else if 1 ≤ x then 1 - α * (Real.exp (1 - x) - 1) else x := rfl
  rw [e]
  refine Continuous.if_le (by fun_prop) ?_ continuous_id continuous_const ?_
  · refine Continuous.if_le (by fun_prop) continuous_id continuous_const continuous_id ?_
    intro x hx
    subst hx; simp
  · intro x hx
    subst hx; norm_num

end Irt
