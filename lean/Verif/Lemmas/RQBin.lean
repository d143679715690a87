import Verif.Model.RQSpline
import Mathlib.Analysis.Calculus.Deriv.MeanValue
import Mathlib.Analysis.Calculus.Deriv.Inv
import Mathlib.Analysis.Calculus.Deriv.Mul
import Mathlib.Analysis.Calculus.Deriv.Add
import Mathlib.Analysis.Calculus.Deriv.Pow
import Mathlib.Analysis.SpecialFunctions.Sqrt

/-! # One bin of the rational quadratic spline -/

namespace Irt

/-- The denominator of the spline in a bin is positive. -/
theorem rq_den_pos (dl d0 d1 t : ℝ) (hdl : 0 < dl) (h0 : 0 < d0) (h1 : 0 < d1) (ht0 : 0 ≤ t)
    (ht1 : t ≤ 1) : 0 < dl + (d0 + d1 - 2 * dl) * (t * (1 - t)) := by
  have e : dl + (d0 + d1 - 2 * dl) * (t * (1 - t))
      = dl * (t ^ 2 + (1 - t) ^ 2) + (d0 + d1) * (t * (1 - t)) := by ring
  rw [e]
  have : 0 < t ^ 2 + (1 - t) ^ 2 := by nlinarith [sq_nonneg (t - (1 - t))]
  have : 0 ≤ t * (1 - t) := mul_nonneg ht0 (by linarith)
  positivity

/-- The numerator of the derivative in a bin is positive. -/
theorem rq_num_pos (dl d0 d1 t : ℝ) (hdl : 0 < dl) (h0 : 0 < d0) (h1 : 0 < d1) (ht0 : 0 ≤ t)
    (ht1 : t ≤ 1) :
    0 < dl ^ 2 * (d1 * t ^ 2 + 2 * dl * (t * (1 - t)) + d0 * (1 - t) ^ 2) := by
  have a : 0 ≤ t * (1 - t) := mul_nonneg ht0 (by linarith)
  rcases eq_or_lt_of_le ht0 with h | h
  · subst h; simp; positivity
  · have : 0 < d1 * t ^ 2 := by positivity
    have : 0 ≤ d0 * (1 - t) ^ 2 := by positivity
    have : 0 ≤ 2 * dl * (t * (1 - t)) := by positivity
    have : 0 < dl ^ 2 := by positivity
    positivity

/-- The value of the rational quadratic at relative position `t` of a bin. -/
noncomputable def rqCurve (yk h dl d0 d1 t : ℝ) : ℝ :=
  yk + h * (dl * t ^ 2 + d0 * (t * (1 - t))) / (dl + (d0 + d1 - 2 * dl) * (t * (1 - t)))

/-- Its derivative with respect to the input. -/
noncomputable def rqSlope (dl d0 d1 t : ℝ) : ℝ :=
  dl ^ 2 * (d1 * t ^ 2 + 2 * dl * (t * (1 - t)) + d0 * (1 - t) ^ 2)
    / (dl + (d0 + d1 - 2 * dl) * (t * (1 - t))) ^ 2

theorem rqSlope_pos (dl d0 d1 t : ℝ) (hdl : 0 < dl) (h0 : 0 < d0) (h1 : 0 < d1) (ht0 : 0 ≤ t)
    (ht1 : t ≤ 1) : 0 < rqSlope dl d0 d1 t :=
  div_pos (rq_num_pos dl d0 d1 t hdl h0 h1 ht0 ht1)
    (pow_pos (rq_den_pos dl d0 d1 t hdl h0 h1 ht0 ht1) 2)

theorem rqSlope_zero (dl d0 d1 : ℝ) (hdl : 0 < dl) : rqSlope dl d0 d1 0 = d0 := by
  unfold rqSlope; norm_num; field_simp

theorem rqSlope_one (dl d0 d1 : ℝ) (hdl : 0 < dl) : rqSlope dl d0 d1 1 = d1 := by
  unfold rqSlope; norm_num; field_simp

theorem binForward_eq (x xk w yk h dl d0 d1 : ℝ) :
    (binForward x xk w yk h dl d0 d1).1 = rqCurve yk h dl d0 d1 ((x - xk) / w) := by
  simp [binForward, rqCurve]

theorem binForward_log (x xk w yk h dl d0 d1 : ℝ) (hdl : 0 < dl) (h0 : 0 < d0) (h1 : 0 < d1)
    (ht0 : 0 ≤ (x - xk) / w) (ht1 : (x - xk) / w ≤ 1) :
    (binForward x xk w yk h dl d0 d1).2 = Real.log (rqSlope dl d0 d1 ((x - xk) / w)) := by
  have hn := rq_num_pos dl d0 d1 _ hdl h0 h1 ht0 ht1
  have hd := rq_den_pos dl d0 d1 _ hdl h0 h1 ht0 ht1
  unfold rqSlope
  rw [Real.log_div hn.ne' (pow_pos hd 2).ne', Real.log_pow]
  simp [binForward]

theorem rqCurve_zero (yk h dl d0 d1 : ℝ) : rqCurve yk h dl d0 d1 0 = yk := by
  simp [rqCurve]

theorem rqCurve_one (yk h dl d0 d1 : ℝ) (hdl : 0 < dl) : rqCurve yk h dl d0 d1 1 = yk + h := by
  simp [rqCurve]; field_simp

theorem rqCurve_hasDerivAt (yk h dl d0 d1 t : ℝ) (hdl : 0 < dl)
    (hd : 0 < dl + (d0 + d1 - 2 * dl) * (t * (1 - t))) :
    HasDerivAt (rqCurve yk h dl d0 d1) (h / dl * rqSlope dl d0 d1 t) t := by
  have hq : HasDerivAt (fun t : ℝ => t * (1 - t)) (1 * (1 - t) + t * (-1)) t :=
    (hasDerivAt_id t).mul ((hasDerivAt_id t).const_sub 1)
  have hs : HasDerivAt (fun t : ℝ => t ^ 2) (2 * t) t := by
    simpa using hasDerivAt_pow 2 t
  have hnum := ((hs.const_mul dl).add (hq.const_mul d0)).const_mul h
  have hden := (hq.const_mul (d0 + d1 - 2 * dl)).const_add dl
  have := (hnum.div hden hd.ne').const_add yk
  refine this.congr_deriv ?_
  unfold rqSlope
  simp only [Pi.add_apply]
  field_simp
  ring

theorem rqCurve_strictMonoOn (yk h dl d0 d1 : ℝ) (hh : 0 < h) (hdl : 0 < dl) (h0 : 0 < d0)
    (h1 : 0 < d1) : StrictMonoOn (rqCurve yk h dl d0 d1) (Set.Icc 0 1) := by
  apply strictMonoOn_of_deriv_pos (convex_Icc 0 1)
  · intro t ht
    exact (rqCurve_hasDerivAt yk h dl d0 d1 t hdl
      (rq_den_pos dl d0 d1 t hdl h0 h1 ht.1 ht.2)).continuousAt.continuousWithinAt
  · intro t ht
    rw [interior_Icc] at ht
    rw [(rqCurve_hasDerivAt yk h dl d0 d1 t hdl
      (rq_den_pos dl d0 d1 t hdl h0 h1 ht.1.le ht.2.le)).deriv]
    exact mul_pos (div_pos hh hdl) (rqSlope_pos dl d0 d1 t hdl h0 h1 ht.1.le ht.2.le)

/-- Choosing the root of the quadratic equation. -/
theorem rq_root (a b c t : ℝ) (hq : a * t ^ 2 + b * t + c = 0) (h1 : 0 ≤ 2 * a * t + b)
    (h2 : 0 < a * t + b) : 2 * c / (-b - Real.sqrt (b ^ 2 - 4 * a * c)) = t := by
  have hc : c = -(a * t ^ 2 + b * t) := by linarith
  have hd : b ^ 2 - 4 * a * c = (2 * a * t + b) ^ 2 := by rw [hc]; ring
  rw [hd, Real.sqrt_sq h1, hc]
  rw [div_eq_iff (by linarith)]
  ring

/-- The root computed in inverse mode recovers the relative position. -/
theorem rq_root_eq (yk h dl d0 d1 t : ℝ) (hh : 0 < h) (hdl : 0 < dl) (h0 : 0 < d0) (h1 : 0 < d1)
    (ht0 : 0 ≤ t) (ht1 : t ≤ 1) :
    let x := rqCurve yk h dl d0 d1 t
    let a := (x - yk) * (d0 + d1 - 2 * dl) + h * (dl - d0)
    let b := h * d0 - (x - yk) * (d0 + d1 - 2 * dl)
    let c := -dl * (x - yk)
    (2 * c) / (-b - Real.sqrt (b ^ 2 - 4 * a * c)) = t := by
  intro x a b c
  have hD := rq_den_pos dl d0 d1 t hdl h0 h1 ht0 ht1
  have hN := rq_num_pos dl d0 d1 t hdl h0 h1 ht0 ht1
  set s := d0 + d1 - 2 * dl with hs
  have hY : (x - yk) * (dl + s * (t * (1 - t))) = h * (dl * t ^ 2 + d0 * (t * (1 - t))) := by
    simp only [x, rqCurve]
    rw [add_sub_cancel_left, div_mul_cancel₀ _ hD.ne']
  set Y := x - yk with hYdef
  apply rq_root
  · simp only [a, b, c]
    nlinarith [hY]
  · have e : (dl + s * (t * (1 - t))) * (2 * a * t + b)
        = h * (dl * (d1 * t ^ 2 + 2 * dl * (t * (1 - t)) + d0 * (1 - t) ^ 2)) := by
      have : (dl + s * (t * (1 - t))) * (2 * a * t + b)
          = (Y * (dl + s * (t * (1 - t)))) * (s * (2 * t - 1))
            + (dl + s * (t * (1 - t))) * (2 * h * (dl - d0) * t + h * d0) := by
        simp only [a, b]; ring
      rw [this, hY, hs]; ring
    have hp : 0 < (dl + s * (t * (1 - t))) * (2 * a * t + b) := by
      rw [e]
      refine mul_pos hh ?_
      have : dl ^ 2 * (d1 * t ^ 2 + 2 * dl * (t * (1 - t)) + d0 * (1 - t) ^ 2)
        = dl * (dl * (d1 * t ^ 2 + 2 * dl * (t * (1 - t)) + d0 * (1 - t) ^ 2)) := by ring
      rw [this] at hN
      exact (mul_pos_iff_of_pos_left hdl).mp hN
    exact ((mul_pos_iff_of_pos_left hD).mp hp).le
  · have e : (dl + s * (t * (1 - t))) * (a * t + b) = h * (dl * (d0 * (1 - t) + dl * t)) := by
      have : (dl + s * (t * (1 - t))) * (a * t + b)
          = (Y * (dl + s * (t * (1 - t)))) * (s * (t - 1))
            + (dl + s * (t * (1 - t))) * (h * (dl - d0) * t + h * d0) := by
        simp only [a, b]; ring
      rw [this, hY, hs]; ring
    have hp : 0 < (dl + s * (t * (1 - t))) * (a * t + b) := by
      rw [e]
      refine mul_pos hh (mul_pos hdl ?_)
      rcases eq_or_lt_of_le ht0 with h' | h'
      · rw [← h']; simpa using h0
      · have : 0 ≤ d0 * (1 - t) := mul_nonneg h0.le (by linarith)
        have : 0 < dl * t := by positivity
        linarith
    exact (mul_pos_iff_of_pos_left hD).mp hp

/-- In a bin, inverse mode undoes forward mode, with the opposite log derivative. -/
theorem binInverse_binForward (x xk w yk h dl d0 d1 : ℝ) (hw : 0 < w) (hh : 0 < h) (hdl : 0 < dl)
    (h0 : 0 < d0) (h1 : 0 < d1) (hx0 : xk ≤ x) (hx1 : x ≤ xk + w) :
    binInverse (binForward x xk w yk h dl d0 d1).1 xk w yk h dl d0 d1
      = (x, -(binForward x xk w yk h dl d0 d1).2) := by
  have ht0 : 0 ≤ (x - xk) / w := div_nonneg (by linarith) hw.le
  have ht1 : (x - xk) / w ≤ 1 := by rw [div_le_one hw]; linarith
  have hr := rq_root_eq yk h dl d0 d1 ((x - xk) / w) hh hdl h0 h1 ht0 ht1
  rw [← binForward_eq] at hr
  simp only at hr
  unfold binInverse
  simp only [hr]
  refine Prod.ext ?_ ?_
  · simp only; field_simp; ring
  · simp [binForward]

end Irt
