import Verif.Lemmas.RQBin
import Mathlib.Topology.Order.MonotoneContinuity
import Mathlib.Order.Monotone.Union
import Mathlib.Analysis.Calculus.Deriv.Inverse

/-! # Gluing the bins of the rational quadratic spline -/

namespace Irt

/-- Increasing knots with positive slopes, and positive slopes outside. -/
structure Knots (n : ℕ) (X Y D : ℕ → ℝ) : Prop where
  pos : 0 < n
  hX : ∀ k < n, X k < X (k + 1)
  hY : ∀ k < n, Y k < Y (k + 1)
  hD : ∀ k ≤ n, 0 < D k

/-- The forward value in bin `k`. -/
noncomputable def binF (X Y D : ℕ → ℝ) (k : ℕ) (x : ℝ) : ℝ × ℝ :=
  binForward x (X k) (X (k + 1) - X k) (Y k) (Y (k + 1) - Y k)
    ((Y (k + 1) - Y k) / (X (k + 1) - X k)) (D k) (D (k + 1))

/-- The inverse value in bin `k`. -/
noncomputable def binG (X Y D : ℕ → ℝ) (k : ℕ) (y : ℝ) : ℝ × ℝ :=
  binInverse y (X k) (X (k + 1) - X k) (Y k) (Y (k + 1) - Y k)
    ((Y (k + 1) - Y k) / (X (k + 1) - X k)) (D k) (D (k + 1))

theorem exists_bin (X : ℕ → ℝ) (n : ℕ) (hn : 0 < n) (x : ℝ) (h0 : X 0 ≤ x) (h1 : x ≤ X n) :
    ∃ k < n, X k ≤ x ∧ x ≤ X (k + 1) ∧ (x < X (k + 1) ∨ k + 1 = n) := by
  induction n with
  | zero => omega
  | succ n ih =>
    rcases Nat.eq_zero_or_pos n with rfl | hp
    · exact ⟨0, by omega, h0, h1, Or.inr rfl⟩
    · by_cases hx : x < X n
      · obtain ⟨k, hk, a, b, c⟩ := ih hp hx.le
        refine ⟨k, by omega, a, b, Or.inl ?_⟩
        rcases c with c | c
        · exact c
        · rw [c]; exact hx
      · exact ⟨n, by omega, not_lt.mp hx, h1, Or.inr rfl⟩

theorem knots_mono (X : ℕ → ℝ) (n : ℕ) (hX : ∀ k < n, X k < X (k + 1)) (i j : ℕ) (hij : i ≤ j)
    (hj : j ≤ n) : X i ≤ X j := by
  induction j, hij using Nat.le_induction with
  | base => exact le_rfl
  | succ j hij ih => exact (ih (by omega)).trans (hX j (by omega)).le

theorem knots_lt (X : ℕ → ℝ) (n : ℕ) (hX : ∀ k < n, X k < X (k + 1)) (i j : ℕ) (hij : i < j)
    (hj : j ≤ n) : X i < X j :=
  (hX i (by omega)).trans_le (knots_mono X n hX (i + 1) j hij hj)

section
variable {n : ℕ} {X Y D : ℕ → ℝ} (K : Knots n X Y D)
include K

theorem Knots.w_pos {k : ℕ} (hk : k < n) : 0 < X (k + 1) - X k := sub_pos.mpr (K.hX k hk)
theorem Knots.h_pos {k : ℕ} (hk : k < n) : 0 < Y (k + 1) - Y k := sub_pos.mpr (K.hY k hk)
theorem Knots.dl_pos {k : ℕ} (hk : k < n) : 0 < (Y (k + 1) - Y k) / (X (k + 1) - X k) :=
  div_pos (K.h_pos hk) (K.w_pos hk)

theorem Knots.rel {k : ℕ} (hk : k < n) {x : ℝ} (h0 : X k ≤ x) (h1 : x ≤ X (k + 1)) :
    0 ≤ (x - X k) / (X (k + 1) - X k) ∧ (x - X k) / (X (k + 1) - X k) ≤ 1 := by
  have hw := K.w_pos hk
  exact ⟨div_nonneg (by linarith) hw.le, by rw [div_le_one hw]; linarith⟩

theorem Knots.binF_left {k : ℕ} : (binF X Y D k (X k)).1 = Y k := by
  unfold binF; rw [binForward_eq, sub_self, zero_div, rqCurve_zero]

theorem Knots.binF_right {k : ℕ} (hk : k < n) : (binF X Y D k (X (k + 1))).1 = Y (k + 1) := by
  unfold binF
  rw [binForward_eq, div_self (K.w_pos hk).ne', rqCurve_one _ _ _ _ _ (K.dl_pos hk)]; ring

theorem Knots.binF_strictMonoOn {k : ℕ} (hk : k < n) :
    StrictMonoOn (fun x => (binF X Y D k x).1) (Set.Icc (X k) (X (k + 1))) := by
  intro x hx y hy hxy
  unfold binF
  simp only [binForward_eq]
  apply rqCurve_strictMonoOn _ _ _ _ _ (K.h_pos hk) (K.dl_pos hk) (K.hD k (by omega))
    (K.hD (k + 1) (by omega))
  · exact K.rel hk hx.1 hx.2
  · exact K.rel hk hy.1 hy.2
  · exact div_lt_div_of_pos_right (by linarith) (K.w_pos hk)

theorem Knots.binF_mem {k : ℕ} (hk : k < n) {x : ℝ} (h0 : X k ≤ x) (h1 : x ≤ X (k + 1)) :
    Y k ≤ (binF X Y D k x).1 ∧ (binF X Y D k x).1 ≤ Y (k + 1) := by
  have hm := (K.binF_strictMonoOn hk).monotoneOn
  have hw := K.hX k hk
  constructor
  · rw [← K.binF_left (k := k)]; exact hm ⟨le_rfl, hw.le⟩ ⟨h0, h1⟩ h0
  · rw [← K.binF_right hk]; exact hm ⟨h0, h1⟩ ⟨hw.le, le_rfl⟩ h1

theorem Knots.binF_lt {k : ℕ} (hk : k < n) {x : ℝ} (h0 : X k ≤ x) (h1 : x < X (k + 1)) :
    (binF X Y D k x).1 < Y (k + 1) := by
  have hw := K.hX k hk
  rw [← K.binF_right hk]
  exact K.binF_strictMonoOn hk ⟨h0, h1.le⟩ ⟨hw.le, le_rfl⟩ h1

theorem Knots.binF_hasDerivAt {k : ℕ} (hk : k < n) {x : ℝ} (h0 : X k ≤ x) (h1 : x ≤ X (k + 1)) :
    HasDerivAt (fun x => (binF X Y D k x).1) (Real.exp (binF X Y D k x).2) x := by
  obtain ⟨r0, r1⟩ := K.rel hk h0 h1
  have hw := K.w_pos hk
  have hdl := K.dl_pos hk
  have hp := rqSlope_pos _ _ _ _ hdl (K.hD k (by omega)) (K.hD (k + 1) (by omega)) r0 r1
  have hlog := binForward_log x (X k) (X (k + 1) - X k) (Y k) (Y (k + 1) - Y k) _ (D k) (D (k + 1))
    hdl (K.hD k (by omega)) (K.hD (k + 1) (by omega)) r0 r1
  have hc := rqCurve_hasDerivAt (Y k) (Y (k + 1) - Y k) _ (D k) (D (k + 1)) _ hdl
    (rq_den_pos _ _ _ _ hdl (K.hD k (by omega)) (K.hD (k + 1) (by omega)) r0 r1)
  have hi : HasDerivAt (fun x : ℝ => (x - X k) / (X (k + 1) - X k)) (1 / (X (k + 1) - X k)) x :=
    ((hasDerivAt_id x).sub_const _).div_const _
  have := hc.comp x hi
  unfold binF
  simp only [binForward_eq, hlog, Real.exp_log hp]
  refine this.congr_deriv ?_
  have hh := K.h_pos hk
  field_simp

theorem Knots.slope_left {k : ℕ} (hk : k < n) : Real.exp (binF X Y D k (X k)).2 = D k := by
  have hdl := K.dl_pos hk
  obtain ⟨r0, r1⟩ := K.rel hk le_rfl (K.hX k hk).le
  have hlog := binForward_log (X k) (X k) (X (k + 1) - X k) (Y k) (Y (k + 1) - Y k) _ (D k) (D (k + 1))
    hdl (K.hD k (by omega)) (K.hD (k + 1) (by omega)) r0 r1
  unfold binF
  rw [hlog, sub_self, zero_div, rqSlope_zero _ _ _ hdl, Real.exp_log (K.hD k (by omega))]

theorem Knots.slope_right {k : ℕ} (hk : k < n) :
    Real.exp (binF X Y D k (X (k + 1))).2 = D (k + 1) := by
  have hdl := K.dl_pos hk
  obtain ⟨r0, r1⟩ := K.rel hk (K.hX k hk).le le_rfl
  have hlog := binForward_log (X (k + 1)) (X k) (X (k + 1) - X k) (Y k) (Y (k + 1) - Y k) _ (D k)
    (D (k + 1)) hdl (K.hD k (by omega)) (K.hD (k + 1) (by omega)) r0 r1
  unfold binF
  rw [hlog, div_self (K.w_pos hk).ne', rqSlope_one _ _ _ hdl, Real.exp_log (K.hD (k + 1) (by omega))]

theorem Knots.binG_binF {k : ℕ} (hk : k < n) {x : ℝ} (h0 : X k ≤ x) (h1 : x ≤ X (k + 1)) :
    binG X Y D k (binF X Y D k x).1 = (x, -(binF X Y D k x).2) := by
  unfold binG binF
  exact binInverse_binForward x _ _ _ _ _ _ _ (K.w_pos hk) (K.h_pos hk) (K.dl_pos hk)
    (K.hD k (by omega)) (K.hD (k + 1) (by omega)) h0 (by linarith)

theorem Knots.binF_surj {k : ℕ} (hk : k < n) {y : ℝ} (h0 : Y k ≤ y) (h1 : y ≤ Y (k + 1)) :
    ∃ x, X k ≤ x ∧ x ≤ X (k + 1) ∧ (binF X Y D k x).1 = y := by
  have hc : ContinuousOn (fun x => (binF X Y D k x).1) (Set.Icc (X k) (X (k + 1))) := fun x hx =>
    (K.binF_hasDerivAt hk hx.1 hx.2).continuousAt.continuousWithinAt
  have := intermediate_value_Icc (K.hX k hk).le hc
  simp only [K.binF_left, K.binF_right hk] at this
  obtain ⟨x, hx, e⟩ := this ⟨h0, h1⟩
  exact ⟨x, hx.1, hx.2, e⟩

end

/-- The pair of scalar functions computed by the module: values and log derivatives, forward and inverse. -/
structure Glued (n : ℕ) (X Y D : ℕ → ℝ) (a b : ℝ) (f g : ℝ → ℝ × ℝ) : Prop where
  knots : Knots n X Y D
  ha : 0 < a
  hb : 0 < b
  f_in : ∀ x, X 0 ≤ x → x ≤ X n → ∃ k < n, X k ≤ x ∧ x ≤ X (k + 1) ∧ (x < X (k + 1) ∨ k + 1 = n) ∧
    f x = binF X Y D k x
  f_lo : ∀ x < X 0, f x = (Y 0 + (x - X 0) * a, 0)
  f_hi : ∀ x, X n < x → f x = (Y n + (x - X n) * b, 0)
  g_in : ∀ y, Y 0 ≤ y → y ≤ Y n → ∃ k < n, Y k ≤ y ∧ y ≤ Y (k + 1) ∧ (y < Y (k + 1) ∨ k + 1 = n) ∧
    g y = binG X Y D k y
  g_lo : ∀ y < Y 0, g y = (X 0 + (y - Y 0) / a, 0)
  g_hi : ∀ y, Y n < y → g y = (X n + (y - Y n) / b, 0)

section
variable {n : ℕ} {X Y D : ℕ → ℝ} {a b : ℝ} {f g : ℝ → ℝ × ℝ} (G : Glued n X Y D a b f g)
include G

theorem Glued.f_bin {k : ℕ} (hk : k < n) {x : ℝ} (h0 : X k ≤ x) (h1 : x ≤ X (k + 1)) :
    (f x).1 = (binF X Y D k x).1 := by
  have K := G.knots
  obtain ⟨j, hj, a0, a1, a2, e⟩ := G.f_in x
    ((knots_mono X n K.hX 0 k (by omega) (by omega)).trans h0)
    (h1.trans (knots_mono X n K.hX (k + 1) n (by omega) le_rfl))
  rw [e]
  rcases lt_trichotomy j k with h | h | h
  · have h2 : X (j + 1) ≤ X k := knots_mono X n K.hX _ _ h (by omega)
    have : ¬ x < X (j + 1) := not_lt.mpr (h2.trans h0)
    rcases a2 with a2 | a2
    · exact absurd a2 this
    · omega
  · rw [h]
  · have h2 : X (k + 1) ≤ X j := knots_mono X n K.hX _ _ h (by omega)
    have hx : x = X j := le_antisymm (h1.trans h2) a0
    have hx' : x = X (k + 1) := le_antisymm h1 (h2.trans a0)
    have hkj : k + 1 = j := by
      by_contra hne
      have := knots_lt X n K.hX (k + 1) j (by omega) (by omega)
      linarith
    subst hkj
    rw [hx, K.binF_left, K.binF_right hk]

theorem Glued.f_knot {k : ℕ} (hk : k ≤ n) : (f (X k)).1 = Y k := by
  have K := G.knots
  rcases Nat.lt_or_ge k n with h | h
  · rw [G.f_bin h le_rfl (K.hX k h).le, K.binF_left]
  · have : k = n := by omega
    subst this
    obtain ⟨m, rfl⟩ : ∃ m, k = m + 1 := ⟨k - 1, by have := K.pos; omega⟩
    rw [G.f_bin (by omega : m < m + 1) (K.hX m (by omega)).le le_rfl, K.binF_right (by omega)]

theorem Glued.f_mem {k : ℕ} (hk : k < n) {x : ℝ} (h0 : X k ≤ x) (h1 : x ≤ X (k + 1)) :
    Y k ≤ (f x).1 ∧ (f x).1 ≤ Y (k + 1) := by
  rw [G.f_bin hk h0 h1]; exact G.knots.binF_mem hk h0 h1

theorem Glued.strictMonoOn_upto (k : ℕ) (hk : k ≤ n) :
    StrictMonoOn (fun x => (f x).1) (Set.Iic (X k)) := by
  have K := G.knots
  induction k with
  | zero =>
    intro x hx y hy hxy
    simp only [Set.mem_Iic] at hx hy
    have hx' : x < X 0 := hxy.trans_le hy
    simp only [G.f_lo x hx']
    rcases eq_or_lt_of_le hy with h | h
    · rw [h, G.f_knot (by omega)]
      have : (x - X 0) * a < 0 := mul_neg_of_neg_of_pos (by linarith) G.ha
      linarith
    · rw [G.f_lo y h]
      have : (x - X 0) * a < (y - X 0) * a := mul_lt_mul_of_pos_right (by linarith) G.ha
      linarith
  | succ k ih =>
    have h1 := ih (by omega)
    have h2 : StrictMonoOn (fun x => (f x).1) (Set.Icc (X k) (X (k + 1))) := by
      intro x hx y hy hxy
      simp only [G.f_bin (by omega : k < n) hx.1 hx.2, G.f_bin (by omega : k < n) hy.1 hy.2]
      exact K.binF_strictMonoOn (by omega) hx hy hxy
    have hle := (K.hX k (by omega)).le
    have := h1.union h2 (c := X k) ⟨Set.mem_Iic.mpr le_rfl, fun _ h => h⟩ ⟨⟨le_rfl, hle⟩, fun _ h => h.1⟩
    rwa [Set.Iic_union_Icc_eq_Iic hle] at this

theorem Glued.strictMono : StrictMono fun x => (f x).1 := by
  have K := G.knots
  refine (G.strictMonoOn_upto n le_rfl).Iic_union_Ici ?_
  intro x hx y hy hxy
  simp only [Set.mem_Ici] at hx hy
  have hy' : X n < y := hx.trans_lt hxy
  simp only [G.f_hi y hy']
  rcases eq_or_lt_of_le hx with h | h
  · rw [← h, G.f_knot le_rfl]
    have : 0 < (y - X n) * b := mul_pos (by linarith) G.hb
    linarith
  · rw [G.f_hi x h]
    have : (x - X n) * b < (y - X n) * b := mul_lt_mul_of_pos_right (by linarith) G.hb
    linarith

/-- Inside the bounds the inverse evaluates the same bin, so it returns the input and the opposite log
derivative. -/
theorem Glued.g_f_in (x : ℝ) (h0 : X 0 ≤ x) (h1 : x ≤ X n) : g (f x).1 = (x, -(f x).2) := by
  have K := G.knots
  obtain ⟨k, hk, a0, a1, a2, e⟩ := G.f_in x h0 h1
  have hm := K.binF_mem hk a0 a1
  have hY0 := knots_mono Y n K.hY 0 k (by omega) (by omega)
  have hYn := knots_mono Y n K.hY (k + 1) n (by omega) le_rfl
  rw [e]
  obtain ⟨j, hj, b0, b1, b2, e'⟩ := G.g_in (binF X Y D k x).1 (hY0.trans hm.1) (hm.2.trans hYn)
  rw [e']
  have hjk : j = k := by
    rcases lt_trichotomy j k with h | h | h
    · have h2 : Y (j + 1) ≤ Y k := knots_mono Y n K.hY _ _ h (by omega)
      have : ¬ (binF X Y D k x).1 < Y (j + 1) := not_lt.mpr (h2.trans hm.1)
      rcases b2 with b2 | b2
      · exact absurd b2 this
      · omega
    · exact h
    · have h2 : Y (k + 1) ≤ Y j := knots_mono Y n K.hY _ _ h (by omega)
      rcases a2 with a2 | a2
      · have := K.binF_lt hk a0 a2
        linarith
      · omega
  subst hjk
  exact K.binG_binF hk a0 a1

theorem Glued.g_f (x : ℝ) : (g (f x).1).1 = x := by
  have K := G.knots
  rcases lt_or_ge x (X 0) with h | h
  · have hv := G.f_lo x h
    have : (x - X 0) * a < 0 := mul_neg_of_neg_of_pos (by linarith) G.ha
    rw [hv, G.g_lo _ (by simp only; linarith)]
    have := G.ha.ne'
    simp only
    field_simp
    ring
  · rcases lt_or_ge (X n) x with h' | h'
    · have hv := G.f_hi x h'
      have : 0 < (x - X n) * b := mul_pos (by linarith) G.hb
      rw [hv, G.g_hi _ (by simp only; linarith)]
      have := G.hb.ne'
      simp only
      field_simp
      ring
    · rw [G.g_f_in x h h']

theorem Glued.surj (y : ℝ) : ∃ x, (f x).1 = y := by
  have K := G.knots
  rcases lt_or_ge y (Y 0) with h | h
  · refine ⟨X 0 + (y - Y 0) / a, ?_⟩
    have : (y - Y 0) / a < 0 := div_neg_of_neg_of_pos (by linarith) G.ha
    rw [G.f_lo _ (by linarith)]
    have := G.ha.ne'
    simp only
    field_simp
    ring
  · rcases lt_or_ge (Y n) y with h' | h'
    · refine ⟨X n + (y - Y n) / b, ?_⟩
      have : 0 < (y - Y n) / b := div_pos (by linarith) G.hb
      rw [G.f_hi _ (by linarith)]
      have := G.hb.ne'
      simp only
      field_simp
      ring
    · obtain ⟨k, hk, b0, b1, -⟩ := exists_bin Y n K.pos y h h'
      obtain ⟨x, h0, h1, e⟩ := K.binF_surj hk b0 b1
      exact ⟨x, by rw [G.f_bin hk h0 h1, e]⟩

theorem Glued.f_g (y : ℝ) : (f (g y).1).1 = y := by
  obtain ⟨x, rfl⟩ := G.surj y
  rw [G.g_f]

theorem Glued.continuous : Continuous fun x => (f x).1 :=
  G.strictMono.monotone.continuous_of_surjective G.surj

theorem Glued.g_strictMono : StrictMono fun y => (g y).1 := by
  intro y z h
  by_contra hc
  have := G.strictMono.monotone (not_lt.mp hc)
  simp only [G.f_g] at this
  linarith

theorem Glued.g_continuous : Continuous fun y => (g y).1 :=
  G.g_strictMono.monotone.continuous_of_surjective fun x => ⟨(f x).1, G.g_f x⟩

/-- Strictly inside the bounds the second component is the log of the derivative. -/
theorem Glued.hasDerivAt (x : ℝ) (h0 : X 0 < x) (h1 : x < X n) :
    HasDerivAt (fun x => (f x).1) (Real.exp (f x).2) x := by
  have K := G.knots
  obtain ⟨k, hk, a0, a1, a2, e⟩ := G.f_in x h0.le h1.le
  have a1' : x < X (k + 1) := by
    rcases a2 with a2 | a2
    · exact a2
    · rw [a2]; exact h1
  have hW : ∀ j < n, ∀ x, X j ≤ x → x ≤ X (j + 1) →
      HasDerivWithinAt (fun x => (f x).1) (Real.exp (binF X Y D j x).2) (Set.Icc (X j) (X (j + 1))) x := by
    intro j hj x hx0 hx1
    refine (K.binF_hasDerivAt hj hx0 hx1).hasDerivWithinAt.congr ?_ ?_
    · intro u hu; exact G.f_bin hj hu.1 hu.2
    · exact G.f_bin hj hx0 hx1
  rw [e]
  rcases eq_or_lt_of_le a0 with h | h
  · obtain ⟨m, rfl⟩ : ∃ m, k = m + 1 := ⟨k - 1, by
      rcases Nat.eq_zero_or_pos k with h' | h'
      · subst h'; exact absurd h h0.ne
      · omega⟩
    have hm : X m < X (m + 1) := K.hX m (by omega)
    have r := hW (m + 1) hk x a0 a1
    have l := hW m (by omega) x (by rw [← h]; exact hm.le) (by rw [← h])
    have es : Real.exp (binF X Y D m x).2 = Real.exp (binF X Y D (m + 1) x).2 := by
      rw [← h, K.slope_right (by omega), K.slope_left hk]
    rw [es] at l
    refine (l.union r).hasDerivAt ?_
    rw [Set.Icc_union_Icc_eq_Icc hm.le (K.hX (m + 1) hk).le]
    exact Icc_mem_nhds (by rw [← h]; exact hm) a1'
  · exact (hW k hk x a0 a1).hasDerivAt (Icc_mem_nhds h a1')

/-- The same for inverse mode. -/
theorem Glued.g_hasDerivAt (y : ℝ) (h0 : Y 0 < y) (h1 : y < Y n) :
    HasDerivAt (fun y => (g y).1) (Real.exp (g y).2) y := by
  have K := G.knots
  obtain ⟨x, rfl⟩ := G.surj y
  have hx0 : X 0 < x := by
    rw [← G.f_knot (Nat.zero_le n)] at h0
    exact G.strictMono.lt_iff_lt.mp h0
  have hx1 : x < X n := by
    rw [← G.f_knot le_rfl] at h1
    exact G.strictMono.lt_iff_lt.mp h1
  have hg := G.g_f_in x hx0.le hx1.le
  have hd := G.hasDerivAt x hx0 hx1
  have e : (g (f x).1).1 = x := by rw [hg]
  have := HasDerivAt.of_local_left_inverse (f := fun x => (f x).1) (g := fun y => (g y).1)
    (f' := Real.exp (f x).2) (a := (f x).1) G.g_continuous.continuousAt (by simp only [e]; exact hd)
    (Real.exp_pos _).ne' (Filter.Eventually.of_forall fun y => G.f_g y)
  rw [hg]
  simp only [Real.exp_neg]
  exact this

end

end Irt
