import Verif.Lemmas.Quadrature
import Verif.Lemmas.Density
import Mathlib.MeasureTheory.Measure.LevyConvergence
import Mathlib.MeasureTheory.Integral.Pi
import Mathlib.Analysis.Calculus.MeanValue

/-! # Gauss-Hermite rules of growing size -/

namespace Irt

open Spec MeasureTheory Filter Topology

/-! ## The exponential series on the imaginary axis -/

/-- The remainder of the exponential series at an imaginary number. -/
noncomputable def expTail (n : ℕ) (y : ℝ) : ℂ :=
  Complex.exp (Complex.I * y) - ∑ j ∈ Finset.range n, (Complex.I * y) ^ j / (j.factorial : ℂ)

theorem expTail_zero (n : ℕ) : expTail (n + 1) 0 = 0 := by
  unfold expTail
  rw [Finset.sum_range_succ']
  simp

theorem expTail_hasDeriv (n : ℕ) (y : ℝ) : HasDerivAt (expTail (n + 1)) (Complex.I * expTail n y) y := by
  have h1 : HasDerivAt (fun y : ℝ => Complex.I * (y : ℂ)) Complex.I y := by
    simpa using (Complex.ofRealCLM.hasDerivAt (x := y)).const_mul Complex.I
  have h2 : HasDerivAt (fun y : ℝ => ∑ j ∈ Finset.range (n + 1), (Complex.I * (y : ℂ)) ^ j / (j.factorial : ℂ))
      (∑ j ∈ Finset.range (n + 1), (j : ℂ) * (Complex.I * (y : ℂ)) ^ (j - 1) * Complex.I / (j.factorial : ℂ)) y := by
    refine HasDerivAt.fun_sum fun j _ => ?_
    exact (h1.pow j).div_const _
  have h3 := h1.cexp.sub h2
  refine h3.congr_deriv ?_
  unfold expTail
  rw [Finset.sum_range_succ', mul_sub, Finset.mul_sum]
  simp only [Nat.cast_zero, zero_mul, zero_div, add_zero, Nat.add_sub_cancel]
  rw [mul_comm (Complex.exp _)]
  congr 1
  refine Finset.sum_congr rfl fun j _ => ?_
  rw [Nat.factorial_succ]
  have : (j.factorial : ℂ) ≠ 0 := by exact_mod_cast j.factorial_ne_zero
  have h' : ((j : ℂ) + 1) ≠ 0 := by exact_mod_cast j.succ_ne_zero
  push_cast
  field_simp

theorem expTail_le_pos (n : ℕ) {y : ℝ} (hy : 0 ≤ y) : ‖expTail n y‖ ≤ y ^ n / n.factorial := by
  induction n generalizing y with
  | zero =>
    unfold expTail
    simp [mul_comm Complex.I, Complex.norm_exp_ofReal_mul_I]
  | succ n ih =>
    have hB : ∀ x : ℝ, HasDerivAt (fun x : ℝ => x ^ (n + 1) / ((n + 1).factorial : ℝ)) (x ^ n / n.factorial) x := by
      intro x
      refine ((hasDerivAt_pow (n + 1) x).div_const _).congr_deriv ?_
      rw [Nat.factorial_succ]
      have : (n.factorial : ℝ) ≠ 0 := by exact_mod_cast n.factorial_ne_zero
      push_cast
      field_simp
    refine image_norm_le_of_norm_deriv_right_le_deriv_boundary (a := 0) (b := y) (f := expTail (n + 1))
      (f' := fun x => Complex.I * expTail n x) (B := fun x => x ^ (n + 1) / ((n + 1).factorial : ℝ))
      (B' := fun x => x ^ n / n.factorial) ?_ ?_ ?_ hB ?_ (Set.right_mem_Icc.2 hy)
    · exact fun x _ => (expTail_hasDeriv n x).continuousAt.continuousWithinAt
    · exact fun x _ => (expTail_hasDeriv n x).hasDerivWithinAt
    · rw [expTail_zero]; simp
    · intro x hx
      rw [norm_mul, Complex.norm_I, one_mul]
      exact ih hx.1

theorem expTail_le (n : ℕ) (y : ℝ) : ‖expTail n y‖ ≤ |y| ^ n / n.factorial := by
  rcases le_total 0 y with h | h
  · rw [abs_of_nonneg h]; exact expTail_le_pos n h
  · have h1 : expTail n y = (starRingEnd ℂ) (expTail n (-y)) := by
      unfold expTail
      rw [map_sub, map_sum, ← Complex.exp_conj]
      simp
    rw [h1, RCLike.norm_conj, abs_of_nonpos h]
    exact expTail_le_pos n (by linarith)

/-! ## Sums over the nodes of a rule -/

/-- `Σ weight · F(node)` with complex values. -/
noncomputable def ruleSum (x w : List ℝ) (F : ℝ → ℂ) : ℂ := (List.zipWith (fun (a b : ℝ) => (b : ℂ) * F a) x w).sum

theorem ruleSum_add (x w : List ℝ) (F G : ℝ → ℂ) :
    ruleSum x w (fun t => F t + G t) = ruleSum x w F + ruleSum x w G := by
  unfold ruleSum
  induction x generalizing w with
  | nil => simp
  | cons a x ih =>
    cases w with
    | nil => simp
    | cons b w => simp only [List.zipWith_cons_cons, List.sum_cons, ih]; ring

theorem ruleSum_mul (x w : List ℝ) (c : ℂ) (F : ℝ → ℂ) : ruleSum x w (fun t => c * F t) = c * ruleSum x w F := by
  unfold ruleSum
  induction x generalizing w with
  | nil => simp
  | cons a x ih =>
    cases w with
    | nil => simp
    | cons b w => simp only [List.zipWith_cons_cons, List.sum_cons, ih]; ring

theorem ruleSum_zero (x w : List ℝ) : ruleSum x w (fun _ => 0) = 0 := by
  simpa using ruleSum_mul x w 0 (fun _ => 0)

theorem ruleSum_sum {ι : Type} (s : Finset ι) (x w : List ℝ) (F : ι → ℝ → ℂ) :
    ruleSum x w (fun t => ∑ j ∈ s, F j t) = ∑ j ∈ s, ruleSum x w (F j) := by
  classical
  induction s using Finset.induction_on with
  | empty => simpa using ruleSum_zero x w
  | insert a s ha ih => simp only [Finset.sum_insert ha]; rw [ruleSum_add, ih]

theorem ruleSum_ofReal (x w : List ℝ) (f : ℝ → ℝ) :
    ruleSum x w (fun t => (f t : ℂ)) = ((List.zipWith (fun a b => b * f a) x w).sum : ℝ) := by
  unfold ruleSum
  induction x generalizing w with
  | nil => simp
  | cons a x ih =>
    cases w with
    | nil => simp
    | cons b w => simp only [List.zipWith_cons_cons, List.sum_cons, ih]; push_cast; ring

theorem ruleSum_norm_le (x w : List ℝ) (hw : ∀ v ∈ w, 0 ≤ v) (F : ℝ → ℂ) (f : ℝ → ℝ) (hF : ∀ t, ‖F t‖ ≤ f t) :
    ‖ruleSum x w F‖ ≤ (List.zipWith (fun a b => b * f a) x w).sum := by
  unfold ruleSum
  induction x generalizing w with
  | nil => simp
  | cons a x ih =>
    cases w with
    | nil => simp
    | cons b w =>
      simp only [List.zipWith_cons_cons, List.sum_cons]
      refine (norm_add_le _ _).trans (add_le_add ?_ (ih w fun v hv => hw v (List.mem_cons_of_mem _ hv)))
      rw [norm_mul, Complex.norm_real, Real.norm_eq_abs, abs_of_nonneg (hw b List.mem_cons_self)]
      exact mul_le_mul_of_nonneg_left (hF a) (hw b List.mem_cons_self)

/-! ## Integrals against the weight -/

theorem integrable_pow_gauss (k : ℕ) : Integrable fun t : ℝ => t ^ k * Real.exp (-t ^ 2) := by
  have h := integrable_rpow_mul_exp_neg_mul_sq (b := 1) one_pos (s := (k : ℝ)) (by
    have : (0 : ℝ) ≤ k := Nat.cast_nonneg k
    linarith)
  refine h.congr (Eventually.of_forall fun t => ?_)
  simp [Real.rpow_natCast]

theorem integrable_exp_gauss (s : ℝ) : Integrable fun t : ℝ => Real.exp (|s * t|) * Real.exp (-t ^ 2) := by
  have h1 : ∀ c : ℝ, Integrable fun t : ℝ => Real.exp (c * t) * Real.exp (-t ^ 2) := by
    intro c
    have h := (integrable_exp_neg_mul_sq (b := 1) one_pos).comp_sub_right (c / 2)
    refine (h.const_mul (Real.exp (c ^ 2 / 4))).congr (Eventually.of_forall fun t => ?_)
    simp only [← Real.exp_add]
    congr 1
    ring
  refine Integrable.mono' ((h1 s).add (h1 (-s))) (by fun_prop) (Eventually.of_forall fun t => ?_)
  rw [Real.norm_eq_abs, abs_of_nonneg (by positivity)]
  simp only [Pi.add_apply]
  rw [← add_mul]
  refine mul_le_mul_of_nonneg_right ?_ (Real.exp_pos _).le
  rcases abs_cases (s * t) with ⟨h, _⟩ | ⟨h, _⟩ <;> rw [h]
  · linarith [Real.exp_pos (-s * t)]
  · rw [neg_mul]; linarith [Real.exp_pos (s * t)]

/-- The bound on the error of a rule at an exponential. -/
noncomputable def tailMass (m : ℕ) (s : ℝ) : ℝ :=
  ∫ t : ℝ, (s * t) ^ (2 * m) / ((2 * m).factorial : ℝ) * Real.exp (-t ^ 2)

theorem tailMass_eq (m : ℕ) (s : ℝ) :
    tailMass m s = s ^ (2 * m) / ((2 * m).factorial : ℝ) * ∫ t : ℝ, t ^ (2 * m) * Real.exp (-t ^ 2) := by
  unfold tailMass
  rw [← integral_const_mul]
  congr 1
  funext t
  ring

theorem tailMass_tendsto (s : ℝ) : Tendsto (fun m => tailMass m s) atTop (𝓝 0) := by
  have h : Tendsto (fun m : ℕ => ∫ t : ℝ, (s * t) ^ (2 * m) / ((2 * m).factorial : ℝ) * Real.exp (-t ^ 2)) atTop
      (𝓝 (∫ _t : ℝ, (0 : ℝ))) := by
    refine tendsto_integral_of_dominated_convergence (fun t => Real.exp (|s * t|) * Real.exp (-t ^ 2))
      (fun m => by fun_prop) (integrable_exp_gauss s) (fun m => Eventually.of_forall fun t => ?_)
      (Eventually.of_forall fun t => ?_)
    · rw [norm_mul, Real.norm_eq_abs (Real.exp _), abs_of_pos (Real.exp_pos _), norm_div, norm_pow, Real.norm_eq_abs,
        Real.norm_eq_abs, abs_of_pos (by positivity : (0 : ℝ) < ((2 * m).factorial : ℝ))]
      exact mul_le_mul_of_nonneg_right (Real.pow_div_factorial_le_exp _ (abs_nonneg _) _) (Real.exp_pos _).le
    · have h1 := (FloorSemiring.tendsto_pow_div_factorial_atTop (s * t)).comp
        (tendsto_id.const_mul_atTop' (by norm_num : 0 < 2))
      simpa using h1.mul_const (Real.exp (-t ^ 2))
  simpa [tailMass] using h

theorem integrable_exp_I_gauss (s : ℝ) :
    Integrable fun t : ℝ => Complex.exp (Complex.I * (s * t : ℝ)) * (Real.exp (-t ^ 2) : ℂ) := by
  have h0 := integrable_exp_neg_mul_sq (b := 1) one_pos
  refine Integrable.mono' h0 (by fun_prop) (Eventually.of_forall fun t => ?_)
  rw [norm_mul, mul_comm Complex.I, Complex.norm_exp_ofReal_mul_I, one_mul, Complex.norm_real, Real.norm_eq_abs,
    abs_of_pos (Real.exp_pos _)]
  simp

theorem rule_error {n : ℕ} (hn : 1 ≤ n) {x w : List ℝ} (h : HermiteExact n x w) (hw : ∀ v ∈ w, 0 ≤ v) (s : ℝ) :
    ‖ruleSum x w (fun t => Complex.exp (Complex.I * (s * t : ℝ)))
      - ∫ t : ℝ, Complex.exp (Complex.I * (s * t : ℝ)) * (Real.exp (-t ^ 2) : ℂ)‖ ≤ 2 * tailMass (n - 1) s := by
  obtain ⟨m, rfl⟩ : ∃ m, n = m + 1 := ⟨n - 1, by omega⟩
  simp only [Nat.add_sub_cancel]
  have hexact : ∀ k < 2 * (m + 1), ruleSum x w (fun t => ((t ^ k : ℝ) : ℂ)) = ((∫ t : ℝ, t ^ k * Real.exp (-t ^ 2) : ℝ) : ℂ) := by
    intro k hk
    rw [ruleSum_ofReal, h.2.2 k hk]
  have hsplit : ∀ t : ℝ, Complex.exp (Complex.I * (s * t : ℝ))
      = expTail (2 * m) (s * t) + ∑ j ∈ Finset.range (2 * m), (Complex.I * s) ^ j / (j.factorial : ℂ) * ((t ^ j : ℝ) : ℂ) := by
    intro t
    unfold expTail
    have : ∑ j ∈ Finset.range (2 * m), (Complex.I * ((s * t : ℝ) : ℂ)) ^ j / (j.factorial : ℂ)
        = ∑ j ∈ Finset.range (2 * m), (Complex.I * s) ^ j / (j.factorial : ℂ) * ((t ^ j : ℝ) : ℂ) := by
      refine Finset.sum_congr rfl fun j _ => ?_
      push_cast
      rw [← mul_assoc, mul_pow (Complex.I * s)]
      ring
    rw [this]
    ring
  have hint : ∀ j : ℕ, Integrable fun t : ℝ => (Complex.I * s) ^ j / (j.factorial : ℂ) * (((t ^ j * Real.exp (-t ^ 2) : ℝ)) : ℂ) :=
    fun j => (integrable_pow_gauss j).ofReal.const_mul _
  have htailfun : (fun t : ℝ => expTail (2 * m) (s * t) * (Real.exp (-t ^ 2) : ℂ)) = fun t : ℝ =>
      Complex.exp (Complex.I * (s * t : ℝ)) * (Real.exp (-t ^ 2) : ℂ)
        - ∑ j ∈ Finset.range (2 * m), (Complex.I * s) ^ j / (j.factorial : ℂ) * (((t ^ j * Real.exp (-t ^ 2) : ℝ)) : ℂ) := by
    funext t
    rw [hsplit t, add_mul, Finset.sum_mul]
    have : ∑ j ∈ Finset.range (2 * m), (Complex.I * s) ^ j / (j.factorial : ℂ) * ((t ^ j : ℝ) : ℂ) * (Real.exp (-t ^ 2) : ℂ)
        = ∑ j ∈ Finset.range (2 * m), (Complex.I * s) ^ j / (j.factorial : ℂ) * (((t ^ j * Real.exp (-t ^ 2) : ℝ)) : ℂ) :=
      Finset.sum_congr rfl fun j _ => by push_cast; ring
    rw [this]
    ring
  have htail : Integrable fun t : ℝ => expTail (2 * m) (s * t) * (Real.exp (-t ^ 2) : ℂ) := by
    rw [htailfun]
    exact (integrable_exp_I_gauss s).sub (integrable_finsetSum _ fun j _ => hint j)
  have hR : ruleSum x w (fun t => Complex.exp (Complex.I * (s * t : ℝ)))
      = ruleSum x w (fun t => expTail (2 * m) (s * t))
        + ∑ j ∈ Finset.range (2 * m), (Complex.I * s) ^ j / (j.factorial : ℂ) * ((∫ t : ℝ, t ^ j * Real.exp (-t ^ 2) : ℝ) : ℂ) := by
    have e1 := congrArg (ruleSum x w) (funext hsplit)
    rw [e1, ruleSum_add, ruleSum_sum]
    congr 1
    refine Finset.sum_congr rfl fun j hj => ?_
    rw [ruleSum_mul, hexact j (by have := Finset.mem_range.1 hj; omega)]
  have hI : ∫ t : ℝ, Complex.exp (Complex.I * (s * t : ℝ)) * (Real.exp (-t ^ 2) : ℂ)
      = (∫ t : ℝ, expTail (2 * m) (s * t) * (Real.exp (-t ^ 2) : ℂ))
        + ∑ j ∈ Finset.range (2 * m), (Complex.I * s) ^ j / (j.factorial : ℂ) * ((∫ t : ℝ, t ^ j * Real.exp (-t ^ 2) : ℝ) : ℂ) := by
    rw [htailfun, integral_sub (integrable_exp_I_gauss s) (integrable_finsetSum _ fun j _ => hint j),
      integral_finsetSum _ fun j _ => hint j]
    have : ∀ j, ∫ t : ℝ, (Complex.I * s) ^ j / (j.factorial : ℂ) * (((t ^ j * Real.exp (-t ^ 2) : ℝ)) : ℂ)
        = (Complex.I * s) ^ j / (j.factorial : ℂ) * ((∫ t : ℝ, t ^ j * Real.exp (-t ^ 2) : ℝ) : ℂ) := by
      intro j
      rw [integral_const_mul, integral_complex_ofReal]
    simp only [this]
    ring
  have hpoint : ∀ t : ℝ, ‖expTail (2 * m) (s * t)‖ ≤ (s * t) ^ (2 * m) / ((2 * m).factorial : ℝ) := by
    intro t
    have := expTail_le (2 * m) (s * t)
    rwa [(even_two_mul m).pow_abs] at this
  have hb1 : ‖ruleSum x w (fun t => expTail (2 * m) (s * t))‖ ≤ tailMass m s := by
    refine (ruleSum_norm_le x w hw _ _ hpoint).trans (le_of_eq ?_)
    rw [tailMass_eq, ← h.2.2 (2 * m) (by omega), ← sum_zipWith_mul_left]
    congr 2
    funext a b
    ring
  have hb2 : ‖∫ t : ℝ, expTail (2 * m) (s * t) * (Real.exp (-t ^ 2) : ℂ)‖ ≤ tailMass m s := by
    refine norm_integral_le_of_norm_le ?_ (Eventually.of_forall fun t => ?_)
    · have := (integrable_pow_gauss (2 * m)).const_mul (s ^ (2 * m) / ((2 * m).factorial : ℝ))
      refine this.congr (Eventually.of_forall fun t => ?_)
      simp only
      ring
    · rw [norm_mul, Complex.norm_real, Real.norm_eq_abs, abs_of_pos (Real.exp_pos _)]
      exact mul_le_mul_of_nonneg_right (hpoint t) (Real.exp_pos _).le
  rw [hR, hI, add_sub_add_right_eq_sub]
  calc _ ≤ _ := norm_sub_le _ _
    _ ≤ _ := by linarith

theorem ruleSum_tendsto {x w : ℕ → List ℝ} (h : ∀ n, 1 ≤ n → HermiteExact n (x n) (w n))
    (hw : ∀ n, 1 ≤ n → ∀ v ∈ w n, 0 ≤ v) (s : ℝ) :
    Tendsto (fun n => ruleSum (x n) (w n) fun t => Complex.exp (Complex.I * (s * t : ℝ))) atTop
      (𝓝 (∫ t : ℝ, Complex.exp (Complex.I * (s * t : ℝ)) * (Real.exp (-t ^ 2) : ℂ))) := by
  rw [tendsto_iff_norm_sub_tendsto_zero]
  have h0 : Tendsto (fun n : ℕ => 2 * tailMass (n - 1) s) atTop (𝓝 0) := by
    simpa using ((tailMass_tendsto s).comp (tendsto_sub_atTop_nat 1)).const_mul 2
  refine squeeze_zero' (Eventually.of_forall fun _ => norm_nonneg _) ?_ h0
  filter_upwards [eventually_ge_atTop 1] with n hn
  exact rule_error hn (h n hn) (hw n hn) s

/-! ## Several latent variables -/

theorem gridProduct_ruleSum (x w : List ℝ) (hlen : x.length = w.length) (d : ℕ) (G : Fin d → ℝ → ℂ) :
    (List.zipWith (fun u v : Fin d → ℝ => (∏ i, (v i : ℂ)) * ∏ i, G i (u i)) (gridProduct x d) (gridProduct w d)).sum
      = ∏ i, ruleSum x w (G i) := by
  induction d with
  | zero => simp [gridProduct]
  | succ d ih =>
    have hl : (gridProduct x d).length = (gridProduct w d).length := by
      rw [length_gridProduct, length_gridProduct, hlen]
    rw [Fin.prod_univ_succ, ← ih fun i => G i.succ]
    simp only [gridProduct]
    set S := (List.zipWith (fun u v : Fin d → ℝ => (∏ i, (v i : ℂ)) * ∏ i, G i.succ (u i))
      (gridProduct x d) (gridProduct w d)).sum with hS
    have hinner : ∀ a b : ℝ, (List.zipWith (fun u v : Fin d → ℝ =>
        (∏ i, ((Fin.cons b v : Fin (d + 1) → ℝ) i : ℂ)) * ∏ i, G i ((Fin.cons a u : Fin (d + 1) → ℝ) i))
        (gridProduct x d) (gridProduct w d)).sum = (b : ℂ) * G 0 a * S := by
      intro a b
      rw [hS]
      generalize gridProduct x d = us
      generalize gridProduct w d = vs
      induction us generalizing vs with
      | nil => simp
      | cons u us ih =>
        cases vs with
        | nil => simp
        | cons v vs =>
          simp only [List.zipWith_cons_cons, List.sum_cons]
          rw [ih]
          simp only [Fin.prod_univ_succ, Fin.cons_zero, Fin.cons_succ]
          ring
    have hflat : ∀ xs ws : List ℝ, (List.zipWith (fun u v : Fin (d + 1) → ℝ => (∏ i, (v i : ℂ)) * ∏ i, G i (u i))
        (xs.flatMap fun a => (gridProduct x d).map fun v => Fin.cons a v)
        (ws.flatMap fun b => (gridProduct w d).map fun v => Fin.cons b v)).sum = ruleSum xs ws (G 0) * S := by
      intro xs
      induction xs with
      | nil => intro ws; simp [ruleSum]
      | cons a xs ih =>
        intro ws
        cases ws with
        | nil => simp [ruleSum]
        | cons b ws =>
          have e : ruleSum (a :: xs) (b :: ws) (G 0) = (b : ℂ) * G 0 a + ruleSum xs ws (G 0) := by
            simp [ruleSum]
          rw [List.flatMap_cons, List.flatMap_cons, List.zipWith_append (by simp [hl]), List.sum_append, ih,
            List.zipWith_map, hinner, e]
          ring
    exact hflat x w

/-- The measure with mass `a` at `p` for every point and weight. -/
noncomputable def pointMasses {d : ℕ} (pts : List (Fin d → ℝ)) (wts : List ℝ) : Measure (EuclideanSpace ℝ (Fin d)) :=
  (List.zipWith (fun p a => ENNReal.ofReal a • Measure.dirac (WithLp.toLp 2 p)) pts wts).sum

theorem integral_pointMasses {d : ℕ} {V : Type} [NormedAddCommGroup V] [NormedSpace ℝ V] [CompleteSpace V]
    (pts : List (Fin d → ℝ)) (wts : List ℝ) (hw : ∀ v ∈ wts, 0 ≤ v) (F : EuclideanSpace ℝ (Fin d) → V) :
    Integrable F (pointMasses pts wts) ∧
      ∫ z, F z ∂(pointMasses pts wts) = (List.zipWith (fun p a => a • F (WithLp.toLp 2 p)) pts wts).sum := by
  induction pts generalizing wts with
  | nil => simp [pointMasses]
  | cons p pts ih =>
    cases wts with
    | nil => simp [pointMasses]
    | cons a wts =>
      obtain ⟨h1, h2⟩ := ih wts fun v hv => hw v (List.mem_cons_of_mem _ hv)
      have e : pointMasses (p :: pts) (a :: wts)
          = ENNReal.ofReal a • Measure.dirac (WithLp.toLp 2 p) + pointMasses pts wts := by
        simp [pointMasses]
      have h3 : Integrable F (ENNReal.ofReal a • Measure.dirac (WithLp.toLp 2 p)) :=
        (integrable_dirac (by simp)).smul_measure ENNReal.ofReal_ne_top
      rw [e]
      refine ⟨h3.add_measure h1, ?_⟩
      rw [integral_add_measure h3 h1, h2, integral_smul_measure, integral_dirac,
        ENNReal.toReal_ofReal (hw a List.mem_cons_self)]
      simp

/-- The density of independent normal variables with mean zero and variance one half. -/
noncomputable def halfDensity {d : ℕ} (u : Fin d → ℝ) : ℝ :=
  Real.pi ^ (-(1 / 2 : ℝ) * d) * ∏ i, Real.exp (-u i ^ 2)

theorem halfDensity_pos {d : ℕ} (u : Fin d → ℝ) : 0 < halfDensity u :=
  mul_pos (Real.rpow_pos_of_pos Real.pi_pos _) (Finset.prod_pos fun _ _ => Real.exp_pos _)

theorem continuous_halfDensity {d : ℕ} : Continuous (halfDensity (d := d)) := by
  unfold halfDensity
  fun_prop

theorem integrable_halfDensity {d : ℕ} : Integrable (halfDensity (d := d)) := by
  unfold halfDensity
  refine Integrable.const_mul ?_ _
  refine Integrable.fintype_prod (f := fun (_ : Fin d) (t : ℝ) => Real.exp (-t ^ 2)) fun _ => ?_
  simpa using integrable_pow_gauss 0

/-- The normal distribution with mean zero and variance one half in every coordinate. -/
noncomputable def halfNormal (d : ℕ) : Measure (EuclideanSpace ℝ (Fin d)) :=
  ((volume : Measure (Fin d → ℝ)).withDensity fun u => ENNReal.ofReal (halfDensity u)).map (WithLp.toLp 2)

theorem integral_halfNormal {d : ℕ} {V : Type} [NormedAddCommGroup V] [NormedSpace ℝ V] [CompleteSpace V]
    (F : EuclideanSpace ℝ (Fin d) → V) (hF : Continuous F) :
    ∫ z, F z ∂(halfNormal d) = ∫ u : Fin d → ℝ, halfDensity u • F (WithLp.toLp 2 u) := by
  have hm : Measurable (WithLp.toLp 2 : (Fin d → ℝ) → EuclideanSpace ℝ (Fin d)) := by fun_prop
  unfold halfNormal
  rw [integral_map hm.aemeasurable hF.aestronglyMeasurable,
    integral_withDensity_eq_integral_toReal_smul (continuous_halfDensity.measurable.ennreal_ofReal)
      (Eventually.of_forall fun _ => ENNReal.ofReal_lt_top)]
  simp only [ENNReal.toReal_ofReal (halfDensity_pos _).le]

theorem integral_halfDensity (d : ℕ) : ∫ u : Fin d → ℝ, halfDensity u = 1 := by
  unfold halfDensity
  rw [integral_const_mul, integral_fintype_prod_volume_eq_prod (f := fun (_ : Fin d) (t : ℝ) => Real.exp (-t ^ 2)), pi_pow_const,
    ← Finset.prod_mul_distrib]
  refine Finset.prod_eq_one fun i _ => ?_
  have := gaussian_moment_zero
  simp only [pow_zero, one_mul] at this
  rw [this, inv_mul_cancel₀ sqrt_pi_ne]

instance isProbabilityMeasure_halfNormal (d : ℕ) : IsProbabilityMeasure (halfNormal d) := by
  have hm : Measurable (WithLp.toLp 2 : (Fin d → ℝ) → EuclideanSpace ℝ (Fin d)) := by fun_prop
  refine ⟨?_⟩
  unfold halfNormal
  rw [Measure.map_apply hm MeasurableSet.univ, Set.preimage_univ, withDensity_apply _ MeasurableSet.univ,
    Measure.restrict_univ, ← ofReal_integral_eq_lintegral_ofReal integrable_halfDensity
      (Eventually.of_forall fun u => (halfDensity_pos u).le), integral_halfDensity, ENNReal.ofReal_one]

/-- The weights of the product rule. -/
noncomputable def productWeights (w : List ℝ) (d : ℕ) : List ℝ :=
  (gridProduct w d).map fun v => (∏ i, v i) * Real.pi ^ (-(1 / 2 : ℝ) * d)

theorem gridProduct_nonneg (w : List ℝ) (hw : ∀ v ∈ w, 0 ≤ v) (d : ℕ) : ∀ v ∈ gridProduct w d, 0 ≤ ∏ i, v i := by
  have hmem : ∀ (d : ℕ), ∀ v ∈ gridProduct w d, ∀ i, v i ∈ w := by
    intro d
    induction d with
    | zero => intro v _ i; exact i.elim0
    | succ d ih =>
      intro v hv i
      simp only [gridProduct, List.mem_flatMap, List.mem_map] at hv
      obtain ⟨a, ha, u, hu, rfl⟩ := hv
      refine Fin.cases ?_ (fun j => ?_) i
      · simpa using ha
      · simpa using ih u hu j
  exact fun v hv => Finset.prod_nonneg fun i _ => hw _ (hmem d v hv i)

theorem productWeights_nonneg (w : List ℝ) (hw : ∀ v ∈ w, 0 ≤ v) (d : ℕ) : ∀ v ∈ productWeights w d, 0 ≤ v := by
  intro v hv
  obtain ⟨u, hu, rfl⟩ := List.mem_map.1 hv
  exact mul_nonneg (gridProduct_nonneg w hw d u hu) (Real.rpow_pos_of_pos Real.pi_pos _).le

theorem nodeSum_eq_integral {d : ℕ} (x w : List ℝ) (hw : ∀ v ∈ w, 0 ≤ v) (g : EuclideanSpace ℝ (Fin d) → ℝ) :
    ∫ z, g z ∂(pointMasses (gridProduct x d) (productWeights w d)) = nodeSum x w fun u => g (WithLp.toLp 2 u) := by
  rw [(integral_pointMasses _ _ (productWeights_nonneg w hw d) g).2]
  unfold nodeSum productWeights
  rw [List.zipWith_map_right]
  rfl

theorem charFun_pointMasses {d n : ℕ} {x w : List ℝ} (h : HermiteExact n x w) (hw : ∀ v ∈ w, 0 ≤ v)
    (t : EuclideanSpace ℝ (Fin d)) :
    charFun (pointMasses (gridProduct x d) (productWeights w d)) t
      = ∏ i, ((Real.sqrt Real.pi)⁻¹ : ℂ) * ruleSum x w fun a => Complex.exp (Complex.I * (t i * a : ℝ)) := by
  rw [charFun_apply, (integral_pointMasses _ _ (productWeights_nonneg w hw d) _).2, Finset.prod_mul_distrib,
    ← gridProduct_ruleSum x w (h.1.trans h.2.1.symm) d]
  unfold productWeights
  rw [List.zipWith_map_right]
  generalize gridProduct x d = us
  generalize gridProduct w d = vs
  induction us generalizing vs with
  | nil => simp
  | cons u us ih =>
    cases vs with
    | nil => simp
    | cons v vs =>
      simp only [List.zipWith_cons_cons, List.sum_cons]
      rw [ih vs, mul_add]
      congr 1
      rw [← Complex.exp_sum, pi_pow_const, Complex.real_smul, PiLp.inner_apply]
      push_cast
      rw [Finset.sum_mul]
      have : ∑ i, (((inner ℝ (u i) (t i) : ℝ)) : ℂ) * Complex.I = ∑ i, Complex.I * ((t i : ℂ) * (u i : ℂ)) := by
        refine Finset.sum_congr rfl fun i _ => ?_
        simp only [RCLike.inner_apply, conj_trivial]
        push_cast
        ring
      rw [this]
      ring

theorem charFun_halfNormal {d : ℕ} (t : EuclideanSpace ℝ (Fin d)) :
    charFun (halfNormal d) t
      = ∏ i, ((Real.sqrt Real.pi)⁻¹ : ℂ) * ∫ a : ℝ, Complex.exp (Complex.I * (t i * a : ℝ)) * (Real.exp (-a ^ 2) : ℂ) := by
  rw [charFun_apply, integral_halfNormal _ (by fun_prop), Finset.prod_mul_distrib,
    ← integral_fintype_prod_volume_eq_prod (f := fun (i : Fin d) (a : ℝ) =>
      Complex.exp (Complex.I * (t i * a : ℝ)) * (Real.exp (-a ^ 2) : ℂ)), ← integral_const_mul]
  congr 1
  funext u
  unfold halfDensity
  rw [Finset.prod_mul_distrib, ← Complex.exp_sum, pi_pow_const, Complex.real_smul, PiLp.inner_apply]
  push_cast
  rw [Finset.sum_mul]
  have : ∑ i, (((inner ℝ (u i) (t i) : ℝ)) : ℂ) * Complex.I = ∑ i, Complex.I * ((t i : ℂ) * (u i : ℂ)) := by
    refine Finset.sum_congr rfl fun i _ => ?_
    simp only [RCLike.inner_apply, conj_trivial]
    push_cast
    ring
  rw [this]
  ring

theorem nodeSum_tendsto {d : ℕ} {x w : ℕ → List ℝ} (h : ∀ n, 1 ≤ n → HermiteExact n (x n) (w n))
    (hw : ∀ n, 1 ≤ n → ∀ v ∈ w n, 0 ≤ v) (g : (Fin d → ℝ) → ℝ) (hg : Continuous g) (B : ℝ) (hB : ∀ u, |g u| ≤ B) :
    Tendsto (fun n => nodeSum (x n) (w n) g) atTop (𝓝 (∫ u : Fin d → ℝ, halfDensity u * g u)) := by
  have hprob : ∀ n, IsProbabilityMeasure (pointMasses (gridProduct (x (n + 1)) d) (productWeights (w (n + 1)) d)) := by
    intro n
    have h1 := integral_pointMasses (gridProduct (x (n + 1)) d) _
      (productWeights_nonneg (w (n + 1)) (hw _ (by omega)) d) (fun _ => (1 : ℝ))
    have h2 : nodeSum (d := d) (x (n + 1)) (w (n + 1)) (fun _ => 1) = 1 := nodeSum_one (by omega) (h _ (by omega))
    have hfin : IsFiniteMeasure (pointMasses (gridProduct (x (n + 1)) d) (productWeights (w (n + 1)) d)) :=
      (integrable_const_iff_isFiniteMeasure one_ne_zero).1 h1.1
    have h3 := nodeSum_eq_integral (d := d) (x (n + 1)) (w (n + 1)) (hw _ (by omega)) (fun _ => 1)
    rw [h2, integral_const, smul_eq_mul, mul_one] at h3
    exact ⟨by rw [← ENNReal.ofReal_one, ← h3]; simp⟩
  let μ : ℕ → ProbabilityMeasure (EuclideanSpace ℝ (Fin d)) := fun n => ⟨_, hprob n⟩
  let μ₀ : ProbabilityMeasure (EuclideanSpace ℝ (Fin d)) := ⟨halfNormal d, inferInstance⟩
  have hlim : Tendsto μ atTop (𝓝 μ₀) := by
    refine ProbabilityMeasure.tendsto_of_tendsto_charFun fun t => ?_
    show Tendsto (fun n => charFun (pointMasses (gridProduct (x (n + 1)) d) (productWeights (w (n + 1)) d)) t) atTop
      (𝓝 (charFun (halfNormal d) t))
    rw [charFun_halfNormal]
    have : ∀ n, charFun (pointMasses (gridProduct (x (n + 1)) d) (productWeights (w (n + 1)) d)) t = _ := fun n =>
      charFun_pointMasses (h (n + 1) (by omega)) (hw (n + 1) (by omega)) t
    simp only [this]
    refine tendsto_finsetProd _ fun i _ => Tendsto.const_mul _ ?_
    exact (ruleSum_tendsto h hw (t i)).comp (tendsto_add_atTop_nat 1)
  rw [← tendsto_add_atTop_iff_nat 1]
  let G : BoundedContinuousFunction (EuclideanSpace ℝ (Fin d)) ℝ :=
    BoundedContinuousFunction.ofNormedAddCommGroup (fun z => g (WithLp.ofLp z)) (by fun_prop) B fun z => hB _
  have h4 := (ProbabilityMeasure.tendsto_iff_forall_integral_tendsto.1 hlim) G
  have h5 : ∫ z, G z ∂(halfNormal d) = ∫ u : Fin d → ℝ, halfDensity u * g u :=
    integral_halfNormal _ G.continuous
  have h6 : ∀ n, ∫ z, G z ∂(pointMasses (gridProduct (x (n + 1)) d) (productWeights (w (n + 1)) d))
      = nodeSum (x (n + 1)) (w (n + 1)) g := fun n => nodeSum_eq_integral _ _ (hw _ (by omega)) _
  rw [← h5]
  refine h4.congr fun n => h6 n

end Irt
