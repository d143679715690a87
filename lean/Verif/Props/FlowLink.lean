import Verif.Lemmas.Rescale
import Verif.Lemmas.MonoModels
import Verif.Props.RQSpline
import Mathlib.Analysis.Complex.ExponentialBounds

/-! # C23, C25, C26: `Flow` and `LinkCommonItems` -/

namespace Irt

open Finset

variable {d : ℕ}

/-! ## Flow -/

/-- The function a fitted flow applies to latent variable `k`. -/
noncomputable def FlowState.coord (f : FlowState d) (s : RQSpline) (k : Fin d) (x : ℝ) : ℝ :=
  (s.at false k ((x - f.means k) / f.stds k)).1

theorem FlowState.transformFlat_eq (f : FlowState d) (s : RQSpline) (hf : f.flow = some s) (hs : s.WF)
    (hd : s.uw.length = d) (θ : Thetas d) :
    f.transformFlat θ = .ok (θ.flatMap fun t => List.ofFn fun k => f.coord s k (t k)) ∧
      f.transform θ = .ok (θ.map fun t k => f.coord s k (t k)) := by
  have hm : (θ.map fun t => List.ofFn fun k => (t k - f.means k) / f.stds k)
      = ((θ.map fun t k => (t k - f.means k) / f.stds k : Thetas d)).map List.ofFn := by
    rw [List.map_map]; rfl
  obtain ⟨l, h1, h2, h3⟩ := s.forward_rows hs hd false (θ.map fun t k => (t k - f.means k) / f.stds k)
  have hflat : f.transformFlat θ = .ok l := by
    unfold FlowState.transformFlat NeuralSplineFlow.forward
    rw [hf]
    simp only [hm, h1]
    rfl
  constructor
  · rw [hflat, h2, flatTensor_rows _ (fun k x => (s.at false k x).1) (fun j x => (s.at false j x).1)
      (fun _ => rfl), List.flatMap_map]
    rfl
  · unfold FlowState.transform
    rw [hflat]
    rw [List.length_map, List.map_map] at h3
    show Except.ok _ = Except.ok _
    rw [h3]; rfl

theorem FlowState.fit_stds_pos (sample : Thetas d) (s : RQSpline)
    (hvar : ∀ k, ∃ t ∈ sample, ∃ u ∈ sample, t k ≠ u k) (k : Fin d) :
    0 < (FlowState.fit sample s).stds k := by
  obtain ⟨t, ht, u, hu, hne⟩ := hvar k
  obtain ⟨i, hi⟩ := List.mem_iff_getElem?.1 ht
  obtain ⟨j, hj⟩ := List.mem_iff_getElem?.1 hu
  have h1 : (sample.map fun t => t k)[i]? = some (t k) := by rw [List.getElem?_map, hi]; rfl
  have h2 : (sample.map fun t => t k)[j]? = some (u k) := by rw [List.getElem?_map, hj]; rfl
  exact columnStd_pos _ i j _ _ h1 h2 hne

/-- Before `fit`, all three methods raise ValueError. -/
theorem C23_before_fit (d : ℕ) (θ : Thetas d) :
    (FlowState.init d).transform θ = .error .valueError ∧
    (FlowState.init d).inverse θ = .error .valueError ∧
    (FlowState.init d).jacobian θ = .error .valueError := ⟨rfl, rfl, rfl⟩

/-- After `fit` on a sample in which every latent variable takes two different values, with any trained
spline: `inverse(transform(θ)) = θ` and `transform(inverse(θ)) = θ`. -/
theorem C23_round_trip (sample : Thetas d) (s : RQSpline) (hs : s.WF) (hd : s.uw.length = d)
    (hvar : ∀ k, ∃ t ∈ sample, ∃ u ∈ sample, t k ≠ u k) (θ : Thetas d) :
    (∃ θ', (FlowState.fit sample s).transform θ = .ok θ' ∧ (FlowState.fit sample s).inverse θ' = .ok θ) ∧
    (∃ θ', (FlowState.fit sample s).inverse θ = .ok θ' ∧ (FlowState.fit sample s).transform θ' = .ok θ) := by
  set f := FlowState.fit sample s with hf
  have hflow : f.flow = some s := rfl
  have hstd : ∀ k, 0 < f.stds k := FlowState.fit_stds_pos sample s hvar
  clear_value f
  have hinv : ∀ θ : Thetas d, f.inverse θ
      = .ok (θ.map fun t (k : Fin d) => (s.at true k (t k)).1 * f.stds k + f.means k) := by
    intro θ
    obtain ⟨l, h1, h2, h3⟩ := s.forward_rows hs hd true θ
    unfold FlowState.inverse NeuralSplineFlow.inverse
    rw [hflow]
    simp only [h1, bind_ok, pure, Except.pure]
    rw [h3, List.map_map]; rfl
  have htr := fun θ => (f.transformFlat_eq s hflow hs hd θ).2
  constructor
  · refine ⟨_, htr θ, ?_⟩
    rw [hinv, List.map_map]
    congr 1
    conv_rhs => rw [← List.map_id θ]
    apply List.map_congr_left
    intro t _
    funext k
    have hk := (hstd k).ne'
    show (s.at true k (f.coord s k (t k))).1 * f.stds k + f.means k = t k
    unfold FlowState.coord
    rw [(s.glued hs (by rw [hd]; exact k.2)).g_f]
    field_simp
    ring
  · refine ⟨_, hinv θ, ?_⟩
    rw [htr, List.map_map]
    congr 1
    conv_rhs => rw [← List.map_id θ]
    apply List.map_congr_left
    intro t _
    funext k
    have hk := (hstd k).ne'
    show f.coord s k ((s.at true k (t k)).1 * f.stds k + f.means k) = t k
    unfold FlowState.coord
    rw [add_sub_cancel_right, mul_div_assoc, div_self hk, mul_one,
      (s.glued hs (by rw [hd]; exact k.2)).f_g]

/-- After `fit`, the transformed value of latent variable `k` depends only on latent variable `k` of the same
row, and a larger latent score gets a strictly larger transformed score. -/
theorem C23_order (sample : Thetas d) (s : RQSpline) (hs : s.WF) (hd : s.uw.length = d)
    (hvar : ∀ k, ∃ t ∈ sample, ∃ u ∈ sample, t k ≠ u k) :
    ∃ F : Fin d → ℝ → ℝ, (∀ k, StrictMono (F k)) ∧
      ∀ θ, (FlowState.fit sample s).transform θ = .ok (θ.map fun t k => F k (t k)) := by
  set f := FlowState.fit sample s with hf
  have hflow : f.flow = some s := rfl
  have hstd : ∀ k, 0 < f.stds k := FlowState.fit_stds_pos sample s hvar
  clear_value f
  refine ⟨f.coord s, fun k x y hxy => ?_, fun θ => (f.transformFlat_eq s hflow hs hd θ).2⟩
  apply (s.glued hs (by rw [hd]; exact k.2)).strictMono
  exact div_lt_div_of_pos_right (by linarith) (hstd k)

/-- After `fit`, `jacobian` returns for each row the derivative of the transformation, whenever no
standardised score of the row lies exactly on a bound of the spline (where the slope jumps and there is no
derivative). -/
theorem C23_jacobian (sample : Thetas d) (s : RQSpline) (hs : s.WF) (hd : s.uw.length = d)
    (hvar : ∀ k, ∃ t ∈ sample, ∃ u ∈ sample, t k ≠ u k) (θ : Thetas d) :
    ∃ F J, (FlowState.fit sample s).transform θ = .ok (θ.map F) ∧
      (FlowState.fit sample s).jacobian θ = .ok (θ.map J) ∧
      ∀ t ∈ θ, (∀ k, (t k - columnMean (sample.map fun t => t k)) / columnStd (sample.map fun t => t k) ≠ s.loIn ∧
          (t k - columnMean (sample.map fun t => t k)) / columnStd (sample.map fun t => t k) ≠ s.hiIn) →
        IsJacobian F (J t) t := by
  set f := FlowState.fit sample s with hf
  have hflow : f.flow = some s := rfl
  have hstd : ∀ k, 0 < f.stds k := FlowState.fit_stds_pos sample s hvar
  have hmean : ∀ k, f.means k = columnMean (sample.map fun t => t k) := fun _ => rfl
  have hsd : ∀ k, f.stds k = columnStd (sample.map fun t => t k) := fun _ => rfl
  clear_value f
  refine ⟨fun t k => f.coord s k (t k), fun t => Matrix.diagonal fun k => deriv (f.coord s k) (t k),
    (f.transformFlat_eq s hflow hs hd θ).2, ?_, ?_⟩
  · have hg := gradOfSum_rowwise f.transformFlat (fun t => List.ofFn fun k => f.coord s k (t k))
      (fun θ => (f.transformFlat_eq s hflow hs hd θ).1) θ
    unfold FlowState.jacobian
    rw [hflow]
    simp only [hg, bind_ok, pure, Except.pure]
    rw [List.map_map]
    congr 1
    apply List.map_congr_left
    intro t _
    show Matrix.diagonal _ = Matrix.diagonal _
    congr 1
    funext k
    exact deriv_row_sum (f.coord s) t k
  · intro t _ hb
    apply IsJacobian.diagonal
    intro k
    apply DifferentiableAt.hasDerivAt
    have G := s.glued hs (j := k) (by rw [hd]; exact k.2)
    have hX0 := s.X_zero hs (j := k) (by rw [hd]; exact k.2)
    have hXn := s.X_last hs (j := k) (by rw [hd]; exact k.2)
    have hinner : DifferentiableAt ℝ (fun x => (x - f.means k) / f.stds k) (t k) := by fun_prop
    have houter : DifferentiableAt ℝ (fun x => (s.at false k x).1) ((t k - f.means k) / f.stds k) := by
      obtain ⟨b1, b2⟩ := hb k
      rw [← hmean, ← hsd] at b1 b2
      rcases lt_or_gt_of_ne b1 with h | h
      · exact (G.deriv_lo _ (by rw [hX0]; exact h)).2.differentiableAt
      · rcases lt_or_gt_of_ne b2 with h' | h'
        · exact (G.hasDerivAt _ (by rw [hX0]; exact h) (by rw [hXn]; exact h')).differentiableAt
        · exact (G.deriv_hi _ (by rw [hXn]; exact h')).2.differentiableAt
    have hcomp := DifferentiableAt.comp (g := fun x => (s.at false k x).1)
      (f := fun x => (x - f.means k) / f.stds k) (t k) houter hinner
    exact hcomp

/-- A two-dimensional fit: the sample and the default spline meet the hypotheses above. -/
example : ∃ (sample : Thetas 2) (s : RQSpline), s.WF ∧ s.uw.length = 2 ∧
    (∀ k, ∃ t ∈ sample, ∃ u ∈ sample, t k ≠ u k) := by
  obtain ⟨h1, h2⟩ := C21_reachable 2 50 (-5.5) 5.5 (-3) 3 0.001 0.001 0.001 _ _ false
    (by norm_num) (by norm_num) (by norm_num) (by norm_num) (by norm_num) (by norm_num) (by norm_num)
    (by norm_num) (by norm_num) (if_neg (by norm_num)) ⟨rfl, rfl, rfl, rfl, fun _ => ⟨rfl, rfl⟩⟩
    (by simp)
  exact ⟨[fun _ => 0, fun _ => 1], _, h1, h2, fun k => ⟨fun _ => 0, by simp, fun _ => 1, by simp, by norm_num⟩⟩

/-! ## LinkCommonItems -/

/-- The constructor's checks accept exactly two one-dimensional models, two equally long nonempty lists of
common items and a known method. -/
theorem C25_accepts (lvFrom lvTo : ℕ) (a b : Option (List ℕ)) (m : Bool) :
    linkChecks lvFrom lvTo a b m = .ok () ↔
      lvFrom = 1 ∧ lvTo = 1 ∧ m = true ∧ ∃ l l', a = some l ∧ b = some l' ∧ l.length = l'.length ∧ l ≠ [] := by
  unfold linkChecks
  constructor
  · intro h
    by_cases h1 : lvFrom ≠ lvTo
    · rw [if_pos h1] at h; cases h
    by_cases h2 : lvFrom ≠ 1
    · rw [if_neg h1, if_pos h2] at h; cases h
    rw [if_neg h1, if_neg h2] at h
    push Not at h1 h2
    match a, b, h with
    | some l, some l', h =>
      by_cases h3 : l.length ≠ l'.length
      · simp [h3] at h
      by_cases h4 : l.length < 1
      · simp only [h3, if_false, h4, if_true] at h; cases h
      simp only [h3, if_false, h4] at h
      push Not at h3
      refine ⟨h2, by omega, by cases m <;> simp_all, l, l', rfl, rfl, h3, ?_⟩
      rintro rfl
      simp at h4
  · rintro ⟨rfl, rfl, rfl, l, l', rfl, rfl, h, hne⟩
    have : ¬ l.length < 1 := by
      have := List.length_pos_of_ne_nil hne
      omega
    simp only [ne_eq, not_true_eq_false, if_false, Bool.not_true, Bool.false_eq_true, h]
    rw [if_neg (by rw [← h]; exact this)]

/-- The transformation of a link with the spline method. -/
theorem LinkState.spline_transform (ov : ℝ) (s : RQSpline) (hs : s.WF) (h1 : s.uw.length = 1) (inv : Bool)
    (θ : Thetas 1) :
    (LinkState.mk (.spline s) inv).transform ov θ
      = .ok (θ.map fun t k => (s.at false 0 (t k)).1 * (LinkState.mk (.spline s) inv).multiplier) ∧
    (LinkState.mk (.spline s) inv).inverse θ
      = .ok (θ.map fun t k => (s.at true 0 (t k)).1 * (LinkState.mk (.spline s) inv).multiplier) := by
  have e0 : ∀ k : Fin 1, (k : ℕ) = 0 := fun k => by omega
  constructor
  · obtain ⟨l, a, b, c⟩ := s.forward_rows hs h1 false θ
    unfold LinkState.transform
    simp only [a, bind_ok, pure, Except.pure]
    rw [c, List.map_map]
    congr 1
    apply List.map_congr_left
    intro t _
    funext k
    simp only [Function.comp, e0]
  · obtain ⟨l, a, b, c⟩ := s.forward_rows hs h1 true θ
    unfold LinkState.inverse
    simp only [a, bind_ok, pure, Except.pure]
    rw [c, List.map_map]
    congr 1
    apply List.map_congr_left
    intro t _
    funext k
    simp only [Function.comp, e0]

/-- For models oriented in the same direction, `inverse` undoes `transform` of the spline method on both
sides. Missing: `inverted=True`, for which the claim is false (`C25_false`). -/
theorem C25_same_direction_partial (ov : ℝ) (s : RQSpline) (hs : s.WF) (h1 : s.uw.length = 1)
    (θ : Thetas 1) :
    (∃ θ', (LinkState.mk (.spline s) false).transform ov θ = .ok θ' ∧
      (LinkState.mk (.spline s) false).inverse θ' = .ok θ) ∧
    ∃ θ', (LinkState.mk (.spline s) false).inverse θ = .ok θ' ∧
      (LinkState.mk (.spline s) false).transform ov θ' = .ok θ := by
  have G := s.glued hs (j := 0) (by omega)
  have hm : (LinkState.mk (.spline s) false).multiplier = 1 := rfl
  constructor
  · refine ⟨_, (LinkState.spline_transform ov s hs h1 false θ).1, ?_⟩
    rw [(LinkState.spline_transform ov s hs h1 false _).2, List.map_map, hm]
    congr 1
    conv_rhs => rw [← List.map_id θ]
    apply List.map_congr_left
    intro t _
    funext k
    simp only [Function.comp, mul_one, G.g_f, id]
  · refine ⟨_, (LinkState.spline_transform ov s hs h1 false θ).2, ?_⟩
    rw [(LinkState.spline_transform ov s hs h1 false _).1, List.map_map, hm]
    congr 1
    conv_rhs => rw [← List.map_id θ]
    apply List.map_congr_left
    intro t _
    funext k
    simp only [Function.comp, mul_one, G.f_g, id]

/-- The transformation is strictly increasing, or strictly decreasing when `inverted`. -/
theorem C25_direction (ov : ℝ) (s : RQSpline) (hs : s.WF) (h1 : s.uw.length = 1) (inv : Bool) :
    ∃ F : ℝ → ℝ, (∀ θ, (LinkState.mk (.spline s) inv).transform ov θ = .ok (θ.map fun t k => F (t k))) ∧
      (if inv then StrictAnti F else StrictMono F) := by
  have G := s.glued hs (j := 0) (by omega)
  refine ⟨fun x => (s.at false 0 x).1 * (LinkState.mk (.spline s) inv).multiplier,
    fun θ => (LinkState.spline_transform ov s hs h1 inv θ).1, ?_⟩
  cases inv
  · simpa [LinkState.multiplier] using G.strictMono
  · simp only [if_true, LinkState.multiplier]
    intro x y h
    have := G.strictMono h
    simp only at this
    linarith

/-- The spline that `LinkCommonItems` builds by default. -/
theorem link_default_spline :
    ∃ s₀, RQSpline.create 1 10 (-5.5) 5.5 (-5.5) 5.5 0.001 0.001 0.001 = .ok s₀ :=
  ⟨_, if_neg (by norm_num)⟩

/-- The default spline, trained to output bounds [-4.5, 6.5], meets the hypotheses of the link theorems. -/
example : ∃ s : RQSpline, s.WF ∧ s.uw.length = 1 ∧ s.loOut = -4.5 ∧ s.hiOut = 6.5 := by
  obtain ⟨s₀, h0⟩ := link_default_spline
  obtain ⟨hs, h1⟩ := C21_reachable 1 10 (-5.5) 5.5 (-5.5) 5.5 0.001 0.001 0.001 s₀
    { s₀ with loOut := -4.5, hiOut := 6.5 } true (by norm_num)
    (by norm_num) (by norm_num) (by norm_num) (by norm_num) (by norm_num) (by norm_num) (by norm_num)
    (by norm_num) h0 ⟨rfl, rfl, rfl, rfl, by simp⟩ (fun _ => by norm_num)
  exact ⟨_, hs, h1, rfl, rfl⟩

/-- With `inverted=True` the claim is false: after training that moves the output bounds of the default
spline to [-4.5, 6.5] (they are trained parameters), 7 is sent to -8 and back to 9. The inverse negates
after inverting the spline; it should negate before. -/
theorem C25_false :
    ¬ ∀ (s₀ s : RQSpline), RQSpline.create 1 10 (-5.5) 5.5 (-5.5) 5.5 0.001 0.001 0.001 = .ok s₀ →
      RQSpline.TrainedFrom true s₀ s → s.loOut < s.hiOut → ∀ (ov : ℝ) (inv : Bool) (θ θ' : Thetas 1),
      (LinkState.mk (.spline s) inv).transform ov θ = .ok θ' →
      (LinkState.mk (.spline s) inv).inverse θ' = .ok θ := by
  intro h
  obtain ⟨s₀, h0⟩ := link_default_spline
  let s : RQSpline := { s₀ with loOut := -4.5, hiOut := 6.5 }
  have htr : RQSpline.TrainedFrom true s₀ s := ⟨rfl, rfl, rfl, rfl, by simp⟩
  have ho : s.loOut < s.hiOut := by simp only [s]; norm_num
  obtain ⟨hs, h1⟩ := C21_reachable 1 10 (-5.5) 5.5 (-5.5) 5.5 0.001 0.001 0.001 s₀ s true (by norm_num)
    (by norm_num) (by norm_num) (by norm_num) (by norm_num) (by norm_num) (by norm_num) (by norm_num)
    (by norm_num) h0 htr (fun _ => ho)
  have hs0 := h0
  unfold RQSpline.create at hs0
  rw [if_neg (by norm_num)] at hs0
  simp only [Except.ok.injEq] at hs0
  have e1 : s.hiIn = 5.5 := by simp only [s]; rw [← hs0]
  have e2 : s.loIn = -5.5 := by simp only [s]; rw [← hs0]
  have e3 : s.outHi = 1 := by simp only [s]; rw [← hs0]; norm_num
  have e4 : s.outLo = 1 := by simp only [s]; rw [← hs0]; norm_num
  have G := s.glued hs (j := 0) (by omega)
  have hX := s.X_last hs (j := 0) (by omega)
  have hY := s.Y_last hs (j := 0) (by omega)
  have hX0 := s.X_zero hs (j := 0) (by omega)
  have hY0 := s.Y_zero hs (j := 0) (by omega)
  have f7 : (s.at false 0 7).1 = 8 := by
    rw [G.f_hi 7 (by rw [hX, e1]; norm_num), hX, hY, e1, e3]
    simp only [s]; norm_num
  have g8 : (s.at true 0 (-8)).1 = -9 := by
    rw [G.g_lo (-8) (by rw [hY0]; simp only [s]; norm_num), hX0, hY0, e2, e4]
    simp only [s]; norm_num
  have ht : (LinkState.mk (.spline s) true).transform 88 [fun _ => 7] = .ok [fun _ => -8] := by
    rw [(LinkState.spline_transform 88 s hs h1 true _).1]
    simp only [List.map_cons, List.map_nil, f7, LinkState.multiplier]
    norm_num
  have hi : (LinkState.mk (.spline s) true).inverse [fun _ => -8] = .ok [fun _ => 9] := by
    rw [(LinkState.spline_transform 88 s hs h1 true _).2]
    simp only [List.map_cons, List.map_nil, g8, LinkState.multiplier]
    norm_num
  have := h s₀ s h0 htr ho 88 true _ _ ht
  rw [hi] at this
  have h2 := congrFun (List.cons.inj (Except.ok.inj this)).1 0
  norm_num at h2

/-- The neural network method has no inverse and says so. -/
theorem C25_neuralnet_refused (l : SoftplusLinear) (inv : Bool) (θ : Thetas 1) :
    (LinkState.mk (.neuralnet l) inv).inverse θ = .error .notImplemented := rfl

/-- For the spline method `jacobian` is the derivative of `transform`, for both orientations, at every score
that is not exactly on a bound of the spline. Missing: the neural network method, for which the claim is
false (`C26_false`). -/
theorem C26_spline_partial (ov : ℝ) (s : RQSpline) (hs : s.WF) (h1 : s.uw.length = 1) (inv : Bool)
    (θ : Thetas 1) :
    ∃ F J, (LinkState.mk (.spline s) inv).transform ov θ = .ok (θ.map F) ∧
      (LinkState.mk (.spline s) inv).jacobian θ = .ok (θ.map J) ∧
      ∀ t ∈ θ, t 0 ≠ s.loIn → t 0 ≠ s.hiIn → IsJacobian F (J t) t := by
  set L := LinkState.mk (.spline s) inv with hL
  let F1 : ℝ → ℝ := fun x => (s.at false 0 x).1 * L.multiplier
  have htarget : ∀ θ : Thetas 1, L.jacobianTarget θ = .ok (θ.flatMap fun t => List.ofFn fun k => F1 (t k)) := by
    intro θ
    obtain ⟨l, a, b, c⟩ := s.forward_rows hs h1 false θ
    unfold LinkState.jacobianTarget
    simp only [hL, a, bind_ok, pure, Except.pure]
    rw [b, flatTensor_rows θ (fun _ x => (s.at false 0 x).1) (fun j x => (s.at false j x).1)
      (fun k => by have : (k : ℕ) = 0 := by omega
                   rw [this]), List.map_flatMap]
    simp [F1, hL]
  refine ⟨fun t k => F1 (t k), fun t => Matrix.diagonal fun k => deriv F1 (t k),
    (LinkState.spline_transform ov s hs h1 inv θ).1, ?_, ?_⟩
  · have hg := gradOfSum_rowwise L.jacobianTarget _ htarget θ
    unfold LinkState.jacobian
    simp only [hg, bind_ok, pure, Except.pure]
    rw [List.map_map]
    congr 1
    apply List.map_congr_left
    intro t _
    show Matrix.diagonal _ = Matrix.diagonal _
    congr 1
    funext k
    exact deriv_row_sum (fun _ => F1) t k
  · intro t _ b1 b2
    apply IsJacobian.diagonal (f := fun _ => F1)
    intro k
    have : k = 0 := Subsingleton.elim _ _
    subst this
    apply DifferentiableAt.hasDerivAt
    have G := s.glued hs (j := 0) (by omega)
    have hX0 := s.X_zero hs (j := 0) (by omega)
    have hXn := s.X_last hs (j := 0) (by omega)
    have houter : DifferentiableAt ℝ (fun x => (s.at false 0 x).1) (t 0) := by
      rcases lt_or_gt_of_ne b1 with h | h
      · exact (G.deriv_lo _ (by rw [hX0]; exact h)).2.differentiableAt
      · rcases lt_or_gt_of_ne b2 with h' | h'
        · exact (G.hasDerivAt _ (by rw [hX0]; exact h) (by rw [hXn]; exact h')).differentiableAt
        · exact (G.deriv_hi _ (by rw [hXn]; exact h')).2.differentiableAt
    exact houter.mul_const _

/-- The derivative has the orientation's sign, so a link never reports a flat or reversed scale. -/
theorem C26_spline_sign (s : RQSpline) (hs : s.WF) (h1 : s.uw.length = 1) (inv : Bool) (θ : Thetas 1) :
    ∃ J, (LinkState.mk (.spline s) inv).jacobian θ = .ok (θ.map J) ∧
      ∀ t ∈ θ, t 0 ≠ s.loIn → t 0 ≠ s.hiIn → if inv then J t 0 0 < 0 else 0 < J t 0 0 := by
  obtain ⟨F, J, h2, h3, h4⟩ := C26_spline_partial 88 s hs h1 inv θ
  refine ⟨J, h3, fun t ht b1 b2 => ?_⟩
  have hF : F t = fun k => (s.at false 0 (t k)).1 * (LinkState.mk (.spline s) inv).multiplier := by
    have := (LinkState.spline_transform 88 s hs h1 inv θ).1
    rw [this] at h2
    have := Except.ok.inj h2
    exact (List.map_inj_left.1 this t ht).symm
  have G := s.glued hs (j := 0) (by omega)
  have hX0 := s.X_zero hs (j := 0) (by omega)
  have hXn := s.X_last hs (j := 0) (by omega)
  obtain ⟨D, hD, hpos⟩ : ∃ D, HasDerivAt (fun x => (s.at false 0 x).1) D (t 0) ∧ 0 < D := by
    rcases lt_or_gt_of_ne b1 with h | h
    · exact ⟨_, (G.deriv_lo _ (by rw [hX0]; exact h)).2, hs.outLo⟩
    · rcases lt_or_gt_of_ne b2 with h' | h'
      · exact ⟨_, G.hasDerivAt _ (by rw [hX0]; exact h) (by rw [hXn]; exact h'), Real.exp_pos _⟩
      · exact ⟨_, (G.deriv_hi _ (by rw [hXn]; exact h')).2, hs.outHi⟩
  obtain ⟨F', J', g2, g3, g4⟩ := C26_spline_partial 88 s hs h1 inv [t]
  -- compute the entry through the model
  have hj : J t = Matrix.diagonal fun _ : Fin 1 => D * (LinkState.mk (.spline s) inv).multiplier := by
    have hd : ∀ θ : Thetas 1, (LinkState.mk (.spline s) inv).jacobian θ = .ok (θ.map fun t =>
        Matrix.diagonal fun k => deriv (fun x => (s.at false 0 x).1
          * (LinkState.mk (.spline s) inv).multiplier) (t k)) := by
      intro θ
      have htarget : ∀ θ : Thetas 1, (LinkState.mk (.spline s) inv).jacobianTarget θ
          = .ok (θ.flatMap fun t => List.ofFn fun k => (s.at false 0 (t k)).1
              * (LinkState.mk (.spline s) inv).multiplier) := by
        intro θ
        obtain ⟨l, a, b, c⟩ := s.forward_rows hs h1 false θ
        unfold LinkState.jacobianTarget
        simp only [a, bind_ok, pure, Except.pure]
        rw [b, flatTensor_rows θ (fun _ x => (s.at false 0 x).1) (fun j x => (s.at false j x).1)
          (fun k => by have : (k : ℕ) = 0 := by omega
                       rw [this]), List.map_flatMap]
        simp
      have hg := gradOfSum_rowwise _ _ htarget θ
      unfold LinkState.jacobian
      simp only [hg, bind_ok, pure, Except.pure]
      rw [List.map_map]
      congr 1
      apply List.map_congr_left
      intro t _
      show Matrix.diagonal _ = Matrix.diagonal _
      congr 1
      funext k
      exact deriv_row_sum (fun _ x => (s.at false 0 x).1 * (LinkState.mk (.spline s) inv).multiplier) t k
    rw [hd] at h3
    have := (List.map_inj_left.1 (Except.ok.inj h3) t ht).symm
    rw [this]
    congr 1
    funext k
    have : k = 0 := Subsingleton.elim _ _
    subst this
    exact (hD.mul_const _).deriv
  rw [hj]
  cases inv
  · simpa [LinkState.multiplier] using hpos
  · simpa [LinkState.multiplier] using hpos

/-- The network of a fresh `LinkCommonItems(method="neuralnet")`: 9 neurons, all parameters zero. -/
noncomputable def freshLinkNet : SoftplusLinear :=
  { inF := 1, outF := 9, positive := true, freeWeight := List.replicate 9 [true],
    freeBias := List.replicate 9 true, rawWeight := List.replicate 9 0, bias := List.replicate 9 0 }

theorem freshLinkNet_init : SoftplusLinear.init 1 9 none none none none true = .ok freshLinkNet := by
  simp [SoftplusLinear.init, freshLinkNet, List.range_succ, List.replicate, countTrue]

theorem freshLinkNet_forward (x : ℝ) : freshLinkNet.forward [x] = List.replicate 9 (x * softplus 0) := by
  simp [SoftplusLinear.forward, SoftplusLinear.weight, SoftplusLinear.biases, freshLinkNet, scatterMask,
    viewRows, dot, List.replicate]

/-- For the neural network method the claim is false: `jacobian` differentiates the sum of the neurons
before the activation functions. On a freshly built link, at latent score 1, it returns `9 log 2` while the
derivative of the transformation is `7.5 log 2`. -/
theorem C26_false :
    ¬ ∀ (neurons : ℕ) (l₀ l : SoftplusLinear), SoftplusLinear.init 1 neurons none none none none true = .ok l₀ →
      l₀.Trained l → ∀ (ov : ℝ), 0 ≤ ov → ∀ (inv : Bool) (F : (Fin 1 → ℝ) → Fin 1 → ℝ)
        (J : (Fin 1 → ℝ) → Matrix (Fin 1) (Fin 1) ℝ),
      (∀ θ, (LinkState.mk (.neuralnet l) inv).transform ov θ = .ok (θ.map F)) →
      (∀ θ, (LinkState.mk (.neuralnet l) inv).jacobian θ = .ok (θ.map J)) →
      ∀ t, IsJacobian F (J t) t := by
  intro h
  set c := softplus 0 with hc
  have hc2 : c = Real.log 2 := by simp [hc, softplus]; norm_num
  have hcpos : 0 < c := softplus_pos 0
  have hc1 : c < 1 := by rw [hc2]; exact Real.log_two_lt_d9.trans (by norm_num)
  set L := LinkState.mk (.neuralnet freshLinkNet) false with hL
  let F : (Fin 1 → ℝ) → Fin 1 → ℝ := fun t _ =>
    (splitActivation 88 true (freshLinkNet.forward [t 0])).sum * L.multiplier
  have htarget : ∀ θ : Thetas 1, L.jacobianTarget θ
      = .ok (θ.flatMap fun t => (freshLinkNet.forward [t 0]).map fun x => x * L.multiplier) := by
    intro θ
    unfold LinkState.jacobianTarget
    simp only [hL]
    rw [List.map_flatMap]
  let J : (Fin 1 → ℝ) → Matrix (Fin 1) (Fin 1) ℝ := fun t => Matrix.diagonal fun k =>
    deriv (fun v => ((freshLinkNet.forward [Function.update t k v 0]).map fun x => x * L.multiplier).sum) (t k)
  have hJ : ∀ θ, L.jacobian θ = .ok (θ.map J) := by
    intro θ
    have hg := gradOfSum_rowwise L.jacobianTarget _ htarget θ
    unfold LinkState.jacobian
    simp only [hg, bind_ok, pure, Except.pure]
    rw [List.map_map]; rfl
  have hmain := h 9 _ freshLinkNet freshLinkNet_init ⟨rfl, rfl, rfl, rfl, rfl, rfl, rfl⟩ 88 (by norm_num) false
    F J (fun θ => rfl) hJ (fun _ => 1)
  have h1 := hmain.partial_deriv 0 0
  have hm : L.multiplier = 1 := rfl
  -- the reported entry
  have hJ0 : J (fun _ => 1) 0 0 = 9 * c := by
    simp only [J, Matrix.diagonal_apply_eq, Function.update_self, hm, mul_one, List.map_id',
      freshLinkNet_forward, List.sum_replicate, nsmul_eq_mul]
    have : HasDerivAt (fun v : ℝ => ((9 : ℕ) : ℝ) * (v * softplus 0)) (((9 : ℕ) : ℝ) * (1 * softplus 0)) 1 :=
      ((hasDerivAt_id (1 : ℝ)).mul_const _).const_mul _
    rw [this.deriv]; push_cast; ring
  -- the derivative of the transformation
  have hbelu : ∀ y : ℝ, -1 < y → y < 1 → (boundedElu 88 1 y).getD 0 = y := by
    intro y h1 h2
    have e1 : ¬ y ≤ -1 := by linarith
    have e2 : ¬ 1 ≤ y := by linarith
    have e3 : ¬ (88 : ℝ) < y + 1 := by linarith
    have e4 : ¬ (88 : ℝ) < -y + 1 := by linarith
    simp [boundedElu, affineExt, expOv, maskMul, add3, e1, e2, e3, e4]
  have hF : ∀ v : ℝ, 0 < v → v * c < 1 → F (Function.update (fun _ => 1) 0 v) 0
      = 3 * (v * c) + 3 * (1 - Real.exp (-(v * c))) + 3 * (v * c) := by
    intro v hv hv1
    have hvc : 0 < v * c := mul_pos hv hcpos
    simp only [F, Function.update_self, hm, mul_one, freshLinkNet_forward, splitActivation, if_true,
      List.length_replicate]
    have hel : ∀ y : ℝ, 0 < y → elu y = y := by
      intro y hy; unfold elu; simp [hy]
    have hel' : elu (-(v * c)) = Real.exp (-(v * c)) - 1 := by
      unfold elu; rw [if_neg (by linarith)]
    simp only [show 9 / 3 = 3 from rfl, List.range_succ, List.range_zero, List.nil_append,
      List.flatMap_append, List.flatMap_cons, List.flatMap_nil]
    simp only [List.replicate, List.getD_cons_zero, List.getD_cons_succ, List.append_nil]
    simp only [List.cons_append, List.nil_append, List.sum_cons, List.sum_nil]
    norm_num [List.getD_cons_succ]
    rw [← hc, hel _ hvc, hel', hbelu _ (by linarith) hv1]
    ring
  have h2 : HasDerivAt (fun v : ℝ => 3 * (v * c) + 3 * (1 - Real.exp (-(v * c))) + 3 * (v * c))
      (15 / 2 * c) 1 := by
    have hi : HasDerivAt (fun v : ℝ => v * c) c 1 := by simpa using (hasDerivAt_id (1 : ℝ)).mul_const c
    have he := (hi.neg.exp.const_sub 1).const_mul 3
    have := ((hi.const_mul 3).add he).add (hi.const_mul 3)
    refine this.congr_deriv ?_
    have : Real.exp (-(1 * c)) = 1 / 2 := by
      rw [one_mul, Real.exp_neg, hc2, Real.exp_log (by norm_num)]; norm_num
    simp only [Pi.neg_apply, this]
    ring
  have h3 : HasDerivAt (fun v => F (Function.update (fun _ => 1) 0 v) 0) (15 / 2 * c) 1 := by
    refine h2.congr_of_eventuallyEq ?_
    have hn : Set.Ioo (0 : ℝ) (1 / c) ∈ nhds (1 : ℝ) :=
      Ioo_mem_nhds (by norm_num) (by rw [lt_div_iff₀ hcpos]; linarith)
    filter_upwards [hn] with v hv
    exact hF v hv.1 (by have := hv.2; rwa [lt_div_iff₀ hcpos] at this)
  rw [hJ0] at h1
  have := h1.unique h3
  linarith

end Irt
