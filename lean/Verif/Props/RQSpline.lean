import Verif.Lemmas.RQSpline

/-!
# C21, C22: the rational quadratic spline

A batch of `N` rows is given by its entries `x i j`; `knot` (Spec/Spline) is the textbook formula for
knots from unconstrained bin sizes.
-/

namespace Irt

open Finset

/-- Modules built by the constructor with ordered bounds and sensible minimum sizes are well formed after
any training, as long as trained output bounds stay in order. -/
theorem C21_reachable (vars bins : ℕ) (loIn hiIn loOut hiOut minW minH minD : ℝ) (s₀ s : RQSpline)
    (free : Bool) (hb : 0 < bins) (hIn : loIn < hiIn) (hOut : loOut < hiOut) (hW : 0 ≤ minW)
    (hW' : minW * bins ≤ 1) (hH : 0 ≤ minH) (hH' : minH * bins ≤ 1) (hD : 0 ≤ minD) (hD' : minD < 1)
    (h₀ : RQSpline.create vars bins loIn hiIn loOut hiOut minW minH minD = .ok s₀)
    (ht : RQSpline.TrainedFrom free s₀ s) (hfree : free = true → s.loOut < s.hiOut) :
    s.WF ∧ s.uw.length = vars := by
  unfold RQSpline.create at h₀
  rw [if_neg (sub_ne_zero.mpr hIn.ne')] at h₀
  simp only [Except.ok.injEq] at h₀
  obtain ⟨e, h1, h2, h3, h4⟩ := ht
  have hd : 0 < (hiOut - loOut) / (hiIn - loIn) := div_pos (by linarith) (by linarith)
  have hlen : ∀ (l : List (List ℝ)) (n m : ℕ) (v : ℝ),
      l.map List.length = (List.replicate n (List.replicate m v)).map List.length →
      l.length = n ∧ ∀ r ∈ l, r.length = m := by
    intro l n m v h
    rw [List.map_replicate, List.length_replicate] at h
    constructor
    · simpa using congrArg List.length h
    · intro r hr
      have : r.length ∈ l.map List.length := List.mem_map_of_mem hr
      rw [h] at this
      exact List.eq_of_mem_replicate this
  subst h₀
  obtain ⟨a1, b1⟩ := hlen _ _ _ _ h1
  obtain ⟨a2, b2⟩ := hlen _ _ _ _ h2
  obtain ⟨a3, b3⟩ := hlen _ _ _ _ h3
  have ho : s.loOut < s.hiOut := by
    cases free
    · rw [(h4 rfl).1, (h4 rfl).2]; exact hOut
    · exact hfree rfl
  have e1 : s.bins = bins := by rw [e]
  have e2 : s.loIn = loIn := by rw [e]
  have e3 : s.hiIn = hiIn := by rw [e]
  have e4 : s.minW = minW := by rw [e]
  have e5 : s.minH = minH := by rw [e]
  have e6 : s.minD = minD := by rw [e]
  have e7 : s.outLo = (hiOut - loOut) / (hiIn - loIn) := by rw [e]
  have e8 : s.outHi = (hiOut - loOut) / (hiIn - loIn) := by rw [e]
  refine ⟨⟨by rwa [e1], by rwa [e2, e3], ho, by rwa [e4], by rwa [e4, e1], by rwa [e5],
    by rwa [e5, e1], by rwa [e6], by rwa [e6], by rwa [e7], by rwa [e8], by rw [a1, a2], by rw [a1, a3],
    by rwa [e1], by rwa [e1], by rwa [e1]⟩, a1⟩

/-- The default spline of `Flow` (50 bins, inputs in [-5.5, 5.5], outputs in [-3, 3]) is an instance. -/
example : ∃ s, RQSpline.create 2 50 (-5.5) 5.5 (-3) 3 0.001 0.001 0.001 = .ok s ∧ s.WF := by
  refine ⟨_, if_neg (by norm_num), (C21_reachable 2 50 (-5.5) 5.5 (-3) 3 0.001 0.001 0.001 _ _ false
    (by norm_num) (by norm_num) (by norm_num) (by norm_num) (by norm_num) (by norm_num) (by norm_num)
    (by norm_num) (by norm_num) (if_neg (by norm_num)) ⟨rfl, rfl, rfl, rfl, fun _ => ⟨rfl, rfl⟩⟩
    (by simp)).1⟩

/-- The batch transformation applies one function per variable to each element. Each function is a strictly
increasing continuous bijection of the real line, sends knots to knots, and is undone on both sides by
inverse mode. -/
theorem C21_bijection (s : RQSpline) (hs : s.WF) :
    ∃ f g : ℕ → ℝ → ℝ,
      (∀ (N : ℕ) (x : ℕ → ℕ → ℝ), ∃ l, s.forward (rowsOf N s.uw.length x) false
        = .ok (flatTensor N s.uw.length fun i j => f j (x i j), l)) ∧
      (∀ (N : ℕ) (y : ℕ → ℕ → ℝ), ∃ l, s.forward (rowsOf N s.uw.length y) true
        = .ok (flatTensor N s.uw.length fun i j => g j (y i j), l)) ∧
      ∀ j < s.uw.length, StrictMono (f j) ∧ Continuous (f j) ∧ Function.Surjective (f j) ∧
        (∀ x, g j (f j x) = x) ∧ (∀ y, f j (g j y) = y) ∧
        ∀ k ≤ s.bins,
          f j (knot s.bins s.minW s.loIn s.hiIn (fun i => (s.uw.getD j []).getD i 0) k)
            = knot s.bins s.minH s.loOut s.hiOut (fun i => (s.uh.getD j []).getD i 0) k :=
  ⟨fun j x => (s.at false j x).1, fun j x => (s.at true j x).1,
    fun N x => ⟨_, s.forward_eq hs false N x⟩, fun N y => ⟨_, s.forward_eq hs true N y⟩,
    fun _ hj => have G := s.glued hs hj
      ⟨G.strictMono, G.continuous, G.surj, G.g_f, G.f_g, fun _ hk => G.f_knot hk⟩⟩

/-- The end knots are the bounds, and the knots are increasing. -/
theorem C21_knots (s : RQSpline) (hs : s.WF) (u : ℕ → ℝ) :
    knot s.bins s.minW s.loIn s.hiIn u 0 = s.loIn ∧
    knot s.bins s.minW s.loIn s.hiIn u s.bins = s.hiIn ∧
    (∀ k, knot s.bins s.minW s.loIn s.hiIn u k < knot s.bins s.minW s.loIn s.hiIn u (k + 1)) ∧
    knot s.bins s.minH s.loOut s.hiOut u 0 = s.loOut ∧
    knot s.bins s.minH s.loOut s.hiOut u s.bins = s.hiOut ∧
    ∀ k, knot s.bins s.minH s.loOut s.hiOut u k < knot s.bins s.minH s.loOut s.hiOut u (k + 1) :=
  ⟨knot_zero _ _ _ _ _, knot_last _ hs.bins _ _ _ _,
    knot_lt _ hs.bins _ _ _ hs.minW hs.minW' hs.hIn _, knot_zero _ _ _ _ _,
    knot_last _ hs.bins _ _ _ _, knot_lt _ hs.bins _ _ _ hs.minH hs.minH' hs.hOut _⟩

/-- Transforming a batch and feeding the result back in inverse mode returns the batch. -/
theorem C21_round_trip (s : RQSpline) (hs : s.WF) (N : ℕ) (x : ℕ → ℕ → ℝ) :
    ∃ (y : ℕ → ℕ → ℝ) (l l' : List ℝ),
      s.forward (rowsOf N s.uw.length x) false = .ok (flatTensor N s.uw.length y, l) ∧
      s.forward (rowsOf N s.uw.length y) true = .ok (flatTensor N s.uw.length x, l') := by
  refine ⟨fun i j => (s.at false j (x i j)).1, _,
    flatTensor N s.uw.length fun i j => (s.at true j (s.at false j (x i j)).1).2,
    s.forward_eq hs false N x, ?_⟩
  rw [s.forward_eq hs true N]
  congr 2
  exact flatTensor_congr _ _ _ _ fun i _ j hj => (s.glued hs hj).g_f _

/-- The one-bin spline on [0, 1] whose two output bounds were trained past each other. -/
noncomputable def crossedSpline : RQSpline :=
  ⟨1, 0, 1, 1, 0, 0, 0, 0, 1, 1, [[0]], [[0]], [[]]⟩

/-- With `free_endpoints` nothing keeps the trained output bounds in order, and then the spline is not
increasing: the property fails for some parameter vectors of the splines used by `LinkCommonItems`. -/
theorem C21_free_endpoints_false :
    ¬ ∀ (s₀ s : RQSpline), RQSpline.create 1 1 0 1 0 1 0 0 0 = .ok s₀ → RQSpline.TrainedFrom true s₀ s →
      ∀ a b va vb : ℝ, ∀ la lb, a < b → s.forward [[a]] false = .ok ([va], la) →
        s.forward [[b]] false = .ok ([vb], lb) → va < vb := by
  intro h
  have hv : ∀ x : ℝ, (x = 0 ∨ x = 1) →
      ∃ l, crossedSpline.forward [[x]] false = .ok ([1 - x], l) := by
    intro x hx
    have hb : crossedSpline.below false x = false := by
      rcases hx with rfl | rfl <;> simp [RQSpline.below, crossedSpline]
    have ha : crossedSpline.above false x = false := by
      rcases hx with rfl | rfl <;> simp [RQSpline.above, crossedSpline]
    have hc : ∀ lo hi : ℝ, cumParams 1 [0] lo hi 0 = ([lo, hi], [hi - lo]) := by
      intro lo hi
      simp [cumParams, softmax, cumsum, Logit.exp, List.inits]
    have hi : ∃ l, crossedSpline.insideValue x [0] [0] (padDerivatives 0 []) false = .ok (1 - x, l) := by
      unfold RQSpline.insideValue
      rw [if_neg (by simp [crossedSpline])]
      have hcount : (bumpLast 1e-6 [0, 1]).countP (fun b : ℝ => decide (b ≤ x)) = 1 := by
        rcases hx with rfl | rfl
        · simp [bumpLast]; norm_num
        · simp [bumpLast]; norm_num
      simp only [crossedSpline, hc, Bool.false_eq_true, if_false, hcount]
      rcases hx with rfl | rfl
      · simp [gatherAt, padDerivatives, binForward, bind, Except.bind]
      · simp [gatherAt, padDerivatives, binForward, bind, Except.bind]
    obtain ⟨l, hi⟩ := hi
    refine ⟨[l], ?_⟩
    have e1 : crossedSpline.minD = 0 := rfl
    have e2 : crossedSpline.uw = [[0]] := rfl
    have e3 : crossedSpline.uh = [[0]] := rfl
    have e4 : crossedSpline.ud = [[]] := rfl
    unfold RQSpline.forward
    simp [ha, hb, e1, e2, e3, e4, tile, gatherMask, maskAssign, hi, bind, Except.bind, pure, Except.pure]
  obtain ⟨l0, h0⟩ := hv 0 (Or.inl rfl)
  obtain ⟨l1, h1⟩ := hv 1 (Or.inr rfl)
  have := h _ crossedSpline (if_neg (by norm_num)) ⟨by simp [crossedSpline], by simp [crossedSpline],
    by simp [crossedSpline], by simp [crossedSpline], by simp⟩ 0 1 _ _ _ _ (by norm_num) h0 h1
  norm_num at this

/-- Strictly inside the bounds, the log determinant returned with a value is the log of the derivative, in
both modes. Exactly on a bound it is the log of the derivative from inside (which is one). The claim for
elements outside the bounds is missing here because it is false: see `C22_false`. -/
theorem C22_inside_partial (s : RQSpline) (hs : s.WF) :
    ∃ f l g m : ℕ → ℝ → ℝ,
      (∀ (N : ℕ) (x : ℕ → ℕ → ℝ), s.forward (rowsOf N s.uw.length x) false
        = .ok (flatTensor N s.uw.length (fun i j => f j (x i j)),
            flatTensor N s.uw.length fun i j => l j (x i j))) ∧
      (∀ (N : ℕ) (y : ℕ → ℕ → ℝ), s.forward (rowsOf N s.uw.length y) true
        = .ok (flatTensor N s.uw.length (fun i j => g j (y i j)),
            flatTensor N s.uw.length fun i j => m j (y i j))) ∧
      ∀ j < s.uw.length,
        (∀ x, s.loIn < x → x < s.hiIn → HasDerivAt (f j) (Real.exp (l j x)) x) ∧
        (∀ y, s.loOut < y → y < s.hiOut → HasDerivAt (g j) (Real.exp (m j y)) y) ∧
        (l j s.loIn = 0 ∧ HasDerivWithinAt (f j) 1 (Set.Ici s.loIn) s.loIn) ∧
        (l j s.hiIn = 0 ∧ HasDerivWithinAt (f j) 1 (Set.Iic s.hiIn) s.hiIn) := by
  refine ⟨fun j x => (s.at false j x).1, fun j x => (s.at false j x).2, fun j x => (s.at true j x).1,
    fun j x => (s.at true j x).2, s.forward_eq hs false, s.forward_eq hs true, fun j hj => ?_⟩
  have G := s.glued hs hj
  have hlo := G.slope_lo
  have hhi := G.slope_hi
  rw [s.D_zero hs, s.X_zero hs hj, Real.exp_eq_one_iff] at hlo
  rw [s.D_last hs j hj, s.X_last hs hj, Real.exp_eq_one_iff] at hhi
  refine ⟨fun x h0 h1 => ?_, fun y h0 h1 => ?_, hlo, hhi⟩
  · exact G.hasDerivAt x (by rwa [s.X_zero hs hj]) (by rwa [s.X_last hs hj])
  · exact G.g_hasDerivAt y (by rwa [s.Y_zero hs hj]) (by rwa [s.Y_last hs hj])

/-- Outside the bounds the log determinant is reported as zero, whatever the slope of the affine tails. -/
theorem C22_outside (s : RQSpline) (hs : s.WF) :
    ∃ f l : ℕ → ℝ → ℝ,
      (∀ (N : ℕ) (x : ℕ → ℕ → ℝ), s.forward (rowsOf N s.uw.length x) false
        = .ok (flatTensor N s.uw.length (fun i j => f j (x i j)),
            flatTensor N s.uw.length fun i j => l j (x i j))) ∧
      ∀ j < s.uw.length,
        (∀ x < s.loIn, l j x = 0 ∧ HasDerivAt (f j) s.outLo x) ∧
        ∀ x, s.hiIn < x → l j x = 0 ∧ HasDerivAt (f j) s.outHi x := by
  refine ⟨fun j x => (s.at false j x).1, fun j x => (s.at false j x).2, s.forward_eq hs false,
    fun j hj => ?_⟩
  have G := s.glued hs hj
  exact ⟨fun x hx => G.deriv_lo x (by rwa [s.X_zero hs hj]),
    fun x hx => G.deriv_hi x (by rwa [s.X_last hs hj])⟩

/-- The log determinant is not the log derivative of the transformation at every input: the default spline
of `Flow` has slope 6/11 outside [-5.5, 5.5] and reports log determinant 0 there. -/
theorem C22_false :
    ¬ ∀ (s : RQSpline), s.WF → ∀ f l : ℝ → ℝ,
      (∀ x, s.forward [[x]] false = .ok ([f x], [l x])) → ∀ x, HasDerivAt f (Real.exp (l x)) x := by
  intro h
  obtain ⟨s, hc, hs, hv⟩ : ∃ s, RQSpline.create 1 50 (-5.5) 5.5 (-3) 3 0.001 0.001 0.001 = .ok s ∧ s.WF ∧
      s.uw.length = 1 := by
    refine ⟨_, if_neg (by norm_num), C21_reachable 1 50 (-5.5) 5.5 (-3) 3 0.001 0.001 0.001 _ _ false
      (by norm_num) (by norm_num) (by norm_num) (by norm_num) (by norm_num) (by norm_num) (by norm_num)
      (by norm_num) (by norm_num) (if_neg (by norm_num)) ⟨rfl, rfl, rfl, rfl, fun _ => ⟨rfl, rfl⟩⟩
      (by simp)⟩
  obtain ⟨f, l, hf, hd⟩ := C22_outside s hs
  rw [hv] at hf hd
  have h1 : ∀ x, s.forward [[x]] false = .ok ([f 0 x], [l 0 x]) := by
    intro x
    simpa [rowsOf, flatTensor] using hf 1 fun _ _ => x
  unfold RQSpline.create at hc
  rw [if_neg (by norm_num)] at hc
  have ho : s.outHi = 6 / 11 := by
    simp only [Except.ok.injEq] at hc; rw [← hc]; norm_num
  have hhi : s.hiIn = 5.5 := by
    simp only [Except.ok.injEq] at hc; rw [← hc]
  have h2 := h s hs (f 0) (l 0) h1 6
  obtain ⟨e, hd6⟩ := (hd 0 (by norm_num)).2 6 (by rw [hhi]; norm_num)
  rw [e, Real.exp_zero] at h2
  have := h2.unique hd6
  rw [ho] at this
  norm_num at this

end Irt
