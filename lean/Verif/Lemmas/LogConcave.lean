import Verif.Spec.ScoreSearch
import Verif.Lemmas.LogitModel
import Verif.Lemmas.Density
import Verif.Props.ScoreOrder
import Mathlib.Analysis.Convex.SpecificFunctions.Basic
import Mathlib.Analysis.Convex.Deriv
import Mathlib.Analysis.Convex.Extrema
import Mathlib.Analysis.Calculus.Deriv.Comp

/-!
# Log-concave likelihoods
-/

namespace Irt

open Finset

/-! ## The logarithm of a sum of exponentials -/

theorem log_sum_exp_le (s : Finset ℕ) (hs : s.Nonempty) (x y : ℕ → ℝ) (a b : ℝ) (ha : 0 ≤ a) (hb : 0 ≤ b) (hab : a + b = 1) :
    Real.log (∑ i ∈ s, Real.exp (a * x i + b * y i))
      ≤ a * Real.log (∑ i ∈ s, Real.exp (x i)) + b * Real.log (∑ i ∈ s, Real.exp (y i)) := by
  have hX : 0 < ∑ i ∈ s, Real.exp (x i) := sum_pos (fun _ _ => Real.exp_pos _) hs
  have hY : 0 < ∑ i ∈ s, Real.exp (y i) := sum_pos (fun _ _ => Real.exp_pos _) hs
  have hZ : 0 < ∑ i ∈ s, Real.exp (a * x i + b * y i) := sum_pos (fun _ _ => Real.exp_pos _) hs
  rw [← Real.log_exp (a * _ + b * _)]
  refine Real.log_le_log hZ ?_
  set X := Real.log (∑ i ∈ s, Real.exp (x i)) with hXd
  set Y := Real.log (∑ i ∈ s, Real.exp (y i)) with hYd
  have key : ∑ i ∈ s, Real.exp (a * (x i - X) + b * (y i - Y)) ≤ 1 := by
    calc ∑ i ∈ s, Real.exp (a * (x i - X) + b * (y i - Y))
        ≤ ∑ i ∈ s, (a * Real.exp (x i - X) + b * Real.exp (y i - Y)) :=
          sum_le_sum fun i _ => convexOn_exp.2 (Set.mem_univ _) (Set.mem_univ _) ha hb hab
      _ = 1 := by
          rw [sum_add_distrib, ← mul_sum, ← mul_sum]
          simp only [Real.exp_sub, ← sum_div]
          rw [hXd, hYd, Real.exp_log hX, Real.exp_log hY, div_self hX.ne', div_self hY.ne']
          linarith
  have e : ∀ i, Real.exp (a * x i + b * y i) = Real.exp (a * (x i - X) + b * (y i - Y)) * Real.exp (a * X + b * Y) := by
    intro i
    rw [← Real.exp_add]; congr 1; ring
  rw [sum_congr rfl fun i _ => e i, ← sum_mul]
  exact mul_le_of_le_one_left (Real.exp_pos _).le key

theorem log_sum_exp_lt (s : Finset ℕ) (x y : ℕ → ℝ) (a b : ℝ) (ha : 0 < a) (hb : 0 < b) (hab : a + b = 1)
    (i j : ℕ) (hi : i ∈ s) (hj : j ∈ s) (hij : x i - y i ≠ x j - y j) :
    Real.log (∑ i ∈ s, Real.exp (a * x i + b * y i))
      < a * Real.log (∑ i ∈ s, Real.exp (x i)) + b * Real.log (∑ i ∈ s, Real.exp (y i)) := by
  have hs : s.Nonempty := ⟨i, hi⟩
  have hX : 0 < ∑ i ∈ s, Real.exp (x i) := sum_pos (fun _ _ => Real.exp_pos _) hs
  have hY : 0 < ∑ i ∈ s, Real.exp (y i) := sum_pos (fun _ _ => Real.exp_pos _) hs
  have hZ : 0 < ∑ i ∈ s, Real.exp (a * x i + b * y i) := sum_pos (fun _ _ => Real.exp_pos _) hs
  rw [← Real.log_exp (a * _ + b * _)]
  refine Real.log_lt_log hZ ?_
  set X := Real.log (∑ i ∈ s, Real.exp (x i)) with hXd
  set Y := Real.log (∑ i ∈ s, Real.exp (y i)) with hYd
  obtain ⟨k, hk, hkne⟩ : ∃ k ∈ s, x k - X ≠ y k - Y := by
    by_contra hall
    push Not at hall
    have h1 := hall i hi
    have h2 := hall j hj
    exact hij (by linarith)
  have key : ∑ i ∈ s, Real.exp (a * (x i - X) + b * (y i - Y)) < 1 := by
    calc ∑ i ∈ s, Real.exp (a * (x i - X) + b * (y i - Y))
        < ∑ i ∈ s, (a * Real.exp (x i - X) + b * Real.exp (y i - Y)) :=
          sum_lt_sum (fun i _ => convexOn_exp.2 (Set.mem_univ _) (Set.mem_univ _) ha.le hb.le hab)
            ⟨k, hk, strictConvexOn_exp.2 (Set.mem_univ _) (Set.mem_univ _) hkne ha hb hab⟩
      _ = 1 := by
          rw [sum_add_distrib, ← mul_sum, ← mul_sum]
          simp only [Real.exp_sub, ← sum_div]
          rw [hXd, hYd, Real.exp_log hX, Real.exp_log hY, div_self hX.ne', div_self hY.ne']
          linarith
  have e : ∀ i, Real.exp (a * x i + b * y i) = Real.exp (a * (x i - X) + b * (y i - Y)) * Real.exp (a * X + b * Y) := by
    intro i
    rw [← Real.exp_add]; congr 1; ring
  rw [sum_congr rfl fun i _ => e i, ← sum_mul]
  exact mul_lt_of_lt_one_left (Real.exp_pos _) key

/-! ## Multinomial logit models -/

section Logit

variable {d : ℕ} {cats : List ℕ} {P : (Fin d → ℝ) → ℕ → ℕ → ℝ} {A : ℕ → ℕ → Fin d → ℝ} {B : ℕ → ℕ → ℝ}

theorem affine_comb (w : Fin d → ℝ) (u : ℝ) (x y : Fin d → ℝ) (a b : ℝ) (hab : a + b = 1) :
    ∑ k, w k * (a • x + b • y) k + u = a * (∑ k, w k * x k + u) + b * (∑ k, w k * y k + u) := by
  have : ∑ k, w k * (a • x + b • y) k = a * ∑ k, w k * x k + b * ∑ k, w k * y k := by
    rw [mul_sum, mul_sum, ← sum_add_distrib]
    exact sum_congr rfl fun k _ => by simp only [Pi.add_apply, Pi.smul_apply, smul_eq_mul]; ring
  rw [this]
  linear_combination (-u) * hab

theorem LogitModel.log_eq (h : LogitModel cats P A B) (θ : Fin d → ℝ) (j c r : ℕ) (hc : cats[j]? = some c) (hr : r < c) :
    Real.log (P θ j r) = (∑ k, A j r k * θ k + B j r) - Real.log (∑ s ∈ range c, Real.exp (∑ k, A j s k * θ k + B j s)) := by
  have hZ : 0 < ∑ s ∈ range c, Real.exp (∑ k, A j s k * θ k + B j s) :=
    sum_pos (fun _ _ => Real.exp_pos _) ⟨r, mem_range.2 hr⟩
  rw [h θ j c r hc hr, Real.log_div (Real.exp_pos _).ne' hZ.ne', Real.log_exp]

theorem LogitModel.logConcave (h : LogitModel cats P A B) : LogConcaveModel cats P where
  pos θ j c r hc hr := h.pos θ j c r hc hr
  le_one θ j c r hc hr := by
    rw [← h.sum_one θ j c hc (by omega)]
    exact single_le_sum (f := fun r => P θ j r) (fun s hs => (h.pos θ j c s hc (mem_range.1 hs)).le) (mem_range.2 hr)
  continuous j c r hc hr := by
    have e : (fun θ => P θ j r) = fun θ => Real.exp (∑ k, A j r k * θ k + B j r)
        / ∑ s ∈ range c, Real.exp (∑ k, A j s k * θ k + B j s) := by
      funext θ; exact h θ j c r hc hr
    rw [e]
    refine Continuous.div (by fun_prop) (by fun_prop) fun θ => ?_
    exact (sum_pos (fun _ _ => Real.exp_pos _) ⟨r, mem_range.2 hr⟩).ne'
  concave j c r hc hr := by
    refine ⟨convex_univ, fun x _ y _ a b ha hb hab => ?_⟩
    dsimp only
    rw [h.log_eq _ j c r hc hr, h.log_eq _ j c r hc hr, h.log_eq _ j c r hc hr]
    simp only [affine_comb _ _ x y a b hab]
    have := log_sum_exp_le (range c) ⟨r, mem_range.2 hr⟩ (fun s => ∑ k, A j s k * x k + B j s)
      (fun s => ∑ k, A j s k * y k + B j s) a b ha hb hab
    simp only [smul_eq_mul]
    linarith

end Logit

/-! ## The graded response model -/

theorem log_sigmoid_comb (x y a b : ℝ) (ha : 0 ≤ a) (hb : 0 ≤ b) (hab : a + b = 1) :
    a * Real.log (sigmoid x) + b * Real.log (sigmoid y) ≤ Real.log (sigmoid (a * x + b * y)) ∧
    a * Real.log (1 - sigmoid x) + b * Real.log (1 - sigmoid y) ≤ Real.log (1 - sigmoid (a * x + b * y)) := by
  have e1 : ∀ z : ℝ, Real.log (sigmoid z) = z - Real.log (1 + Real.exp z) := fun z => by
    rw [sigmoid_eq, Real.log_div (Real.exp_pos _).ne' (by positivity), Real.log_exp]
  have e2 : ∀ z : ℝ, Real.log (1 - sigmoid z) = - Real.log (1 + Real.exp z) := fun z => by
    have : 1 - sigmoid z = (1 + Real.exp z)⁻¹ := by
      rw [sigmoid_eq]; field_simp; ring
    rw [this, Real.log_inv]
  have key := log_sum_exp_le (range 2) ⟨0, by simp⟩ (fun i => i * x) (fun i => i * y) a b ha hb hab
  simp only [sum_range_succ, sum_range_zero, zero_add, Nat.cast_zero, Nat.cast_one, zero_mul, one_mul, mul_zero,
    Real.exp_zero] at key
  simp only [e1, e2]
  constructor <;> linarith

theorem GRM.logConcave (m : GRM) (hord : m.Ordered) (d : ℕ) :
    LogConcaveModel m.cats fun θ : Fin d → ℝ => tableProb (m.probs (List.ofFn θ)) := by
  have factor : ∀ j c r : ℕ, m.cats[j]? = some c → r < c → ∃ (w : Fin d → ℝ) (dl : ℕ → ℝ) (K : ℝ), 0 < K ∧
      ∀ θ : Fin d → ℝ, tableProb (m.probs (List.ofFn θ)) j r
        = K * (grmGeq c (∑ k, w k * θ k + 0) dl r * (1 - grmGeq c (∑ k, w k * θ k + 0) dl (r + 1))) ∧
        tableProb (m.probs (List.ofFn θ)) j r
        = grmGeq c (∑ k, w k * θ k + 0) dl r - grmGeq c (∑ k, w k * θ k + 0) dl (r + 1) := by
    intro j c r hc hr
    have hcM : c ≤ m.M := le_maxCats _ _ (List.mem_of_getElem? hc)
    obtain ⟨w, dl, hp, h⟩ := m.row d j c hc
    obtain ⟨K, hK, hf⟩ := grm_factor c (fun k => dl.getD (k - 1) 0) r hr (by
      intro k hk hkc
      obtain ⟨k, rfl⟩ := Nat.exists_eq_add_of_lt hk
      have := hord j c w dl hc hp k (by omega)
      simpa using this)
    refine ⟨fun k => w.getD k 0, fun k => dl.getD (k - 1) 0, K, hK, fun θ => ?_⟩
    have e : ∑ k : Fin d, w.getD k 0 * θ k + 0 = ∑ k : Fin d, θ k * w.getD k 0 := by
      rw [add_zero]; exact sum_congr rfl fun k _ => mul_comm _ _
    rw [e, ← hf, h θ r (by omega)]
    exact ⟨rfl, rfl⟩
  have geq0 : ∀ (c : ℕ) (η : ℝ) (dl : ℕ → ℝ) (r : ℕ), 0 ≤ grmGeq c η dl r ∧ grmGeq c η dl r ≤ 1 := by
    intro c η dl r
    unfold grmGeq
    split
    · norm_num
    · split
      · exact ⟨(sigmoid_pos _).le, (sigmoid_lt_one _).le⟩
      · norm_num
  refine ⟨fun θ j c r hc hr => ?_, fun θ j c r hc hr => ?_, fun j c r hc hr => ?_, fun j c r hc hr => ?_⟩
  · obtain ⟨w, dl, K, hK, h⟩ := factor j c r hc hr
    rw [(h θ).1]
    obtain ⟨h1, h2⟩ := grm_pos c dl (∑ k, w k * θ k + 0) r hr
    positivity
  · obtain ⟨w, dl, K, hK, h⟩ := factor j c r hc hr
    rw [(h θ).2]
    have h1 := (geq0 c (∑ k, w k * θ k + 0) dl r).2
    have h2 := (geq0 c (∑ k, w k * θ k + 0) dl (r + 1)).1
    linarith
  · obtain ⟨w, dl, K, hK, h⟩ := factor j c r hc hr
    have e : (fun θ : Fin d → ℝ => tableProb (m.probs (List.ofFn θ)) j r)
      = fun θ => grmGeq c (∑ k, w k * θ k + 0) dl r - grmGeq c (∑ k, w k * θ k + 0) dl (r + 1) := funext fun θ => (h θ).2
    rw [e]
    have hg : ∀ r, Continuous fun θ : Fin d → ℝ => grmGeq c (∑ k, w k * θ k + 0) dl r := by
      intro r
      unfold grmGeq
      split
      · exact continuous_const
      · split
        · have hs : Continuous sigmoid := by
            unfold sigmoid
            exact continuous_const.div (by fun_prop) fun x => by positivity
          exact hs.comp (by fun_prop)
        · exact continuous_const
    exact (hg r).sub (hg (r + 1))
  · obtain ⟨w, dl, K, hK, h⟩ := factor j c r hc hr
    refine ⟨convex_univ, fun x _ y _ a b ha hb hab => ?_⟩
    have elog : ∀ θ : Fin d → ℝ, Real.log (tableProb (m.probs (List.ofFn θ)) j r)
        = Real.log K + (Real.log (grmGeq c (∑ k, w k * θ k + 0) dl r)
          + Real.log (1 - grmGeq c (∑ k, w k * θ k + 0) dl (r + 1))) := by
      intro θ
      obtain ⟨h1, h2⟩ := grm_pos c dl (∑ k, w k * θ k + 0) r hr
      rw [(h θ).1, Real.log_mul hK.ne' (mul_pos h1 h2).ne', Real.log_mul h1.ne' h2.ne']
    simp only [elog, smul_eq_mul, affine_comb _ _ x y a b hab]
    have hb' : b = 1 - a := by linarith
    have shift : ∀ u v t : ℝ, a * u + b * v + t = a * (u + t) + b * (v + t) := fun u v t => by
      linear_combination (-t) * hab
    have k1 : ∀ u v : ℝ, a * Real.log (grmGeq c u dl r) + b * Real.log (grmGeq c v dl r)
        ≤ Real.log (grmGeq c (a * u + b * v) dl r) := by
      intro u v
      by_cases h0 : r = 0
      · simp [grmGeq, h0]
      · simp only [grmGeq, h0, hr, if_true, if_false]
        rw [shift]
        exact (log_sigmoid_comb _ _ a b ha hb hab).1
    have k2 : ∀ u v : ℝ, a * Real.log (1 - grmGeq c u dl (r + 1)) + b * Real.log (1 - grmGeq c v dl (r + 1))
        ≤ Real.log (1 - grmGeq c (a * u + b * v) dl (r + 1)) := by
      intro u v
      by_cases hl : r + 1 < c
      · simp only [grmGeq, hl, if_true, if_false, Nat.add_eq_zero_iff, one_ne_zero, and_false]
        rw [shift]
        exact (log_sigmoid_comb _ _ a b ha hb hab).2
      · simp [grmGeq, hl]
    have := k1 (∑ k, w k * x k + 0) (∑ k, w k * y k + 0)
    have := k2 (∑ k, w k * x k + 0) (∑ k, w k * y k + 0)
    have e : a * Real.log K + b * Real.log K = Real.log K := by rw [← add_mul, hab, one_mul]
    linarith

/-! ## The weight of a respondent -/

section Row

variable {d : ℕ} {cats : List ℕ} {P : (Fin d → ℝ) → ℕ → ℕ → ℝ}

theorem LogConcaveModel.cell_pos (h : LogConcaveModel cats P) (row : ℕ → Cell) (hrow : ValidResponses cats row) (θ : Fin d → ℝ)
    (j : ℕ) (hj : j < cats.length) : 0 < (if cellMissing (row j) then 1 else P θ j (responseOf (row j))) ∧
      (if cellMissing (row j) then 1 else P θ j (responseOf (row j))) ≤ 1 := by
  obtain ⟨c, hc⟩ := getElem?_of_lt cats j hj
  cases hm : cellMissing (row j) with
  | true => simp
  | false =>
    simp only [Bool.false_eq_true, if_false]
    exact ⟨h.pos θ j c _ hc (observed_lt cats row hrow j c hc hm), h.le_one θ j c _ hc (observed_lt cats row hrow j c hc hm)⟩

theorem LogConcaveModel.likelihood_pos (h : LogConcaveModel cats P) (row : ℕ → Cell) (hrow : ValidResponses cats row)
    (θ : Fin d → ℝ) : 0 < observedLikelihood P cats.length row θ :=
  prod_pos fun j hj => (h.cell_pos row hrow θ j (mem_range.1 hj)).1

theorem LogConcaveModel.likelihood_le_one (h : LogConcaveModel cats P) (row : ℕ → Cell) (hrow : ValidResponses cats row)
    (θ : Fin d → ℝ) : observedLikelihood P cats.length row θ ≤ 1 :=
  prod_le_one (fun j hj => (h.cell_pos row hrow θ j (mem_range.1 hj)).1.le)
    fun j hj => (h.cell_pos row hrow θ j (mem_range.1 hj)).2

theorem LogConcaveModel.likelihood_continuous (h : LogConcaveModel cats P) (row : ℕ → Cell) (hrow : ValidResponses cats row) :
    Continuous fun θ => observedLikelihood P cats.length row θ := by
  refine continuous_finsetProd _ fun j hj => ?_
  obtain ⟨c, hc⟩ := getElem?_of_lt cats j (mem_range.1 hj)
  cases hm : cellMissing (row j) with
  | true => simpa using continuous_const
  | false =>
    simp only [Bool.false_eq_true, if_false]
    exact h.continuous j c _ hc (observed_lt cats row hrow j c hc hm)

theorem LogConcaveModel.log_likelihood (h : LogConcaveModel cats P) (row : ℕ → Cell) (hrow : ValidResponses cats row)
    (θ : Fin d → ℝ) : Real.log (observedLikelihood P cats.length row θ)
      = ∑ j ∈ range cats.length, if cellMissing (row j) then 0 else Real.log (P θ j (responseOf (row j))) := by
  rw [observedLikelihood, Real.log_prod fun j hj => (h.cell_pos row hrow θ j (mem_range.1 hj)).1.ne']
  exact sum_congr rfl fun j _ => by cases cellMissing (row j) <;> simp

theorem LogConcaveModel.likelihood_concave (h : LogConcaveModel cats P) (row : ℕ → Cell) (hrow : ValidResponses cats row) :
    ConcaveOn ℝ Set.univ fun θ => Real.log (observedLikelihood P cats.length row θ) := by
  refine ⟨convex_univ, fun x _ y _ a b ha hb hab => ?_⟩
  simp only [h.log_likelihood row hrow, smul_eq_mul, mul_sum]
  rw [← sum_add_distrib]
  refine sum_le_sum fun j hj => ?_
  obtain ⟨c, hc⟩ := getElem?_of_lt cats j (mem_range.1 hj)
  cases hm : cellMissing (row j) with
  | true => simp
  | false =>
    simp only [Bool.false_eq_true, if_false]
    exact (h.concave j c _ hc (observed_lt cats row hrow j c hc hm)).2 (Set.mem_univ _) (Set.mem_univ _) ha hb hab

end Row

/-! ## The normal density -/

theorem mvn_strictConcave {d : ℕ} (cov : Matrix (Fin d) (Fin d) ℝ) (h : cov.PosDef) :
    StrictConcaveOn ℝ Set.univ (mvnLogDensity 0 cov) := by
  obtain ⟨C, hC0, -, hq⟩ := mvn_factor cov h
  have hinj : ∀ x y : Fin d → ℝ, (C.transpose)⁻¹.mulVec x = (C.transpose)⁻¹.mulVec y → x = y := by
    intro x y hxy
    have hu : IsUnit (C.transpose).det := by rw [Matrix.det_transpose]; exact hC0.isUnit
    have := congrArg (C.transpose).mulVec hxy
    simpa [Matrix.mulVec_mulVec, Matrix.mul_nonsing_inv _ hu] using this
  refine ⟨convex_univ, fun x _ y _ hxy a b ha hb hab => ?_⟩
  simp only [mvnLogDensity, sub_zero, hq]
  simp only [smul_eq_mul, Matrix.mulVec_add, Matrix.mulVec_smul, Pi.add_apply, Pi.smul_apply]
  set X := (C.transpose)⁻¹.mulVec x with hX
  set Y := (C.transpose)⁻¹.mulVec y with hY
  have hne : X ≠ Y := fun he => hxy (hinj x y he)
  have key : ∑ k, (a * X k + b * Y k) ^ 2 < a * ∑ k, X k ^ 2 + b * ∑ k, Y k ^ 2 := by
    rw [mul_sum, mul_sum, ← sum_add_distrib]
    have e : ∀ k, a * X k ^ 2 + b * Y k ^ 2 - (a * X k + b * Y k) ^ 2 = a * b * (X k - Y k) ^ 2 := by
      intro k
      have hb' : b = 1 - a := by linarith
      rw [hb']; ring
    obtain ⟨k, hk⟩ : ∃ k, X k ≠ Y k := by
      by_contra hall
      push Not at hall
      exact hne (funext hall)
    refine sum_lt_sum (fun k _ => ?_) ⟨k, mem_univ k, ?_⟩
    · have := e k
      have : 0 ≤ a * b * (X k - Y k) ^ 2 := by positivity
      linarith
    · have := e k
      have h2 : 0 < (X k - Y k) ^ 2 := by
        have := sub_ne_zero.2 hk
        positivity
      have : 0 < a * b * (X k - Y k) ^ 2 := by positivity
      linarith
  have hb' : b = 1 - a := by linarith
  subst hb'
  nlinarith [key]

theorem mvn_continuous {d : ℕ} (cov : Matrix (Fin d) (Fin d) ℝ) : Continuous (mvnLogDensity 0 cov) := by
  unfold mvnLogDensity
  fun_prop

/-- The density falls below every level outside a compact set. -/
theorem mvn_compact {d : ℕ} (cov : Matrix (Fin d) (Fin d) ℝ) (h : cov.PosDef) (l : ℝ) :
    IsCompact {x : Fin d → ℝ | l ≤ mvnLogDensity 0 cov x} := by
  obtain ⟨C, hC0, -, hq⟩ := mvn_factor cov h
  have hu : IsUnit (C.transpose).det := by rw [Matrix.det_transpose]; exact hC0.isUnit
  let R : ℝ := -2 * (l + 1 / 2 * Real.log cov.det) - d * Real.log (2 * Real.pi)
  have hK : IsCompact {y : Fin d → ℝ | ∑ k, y k ^ 2 ≤ R} := by
    refine Metric.isCompact_of_isClosed_isBounded ?_ ?_
    · exact isClosed_le (by fun_prop) continuous_const
    · refine (Metric.isBounded_closedBall (x := (0 : Fin d → ℝ)) (r := 1 + |R|)).subset fun y hy => ?_
      rw [mem_closedBall_zero_iff, pi_norm_le_iff_of_nonneg (by positivity)]
      intro k
      have h1 : y k ^ 2 ≤ R := (single_le_sum (f := fun k => y k ^ 2) (fun i _ => sq_nonneg _) (mem_univ k)).trans hy
      rw [Real.norm_eq_abs]
      have h2 := sq_abs (y k)
      have h3 := le_abs_self R
      have h4 := abs_nonneg R
      nlinarith [abs_nonneg (y k)]
  have himg := hK.image (f := (C.transpose).mulVec) (by fun_prop)
  refine himg.of_isClosed_subset (isClosed_le continuous_const (mvn_continuous cov)) fun x hx => ?_
  refine ⟨(C.transpose)⁻¹.mulVec x, ?_, by simp [Matrix.mulVec_mulVec, Matrix.mul_nonsing_inv _ hu]⟩
  have hx' : l ≤ mvnLogDensity 0 cov x := hx
  simp only [mvnLogDensity, sub_zero, hq] at hx'
  change ∑ k, ((C.transpose)⁻¹.mulVec x) k ^ 2 ≤ R
  simp only [R]
  linarith

end Irt
