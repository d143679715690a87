import Verif.Props.MmlSymmetry
import Mathlib.Analysis.Complex.ExponentialBounds

/-! # Property C105: what a fit with equal slopes misses -/

namespace Irt
open Spec

/-! ## Mixtures along one dimension -/

/-- Probability that two items with log odds `z` and `z'` are both answered with `x`. -/
noncomputable def bothAnswer (z z' : ℝ) (x : Bool) : ℝ :=
  if x then logistic z * logistic z' else (1 - logistic z) * (1 - logistic z')

theorem bothAnswer_nonneg (z z' : ℝ) (x : Bool) : 0 ≤ bothAnswer z z' x := by
  have h1 := logistic_pos z
  have h2 := logistic_pos z'
  have h3 := logistic_lt_one z
  have h4 := logistic_lt_one z'
  unfold bothAnswer
  split
  · exact (mul_pos h1 h2).le
  · exact mul_nonneg (by linarith) (by linarith)

theorem sqrt_bothAnswer (z z' : ℝ) : Real.sqrt (bothAnswer z z' true) + Real.sqrt (bothAnswer z z' false) ≤ 1 := by
  have amgm : ∀ a b : ℝ, 0 ≤ a → 0 ≤ b → Real.sqrt (a * b) ≤ (a + b) / 2 := by
    intro a b ha hb
    rw [Real.sqrt_le_left (by positivity)]
    nlinarith [sq_nonneg (a - b)]
  have h3 := logistic_lt_one z
  have h4 := logistic_lt_one z'
  have e1 := amgm _ _ (logistic_pos z).le (logistic_pos z').le
  have e2 := amgm (1 - logistic z) (1 - logistic z') (by linarith) (by linarith)
  simp only [bothAnswer, if_true, Bool.false_eq_true, if_false]
  linarith

theorem bothAnswer_order (z z' : ℝ) : bothAnswer z z' false < bothAnswer z z' true ↔ 0 < z + z' := by
  have e1 := Real.exp_pos z
  have e2 := Real.exp_pos z'
  have hd : 0 < (1 + Real.exp z) * (1 + Real.exp z') := by positivity
  have h0 : bothAnswer z z' false = 1 / ((1 + Real.exp z) * (1 + Real.exp z')) := by
    simp only [bothAnswer, Bool.false_eq_true, if_false, logistic]
    field_simp
    ring
  have h1 : bothAnswer z z' true = Real.exp (z + z') / ((1 + Real.exp z) * (1 + Real.exp z')) := by
    simp only [bothAnswer, if_true, logistic, Real.exp_add]
    field_simp
  rw [h0, h1, div_lt_div_iff_of_pos_right hd, Real.one_lt_exp_iff]

theorem bothAnswer_order' (z z' : ℝ) : bothAnswer z z' true < bothAnswer z z' false ↔ z + z' < 0 := by
  have e1 := Real.exp_pos z
  have e2 := Real.exp_pos z'
  have hd : 0 < (1 + Real.exp z) * (1 + Real.exp z') := by positivity
  have h0 : bothAnswer z z' false = 1 / ((1 + Real.exp z) * (1 + Real.exp z')) := by
    simp only [bothAnswer, Bool.false_eq_true, if_false, logistic]
    field_simp
    ring
  have h1 : bothAnswer z z' true = Real.exp (z + z') / ((1 + Real.exp z) * (1 + Real.exp z')) := by
    simp only [bothAnswer, if_true, logistic, Real.exp_add]
    field_simp
  rw [h0, h1, div_lt_div_iff_of_pos_right hd, Real.exp_lt_one_iff]

/-- Two affine functions on a line do not take all four combinations of signs. -/
theorem affine_signs (α β γ δ : ℝ) (s₁ s₂ s₃ s₄ : ℝ) (h1 : 0 < α * s₁ + β) (h1' : 0 < γ * s₁ + δ) (h2 : 0 < α * s₂ + β)
    (h2' : γ * s₂ + δ < 0) (h3 : α * s₃ + β < 0) (h3' : 0 < γ * s₃ + δ) (h4 : α * s₄ + β < 0) (h4' : γ * s₄ + δ < 0) : False := by
  have D : ∀ s, γ * (α * s + β) - α * (γ * s + δ) = γ * β - α * δ := fun s => by ring
  rcases lt_trichotomy α 0 with ha | ha | ha
  · rcases lt_trichotomy γ 0 with hc | hc | hc
    · have e2 := D s₂
      have e3 := D s₃
      nlinarith [mul_pos_of_neg_of_neg hc h3, mul_neg_of_neg_of_pos hc h2, mul_pos_of_neg_of_neg ha h2', mul_neg_of_neg_of_pos ha h3']
    · rw [hc] at h1' h2'; linarith
    · have e1 := D s₁
      have e4 := D s₄
      nlinarith [mul_pos hc h1, mul_neg_of_neg_of_pos ha h1', mul_neg_of_pos_of_neg hc h4, mul_pos_of_neg_of_neg ha h4']
  · rw [ha] at h1 h3; linarith
  · rcases lt_trichotomy γ 0 with hc | hc | hc
    · have e1 := D s₁
      have e4 := D s₄
      nlinarith [mul_neg_of_neg_of_pos hc h1, mul_pos ha h1', mul_pos_of_neg_of_neg hc h4, mul_neg_of_pos_of_neg ha h4']
    · rw [hc] at h1' h2'; linarith
    · have e2 := D s₂
      have e3 := D s₃
      nlinarith [mul_pos hc h2, mul_neg_of_pos_of_neg ha h2', mul_neg_of_pos_of_neg hc h3, mul_pos ha h3']

/-- Log odds of an item along a line: slope times position plus intercept. -/
noncomputable def line (a b s : ℝ) : ℝ := a * s + b

/-- Probability that both items of the first pair are answered `x` and both of the second pair `x'`, at position `s`. -/
noncomputable def pairsAt (a b : ℕ → ℝ) (x x' : Bool) (s : ℝ) : ℝ :=
  bothAnswer (line (a 0) (b 0) s) (line (a 1) (b 1) s) x * bothAnswer (line (a 2) (b 2) s) (line (a 3) (b 3) s) x'

/-- One of the four answer patterns has probability at most 1/4 everywhere on the line. -/
theorem rare_pattern (a b : ℕ → ℝ) : ∃ x x', ∀ s, Real.sqrt (pairsAt a b x x' s) ≤ 1 / 2 := by
  by_contra h
  push Not at h
  have big : ∀ z z' w w' : ℝ, ∀ x x' : Bool, 1 / 2 < Real.sqrt (bothAnswer z z' x * bothAnswer w w' x') →
      bothAnswer z z' (!x) < bothAnswer z z' x ∧ bothAnswer w w' (!x') < bothAnswer w w' x' := by
    intro z z' w w' x x' hb
    rw [Real.sqrt_mul (bothAnswer_nonneg _ _ _)] at hb
    have one : ∀ z z' : ℝ, ∀ x, Real.sqrt (bothAnswer z z' x) + Real.sqrt (bothAnswer z z' (!x)) ≤ 1 := by
      intro z z' x
      have := sqrt_bothAnswer z z'
      cases x
      · simp only [Bool.not_false]; linarith
      · simpa using this
    have key : ∀ p q p' : ℝ, 0 ≤ p → 0 ≤ q → p ≤ 1 → q ≤ 1 → 1 / 2 < p * q → p + p' ≤ 1 → p' < p := by
      intro p q p' hp hq hp1 hq1 hpq hs
      nlinarith
    have le1 : ∀ z z' : ℝ, ∀ x, Real.sqrt (bothAnswer z z' x) ≤ 1 := by
      intro z z' x
      have := one z z' x
      linarith [Real.sqrt_nonneg (bothAnswer z z' (!x))]
    constructor
    · exact (Real.sqrt_lt_sqrt_iff (bothAnswer_nonneg _ _ _)).1
        (key _ _ _ (Real.sqrt_nonneg _) (Real.sqrt_nonneg _) (le1 z z' x) (le1 w w' x') hb (one z z' x))
    · rw [mul_comm] at hb
      exact (Real.sqrt_lt_sqrt_iff (bothAnswer_nonneg _ _ _)).1
        (key _ _ _ (Real.sqrt_nonneg _) (Real.sqrt_nonneg _) (le1 w w' x') (le1 z z' x) hb (one w w' x'))
  obtain ⟨s₁, h1⟩ := h true true
  obtain ⟨s₂, h2⟩ := h true false
  obtain ⟨s₃, h3⟩ := h false true
  obtain ⟨s₄, h4⟩ := h false false
  obtain ⟨g1, g1'⟩ := big _ _ _ _ _ _ h1
  obtain ⟨g2, g2'⟩ := big _ _ _ _ _ _ h2
  obtain ⟨g3, g3'⟩ := big _ _ _ _ _ _ h3
  obtain ⟨g4, g4'⟩ := big _ _ _ _ _ _ h4
  simp only [Bool.not_true, Bool.not_false, bothAnswer_order, bothAnswer_order', line] at g1 g1' g2 g2' g3 g3' g4 g4'
  exact affine_signs (a 0 + a 1) (b 0 + b 1) (a 2 + a 3) (b 2 + b 3) s₁ s₂ s₃ s₄ (by linarith) (by linarith) (by linarith)
    (by linarith) (by linarith) (by linarith) (by linarith) (by linarith)

/-- The four patterns together leave room: their probabilities and twice that of the rare one sum to at most 1. -/
theorem pairs_room (a b : ℕ → ℝ) (x x' : Bool) (hx : ∀ s, Real.sqrt (pairsAt a b x x' s) ≤ 1 / 2) (s : ℝ) :
    pairsAt a b true true s + pairsAt a b true false s + pairsAt a b false true s + pairsAt a b false false s
      + 2 * pairsAt a b x x' s ≤ 1 := by
  set r : Bool → Bool → ℝ := fun u v => Real.sqrt (pairsAt a b u v s) with hr
  have hnn : ∀ u v, 0 ≤ r u v := fun u v => Real.sqrt_nonneg _
  have hp : ∀ u v, 0 ≤ pairsAt a b u v s := fun u v => mul_nonneg (bothAnswer_nonneg _ _ _) (bothAnswer_nonneg _ _ _)
  have hsq : ∀ u v, pairsAt a b u v s = r u v ^ 2 := fun u v => (Real.sq_sqrt (hp u v)).symm
  have hsum : r true true + r true false + r false true + r false false ≤ 1 := by
    have e : ∀ u v, r u v = Real.sqrt (bothAnswer (line (a 0) (b 0) s) (line (a 1) (b 1) s) u)
        * Real.sqrt (bothAnswer (line (a 2) (b 2) s) (line (a 3) (b 3) s) v) :=
      fun u v => Real.sqrt_mul (bothAnswer_nonneg _ _ _) _
    simp only [e]
    have h1 := sqrt_bothAnswer (line (a 0) (b 0) s) (line (a 1) (b 1) s)
    have h2 := sqrt_bothAnswer (line (a 2) (b 2) s) (line (a 3) (b 3) s)
    nlinarith [Real.sqrt_nonneg (bothAnswer (line (a 0) (b 0) s) (line (a 1) (b 1) s) true),
      Real.sqrt_nonneg (bothAnswer (line (a 0) (b 0) s) (line (a 1) (b 1) s) false),
      Real.sqrt_nonneg (bothAnswer (line (a 2) (b 2) s) (line (a 3) (b 3) s) true),
      Real.sqrt_nonneg (bothAnswer (line (a 2) (b 2) s) (line (a 3) (b 3) s) false)]
  have key : ∀ t p q w : ℝ, 0 ≤ t → 0 ≤ p → 0 ≤ q → 0 ≤ w → t ≤ 1 / 2 → t + p + q + w ≤ 1 →
      t ^ 2 + p ^ 2 + q ^ 2 + w ^ 2 + 2 * t ^ 2 ≤ 1 := by
    intro t p q w ht hp hq hw ht2 hs
    have h1 : p ^ 2 + q ^ 2 + w ^ 2 ≤ (p + q + w) ^ 2 := by nlinarith [mul_nonneg hp hq, mul_nonneg hp hw, mul_nonneg hq hw]
    have h2 : (p + q + w) ^ 2 ≤ (1 - t) ^ 2 := by
      apply pow_le_pow_left₀ (by positivity); linarith
    nlinarith [mul_nonneg ht (by linarith : (0 : ℝ) ≤ 1 - 2 * t)]
  have ht := hx s
  have h1 := hnn true true
  have h2 := hnn true false
  have h3 := hnn false true
  have h4 := hnn false false
  simp only [hsq]
  cases x <;> cases x'
  · have := key _ _ _ _ h4 h1 h2 h3 ht (by linarith); linarith
  · have := key _ _ _ _ h3 h1 h2 h4 ht (by linarith); linarith
  · have := key _ _ _ _ h2 h1 h3 h4 ht (by linarith); linarith
  · have := key _ _ _ _ h1 h2 h3 h4 ht (by linarith); linarith

theorem four_product (W A B C D : ℝ) (hA : 0 ≤ A) (hB : 0 ≤ B) (hC : 0 ≤ C) (hD : 0 ≤ D) (h : A + B + C + D + 2 * A ≤ W) :
    A * B * C * D ≤ W ^ 4 / 768 := by
  have h1 : 3 * A * B ≤ ((3 * A + B) / 2) ^ 2 := by nlinarith [sq_nonneg (3 * A - B)]
  have h2 : C * D ≤ ((C + D) / 2) ^ 2 := by nlinarith [sq_nonneg (C - D)]
  have h3 : (3 * A + B) / 2 * ((C + D) / 2) ≤ W ^ 2 / 16 := by
    nlinarith [sq_nonneg (3 * A + B - (C + D)), mul_self_le_mul_self (by positivity : 0 ≤ 3 * A + B + (C + D)) (by linarith : 3 * A + B + (C + D) ≤ W)]
  have h4 : 3 * A * B * (C * D) ≤ ((3 * A + B) / 2 * ((C + D) / 2)) ^ 2 := by
    rw [mul_pow]
    exact mul_le_mul h1 h2 (by positivity) (by positivity)
  have h5 : ((3 * A + B) / 2 * ((C + D) / 2)) ^ 2 ≤ (W ^ 2 / 16) ^ 2 := pow_le_pow_left₀ (by positivity) h3 2
  have : (W ^ 2 / 16) ^ 2 = W ^ 4 / 256 := by ring
  nlinarith

/-! ## Weighted sums over points -/

theorem weighted_nonneg {d : ℕ} (pts : Thetas d) (w : List ℝ) (hw : ∀ v ∈ w, 0 ≤ v) (F : (Fin d → ℝ) → ℝ) (hF : ∀ θ, 0 ≤ F θ) :
    0 ≤ weighted pts w F := by
  unfold weighted
  induction pts generalizing w with
  | nil => simp
  | cons p pts ih =>
    cases w with
    | nil => simp
    | cons a w =>
      rw [List.zipWith_cons_cons, List.sum_cons]
      exact add_nonneg (mul_nonneg (hw a (by simp)) (hF p)) (ih w fun v hv => hw v (by simp [hv]))

theorem weighted_add {d : ℕ} (pts : Thetas d) (w : List ℝ) (F G : (Fin d → ℝ) → ℝ) :
    weighted pts w (fun θ => F θ + G θ) = weighted pts w F + weighted pts w G := by
  unfold weighted
  rw [← sum_zipWith_add]
  simp only [mul_add]

theorem weighted_sub {d : ℕ} (pts : Thetas d) (w : List ℝ) (F G : (Fin d → ℝ) → ℝ) :
    weighted pts w (fun θ => F θ - G θ) = weighted pts w F - weighted pts w G := by
  have := weighted_add pts w (fun θ => F θ - G θ) G
  simp only [sub_add_cancel] at this
  linarith

/-- Mixtures along one dimension give the four patterns together at most a third of the likelihood that four equally likely patterns
have. -/
theorem mixture_bound {d : ℕ} (pts : Thetas d) (w : List ℝ) (hw : ∀ v ∈ w, 0 ≤ v) (s : (Fin d → ℝ) → ℝ) (a b : ℕ → ℝ) :
    weighted pts w (fun θ => pairsAt a b true true (s θ)) * weighted pts w (fun θ => pairsAt a b true false (s θ))
      * weighted pts w (fun θ => pairsAt a b false true (s θ)) * weighted pts w (fun θ => pairsAt a b false false (s θ))
      ≤ weighted pts w (fun _ => 1) ^ 4 / 768 := by
  obtain ⟨x, x', hx⟩ := rare_pattern a b
  have hp : ∀ u v, 0 ≤ weighted pts w (fun θ => pairsAt a b u v (s θ)) := fun u v =>
    weighted_nonneg pts w hw _ fun θ => mul_nonneg (bothAnswer_nonneg _ _ _) (bothAnswer_nonneg _ _ _)
  have hroom : weighted pts w (fun θ => pairsAt a b true true (s θ)) + weighted pts w (fun θ => pairsAt a b true false (s θ))
      + weighted pts w (fun θ => pairsAt a b false true (s θ)) + weighted pts w (fun θ => pairsAt a b false false (s θ))
      + (weighted pts w (fun θ => pairsAt a b x x' (s θ)) + weighted pts w (fun θ => pairsAt a b x x' (s θ)))
      ≤ weighted pts w (fun _ => 1) := by
    rw [← weighted_add, ← weighted_add, ← weighted_add, ← weighted_add, ← weighted_add, ← sub_nonneg, ← weighted_sub]
    refine weighted_nonneg pts w hw _ fun θ => ?_
    have := pairs_room a b x x' hx (s θ)
    linarith
  have h1 := hp true true
  have h2 := hp true false
  have h3 := hp false true
  have h4 := hp false false
  cases x <;> cases x'
  · have := four_product _ _ _ _ _ h4 h1 h2 h3 (le_trans (by linarith) hroom)
    calc _ = _ := by ring
      _ ≤ _ := this
  · have := four_product _ _ _ _ _ h3 h1 h2 h4 (le_trans (by linarith) hroom)
    calc _ = _ := by ring
      _ ≤ _ := this
  · have := four_product _ _ _ _ _ h2 h1 h3 h4 (le_trans (by linarith) hroom)
    calc _ = _ := by ring
      _ ≤ _ := this
  · exact four_product _ _ _ _ _ h1 h2 h3 h4 (le_trans (by linarith) hroom)

/-! ## A data set with two pairs of items -/

/-- Four respondents: both items of the first pair are right for the first two, both items of the second pair for respondents 0
and 2. -/
def exQuadrants (i j : ℕ) : Cell := if j < 2 then some (if i < 2 then 1 else 0) else some (if i % 2 = 0 then 1 else 0)

theorem exQuadrants_valid (i : ℕ) : ValidResponses (List.replicate 4 2) (exQuadrants i) := by
  intro j c hc _
  obtain ⟨_, rfl⟩ := replicate_getElem? _ _ _ _ hc
  unfold exQuadrants
  split
  · by_cases h : i < 2
    · exact ⟨1, by simp [h], by norm_num⟩
    · exact ⟨0, by simp [h], by norm_num⟩
  · by_cases h : i % 2 = 0
    · exact ⟨1, by simp [h], by norm_num⟩
    · exact ⟨0, by simp [h], by norm_num⟩

/-- The likelihood of each of the four respondents under a two parameter logistic model. -/
theorem quadrant_likelihood {d : ℕ} (m : TwoPL) (hwf : m.WF) (a : ℕ → List ℝ) (b : ℕ → ℝ)
    (hp : ∀ j, j < 4 → m.itemParameters[j]? = some (a j, b j)) (θ : Fin d → ℝ) (i : ℕ) (x x' : Bool) (hx : decide (i < 2) = x)
    (hx' : decide (i % 2 = 0) = x') :
    observedLikelihood (fun θ : Fin d → ℝ => tableProb (m.probs (List.ofFn θ))) 4 (exQuadrants i) θ
      = bothAnswer (dot (List.ofFn θ) (a 0) + b 0) (dot (List.ofFn θ) (a 1) + b 1) x
        * bothAnswer (dot (List.ofFn θ) (a 2) + b 2) (dot (List.ofFn θ) (a 3) + b 3) x' := by
  have hf := fun j hj => C03_twoPL_formula m hwf (List.ofFn θ) j (a j) (b j) (hp j hj)
  have h0 := hf 0 (by norm_num)
  have h1 := hf 1 (by norm_num)
  have h2 := hf 2 (by norm_num)
  have h3 := hf 3 (by norm_num)
  subst hx hx'
  by_cases c1 : i < 2 <;> by_cases c2 : i % 2 = 0 <;>
  · simp only [observedLikelihood, Finset.prod_range_succ, Finset.prod_range_zero, one_mul, exQuadrants, tableProb, h0, h1, h2, h3,
      bothAnswer, c1, c2]
    simp [cellMissing, responseOf, mul_assoc]

/-- The four losses added up. -/
theorem four_logs (F : ℕ → ℝ) (hF : ∀ i, 0 < F i) : -∑ i ∈ Finset.range 4, Real.log (F i) = -Real.log (F 0 * F 1 * F 2 * F 3) := by
  rw [Real.log_mul (mul_pos (mul_pos (hF 0) (hF 1)) (hF 2)).ne' (hF 3).ne', Real.log_mul (mul_pos (hF 0) (hF 1)).ne' (hF 2).ne',
    Real.log_mul (hF 0).ne' (hF 1).ne']
  simp [Finset.sum_range_succ]

theorem sum_grid_two (l : List ℝ) (f g : ℝ → ℝ) :
    ((gridProduct l 2).map fun u => f (u 0) * g (u 1)).sum = (l.map f).sum * (l.map g).sum := by
  have h1 : gridProduct l 1 = l.map fun b => Fin.cons b Fin.elim0 := by
    show (l.flatMap fun a => [(Fin.cons a Fin.elim0 : Fin 1 → ℝ)]) = _
    induction l with
    | nil => rfl
    | cons a l ih => rw [List.flatMap_cons, ih]; rfl
  have h2 : gridProduct l 2 = l.flatMap fun a => (gridProduct l 1).map fun v => Fin.cons a v := rfl
  rw [h2, h1, List.flatMap_def, List.map_flatten, List.sum_flatten, List.map_map, List.map_map, ← List.sum_map_mul_right]
  congr 1
  refine List.map_congr_left fun a _ => ?_
  simp only [Function.comp_apply, List.map_map]
  rw [← List.sum_map_mul_left]
  rfl

theorem grid_seven : linspace (-3) 3 7 = [-3, -2, -1, 0, 1, 2, 3] := by
  simp only [linspace, List.range_succ, List.range_zero, List.nil_append, List.map_cons, List.map_nil, List.cons_append]
  norm_num

/-- The points and log weights of the default integration for two latent variables. -/
theorem default_two (hg : ℕ → Except PyErr (List ℝ × List ℝ)) (ch : Matrix (Fin 2) (Fin 2) ℝ → Except PyErr (Matrix (Fin 2) (Fin 2) ℝ)) :
    mmlIntegration hg ch "quasi_mc" none none
      = .ok (gridProduct [-3, -2, -1, 0, 1, 2, 3] 2, (gridProduct [-3, -2, -1, 0, 1, 2, 3] 2).map (mvnLogDensity 0 1)) := by
  have hone : (1 : Matrix (Fin 2) (Fin 2) ℝ).PosDef := Matrix.PosDef.one
  rw [← grid_seven]
  unfold mmlIntegration mmlPoints quasiMc mvnLogProbs
  simp [mmlCovariance, bind_ok, if_pos hone, ← cartesianProd_const, pure, Except.pure]

theorem weighted_two (f g : ℝ → ℝ) :
    weighted (gridProduct [-3, -2, -1, 0, 1, 2, 3] 2)
        (((gridProduct [-3, -2, -1, 0, 1, 2, 3] 2).map (mvnLogDensity 0 (1 : Matrix (Fin 2) (Fin 2) ℝ))).map Real.exp)
        (fun θ => f (θ 0) * g (θ 1))
      = Real.exp (-Real.log (2 * Real.pi))
        * (([-3, -2, -1, 0, 1, 2, 3].map fun t : ℝ => Real.exp (-t ^ 2 / 2) * f t).sum
          * ([-3, -2, -1, 0, 1, 2, 3].map fun t : ℝ => Real.exp (-t ^ 2 / 2) * g t).sum) := by
  rw [← sum_grid_two, ← List.sum_map_mul_left]
  unfold weighted
  rw [List.map_map, List.zipWith_map_right]
  have : ∀ l : Thetas 2, List.zipWith (fun (p : Fin 2 → ℝ) (a : Fin 2 → ℝ) => (Real.exp ∘ mvnLogDensity 0 1) a * (f (p 0) * g (p 1))) l l
      = l.map fun u => Real.exp (mvnLogDensity 0 1 u) * (f (u 0) * g (u 1)) := by
    intro l
    induction l with
    | nil => rfl
    | cons p l ih => rw [List.zipWith_cons_cons, ih]; rfl
  rw [this]
  congr 1
  refine List.map_congr_left fun u _ => ?_
  have hd : mvnLogDensity 0 (1 : Matrix (Fin 2) (Fin 2) ℝ) u = -Real.log (2 * Real.pi) + (-u 0 ^ 2 / 2 + -u 1 ^ 2 / 2) := by
    unfold mvnLogDensity dotProduct
    simp only [sub_zero, inv_one, Matrix.one_mulVec, Matrix.det_one, Real.log_one, Fin.sum_univ_two]
    push_cast
    ring
  rw [hd, Real.exp_add, Real.exp_add]
  ring

/-- The model that uses one latent variable for each pair of items. -/
noncomputable def exTwoPairs : TwoPL := TwoPL.free 4 2 [20, 0, 20, 0, 0, 20, 0, 20] [-10, -10, -10, -10]

theorem exTwoPairs_wf : exTwoPairs.WF := TwoPL.free_wf 4 2 _ _ (by rfl) (by rfl)

theorem exTwoPairs_parameters : ∀ j, j < 4 → exTwoPairs.itemParameters[j]? = some ((if j < 2 then [20, 0] else [0, 20], -10) : List ℝ × ℝ) := by
  intro j hj
  rw [TwoPL.itemParameters, exTwoPairs, TwoPL.free_weights _ _ _ _ (by rfl)]
  interval_cases j <;> simp [viewRows, TwoPL.free]

theorem logistic_ten : 999 / 1000 ≤ logistic 10 := by
  have h2 : (2 : ℝ) ^ 10 ≤ Real.exp 1 ^ 10 := pow_le_pow_left₀ (by norm_num) (by linarith [Real.add_one_le_exp (1 : ℝ)]) 10
  have h3 : Real.exp 10 = Real.exp 1 ^ 10 := by rw [← Real.exp_nat_mul]; norm_num
  have : (1024 : ℝ) ≤ Real.exp 10 := by rw [h3]; linarith [show (2 : ℝ) ^ 10 = 1024 by norm_num]
  unfold logistic
  rw [div_le_div_iff₀ (by norm_num) (by linarith)]
  linarith

/-- The sums of the grid weights with which the two pairs are answered right and wrong. -/
theorem pair_masses :
    (96 / 10 : ℝ) * ([-3, -2, -1, 0, 1, 2, 3].map fun t : ℝ => Real.exp (-t ^ 2 / 2) * 1).sum ^ 2 <
      49 * (([-3, -2, -1, 0, 1, 2, 3].map fun t : ℝ => Real.exp (-t ^ 2 / 2) * bothAnswer (20 * t - 10) (20 * t - 10) true).sum
        * ([-3, -2, -1, 0, 1, 2, 3].map fun t : ℝ => Real.exp (-t ^ 2 / 2) * bothAnswer (20 * t - 10) (20 * t - 10) false).sum) := by
  set s := (999 / 1000 : ℝ) with hs
  have hup : ∀ t : ℝ, 1 ≤ t → s ^ 2 ≤ bothAnswer (20 * t - 10) (20 * t - 10) true := by
    intro t ht
    have h1 : s ≤ logistic (20 * t - 10) := logistic_ten.trans (logistic_strictMono.monotone (by linarith))
    simp only [bothAnswer, if_true, ← sq]
    exact pow_le_pow_left₀ (by rw [hs]; norm_num) h1 2
  have hdown : ∀ t : ℝ, t ≤ 0 → s ^ 2 ≤ bothAnswer (20 * t - 10) (20 * t - 10) false := by
    intro t ht
    have h1 : s ≤ logistic (-(20 * t - 10)) := logistic_ten.trans (logistic_strictMono.monotone (by linarith))
    have h2 : 1 - logistic (20 * t - 10) = logistic (-(20 * t - 10)) := by
      unfold logistic
      rw [Real.exp_neg]
      have := Real.exp_pos (20 * t - 10)
      field_simp
      ring
    simp only [bothAnswer, Bool.false_eq_true, if_false, h2, ← sq]
    exact pow_le_pow_left₀ (by rw [hs]; norm_num) h1 2
  have hnn := fun t x => bothAnswer_nonneg (20 * t - 10) (20 * t - 10) x
  have he := fun t : ℝ => Real.exp_pos (-t ^ 2 / 2)
  set T : ℝ := Real.exp (-1 ^ 2 / 2) + Real.exp (-2 ^ 2 / 2) + Real.exp (-3 ^ 2 / 2) with hT
  have hA1 : s ^ 2 * T
      ≤ ([-3, -2, -1, 0, 1, 2, 3].map fun t : ℝ => Real.exp (-t ^ 2 / 2) * bothAnswer (20 * t - 10) (20 * t - 10) true).sum := by
    simp only [List.map_cons, List.map_nil, List.sum_cons, List.sum_nil, add_zero]
    have e1 := mul_le_mul_of_nonneg_left (hup 1 (by norm_num)) (he 1).le
    have e2 := mul_le_mul_of_nonneg_left (hup 2 (by norm_num)) (he 2).le
    have e3 := mul_le_mul_of_nonneg_left (hup 3 (by norm_num)) (he 3).le
    have f0 := mul_nonneg (he 0).le (hnn 0 true)
    have f1 := mul_nonneg (he (-1)).le (hnn (-1) true)
    have f2 := mul_nonneg (he (-2)).le (hnn (-2) true)
    have f3 := mul_nonneg (he (-3)).le (hnn (-3) true)
    rw [hT]
    linarith
  have hneg : ∀ t : ℝ, Real.exp (-(-t) ^ 2 / 2) = Real.exp (-t ^ 2 / 2) := fun t => by rw [neg_sq]
  have hzero : Real.exp (-(0 : ℝ) ^ 2 / 2) = 1 := by norm_num
  have hA0 : s ^ 2 * (1 + T)
      ≤ ([-3, -2, -1, 0, 1, 2, 3].map fun t : ℝ => Real.exp (-t ^ 2 / 2) * bothAnswer (20 * t - 10) (20 * t - 10) false).sum := by
    simp only [List.map_cons, List.map_nil, List.sum_cons, List.sum_nil, add_zero]
    have e0 := mul_le_mul_of_nonneg_left (hdown 0 (by norm_num)) (he 0).le
    have e1 := mul_le_mul_of_nonneg_left (hdown (-1) (by norm_num)) (he (-1)).le
    have e2 := mul_le_mul_of_nonneg_left (hdown (-2) (by norm_num)) (he (-2)).le
    have e3 := mul_le_mul_of_nonneg_left (hdown (-3) (by norm_num)) (he (-3)).le
    have f1 := mul_nonneg (he 1).le (hnn 1 false)
    have f2 := mul_nonneg (he 2).le (hnn 2 false)
    have f3 := mul_nonneg (he 3).le (hnn 3 false)
    rw [hneg] at e1 e2 e3 ⊢
    rw [hneg, hneg, hT]
    rw [hzero] at e0 ⊢
    refine le_trans (le_of_eq ?_) (add_le_add e3 (add_le_add e2 (add_le_add e1 (add_le_add e0 (add_nonneg f1 (add_nonneg f2 f3))))))
    ring
  have hS : ([-3, -2, -1, 0, 1, 2, 3].map fun t : ℝ => Real.exp (-t ^ 2 / 2) * 1).sum = 1 + 2 * T := by
    simp only [List.map_cons, List.map_nil, List.sum_cons, List.sum_nil, add_zero, mul_one]
    rw [hneg, hneg, hneg, hzero, hT]
    ring
  have hT6 : (6 / 10 : ℝ) ≤ T := by
    have h1 : Real.exp (1 / 2) ^ 2 = Real.exp 1 := by rw [← Real.exp_nat_mul]; norm_num
    have h2 : Real.exp (1 / 2) ≤ 5 / 3 := by
      have := Real.exp_one_lt_d9
      have h3 := Real.exp_pos (1 / 2)
      nlinarith
    have h3 : Real.exp (-1 ^ 2 / 2) = (Real.exp (1 / 2))⁻¹ := by rw [← Real.exp_neg]; norm_num
    have h4 : (6 / 10 : ℝ) ≤ Real.exp (-1 ^ 2 / 2) := by
      rw [h3, le_inv_comm₀ (by norm_num) (Real.exp_pos _)]
      linarith
    have := he 2
    have := he 3
    rw [hT]; linarith
  rw [hS]
  have hprod := mul_le_mul hA1 hA0 (by positivity) (le_trans (by positivity) hA1)
  have hring : s ^ 2 * T * (s ^ 2 * (1 + T)) = s ^ 4 * (T * (1 + T)) := by ring
  rw [hring] at hprod
  have hs4 : (996 / 1000 : ℝ) ≤ s ^ 4 := by rw [hs]; norm_num
  have : (996 / 1000 : ℝ) * (T * (1 + T)) ≤ s ^ 4 * (T * (1 + T)) := mul_le_mul_of_nonneg_right hs4 (by positivity)
  nlinarith

theorem weighted_pos {d : ℕ} (pts : Thetas d) (w : List ℝ) (hlen : w.length = pts.length) (hne : pts ≠ []) (hw : ∀ v ∈ w, 0 < v)
    (F : (Fin d → ℝ) → ℝ) (hF : ∀ θ, 0 < F θ) : 0 < weighted pts w F := by
  cases pts with
  | nil => exact absurd rfl hne
  | cons p pts =>
    cases w with
    | nil => simp at hlen
    | cons a w =>
      have h := weighted_nonneg pts w (fun v hv => (hw v (by simp [hv])).le) F fun θ => (hF θ).le
      unfold weighted at h ⊢
      rw [List.zipWith_cons_cons, List.sum_cons]
      exact add_pos_of_pos_of_nonneg (mul_pos (hw a (by simp)) (hF p)) h

/-- C105: for the four respondents above, with the default integration for two latent variables, some parameters of the two parameter
logistic model have a loss that no fit comes near, whatever the optimiser, the learning rate and the number of epochs: every fitted
model's loss is larger by a fixed amount. -/
theorem C105_never_best : ∃ (pts : Thetas 2) (lw : List ℝ) (best : TwoPL) (x₀ ε : ℝ),
    best.WF ∧ best.items = 4 ∧ best.lv = 2 ∧ best.rel = List.replicate 4 (List.replicate 2 true) ∧
    (∀ hg ch, mmlIntegration hg ch "quasi_mc" none none = .ok (pts, lw)) ∧
    mmlLoss (best.scorer 2) (rowsOf 4 4 exQuadrants) pts lw = .ok (some x₀) ∧ 0 < ε ∧
    ∀ {A : Type} (S : MmlSettings 2 A), S.method = "quasi_mc" → S.points = none →
      ∃ m x, TwoPL.fitMml S 4 (rowsOf 4 4 exQuadrants) = .ok m ∧
        mmlLoss (m.scorer 2) (rowsOf 4 4 exQuadrants) pts lw = .ok (some x) ∧ x₀ + ε ≤ x := by
  set g : List ℝ := [-3, -2, -1, 0, 1, 2, 3] with hg
  set pts : Thetas 2 := gridProduct g 2 with hpts
  set lw := pts.map (mvnLogDensity 0 (1 : Matrix (Fin 2) (Fin 2) ℝ)) with hlw
  have hne : pts ≠ [] := by simp [hpts, hg, gridProduct]
  have hlen : lw.length = pts.length := by rw [hlw, List.length_map]
  have hlen' : (lw.map Real.exp).length = pts.length := by rw [List.length_map, hlen]
  have hwpos : ∀ v ∈ lw.map Real.exp, 0 < v := by
    intro v hv
    obtain ⟨u, _, rfl⟩ := List.mem_map.1 hv
    exact Real.exp_pos u
  have hobs : ∀ m : TwoPL, m.WF → m.items = 4 → ∀ i,
      0 < weighted pts (lw.map Real.exp) (observedLikelihood (fun θ : Fin 2 → ℝ => tableProb (m.probs (List.ofFn θ))) 4 (exQuadrants i)) := by
    intro m hwf hi i
    refine weighted_pos pts _ hlen' hne hwpos _ fun θ => ?_
    have h := observedLikelihood_pos (m.positive hwf 2) (exQuadrants i) (by rw [hi]; exact exQuadrants_valid i) θ
    rwa [hi, List.length_replicate] at h
  have hloss : ∀ m : TwoPL, m.WF → m.items = 4 → mmlLoss (m.scorer 2) (rowsOf 4 4 exQuadrants) pts lw
      = .ok (some (-∑ i ∈ Finset.range 4, Real.log (weighted pts (lw.map Real.exp)
          (observedLikelihood (fun θ : Fin 2 → ℝ => tableProb (m.probs (List.ofFn θ))) 4 (exQuadrants i))))) := by
    intro m hwf hi
    have h := mmlLoss_weighted (m.isScorer hwf (by omega) 2) (m.positive hwf 2) 4 exQuadrants
      (fun i _ => by rw [hi]; exact exQuadrants_valid i) pts lw hlen hne
    rwa [hi, List.length_replicate] at h
  set W := weighted pts (lw.map Real.exp) (fun _ => (1 : ℝ)) with hW
  have hWpos : 0 < W := weighted_pos pts _ hlen' hne hwpos _ fun _ => one_pos
  set F := fun i => weighted pts (lw.map Real.exp)
    (observedLikelihood (fun θ : Fin 2 → ℝ => tableProb (exTwoPairs.probs (List.ofFn θ))) 4 (exQuadrants i)) with hF
  have hFpos : ∀ i, 0 < F i := hobs exTwoPairs exTwoPairs_wf rfl
  have hbest : W ^ 4 / 768 < F 0 * F 1 * F 2 * F 3 := by
    set κ := Real.exp (-Real.log (2 * Real.pi)) with hκ
    have hκpos : 0 < κ := Real.exp_pos _
    set B := fun x => (g.map fun t : ℝ => Real.exp (-t ^ 2 / 2) * bothAnswer (20 * t - 10) (20 * t - 10) x).sum with hB
    set S := (g.map fun t : ℝ => Real.exp (-t ^ 2 / 2) * 1).sum with hS
    have hWS : W = κ * (S * S) := by
      rw [hS, ← weighted_two (fun _ => 1) (fun _ => 1), hW]
      simp only [mul_one]
      rfl
    have hFB : ∀ i x x', decide (i < 2) = x → decide (i % 2 = 0) = x' → F i = κ * (B x * B x') := by
      intro i x x' hx hx'
      rw [hB]
      dsimp only
      rw [← weighted_two, hF]
      dsimp only
      refine congrArg (weighted pts (lw.map Real.exp)) (funext fun θ => ?_)
      rw [quadrant_likelihood exTwoPairs exTwoPairs_wf _ _ exTwoPairs_parameters θ i x x' hx hx']
      simp [dot, List.ofFn_succ, sub_eq_add_neg, mul_comm]
    have hm := pair_masses
    change (96 / 10 : ℝ) * S ^ 2 < 49 * (B true * B false) at hm
    rw [hFB 0 true true rfl rfl, hFB 1 true false rfl rfl, hFB 2 false true rfl rfl, hFB 3 false false rfl rfl, hWS]
    have e1 : κ * (B true * B true) * (κ * (B true * B false)) * (κ * (B false * B true)) * (κ * (B false * B false))
        = κ ^ 4 * (B true * B false) ^ 4 := by ring
    have e2 : (κ * (S * S)) ^ 4 / 768 = κ ^ 4 * ((S ^ 2) ^ 4 / 768) := by ring
    rw [e1, e2]
    refine mul_lt_mul_of_pos_left ?_ (pow_pos hκpos 4)
    have h3 : (96 / 490 : ℝ) * S ^ 2 < B true * B false := by linarith
    have h4 : ((96 / 490 : ℝ) * S ^ 2) ^ 4 < (B true * B false) ^ 4 := pow_lt_pow_left₀ h3 (by positivity) (by norm_num)
    refine lt_of_le_of_lt ?_ h4
    rw [mul_pow]
    have h5 : 0 ≤ (S ^ 2) ^ 4 := by positivity
    nlinarith
  refine ⟨pts, lw, exTwoPairs, -∑ i ∈ Finset.range 4, Real.log (F i), Real.log (F 0 * F 1 * F 2 * F 3) - Real.log (W ^ 4 / 768),
    exTwoPairs_wf, rfl, rfl, rfl, fun hg ch => default_two hg ch, hloss exTwoPairs exTwoPairs_wf rfl,
    sub_pos.2 (Real.log_lt_log (by positivity) hbest), ?_⟩
  intro A S hmethod hpoints
  have hrule : MmlRule S.hermgauss S.cholesky S.method S.points 7 := by
    rw [hmethod, hpoints]
    exact ⟨rfl, by norm_num, fun h => absurd h (by decide)⟩
  obtain ⟨m, hfit, hi, hlv, hwf, heq, _⟩ := C105_twoPL_equal_slopes S hrule 4 (by norm_num) 4 exQuadrants fun i _ => exQuadrants_valid i
  refine ⟨m, _, hfit, hloss m hwf hi, ?_⟩
  rw [four_logs _ hFpos, four_logs _ (hobs m hwf hi)]
  have hp : ∀ j, j < 4 → m.itemParameters[j]? = some (m.itemParameters.getD j ([], 0)) := by
    intro j hj
    obtain ⟨p, hp⟩ := getElem?_of_lt m.itemParameters j (by
      rw [TwoPL.itemParameters, List.length_zip, TwoPL.weights, length_weights, hwf.biasLen, hi]; exact hj)
    rw [List.getD_eq_getElem?_getD, hp]; rfl
  have hz : ∀ (θ : Fin 2 → ℝ) j, j < 4 → dot (List.ofFn θ) (m.itemParameters.getD j ([], 0)).1 + (m.itemParameters.getD j ([], 0)).2
      = line (slopeOf m.itemParameters j 0) (m.itemParameters.getD j ([], 0)).2 (θ 0 + θ 1) := by
    intro θ j hj
    have h0 : slopeOf m.itemParameters j 0 = (m.itemParameters.getD j ([], 0)).1.getD 0 0 := slopeOf_eq _ _ _ _ (hp j hj) 0
    have h1 : slopeOf m.itemParameters j 1 = (m.itemParameters.getD j ([], 0)).1.getD 1 0 := slopeOf_eq _ _ _ _ (hp j hj) 1
    rw [dot_ofFn, Fin.sum_univ_two, line]
    show θ 0 * (m.itemParameters.getD j ([], 0)).1.getD 0 0 + θ 1 * (m.itemParameters.getD j ([], 0)).1.getD 1 0 + _ = _
    rw [← h0, ← h1, ← heq j 0 1 hj (by norm_num) (by norm_num)]
    ring
  have hpat : ∀ i x x', decide (i < 2) = x → decide (i % 2 = 0) = x' →
      observedLikelihood (fun θ : Fin 2 → ℝ => tableProb (m.probs (List.ofFn θ))) 4 (exQuadrants i)
        = fun θ => pairsAt (fun j => slopeOf m.itemParameters j 0) (fun j => (m.itemParameters.getD j ([], 0)).2) x x' (θ 0 + θ 1) := by
    intro i x x' hx hx'
    funext θ
    rw [quadrant_likelihood m hwf (fun j => (m.itemParameters.getD j ([], 0)).1) (fun j => (m.itemParameters.getD j ([], 0)).2) hp θ i x x' hx hx',
      hz θ 0 (by norm_num), hz θ 1 (by norm_num), hz θ 2 (by norm_num), hz θ 3 (by norm_num)]
    rfl
  have hfour := hobs m hwf hi
  have hprod := mul_pos (mul_pos (mul_pos (hfour 0) (hfour 1)) (hfour 2)) (hfour 3)
  rw [hpat 0 true true rfl rfl, hpat 1 true false rfl rfl, hpat 2 false true rfl rfl, hpat 3 false false rfl rfl] at hprod ⊢
  have hb := Real.log_le_log hprod (mixture_bound pts (lw.map Real.exp) (fun v hv => (hwpos v hv).le) (fun θ => θ 0 + θ 1)
    (fun j => slopeOf m.itemParameters j 0) (fun j => (m.itemParameters.getD j ([], 0)).2))
  linarith

/-- The fit of `exTwoTraitFit` (the default integration, Adam) is one of those the theorem speaks about. -/
example : ∃ (pts : Thetas 2) (lw : List ℝ) (best m : TwoPL) (x₀ x : ℝ),
    TwoPL.fitMml exTwoTraitFit 4 (rowsOf 4 4 exQuadrants) = .ok m ∧
    mmlLoss (best.scorer 2) (rowsOf 4 4 exQuadrants) pts lw = .ok (some x₀) ∧
    mmlLoss (m.scorer 2) (rowsOf 4 4 exQuadrants) pts lw = .ok (some x) ∧ x₀ < x := by
  obtain ⟨pts, lw, best, x₀, ε, _, _, _, _, _, hbest, hε, hall⟩ := C105_never_best
  obtain ⟨m, x, hfit, hx, hle⟩ := hall exTwoTraitFit rfl rfl
  exact ⟨pts, lw, best, m, x₀, x, hfit, hbest, hx, by linarith⟩

end Irt
