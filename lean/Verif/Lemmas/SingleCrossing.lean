import Verif.Props.QuadratureLimit
import Verif.Props.NormalPopulation

/-! # Items that measure the same latent variable: the steeper item goes more often together with others -/

namespace Irt
open Spec MeasureTheory Filter Topology

section At

variable {n : ℕ} {C : Matrix (Fin n) (Fin n) ℝ} (hC : C.PosDef) (κ : Fin n)

/-- The probability of a right answer to an item with slope `a` and intercept `b` when the latent variables, of which the item measures number `κ`, are normally distributed. -/
noncomputable def rightOneAt {n : ℕ} (C : Matrix (Fin n) (Fin n) ℝ) (κ : Fin n) (a b : ℝ) : ℝ := ∫ θ : Fin n → ℝ, Real.exp (mvnLogDensity 0 C θ) * logistic (a * θ κ + b)

/-- The probability of right answers to both of two items. -/
noncomputable def rightBothAt {n : ℕ} (C : Matrix (Fin n) (Fin n) ℝ) (κ : Fin n) (a b c d : ℝ) : ℝ :=
  ∫ θ : Fin n → ℝ, Real.exp (mvnLogDensity 0 C θ) * (logistic (a * θ κ + b) * logistic (c * θ κ + d))

include hC in
theorem rightOneAt_integrable (a b : ℝ) : Integrable fun θ : Fin n → ℝ => Real.exp (mvnLogDensity 0 C θ) * logistic (a * θ κ + b) :=
  integrable_mvn_mul hC _ (continuous_logistic'.comp (by fun_prop)) fun θ =>
    abs_le.2 ⟨by linarith [(logistic_unit (a * θ κ + b)).1], (logistic_unit _).2.le⟩

include hC in
theorem rightBothAt_integrable (a b c d : ℝ) : Integrable fun θ : Fin n → ℝ =>
    Real.exp (mvnLogDensity 0 C θ) * (logistic (a * θ κ + b) * logistic (c * θ κ + d)) :=
  integrable_mvn_mul hC _ ((continuous_logistic'.comp (by fun_prop)).mul (continuous_logistic'.comp (by fun_prop))) fun θ => by
    have h1 := logistic_unit (a * θ κ + b)
    have h2 := logistic_unit (c * θ κ + d)
    rw [abs_of_pos (mul_pos h1.1 h2.1)]
    exact mul_le_one₀ h1.2.le h2.1.le h2.2.le

theorem rightBothAt_comm (C : Matrix (Fin n) (Fin n) ℝ) (κ : Fin n) (a b c d : ℝ) : rightBothAt C κ a b c d = rightBothAt C κ c d a b := by
  unfold rightBothAt
  simp only [mul_comm (logistic (a * _ + b))]

include hC in
theorem rightOneAt_mono (a : ℝ) {b b' : ℝ} (h : b < b') : rightOneAt C κ a b < rightOneAt C κ a b' := by
  have hpos : ∀ θ : Fin n → ℝ, 0 < Real.exp (mvnLogDensity 0 C θ) * logistic (a * θ κ + b') - Real.exp (mvnLogDensity 0 C θ) * logistic (a * θ κ + b) := by
    intro θ
    rw [← mul_sub]
    exact mul_pos (Real.exp_pos _) (sub_pos.2 (logistic_strictMono (by linarith)))
  have h1 : 0 < ∫ θ : Fin n → ℝ, (Real.exp (mvnLogDensity 0 C θ) * logistic (a * θ κ + b') - Real.exp (mvnLogDensity 0 C θ) * logistic (a * θ κ + b)) := by
    rw [integral_pos_iff_support_of_nonneg (fun θ => (hpos θ).le) ((rightOneAt_integrable hC κ a b').sub (rightOneAt_integrable hC κ a b))]
    have : (Function.support fun θ : Fin n → ℝ => Real.exp (mvnLogDensity 0 C θ) * logistic (a * θ κ + b') - Real.exp (mvnLogDensity 0 C θ) * logistic (a * θ κ + b))
        = Set.univ := by
      ext θ; simp only [Function.mem_support, Set.mem_univ, iff_true]; exact (hpos θ).ne'
    rw [this]
    exact isOpen_univ.measure_pos _ ⟨0, trivial⟩
  rw [integral_sub (rightOneAt_integrable hC κ a b') (rightOneAt_integrable hC κ a b)] at h1
  exact sub_pos.1 h1

include hC in
/-- Of two items that are answered rightly equally often, the one with the larger slope goes more often together with right answers to a third. -/
theorem rightBothAt_mono {a a' b b' c d : ℝ} (ha : a < a') (hc : 0 < c) (hM : rightOneAt C κ a b = rightOneAt C κ a' b') :
    rightBothAt C κ a b c d < rightBothAt C κ a' b' c d := by
  set t := (b - b') / (a' - a) with ht
  have hden : 0 < a' - a := sub_pos.2 ha
  have hcross : ∀ x : ℝ, a' * x + b' - (a * x + b) = (a' - a) * (x - t) := by
    intro x
    rw [ht]
    field_simp
    ring
  let g : ℝ := logistic (c * t + d)
  let F : (Fin n → ℝ) → ℝ := fun θ => Real.exp (mvnLogDensity 0 C θ) * ((logistic (a' * θ κ + b') - logistic (a * θ κ + b)) * (logistic (c * θ κ + d) - g))
  have hF : ∀ θ, F θ = Real.exp (mvnLogDensity 0 C θ) * (logistic (a' * θ κ + b') * logistic (c * θ κ + d))
      - Real.exp (mvnLogDensity 0 C θ) * (logistic (a * θ κ + b) * logistic (c * θ κ + d))
      - g * (Real.exp (mvnLogDensity 0 C θ) * logistic (a' * θ κ + b') - Real.exp (mvnLogDensity 0 C θ) * logistic (a * θ κ + b)) := by
    intro θ
    simp only [F]
    ring
  have hi1 := (rightBothAt_integrable hC κ a' b' c d).sub (rightBothAt_integrable hC κ a b c d)
  have hi2 := ((rightOneAt_integrable hC κ a' b').sub (rightOneAt_integrable hC κ a b)).const_mul g
  have hint : Integrable F := by
    refine (hi1.sub hi2).congr (Eventually.of_forall fun θ => ?_)
    simp [hF]
  have hval : ∫ θ, F θ = rightBothAt C κ a' b' c d - rightBothAt C κ a b c d - g * (rightOneAt C κ a' b' - rightOneAt C κ a b) := by
    simp only [hF]
    have e1 := integral_sub hi1 hi2
    simp only [Pi.sub_apply] at e1
    rw [e1, integral_sub (rightBothAt_integrable hC κ a' b' c d) (rightBothAt_integrable hC κ a b c d), integral_const_mul,
      integral_sub (rightOneAt_integrable hC κ a' b') (rightOneAt_integrable hC κ a b)]
    rfl
  have hpos : ∀ θ : Fin n → ℝ, θ κ ≠ t → 0 < F θ := by
    intro θ hθ
    refine mul_pos (Real.exp_pos _) ?_
    have h1 := hcross (θ κ)
    rcases lt_or_gt_of_ne hθ with h | h
    · refine mul_pos_of_neg_of_neg (sub_neg.2 (logistic_strictMono ?_)) (sub_neg.2 (logistic_strictMono ?_))
      · nlinarith
      · nlinarith
    · refine mul_pos (sub_pos.2 (logistic_strictMono ?_)) (sub_pos.2 (logistic_strictMono ?_))
      · nlinarith
      · nlinarith
  have hnn : ∀ θ, 0 ≤ F θ := by
    intro θ
    by_cases h : θ κ = t
    · simp [F, h, g]
    · exact (hpos θ h).le
  have hint0 : 0 < ∫ θ, F θ := by
    rw [integral_pos_iff_support_of_nonneg hnn hint]
    have hopen : IsOpen {θ : Fin n → ℝ | t < θ κ} := isOpen_lt continuous_const (by fun_prop)
    refine (hopen.measure_pos volume ⟨fun _ => t + 1, by simp⟩).trans_le (measure_mono fun θ hθ => ?_)
    exact (hpos θ (ne_of_gt hθ)).ne'
  rw [hval, hM] at hint0
  linarith

include hC in
/-- Items with positive slopes, three or more, that measure the same latent variable are determined by how often each item and each pair of
items is answered rightly. -/
theorem momentsAt_identified {ι : Type*} (h3 : ∀ j : ι, ∃ k l, j ≠ k ∧ j ≠ l ∧ k ≠ l) (p q : (ι → ℝ) × (ι → ℝ)) (hp : ∀ j, 0 < p.1 j)
    (hq : ∀ j, 0 < q.1 j) (hM : ∀ j, rightOneAt C κ (p.1 j) (p.2 j) = rightOneAt C κ (q.1 j) (q.2 j))
    (hJ : ∀ j k, j ≠ k → rightBothAt C κ (p.1 j) (p.2 j) (p.1 k) (p.2 k) = rightBothAt C κ (q.1 j) (q.2 j) (q.1 k) (q.2 k)) : p = q := by
  have step : ∀ (p q : (ι → ℝ) × (ι → ℝ)), (∀ j, 0 < p.1 j) → (∀ j, 0 < q.1 j) →
      (∀ j, rightOneAt C κ (p.1 j) (p.2 j) = rightOneAt C κ (q.1 j) (q.2 j)) →
      (∀ j k, j ≠ k → rightBothAt C κ (p.1 j) (p.2 j) (p.1 k) (p.2 k) = rightBothAt C κ (q.1 j) (q.2 j) (q.1 k) (q.2 k)) →
      ∀ j k, j ≠ k → p.1 j < q.1 j → q.1 k < p.1 k := by
    intro p q hp hq hM hJ j k hjk hlt
    by_contra hno
    push Not at hno
    have h1 : rightBothAt C κ (p.1 j) (p.2 j) (p.1 k) (p.2 k) < rightBothAt C κ (q.1 j) (q.2 j) (p.1 k) (p.2 k) := rightBothAt_mono hC κ hlt (hp k) (hM j)
    have h2 : rightBothAt C κ (q.1 j) (q.2 j) (p.1 k) (p.2 k) ≤ rightBothAt C κ (q.1 j) (q.2 j) (q.1 k) (q.2 k) := by
      rcases hno.lt_or_eq with hk | hk
      · rw [rightBothAt_comm C κ _ _ (p.1 k), rightBothAt_comm C κ _ _ (q.1 k)]
        exact (rightBothAt_mono hC κ hk (hq j) (hM k)).le
      · have hb : p.2 k = q.2 k := by
          have e := hM k
          rw [hk] at e
          rcases lt_trichotomy (p.2 k) (q.2 k) with g | g | g
          · exact absurd e (rightOneAt_mono hC κ _ g).ne
          · exact g
          · exact absurd e (rightOneAt_mono hC κ _ g).ne'
        rw [hk, hb]
    exact absurd (hJ j k hjk) (h1.trans_le h2).ne
  have hslopes : ∀ (p q : (ι → ℝ) × (ι → ℝ)), (∀ j, 0 < p.1 j) → (∀ j, 0 < q.1 j) →
      (∀ j, rightOneAt C κ (p.1 j) (p.2 j) = rightOneAt C κ (q.1 j) (q.2 j)) →
      (∀ j k, j ≠ k → rightBothAt C κ (p.1 j) (p.2 j) (p.1 k) (p.2 k) = rightBothAt C κ (q.1 j) (q.2 j) (q.1 k) (q.2 k)) →
      ∀ j, ¬ p.1 j < q.1 j := by
    intro p q hp hq hM hJ j hlt
    obtain ⟨k, l, hjk, hjl, hkl⟩ := h3 j
    have h1 := step p q hp hq hM hJ j k hjk hlt
    have h2 := step p q hp hq hM hJ j l hjl hlt
    have h3 := step q p hq hp (fun j => (hM j).symm) (fun j k hjk => (hJ j k hjk).symm) k l hkl h1
    exact absurd h2 (not_lt.2 h3.le)
  have ha : ∀ j, p.1 j = q.1 j := fun j => le_antisymm
    (not_lt.1 (hslopes q p hq hp (fun j => (hM j).symm) (fun j k hjk => (hJ j k hjk).symm) j)) (not_lt.1 (hslopes p q hp hq hM hJ j))
  refine Prod.ext (funext ha) (funext fun j => ?_)
  have e := hM j
  rw [ha j] at e
  rcases lt_trichotomy (p.2 j) (q.2 j) with g | g | g
  · exact absurd e (rightOneAt_mono hC κ _ g).ne
  · exact g
  · exact absurd e (rightOneAt_mono hC κ _ g).ne'

end At

end Irt
