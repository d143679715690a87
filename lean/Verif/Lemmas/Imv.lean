import Verif.Model.Quadrature
import Mathlib.Analysis.SpecialFunctions.Log.Basic

namespace Irt

/-- Negative binary entropy, the function the Newton iteration inverts. -/
noncomputable def negEnt (w : ℝ) : ℝ := w * Real.log w + (1 - w) * Real.log (1 - w)

/-- Its slope. -/
noncomputable def negEntSlope (w : ℝ) : ℝ := Real.log w - Real.log (1 - w)

theorem mul_log_ratio {v w : ℝ} (hv : 0 < v) (hw : 0 < w) : v - w ≤ v * Real.log v - v * Real.log w := by
  have h := Real.log_le_sub_one_of_pos (div_pos hw hv)
  rw [Real.log_div hw.ne' hv.ne'] at h
  have h2 := mul_le_mul_of_nonneg_left h hv.le
  have h3 : v * (w / v - 1) = w - v := by field_simp
  rw [h3] at h2
  linarith

/-- The tangent line lies below. -/
theorem negEnt_tangent {v w : ℝ} (hv0 : 0 < v) (hv1 : v < 1) (hw0 : 0 < w) (hw1 : w < 1) :
    negEnt w + negEntSlope w * (v - w) ≤ negEnt v := by
  have h1 := mul_log_ratio hv0 hw0
  have h2 := mul_log_ratio (v := 1 - v) (w := 1 - w) (by linarith) (by linarith)
  unfold negEnt negEntSlope
  nlinarith

theorem negEntSlope_pos {w : ℝ} (h0 : 1 / 2 < w) (h1 : w < 1) : 0 < negEntSlope w := by
  unfold negEntSlope
  have := Real.log_lt_log (show 0 < 1 - w by linarith) (show 1 - w < w by linarith)
  linarith

theorem negEntSlope_mono {v w : ℝ} (h0 : 0 < v) (hvw : v ≤ w) (h1 : w < 1) : negEntSlope v ≤ negEntSlope w := by
  unfold negEntSlope
  have := Real.log_le_log h0 hvw
  have := Real.log_le_log (show 0 < 1 - w by linarith) (show 1 - w ≤ 1 - v by linarith)
  linarith

theorem imvDelta_eq {h w : ℝ} (h0 : 1 / 2 < w) (h1 : w < 1) :
    imvDelta h w = (h - negEnt w) / negEntSlope w := by
  have := (negEntSlope_pos h0 h1).ne'
  unfold imvDelta safeSlope
  unfold negEntSlope at this
  simp only [this, if_false]
  unfold negEnt negEntSlope
  ring

/-- The interval the iterates are clamped to. -/
def InBox (w : ℝ) : Prop := 0.5 + 1e-6 ≤ w ∧ w ≤ 1 - 1e-6

theorem InBox.gt {w : ℝ} (h : InBox w) : 1 / 2 < w := by have := h.1; norm_num at this ⊢; linarith
theorem InBox.lt {w : ℝ} (h : InBox w) : w < 1 := by have := h.2; norm_num at this ⊢; linarith

theorem inBox_start : InBox 0.75 := by constructor <;> norm_num

theorem inBox_clamp (v : ℝ) : InBox (imvClamp v) := by
  unfold imvClamp InBox
  constructor
  · exact le_min (le_max_right _ _) (by norm_num)
  · exact min_le_right _ _

theorem imvClamp_mono {v w : ℝ} (h : v ≤ w) : imvClamp v ≤ imvClamp w :=
  min_le_min_right _ (max_le_max_right _ h)

theorem inBox_step (h : Logit) (w : ℝ) : InBox (imvStep h w) := by
  unfold imvStep
  cases imvDeltaExt h w with
  | none => constructor <;> norm_num
  | some δ => exact inBox_clamp _

theorem imvLoop_inBox (tol : ℝ) (h₁ h₂ : Logit) (k : ℕ) {w₁ w₂ : ℝ} (b₁ : InBox w₁) (b₂ : InBox w₂) :
    InBox (imvLoop tol h₁ h₂ k w₁ w₂).1 ∧ InBox (imvLoop tol h₁ h₂ k w₁ w₂).2 := by
  induction k generalizing w₁ w₂ with
  | zero => exact ⟨b₁, b₂⟩
  | succ k ih =>
    unfold imvLoop
    split
    · exact ⟨inBox_step _ _, inBox_step _ _⟩
    · exact ih (inBox_step _ _) (inBox_step _ _)

theorem imvLoop_same (tol : ℝ) (h : Logit) (k : ℕ) (w : ℝ) :
    (imvLoop tol h h k w w).1 = (imvLoop tol h h k w w).2 := by
  induction k generalizing w with
  | zero => rfl
  | succ k ih =>
    unfold imvLoop
    split
    · rfl
    · exact ih _

theorem imvLoop_swap (tol : ℝ) (h₁ h₂ : Logit) (k : ℕ) (w₁ w₂ : ℝ) :
    imvLoop tol h₂ h₁ k w₂ w₁ = (imvLoop tol h₁ h₂ k w₁ w₂).swap := by
  induction k generalizing w₁ w₂ with
  | zero => rfl
  | succ k ih =>
    unfold imvLoop
    by_cases h : imvSmall tol h₁ w₁ ∧ imvSmall tol h₂ w₂
    · rw [if_pos h, if_pos h.symm]; rfl
    · rw [if_neg h, if_neg (fun q => h q.symm)]; exact ih _ _

/-- The unclamped Newton update. -/
noncomputable def newton (h w : ℝ) : ℝ := w + (h - negEnt w) / negEntSlope w

theorem imvStep_fin {h w : ℝ} (b : InBox w) : imvStep (.fin h) w = imvClamp (newton h w) := by
  show imvClamp (w + imvDelta h w) = _
  rw [imvDelta_eq b.gt b.lt]
  rfl

theorem newton_mono_h {h h' w : ℝ} (hh : h ≤ h') (b : InBox w) : newton h w ≤ newton h' w := by
  unfold newton
  have := div_le_div_of_nonneg_right (show h - negEnt w ≤ h' - negEnt w by linarith) (negEntSlope_pos b.gt b.lt).le
  linarith

/-- To the right of the root the Newton update is nondecreasing. -/
theorem newton_mono_w {h w w' : ℝ} (b : InBox w) (b' : InBox w') (hw : w ≤ w') (hr : h ≤ negEnt w) :
    newton h w ≤ newton h w' := by
  have s := negEntSlope_pos b.gt b.lt
  have s' := negEntSlope_pos b'.gt b'.lt
  have hm := negEntSlope_mono (by linarith [b.gt]) hw b'.lt
  have ht := negEnt_tangent (v := w) (w := w') (by linarith [b.gt]) b.lt (by linarith [b'.gt]) b'.lt
  have hv : newton h w - w ≤ 0 := by
    unfold newton
    have := div_nonpos_of_nonpos_of_nonneg (show h - negEnt w ≤ 0 by linarith) s.le
    linarith
  have he : negEntSlope w * (newton h w - w) = h - negEnt w := by
    unfold newton
    field_simp
    ring
  have h1 : negEntSlope w' * (newton h w - w) ≤ negEntSlope w * (newton h w - w) :=
    mul_le_mul_of_nonpos_right hm hv
  have h2 : negEntSlope w' * (newton h w - w') ≤ h - negEnt w' := by nlinarith
  have h3 : newton h w - w' ≤ (h - negEnt w') / negEntSlope w' := by
    rw [le_div_iff₀ s']; linarith
  unfold newton at h3 ⊢
  linarith

/-- After a step the iterate is at or beyond the root, or at the upper bound. -/
theorem step_beyond {h w : ℝ} (b : InBox w) :
    h ≤ negEnt (imvClamp (newton h w)) ∨ imvClamp (newton h w) = 1 - 1e-6 := by
  have s := negEntSlope_pos b.gt b.lt
  rcases le_or_gt (1 - 1e-6) (newton h w) with hu | hu
  · right
    unfold imvClamp
    exact min_eq_right (hu.trans (le_max_left _ _))
  · left
    have hb := inBox_clamp (newton h w)
    have hge : newton h w ≤ imvClamp (newton h w) := by
      unfold imvClamp
      exact le_min (le_max_left _ _) hu.le
    have ht := negEnt_tangent (v := imvClamp (newton h w)) (w := w) (by linarith [hb.gt]) hb.lt
      (by linarith [b.gt]) b.lt
    have he : negEntSlope w * (newton h w - w) = h - negEnt w := by
      unfold newton
      field_simp
      ring
    nlinarith [mul_le_mul_of_nonneg_left hge s.le]

/-- A state in which the first iterate is ready to be compared: at or beyond its root, or at the bound. -/
def Beyond (h : Logit) (w : ℝ) : Prop :=
  match h with
  | .fin h => h ≤ negEnt w ∨ w = 1 - 1e-6
  | .negInf => w = 0.5 + 1e-6

/-- Order of log likelihoods with minus infinity at the bottom. -/
def Logit.le : Logit → Logit → Prop
  | .negInf, _ => True
  | .fin _, .negInf => False
  | .fin a, .fin b => a ≤ b

theorem beyond_step (h : Logit) {w : ℝ} (b : InBox w) : Beyond h (imvStep h w) := by
  cases h with
  | negInf => rfl
  | fin h => rw [imvStep_fin b]; exact step_beyond b

theorem step_lower (h : Logit) (w : ℝ) : 0.5 + 1e-6 ≤ imvStep h w := (inBox_step h w).1

theorem step_same_mono {h₁ h₂ : Logit} (hh : h₁.le h₂) {w : ℝ} (b : InBox w) :
    imvStep h₁ w ≤ imvStep h₂ w := by
  cases h₁ with
  | negInf => exact step_lower _ _
  | fin a =>
    cases h₂ with
    | negInf => exact hh.elim
    | fin c => rw [imvStep_fin b, imvStep_fin b]; exact imvClamp_mono (newton_mono_h hh b)

theorem step_mono {h₁ h₂ : Logit} (hh : h₁.le h₂) {w₁ w₂ : ℝ} (b₁ : InBox w₁) (b₂ : InBox w₂)
    (hw : w₁ ≤ w₂) (hb : Beyond h₁ w₁) : imvStep h₁ w₁ ≤ imvStep h₂ w₂ := by
  refine le_trans ?_ (step_same_mono hh b₂)
  cases h₁ with
  | negInf => exact step_lower _ _
  | fin a =>
    rcases hb with hb | hb
    · rw [imvStep_fin b₁, imvStep_fin b₂]
      exact imvClamp_mono (newton_mono_w b₁ b₂ hw hb)
    · have : w₁ = w₂ := le_antisymm hw (hb ▸ b₂.2)
      rw [this]

theorem imvLoop_mono_beyond (tol : ℝ) {h₁ h₂ : Logit} (hh : h₁.le h₂) (k : ℕ) {w₁ w₂ : ℝ} (b₁ : InBox w₁)
    (b₂ : InBox w₂) (hw : w₁ ≤ w₂) (hb : Beyond h₁ w₁) :
    (imvLoop tol h₁ h₂ k w₁ w₂).1 ≤ (imvLoop tol h₁ h₂ k w₁ w₂).2 := by
  induction k generalizing w₁ w₂ with
  | zero => exact hw
  | succ k ih =>
    unfold imvLoop
    split
    · exact step_mono hh b₁ b₂ hw hb
    · exact ih (inBox_step _ _) (inBox_step _ _) (step_mono hh b₁ b₂ hw hb) (beyond_step _ b₁)

/-- From a common start the two iterates stay ordered like the two log likelihoods. -/
theorem imvLoop_mono (tol : ℝ) {h₁ h₂ : Logit} (hh : h₁.le h₂) (k : ℕ) {w : ℝ} (b : InBox w) :
    (imvLoop tol h₁ h₂ k w w).1 ≤ (imvLoop tol h₁ h₂ k w w).2 := by
  cases k with
  | zero => exact le_refl _
  | succ k =>
    unfold imvLoop
    split
    · exact step_same_mono hh b
    · exact imvLoop_mono_beyond tol hh k (inBox_step _ _) (inBox_step _ _) (step_same_mono hh b)
        (beyond_step _ b)

theorem clamp_strict {v w : ℝ} (h : v < w) :
    imvClamp v < imvClamp w ∨ (imvClamp v = imvClamp w ∧ (imvClamp v = 0.5 + 1e-6 ∨ imvClamp v = 1 - 1e-6)) := by
  rcases (imvClamp_mono h.le).lt_or_eq with hl | he
  · exact Or.inl hl
  · right
    refine ⟨he, ?_⟩
    unfold imvClamp at he ⊢
    rcases le_total v (0.5 + 1e-6) with h1 | h1
    · left; rw [max_eq_right h1]; norm_num
    · right
      rw [max_eq_left h1] at he ⊢
      rw [max_eq_left (h1.trans h.le)] at he
      rcases le_total v (1 - 1e-6) with h2 | h2
      · rw [min_eq_left h2] at he ⊢
        rcases le_total w (1 - 1e-6) with h3 | h3
        · rw [min_eq_left h3] at he; linarith
        · rw [min_eq_right h3] at he; exact he
      · exact min_eq_right h2

/-- Two ordered iterates, distinct unless both sit at the same bound. -/
def Separated (w₁ w₂ : ℝ) : Prop := w₁ < w₂ ∨ (w₁ = w₂ ∧ (w₁ = 0.5 + 1e-6 ∨ w₁ = 1 - 1e-6))

theorem newton_strict_h {h h' w : ℝ} (hh : h < h') (b : InBox w) : newton h w < newton h' w := by
  unfold newton
  have := div_lt_div_of_pos_right (show h - negEnt w < h' - negEnt w by linarith) (negEntSlope_pos b.gt b.lt)
  linarith

theorem step_separated {a c : ℝ} (hac : a < c) {w₁ w₂ : ℝ} (b₁ : InBox w₁) (b₂ : InBox w₂)
    (hw : w₁ ≤ w₂) (hb : Beyond (.fin a) w₁ ∨ w₁ = w₂) :
    Separated (imvStep (.fin a) w₁) (imvStep (.fin c) w₂) := by
  rw [imvStep_fin b₁, imvStep_fin b₂]
  refine clamp_strict (lt_of_le_of_lt ?_ (newton_strict_h hac b₂))
  rcases hb with (hb | hb) | hb
  · exact newton_mono_w b₁ b₂ hw hb
  · have : w₁ = w₂ := le_antisymm hw (hb ▸ b₂.2)
    rw [this]
  · rw [hb]

theorem Separated.le {w₁ w₂ : ℝ} (h : Separated w₁ w₂) : w₁ ≤ w₂ := by
  rcases h with h | h
  · exact h.le
  · exact h.1.le

theorem imvLoop_separated (tol : ℝ) {a c : ℝ} (hac : a < c) (k : ℕ) {w₁ w₂ : ℝ} (b₁ : InBox w₁)
    (b₂ : InBox w₂) (hs : w₁ ≤ w₂) (hb : Beyond (.fin a) w₁ ∨ w₁ = w₂) :
    Separated (imvLoop tol (.fin a) (.fin c) (k + 1) w₁ w₂).1
      (imvLoop tol (.fin a) (.fin c) (k + 1) w₁ w₂).2 := by
  induction k generalizing w₁ w₂ with
  | zero =>
    unfold imvLoop
    split
    · exact step_separated hac b₁ b₂ hs hb
    · exact step_separated hac b₁ b₂ hs hb
  | succ k ih =>
    unfold imvLoop
    split
    · exact step_separated hac b₁ b₂ hs hb
    · exact ih (inBox_step _ _) (inBox_step _ _) (step_separated hac b₁ b₂ hs hb).le
        (Or.inl (beyond_step _ b₁))

/-- Any log likelihood per response below -2 is sent to the lower bound at once and
stays there. -/
theorem imvStep_low {h w : ℝ} (hh : h ≤ -2) (hw : w = 0.75 ∨ w = 0.5 + 1e-6) :
    imvStep (.fin h) w = 0.5 + 1e-6 := by
  have b : InBox w := by
    rcases hw with hw | hw
    · rw [hw]; exact inBox_start
    · rw [hw]; constructor <;> norm_num
  have s := negEntSlope_pos b.gt b.lt
  rw [imvStep_fin b]
  have hlow : newton h w ≤ 0.5 + 1e-6 := by
    have hent : -Real.log 2 ≤ negEnt w := by
      have := negEnt_tangent (v := w) (w := 1 / 2) (by linarith [b.gt]) b.lt (by norm_num) (by norm_num)
      have e1 : negEntSlope (1 / 2) = 0 := by unfold negEntSlope; norm_num
      have e2 : negEnt (1 / 2) = -Real.log 2 := by
        unfold negEnt
        rw [show (1 : ℝ) - 1 / 2 = 1 / 2 by norm_num, one_div, Real.log_inv]
        ring
      rw [e1, e2] at this
      linarith
    have hl2 : Real.log 2 ≤ 1 := by
      have := Real.log_le_sub_one_of_pos (show (0 : ℝ) < 2 by norm_num); linarith
    unfold newton
    rcases hw with hw | hw
    · have hsl : negEntSlope w ≤ 2 := by
        rw [hw]
        unfold negEntSlope
        rw [← Real.log_div (by norm_num) (by norm_num)]
        have := Real.log_le_sub_one_of_pos (show (0 : ℝ) < 0.75 / (1 - 0.75) by norm_num)
        norm_num at this ⊢
        linarith
      have : (h - negEnt w) / negEntSlope w ≤ -(1 / 2) := by
        rw [div_le_iff₀ s]; linarith
      rw [hw] at this ⊢
      norm_num at this ⊢
      linarith
    · have : (h - negEnt w) / negEntSlope w ≤ 0 :=
        div_nonpos_of_nonpos_of_nonneg (by linarith) s.le
      linarith
  unfold imvClamp
  rw [max_eq_right hlow]
  norm_num

theorem imvLoop_low (tol : ℝ) {a c : ℝ} (ha : a ≤ -2) (hc : c ≤ -2) (k : ℕ) {w : ℝ}
    (hw : w = 0.75 ∨ w = 0.5 + 1e-6) :
    (imvLoop tol (.fin a) (.fin c) k w w).1 = (imvLoop tol (.fin a) (.fin c) k w w).2 := by
  induction k generalizing w with
  | zero => rfl
  | succ k ih =>
    unfold imvLoop
    rw [imvStep_low ha hw, imvStep_low hc hw]
    split
    · rfl
    · exact ih (Or.inr rfl)

end Irt
