import Verif.Lemmas.Imv

/-!
# C43: the intermodel vigorish is well defined and ordered

`h₁`, `h₂` are the mean log likelihoods of the two models; `negInf` is a model that gives probability zero
to an observed response.
-/

namespace Irt

/-- **C43.** For every pair of log likelihoods and every iteration limit the value lies strictly between
-1/2 and 1. -/
theorem C43_range (h₁ h₂ : Logit) (k : ℕ) : -(1 / 2) < imv h₁ h₂ k ∧ imv h₁ h₂ k < 1 := by
  have hb := imvLoop_inBox 1e-6 h₁ h₂ k inBox_start inBox_start
  unfold imv
  generalize imvLoop 1e-6 h₁ h₂ k 0.75 0.75 = w at hb
  obtain ⟨⟨l1, u1⟩, l2, u2⟩ := hb
  norm_num at l1 u1 l2 u2
  have hw : 0 < w.1 := by linarith
  constructor
  · show -(1 / 2) < (w.2 - w.1) / w.1
    rw [lt_div_iff₀ hw]; linarith
  · show (w.2 - w.1) / w.1 < 1
    rw [div_lt_one hw]; linarith

/-- **C43**, well defined: neither of the two probabilities the result is formed from leaves the open
interval (1/2, 1), so no logarithm of a nonpositive number and no division by zero occurs in any
iteration. -/
theorem C43_well_defined (h₁ h₂ : Logit) (k : ℕ) (tol : ℝ) :
    (1 / 2 < (imvLoop tol h₁ h₂ k 0.75 0.75).1 ∧ (imvLoop tol h₁ h₂ k 0.75 0.75).1 < 1) ∧
    (1 / 2 < (imvLoop tol h₁ h₂ k 0.75 0.75).2 ∧ (imvLoop tol h₁ h₂ k 0.75 0.75).2 < 1) ∧
    Real.log (imvLoop tol h₁ h₂ k 0.75 0.75).1 - Real.log (1 - (imvLoop tol h₁ h₂ k 0.75 0.75).1) ≠ 0 ∧
    Real.log (imvLoop tol h₁ h₂ k 0.75 0.75).2 - Real.log (1 - (imvLoop tol h₁ h₂ k 0.75 0.75).2) ≠ 0 := by
  obtain ⟨a, b⟩ := imvLoop_inBox tol h₁ h₂ k inBox_start inBox_start
  exact ⟨⟨a.gt, a.lt⟩, ⟨b.gt, b.lt⟩, (negEntSlope_pos a.gt a.lt).ne', (negEntSlope_pos b.gt b.lt).ne'⟩

/-- **C43.** Two models that fit equally well have value zero. -/
theorem C43_equal (h : Logit) (k : ℕ) : imv h h k = 0 := by
  unfold imv
  have := imvLoop_same 1e-6 h k 0.75
  simp only [this, sub_self, zero_div]

/-- **C43.** A positive value means the second model has the larger log likelihood per response, a negative
value that the first one has. -/
theorem C43_sign (a b : ℝ) (k : ℕ) :
    (0 < imv (.fin a) (.fin b) k → a < b) ∧ (imv (.fin a) (.fin b) k < 0 → b < a) := by
  have key : ∀ h₁ h₂ : Logit, h₁.le h₂ → 0 ≤ imv h₁ h₂ k ∧ imv h₂ h₁ k ≤ 0 := by
    intro h₁ h₂ hh
    have hm := imvLoop_mono 1e-6 hh k inBox_start
    have hs := imvLoop_swap 1e-6 h₁ h₂ k 0.75 0.75
    obtain ⟨p, q⟩ := imvLoop_inBox 1e-6 h₁ h₂ k inBox_start inBox_start
    have hp := p.gt
    have hq := q.gt
    unfold imv
    rw [hs]
    constructor
    · exact div_nonneg (by linarith) (by linarith)
    · simp only [Prod.fst_swap, Prod.snd_swap]
      exact div_nonpos_of_nonpos_of_nonneg (by linarith) (by linarith)
  constructor
  · intro h
    by_contra hc
    exact absurd h (not_lt.mpr (key (.fin b) (.fin a) (not_lt.mp hc)).2)
  · intro h
    by_contra hc
    exact absurd h (not_lt.mpr (key (.fin a) (.fin b) (not_lt.mp hc)).1)

/-- **C43**, with a model that gives probability zero to an observed response: it never counts as the
better one. -/
theorem C43_sign_impossible (h : Logit) (k : ℕ) : 0 ≤ imv .negInf h k ∧ imv h .negInf k ≤ 0 := by
  have hm := imvLoop_mono 1e-6 (h₁ := .negInf) (h₂ := h) trivial k inBox_start
  have hs := imvLoop_swap 1e-6 .negInf h k 0.75 0.75
  obtain ⟨p, q⟩ := imvLoop_inBox 1e-6 .negInf h k inBox_start inBox_start
  have hp := p.gt
  have hq := q.gt
  unfold imv
  rw [hs]
  constructor
  · exact div_nonneg (by linarith) (by linarith)
  · simp only [Prod.fst_swap, Prod.snd_swap]
    exact div_nonpos_of_nonpos_of_nonneg (by linarith) (by linarith)

/-- **C43**, the converse direction as far as it goes: after at least one iteration a model with the larger
log likelihood per response gets the favourable sign, unless both probabilities ended at the same bound of
the clamp. -/
theorem C43_larger_partial {a b : ℝ} (hab : a < b) (k : ℕ) (hk : 1 ≤ k) :
    0 < imv (.fin a) (.fin b) k ∨
      (imvLoop 1e-6 (.fin a) (.fin b) k 0.75 0.75 = (0.5 + 1e-6, 0.5 + 1e-6) ∨
        imvLoop 1e-6 (.fin a) (.fin b) k 0.75 0.75 = (1 - 1e-6, 1 - 1e-6)) := by
  obtain ⟨k, rfl⟩ : ∃ m, k = m + 1 := ⟨k - 1, by omega⟩
  have hs := imvLoop_separated 1e-6 hab k inBox_start inBox_start le_rfl (Or.inr rfl)
  have hb := (imvLoop_inBox 1e-6 (.fin a) (.fin b) (k + 1) inBox_start inBox_start).1.gt
  rcases hs with hs | ⟨he, hs | hs⟩
  · left
    unfold imv
    exact div_pos (by linarith) (by linarith)
  · right; left; exact Prod.ext hs (he ▸ hs)
  · right; right; exact Prod.ext hs (he ▸ hs)

/-- The strict converse of C43 is false of the code: two models that both predict worse than a fair coin
(below -2 per response) always get value zero, although one of them has the larger log likelihood. -/
theorem C43_strict_converse_false :
    ¬ ∀ a b : ℝ, a < b → ∀ k ≥ 1, 0 < imv (.fin a) (.fin b) k := by
  intro h
  have := h (-3) (-2) (by norm_num) 100 (by norm_num)
  unfold imv at this
  have he := imvLoop_low 1e-6 (a := -3) (c := -2) (by norm_num) (by norm_num) 100 (w := 0.75) (Or.inl rfl)
  simp only [he, sub_self, zero_div, lt_irrefl] at this

/-- The value is not constant: with one iteration a model whose Newton step stays at 0.75 beats one whose
step goes below the lower bound. -/
theorem C43_separates : 0 < imv (.fin (negEnt 0.75 - negEntSlope 0.75)) (.fin (negEnt 0.75)) 1 := by
  have s := negEntSlope_pos (w := 0.75) (by norm_num) (by norm_num)
  have e1 : imvStep (.fin (negEnt 0.75 - negEntSlope 0.75)) 0.75 = 0.5 + 1e-6 := by
    rw [imvStep_fin inBox_start]
    have : newton (negEnt 0.75 - negEntSlope 0.75) 0.75 = -0.25 := by
      unfold newton
      rw [show negEnt 0.75 - negEntSlope 0.75 - negEnt 0.75 = -negEntSlope 0.75 by ring, neg_div,
        div_self s.ne']
      norm_num
    rw [this]
    unfold imvClamp
    norm_num
  have e2 : imvStep (.fin (negEnt 0.75)) 0.75 = 0.75 := by
    rw [imvStep_fin inBox_start]
    have : newton (negEnt 0.75) 0.75 = 0.75 := by unfold newton; simp
    rw [this]
    unfold imvClamp
    norm_num
  unfold imv imvLoop
  split
  · simp only [e1, e2]; norm_num
  · unfold imvLoop; simp only [e1, e2]; norm_num

end Irt
