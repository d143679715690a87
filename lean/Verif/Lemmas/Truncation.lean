import Verif.Spec.Rounding
import Mathlib.Data.Int.Log

/-! # A floating point arithmetic: numbers with `p + 1` binary digits, cut off towards zero -/

namespace Irt

open Spec

/-- A positive number with all but its first `p + 1` binary digits cut off. -/
noncomputable def truncPos (p : ℕ) (x : ℝ) : ℝ :=
  (⌊x * 2 ^ ((p : ℤ) - Int.log 2 x)⌋ : ℝ) * 2 ^ (Int.log 2 x - (p : ℤ))

/-- A number with all but its first `p + 1` binary digits cut off. -/
noncomputable def truncDigits (p : ℕ) (x : ℝ) : ℝ := if 0 < x then truncPos p x else if x < 0 then -truncPos p (-x) else 0

theorem truncPos_le (p : ℕ) (x : ℝ) : truncPos p x ≤ x := by
  have h := Int.floor_le (x * (2:ℝ) ^ ((p : ℤ) - Int.log 2 x))
  have h2 := mul_le_mul_of_nonneg_right h (by positivity : (0:ℝ) ≤ 2 ^ (Int.log 2 x - (p : ℤ)))
  rwa [mul_assoc x, ← zpow_add₀ two_ne_zero, sub_add_sub_cancel, sub_self, zpow_zero, mul_one] at h2

theorem truncPos_lower {p : ℕ} {x : ℝ} (hx : 0 < x) : (2:ℝ) ^ Int.log 2 x ≤ truncPos p x := by
  have h := Int.zpow_log_le_self (b := 2) (by norm_num) hx
  have h1 : ((2 ^ p : ℤ) : ℝ) ≤ x * (2:ℝ) ^ ((p : ℤ) - Int.log 2 x) := by
    have := mul_le_mul_of_nonneg_right h (by positivity : (0:ℝ) ≤ 2 ^ ((p : ℤ) - Int.log 2 x))
    push_cast at this ⊢
    rwa [← zpow_add₀ two_ne_zero, add_sub_cancel, zpow_natCast] at this
  have h2 : ((2 ^ p : ℤ) : ℝ) ≤ (⌊x * (2:ℝ) ^ ((p : ℤ) - Int.log 2 x)⌋ : ℝ) := by
    exact_mod_cast Int.le_floor.2 h1
  have h3 := mul_le_mul_of_nonneg_right h2 (by positivity : (0:ℝ) ≤ 2 ^ (Int.log 2 x - (p : ℤ)))
  push_cast at h3
  rwa [← zpow_natCast, ← zpow_add₀ two_ne_zero, add_sub_cancel] at h3

theorem truncPos_error {p : ℕ} {x : ℝ} (hx : 0 < x) : x - truncPos p x ≤ (1 / 2) ^ p * x := by
  have h := Int.lt_floor_add_one (x * (2:ℝ) ^ ((p : ℤ) - Int.log 2 x))
  have h2 := mul_le_mul_of_nonneg_right h.le (by positivity : (0:ℝ) ≤ 2 ^ (Int.log 2 x - (p : ℤ)))
  rw [mul_assoc x, ← zpow_add₀ two_ne_zero, sub_add_sub_cancel, sub_self, zpow_zero, mul_one, add_mul, one_mul] at h2
  have h3 := Int.zpow_log_le_self (b := 2) (by norm_num) hx
  have h4 : (2:ℝ) ^ (Int.log 2 x - (p : ℤ)) ≤ (1 / 2) ^ p * x := by
    rw [sub_eq_add_neg, zpow_add₀ two_ne_zero, zpow_neg, zpow_natCast, one_div, inv_pow, mul_comm]
    push_cast at h3
    exact mul_le_mul_of_nonneg_left h3 (by positivity)
  unfold truncPos
  linarith

theorem truncPos_pos {p : ℕ} {x : ℝ} (hx : 0 < x) : 0 < truncPos p x :=
  lt_of_lt_of_le (by positivity) (truncPos_lower hx)

theorem truncPos_mono {p : ℕ} {x y : ℝ} (hx : 0 < x) (h : x ≤ y) : truncPos p x ≤ truncPos p y := by
  have hl : Int.log 2 x ≤ Int.log 2 y := Int.log_mono_right hx h
  rcases hl.lt_or_eq with hlt | heq
  · refine (truncPos_le p x).trans (le_trans ?_ (truncPos_lower (hx.trans_le h)))
    have h1 := (Int.lt_zpow_succ_log_self (b := 2) (by norm_num) x).le
    push_cast at h1
    exact h1.trans (zpow_le_zpow_right₀ (by norm_num) (by omega))
  · unfold truncPos
    rw [heq]
    refine mul_le_mul_of_nonneg_right ?_ (by positivity)
    exact_mod_cast Int.floor_le_floor (mul_le_mul_of_nonneg_right h (by positivity))

theorem truncPos_idem {p : ℕ} {x : ℝ} (hx : 0 < x) : truncPos p (truncPos p x) = truncPos p x := by
  have hlog : Int.log 2 (truncPos p x) = Int.log 2 x := by
    refine le_antisymm (Int.log_mono_right (truncPos_pos hx) (truncPos_le p x)) ?_
    refine (Int.zpow_le_iff_le_log (b := 2) (by norm_num) (truncPos_pos hx)).1 ?_
    push_cast
    exact truncPos_lower hx
  have e : truncPos p (truncPos p x) = (⌊truncPos p x * 2 ^ ((p : ℤ) - Int.log 2 (truncPos p x))⌋ : ℝ)
      * 2 ^ (Int.log 2 (truncPos p x) - (p : ℤ)) := rfl
  have e2 : truncPos p x * 2 ^ ((p : ℤ) - Int.log 2 x) = (⌊x * 2 ^ ((p : ℤ) - Int.log 2 x)⌋ : ℝ) := by
    rw [truncPos, mul_assoc, ← zpow_add₀ two_ne_zero, sub_add_sub_cancel, sub_self, zpow_zero, mul_one]
  rw [e, hlog, e2, Int.floor_intCast]
  rfl

theorem truncDigits_zero (p : ℕ) : truncDigits p 0 = 0 := by simp [truncDigits]

theorem truncDigits_error (p : ℕ) (x : ℝ) : |truncDigits p x - x| ≤ (1 / 2) ^ p * |x| := by
  unfold truncDigits
  split_ifs with h1 h2
  · rw [abs_of_pos h1, abs_sub_comm, abs_of_nonneg (by linarith [truncPos_le p x])]
    exact truncPos_error h1
  · have h3 : 0 < -x := by linarith
    rw [abs_of_neg h2, show -truncPos p (-x) - x = -x - truncPos p (-x) by ring, abs_of_nonneg (by linarith [truncPos_le p (-x)])]
    exact truncPos_error h3
  · have : x = 0 := le_antisymm (not_lt.1 h1) (not_lt.1 h2)
    simp [this]

theorem truncDigits_mono (p : ℕ) {x y : ℝ} (h : x ≤ y) : truncDigits p x ≤ truncDigits p y := by
  rcases lt_trichotomy x 0 with hx | rfl | hx
  · have h1 : truncDigits p x = -truncPos p (-x) := by rw [truncDigits, if_neg hx.not_gt, if_pos hx]
    have h2 := truncPos_pos (p := p) (by linarith : 0 < -x)
    rcases lt_trichotomy y 0 with hy | rfl | hy
    · have h3 : truncDigits p y = -truncPos p (-y) := by rw [truncDigits, if_neg hy.not_gt, if_pos hy]
      have := truncPos_mono (p := p) (by linarith : 0 < -y) (neg_le_neg h)
      linarith
    · rw [h1, truncDigits_zero]; linarith
    · have h3 : truncDigits p y = truncPos p y := if_pos hy
      have := truncPos_pos (p := p) hy
      linarith
  · rw [truncDigits_zero]
    rcases h.lt_or_eq with hy | rfl
    · have h3 : truncDigits p y = truncPos p y := if_pos hy
      have := truncPos_pos (p := p) hy
      linarith
    · rw [truncDigits_zero]
  · rw [truncDigits, if_pos hx, truncDigits, if_pos (hx.trans_le h)]
    exact truncPos_mono hx h

theorem truncDigits_nonneg (p : ℕ) {x : ℝ} (h : 0 ≤ x) : 0 ≤ truncDigits p x := by
  rw [← truncDigits_zero p]; exact truncDigits_mono p h

theorem truncDigits_idem (p : ℕ) {x : ℝ} (h : 0 < x) : truncDigits p (truncDigits p x) = truncDigits p x := by
  have e : truncDigits p x = truncPos p x := if_pos h
  rw [e, truncDigits, if_pos (truncPos_pos h), truncPos_idem h]

theorem truncDigits_int (p : ℕ) {k : ℤ} {x : ℝ} (hk : Int.log 2 x = k) (hx : 0 < x) :
    truncDigits p x = (⌊x * 2 ^ ((p : ℤ) - k)⌋ : ℝ) * 2 ^ (k - (p : ℤ)) := by
  rw [truncDigits, if_pos hx, truncPos, hk]

theorem truncDigits_one (p : ℕ) : truncDigits p 1 = 1 := by
  rw [truncDigits_int p (k := 0) (by simp) one_pos]
  have : (1:ℝ) * 2 ^ ((p : ℤ) - 0) = ((2 ^ p : ℤ) : ℝ) := by push_cast; simp
  rw [this, Int.floor_intCast]
  push_cast
  rw [zero_sub, zpow_neg, zpow_natCast]
  exact mul_inv_cancel₀ (by positivity)

/-- The arithmetic in which every exact result is cut off after `p + 1` binary digits. -/
noncomputable def truncFloats (p : ℕ) : FloatOps where
  rnd := truncDigits p
  mul x y := truncDigits p (x * y)
  div x y := truncDigits p (x / y)
  exp x := truncDigits p (Real.exp x)
  log x := truncDigits p (Real.log x)

theorem truncFloats_sound (p : ℕ) (hp : 1 ≤ p) : SoundFloats (truncFloats p) ((1 / 2) ^ p) 0 where
  u_nonneg := by positivity
  u_le := by
    calc ((1:ℝ) / 2) ^ p ≤ (1 / 2) ^ 1 := pow_le_pow_of_le_one (by norm_num) (by norm_num) hp
      _ = 1 / 2 := pow_one _
  η_nonneg := le_rfl
  rnd x := truncDigits_error p x
  mul x y := by rw [add_zero]; exact truncDigits_error p _
  div x y _ := by rw [add_zero]; exact truncDigits_error p _
  exp x _ := by
    have := truncDigits_error p (Real.exp x)
    rw [abs_of_pos (Real.exp_pos x)] at this
    rw [add_zero]
    exact this
  log x _ := truncDigits_error p _

theorem truncFloats_orderly (p : ℕ) : OrderlyFloats (truncFloats p) where
  mono _ _ h := truncDigits_mono p h
  zero := truncDigits_zero p
  exp_rounded x := truncDigits_idem p (Real.exp_pos x)
  exp_nonneg x := truncDigits_nonneg p (Real.exp_pos x).le
  exp_zero := by
    show truncDigits p (Real.exp 0) = 1
    rw [Real.exp_zero, truncDigits_one]
  div_range x y hx hxy hy := by
    refine ⟨truncDigits_nonneg p (div_nonneg hx hy.le), ?_⟩
    have := truncDigits_mono p (div_le_one_of_le₀ hxy hy.le)
    rwa [truncDigits_one] at this

/-- Adding from left to right is one of the orders. -/
theorem exists_sumsTo (F : FloatOps) (xs : List ℝ) : ∃ s, SumsTo F xs.length xs s := by
  induction xs with
  | nil => exact ⟨0, .zero, by simp [SumTree.leaves], by simp [SumTree.depth], rfl⟩
  | cons x xs ih =>
    obtain ⟨s, t, h1, h2, h3⟩ := ih
    refine ⟨_, .node (.leaf x) t, ?_, ?_, rfl⟩
    · simpa [SumTree.leaves] using h1
    · simpa [SumTree.depth] using h2

theorem SumsTo.mono {F : FloatOps} {h h' : ℕ} {xs : List ℝ} {s : ℝ} (hs : SumsTo F h xs s) (hh : h ≤ h') : SumsTo F h' xs s := by
  obtain ⟨t, h1, h2, h3⟩ := hs
  exact ⟨t, h1, h2.trans hh, h3⟩

end Irt
