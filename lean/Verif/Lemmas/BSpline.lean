import Verif.Spec.BSpline
import Mathlib.Algebra.BigOperators.Intervals
import Mathlib.Algebra.Order.BigOperators.Group.Finset
import Mathlib.Tactic.FieldSimp
import Mathlib.Tactic.Linarith
import Mathlib.Tactic.Ring
import Mathlib.Tactic.Positivity

/-! # B-spline basis: support, positivity, partition of unity, monotone tail sums -/

namespace Irt

open Finset

variable (t : ℕ → ℝ) (ht : Monotone t)

include ht

theorem bspline_support (p i : ℕ) (x : ℝ) (h : x < t i ∨ t (i + p + 1) ≤ x) : bspline t p i x = 0 := by
  induction p generalizing i with
  | zero =>
    unfold bspline
    rw [if_neg]
    rintro ⟨h1, h2⟩
    rcases h with h | h
    · linarith
    · simp only [add_zero] at h; linarith
  | succ p ih =>
    unfold bspline
    rw [ih i, ih (i + 1)]
    · simp
    · rcases h with h | h
      · exact Or.inl (lt_of_lt_of_le h (ht (by omega)))
      · exact Or.inr (le_trans (ht (by omega)) h)
    · rcases h with h | h
      · exact Or.inl h
      · exact Or.inr (le_trans (ht (by omega)) h)

theorem bspline_nonneg (p i : ℕ) (x : ℝ) : 0 ≤ bspline t p i x := by
  induction p generalizing i with
  | zero => unfold bspline; split_ifs <;> norm_num
  | succ p ih =>
    unfold bspline
    refine add_nonneg ?_ ?_
    · by_cases h : x < t i
      · rw [bspline_support t ht p i x (Or.inl h)]; simp
      · exact mul_nonneg (div_nonneg (by linarith) (sub_nonneg.2 (ht (by omega)))) (ih i)
    · by_cases h : t (i + 1 + p + 1) ≤ x
      · rw [bspline_support t ht p (i + 1) x (Or.inr h)]; simp
      · have e : i + 1 + p + 1 = i + p + 2 := by omega
        rw [e] at h
        exact mul_nonneg (div_nonneg (by linarith) (sub_nonneg.2 (ht (by omega)))) (ih (i + 1))

/-- The two weights of a function add up to one on its support. -/
theorem bspline_weights (p i : ℕ) (x : ℝ) :
    (x - t i) / (t (i + p + 1) - t i) * bspline t p i x +
      (t (i + p + 1) - x) / (t (i + p + 1) - t i) * bspline t p i x = bspline t p i x := by
  by_cases h : t (i + p + 1) - t i = 0
  · have : bspline t p i x = 0 := bspline_support t ht p i x (by
      rcases lt_or_ge x (t i) with h1 | h1
      · exact Or.inl h1
      · exact Or.inr (by linarith))
    rw [this]; simp
  · rw [← add_mul, ← add_div]
    rw [show x - t i + (t (i + p + 1) - x) = t (i + p + 1) - t i by ring, div_self h, one_mul]

/-- Tail sums of the basis: recursion over the degree. -/
theorem bspline_tail (n : ℕ) (x : ℝ) (hx : x < t n) (p i : ℕ) (hi : i < n) :
    ∑ j ∈ Ico i n, bspline t (p + 1) j x =
      (x - t i) / (t (i + p + 1) - t i) * bspline t p i x + ∑ j ∈ Ico (i + 1) n, bspline t p j x := by
  have h1 : ∀ j ∈ Ico i n, bspline t (p + 1) j x = (x - t j) / (t (j + p + 1) - t j) * bspline t p j x +
      (t (j + 1 + p + 1) - x) / (t (j + 1 + p + 1) - t (j + 1)) * bspline t p (j + 1) x := by
    intro j _
    have e : j + 1 + p + 1 = j + p + 2 := by omega
    rw [e]; rfl
  rw [sum_congr rfl h1, sum_add_distrib]
  have h2 : ∑ j ∈ Ico i n, (t (j + 1 + p + 1) - x) / (t (j + 1 + p + 1) - t (j + 1)) * bspline t p (j + 1) x =
      ∑ j ∈ Ico (i + 1) n, (t (j + p + 1) - x) / (t (j + p + 1) - t j) * bspline t p j x := by
    rw [sum_Ico_add' (fun j => (t (j + p + 1) - x) / (t (j + p + 1) - t j) * bspline t p j x) i n 1,
      sum_Ico_succ_top (by omega), bspline_support t ht p n x (Or.inl hx)]
    simp
  rw [h2, sum_eq_sum_Ico_succ_bot hi, add_assoc, ← sum_add_distrib]
  congr 1
  exact sum_congr rfl fun j _ => bspline_weights t ht p j x

theorem bspline_tail_zero (n : ℕ) (x : ℝ) (p i : ℕ) (h : x < t i) : ∑ j ∈ Ico i n, bspline t p j x = 0 :=
  sum_eq_zero fun j hj => bspline_support t ht p j x (Or.inl (lt_of_lt_of_le h (ht (mem_Ico.1 hj).1)))

theorem bspline_tail_one (n : ℕ) (x : ℝ) (hx : x < t n) (p i : ℕ) (hi : i ≤ n) (h : t (i + p) ≤ x) :
    ∑ j ∈ Ico i n, bspline t p j x = 1 := by
  induction p generalizing i with
  | zero =>
    simp only [add_zero] at h
    obtain ⟨k, rfl⟩ := Nat.exists_eq_add_of_le hi
    clear hi
    induction k generalizing i with
    | zero => simp only [add_zero] at hx; linarith
    | succ k ih =>
      rw [sum_eq_sum_Ico_succ_bot (by omega)]
      by_cases hk : t (i + 1) ≤ x
      · have := ih (i + 1) hk (by rw [show i + 1 + k = i + (k + 1) by omega]; exact hx)
        rw [show i + 1 + k = i + (k + 1) by omega] at this
        rw [this, bspline_support t ht 0 i x (Or.inr (by simpa using hk))]; simp
      · rw [bspline_tail_zero t ht _ x 0 (i + 1) (not_le.1 hk)]
        unfold bspline
        rw [if_pos ⟨h, not_le.1 hk⟩, add_zero]
  | succ p ih =>
    have hin : i < n := by
      rcases Nat.lt_or_ge i n with h1 | h1
      · exact h1
      · have := ht (show n ≤ i + (p + 1) by omega); linarith
    rw [bspline_tail t ht n x hx p i hin, ih (i + 1) hin (by rw [show i + 1 + p = i + (p + 1) by omega]; exact h),
      bspline_support t ht p i x (Or.inr h)]
    simp

/-- Tail sums are nondecreasing in the position. -/
theorem bspline_tail_mono (n : ℕ) (x y : ℝ) (hxy : x ≤ y) (hy : y < t n) (p i : ℕ) (hi : i ≤ n) :
    ∑ j ∈ Ico i n, bspline t p j x ≤ ∑ j ∈ Ico i n, bspline t p j y := by
  have hx : x < t n := lt_of_le_of_lt hxy hy
  induction p generalizing i with
  | zero =>
    rcases lt_or_ge x (t i) with h | h
    · rw [bspline_tail_zero t ht n x 0 i h]
      exact sum_nonneg fun j _ => bspline_nonneg t ht 0 j y
    · rw [bspline_tail_one t ht n x hx 0 i hi h, bspline_tail_one t ht n y hy 0 i hi (le_trans h hxy)]
  | succ p ih =>
    rcases hi.eq_or_lt with rfl | hi
    · simp
    rcases lt_or_ge x (t i) with h | h
    · rw [bspline_tail_zero t ht n x (p + 1) i h]
      exact sum_nonneg fun j _ => bspline_nonneg t ht (p + 1) j y
    have hT := ih i hi.le
    have hT1 := ih (i + 1) hi
    have hNx := bspline_nonneg t ht p i x
    rw [sum_eq_sum_Ico_succ_bot hi, sum_eq_sum_Ico_succ_bot hi] at hT
    rw [bspline_tail t ht n x hx p i hi, bspline_tail t ht n y hy p i hi]
    rcases le_or_gt (t (i + p + 1)) y with h2 | h2
    · rw [bspline_support t ht p i y (Or.inr h2)] at hT ⊢
      rw [mul_zero]
      have : (x - t i) / (t (i + p + 1) - t i) * bspline t p i x ≤ bspline t p i x := by
        rcases le_or_gt (t (i + p + 1)) x with h3 | h3
        · rw [bspline_support t ht p i x (Or.inr h3)]; simp
        · refine mul_le_of_le_one_left hNx ?_
          rw [div_le_one (by linarith)]
          linarith
      linarith
    · have hd : 0 < t (i + p + 1) - t i := by linarith
      set a := (x - t i) / (t (i + p + 1) - t i) with ha
      set b := (y - t i) / (t (i + p + 1) - t i) with hb
      have hab : a ≤ b := div_le_div_of_nonneg_right (by linarith) hd.le
      have hb1 : b ≤ 1 := by rw [hb, div_le_one hd]; linarith
      have hb0 : 0 ≤ b := div_nonneg (by linarith) hd.le
      have e1 : a * bspline t p i x ≤ b * bspline t p i x := mul_le_mul_of_nonneg_right hab hNx
      nlinarith [mul_le_mul_of_nonneg_left hT hb0, mul_le_mul_of_nonneg_left hT1 (sub_nonneg.2 hb1)]

end Irt
