import Verif.Spec.Rounding
import Verif.Lemmas.Scoring
import Mathlib.Analysis.SpecialFunctions.Log.Basic
import Mathlib.Analysis.Complex.ExponentialBounds

/-! # Lemmas about rounding errors -/

namespace Irt
open Spec

variable {F : FloatOps} {u η : ℝ}

/-! ## Sums -/

theorem abs_sum_le (xs : List ℝ) : |xs.sum| ≤ (xs.map abs).sum := by
  induction xs with
  | nil => simp
  | cons x xs ih =>
    rw [List.sum_cons, List.map_cons, List.sum_cons]
    exact (abs_add_le _ _).trans (by linarith)

theorem SumTree.error (hF : ∀ x, |F.rnd x - x| ≤ u * |x|) (hu : 0 ≤ u) (t : SumTree) :
    |t.eval F - t.leaves.sum| ≤ ((1 + u) ^ t.depth - 1) * (t.leaves.map abs).sum := by
  induction t with
  | zero => simp [SumTree.eval, SumTree.leaves, SumTree.depth]
  | leaf x => simp [SumTree.eval, SumTree.leaves, SumTree.depth]
  | node l r hl hr =>
    simp only [SumTree.eval, SumTree.leaves, SumTree.depth, List.sum_append, List.map_append]
    set L := (l.leaves.map abs).sum with hL
    set R := (r.leaves.map abs).sum with hR
    have hL0 : 0 ≤ L := List.sum_nonneg (by simp)
    have hR0 : 0 ≤ R := List.sum_nonneg (by simp)
    have up : ∀ a b : ℕ, a ≤ b → (1 + u) ^ a ≤ (1 + u) ^ b := fun a b h => pow_le_pow_right₀ (by linarith) h
    have hl' : |l.eval F - l.leaves.sum| ≤ ((1 + u) ^ max l.depth r.depth - 1) * L :=
      hl.trans (mul_le_mul_of_nonneg_right (by linarith [up _ _ (le_max_left l.depth r.depth)]) hL0)
    have hr' : |r.eval F - r.leaves.sum| ≤ ((1 + u) ^ max l.depth r.depth - 1) * R :=
      hr.trans (mul_le_mul_of_nonneg_right (by linarith [up _ _ (le_max_right l.depth r.depth)]) hR0)
    have hLs : |l.leaves.sum| ≤ L := abs_sum_le _
    have hRs : |r.leaves.sum| ≤ R := abs_sum_le _
    have h1 := hF (l.eval F + r.eval F)
    rw [abs_le] at *
    have hab : |l.eval F + r.eval F| ≤ (1 + u) ^ max l.depth r.depth * (L + R) := by
      rw [abs_le]; constructor <;> nlinarith
    have h2 := mul_le_mul_of_nonneg_left hab hu
    rw [pow_succ]
    constructor <;> nlinarith [h1.1, h1.2, hl'.1, hl'.2, hr'.1, hr'.2]

theorem SumsTo.error (hF : ∀ x, |F.rnd x - x| ≤ u * |x|) (hu : 0 ≤ u) {h : ℕ} {xs : List ℝ} {s : ℝ} (hs : SumsTo F h xs s) :
    |s - xs.sum| ≤ ((1 + u) ^ h - 1) * (xs.map abs).sum := by
  obtain ⟨t, hp, hd, rfl⟩ := hs
  have := t.error hF hu
  rw [hp.sum_eq, (hp.map abs).sum_eq] at this
  refine this.trans (mul_le_mul_of_nonneg_right ?_ (List.sum_nonneg (by simp)))
  linarith [pow_le_pow_right₀ (by linarith : (1:ℝ) ≤ 1 + u) hd]

/-- Terms that are off by `a` times their size plus `b` each. -/
theorem forall₂_sum {α : Type*} {xs : List α} {ys : List ℝ} {R : α → ℝ → Prop} (f : α → ℝ) {a b : ℝ}
    (h : List.Forall₂ R xs ys) (hR : ∀ x ∈ xs, ∀ y, R x y → |y - f x| ≤ a * |f x| + b) :
    |ys.sum - (xs.map f).sum| ≤ a * ((xs.map f).map abs).sum + xs.length * b ∧
      (ys.map abs).sum ≤ (1 + a) * ((xs.map f).map abs).sum + xs.length * b := by
  induction h with
  | nil => simp
  | @cons x y xs ys hxy _ ih =>
    obtain ⟨i1, i2⟩ := ih fun x hx => hR x (List.mem_cons_of_mem _ hx)
    have h1 := hR x (List.mem_cons_self ..) y hxy
    simp only [List.sum_cons, List.map_cons, List.length_cons, Nat.cast_succ]
    have h2 : |y| ≤ |y - f x| + |f x| := by
      have := abs_add_le (y - f x) (f x)
      simpa using this
    constructor
    · have := abs_add_le (y - f x) (ys.sum - (xs.map f).sum)
      rw [show y + ys.sum - (f x + (xs.map f).sum) = y - f x + (ys.sum - (xs.map f).sum) by ring]
      nlinarith
    · nlinarith

/-- A sum of terms that are themselves off. -/
theorem SumsTo.total (hF : ∀ x, |F.rnd x - x| ≤ u * |x|) (hu : 0 ≤ u) {h : ℕ} {α : Type*} {xs : List α} {ys : List ℝ} {s : ℝ}
    {R : α → ℝ → Prop} (f : α → ℝ) {a b : ℝ} (hxy : List.Forall₂ R xs ys)
    (hR : ∀ x ∈ xs, ∀ y, R x y → |y - f x| ≤ a * |f x| + b) (hs : SumsTo F h ys s) :
    |s - (xs.map f).sum| ≤ ((1 + u) ^ h * (1 + a) - 1) * ((xs.map f).map abs).sum + (1 + u) ^ h * (xs.length * b) := by
  obtain ⟨h1, h2⟩ := forall₂_sum f hxy hR
  have h3 := hs.error hF hu
  have h4 : 0 ≤ (1 + u) ^ h - 1 := by linarith [one_le_pow₀ (by linarith : (1:ℝ) ≤ 1 + u) (n := h)]
  have h5 := mul_le_mul_of_nonneg_left h2 h4
  have h6 := abs_add_le (s - ys.sum) (ys.sum - (xs.map f).sum)
  rw [sub_add_sub_cancel] at h6
  nlinarith

theorem forall₂_map_self {α : Type*} (xs : List α) (g : α → ℝ) : List.Forall₂ (fun x y => y = g x) xs (xs.map g) := by
  induction xs with
  | nil => exact .nil
  | cons x xs ih => exact .cons rfl ih

/-! ## Exponentials after subtracting the largest entry -/

theorem Spec.SoundFloats.nonpos (hF : SoundFloats F u η) (d : ℝ) (hd : d ≤ 0) : F.rnd d ≤ d / 2 := by
  have h := hF.rnd d
  rw [abs_of_nonpos hd, abs_le] at h
  nlinarith [h.2, hF.u_le, hF.u_nonneg]

theorem Spec.SoundFloats.exp_shift (hF : SoundFloats F u η) (d : ℝ) (hd : d ≤ 0) : |F.exp (F.rnd d) - Real.exp d| ≤ 2 * u + η := by
  have hu := hF.u_nonneg
  have hn := hF.nonpos d hd
  have h1 := hF.exp (F.rnd d) (by linarith)
  have h2 : Real.exp (F.rnd d) ≤ 1 := Real.exp_le_one_iff.2 (by linarith)
  have h3 : |Real.exp (F.rnd d) - Real.exp d| ≤ u := by
    have hr := hF.rnd d
    have small : -d * Real.exp (d / 2) ≤ 1 := by
      have h := Real.add_one_le_exp (-(d / 2) - 1)
      have he : Real.exp (-(d / 2) - 1) = Real.exp (-(d / 2)) / Real.exp 1 := Real.exp_sub _ _
      have hE : (2:ℝ) ≤ Real.exp 1 := by linarith [Real.add_one_le_exp (1:ℝ)]
      rw [he, le_div_iff₀ (Real.exp_pos 1)] at h
      have h4 : -d ≤ Real.exp (-(d / 2)) := by nlinarith
      have h5 : Real.exp (-(d / 2)) * Real.exp (d / 2) = 1 := by rw [← Real.exp_add]; simp
      have := mul_le_mul_of_nonneg_right h4 (Real.exp_pos (d / 2)).le
      linarith
    have lip : ∀ a b : ℝ, a ≤ b → b ≤ d / 2 → Real.exp b - Real.exp a ≤ (b - a) * Real.exp (d / 2) := by
      intro a b hab hb
      have h := Real.add_one_le_exp (a - b)
      have e : Real.exp a = Real.exp b * Real.exp (a - b) := by rw [← Real.exp_add]; ring_nf
      have h' := mul_le_mul_of_nonneg_left h (Real.exp_pos b).le
      have hb' := Real.exp_le_exp.2 hb
      have := mul_le_mul_of_nonneg_left hb' (sub_nonneg.2 hab)
      nlinarith
    rw [abs_of_nonpos hd] at hr
    have hdist : |F.rnd d - d| * Real.exp (d / 2) ≤ u := by
      have := mul_le_mul_of_nonneg_right hr (Real.exp_pos (d / 2)).le
      nlinarith
    rcases le_total (F.rnd d) d with h | h
    · have := lip _ _ h (by linarith)
      rw [abs_of_nonpos (by linarith)] at hdist
      rw [abs_of_nonpos (by linarith [Real.exp_le_exp.2 h])]
      linarith
    · have := lip _ _ h hn
      rw [abs_of_nonneg (by linarith)] at hdist
      rw [abs_of_nonneg (by linarith [Real.exp_le_exp.2 h])]
      linarith
  have h4 := abs_add_le (F.exp (F.rnd d) - Real.exp (F.rnd d)) (Real.exp (F.rnd d) - Real.exp d)
  rw [sub_add_sub_cancel] at h4
  nlinarith

/-- The exact sum of the shifted exponentials. -/
noncomputable def shiftedSum (xs : List ℝ) : ℝ := (xs.map fun x => Real.exp (x - columnMax xs)).sum

theorem le_columnMax {xs : List ℝ} {x : ℝ} (hx : x ∈ xs) : x ≤ columnMax xs :=
  (columnMax_isGreatest xs (List.ne_nil_of_mem hx)).2 hx

theorem one_le_shiftedSum {xs : List ℝ} (hne : xs ≠ []) : 1 ≤ shiftedSum xs := by
  have h := List.single_le_sum (l := xs.map fun x => Real.exp (x - columnMax xs)) (by simp [Real.exp_nonneg]) 1
    (List.mem_map.2 ⟨columnMax xs, (columnMax_isGreatest xs hne).1, by simp⟩)
  exact h

theorem shiftedSum_le (xs : List ℝ) : shiftedSum xs ≤ xs.length := by
  have h := List.sum_le_card_nsmul (xs.map fun x => Real.exp (x - columnMax xs)) 1 (by
    intro y hy
    obtain ⟨x, hx, rfl⟩ := List.mem_map.1 hy
    exact Real.exp_le_one_iff.2 (by linarith [le_columnMax hx]))
  simpa [shiftedSum] using h

theorem sum_exp_eq (xs : List ℝ) : (xs.map Real.exp).sum = Real.exp (columnMax xs) * shiftedSum xs := by
  rw [shiftedSum, ← List.sum_map_mul_left]
  congr 1
  refine List.map_congr_left fun x _ => ?_
  rw [← Real.exp_add]; ring_nf

theorem log_sum_exp_shift {xs : List ℝ} (hne : xs ≠ []) : Real.log (xs.map Real.exp).sum = columnMax xs + Real.log (shiftedSum xs) := by
  rw [sum_exp_eq, Real.log_mul (Real.exp_pos _).ne' (by linarith [one_le_shiftedSum hne]), Real.log_exp]

theorem Spec.SoundFloats.shifted (hF : SoundFloats F u η) {h : ℕ} {xs : List ℝ} {s : ℝ} (hs : flShiftedSum F h xs s) :
    |s - shiftedSum xs| ≤ shiftedSumError u η h xs.length := by
  have hu := hF.u_nonneg
  have key := SumsTo.total hF.rnd hu (fun x => Real.exp (x - columnMax xs)) (a := 0) (b := 2 * u + η)
    (forall₂_map_self xs fun x => F.exp (F.rnd (x - columnMax xs))) (by
      rintro x hx _ rfl
      have := hF.exp_shift (x - columnMax xs) (by linarith [le_columnMax hx])
      simpa using this) hs
  have e : ((xs.map fun x => Real.exp (x - columnMax xs)).map abs).sum = shiftedSum xs := by
    rw [shiftedSum, List.map_map]
    congr 1
    exact List.map_congr_left fun x _ => abs_of_pos (Real.exp_pos _)
  rw [e] at key
  have h1 := shiftedSum_le xs
  have h2 : 0 ≤ (1 + u) ^ h - 1 := by linarith [one_le_pow₀ (by linarith : (1:ℝ) ≤ 1 + u) (n := h)]
  have h3 := mul_le_mul_of_nonneg_left h1 h2
  unfold shiftedSumError
  refine key.trans ?_
  nlinarith

theorem Spec.SoundFloats.log_shifted (hF : SoundFloats F u η) {h : ℕ} {xs : List ℝ} (hne : xs ≠ []) {s : ℝ} (hs : flShiftedSum F h xs s)
    (hσ : shiftedSumError u η h xs.length ≤ 1 / 2) :
    |F.log s - Real.log (shiftedSum xs)| ≤ u * Real.log (shiftedSum xs) + (1 + u) * (2 * shiftedSumError u η h xs.length) := by
  have h0 := hF.shifted hs
  have h1 := one_le_shiftedSum hne
  set σ := shiftedSumError u η h xs.length
  set S := shiftedSum xs
  rw [abs_le] at h0
  have hs0 : 0 < s := by linarith
  have hlog : |Real.log s - Real.log S| ≤ 2 * σ := by
    rw [abs_le]
    have a1 := Real.log_le_sub_one_of_pos (show 0 < s / S by positivity)
    have a2 := Real.log_le_sub_one_of_pos (show 0 < S / s by positivity)
    rw [Real.log_div (by linarith) (by linarith)] at a1 a2
    have b1 : s / S - 1 ≤ 2 * σ := by
      rw [sub_le_iff_le_add, div_le_iff₀ (by linarith)]; nlinarith
    have b2 : S / s - 1 ≤ 2 * σ := by
      rw [sub_le_iff_le_add, div_le_iff₀ hs0]; nlinarith
    constructor <;> linarith
  have h3 := hF.log s hs0
  have h4 : |Real.log s| ≤ Real.log S + 2 * σ := by
    have hS : |Real.log S| = Real.log S := abs_of_nonneg (Real.log_nonneg h1)
    have := abs_add_le (Real.log s - Real.log S) (Real.log S)
    rw [sub_add_cancel] at this
    linarith
  have h5 := mul_le_mul_of_nonneg_left h4 hF.u_nonneg
  have h6 := abs_add_le (F.log s - Real.log s) (Real.log s - Real.log S)
  rw [sub_add_sub_cancel] at h6
  nlinarith

end Irt
