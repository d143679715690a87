import Mathlib.Analysis.SpecialFunctions.Log.Basic
import Mathlib.Analysis.SpecialFunctions.Pow.Real
import Mathlib.Algebra.BigOperators.Pi
import Mathlib.Algebra.Order.BigOperators.Ring.Finset
import Mathlib.Data.Fintype.Pi
import Mathlib.Tactic.FieldSimp
import Mathlib.Tactic.Linarith

/-! # Distances of distributions on finitely many points, and independent draws -/

namespace Irt
open Finset

variable {ι : Type*}

theorem hellinger_le_kl {f q : ℝ} (hf : 0 ≤ f) (hq : 0 < q) :
    (Real.sqrt f - Real.sqrt q) ^ 2 ≤ f * (Real.log f - Real.log q) + (q - f) := by
  rcases hf.eq_or_lt with rfl | hf
  · simp [Real.sq_sqrt hq.le]
  have hsf := Real.sqrt_pos.2 hf
  have hsq := Real.sqrt_pos.2 hq
  have h := Real.log_le_sub_one_of_pos (div_pos hsq hsf)
  rw [Real.log_div hsq.ne' hsf.ne', Real.log_sqrt hq.le, Real.log_sqrt hf.le] at h
  have e1 := Real.sq_sqrt hf.le
  have e2 := Real.sq_sqrt hq.le
  have h2 := mul_le_mul_of_nonneg_left h hf.le
  have e3 : f * (Real.sqrt q / Real.sqrt f - 1) = Real.sqrt f * Real.sqrt q - f := by
    nth_rewrite 1 [← e1]
    field_simp
    nlinarith
  rw [e3] at h2
  nlinarith

theorem kl_le_chi {f p : ℝ} (hf : 0 ≤ f) (hp : 0 < p) : f * (Real.log f - Real.log p) ≤ (f - p) ^ 2 / p + (f - p) := by
  rcases hf.eq_or_lt with rfl | hf
  · have : (0 - p) ^ 2 / p = p := by field_simp; ring
    rw [this]; simp
  have h := Real.log_le_sub_one_of_pos (div_pos hf hp)
  rw [Real.log_div hf.ne' hp.ne'] at h
  have h2 := mul_le_mul_of_nonneg_left h hf.le
  have e : f * (f / p - 1) = (f - p) ^ 2 / p + (f - p) := by field_simp; ring
  linarith

/-- A distribution that explains the frequencies `f` up to `δ` as well as `p` is about as near to `p` as the frequencies are. -/
theorem distance_of_nearly_better (s : Finset ι) (f p q : ι → ℝ) (hf : ∀ x ∈ s, 0 ≤ f x) (hp : ∀ x ∈ s, 0 < p x) (hq : ∀ x ∈ s, 0 < q x)
    (hfs : ∑ x ∈ s, f x = 1) (hps : ∑ x ∈ s, p x = 1) (hqs : ∑ x ∈ s, q x = 1)
    (δ : ℝ) (hbetter : ∑ x ∈ s, f x * Real.log (p x) ≤ ∑ x ∈ s, f x * Real.log (q x) + δ) :
    (∑ x ∈ s, |q x - p x|) ^ 2 ≤ 16 * ∑ x ∈ s, (f x - p x) ^ 2 / p x + 8 * δ := by
  have h1 : ∑ x ∈ s, (Real.sqrt (f x) - Real.sqrt (q x)) ^ 2 ≤ ∑ x ∈ s, f x * Real.log (f x) - ∑ x ∈ s, f x * Real.log (q x) := by
    refine (sum_le_sum fun x hx => hellinger_le_kl (hf x hx) (hq x hx)).trans_eq ?_
    simp only [mul_sub, sum_add_distrib, sum_sub_distrib, hfs, hqs]
    ring
  have h2 : ∑ x ∈ s, (Real.sqrt (f x) - Real.sqrt (p x)) ^ 2 ≤ ∑ x ∈ s, f x * Real.log (f x) - ∑ x ∈ s, f x * Real.log (p x) := by
    refine (sum_le_sum fun x hx => hellinger_le_kl (hf x hx) (hp x hx)).trans_eq ?_
    simp only [mul_sub, sum_add_distrib, sum_sub_distrib, hfs, hps]
    ring
  have h3 : ∑ x ∈ s, f x * Real.log (f x) - ∑ x ∈ s, f x * Real.log (p x) ≤ ∑ x ∈ s, (f x - p x) ^ 2 / p x := by
    rw [← sum_sub_distrib]
    simp only [← mul_sub]
    refine (sum_le_sum fun x hx => kl_le_chi (hf x hx) (hp x hx)).trans_eq ?_
    simp only [sum_add_distrib, sum_sub_distrib, hfs, hps]
    ring
  have h4 : ∑ x ∈ s, (Real.sqrt (q x) - Real.sqrt (p x)) ^ 2 ≤ 4 * ∑ x ∈ s, (f x - p x) ^ 2 / p x + 2 * δ := by
    have : ∑ x ∈ s, (Real.sqrt (q x) - Real.sqrt (p x)) ^ 2
        ≤ ∑ x ∈ s, (2 * (Real.sqrt (f x) - Real.sqrt (q x)) ^ 2 + 2 * (Real.sqrt (f x) - Real.sqrt (p x)) ^ 2) :=
      sum_le_sum fun x _ => by nlinarith [sq_nonneg (2 * Real.sqrt (f x) - Real.sqrt (q x) - Real.sqrt (p x))]
    rw [sum_add_distrib, ← mul_sum, ← mul_sum] at this
    linarith
  have h5 : ∑ x ∈ s, (Real.sqrt (q x) + Real.sqrt (p x)) ^ 2 ≤ 4 := by
    have : ∑ x ∈ s, (Real.sqrt (q x) + Real.sqrt (p x)) ^ 2 ≤ ∑ x ∈ s, (2 * q x + 2 * p x) :=
      sum_le_sum fun x hx => by
        nlinarith [sq_nonneg (Real.sqrt (q x) - Real.sqrt (p x)), Real.sq_sqrt (hq x hx).le, Real.sq_sqrt (hp x hx).le]
    rw [sum_add_distrib, ← mul_sum, ← mul_sum, hqs, hps] at this
    linarith
  have h6 : ∑ x ∈ s, |q x - p x| = ∑ x ∈ s, |Real.sqrt (q x) - Real.sqrt (p x)| * (Real.sqrt (q x) + Real.sqrt (p x)) :=
    sum_congr rfl fun x hx => by
      have e : q x - p x = (Real.sqrt (q x) - Real.sqrt (p x)) * (Real.sqrt (q x) + Real.sqrt (p x)) := by
        nlinarith [Real.sq_sqrt (hq x hx).le, Real.sq_sqrt (hp x hx).le]
      rw [e, abs_mul, abs_of_nonneg (by positivity : 0 ≤ Real.sqrt (q x) + Real.sqrt (p x))]
  rw [h6]
  refine (sum_mul_sq_le_sq_mul_sq s _ _).trans ?_
  simp only [sq_abs]
  have h7 : 0 ≤ ∑ x ∈ s, (Real.sqrt (q x) - Real.sqrt (p x)) ^ 2 := sum_nonneg fun _ _ => sq_nonneg _
  nlinarith

/-- A distribution that explains the frequencies `f` at least as well as `p` is as near to `p` as the frequencies are. -/
theorem distance_of_better (s : Finset ι) (f p q : ι → ℝ) (hf : ∀ x ∈ s, 0 ≤ f x) (hp : ∀ x ∈ s, 0 < p x) (hq : ∀ x ∈ s, 0 < q x)
    (hfs : ∑ x ∈ s, f x = 1) (hps : ∑ x ∈ s, p x = 1) (hqs : ∑ x ∈ s, q x = 1)
    (hbetter : ∑ x ∈ s, f x * Real.log (p x) ≤ ∑ x ∈ s, f x * Real.log (q x)) :
    (∑ x ∈ s, |q x - p x|) ^ 2 ≤ 16 * ∑ x ∈ s, (f x - p x) ^ 2 / p x := by
  simpa using distance_of_nearly_better s f p q hf hp hq hfs hps hqs 0 (by simpa using hbetter)

/-! ## Independent draws -/

section Draws

variable {X : Type*} [DecidableEq X] {N : ℕ} (A : Finset X) (p : X → ℝ) (hp : ∑ x ∈ A, p x = 1)

include hp in
theorem draws_prod (φ : Fin N → X → ℝ) :
    ∑ s ∈ Fintype.piFinset (fun _ : Fin N => A), (∏ i, p (s i)) * ∏ i, φ i (s i) = ∏ i, ∑ x ∈ A, p x * φ i x := by
  rw [prod_univ_sum]
  exact sum_congr rfl fun s _ => prod_mul_distrib.symm

include hp in
theorem draws_total : ∑ s ∈ Fintype.piFinset (fun _ : Fin N => A), ∏ i, p (s i) = 1 := by
  have h := draws_prod (N := N) A p hp fun _ _ => 1
  simpa [hp] using h

include hp in
theorem draws_single (i : Fin N) (g : X → ℝ) :
    ∑ s ∈ Fintype.piFinset (fun _ : Fin N => A), (∏ k, p (s k)) * g (s i) = ∑ x ∈ A, p x * g x := by
  have h := draws_prod (N := N) A p hp fun k x => if k = i then g x else 1
  have e : ∀ s : Fin N → X, (∏ k, if k = i then g (s k) else 1) = g (s i) := fun s => by
    rw [prod_ite_eq' univ i fun k => g (s k), if_pos (mem_univ i)]
  simp only [e] at h
  rw [h, prod_eq_single i]
  · simp
  · intro k _ hk
    simp [hk, hp]
  · simp

include hp in
theorem draws_pair (i j : Fin N) (hij : i ≠ j) (g h : X → ℝ) :
    ∑ s ∈ Fintype.piFinset (fun _ : Fin N => A), (∏ k, p (s k)) * (g (s i) * h (s j)) = (∑ x ∈ A, p x * g x) * ∑ x ∈ A, p x * h x := by
  have e0 := draws_prod (N := N) A p hp fun k x => (if k = i then g x else 1) * if k = j then h x else 1
  have e : ∀ s : Fin N → X, (∏ k, (if k = i then g (s k) else 1) * if k = j then h (s k) else 1) = g (s i) * h (s j) := fun s => by
    rw [prod_mul_distrib, prod_ite_eq' univ i fun k => g (s k), prod_ite_eq' univ j fun k => h (s k), if_pos (mem_univ i),
      if_pos (mem_univ j)]
  simp only [e] at e0
  rw [e0]
  have e1 : ∀ k : Fin N, (∑ x ∈ A, p x * ((if k = i then g x else 1) * if k = j then h x else 1))
      = (if k = i then ∑ x ∈ A, p x * g x else 1) * if k = j then ∑ x ∈ A, p x * h x else 1 := by
    intro k
    by_cases h1 : k = i
    · subst h1; simp [hij]
    · by_cases h2 : k = j
      · subst h2; simp [h1]
      · simp [h1, h2, hp]
  simp only [e1]
  rw [prod_mul_distrib, prod_ite_eq' univ i fun _ => ∑ x ∈ A, p x * g x, prod_ite_eq' univ j fun _ => ∑ x ∈ A, p x * h x,
    if_pos (mem_univ i), if_pos (mem_univ j)]

include hp in
/-- The variance of a sum of independent draws. -/
theorem draws_variance (g : X → ℝ) (hg : ∑ x ∈ A, p x * g x = 0) :
    ∑ s ∈ Fintype.piFinset (fun _ : Fin N => A), (∏ k, p (s k)) * (∑ i, g (s i)) ^ 2 = N * ∑ x ∈ A, p x * g x ^ 2 := by
  have e : ∀ s : Fin N → X, (∏ k, p (s k)) * (∑ i, g (s i)) ^ 2 = ∑ i, ∑ j, (∏ k, p (s k)) * (g (s i) * g (s j)) := fun s => by
    rw [sq, sum_mul_sum, mul_sum]
    exact sum_congr rfl fun i _ => mul_sum _ _ _
  simp only [e]
  rw [sum_comm]
  have e2 : ∀ i : Fin N, ∑ s ∈ Fintype.piFinset (fun _ : Fin N => A), ∑ j, (∏ k, p (s k)) * (g (s i) * g (s j)) = ∑ x ∈ A, p x * g x ^ 2 := by
    intro i
    rw [sum_comm, sum_eq_single i]
    · have := draws_single (N := N) A p hp i fun x => g x ^ 2
      simpa [sq] using this
    · intro j _ hj
      rw [draws_pair A p hp i j hj.symm, hg, zero_mul]
    · simp
  simp [e2]

end Draws

end Irt
