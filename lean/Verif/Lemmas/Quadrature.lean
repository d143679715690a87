import Verif.Model.Quadrature
import Verif.Spec.Quadrature
import Mathlib.MeasureTheory.Integral.Gamma
import Mathlib.Algebra.BigOperators.Fin

namespace Irt
open Spec

/-! ## Gaussian moments -/

theorem gaussian_moment_zero : ∫ t : ℝ, t ^ 0 * Real.exp (-t ^ 2) = Real.sqrt Real.pi := by
  have h := integral_gaussian 1
  simpa using h

theorem gaussian_moment_one : ∫ t : ℝ, t ^ 1 * Real.exp (-t ^ 2) = 0 := by
  have h := MeasureTheory.integral_neg_eq_self (fun t : ℝ => t ^ 1 * Real.exp (-t ^ 2)) MeasureTheory.volume
  have h2 : (∫ t : ℝ, (-t) ^ 1 * Real.exp (-(-t) ^ 2)) = -∫ t : ℝ, t ^ 1 * Real.exp (-t ^ 2) := by
    rw [← MeasureTheory.integral_neg]
    congr 1
    ext t
    ring_nf
  rw [h2] at h
  linarith

theorem gaussian_moment_three : ∫ t : ℝ, t ^ 3 * Real.exp (-t ^ 2) = 0 := by
  have h := MeasureTheory.integral_neg_eq_self (fun t : ℝ => t ^ 3 * Real.exp (-t ^ 2)) MeasureTheory.volume
  have h2 : (∫ t : ℝ, (-t) ^ 3 * Real.exp (-(-t) ^ 2)) = -∫ t : ℝ, t ^ 3 * Real.exp (-t ^ 2) := by
    rw [← MeasureTheory.integral_neg]
    congr 1
    ext t
    ring_nf
  rw [h2] at h
  linarith

theorem gaussian_moment_two : ∫ t : ℝ, t ^ 2 * Real.exp (-t ^ 2) = Real.sqrt Real.pi / 2 := by
  have h1 : (∫ t : ℝ, t ^ 2 * Real.exp (-t ^ 2)) = ∫ t : ℝ, (fun u : ℝ => u ^ 2 * Real.exp (-u ^ 2)) |t| := by
    congr 1
    ext t
    simp
  rw [h1, integral_comp_abs (f := fun u : ℝ => u ^ 2 * Real.exp (-u ^ 2))]
  have h2 := integral_rpow_mul_exp_neg_rpow (p := 2) (q := 2) (by norm_num) (by norm_num)
  have h3 : (∫ t in Set.Ioi (0 : ℝ), t ^ 2 * Real.exp (-t ^ 2))
      = ∫ t in Set.Ioi (0 : ℝ), t ^ (2 : ℝ) * Real.exp (-t ^ (2 : ℝ)) := by
    congr 1
    ext t
    norm_num
  rw [h3, h2]
  have h4 : Real.Gamma ((2 + 1) / 2) = Real.sqrt Real.pi / 2 := by
    have := Real.Gamma_add_one (s := 1 / 2) (by norm_num)
    rw [Real.Gamma_one_half_eq] at this
    rw [show ((2 : ℝ) + 1) / 2 = 1 / 2 + 1 by norm_num, this]
    ring
  rw [h4]
  ring

/-! ## Sums over product grids -/

theorem zipWith_flatMap_map {α β γ δ : Type} (F : δ → δ → β) (x w : List α) (xs ws : List γ)
    (c : α → γ → δ) (e : α → γ → δ) (hlen : xs.length = ws.length) :
    List.zipWith F (x.flatMap fun a => xs.map (c a)) (w.flatMap fun b => ws.map (e b))
      = (List.zipWith (fun a b => List.zipWith (fun u v => F (c a u) (e b v)) xs ws) x w).flatten := by
  induction x generalizing w with
  | nil => simp
  | cons a x ih =>
    cases w with
    | nil => simp
    | cons b w =>
      simp only [List.flatMap_cons, List.zipWith_cons_cons, List.flatten_cons]
      rw [List.zipWith_append (by simp [hlen]), ih]
      congr 1
      rw [List.zipWith_map]

theorem length_gridProduct (x : List ℝ) (d : ℕ) : (gridProduct x d).length = x.length ^ d := by
  induction d with
  | zero => rfl
  | succ d ih =>
    simp only [gridProduct, List.length_flatMap, List.length_map, ih]
    rw [List.map_const', List.sum_replicate, smul_eq_mul, pow_succ]
    ring

theorem sum_zipWith_mul_left {α β : Type} (c : ℝ) (f : α → β → ℝ) (x : List α) (w : List β) :
    (List.zipWith (fun a b => c * f a b) x w).sum = c * (List.zipWith f x w).sum := by
  induction x generalizing w with
  | nil => simp
  | cons a x ih =>
    cases w with
    | nil => simp
    | cons b w => simp [ih, mul_add]

theorem sum_zipWith_mul_right {α β : Type} (c : ℝ) (f : α → β → ℝ) (x : List α) (w : List β) :
    (List.zipWith (fun a b => f a b * c) x w).sum = (List.zipWith f x w).sum * c := by
  rw [mul_comm, ← sum_zipWith_mul_left]
  simp_rw [mul_comm]

/-- A weighted sum of a product over a product grid is the product of the one dimensional sums. -/
theorem gridProduct_sum (x w : List ℝ) (hlen : x.length = w.length) (d : ℕ) (g : Fin d → ℝ → ℝ) :
    (List.zipWith (fun u v => (∏ i, v i) * ∏ i, g i (u i)) (gridProduct x d) (gridProduct w d)).sum
      = ∏ i, (List.zipWith (fun a b => b * g i a) x w).sum := by
  induction d with
  | zero => simp [gridProduct]
  | succ d ih =>
    rw [gridProduct, gridProduct, zipWith_flatMap_map _ _ _ _ _ _ _
      (by rw [length_gridProduct, length_gridProduct, hlen]), List.sum_flatten, List.map_zipWith]
    simp only [Fin.prod_univ_succ, Fin.cons_zero, Fin.cons_succ]
    rw [← ih (fun i => g i.succ), ← sum_zipWith_mul_right]
    congr 1
    congr 1
    funext a b
    rw [← sum_zipWith_mul_left]
    congr 1
    congr 1
    funext u v
    ring

/-- The weighted sum that `gauss_hermite` computes, in the standardised nodes. -/
noncomputable def nodeSum {d : ℕ} (x w : List ℝ) (f : (Fin d → ℝ) → ℝ) : ℝ :=
  (List.zipWith (fun u v : Fin d → ℝ => (∏ i, v i) * Real.pi ^ (-(1 / 2 : ℝ) * d) * f u)
    (gridProduct x d) (gridProduct w d)).sum

theorem sum_zipWith_add {α β : Type} (f g : α → β → ℝ) (x : List α) (w : List β) :
    (List.zipWith (fun a b => f a b + g a b) x w).sum
      = (List.zipWith f x w).sum + (List.zipWith g x w).sum := by
  induction x generalizing w with
  | nil => simp
  | cons a x ih =>
    cases w with
    | nil => simp
    | cons b w => simp only [List.zipWith_cons_cons, List.sum_cons, ih]; ring

theorem nodeSum_add {d : ℕ} (x w : List ℝ) (f g : (Fin d → ℝ) → ℝ) :
    nodeSum x w (fun u => f u + g u) = nodeSum x w f + nodeSum x w g := by
  unfold nodeSum
  rw [← sum_zipWith_add]
  simp only [mul_add]

theorem nodeSum_mul {d : ℕ} (x w : List ℝ) (c : ℝ) (f : (Fin d → ℝ) → ℝ) :
    nodeSum x w (fun u => c * f u) = c * nodeSum x w f := by
  unfold nodeSum
  rw [← sum_zipWith_mul_left]
  congr 2
  funext u v
  ring

theorem nodeSum_zero {d : ℕ} (x w : List ℝ) : nodeSum (d := d) x w (fun _ => 0) = 0 := by
  have := nodeSum_mul (d := d) x w 0 (fun _ => 0)
  simpa using this

theorem nodeSum_sum {d : ℕ} {ι : Type} (s : Finset ι) (x w : List ℝ) (f : ι → (Fin d → ℝ) → ℝ) :
    nodeSum x w (fun u => ∑ j ∈ s, f j u) = ∑ j ∈ s, nodeSum x w (f j) := by
  classical
  induction s using Finset.induction_on with
  | empty => simpa using nodeSum_zero (d := d) x w
  | insert a s ha ih => simp only [Finset.sum_insert ha, nodeSum_add, ih]

theorem pi_pow_const (d : ℕ) :
    Real.pi ^ (-(1 / 2 : ℝ) * d) = ∏ _i : Fin d, (Real.sqrt Real.pi)⁻¹ := by
  rw [Finset.prod_const, Finset.card_univ, Fintype.card_fin, Real.rpow_mul_natCast Real.pi_pos.le,
    Real.rpow_neg Real.pi_pos.le, Real.sqrt_eq_rpow]

theorem nodeSum_monomial {d n : ℕ} {x w : List ℝ} (h : HermiteExact n x w) (e : Fin d → ℕ)
    (he : ∀ i, e i < 2 * n) :
    nodeSum x w (fun u => ∏ i, u i ^ e i)
      = ∏ i, (Real.sqrt Real.pi)⁻¹ * ∫ t : ℝ, t ^ e i * Real.exp (-t ^ 2) := by
  have h1 : nodeSum x w (fun u => ∏ i, u i ^ e i)
      = Real.pi ^ (-(1 / 2 : ℝ) * d) * (List.zipWith (fun u v : Fin d → ℝ => (∏ i, v i) * ∏ i, u i ^ e i)
        (gridProduct x d) (gridProduct w d)).sum := by
    unfold nodeSum
    rw [← sum_zipWith_mul_left]
    congr 2
    funext u v
    ring
  rw [h1, gridProduct_sum x w (h.1.trans h.2.1.symm) d (fun i a => a ^ e i), pi_pow_const,
    ← Finset.prod_mul_distrib]
  refine Finset.prod_congr rfl fun i _ => ?_
  rw [h.2.2 _ (he i)]

theorem sqrt_pi_ne : Real.sqrt Real.pi ≠ 0 := (Real.sqrt_pos.mpr Real.pi_pos).ne'

theorem nodeSum_one {d n : ℕ} (hn : 1 ≤ n) {x w : List ℝ} (h : HermiteExact n x w) :
    nodeSum (d := d) x w (fun _ => 1) = 1 := by
  have := nodeSum_monomial h (d := d) (fun _ => 0) (fun _ => by omega)
  rw [gaussian_moment_zero] at this
  simpa [sqrt_pi_ne] using this

theorem prod_pow_single {d : ℕ} (u : Fin d → ℝ) (j : Fin d) (k : ℕ) :
    ∏ i, u i ^ (if i = j then k else 0) = u j ^ k := by
  rw [Finset.prod_eq_single j]
  · simp
  · intro i _ hi; simp [hi]
  · simp

theorem nodeSum_first {d n : ℕ} (hn : 1 ≤ n) {x w : List ℝ} (h : HermiteExact n x w) (j : Fin d) :
    nodeSum x w (fun u => u j) = 0 := by
  have := nodeSum_monomial h (fun i => if i = j then 1 else 0) (fun i => by split <;> omega)
  simp only [prod_pow_single, pow_one] at this
  rw [this]
  refine Finset.prod_eq_zero (Finset.mem_univ j) ?_
  rw [if_pos rfl, gaussian_moment_one, mul_zero]

theorem nodeSum_second {d n : ℕ} (hn : 2 ≤ n) {x w : List ℝ} (h : HermiteExact n x w) (j k : Fin d) :
    nodeSum x w (fun u => u j * u k) = if j = k then 1 / 2 else 0 := by
  by_cases hjk : j = k
  · subst hjk
    have := nodeSum_monomial h (fun i => if i = j then 2 else 0) (fun i => by split <;> omega)
    simp only [prod_pow_single, pow_two] at this
    rw [if_pos rfl, this, Finset.prod_eq_single j]
    · rw [if_pos rfl]
      simp only [← pow_two]
      rw [gaussian_moment_two]
      field_simp [sqrt_pi_ne]
    · intro i _ hi
      rw [if_neg hi]
      simp only [← pow_two]
      rw [gaussian_moment_zero, inv_mul_cancel₀ sqrt_pi_ne]
    · simp
  · have := nodeSum_monomial h (fun i => (if i = j then 1 else 0) + (if i = k then 1 else 0))
      (fun i => by
        split
        · rename_i hi; rw [if_neg (by rw [hi]; exact hjk)]; omega
        · split <;> omega)
    simp only [pow_add, Finset.prod_mul_distrib, prod_pow_single, pow_one] at this
    rw [if_neg hjk, this]
    refine mul_eq_zero_of_right _ ?_
    refine Finset.prod_eq_zero (Finset.mem_univ j) ?_
    rw [if_pos rfl, if_neg hjk]
    simpa using gaussian_moment_one

end Irt
