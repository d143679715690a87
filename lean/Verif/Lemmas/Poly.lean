import Verif.Model.Modules
import Verif.Lemmas.Torch
import Verif.Lemmas.Layout
import Mathlib.Analysis.Calculus.Deriv.Pow
import Mathlib.Analysis.Calculus.Deriv.Add
import Mathlib.Analysis.Calculus.Deriv.MeanValue
import Mathlib.Algebra.Polynomial.Eval.Coeff
import Mathlib.Algebra.Polynomial.Roots
import Mathlib.Tactic.Positivity
import Mathlib.Tactic.FieldSimp

/-! # Facts about the monotone polynomial module -/

namespace Irt

open Finset

/-- Value of the polynomial with the given coefficient list. -/
noncomputable def evalCoeffs (a : List ℝ) (x : ℝ) : ℝ := ∑ c ∈ range a.length, a.getD c 0 * x ^ c

theorem length_polyStep (al st : ℝ) (a : List ℝ) : (polyStep al st a).length = a.length + 2 := by
  simp [polyStep]

theorem polyStep_getD (al st : ℝ) (a : List ℝ) (r : ℕ) (h : r < a.length + 2) :
    (polyStep al st a).getD r 0 = ∑ b ∈ range a.length, polyMatrix al st r b * a.getD b 0 := by
  unfold polyStep
  rw [List.getD_eq_getElem?_getD, List.getElem?_map, List.getElem?_range h]
  simp [list_sum_range]

theorem polyMatrix_split (al st : ℝ) (r b : ℕ) : polyMatrix al st r b =
    (if r = b then 1 else 0) + (if r = b + 1 then -2 * al else 0) + (if r = b + 2 then al ^ 2 + st else 0) := by
  unfold polyMatrix
  by_cases h1 : r = b
  · subst h1; simp
  · by_cases h2 : r = b + 1
    · subst h2; simp
    · simp [h1, h2]

/-- Multiplying by the banded matrix multiplies the polynomial by `(1 - αx)² + τx²`. -/
theorem evalCoeffs_polyStep (al st : ℝ) (a : List ℝ) (x : ℝ) :
    evalCoeffs (polyStep al st a) x = evalCoeffs a x * ((1 - al * x) ^ 2 + st * x ^ 2) := by
  unfold evalCoeffs
  rw [length_polyStep]
  have h1 : ∀ r ∈ range (a.length + 2), (polyStep al st a).getD r 0 * x ^ r =
      ∑ b ∈ range a.length, polyMatrix al st r b * a.getD b 0 * x ^ r := by
    intro r hr
    rw [polyStep_getD al st a r (mem_range.1 hr), Finset.sum_mul]
  rw [sum_congr rfl h1, sum_comm, Finset.sum_mul]
  refine sum_congr rfl fun b hb => ?_
  have hb' := mem_range.1 hb
  have h2 : ∀ r ∈ range (a.length + 2), polyMatrix al st r b * a.getD b 0 * x ^ r =
      (if r = b then a.getD b 0 * x ^ b else 0) + (if r = b + 1 then -2 * al * a.getD b 0 * x ^ (b + 1) else 0) +
        (if r = b + 2 then (al ^ 2 + st) * a.getD b 0 * x ^ (b + 2) else 0) := by
    intro r _
    rw [polyMatrix_split]
    split_ifs <;> first | omega | (subst_vars; ring)
  rw [sum_congr rfl h2, sum_add_distrib, sum_add_distrib, sum_ite_eq', sum_ite_eq', sum_ite_eq']
  rw [if_pos (mem_range.2 (by omega)), if_pos (mem_range.2 (by omega)), if_pos (mem_range.2 (by omega))]
  ring

theorem foldl_poly (al st : ℕ → ℝ) (k : ℕ) (a0 : ℝ) :
    ((List.range k).foldl (fun a s => polyStep (al s) (st s) a) [a0]).length = 2 * k + 1 ∧
    ∀ x, evalCoeffs ((List.range k).foldl (fun a s => polyStep (al s) (st s) a) [a0]) x =
      a0 * ∏ s ∈ range k, ((1 - al s * x) ^ 2 + st s * x ^ 2) := by
  induction k with
  | zero => simp [evalCoeffs]
  | succ k ih =>
    rw [List.range_succ, List.foldl_append]
    simp only [List.foldl_cons, List.foldl_nil, length_polyStep, ih.1, evalCoeffs_polyStep, ih.2,
      prod_range_succ]
    exact ⟨by ring, fun x => by ring⟩

theorem MonoPoly.length_rawCoeffs (m : MonoPoly) (i o : ℕ) : (m.rawCoeffs i o).length = 2 * m.k + 1 :=
  (foldl_poly (fun s => m.alpha s i o) (fun s => softplus (m.tau s i o)) m.k (softplus (m.omega i o))).1

theorem MonoPoly.eval_rawCoeffs (m : MonoPoly) (i o : ℕ) (x : ℝ) : evalCoeffs (m.rawCoeffs i o) x =
    softplus (m.omega i o) *
      ∏ s ∈ range m.k, ((1 - m.alpha s i o * x) ^ 2 + softplus (m.tau s i o) * x ^ 2) :=
  (foldl_poly (fun s => m.alpha s i o) (fun s => softplus (m.tau s i o)) m.k (softplus (m.omega i o))).2 x

/-- The derivative polynomial is positive everywhere. -/
theorem MonoPoly.eval_rawCoeffs_pos (m : MonoPoly) (i o : ℕ) (x : ℝ) : 0 < evalCoeffs (m.rawCoeffs i o) x := by
  rw [m.eval_rawCoeffs]
  refine mul_pos (softplus_pos _) (prod_pos fun s _ => ?_)
  have h := softplus_pos (m.tau s i o)
  rcases eq_or_ne x 0 with rfl | hx
  · norm_num
  · have : 0 < softplus (m.tau s i o) * x ^ 2 := by positivity
    have := sq_nonneg (1 - m.alpha s i o * x)
    linarith

/-- The factor by which directions and masks scale a pair. -/
noncomputable def MonoPoly.gain (m : MonoPoly) (i o : ℕ) : ℝ := if m.related i o then m.direction i o else 0

theorem MonoPoly.coeffs_getD (m : MonoPoly) (i o c : ℕ) :
    (m.coeffs i o).getD c 0 = (m.rawCoeffs i o).getD c 0 * m.gain i o := by
  unfold MonoPoly.coeffs MonoPoly.gain
  rw [List.getD_eq_getElem?_getD, List.getElem?_map, List.getD_eq_getElem?_getD]
  cases (m.rawCoeffs i o)[c]? <;> simp

/-- The contribution of input `i` to output `o`. -/
noncomputable def MonoPoly.term (m : MonoPoly) (i o : ℕ) (x : ℝ) : ℝ :=
  ∑ c ∈ range (2 * m.k + 1), x ^ (c + 1) * ((m.coeffs i o).getD c 0 / ((c + 1 : ℕ) : ℝ))

theorem MonoPoly.forward_eq (m : MonoPoly) (x : ℕ → ℝ) (o : ℕ) : m.forward x o =
    ∑ i ∈ range m.inDim, m.term i o (x i) + (match m.intercept with | some b => b o | none => 0) := by
  unfold MonoPoly.forward
  rw [list_sum_range]
  simp only [list_sum_range, MonoPoly.term]
  rfl

theorem MonoPoly.term_hasDerivAt (m : MonoPoly) (i o : ℕ) (x : ℝ) :
    HasDerivAt (m.term i o) (m.gain i o * evalCoeffs (m.rawCoeffs i o) x) x := by
  have h : HasDerivAt (m.term i o)
      (∑ c ∈ range (2 * m.k + 1), ((c + 1 : ℕ) : ℝ) * x ^ c * ((m.coeffs i o).getD c 0 / ((c + 1 : ℕ) : ℝ))) x := by
    unfold MonoPoly.term
    refine HasDerivAt.fun_sum fun c _ => ?_
    have := (hasDerivAt_pow (c + 1) x).mul_const ((m.coeffs i o).getD c 0 / ((c + 1 : ℕ) : ℝ))
    simpa using this
  convert h using 1
  unfold evalCoeffs
  rw [m.length_rawCoeffs, Finset.mul_sum]
  refine sum_congr rfl fun c _ => ?_
  rw [m.coeffs_getD]
  have : ((c + 1 : ℕ) : ℝ) ≠ 0 := by positivity
  field_simp

theorem MonoPoly.forward_update (m : MonoPoly) (x : ℕ → ℝ) (o i : ℕ) (hi : i < m.inDim) (t : ℝ) :
    m.forward (Function.update x i t) o = m.term i o t + (m.forward x o - m.term i o (x i)) := by
  rw [m.forward_eq, m.forward_eq]
  have h1 : ∀ y : ℕ → ℝ, ∑ j ∈ range m.inDim, m.term j o (y j) =
      m.term i o (y i) + ∑ j ∈ (range m.inDim).erase i, m.term j o (y j) := fun y =>
    (add_sum_erase _ _ (mem_range.2 hi)).symm
  rw [h1 x, h1 (Function.update x i t)]
  have h2 : ∑ j ∈ (range m.inDim).erase i, m.term j o (Function.update x i t j) =
      ∑ j ∈ (range m.inDim).erase i, m.term j o (x j) := by
    refine sum_congr rfl fun j hj => ?_
    rw [Function.update_of_ne (ne_of_mem_erase hj)]
  rw [h2, Function.update_self]
  ring

theorem MonoPoly.term_strictMono (m : MonoPoly) (i o : ℕ) (h : 0 < m.gain i o) : StrictMono (m.term i o) := by
  refine strictMono_of_deriv_pos fun x => ?_
  rw [(m.term_hasDerivAt i o x).deriv]
  exact mul_pos h (m.eval_rawCoeffs_pos i o x)

theorem MonoPoly.term_monotone (m : MonoPoly) (i o : ℕ) (h : 0 ≤ m.gain i o) : Monotone (m.term i o) := by
  refine monotone_of_deriv_nonneg (fun x => (m.term_hasDerivAt i o x).differentiableAt) fun x => ?_
  rw [(m.term_hasDerivAt i o x).deriv]
  exact mul_nonneg h (m.eval_rawCoeffs_pos i o x).le

theorem MonoPoly.term_strictAnti (m : MonoPoly) (i o : ℕ) (h : m.gain i o < 0) : StrictAnti (m.term i o) := by
  refine strictAnti_of_deriv_neg fun x => ?_
  rw [(m.term_hasDerivAt i o x).deriv]
  exact mul_neg_of_neg_of_pos h (m.eval_rawCoeffs_pos i o x)

theorem MonoPoly.term_zero_gain (m : MonoPoly) (i o : ℕ) (h : m.gain i o = 0) (x : ℝ) : m.term i o x = 0 := by
  unfold MonoPoly.term
  refine sum_eq_zero fun c _ => ?_
  rw [m.coeffs_getD, h]; simp

theorem MonoPoly.term_zero (m : MonoPoly) (i o : ℕ) : m.term i o 0 = 0 := by
  unfold MonoPoly.term
  exact sum_eq_zero fun c _ => by simp

/-! ## Reported coefficients -/

theorem polyStep_scale (al st r : ℝ) (a : List ℝ) :
    polyStep al st (a.map fun v => v * r) = (polyStep al st a).map fun v => v * r := by
  unfold polyStep
  rw [List.length_map, List.map_map]
  refine List.map_congr_left fun q _ => ?_
  simp only [Function.comp, list_sum_range, Finset.sum_mul]
  refine sum_congr rfl fun b _ => ?_
  rw [List.getD_eq_getElem?_getD, List.getElem?_map, List.getD_eq_getElem?_getD]
  cases a[b]? <;> simp; ring

theorem foldl_reported (al st : ℕ → ℝ) (k : ℕ) (a0 : ℝ) :
    (List.range k).foldl (fun a s => (polyStep (al s) (st s) a).map fun v => v / ((s + 1 : ℕ) : ℝ)) [a0] =
    ((List.range k).foldl (fun a s => polyStep (al s) (st s) a) [a0]).map fun v => v * (k.factorial : ℝ)⁻¹ := by
  induction k with
  | zero => simp
  | succ k ih =>
    rw [List.range_succ, List.foldl_append, List.foldl_append]
    simp only [List.foldl_cons, List.foldl_nil, ih, polyStep_scale, List.map_map]
    refine List.map_congr_left fun v _ => ?_
    simp only [Function.comp, Nat.factorial_succ]
    push_cast
    rw [mul_inv]
    field_simp

/-- What the accessor really returns: the derivative's coefficients divided by `k!`. -/
theorem MonoPoly.reported_getD (m : MonoPoly) (i o c : ℕ) :
    (m.reportedCoeffs i o).getD c 0 = (m.rawCoeffs i o).getD c 0 * m.gain i o / m.k.factorial := by
  unfold MonoPoly.reportedCoeffs MonoPoly.gain
  rw [foldl_reported (fun s => m.alpha s i o) (fun s => softplus (m.tau s i o))]
  rw [List.map_map, List.getD_eq_getElem?_getD, List.getElem?_map, List.getD_eq_getElem?_getD]
  rw [show (List.range m.k).foldl (fun a s => polyStep (m.alpha s i o) (softplus (m.tau s i o)) a)
    [softplus (m.omega i o)] = m.rawCoeffs i o from rfl]
  cases (m.rawCoeffs i o)[c]? with
  | none => simp
  | some v =>
    simp only [Function.comp, Option.map_some, Option.getD_some]
    split_ifs <;> ring

/-- A polynomial without constant term determines its coefficients. -/
theorem coeff_unique (n : ℕ) (u v : ℕ → ℝ)
    (h : ∀ t : ℝ, ∑ c ∈ range n, u c * t ^ (c + 1) = ∑ c ∈ range n, v c * t ^ (c + 1)) :
    ∀ c < n, u c = v c := by
  intro c hc
  have hp : (∑ c ∈ range n, Polynomial.C (u c) * Polynomial.X ^ (c + 1) : Polynomial ℝ) =
      ∑ c ∈ range n, Polynomial.C (v c) * Polynomial.X ^ (c + 1) := by
    refine Polynomial.funext fun t => ?_
    simpa [Polynomial.eval_finsetSum] using h t
  have := congrArg (fun p => p.coeff (c + 1)) hp
  simpa [Polynomial.finsetSum_coeff, Polynomial.coeff_C_mul, Polynomial.coeff_X_pow, hc] using this

theorem polyStep_first (al st : ℝ) (a : List ℝ) (h : 0 < a.length) : (polyStep al st a).getD 0 0 = a.getD 0 0 := by
  rw [polyStep_getD al st a 0 (by omega)]
  have : ∀ b ∈ range a.length, polyMatrix al st 0 b * a.getD b 0 = if b = 0 then a.getD 0 0 else 0 := by
    intro b _
    rw [polyMatrix_split]
    by_cases hb : b = 0
    · subst hb; simp
    · have : ¬ (0 = b) := fun e => hb e.symm
      simp [hb, this]
  rw [sum_congr rfl this, sum_ite_eq', if_pos (mem_range.2 h)]

theorem polyStep_last (al st : ℝ) (a : List ℝ) (n : ℕ) (h : a.length = n + 1) :
    (polyStep al st a).getD (n + 2) 0 = (al ^ 2 + st) * a.getD n 0 := by
  rw [polyStep_getD al st a (n + 2) (by omega), h]
  have : ∀ b ∈ range (n + 1), polyMatrix al st (n + 2) b * a.getD b 0 =
      if b = n then (al ^ 2 + st) * a.getD n 0 else 0 := by
    intro b hb
    have := mem_range.1 hb
    rw [polyMatrix_split]
    by_cases hb : b = n
    · subst hb; simp
    · have h1 : ¬ (n + 2 = b) := by omega
      have h2 : ¬ (n + 2 = b + 1) := by omega
      have h3 : ¬ (n = b) := fun e => hb e.symm
      simp [hb, h1, h2, h3]
  rw [sum_congr rfl this, sum_ite_eq', if_pos (mem_range.2 (by omega))]

theorem foldl_first_last (al st : ℕ → ℝ) (hst : ∀ s, 0 < st s) (k : ℕ) (a0 : ℝ) (h0 : 0 < a0) :
    ((List.range k).foldl (fun a s => polyStep (al s) (st s) a) [a0]).getD 0 0 = a0 ∧
    0 < ((List.range k).foldl (fun a s => polyStep (al s) (st s) a) [a0]).getD (2 * k) 0 := by
  induction k with
  | zero => simpa using h0
  | succ k ih =>
    have hl := (foldl_poly al st k a0).1
    rw [List.range_succ, List.foldl_append]
    simp only [List.foldl_cons, List.foldl_nil]
    rw [polyStep_first _ _ _ (by omega), show 2 * (k + 1) = 2 * k + 2 by ring, polyStep_last _ _ _ _ hl]
    refine ⟨ih.1, mul_pos ?_ ih.2⟩
    have := hst k
    positivity

theorem MonoPoly.rawCoeffs_first_last (m : MonoPoly) (i o : ℕ) :
    (m.rawCoeffs i o).getD 0 0 = softplus (m.omega i o) ∧ 0 < (m.rawCoeffs i o).getD (2 * m.k) 0 :=
  foldl_first_last _ _ (fun _ => softplus_pos _) _ _ (softplus_pos _)

end Irt
