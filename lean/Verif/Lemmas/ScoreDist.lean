import Verif.Model.ScoreDist
import Verif.Spec.Scores
import Mathlib.Algebra.Polynomial.Coeff
import Mathlib.Algebra.Polynomial.BigOperators
import Mathlib.Algebra.Polynomial.Eval.Degree
import Mathlib.Algebra.BigOperators.NatAntidiagonal
import Mathlib.Algebra.BigOperators.Ring.Finset

/-! # Lemmas about the sum score recursion: generating polynomials -/

namespace Irt
open Polynomial

theorem length_addSlice (acc : List ℝ) (j : ℕ) (xs : List ℝ) :
    (addSlice acc j xs).length = acc.length := by simp [addSlice]

theorem addSlice_getD (acc : List ℝ) (j : ℕ) (xs : List ℝ) (k : ℕ) (hk : k < acc.length) :
    (addSlice acc j xs).getD k 0 =
      acc.getD k 0 + (if j ≤ k ∧ k - j < xs.length then xs.getD (k - j) 0 else 0) := by
  simp only [addSlice, List.getD_eq_getElem?_getD, List.getElem?_mapIdx,
    List.getElem?_eq_getElem hk, Option.map_some, Option.getD_some]
  by_cases h : j ≤ k ∧ k < j + xs.length
  · rw [if_pos h, if_pos ⟨h.1, by omega⟩, add_comm]
  · rw [if_neg h, if_neg (by omega), add_zero]

theorem foldl_addSlice (f : ℕ → List ℝ) (reps : ℕ) (init : List ℝ) (k : ℕ) (hk : k < init.length) :
    ((List.range reps).foldl (fun ns j => addSlice ns j (f j)) init).length = init.length ∧
    ((List.range reps).foldl (fun ns j => addSlice ns j (f j)) init).getD k 0 =
      init.getD k 0 + ∑ j ∈ Finset.range reps,
        (if j ≤ k ∧ k - j < (f j).length then (f j).getD (k - j) 0 else 0) := by
  induction reps with
  | zero => simp
  | succ n ih =>
    rw [List.range_succ, List.foldl_append, Finset.sum_range_succ]
    obtain ⟨h1, h2⟩ := ih
    simp only [List.foldl_cons, List.foldl_nil]
    refine ⟨by rw [length_addSlice, h1], ?_⟩
    rw [addSlice_getD _ _ _ _ (by rw [h1]; exact hk), h2]
    ring

theorem length_scoreStep (prev p : List ℝ) (c reps : ℕ) :
    (scoreStep prev p c reps).length = prev.length := by
  unfold scoreStep
  induction reps with
  | zero => simp
  | succ n ih =>
    rw [List.range_succ, List.foldl_append]
    simp only [List.foldl_cons, List.foldl_nil]
    rw [length_addSlice, ih]

theorem scoreStep_getD (prev p : List ℝ) (c reps : ℕ) (hc : c ≤ p.length) (k : ℕ)
    (hk : k < prev.length) :
    (scoreStep prev p c reps).getD k 0 =
      ∑ j ∈ Finset.range reps, if j ≤ k ∧ k - j < c then prev.getD j 0 * p.getD (k - j) 0 else 0 := by
  unfold scoreStep
  rw [(foldl_addSlice (fun j => (p.take c).map fun x => prev.getD j 0 * x) reps _ k
    (by simpa using hk)).2]
  have : (List.replicate prev.length (0 : ℝ)).getD k 0 = 0 := by
    simp [List.getD_eq_getElem?_getD, hk]
  rw [this, zero_add]
  refine Finset.sum_congr rfl fun j _ => ?_
  have hl : ((p.take c).map fun x => prev.getD j 0 * x).length = c := by simp [hc]
  rw [hl]
  split_ifs with h
  · have h3 : k - j < p.length := by omega
    simp [List.getD_eq_getElem?_getD, h.2, List.getElem?_eq_getElem h3]
  · rfl

/-- Generating polynomial of one item. -/
noncomputable def rowPoly (p : ℕ → ℝ) (c : ℕ) : ℝ[X] := ∑ k ∈ Finset.range c, C (p k) * X ^ k

theorem rowPoly_coeff (p : ℕ → ℝ) (c k : ℕ) : (rowPoly p c).coeff k = if k < c then p k else 0 := by
  simp [rowPoly, Polynomial.coeff_X_pow]

/-- Generating polynomial of the items in a list. -/
noncomputable def genPoly (ps : List (List ℝ)) (cs : List ℕ) : ℝ[X] :=
  (List.zipWith (fun p c => rowPoly (fun k => p.getD k 0) c) ps cs).prod

theorem scoreStep_coeff (Q : ℝ[X]) (prev p : List ℝ) (c reps : ℕ) (hc : c ≤ p.length)
    (hreps : reps ≤ prev.length) (hQ : ∀ k, reps ≤ k → Q.coeff k = 0)
    (hprev : ∀ k, k < prev.length → prev.getD k 0 = Q.coeff k) (k : ℕ) (hk : k < prev.length) :
    (scoreStep prev p c reps).getD k 0 = (Q * rowPoly (fun k => p.getD k 0) c).coeff k := by
  rw [scoreStep_getD prev p c reps hc k hk, Polynomial.coeff_mul,
    Finset.Nat.sum_antidiagonal_eq_sum_range_succ_mk]
  have e1 : ∀ j ∈ Finset.range reps,
      (if j ≤ k ∧ k - j < c then prev.getD j 0 * p.getD (k - j) 0 else 0) =
      if j ∈ Finset.range (k + 1) then Q.coeff j * (if k - j < c then p.getD (k - j) 0 else 0)
        else 0 := by
    intro j hj
    rw [Finset.mem_range] at hj
    rw [hprev j (by omega)]
    simp only [Finset.mem_range]
    by_cases h1 : j ≤ k
    · by_cases h2 : k - j < c
      · simp [h1, h2, Nat.lt_succ_of_le h1]
      · simp [h2]
    · have : ¬ j < k + 1 := by omega
      simp [h1, this]
  rw [Finset.sum_congr rfl e1, ← Finset.sum_filter, Finset.filter_mem_eq_inter, Finset.inter_comm,
    ← Finset.filter_mem_eq_inter, Finset.sum_filter]
  refine Finset.sum_congr rfl fun j _ => ?_
  rw [rowPoly_coeff]
  by_cases h : j ∈ Finset.range reps
  · rw [if_pos h]
  · rw [if_neg h, hQ j (by simpa using h), zero_mul]

theorem rowPoly_natDegree_le (p : ℕ → ℝ) (c k : ℕ) (h : c ≤ k) : (rowPoly p c).coeff k = 0 := by
  rw [rowPoly_coeff, if_neg (by omega)]

/-- Coefficients of a product vanish beyond the sum of the maxima. -/
theorem mul_rowPoly_coeff_zero (Q : ℝ[X]) (p : ℕ → ℝ) (c m : ℕ)
    (hQ : ∀ k, m + 1 ≤ k → Q.coeff k = 0) (k : ℕ) (hk : m + c ≤ k) :
    (Q * rowPoly p c).coeff k = 0 := by
  rw [Polynomial.coeff_mul]
  refine Finset.sum_eq_zero fun x hx => ?_
  rw [Finset.mem_antidiagonal] at hx
  by_cases h : m + 1 ≤ x.1
  · rw [hQ _ h, zero_mul]
  · rw [rowPoly_natDegree_le p c x.2 (by omega), mul_zero]

theorem scoreLoop_coeff (ps : List (List ℝ)) : ∀ (cs : List ℕ) (acc : List ℝ) (done : List ℕ)
    (Q : ℝ[X]), ps.length = cs.length →
    (∀ x ∈ List.zip ps cs, 1 ≤ x.2 ∧ x.2 ≤ x.1.length) → done.length ≤ done.sum →
    acc.length + cs.length = done.sum - done.length + 1 + cs.sum →
    (∀ k, done.sum - done.length + 1 ≤ k → Q.coeff k = 0) →
    (∀ k, k < acc.length → acc.getD k 0 = Q.coeff k) →
    (scoreLoop acc done ps cs).length = acc.length ∧
    ∀ k, k < acc.length → (scoreLoop acc done ps cs).getD k 0 = (Q * genPoly ps cs).coeff k := by
  induction ps with
  | nil =>
    intro cs acc done Q hl _ _ _ _ hacc
    obtain rfl : cs = [] := by simpa using hl.symm
    refine ⟨rfl, fun k hk => ?_⟩
    simp only [genPoly, List.zipWith_nil_left, List.prod_nil, mul_one]
    exact hacc k hk
  | cons p ps ih =>
    intro cs acc done Q hl hv hd hlen hQ hacc
    cases cs with
    | nil => simp at hl
    | cons c cs =>
      have hpc := hv (p, c) (by simp)
      have hcs : cs.length ≤ cs.sum := by
        have hrest : ∀ x ∈ List.zip ps cs, 1 ≤ x.2 ∧ x.2 ≤ x.1.length := fun x hx =>
          hv x (by simp [hx])
        have h1 : ∀ c ∈ cs, 1 ≤ c := by
          intro c' hc'
          obtain ⟨i, hi, rfl⟩ := List.getElem_of_mem hc'
          have hi' : i < ps.length := by simp at hl; omega
          exact (hrest (ps[i], cs[i]) (by
            rw [List.mem_iff_getElem]
            exact ⟨i, by simp [hi, hi'], by simp⟩)).1
        clear hv hrest hlen hl
        induction cs with
        | nil => simp
        | cons a l ih2 =>
          have := ih2 (fun c hc => h1 c (by simp [hc]))
          have := h1 a (by simp)
          simp; omega
      simp only [List.length_cons, List.sum_cons] at hlen
      have hreps : (((((done ++ [c]).sum : ℕ) : ℤ) - ((done ++ [c]).length : ℤ)) - (c : ℤ) + 2).toNat
          = done.sum - done.length + 1 := by
        simp only [List.sum_append, List.sum_cons, List.sum_nil, List.length_append,
          List.length_cons, List.length_nil]
        omega
      have hstep : scoreLoop acc done (p :: ps) (c :: cs) =
          scoreLoop (scoreStep acc p c (done.sum - done.length + 1)) (done ++ [c]) ps cs := by
        conv_lhs => rw [scoreLoop]
        simp only [hreps]
      rw [hstep]
      have hle : done.sum - done.length + 1 ≤ acc.length := by omega
      have hsl := length_scoreStep acc p c (done.sum - done.length + 1)
      obtain ⟨h1, h2⟩ := ih cs (scoreStep acc p c (done.sum - done.length + 1)) (done ++ [c])
        (Q * rowPoly (fun k => p.getD k 0) c) (by simpa using hl)
        (fun x hx => hv x (by simp [hx])) (by simp; omega) (by
          rw [hsl]; simp only [List.sum_append, List.sum_cons, List.sum_nil, List.length_append,
            List.length_cons, List.length_nil]; omega)
        (by
          intro k hk
          refine mul_rowPoly_coeff_zero Q _ c (done.sum - done.length) hQ k ?_
          simp only [List.sum_append, List.sum_cons, List.sum_nil, List.length_append,
            List.length_cons, List.length_nil] at hk
          omega)
        (by
          intro k hk
          rw [hsl] at hk
          exact scoreStep_coeff Q acc p c _ hpc.2 hle hQ hacc k hk)
      rw [hsl] at h1 h2
      refine ⟨h1, fun k hk => ?_⟩
      rw [h2 k hk]
      simp only [genPoly, List.zipWith_cons_cons, List.prod_cons, mul_assoc]

/-- The generating polynomial collects the response patterns by total score. -/
theorem genPoly_coeff (ps : List (List ℝ)) (cs : List ℕ) (h : ps.length = cs.length) (s : ℕ) :
    (genPoly ps cs).coeff s =
      sumScoreMass (fun i : Fin cs.length => cs[i]) (fun i k => (ps.getD i []).getD k 0) s := by
  have e : genPoly ps cs = ∏ i : Fin cs.length,
      ∑ k ∈ Finset.range cs[i], (C ((ps.getD i []).getD k 0) * X ^ k : ℝ[X]) := by
    rw [genPoly, ← List.prod_ofFn]
    congr 1
    apply List.ext_getElem
    · simp [h]
    · intro i h1 h2
      have hi : i < ps.length := by simp at h1; omega
      simp [rowPoly, List.getD_eq_getElem?_getD, List.getElem?_eq_getElem hi]
  rw [e, Finset.prod_univ_sum, Polynomial.finsetSum_coeff, sumScoreMass, Finset.sum_filter]
  refine Finset.sum_congr rfl fun r _ => ?_
  rw [Finset.prod_mul_distrib, Finset.prod_pow_eq_pow_sum, ← map_prod, Polynomial.coeff_C_mul,
    Polynomial.coeff_X_pow]
  by_cases hs : s = ∑ i, r i
  · rw [if_pos hs, if_pos hs.symm, mul_one]
  · rw [if_neg hs, if_neg (fun h => hs h.symm), mul_zero]

end Irt
