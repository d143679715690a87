import Verif.Props.SumScores
import Verif.Props.ScoreOrder
import Verif.Spec.TestScores

/-! # Lemmas: test score distributions of ordered items -/

namespace Irt

open Finset Polynomial

/-! ## Means of functions of the score -/

/-- The mean of `h` under the score distribution with generating polynomial `Q`. -/
noncomputable def polyMean (h : ℕ → ℝ) : ℝ[X] →ₗ[ℝ] ℝ := Polynomial.lsum fun s => (h s) • LinearMap.id

theorem polyMean_monomial (h : ℕ → ℝ) (n : ℕ) (a : ℝ) : polyMean h (monomial n a) = h n * a := by
  simp [polyMean, Polynomial.lsum_apply, Polynomial.sum_monomial_index]

theorem polyMean_range (h : ℕ → ℝ) (Q : ℝ[X]) (N : ℕ) (hN : ∀ s, N ≤ s → Q.coeff s = 0) :
    polyMean h Q = ∑ s ∈ range N, h s * Q.coeff s := by
  conv_lhs => rw [Polynomial.as_sum_range_C_mul_X_pow' Q (n := max N (Q.natDegree + 1)) (by omega)]
  rw [map_sum]
  simp only [C_mul_X_pow_eq_monomial, polyMean_monomial]
  symm
  refine sum_subset (by intro s; simp only [mem_range]; omega) fun s _ hs => ?_
  rw [hN s (by simpa using hs), mul_zero]

theorem polyMean_shift (h : ℕ → ℝ) (a : ℝ) (k : ℕ) (Q : ℝ[X]) :
    polyMean h (C a * X ^ k * Q) = a * polyMean (fun s => h (k + s)) Q := by
  induction Q using Polynomial.induction_on' with
  | add p q hp hq => rw [mul_add, map_add, hp, hq, map_add, mul_add]
  | monomial n b =>
    rw [C_mul_X_pow_eq_monomial, monomial_mul_monomial, polyMean_monomial, polyMean_monomial]
    ring

theorem polyMean_row (h : ℕ → ℝ) (p : ℕ → ℝ) (c : ℕ) (Q : ℝ[X]) :
    polyMean h (rowPoly p c * Q) = ∑ k ∈ range c, p k * polyMean (fun s => h (k + s)) Q := by
  rw [rowPoly, sum_mul, map_sum]
  exact sum_congr rfl fun k _ => polyMean_shift h (p k) k Q

/-- Row `p'` dominates row `p` on `c` categories: every function that does not fall has at least the same mean. -/
def RowDominates (c : ℕ) (p p' : ℕ → ℝ) : Prop :=
  ∀ h : ℕ → ℝ, Monotone h → ∑ k ∈ range c, p k * h k ≤ ∑ k ∈ range c, p' k * h k

theorem polyMean_mono (cs : List ℕ) : ∀ (ps ps' : List (List ℝ)), ps.length = cs.length → ps'.length = cs.length →
    (∀ (j : ℕ) c p p', cs[j]? = some c → ps[j]? = some p → ps'[j]? = some p' →
      RowDominates c (fun k => p.getD k 0) (fun k => p'.getD k 0) ∧ ∀ k, 0 ≤ p'.getD k 0) →
    (∀ p ∈ ps, ∀ k, 0 ≤ p.getD k 0) →
    ∀ h : ℕ → ℝ, Monotone h → polyMean h (genPoly ps cs) ≤ polyMean h (genPoly ps' cs) := by
  induction cs with
  | nil =>
    intro ps ps' h1 h2 _ _ h _
    simp [genPoly, List.length_eq_zero_iff.1 h1, List.length_eq_zero_iff.1 h2]
  | cons c cs ih =>
    intro ps ps' h1 h2 hd hn h hh
    match ps, ps', h1, h2 with
    | p :: ps, p' :: ps', h1, h2 =>
      have e : ∀ (q : List ℝ) qs, genPoly (q :: qs) (c :: cs) = rowPoly (fun k => q.getD k 0) c * genPoly qs cs := by
        intro q qs; simp [genPoly]
      rw [e, e, polyMean_row, polyMean_row]
      obtain ⟨hdom, hnn⟩ := hd 0 c p p' rfl rfl rfl
      have hrest : ∀ g : ℕ → ℝ, Monotone g → polyMean g (genPoly ps cs) ≤ polyMean g (genPoly ps' cs) := by
        refine ih ps ps' (by simpa using h1) (by simpa using h2) (fun j c' q q' a1 a2 a3 => ?_) fun q hq => hn q (by simp [hq])
        exact hd (j + 1) c' q q' a1 a2 a3
      refine le_trans (sum_le_sum fun k _ => mul_le_mul_of_nonneg_left
        (hrest (fun s => h (k + s)) fun a b hab => hh (by omega)) (hn p (by simp) k)) ?_
      refine hdom (fun k => polyMean (fun s => h (k + s)) (genPoly ps' cs)) fun k l hkl => ?_
      -- the mean of the other items is monotone in the shift: their generating polynomial has nonnegative coefficients
      have hcoef : ∀ s, 0 ≤ (genPoly ps' cs).coeff s := by
        intro s
        rw [genPoly_coeff ps' cs (by simpa using h2)]
        refine sum_nonneg fun r _ => prod_nonneg fun i _ => ?_
        have hi : (i : ℕ) < ps'.length := by have := i.2; simp at h2; omega
        have hi1 : (i : ℕ) < ps.length := by have := i.2; simp at h1; omega
        show 0 ≤ (ps'.getD i []).getD (r i) 0
        rw [List.getD_eq_getElem _ _ hi]
        exact (hd (i + 1) cs[i] _ _ (by simp) (List.getElem?_eq_getElem (by simpa using hi1))
          (List.getElem?_eq_getElem (by simpa using hi))).2 (r i)
      have hN : ∀ s, (genPoly ps' cs).natDegree + 1 ≤ s → (genPoly ps' cs).coeff s = 0 := fun s hs =>
        Polynomial.coeff_eq_zero_of_natDegree_lt (by omega)
      simp only
      rw [polyMean_range _ _ _ hN, polyMean_range _ _ _ hN]
      exact sum_le_sum fun s _ => mul_le_mul_of_nonneg_right (hh (by omega)) (hcoef s)

/-- Summation by parts. -/
theorem sum_by_tails (c : ℕ) (p h : ℕ → ℝ) : ∑ k ∈ range c, p k * h k =
    h 0 * ∑ k ∈ range c, p k + ∑ x ∈ range c, (h (x + 1) - h x) * ∑ k ∈ range c with x + 1 ≤ k, p k := by
  have e : ∀ k ∈ range c, p k * h k = h 0 * p k + ∑ x ∈ range c, if x + 1 ≤ k then (h (x + 1) - h x) * p k else 0 := by
    intro k hk
    rw [← sum_filter, ← sum_mul]
    have : (range c).filter (fun x => x + 1 ≤ k) = range k := by
      ext x; simp only [mem_filter, mem_range] at *; omega
    rw [this, sum_range_sub]; ring
  rw [sum_congr rfl e, sum_add_distrib, ← mul_sum, sum_comm]
  congr 1
  refine sum_congr rfl fun x _ => ?_
  rw [mul_sum, sum_filter]

theorem rowDominates_of_tails (c : ℕ) (p p' : ℕ → ℝ) (h1 : ∑ k ∈ range c, p k = ∑ k ∈ range c, p' k)
    (ht : ∀ x, ∑ k ∈ range c with x ≤ k, p k ≤ ∑ k ∈ range c with x ≤ k, p' k) : RowDominates c p p' := by
  intro h hh
  rw [sum_by_tails c p, sum_by_tails c p', h1]
  refine add_le_add_right (sum_le_sum fun x _ => mul_le_mul_of_nonneg_left (ht (x + 1)) (sub_nonneg.2 (hh (by omega)))) _

/-- The tail of a list of category probabilities. -/
theorem atLeast_filter (p : List ℝ) (x : ℕ) : atLeast p x = ∑ k ∈ range p.length with x ≤ k, p.getD k 0 := by
  rw [atLeast_eq]
  refine sum_congr ?_ fun _ _ => rfl
  ext k; simp only [mem_Ico, mem_filter, mem_range]; omega

theorem rowDominates_of_scoresHigher {c M : ℕ} {p p' : List ℝ} (hp : IsDistribution c M p) (hp' : IsDistribution c M p')
    (hc : c ≤ M) (h : ScoresHigher p p') : RowDominates c (fun k => p.getD k 0) (fun k => p'.getD k 0) := by
  have cut : ∀ q : List ℝ, IsDistribution c M q → ∀ x, ∑ k ∈ range c with x ≤ k, q.getD k 0 = atLeast q x := by
    intro q hq x
    rw [atLeast_filter, hq.length]
    refine sum_subset (by intro k; simp only [mem_filter, mem_range]; omega) fun k hk hk' => ?_
    simp only [mem_filter, mem_range] at hk hk'
    rw [List.getD_eq_getElem?_getD, hq.missing k (by omega) hk.1]; rfl
  have total : ∀ q : List ℝ, IsDistribution c M q → ∑ k ∈ range c, q.getD k 0 = 1 := by
    intro q hq
    have := cut q hq 0
    simp only [Nat.zero_le, filter_true] at this
    rw [this, atLeast, List.drop_zero, hq.sum_one]
  refine rowDominates_of_tails c _ _ (by rw [total p hp, total p' hp']) fun x => ?_
  rw [cut p hp, cut p' hp']
  exact h.1 x

/-- Ranked categories dominate. -/
theorem RankedItem.dominates {P : (Fin 1 → ℝ) → ℕ → ℕ → ℝ} {j c : ℕ} (h : RankedItem P j c) (θ θ' : Fin 1 → ℝ)
    (hθ : θ 0 ≤ θ' 0) : RowDominates c (P θ j) (P θ' j) := by
  refine rowDominates_of_tails c _ _ (by rw [h.sum_one, h.sum_one]) fun x => ?_
  have split : ∀ t, ∑ k ∈ range c with x ≤ k, P t j k + ∑ k ∈ range c with ¬ x ≤ k, P t j k = 1 := fun t => by
    rw [sum_filter_add_sum_filter_not, h.sum_one]
  have key : (∑ k ∈ range c with ¬ x ≤ k, P θ' j k) * ∑ k ∈ range c with x ≤ k, P θ j k
      ≤ (∑ k ∈ range c with ¬ x ≤ k, P θ j k) * ∑ k ∈ range c with x ≤ k, P θ' j k := by
    rw [sum_mul_sum, sum_mul_sum]
    refine sum_le_sum fun r hr => sum_le_sum fun r' hr' => ?_
    simp only [mem_filter, mem_range] at hr hr'
    exact h.ratio θ θ' hθ r r' (by omega) hr'.1
  have a := eq_sub_of_add_eq' (split θ)
  have b := eq_sub_of_add_eq' (split θ')
  rw [a, b] at key
  linarith

/-! ## Right/wrong items -/

/-- The distribution of the number of right answers, for success probabilities `l`, with integer index. -/
noncomputable def rightMass : List ℝ → ℤ → ℝ
  | [], s => if s = 0 then 1 else 0
  | π :: l, s => (1 - π) * rightMass l s + π * rightMass l (s - 1)

theorem rightMass_zero (l : List ℝ) : ∀ s : ℤ, s < 0 ∨ l.length < s → rightMass l s = 0 := by
  induction l with
  | nil => intro s hs; simp at hs; simp [rightMass]; omega
  | cons a l ih => intro s hs; simp at hs; simp only [rightMass]; rw [ih s (by omega), ih (s - 1) (by omega)]; ring

theorem rightMass_pos (l : List ℝ) (hl : ∀ π ∈ l, 0 < π ∧ π < 1) : ∀ s : ℤ, 0 ≤ s → s ≤ l.length → 0 < rightMass l s := by
  induction l with
  | nil => intro s h0 h1; simp at h1; simp [rightMass, le_antisymm h1 h0]
  | cons π l ih =>
    intro s h0 h1
    have ih := ih fun x hx => hl x (by simp [hx])
    have hπ := hl π (by simp)
    push_cast [List.length_cons] at h1
    have hz : ∀ s, 0 ≤ rightMass l s := by
      intro s
      by_cases h : 0 ≤ s ∧ s ≤ l.length
      · exact (ih s h.1 h.2).le
      · rw [rightMass_zero l s (by omega)]
    simp only [rightMass]
    by_cases h : s ≤ l.length
    · have := mul_pos (sub_pos.2 hπ.2) (ih s h0 h)
      have := mul_nonneg hπ.1.le (hz (s - 1))
      linarith
    · have := mul_pos hπ.1 (ih (s - 1) (by omega) (by omega))
      have := mul_nonneg (sub_pos.2 hπ.2).le (hz s)
      linarith

theorem rightMass_nonneg (l : List ℝ) (hl : ∀ π ∈ l, 0 < π ∧ π < 1) (s : ℤ) : 0 ≤ rightMass l s := by
  by_cases h : 0 ≤ s ∧ s ≤ l.length
  · exact (rightMass_pos l hl s h.1 h.2).le
  · rw [rightMass_zero l s (by omega)]

/-- Newton's inequality for the number of right answers: strict inside the range of scores. -/
theorem rightMass_concave (l : List ℝ) (hl : ∀ π ∈ l, 0 < π ∧ π < 1) :
    (∀ s t : ℤ, s ≤ t → rightMass l s * rightMass l (t + 1) ≤ rightMass l (s + 1) * rightMass l t) ∧
    ∀ s t : ℤ, s < t → -1 ≤ s → t ≤ l.length →
      rightMass l s * rightMass l (t + 1) < rightMass l (s + 1) * rightMass l t := by
  induction l with
  | nil =>
    constructor
    · intro s t hst
      simp only [rightMass]
      split_ifs <;> first | omega | norm_num
    · intro s t hst h1 h3
      simp at h3
      have : s = -1 := by omega
      have : t = 0 := by omega
      subst_vars
      simp [rightMass]
  | cons π l ih =>
    have hl' : ∀ x ∈ l, 0 < x ∧ x < 1 := fun x hx => hl x (by simp [hx])
    obtain ⟨ih1, ih2⟩ := ih hl'
    have hπ := hl π (by simp)
    have hq : 0 < 1 - π := sub_pos.2 hπ.2
    have nn := rightMass_nonneg l hl'
    -- the three parts of the difference
    have diff : ∀ s t : ℤ, rightMass (π :: l) (s + 1) * rightMass (π :: l) t - rightMass (π :: l) s * rightMass (π :: l) (t + 1)
        = (1 - π) ^ 2 * (rightMass l (s + 1) * rightMass l t - rightMass l s * rightMass l (t + 1))
          + π ^ 2 * (rightMass l s * rightMass l (t - 1) - rightMass l (s - 1) * rightMass l t)
          + π * (1 - π) * (rightMass l (s + 1) * rightMass l (t - 1) - rightMass l (s - 1) * rightMass l (t + 1)) := by
      intro s t
      simp only [rightMass, add_sub_cancel_right]
      ring
    have p1 : ∀ s t : ℤ, s ≤ t → 0 ≤ rightMass l (s + 1) * rightMass l t - rightMass l s * rightMass l (t + 1) := fun s t h =>
      sub_nonneg.2 (ih1 s t h)
    have p2 : ∀ s t : ℤ, s ≤ t → 0 ≤ rightMass l s * rightMass l (t - 1) - rightMass l (s - 1) * rightMass l t := by
      intro s t h
      have := ih1 (s - 1) (t - 1) (by omega)
      simp only [sub_add_cancel] at this
      linarith
    have p3 : ∀ s t : ℤ, s ≤ t → 0 ≤ rightMass l (s + 1) * rightMass l (t - 1) - rightMass l (s - 1) * rightMass l (t + 1) := by
      intro s t h
      rcases eq_or_lt_of_le h with rfl | h'
      · rw [mul_comm]; linarith
      · have a := ih1 s (t - 1) (by omega)
        have b := ih1 (s - 1) t (by omega)
        simp only [sub_add_cancel] at a b
        linarith
    constructor
    · intro s t h
      have := diff s t
      have := mul_nonneg (sq_nonneg (1 - π)) (p1 s t h)
      have := mul_nonneg (sq_nonneg π) (p2 s t h)
      have := mul_nonneg (mul_nonneg hπ.1.le hq.le) (p3 s t h)
      linarith
    · intro s t h h1 h3
      push_cast [List.length_cons] at h3
      rcases eq_or_lt_of_le h1 with rfl | h1
      · have z : rightMass (π :: l) (-1) = 0 := rightMass_zero _ _ (by omega)
        rw [z, zero_mul]
        have a := rightMass_pos (π :: l) hl (-1 + 1) (by norm_num) (by simp; omega)
        have b := rightMass_pos (π :: l) hl t (by omega) (by push_cast [List.length_cons]; omega)
        exact mul_pos a b
      · have := diff s t
        have := mul_nonneg (sq_nonneg (1 - π)) (p1 s t h.le)
        have := mul_nonneg (mul_nonneg hπ.1.le hq.le) (p3 s t h.le)
        have st : 0 < rightMass l s * rightMass l (t - 1) - rightMass l (s - 1) * rightMass l t := by
          have := ih2 (s - 1) (t - 1) (by omega) (by omega) (by omega)
          simp only [sub_add_cancel] at this
          linarith
        have := mul_pos (pow_pos hπ.1 2) st
        linarith

theorem rightMass_perm {l l' : List ℝ} (h : l.Perm l') : ∀ s, rightMass l s = rightMass l' s := by
  induction h with
  | nil => intro s; rfl
  | cons a _ ih => intro s; simp only [rightMass, ih]
  | swap a b l => intro s; simp only [rightMass]; ring
  | trans _ _ h1 h2 => intro s; rw [h1, h2]

/-- Raising one success probability. -/
theorem rightMass_raise (π π' : ℝ) (l : List ℝ) (hl : ∀ x ∈ l, 0 < x ∧ x < 1) (hle : π ≤ π') (s t : ℤ) (hst : s ≤ t) :
    rightMass (π' :: l) s * rightMass (π :: l) t ≤ rightMass (π :: l) s * rightMass (π' :: l) t ∧
    (π < π' → s < t → 0 ≤ s → t ≤ l.length + 1 →
      rightMass (π' :: l) s * rightMass (π :: l) t < rightMass (π :: l) s * rightMass (π' :: l) t) := by
  obtain ⟨c1, c2⟩ := rightMass_concave l hl
  have d : rightMass (π :: l) s * rightMass (π' :: l) t - rightMass (π' :: l) s * rightMass (π :: l) t
      = (π' - π) * (rightMass l s * rightMass l (t - 1) - rightMass l (s - 1) * rightMass l t) := by
    simp only [rightMass]; ring
  have a := c1 (s - 1) (t - 1) (by omega)
  simp only [sub_add_cancel] at a
  constructor
  · have := mul_nonneg (sub_nonneg.2 hle) (sub_nonneg.2 a)
    linarith
  · intro hlt h1 h2 h3
    have b := c2 (s - 1) (t - 1) (by omega) (by omega) (by omega)
    simp only [sub_add_cancel] at b
    have := mul_pos (sub_pos.2 hlt) (sub_pos.2 b)
    linarith

/-- Raising any of the success probabilities. -/
theorem rightMass_ratio {l l' : List ℝ} (h : List.Forall₂ (· ≤ ·) l l') : ∀ pre : List ℝ, (∀ x ∈ pre, 0 < x ∧ x < 1) →
    (∀ x ∈ l, 0 < x ∧ x < 1) → (∀ x ∈ l', 0 < x ∧ x < 1) → ∀ s t : ℤ, s ≤ t →
    rightMass (pre ++ l') s * rightMass (pre ++ l) t ≤ rightMass (pre ++ l) s * rightMass (pre ++ l') t ∧
    (l ≠ l' → s < t → 0 ≤ s → t ≤ (pre ++ l).length →
      rightMass (pre ++ l') s * rightMass (pre ++ l) t < rightMass (pre ++ l) s * rightMass (pre ++ l') t) := by
  induction h with
  | nil => intro pre _ _ _ s t _; exact ⟨by rw [mul_comm], fun h => absurd rfl h⟩
  | @cons π π' l l' hπ hll ih =>
    intro pre hpre hl hl' s t hst
    have hlen : l.length = l'.length := hll.length_eq
    have hl1 : ∀ x ∈ l, 0 < x ∧ x < 1 := fun x hx => hl x (by simp [hx])
    have hl2 : ∀ x ∈ l', 0 < x ∧ x < 1 := fun x hx => hl' x (by simp [hx])
    have hmid : ∀ x ∈ pre ++ l, 0 < x ∧ x < 1 := by
      intro x hx; rcases List.mem_append.1 hx with h | h
      · exact hpre x h
      · exact hl1 x h
    have e1 : ∀ s, rightMass (pre ++ π :: l) s = rightMass (π :: (pre ++ l)) s := rightMass_perm List.perm_middle
    have e2 : ∀ s, rightMass (pre ++ π' :: l) s = rightMass (π' :: (pre ++ l)) s := rightMass_perm List.perm_middle
    obtain ⟨a1, a2⟩ := rightMass_raise π π' (pre ++ l) hmid hπ s t hst
    rw [← e1, ← e1, ← e2, ← e2] at a1 a2
    obtain ⟨b1, b2⟩ := ih (pre ++ [π']) (by
      intro x hx; rcases List.mem_append.1 hx with h | h
      · exact hpre x h
      · rw [List.mem_singleton] at h; rw [h]; exact hl' π' (by simp)) hl1 hl2 s t hst
    simp only [List.append_assoc, List.singleton_append] at b1 b2
    have all1 : ∀ x ∈ pre ++ π :: l, 0 < x ∧ x < 1 := by
      intro x hx; rcases List.mem_append.1 hx with h | h
      · exact hpre x h
      · exact hl x h
    have all2 : ∀ x ∈ pre ++ π' :: l, 0 < x ∧ x < 1 := by
      intro x hx; rcases List.mem_append.1 hx with h | h
      · exact hpre x h
      · rcases List.mem_cons.1 h with rfl | h
        · exact hl' _ (by simp)
        · exact hl1 x h
    have all3 : ∀ x ∈ pre ++ π' :: l', 0 < x ∧ x < 1 := by
      intro x hx; rcases List.mem_append.1 hx with h | h
      · exact hpre x h
      · exact hl' x h
    have n1 := rightMass_nonneg _ all1
    have n2 := rightMass_nonneg _ all2
    have n3 := rightMass_nonneg _ all3
    by_cases hin : 0 ≤ s ∧ t ≤ (pre ++ π :: l).length
    · have hs2 : 0 < rightMass (pre ++ π' :: l) s := rightMass_pos _ all2 s hin.1 (by
        have := hin.2; simp at this ⊢; omega)
      have ht2 : 0 < rightMass (pre ++ π' :: l) t := rightMass_pos _ all2 t (by omega) (by
        have := hin.2; simp at this ⊢; omega)
      have hs1 : 0 < rightMass (pre ++ π :: l) s := rightMass_pos _ all1 s hin.1 (by
        have := hin.2; simp at this ⊢; omega)
      have ht3 : 0 < rightMass (pre ++ π' :: l') t := rightMass_pos _ all3 t (by omega) (by
        have := hin.2; simp at this ⊢; omega)
      have ht1 : 0 < rightMass (pre ++ π :: l) t := rightMass_pos _ all1 t (by omega) hin.2
      generalize rightMass (pre ++ π :: l) s = f at *
      generalize rightMass (pre ++ π :: l) t = F at *
      generalize rightMass (pre ++ π' :: l) s = g at *
      generalize rightMass (pre ++ π' :: l) t = G at *
      generalize rightMass (pre ++ π' :: l') s = k at *
      generalize rightMass (pre ++ π' :: l') t = K at *
      have hgG : 0 < g * G := mul_pos hs2 ht2
      constructor
      · refine le_of_mul_le_mul_right ?_ hgG
        calc k * F * (g * G) = (k * G) * (g * F) := by ring
          _ ≤ (g * K) * (f * G) := mul_le_mul b1 a1 (mul_nonneg hs2.le ht1.le) (mul_nonneg hs2.le ht3.le)
          _ = f * K * (g * G) := by ring
      · intro hne hlt h0 h1
        refine lt_of_mul_lt_mul_right ?_ hgG.le
        rcases eq_or_lt_of_le hπ with rfl | hπ'
        · have b := b2 (fun h => hne (by rw [h])) hlt h0 h1
          calc k * F * (g * G) = (k * G) * (g * F) := by ring
            _ < (g * K) * (f * G) := by
              exact mul_lt_mul b a1 (mul_pos hs2 ht1) (mul_pos hs2 ht3).le
            _ = f * K * (g * G) := by ring
        · have a := a2 hπ' hlt h0 (by simpa [add_assoc] using h1)
          calc k * F * (g * G) = (k * G) * (g * F) := by ring
            _ < (g * K) * (f * G) := by
              exact mul_lt_mul' b1 a (mul_pos hs2 ht1).le (mul_pos hs2 ht3)
            _ = f * K * (g * G) := by ring
    · have z : rightMass (pre ++ π' :: l') s * rightMass (pre ++ π :: l) t = 0 := by
        by_cases h0 : 0 ≤ s
        · rw [rightMass_zero (pre ++ π :: l) t (by omega), mul_zero]
        · rw [rightMass_zero (pre ++ π' :: l') s (by omega), zero_mul]
      rw [z]
      refine ⟨mul_nonneg (n1 s) (n3 t), fun _ _ h0 h1 => absurd ⟨h0, h1⟩ hin⟩

/-- The generating polynomial of right/wrong items. -/
theorem genPoly_right : ∀ (t : List (List ℝ)), (∀ p ∈ t, p.getD 0 0 = 1 - p.getD 1 0) → ∀ s : ℕ,
    (genPoly t (List.replicate t.length 2)).coeff s = rightMass (t.map fun p => p.getD 1 0) s := by
  intro t
  induction t with
  | nil => intro _ s; simp [genPoly, rightMass, Polynomial.coeff_one]
  | cons p t ih =>
    intro h s
    have ih := ih fun q hq => h q (by simp [hq])
    have e : genPoly (p :: t) (List.replicate (p :: t).length 2)
        = rowPoly (fun k => p.getD k 0) 2 * genPoly t (List.replicate t.length 2) := by
      simp [genPoly, List.replicate_succ]
    rw [e, rowPoly, sum_range_succ, sum_range_one, add_mul, Polynomial.coeff_add, pow_zero, mul_one, pow_one, mul_assoc,
      Polynomial.coeff_C_mul, Polynomial.coeff_C_mul, ih s]
    simp only [List.map_cons, rightMass]
    rw [h p (by simp)]
    congr 2
    cases s with
    | zero => rw [Polynomial.coeff_X_mul_zero]; exact (rightMass_zero _ _ (by simp)).symm
    | succ s => rw [Polynomial.coeff_X_mul, ih s]; congr 1; push_cast; ring

/-! ## The table of a model -/

/-- No score beyond the sum of the highest categories. -/
theorem genPoly_bound : ∀ (cs : List ℕ) (ps : List (List ℝ)), ps.length = cs.length → (∀ c ∈ cs, 1 ≤ c) → ∀ s,
    (cs.map (· - 1)).sum + 1 ≤ s → (genPoly ps cs).coeff s = 0 := by
  intro cs
  induction cs with
  | nil => intro ps h _ s hs; simp [genPoly, List.length_eq_zero_iff.1 h, Polynomial.coeff_one]; simp at hs; omega
  | cons c cs ih =>
    intro ps h hc s hs
    match ps, h with
    | p :: ps, h =>
      have e : genPoly (p :: ps) (c :: cs) = rowPoly (fun k => p.getD k 0) c * genPoly ps cs := by simp [genPoly]
      rw [e, Polynomial.coeff_mul]
      refine sum_eq_zero fun x hx => ?_
      rw [mem_antidiagonal] at hx
      have h1 := hc c (by simp)
      simp only [List.map_cons, List.sum_cons] at hs
      by_cases hk : x.1 < c
      · rw [ih ps (by simpa using h) (fun c hcs => hc c (by simp [hcs])) x.2 (by omega), mul_zero]
      · rw [rowPoly_coeff, if_neg hk, zero_mul]

/-- Every score up to the highest is possible when every category is. -/
theorem genPoly_pos : ∀ (cs : List ℕ) (ps : List (List ℝ)), ps.length = cs.length → (∀ c ∈ cs, 1 ≤ c) →
    (∀ (j : ℕ) p c, ps[j]? = some p → cs[j]? = some c → AllPositive c p) → ∀ s,
    s ≤ (cs.map (· - 1)).sum → 0 < (genPoly ps cs).coeff s := by
  intro cs
  induction cs with
  | nil => intro ps h _ _ s hs; simp at hs; simp [genPoly, List.length_eq_zero_iff.1 h, hs]
  | cons c cs ih =>
    intro ps h hc hpos s hs
    match ps, h with
    | p :: ps, h =>
      have hl : ps.length = cs.length := by simpa using h
      have hc' : ∀ c ∈ cs, 1 ≤ c := fun c hcs => hc c (by simp [hcs])
      have h1 := hc c (by simp)
      have ih := ih ps hl hc' fun j q c' a b => hpos (j + 1) q c' a b
      have e : genPoly (p :: ps) (c :: cs) = rowPoly (fun k => p.getD k 0) c * genPoly ps cs := by simp [genPoly]
      have hp : ∀ k, k < c → 0 < p.getD k 0 := by
        intro k hk
        obtain ⟨x, hx, h0⟩ := hpos 0 p c rfl rfl k hk
        rw [List.getD_eq_getElem?_getD, hx]; exact h0
      rw [e, Polynomial.coeff_mul]
      simp only [List.map_cons, List.sum_cons] at hs
      refine sum_pos' (fun x _ => mul_nonneg ?_ ?_) ⟨(min s (c - 1), s - min s (c - 1)), by
        rw [mem_antidiagonal]; simp only; omega, mul_pos ?_ ?_⟩
      · rw [rowPoly_coeff]; split
        · exact (hp _ (by assumption)).le
        · exact le_refl _
      · by_cases hx : x.2 ≤ (cs.map (· - 1)).sum
        · exact (ih _ hx).le
        · rw [genPoly_bound cs ps hl hc' _ (by omega)]
      · rw [rowPoly_coeff, if_pos (by simp only; omega)]; exact hp _ (by simp only; omega)
      · exact ih _ (by simp only; omega)

/-- The score distribution of a probability table, with its generating polynomial. -/
theorem score_dist (cats : List ℕ) (hcats : cats ≠ []) (M : ℕ) (hM : ∀ c ∈ cats, 1 ≤ c ∧ c ≤ M) (t : List (List ℝ))
    (ht : IsTable cats M t) :
    ∃ d, conditionalScoreDistribution t cats = .ok d ∧ d.length = (cats.map (· - 1)).sum + 1 ∧
      (∀ s, d.getD s 0 = (genPoly t cats).coeff s) ∧
      (∀ x, atLeast d x = polyMean (fun s => if x ≤ s then 1 else 0) (genPoly t cats)) ∧
      meanScore d = polyMean (fun s => (s : ℝ)) (genPoly t cats) := by
  obtain ⟨d, h1, h2, -, -, h5⟩ := point_plain cats hcats M hM t ht
  have hbound := genPoly_bound cats t ht.1 fun c hc => (hM c hc).1
  have hd : ∀ s, d.getD s 0 = (genPoly t cats).coeff s := by
    intro s
    by_cases hs : s < d.length
    · rw [h5 s hs, genPoly_coeff t cats ht.1]
      simp only [tableProb_getD]
    · rw [hbound s (by omega), List.getD_eq_default _ _ (by omega)]
  refine ⟨d, h1, h2, hd, fun x => ?_, ?_⟩
  · rw [atLeast_filter, polyMean_range _ _ d.length fun s hs => hbound s (by omega), sum_filter]
    refine sum_congr rfl fun k _ => ?_
    rw [hd k]; split <;> simp
  · rw [meanScore, polyMean_range _ _ d.length fun s hs => hbound s (by omega)]
    exact sum_congr rfl fun k _ => by rw [hd k]

theorem score_dominance (cats : List ℕ) (hcats : cats ≠ []) (M : ℕ) (hM : ∀ c ∈ cats, 1 ≤ c ∧ c ≤ M) (t t' : List (List ℝ))
    (ht : IsTable cats M t) (ht' : IsTable cats M t')
    (h : ∀ (j : ℕ) c p p', cats[j]? = some c → t[j]? = some p → t'[j]? = some p' →
      RowDominates c (fun k => p.getD k 0) (fun k => p'.getD k 0)) :
    ∃ d d', conditionalScoreDistribution t cats = .ok d ∧ conditionalScoreDistribution t' cats = .ok d' ∧ ScoresHigher d d' := by
  obtain ⟨d, a1, -, -, a4, a5⟩ := score_dist cats hcats M hM t ht
  obtain ⟨d', b1, -, -, b4, b5⟩ := score_dist cats hcats M hM t' ht'
  have nn : ∀ (u : List (List ℝ)), IsTable cats M u → ∀ p ∈ u, ∀ k, 0 ≤ p.getD k 0 := by
    intro u hu p hp k
    obtain ⟨j, hj⟩ := List.mem_iff_getElem?.1 hp
    obtain ⟨c, hc⟩ := getElem?_of_lt cats j (by rw [← hu.1]; exact lt_of_getElem?_some hj)
    rw [List.getD_eq_getElem?_getD]
    cases hk : p[k]? with
    | none => simp
    | some x => exact (hu.2 j p c hj hc).nonneg x (List.mem_of_getElem? hk)
  have mono := polyMean_mono cats t t' ht.1 ht'.1 (fun j c p p' hc hp hp' => ⟨h j c p p' hc hp hp', fun k =>
    nn t' ht' p' (List.mem_of_getElem? hp') k⟩) (nn t ht)
  refine ⟨d, d', a1, b1, fun x => ?_, ?_⟩
  · rw [a4, b4]
    refine mono _ fun a b hab => ?_
    split_ifs <;> first | omega | norm_num
  · rw [a5, b5]
    exact mono _ fun a b hab => by exact_mod_cast hab

end Irt
