import Verif.Spec.Ordered
import Verif.Lemmas.Layout
import Mathlib.Algebra.Order.BigOperators.Group.Finset

/-! # Ordering of multinomial logits -/

namespace Irt

open Finset

theorem atLeast_eq (p : List ℝ) (x : ℕ) : atLeast p x = ∑ k ∈ Ico x p.length, p.getD k 0 := by
  unfold atLeast
  induction p generalizing x with
  | nil => simp
  | cons a p ih =>
    cases x with
    | zero =>
      have := ih 0
      simp only [List.drop_zero] at this
      rw [List.drop_zero, List.sum_cons, this, List.length_cons, ← Finset.range_eq_Ico, ← Finset.range_eq_Ico,
        Finset.sum_range_succ']
      simp [add_comm]
    | succ x =>
      rw [List.drop_succ_cons, ih, List.length_cons,
        ← Finset.sum_Ico_add' (fun k => (a :: p).getD k 0) x p.length 1]
      simp

theorem meanScore_eq (p : List ℝ) : meanScore p = ∑ x ∈ range p.length, atLeast p (x + 1) := by
  unfold meanScore
  simp only [atLeast_eq]
  have h : ∀ k ∈ range p.length, (k : ℝ) * p.getD k 0 = ∑ x ∈ range p.length, if x < k then p.getD k 0 else 0 := by
    intro k hk
    have hk' := mem_range.1 hk
    rw [← Finset.sum_filter, Finset.sum_const]
    have : (range p.length).filter (fun x => x < k) = range k := by
      ext x; simp; omega
    rw [this]; simp
  rw [sum_congr rfl h, sum_comm]
  refine sum_congr rfl fun x _ => ?_
  rw [← Finset.sum_filter]
  refine sum_congr ?_ fun _ _ => rfl
  ext k; simp; omega

theorem scoresHigher_of_tails (p p' : List ℝ) (hl : p.length = p'.length)
    (h : ∀ x, atLeast p x ≤ atLeast p' x) : ScoresHigher p p' := by
  refine ⟨h, ?_⟩
  rw [meanScore_eq, meanScore_eq, hl]
  exact sum_le_sum fun x _ => h _

theorem multinomialLogit_getD (c M : ℕ) (h : c ≤ M) (l : ℕ → ℝ) (k : ℕ) : (multinomialLogit c M l).getD k 0 =
    if k < c then Real.exp (l k) / ∑ x ∈ range c, Real.exp (l x) else 0 := by
  unfold multinomialLogit
  rw [List.getD_eq_getElem?_getD, List.getElem?_map]
  by_cases hk : k < M
  · rw [List.getElem?_range hk]; simp
  · rw [List.getElem?_eq_none (by simpa using hk)]
    have : ¬ k < c := by omega
    simp [this]

theorem multinomialLogit_atLeast (c M : ℕ) (h : c ≤ M) (l : ℕ → ℝ) (x : ℕ) :
    atLeast (multinomialLogit c M l) x =
      (∑ k ∈ Ico x c, Real.exp (l k)) / ∑ k ∈ range c, Real.exp (l k) := by
  rw [atLeast_eq]
  simp only [multinomialLogit_getD c M h]
  have : (multinomialLogit c M l).length = M := by simp [multinomialLogit]
  rw [this, ← Finset.sum_filter, Finset.sum_div]
  refine sum_congr ?_ fun _ _ => rfl
  ext k; simp; omega

/-- Logits whose increments grow with the category shift the distribution upwards. -/
theorem multinomialLogit_ordered (c M : ℕ) (hc : 0 < c) (h : c ≤ M) (l l' : ℕ → ℝ)
    (hm : ∀ j k, j ≤ k → k < c → l' j - l j ≤ l' k - l k) :
    ScoresHigher (multinomialLogit c M l) (multinomialLogit c M l') := by
  refine scoresHigher_of_tails _ _ (by simp [multinomialLogit]) fun x => ?_
  rw [multinomialLogit_atLeast c M h, multinomialLogit_atLeast c M h]
  by_cases hx : x ≤ c
  · have split : ∀ f : ℕ → ℝ, ∑ k ∈ range c, Real.exp (f k) =
        ∑ k ∈ range x, Real.exp (f k) + ∑ k ∈ Ico x c, Real.exp (f k) := fun f =>
      (Finset.sum_range_add_sum_Ico _ hx).symm
    have hp : ∀ f : ℕ → ℝ, 0 < ∑ k ∈ range c, Real.exp (f k) := fun f =>
      sum_pos (fun _ _ => Real.exp_pos _) ⟨0, mem_range.2 hc⟩
    rw [div_le_div_iff₀ (hp l) (hp l'), split l, split l', mul_add, mul_add]
    have key : (∑ k ∈ Ico x c, Real.exp (l k)) * ∑ k ∈ range x, Real.exp (l' k) ≤
        (∑ k ∈ Ico x c, Real.exp (l' k)) * ∑ k ∈ range x, Real.exp (l k) := by
      rw [Finset.sum_mul_sum, Finset.sum_mul_sum]
      refine sum_le_sum fun k hk => sum_le_sum fun j hj => ?_
      have hk' := mem_Ico.1 hk
      have hj' := mem_range.1 hj
      rw [← Real.exp_add, ← Real.exp_add, Real.exp_le_exp]
      have := hm j k (by omega) hk'.2
      linarith
    linarith
  · rw [Finset.Ico_eq_empty (by omega)]; simp

/-- A category whose logit grows at least as much as every other becomes at least as likely. -/
theorem multinomialLogit_key (c M : ℕ) (h : c ≤ M) (l l' : ℕ → ℝ) (key : ℕ) (hk : key < c)
    (hm : ∀ j, j < c → l' j - l j ≤ l' key - l key) :
    (multinomialLogit c M l).getD key 0 ≤ (multinomialLogit c M l').getD key 0 := by
  rw [multinomialLogit_getD c M h, multinomialLogit_getD c M h, if_pos hk, if_pos hk]
  have hp : ∀ f : ℕ → ℝ, 0 < ∑ k ∈ range c, Real.exp (f k) := fun f =>
    sum_pos (fun _ _ => Real.exp_pos _) ⟨key, mem_range.2 hk⟩
  rw [div_le_div_iff₀ (hp l) (hp l'), Finset.mul_sum, Finset.mul_sum]
  refine sum_le_sum fun j hj => ?_
  rw [← Real.exp_add, ← Real.exp_add, Real.exp_le_exp]
  have := hm j (mem_range.1 hj)
  linarith

end Irt
