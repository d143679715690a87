import Verif.Props.Booklets
import Verif.Props.GradedIdentified

/-! # C158: graded response models in booklets -/

namespace Irt
open Spec MeasureTheory Filter Topology

section Graded

variable {cats : List ℕ} {α β γ : ℝ} (h2 : ∀ c ∈ cats, 2 ≤ c) (hγ : 0 < γ) {π : Finset (Fin cats.length) → ℝ} (hπ : ∀ T, 0 ≤ π T) (hsum : ∑ T, π T = 1)
  (hdesign : ∀ j, ∃ k l, j ≠ k ∧ j ≠ l ∧ k ≠ l ∧ Together π j k ∧ Together π j l ∧ Together π k l)

include h2 hγ hdesign in
/-- If for every item there are two others, such that each two of the three are together in some booklet that is handed out, what is seen determines the
slopes and the intercepts of a graded response model. -/
theorem C158_grm_identified (hα : 0 < α) {p q : GRMParams cats} (hp : p ∈ GRMBounds cats α β γ) (hq : q ∈ GRMBounds cats α β γ)
    (h : ∀ z ∈ possiblySeen cats (byBooklet π),
      seenFrom cats (byBooklet π) (normalProb (fun θ : Fin 1 → ℝ => tableProb ((grmWith p).probs (List.ofFn θ))) 1) z
        = seenFrom cats (byBooklet π) (normalProb (fun θ : Fin 1 → ℝ => tableProb ((grmWith q).probs (List.ofFn θ))) 1) z) : p = q := by
  have hM : ∀ T, 0 < π T → ∀ j ∈ T, ∀ k, 0 < k → k < cats[j] → rightOne (p.1 j) (grmIntercept p j k) = rightOne (q.1 j) (grmIntercept q j k) := by
    intro T hT j hj k h0 hk
    rw [← grmWith_right h2 hγ hp j k h0 hk, ← grmWith_right h2 hγ hq j k h0 hk]
    have := booklet_average h hT fun z => if k ≤ (z j).getD 0 then 1 else 0
    simpa only [seenOf, if_pos hj, Option.getD_some] using this
  have hJ : ∀ T, 0 < π T → ∀ j ∈ T, ∀ k ∈ T, j ≠ k → rightBoth (p.1 j) (grmIntercept p j 1) (p.1 k) (grmIntercept p k 1)
      = rightBoth (q.1 j) (grmIntercept q j 1) (q.1 k) (grmIntercept q k 1) := by
    intro T hT j hj k hk hjk
    rw [← grmWith_both h2 hγ hp hjk, ← grmWith_both h2 hγ hq hjk]
    have := booklet_average h hT fun z => (if 1 ≤ (z j).getD 0 then 1 else 0) * if 1 ≤ (z k).getD 0 then 1 else 0
    simpa only [seenOf, if_pos hj, if_pos hk, Option.getD_some] using this
  have ha : ∀ j, p.1 j = q.1 j := by
    intro j
    obtain ⟨k, l, n1, n2, n3, tjk, tjl, tkl⟩ := hdesign j
    let u : Fin 3 → Fin cats.length := ![j, k, l]
    have htog : ∀ i i', i ≠ i' → Together π (u i) (u i') := by
      intro i i' hne
      fin_cases i <;> fin_cases i'
      exacts [absurd rfl hne, tjk, tjl, together_symm tjk, absurd rfl hne, tkl, together_symm tjl, together_symm tkl, absurd rfl hne]
    have hu : ∀ i i', i ≠ i' → u i ≠ u i' := by
      intro i i' hne
      fin_cases i <;> fin_cases i'
      exacts [absurd rfl hne, n1, n2, n1.symm, absurd rfl hne, n3, n2.symm, n3.symm, absurd rfl hne]
    have hid := momentsAt_identified (ι := Fin 3) Matrix.PosDef.one (0 : Fin 1) (by decide)
      (fun i => p.1 (u i), fun i => grmIntercept p (u i) 1) (fun i => q.1 (u i), fun i => grmIntercept q (u i) 1)
      (fun i => hα.trans_le (hp.1 _)) (fun i => hα.trans_le (hq.1 _))
      (fun i => by
        obtain ⟨T, hT, hm, _⟩ := htog i (i + 1) (by fin_cases i <;> decide)
        exact hM T hT _ hm 1 one_pos (h2 _ (List.getElem_mem (u i).2)))
      (fun i i' hne => by
        obtain ⟨T, hT, hm, hm'⟩ := htog i i' hne
        exact hJ T hT _ hm _ hm' (hu i i' hne))
    exact congrFun (Prod.mk.inj hid).1 0
  refine Prod.ext (funext ha) (funext fun j => funext fun k => ?_)
  by_cases hk : (k : ℕ) = 0 ∨ cats[j] ≤ (k : ℕ)
  · rw [hp.2.2.2.1 j k hk, hq.2.2.2.1 j k hk]
  · push Not at hk
    have h0 : 0 < (k : ℕ) := Nat.pos_of_ne_zero hk.1
    obtain ⟨_, _, _, _, _, ⟨T, hT, mj, _⟩, _⟩ := hdesign j
    have e := hM T hT j mj k h0 hk.2
    rw [grmIntercept_eq p j k h0 hk.2, grmIntercept_eq q j k h0 hk.2, ha j] at e
    rcases lt_trichotomy (p.2 j k) (q.2 j k) with g | g | g
    · exact absurd e (rightOne_mono _ g).ne
    · exact g
    · exact absurd e (rightOne_mono _ g).ne'

variable {hg : ℕ → Except PyErr (List ℝ × List ℝ)} (hrules : ExactRules hg)
  {ch : Matrix (Fin 1) (Fin 1) ℝ → Except PyErr (Matrix (Fin 1) (Fin 1) ℝ)} {L : Matrix (Fin 1) (Fin 1) ℝ} (hL : ch 1 = .ok L) (hchol : IsCholesky 1 L)

include h2 hγ hπ hsum hdesign hrules hL hchol in
/-- C158 for the graded response model: slopes and intercepts are recovered from booklets. -/
theorem C158_grm (hne : cats ≠ []) (hα : 0 < α) (p₀ : GRMParams cats) (h₀ : p₀ ∈ GRMBounds cats α β γ) (ε : ℝ) (hε : 0 < ε) :
    ∃ n₀ : ℕ, 1 ≤ n₀ ∧ ∀ risk : ℝ, 0 < risk → ∃ N₀ : ℕ, ∀ n, n₀ ≤ n → ∀ N, N₀ ≤ N →
      ∀ pts lw, mmlIntegration hg ch "gauss_hermite" (some n) none = .ok (pts, lw) →
      ∀ estimate : (Fin N → Fin cats.length → Option ℕ) → GRMParams cats,
      (∀ s ∈ seenSamples N cats (byBooklet π), estimate s ∈ GRMBounds cats α β γ ∧
        ∃ L L' : ℝ, mmlLoss ((grmWith p₀).scorer 1) (rowsOf N cats.length (seenCells s)) pts lw = .ok (some L) ∧
          mmlLoss ((grmWith (estimate s)).scorer 1) (rowsOf N cats.length (seenCells s)) pts lw = .ok (some L') ∧ L' ≤ L) →
      ∀ far : Finset (Fin N → Fin cats.length → Option ℕ), far ⊆ seenSamples N cats (byBooklet π) →
        (∀ s ∈ far, ∃ j, ε ≤ |(estimate s).1 j - p₀.1 j| ∨ ∃ k, ε ≤ |(estimate s).2 j k - p₀.2 j k|) →
        ∑ s ∈ far, seenSampleProb (seenFrom cats (byBooklet π)
          (normalProb (fun θ : Fin 1 → ℝ => tableProb ((grmWith p₀).probs (List.ofFn θ))) 1)) s ≤ risk := by
  classical
  have hU : IsOpen {p : GRMBounds cats α β γ | ∀ j, |p.1.1 j - p₀.1 j| < ε ∧ ∀ k, |p.1.2 j k - p₀.2 j k| < ε} := by
    simp only [Set.ofPred_forall, Set.ofPred_and]
    exact isOpen_iInter_of_finite fun j => (isOpen_lt (by fun_prop) continuous_const).inter
      (isOpen_iInter_of_finite fun k => isOpen_lt (by fun_prop) continuous_const)
  have hK : IsCompact (Set.univ : Set (GRMBounds cats α β γ)) := isCompact_iff_isCompact_univ.1 (grmBounds_compact cats α β γ)
  obtain ⟨n₀, h1, h⟩ := C158_parameters (byBooklet_asking cats hπ hsum) (fun p : GRMBounds cats α β γ => (grmWith p.1).scorer 1)
    (fun p θ => tableProb ((grmWith p.1).probs (List.ofFn θ))) (fun p => grmWith_isScorer hγ hne p.2) (fun p => grmWith_positive h2 hγ p.2)
    (fun p => grmWith_proper h2 p.1)
    (fun j r => Continuous.comp (g := fun q : GRMParams cats × (Fin 1 → ℝ) => tableProb ((grmWith q.1).probs (List.ofFn q.2)) j r)
      (f := fun q : GRMBounds cats α β γ × (Fin 1 → ℝ) => (q.1.1, q.2)) (grmWith_jointly h2 j r) (by fun_prop))
    (fun p => grmWith_le_one h2 p.1) hrules none (Or.inl ⟨rfl, rfl⟩) Matrix.PosDef.one hL hchol _ hK ⟨p₀, h₀⟩
    (fun p _ hb => Subtype.ext (C158_grm_identified h2 hγ hdesign hα p.2 h₀ hb)) _ hU (fun j => ⟨by simpa using hε, fun k => by simpa using hε⟩)
  refine ⟨n₀, h1, fun risk hrisk => ?_⟩
  obtain ⟨N₀, hN₀⟩ := h risk hrisk
  refine ⟨N₀, fun n hn N hN pts lw hok estimate hest far hfar hout => ?_⟩
  refine hN₀ n hn N hN pts lw hok (fun s => if hs : estimate s ∈ GRMBounds cats α β γ then ⟨estimate s, hs⟩ else ⟨p₀, h₀⟩)
    (fun s hs => ⟨trivial, ?_⟩) far hfar fun s hs hin => ?_
  · rw [dif_pos (hest s hs).1]
    exact (hest s hs).2
  · rw [dif_pos (hest s (hfar hs)).1] at hin
    obtain ⟨j, hj | ⟨k, hk⟩⟩ := hout s hs
    · exact absurd (hin j).1 (not_lt.2 hj)
    · exact absurd ((hin j).2 k) (not_lt.2 hk)

end Graded

/-! ## Four items with three categories, in booklets of three -/

/-- Slopes one, intercepts 1 and -1. -/
noncomputable def exFour : GRMParams [3, 3, 3, 3] := (fun _ => 1, fun _ k => if (k : ℕ) = 1 then 1 else if (k : ℕ) = 2 then -1 else 0)

theorem exFour_mem : exFour ∈ GRMBounds [3, 3, 3, 3] (1 / 10) 5 (1 / 10) := by
  have hc : ∀ j : Fin [3, 3, 3, 3].length, [3, 3, 3, 3][j] = 3 := by decide
  refine ⟨fun _ => by norm_num [exFour], fun _ => by norm_num [exFour], fun j k => ?_, fun j k hk => ?_, fun j k l h0 hkl hl => ?_⟩
  · simp only [exFour]
    split_ifs <;> norm_num
  · rw [hc j] at hk
    simp only [exFour]
    rw [if_neg (by omega), if_neg (by omega)]
  · rw [hc j] at hl
    simp only [exFour]
    rw [if_pos (by omega : (k : ℕ) = 1), if_neg (by omega), if_pos (by omega)]
    norm_num

/-- Booklet `b` is without item `b`; the booklets without the first and without the last item are handed out with probability 1/2 each. -/
noncomputable def exTwoBooklets (T : Finset (Fin [3, 3, 3, 3].length)) : ℝ :=
  (if T = Finset.univ.erase 0 then 1 / 2 else 0) + if T = Finset.univ.erase 3 then 1 / 2 else 0

theorem exTwoBooklets_nonneg (T : Finset (Fin [3, 3, 3, 3].length)) : 0 ≤ exTwoBooklets T := by
  unfold exTwoBooklets
  split_ifs <;> norm_num

theorem exTwoBooklets_sum : ∑ T, exTwoBooklets T = 1 := by
  unfold exTwoBooklets
  rw [Finset.sum_add_distrib, Finset.sum_ite_eq', Finset.sum_ite_eq', if_pos (Finset.mem_univ _), if_pos (Finset.mem_univ _)]
  norm_num

theorem exTwoBooklets_pos (b : Bool) : 0 < exTwoBooklets (Finset.univ.erase (if b then 0 else 3)) := by
  unfold exTwoBooklets
  cases b <;> simp only [if_true, Bool.false_eq_true, if_false] <;> split_ifs <;> norm_num

theorem exTwoBooklets_design : ∀ j, ∃ k l, j ≠ k ∧ j ≠ l ∧ k ≠ l ∧ Together exTwoBooklets j k ∧ Together exTwoBooklets j l ∧ Together exTwoBooklets k l := by
  have h : ∀ j : Fin [3, 3, 3, 3].length, ∃ b : Bool, ∃ k l, j ≠ k ∧ j ≠ l ∧ k ≠ l ∧ j ∈ Finset.univ.erase (if b then 0 else 3 : Fin [3, 3, 3, 3].length) ∧
      k ∈ Finset.univ.erase (if b then 0 else 3 : Fin [3, 3, 3, 3].length) ∧ l ∈ Finset.univ.erase (if b then 0 else 3 : Fin [3, 3, 3, 3].length) := by
    decide
  intro j
  obtain ⟨b, k, l, h1, h2, h3, mj, mk, ml⟩ := h j
  have hpos := exTwoBooklets_pos b
  exact ⟨k, l, h1, h2, h3, ⟨_, hpos, mj, mk⟩, ⟨_, hpos, mj, ml⟩, ⟨_, hpos, mk, ml⟩⟩

example {hg : ℕ → Except PyErr (List ℝ × List ℝ)} (hrules : ExactRules hg) :=
  C158_grm (cats := [3, 3, 3, 3]) (by decide) (γ := 1 / 10) (by norm_num) exTwoBooklets_nonneg exTwoBooklets_sum exTwoBooklets_design hrules
    (ch := fun _ => .ok (1 : Matrix (Fin 1) (Fin 1) ℝ)) rfl (by simp [IsCholesky]) (by simp) (α := 1 / 10) (by norm_num) exFour exFour_mem (1 / 10)
    (by norm_num)

end Irt
