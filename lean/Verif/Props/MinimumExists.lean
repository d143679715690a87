import Verif.Lemmas.MinimumExists
import Verif.Props.ScoreEquations

/-!
# C121: when the marginal likelihood has a minimum in the intercepts

With the slopes held fixed (the 1PL model has none), intercepts with the smallest MML loss exist exactly if every answer that an
answered item allows was given by somebody.
-/

namespace Irt

open Spec Finset

theorem given_of_smallest {cats : List ℕ} {N : ℕ} {y : ℕ → ℕ → Cell}
    (h : ∀ j c r : ℕ, cats[j]? = some c → r < c → ∀ i, i < N → cellMissing (y i j) = false → ¬ ∀ i', i' < N → y i' j ≠ some (r : ℤ)) :
    EveryAnswerGiven cats N y := by
  rw [given_iff]
  rintro j c hc ⟨i, hi, ha⟩ r hr
  by_contra hcon
  push Not at hcon
  exact h j c r hc hr i hi ha hcon

section OnePL
variable (m : OnePL) (hwf : m.WF) (pts : Thetas 1) (lw : List ℝ) (hlen : lw.length = pts.length) (hne : pts ≠ []) (N : ℕ)
  (y : ℕ → ℕ → Cell) (hy : ∀ i, i < N → ValidResponses (List.replicate m.items 2) (y i))
include hwf hlen hne hy

/-- C121 for the 1PL model: a best fit exists exactly if every answered item was solved by somebody and failed by somebody. -/
theorem C121_onePL_exists_iff :
    (∃ b : List ℝ, b.length = m.items ∧
      SmallestAt (fun b => mmlLoss ({ m with bias := b } : OnePL).scorer (rowsOf N m.items y) pts lw) b) ↔
      EveryAnswerGiven (List.replicate m.items 2) N y := by
  constructor
  · rintro ⟨b, hb, hmin⟩
    refine given_of_smallest fun j c r hc hr i hi ha h0 => ?_
    obtain ⟨hj, rfl⟩ := replicate_getElem? _ _ _ _ hc
    exact C121_onePL_no_minimum { m with bias := b } hb pts lw hlen hne N y hy j r hj hr i hi ha h0 hmin
  · intro h
    rcases Nat.eq_zero_or_pos m.items with h0 | h0
    · refine ⟨[], h0.symm, fun q hq => ?_⟩
      rw [List.length_nil, List.length_eq_zero_iff] at hq
      rw [hq]
    · exact m.minimum hwf h0 pts lw hlen hne N y hy h

end OnePL

section TwoPL
variable (m : TwoPL) (hwf : m.WF) (pts : Thetas m.lv) (lw : List ℝ) (hlen : lw.length = pts.length) (hne : pts ≠ []) (N : ℕ)
  (y : ℕ → ℕ → Cell) (hy : ∀ i, i < N → ValidResponses (List.replicate m.items 2) (y i))
include hwf hlen hne hy

/-- C121 for the 2PL model with given slopes: best intercepts exist exactly if every answered item was solved by somebody and failed
by somebody. -/
theorem C121_twoPL_exists_iff :
    (∃ b : List ℝ, b.length = m.items ∧
      SmallestAt (fun b => mmlLoss (({ m with bias := b } : TwoPL).scorer m.lv) (rowsOf N m.items y) pts lw) b) ↔
      EveryAnswerGiven (List.replicate m.items 2) N y := by
  constructor
  · rintro ⟨b, hb, hmin⟩
    refine given_of_smallest fun j c r hc hr i hi ha h0 => ?_
    obtain ⟨hj, rfl⟩ := replicate_getElem? _ _ _ _ hc
    exact C121_twoPL_no_minimum { m with bias := b } (m.wf_bias hwf b (hb.trans hwf.biasLen.symm)) pts lw hlen hne N y hy j r hj hr i hi ha
      h0 hmin
  · intro h
    rcases Nat.eq_zero_or_pos m.items with h0 | h0
    · refine ⟨[], h0.symm, fun q hq => ?_⟩
      rw [List.length_nil, List.length_eq_zero_iff] at hq
      rw [hq]
    · exact m.minimum hwf h0 pts lw hlen hne N y hy h

end TwoPL

section GPC
variable (m : GPC) (hwf : m.WF) (hcats : m.cats ≠ []) (pts : Thetas m.lv) (lw : List ℝ) (hlen : lw.length = pts.length) (hne : pts ≠ [])
  (N : ℕ) (y : ℕ → ℕ → Cell) (hy : ∀ i, i < N → ValidResponses m.cats (y i))
include hwf hcats hlen hne hy

/-- C121 for the generalized partial credit model: the gradient by the intercepts is zero exactly where observed and expected numbers
of answers agree. -/
theorem C121_gpc_iff :
    FlatAt (fun b => mmlLoss (({ m with bias := b } : GPC).scorer m.lv) (rowsOf N m.cats.length y) pts lw) m.bias ↔
      AnswersMatch (fun θ => tableProb (m.probs (List.ofFn θ))) m.cats pts (lw.map Real.exp) N y := by
  refine ⟨C121_gpc m hwf hcats pts lw hlen hne N y hy, fun h n hn => ?_⟩
  have hM : ∀ c ∈ m.cats, c ≤ m.M := fun c hc => le_maxCats _ _ hc
  rw [hwf.biasLen, ← count_freeMask m.M m.cats hwf.catsPos hM] at hn
  obtain ⟨i, hi, e⟩ := exists_position _ _ hn
  obtain ⟨j, c, k, hc, hk0, hk, rfl⟩ := free_position m.M m.cats hM i hi
  obtain ⟨n', e', _, hp⟩ := m.intercept_partial hwf hcats pts lw hlen hne N y hy j c k hc hk0 hk
  obtain rfl : n' = n := e'.trans e
  rw [hp, h j c k hc hk, sub_self]

/-- C121 for the generalized partial credit model with given slopes: best intercepts exist exactly if every answer that an answered
item allows was given. -/
theorem C121_gpc_exists_iff :
    (∃ b : List ℝ, b.length = m.bias.length ∧
      SmallestAt (fun b => mmlLoss (({ m with bias := b } : GPC).scorer m.lv) (rowsOf N m.cats.length y) pts lw) b) ↔
      EveryAnswerGiven m.cats N y := by
  refine ⟨?_, m.minimum hwf hcats pts lw hlen hne N y hy⟩
  rintro ⟨b, hb, hmin⟩
  refine given_of_smallest fun j c r hc hr i hi ha h0 => ?_
  exact C121_gpc_no_minimum { m with bias := b } (m.wf_bias hwf b hb) hcats pts lw hlen hne N y hy j c r hc hr i hi ha h0 hmin

end GPC

section NRM
variable (m : NRM) (hwf : m.WF) (hcats : m.cats ≠ []) (pts : Thetas m.lv) (lw : List ℝ) (hlen : lw.length = pts.length) (hne : pts ≠ [])
  (N : ℕ) (y : ℕ → ℕ → Cell) (hy : ∀ i, i < N → ValidResponses m.cats (y i))
include hwf hcats hlen hne hy

/-- C121 for the nominal response model: the gradient by the intercepts is zero exactly where observed and expected numbers of answers
agree. -/
theorem C121_nrm_iff :
    FlatAt (fun b => mmlLoss (({ m with bias := b } : NRM).scorer m.lv) (rowsOf N m.cats.length y) pts lw) m.bias ↔
      AnswersMatch (fun θ => tableProb (m.probs (List.ofFn θ))) m.cats pts (lw.map Real.exp) N y := by
  refine ⟨C121_nrm m hwf hcats pts lw hlen hne N y hy, fun h n hn => ?_⟩
  have hM : ∀ c ∈ m.cats, c ≤ m.M := fun c hc => le_maxCats _ _ hc
  rw [hwf.biasLen, ← count_freeMask m.M m.cats hwf.catsPos hM] at hn
  obtain ⟨i, hi, e⟩ := exists_position _ _ hn
  obtain ⟨j, c, k, hc, hk0, hk, rfl⟩ := free_position m.M m.cats hM i hi
  obtain ⟨n', e', _, hp⟩ := m.intercept_partial hwf hcats pts lw hlen hne N y hy j c k hc hk0 hk
  obtain rfl : n' = n := e'.trans e
  rw [hp, h j c k hc hk, h j c 0 hc (by omega), sub_self, sub_self, sub_zero]

/-- C121 for the nominal response model with given slopes. -/
theorem C121_nrm_exists_iff :
    (∃ b : List ℝ, b.length = m.bias.length ∧
      SmallestAt (fun b => mmlLoss (({ m with bias := b } : NRM).scorer m.lv) (rowsOf N m.cats.length y) pts lw) b) ↔
      EveryAnswerGiven m.cats N y := by
  refine ⟨?_, m.minimum hwf hcats pts lw hlen hne N y hy⟩
  rintro ⟨b, hb, hmin⟩
  refine given_of_smallest fun j c r hc hr i hi ha h0 => ?_
  exact C121_nrm_no_minimum { m with bias := b } (m.wf_bias hwf b hb) hcats pts lw hlen hne N y hy j c r hc hr i hi ha h0 hmin

end NRM

/-! ## Concrete cases -/

/-- Two answers to one item, one wrong and one right, and a respondent without an answer. -/
theorem exBalancedData_given : EveryAnswerGiven (List.replicate 1 2) 3 exBalancedData := by
  intro j c r hc hr _
  obtain ⟨hj, rfl⟩ := replicate_getElem? _ _ _ _ hc
  obtain rfl : j = 0 := by omega
  interval_cases r <;> decide

theorem exEachAnswer_given : EveryAnswerGiven [3] 3 exEachAnswer := by
  intro j c r hc hr _
  obtain ⟨rfl, rfl⟩ : j = 0 ∧ c = 3 := by
    cases j with
    | zero => simpa using hc.symm
    | succ j => simp at hc
  rw [exEachAnswer_chosen r hr]
  exact one_pos

/-- A respondent who answered the item right, alone: the wrong answer was not given. -/
theorem exOneRight_not_given : ¬ EveryAnswerGiven (List.replicate 1 2) 1 fun _ _ => some 1 := fun h =>
  absurd (h 0 2 0 rfl (by omega) ⟨0, by decide⟩) (by decide)

example : ∃ b : List ℝ, b.length = 1 ∧
    SmallestAt (fun b => mmlLoss (⟨1, b⟩ : OnePL).scorer (rowsOf 3 1 exBalancedData) [fun _ => -1, fun _ => 1] [0, 0]) b :=
  (C121_onePL_exists_iff ⟨1, [0]⟩ rfl [fun _ => -1, fun _ => 1] [0, 0] rfl (List.cons_ne_nil _ _) 3 exBalancedData
    fun i _ => exBalancedData_valid i).2 exBalancedData_given

example : ¬ ∃ b : List ℝ, b.length = 1 ∧
    SmallestAt (fun b => mmlLoss (⟨1, b⟩ : OnePL).scorer (rowsOf 1 1 fun _ _ => some 1) [fun _ => -1, fun _ => 1] [0, 0]) b := fun h =>
  exOneRight_not_given ((C121_onePL_exists_iff ⟨1, [0]⟩ rfl [fun _ => -1, fun _ => 1] [0, 0] rfl (List.cons_ne_nil _ _) 1 (fun _ _ => some 1)
    fun _ _ j c hc _ => ⟨1, rfl, by obtain ⟨_, rfl⟩ := replicate_getElem? _ _ _ _ hc; omega⟩).1 h)

example : ∃ b : List ℝ, b.length = 1 ∧ SmallestAt (fun b => mmlLoss (({ exBalanced with bias := b } : TwoPL).scorer 1)
    (rowsOf 3 1 exBalancedData) exBalancedPts [0, 0]) b :=
  (C121_twoPL_exists_iff exBalanced exBalanced_wf exBalancedPts [0, 0] rfl (List.cons_ne_nil _ _) 3 exBalancedData
    fun i _ => exBalancedData_valid i).2 exBalancedData_given

example : ∃ b : List ℝ, b.length = 2 ∧ SmallestAt (fun b => mmlLoss (({ exThreeGpc with bias := b } : GPC).scorer 1)
    (rowsOf 3 1 exEachAnswer) exBalancedPts [0, 0]) b :=
  (C121_gpc_exists_iff exThreeGpc exThreeGpc_wf (List.cons_ne_nil _ _) exBalancedPts [0, 0] rfl (List.cons_ne_nil _ _) 3 exEachAnswer
    fun i _ => exEachAnswer_valid i).2 exEachAnswer_given

example : ∃ b : List ℝ, b.length = 2 ∧ SmallestAt (fun b => mmlLoss (({ exThreeNrm with bias := b } : NRM).scorer 1)
    (rowsOf 3 1 exEachAnswer) exBalancedPts [0, 0]) b :=
  (C121_nrm_exists_iff exThreeNrm exThreeNrm_wf (List.cons_ne_nil _ _) exBalancedPts [0, 0] rfl (List.cons_ne_nil _ _) 3 exEachAnswer
    fun i _ => exEachAnswer_valid i).2 exEachAnswer_given

end Irt
