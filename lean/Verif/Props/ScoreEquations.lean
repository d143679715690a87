import Verif.Lemmas.ScoreEquationModels
import Verif.Props.ScoreOrder

/-!
# C121: a fit by marginal maximum likelihood reproduces the observed numbers of answers

Where the gradient of the MML loss is zero, in particular at its minimum, every answer is given as often as the fitted model expects.
An answer that nobody gave therefore excludes a minimum.
-/

namespace Irt

open Spec Finset

/-- The smallest loss has gradient zero (the loss need not be differentiable: `deriv` is then 0 by convention, and the theorems below
compute it). -/
theorem C121_minimum (loss : List ℝ → Except PyErr Num) (p : List ℝ) (h : SmallestAt loss p) : FlatAt loss p := by
  intro n hn
  have hself : p.set n (p.getD n 0) = p := by
    rw [List.getD_eq_getElem?_getD, List.getElem?_eq_getElem hn, Option.getD_some, List.set_getElem_self]
  refine IsLocalMin.deriv_eq_zero (Filter.Eventually.of_forall fun x => ?_)
  dsimp only
  rw [hself]
  exact h _ (by simp)

section
variable {d : ℕ} {cats : List ℕ} {P : (Fin d → ℝ) → ℕ → ℕ → ℝ} {A : ℕ → ℕ → Fin d → ℝ} {B : ℕ → ℕ → ℝ} (hP : LogitModel cats P A B)
  (pts : Thetas d) (lw : List ℝ) (hlen : lw.length = pts.length) (hne : pts ≠ []) (N : ℕ) (y : ℕ → ℕ → Cell)
  (hy : ∀ i, i < N → ValidResponses cats (y i))
include hP hlen hne hy

/-- If the differences of all answers to an item are equal then they are zero. -/
theorem answersMatch_of_equal (h : ∀ j c k, cats[j]? = some c → 0 < k → k < c →
      (expectedBy P cats.length pts (lw.map Real.exp) N y j k - chosenBy N y j k)
        = expectedBy P cats.length pts (lw.map Real.exp) N y j 0 - chosenBy N y j 0) :
    AnswersMatch P cats pts (lw.map Real.exp) N y := by
  intro j c r hc hr
  have hpos : PositiveProbs P cats := fun θ j c r hc hr => hP.pos θ j c r hc hr
  have hsum := sum_expected_chosen hpos pts lw hlen hne N y hy j c hc fun θ => hP.sum_one θ j c hc (by omega)
  have hall : ∀ k, k < c → (expectedBy P cats.length pts (lw.map Real.exp) N y j k - chosenBy N y j k)
        = expectedBy P cats.length pts (lw.map Real.exp) N y j 0 - chosenBy N y j 0 := by
    intro k hk
    rcases Nat.eq_zero_or_pos k with rfl | hk0
    · rfl
    · exact h j c k hc hk0 hk
  rw [sum_congr rfl fun k hk => hall k (mem_range.1 hk), sum_const, card_range, nsmul_eq_mul] at hsum
  have hc0 : (c : ℝ) ≠ 0 := Nat.cast_ne_zero.2 (by omega)
  have h0 := (mul_eq_zero.1 hsum).resolve_left hc0
  have := hall r hr
  linarith

theorem answersMatch_of_zero (h : ∀ j c k, cats[j]? = some c → 0 < k → k < c →
      expectedBy P cats.length pts (lw.map Real.exp) N y j k - chosenBy N y j k = 0) :
    AnswersMatch P cats pts (lw.map Real.exp) N y := by
  intro j c r hc hr
  have hpos : PositiveProbs P cats := fun θ j c r hc hr => hP.pos θ j c r hc hr
  have hsum := sum_expected_chosen hpos pts lw hlen hne N y hy j c hc fun θ => hP.sum_one θ j c hc (by omega)
  rw [sum_eq_single_of_mem 0 (mem_range.2 (by omega)) fun k hk hk0 => h j c k hc (by omega) (mem_range.1 hk)] at hsum
  rcases Nat.eq_zero_or_pos r with rfl | hr0
  · linarith
  · linarith [h j c r hc hr0 hr]

/-- Where the numbers match, every answer to an item that somebody answered was given by somebody. -/
theorem everybody_of_match (h : AnswersMatch P cats pts (lw.map Real.exp) N y) (j c r : ℕ) (hc : cats[j]? = some c) (hr : r < c)
    (i : ℕ) (hi : i < N) (ha : cellMissing (y i j) = false) : ∃ i', i' < N ∧ y i' j = some (r : ℤ) := by
  have hpos : PositiveProbs P cats := fun θ j c r hc hr => hP.pos θ j c r hc hr
  have h1 := expectedBy_pos hpos pts lw hlen hne N y hy j c r hc hr ⟨i, mem_filter.2 ⟨mem_range.2 hi, ha⟩⟩
  rw [← h j c r hc hr, Nat.cast_pos] at h1
  obtain ⟨i', hi'⟩ := card_pos.1 h1
  exact ⟨i', mem_range.1 (mem_filter.1 hi').1, (mem_filter.1 hi').2⟩

omit hP hlen hne in
/-- Where the numbers match, so do the observed and expected totals of every item. -/
theorem C121_item_total (h : AnswersMatch P cats pts (lw.map Real.exp) N y) (j c : ℕ) (hc : cats[j]? = some c) :
    ∑ i ∈ answeredBy N y j, (responseOf (y i j) : ℝ)
      = ∑ i ∈ answeredBy N y j, posteriorMean pts (lw.map Real.exp) (observedLikelihood P cats.length (y i)) (meanItemScore P c j) := by
  have h1 : ∀ i, posteriorMean pts (lw.map Real.exp) (observedLikelihood P cats.length (y i)) (meanItemScore P c j)
      = ∑ r ∈ range c, (r : ℝ) * posteriorMean pts (lw.map Real.exp) (observedLikelihood P cats.length (y i)) fun θ => P θ j r := by
    intro i
    rw [show meanItemScore P c j = fun θ => ∑ r ∈ range c, (r : ℝ) * P θ j r from rfl, posteriorMean_sum]
    exact sum_congr rfl fun r _ => posteriorMean_smul _ _ _ _ _
  simp only [h1]
  rw [sum_comm]
  simp only [← mul_sum]
  have h2 : ∀ r ∈ range c, (r : ℝ) * ∑ i ∈ answeredBy N y j, posteriorMean pts (lw.map Real.exp) (observedLikelihood P cats.length (y i))
      (fun θ => P θ j r) = (r : ℝ) * chosenBy N y j r := fun r hr => by
    rw [h j c r hc (mem_range.1 hr)]
    rfl
  rw [sum_congr rfl h2]
  have h3 : ∀ r ∈ range c, (r : ℝ) * chosenBy N y j r = ∑ i ∈ answeredBy N y j, if responseOf (y i j) = r then (r : ℝ) else 0 := by
    intro r hr
    rw [← sum_filter, sum_const, nsmul_eq_mul, mul_comm, chosenBy, answeredBy, filter_filter]
    congr 3
    apply filter_congr
    intro i hi
    constructor
    · intro h
      rw [h]
      refine ⟨?_, by simp [responseOf]⟩
      simp only [cellMissing, decide_eq_false_iff_not]
      omega
    · rintro ⟨hm, hr⟩
      obtain ⟨r', h, _⟩ := hy i (mem_range.1 hi) j c hc hm
      rw [h] at hr ⊢
      simp only [responseOf, Int.toNat_natCast] at hr
      rw [hr]
  rw [sum_congr rfl h3, sum_comm]
  refine sum_congr rfl fun i hi => ?_
  obtain ⟨hiN, hm⟩ := mem_filter.1 hi
  obtain ⟨r, hr, hrc⟩ := hy i (mem_range.1 hiN) j c hc hm
  rw [sum_ite_eq, if_pos]
  rw [hr]
  simpa [responseOf] using hrc

end

/-! ## The equations, model by model -/

section OnePL
variable (m : OnePL) (hwf : m.WF) (pts : Thetas 1) (lw : List ℝ) (hlen : lw.length = pts.length) (hne : pts ≠ []) (N : ℕ)
  (y : ℕ → ℕ → Cell) (hy : ∀ i, i < N → ValidResponses (List.replicate m.items 2) (y i))
include hwf hlen hne hy

/-- C121 for the 1PL model: the gradient is zero exactly where observed and expected numbers of answers agree. -/
theorem C121_onePL :
    FlatAt (fun b => mmlLoss ({ m with bias := b } : OnePL).scorer (rowsOf N m.items y) pts lw) m.bias ↔
      AnswersMatch (fun θ => tableProb (m.probs (θ 0))) (List.replicate m.items 2) pts (lw.map Real.exp) N y := by
  constructor
  · intro h
    refine answersMatch_of_zero (m.logitModel hwf) pts lw hlen hne N y hy ?_
    intro j c k hc hk0 hk
    obtain ⟨hj, rfl⟩ := replicate_getElem? _ _ _ _ hc
    obtain rfl : k = 1 := by omega
    rw [List.length_replicate, ← m.intercept_partial hwf pts lw hlen hne N y hy j hj]
    exact h j (by rw [show m.bias.length = m.items from hwf]; exact hj)
  · intro h n hn
    rw [show m.bias.length = m.items from hwf] at hn
    rw [m.intercept_partial hwf pts lw hlen hne N y hy n hn]
    have := h n 2 1 (getElem?_replicate_two hn) (by omega)
    rw [List.length_replicate] at this
    linarith

/-- No intercepts of the 1PL model minimise the MML loss if some item was answered but not with every answer. -/
theorem C121_onePL_no_minimum (j r : ℕ) (hj : j < m.items) (hr : r < 2) (i : ℕ) (hi : i < N) (ha : cellMissing (y i j) = false)
    (hr0 : ∀ i', i' < N → y i' j ≠ some (r : ℤ)) :
    ¬ SmallestAt (fun b => mmlLoss ({ m with bias := b } : OnePL).scorer (rowsOf N m.items y) pts lw) m.bias := by
  intro h
  obtain ⟨i', hi', h'⟩ := everybody_of_match (m.logitModel hwf) pts lw hlen hne N y hy
    ((C121_onePL m hwf pts lw hlen hne N y hy).1 (C121_minimum _ _ h)) j 2 r (getElem?_replicate_two hj) hr i hi ha
  exact hr0 i' hi' h'

end OnePL

section TwoPL
variable (m : TwoPL) (hwf : m.WF) (pts : Thetas m.lv) (lw : List ℝ) (hlen : lw.length = pts.length) (hne : pts ≠ []) (N : ℕ)
  (y : ℕ → ℕ → Cell) (hy : ∀ i, i < N → ValidResponses (List.replicate m.items 2) (y i))
include hwf hlen hne hy

/-- C121 for the intercepts of the 2PL model. -/
theorem C121_twoPL :
    FlatAt (fun b => mmlLoss (({ m with bias := b } : TwoPL).scorer m.lv) (rowsOf N m.items y) pts lw) m.bias ↔
      AnswersMatch (fun θ => tableProb (m.probs (List.ofFn θ))) (List.replicate m.items 2) pts (lw.map Real.exp) N y := by
  constructor
  · intro h
    refine answersMatch_of_zero (m.logitModel hwf m.lv) pts lw hlen hne N y hy ?_
    intro j c k hc hk0 hk
    obtain ⟨hj, rfl⟩ := replicate_getElem? _ _ _ _ hc
    obtain rfl : k = 1 := by omega
    rw [List.length_replicate, ← m.intercept_partial hwf pts lw hlen hne N y hy j hj]
    exact h j (by rw [hwf.biasLen]; exact hj)
  · intro h n hn
    rw [hwf.biasLen] at hn
    rw [m.intercept_partial hwf pts lw hlen hne N y hy n hn]
    have := h n 2 1 (getElem?_replicate_two hn) (by omega)
    rw [List.length_replicate] at this
    linarith

/-- C121 for the slopes of the 2PL model: where the gradient is zero, the latent scores of those who solved an item add up to what the
model expects. -/
theorem C121_twoPL_slopes
    (h : FlatAt (fun w => mmlLoss (({ m with weight := w } : TwoPL).scorer m.lv) (rowsOf N m.items y) pts lw) m.weight)
    (j : ℕ) (hj : j < m.items) (k : Fin m.lv) (row : List Bool) (hrow : m.rel[j]? = some row) (hrel : row[(k : ℕ)]? = some true) :
    ∑ i ∈ answeredBy N y j, (responseOf (y i j) : ℝ) * posteriorMean pts (lw.map Real.exp)
        (observedLikelihood (fun θ => tableProb (m.probs (List.ofFn θ))) m.items (y i)) (fun θ => θ k)
      = ∑ i ∈ answeredBy N y j, posteriorMean pts (lw.map Real.exp)
        (observedLikelihood (fun θ => tableProb (m.probs (List.ofFn θ))) m.items (y i))
        (fun θ => θ k * meanItemScore (fun θ => tableProb (m.probs (List.ofFn θ))) 2 j θ) := by
  obtain ⟨n, _, hn, e⟩ := m.slope_partial hwf pts lw hlen hne N y hy j hj k row hrow hrel
  have := h n hn
  rw [e] at this
  linarith

/-- No intercepts of the 2PL model minimise the MML loss if some item was answered but not with every answer. -/
theorem C121_twoPL_no_minimum (j r : ℕ) (hj : j < m.items) (hr : r < 2) (i : ℕ) (hi : i < N) (ha : cellMissing (y i j) = false)
    (hr0 : ∀ i', i' < N → y i' j ≠ some (r : ℤ)) :
    ¬ SmallestAt (fun b => mmlLoss (({ m with bias := b } : TwoPL).scorer m.lv) (rowsOf N m.items y) pts lw) m.bias := by
  intro h
  obtain ⟨i', hi', h'⟩ := everybody_of_match (m.logitModel hwf m.lv) pts lw hlen hne N y hy
    ((C121_twoPL m hwf pts lw hlen hne N y hy).1 (C121_minimum _ _ h)) j 2 r (getElem?_replicate_two hj) hr i hi ha
  exact hr0 i' hi' h'

end TwoPL

section GPC
variable (m : GPC) (hwf : m.WF) (hcats : m.cats ≠ []) (pts : Thetas m.lv) (lw : List ℝ) (hlen : lw.length = pts.length) (hne : pts ≠ [])
  (N : ℕ) (y : ℕ → ℕ → Cell) (hy : ∀ i, i < N → ValidResponses m.cats (y i))
include hwf hcats hlen hne hy

/-- C121 for the intercepts of the generalized partial credit model. -/
theorem C121_gpc (h : FlatAt (fun b => mmlLoss (({ m with bias := b } : GPC).scorer m.lv) (rowsOf N m.cats.length y) pts lw) m.bias) :
    AnswersMatch (fun θ => tableProb (m.probs (List.ofFn θ))) m.cats pts (lw.map Real.exp) N y := by
  refine answersMatch_of_zero (m.logitModel hwf m.lv) pts lw hlen hne N y hy ?_
  intro j c k hc hk0 hk
  obtain ⟨n, _, hn, e⟩ := m.intercept_partial hwf hcats pts lw hlen hne N y hy j c k hc hk0 hk
  rw [← e]
  exact h n hn

/-- C121 for the slopes of the generalized partial credit model: latent scores weighted by the observed and by the expected score. -/
theorem C121_gpc_slopes
    (h : FlatAt (fun w => mmlLoss (({ m with weight := w } : GPC).scorer m.lv) (rowsOf N m.cats.length y) pts lw) m.weight)
    (j c : ℕ) (hc : m.cats[j]? = some c) (k : Fin m.lv) (row : List Bool) (hrow : m.rel[j]? = some row)
    (hrel : row[(k : ℕ)]? = some true) :
    ∑ i ∈ answeredBy N y j, (responseOf (y i j) : ℝ) * posteriorMean pts (lw.map Real.exp)
        (observedLikelihood (fun θ => tableProb (m.probs (List.ofFn θ))) m.cats.length (y i)) (fun θ => θ k)
      = ∑ i ∈ answeredBy N y j, posteriorMean pts (lw.map Real.exp)
        (observedLikelihood (fun θ => tableProb (m.probs (List.ofFn θ))) m.cats.length (y i))
        (fun θ => θ k * meanItemScore (fun θ => tableProb (m.probs (List.ofFn θ))) c j θ) := by
  obtain ⟨n, _, hn, e⟩ := m.slope_partial hwf hcats pts lw hlen hne N y hy j c k hc row hrow hrel
  have := h n hn
  rw [e] at this
  linarith

/-- No intercepts of the generalized partial credit model minimise the MML loss if a category of an answered item was never chosen. -/
theorem C121_gpc_no_minimum (j c r : ℕ) (hc : m.cats[j]? = some c) (hr : r < c) (i : ℕ) (hi : i < N) (ha : cellMissing (y i j) = false)
    (hr0 : ∀ i', i' < N → y i' j ≠ some (r : ℤ)) :
    ¬ SmallestAt (fun b => mmlLoss (({ m with bias := b } : GPC).scorer m.lv) (rowsOf N m.cats.length y) pts lw) m.bias := by
  intro h
  obtain ⟨i', hi', h'⟩ := everybody_of_match (m.logitModel hwf m.lv) pts lw hlen hne N y hy
    (C121_gpc m hwf hcats pts lw hlen hne N y hy (C121_minimum _ _ h)) j c r hc hr i hi ha
  exact hr0 i' hi' h'

end GPC

section NRM
variable (m : NRM) (hwf : m.WF) (hcats : m.cats ≠ []) (pts : Thetas m.lv) (lw : List ℝ) (hlen : lw.length = pts.length) (hne : pts ≠ [])
  (N : ℕ) (y : ℕ → ℕ → Cell) (hy : ∀ i, i < N → ValidResponses m.cats (y i))
include hwf hcats hlen hne hy

/-- C121 for the intercepts of the nominal response model. -/
theorem C121_nrm (h : FlatAt (fun b => mmlLoss (({ m with bias := b } : NRM).scorer m.lv) (rowsOf N m.cats.length y) pts lw) m.bias) :
    AnswersMatch (fun θ => tableProb (m.probs (List.ofFn θ))) m.cats pts (lw.map Real.exp) N y := by
  refine answersMatch_of_equal (m.logitModel m.lv) pts lw hlen hne N y hy ?_
  intro j c k hc hk0 hk
  obtain ⟨n, _, hn, e⟩ := m.intercept_partial hwf hcats pts lw hlen hne N y hy j c k hc hk0 hk
  have := h n hn
  rw [e] at this
  linarith

/-- C121 for the slopes of the nominal response model: those of a category minus those of the first. -/
theorem C121_nrm_slopes
    (h : FlatAt (fun w => mmlLoss (({ m with weight := w } : NRM).scorer m.lv) (rowsOf N m.cats.length y) pts lw) m.weight)
    (j c k : ℕ) (hc : m.cats[j]? = some c) (hk0 : 0 < k) (hk : k < c) (q : Fin m.lv) (row : List Bool) (hrow : m.rel[j]? = some row)
    (hrel : row[(q : ℕ)]? = some true) :
    ∑ i ∈ answeredBy N y j, ((if responseOf (y i j) = k then (1 : ℝ) else 0) - if responseOf (y i j) = 0 then 1 else 0) *
        posteriorMean pts (lw.map Real.exp)
          (observedLikelihood (fun θ => tableProb (m.probs (List.ofFn θ))) m.cats.length (y i)) (fun θ => θ q)
      = ∑ i ∈ answeredBy N y j, posteriorMean pts (lw.map Real.exp)
        (observedLikelihood (fun θ => tableProb (m.probs (List.ofFn θ))) m.cats.length (y i))
        (fun θ => θ q * (tableProb (m.probs (List.ofFn θ)) j k - tableProb (m.probs (List.ofFn θ)) j 0)) := by
  obtain ⟨n, _, hn, e⟩ := m.slope_partial hwf hcats pts lw hlen hne N y hy j c k q hc hk0 hk row hrow hrel
  have := h n hn
  rw [e] at this
  linarith

/-- No intercepts of the nominal response model minimise the MML loss if an answer to an answered item was never given. -/
theorem C121_nrm_no_minimum (j c r : ℕ) (hc : m.cats[j]? = some c) (hr : r < c) (i : ℕ) (hi : i < N) (ha : cellMissing (y i j) = false)
    (hr0 : ∀ i', i' < N → y i' j ≠ some (r : ℤ)) :
    ¬ SmallestAt (fun b => mmlLoss (({ m with bias := b } : NRM).scorer m.lv) (rowsOf N m.cats.length y) pts lw) m.bias := by
  intro h
  obtain ⟨i', hi', h'⟩ := everybody_of_match (m.logitModel m.lv) pts lw hlen hne N y hy
    (C121_nrm m hwf hcats pts lw hlen hne N y hy (C121_minimum _ _ h)) j c r hc hr i hi ha
  exact hr0 i' hi' h'

end NRM

/-! ## Estimates need not exist -/

/-- The claim that there are always intercepts of the 1PL model that minimise the MML loss. -/
def MmlMinimumExists : Prop :=
  ∀ (items : ℕ) (pts : Thetas 1) (lw : List ℝ) (N : ℕ) (y : ℕ → ℕ → Cell), 0 < items → lw.length = pts.length → pts ≠ [] →
    (∀ i, i < N → ValidResponses (List.replicate items 2) (y i)) →
    ∃ m : OnePL, m.items = items ∧ m.WF ∧ SmallestAt (fun b => mmlLoss ({ m with bias := b } : OnePL).scorer (rowsOf N items y) pts lw) m.bias

/-- Two items, three respondents: everybody who answered the second item solved it. -/
def exSolvedByAll (i j : ℕ) : Cell := if j = 1 then (if i = 2 then none else some 1) else some ((i % 2 : ℕ) : ℤ)

theorem exSolvedByAll_valid (i : ℕ) : ValidResponses (List.replicate 2 2) (exSolvedByAll i) := by
  intro j c hc hm
  obtain ⟨_, rfl⟩ := replicate_getElem? _ _ _ _ hc
  unfold exSolvedByAll at hm ⊢
  by_cases hj : j = 1
  · rw [if_pos hj] at hm ⊢
    by_cases hi : i = 2
    · rw [if_pos hi] at hm
      simp [cellMissing] at hm
    · exact ⟨1, by rw [if_neg hi]; rfl, by omega⟩
  · exact ⟨i % 2, by rw [if_neg hj], Nat.mod_lt _ (by omega)⟩

/-- C121: estimates need not exist. -/
theorem C121_minimum_exists_false : ¬ MmlMinimumExists := by
  intro h
  obtain ⟨⟨items, b⟩, hitems, hwf, hmin⟩ := h 2 [fun _ => 0, fun _ => 1] [0, 0] 3 exSolvedByAll (by omega) rfl (List.cons_ne_nil _ _)
    fun i _ => exSolvedByAll_valid i
  obtain rfl : items = 2 := hitems
  refine C121_onePL_no_minimum ⟨2, b⟩ hwf [fun _ => 0, fun _ => 1] [0, 0] rfl (List.cons_ne_nil _ _) 3 exSolvedByAll
    (fun i _ => exSolvedByAll_valid i) 1 0 (by show 1 < 2; omega) (by omega) 0 (by omega) (by simp [exSolvedByAll, cellMissing]) ?_ hmin
  intro i' _
  unfold exSolvedByAll
  rw [if_pos rfl]
  split <;> simp

/-! ## A case in which the gradient is zero -/

/-- A 2PL model with one item. -/
noncomputable def exBalanced : TwoPL := ⟨1, 1, [[true]], [1], [0]⟩

theorem exBalanced_wf : exBalanced.WF :=
  ⟨by simp [exBalanced], by simp [exBalanced], by simp [exBalanced, countTrue], by simp [exBalanced]⟩

/-- A wrong answer, a right answer and a missing one. -/
def exBalancedData (i _j : ℕ) : Cell := if i = 0 then some 0 else if i = 1 then some 1 else none

theorem exBalancedData_valid (i : ℕ) : ValidResponses (List.replicate exBalanced.items 2) (exBalancedData i) := by
  intro j c hc hm
  obtain ⟨_, rfl⟩ := replicate_getElem? _ _ _ _ hc
  unfold exBalancedData at hm ⊢
  by_cases h0 : i = 0
  · exact ⟨0, by rw [if_pos h0]; rfl, by omega⟩
  · rw [if_neg h0] at hm ⊢
    by_cases h1 : i = 1
    · exact ⟨1, by rw [if_pos h1]; rfl, by omega⟩
    · rw [if_neg h1] at hm
      simp [cellMissing] at hm

noncomputable def exBalancedPts : Thetas 1 := [fun _ => -1, fun _ => 1]

theorem exBalanced_prob (θ : Fin 1 → ℝ) : tableProb (exBalanced.probs (List.ofFn θ)) 0 0 = 1 - logistic (θ 0) ∧
    tableProb (exBalanced.probs (List.ofFn θ)) 0 1 = logistic (θ 0) := by
  have h := C03_twoPL_formula exBalanced exBalanced_wf (List.ofFn θ) 0 [1] 0 (by
    simp [TwoPL.itemParameters, TwoPL.weights, exBalanced, scatterMask, viewRows])
  have e : dot (List.ofFn θ) [1] + 0 = θ 0 := by simp [dot]
  rw [e] at h
  exact ⟨by rw [tableProb_row _ _ _ _ h]; rfl, by rw [tableProb_row _ _ _ _ h]; rfl⟩

theorem exBalanced_logistic : logistic (-1) = 1 - logistic 1 := by
  unfold logistic
  rw [Real.exp_neg]
  have := Real.exp_pos 1
  field_simp
  ring

theorem exBalanced_answered : answeredBy 3 exBalancedData 0 = {0, 1} := by decide

theorem exBalanced_lik {P : (Fin 1 → ℝ) → ℕ → ℕ → ℝ} (hP : ∀ θ, P θ 0 0 = 1 - logistic (θ 0) ∧ P θ 0 1 = logistic (θ 0)) (i : ℕ)
    (θ : Fin 1 → ℝ) : observedLikelihood P 1 (exBalancedData i) θ = if i = 0 then 1 - logistic (θ 0) else if i = 1 then logistic (θ 0) else 1 := by
  unfold observedLikelihood exBalancedData
  rw [prod_range_one]
  by_cases h0 : i = 0
  · simp only [if_pos h0]
    exact (hP θ).1
  · by_cases h1 : i = 1
    · simp only [if_neg h0, if_pos h1]
      exact (hP θ).2
    · simp [h0, h1, cellMissing]

/-- Posterior means in the example. -/
theorem exBalanced_mean {P : (Fin 1 → ℝ) → ℕ → ℕ → ℝ} (hP : ∀ θ, P θ 0 0 = 1 - logistic (θ 0) ∧ P θ 0 1 = logistic (θ 0))
    (F : (Fin 1 → ℝ) → ℝ) :
    posteriorMean exBalancedPts ([0, 0].map Real.exp) (observedLikelihood P 1 (exBalancedData 0)) F
        = logistic 1 * F (fun _ => -1) + (1 - logistic 1) * F (fun _ => 1) ∧
    posteriorMean exBalancedPts ([0, 0].map Real.exp) (observedLikelihood P 1 (exBalancedData 1)) F
        = (1 - logistic 1) * F (fun _ => -1) + logistic 1 * F (fun _ => 1) := by
  unfold posteriorMean weighted exBalancedPts
  simp only [exBalanced_lik hP]
  constructor <;> simp [exBalanced_logistic]

/-- The equation of the slope in the example. -/
theorem exBalanced_slope {P : (Fin 1 → ℝ) → ℕ → ℕ → ℝ} (hP : ∀ θ, P θ 0 0 = 1 - logistic (θ 0) ∧ P θ 0 1 = logistic (θ 0)) :
    ∑ i ∈ answeredBy 3 exBalancedData 0, posteriorMean exBalancedPts ([0, 0].map Real.exp) (observedLikelihood P 1 (exBalancedData i))
        (fun θ => θ 0 * meanItemScore P 2 0 θ)
      - ∑ i ∈ answeredBy 3 exBalancedData 0, (responseOf (exBalancedData i 0) : ℝ) *
        posteriorMean exBalancedPts ([0, 0].map Real.exp) (observedLikelihood P 1 (exBalancedData i)) (fun θ => θ 0) = 0 := by
  rw [exBalanced_answered, sum_pair (by omega), sum_pair (by omega), (exBalanced_mean hP _).1, (exBalanced_mean hP _).1,
    (exBalanced_mean hP _).2, (exBalanced_mean hP _).2]
  have hm : ∀ θ : Fin 1 → ℝ, meanItemScore P 2 0 θ = logistic (θ 0) := fun θ => by
    unfold meanItemScore
    rw [sum_range_succ, sum_range_one, (hP θ).2]
    push_cast
    ring
  simp only [hm, exBalanced_logistic]
  simp [responseOf, exBalancedData]
  ring

/-- The gradient by the intercept is zero. -/
theorem exBalanced_flat : FlatAt (fun b => mmlLoss (({ exBalanced with bias := b } : TwoPL).scorer exBalanced.lv)
    (rowsOf 3 exBalanced.items exBalancedData) exBalancedPts [0, 0]) exBalanced.bias := by
  rw [C121_twoPL exBalanced exBalanced_wf exBalancedPts [0, 0] rfl (List.cons_ne_nil _ _) 3 exBalancedData fun i _ => exBalancedData_valid i]
  intro j c r hc hr
  obtain ⟨hj, rfl⟩ := replicate_getElem? _ _ _ _ hc
  obtain rfl : j = 0 := by simp [exBalanced] at hj; exact hj
  unfold expectedBy
  rw [exBalanced_answered, sum_pair (by omega), List.length_replicate]
  have h := exBalanced_mean exBalanced_prob fun θ => tableProb (exBalanced.probs (List.ofFn θ)) 0 r
  refine Eq.trans ?_ (congrArg₂ (· + ·) h.1 h.2).symm
  interval_cases r
  · have : chosenBy 3 exBalancedData 0 0 = 1 := by decide
    rw [this]
    simp only [(exBalanced_prob _).1, exBalanced_logistic]
    push_cast
    ring
  · have : chosenBy 3 exBalancedData 0 1 = 1 := by decide
    rw [this]
    simp only [(exBalanced_prob _).2, exBalanced_logistic]
    push_cast
    ring

/-- So is the gradient by the slope. -/
theorem exBalanced_flat_slope : FlatAt (fun w => mmlLoss (({ exBalanced with weight := w } : TwoPL).scorer exBalanced.lv)
    (rowsOf 3 exBalanced.items exBalancedData) exBalancedPts [0, 0]) exBalanced.weight := by
  intro n hn
  obtain rfl : n = 0 := by simp [exBalanced] at hn; exact hn
  obtain ⟨n, hn, _, e⟩ := exBalanced.slope_partial exBalanced_wf exBalancedPts [0, 0] rfl (List.cons_ne_nil _ _) 3 exBalancedData
    (fun i _ => exBalancedData_valid i) 0 (by simp [exBalanced]) (0 : Fin 1) [true] rfl rfl
  obtain rfl : n = 0 := by rw [hn]; rfl
  rw [e]
  exact exBalanced_slope exBalanced_prob

/-- Half of the two answers to the item are expected to be right, as observed. -/
example : expectedBy (fun θ : Fin 1 → ℝ => tableProb (exBalanced.probs (List.ofFn θ))) 1 exBalancedPts ([0, 0].map Real.exp) 3 exBalancedData 0 1
    = 1 := by
  have h := (C121_twoPL exBalanced exBalanced_wf exBalancedPts [0, 0] rfl (List.cons_ne_nil _ _) 3 exBalancedData fun i _ =>
    exBalancedData_valid i).1 exBalanced_flat 0 2 1 (by simp [exBalanced]) (by omega)
  have e : chosenBy 3 exBalancedData 0 1 = 1 := by decide
  rw [e] at h
  exact h.symm.trans Nat.cast_one

example := C121_twoPL_slopes exBalanced exBalanced_wf exBalancedPts [0, 0] rfl (List.cons_ne_nil _ _) 3 exBalancedData
  (fun i _ => exBalancedData_valid i) exBalanced_flat_slope 0 (by simp [exBalanced]) (0 : Fin 1) [true] rfl rfl

/-! ## The same for an item with three categories -/

/-- Three respondents, each with another answer to the only item. -/
def exEachAnswer (i _j : ℕ) : Cell := some ((i % 3 : ℕ) : ℤ)

theorem exEachAnswer_valid (i : ℕ) : ValidResponses [3] (exEachAnswer i) := by
  intro j c hc _
  have hj := lt_of_getElem?_some hc
  obtain rfl : j = 0 := by simpa using hj
  obtain rfl : 3 = c := by simpa using hc
  exact ⟨i % 3, rfl, Nat.mod_lt _ (by omega)⟩

theorem exEachAnswer_chosen (r : ℕ) (hr : r < 3) : chosenBy 3 exEachAnswer 0 r = 1 := by
  interval_cases r <;> decide

theorem posteriorMean_single {d : ℕ} (p : Fin d → ℝ) (a : ℝ) (lik F : (Fin d → ℝ) → ℝ) (h : a * lik p ≠ 0) :
    posteriorMean [p] [a] lik F = F p := by
  simp only [posteriorMean, weighted, List.zipWith_cons_cons, List.zipWith_nil_left, List.sum_cons, List.sum_nil, add_zero]
  rw [← mul_assoc, mul_div_assoc, mul_comm, div_mul_cancel₀ _ h]

/-- With the single point 0 and equal probabilities every answer is expected once. -/
theorem exEachAnswer_expected {P : (Fin 1 → ℝ) → ℕ → ℕ → ℝ} {A : ℕ → ℕ → Fin 1 → ℝ} {B : ℕ → ℕ → ℝ} (hP : LogitModel [3] P A B)
    (hB : ∀ r, r < 3 → B 0 r = 0) (r : ℕ) (hr : r < 3) :
    expectedBy P 1 [fun _ => 0] ([0].map Real.exp) 3 exEachAnswer 0 r = 1 := by
  have hp : ∀ r, r < 3 → P (fun _ => 0) 0 r = 1 / 3 := by
    intro r hr
    rw [hP _ 0 3 r rfl hr]
    have e : ∀ s, s < 3 → Real.exp (∑ k, A 0 s k * (fun _ : Fin 1 => (0 : ℝ)) k + B 0 s) = 1 := fun s hs => by simp [hB s hs]
    rw [e r hr, sum_congr rfl fun s hs => e s (mem_range.1 hs)]
    simp
  have hpos : PositiveProbs P [3] := fun θ j c r hc hr => hP.pos θ j c r hc hr
  unfold expectedBy
  rw [show answeredBy 3 exEachAnswer 0 = range 3 by decide]
  have h : ∀ i ∈ range 3, posteriorMean [fun _ => 0] ([0].map Real.exp) (observedLikelihood P 1 (exEachAnswer i)) (fun θ => P θ 0 r) = 1 / 3 := by
    intro i _
    have := posteriorMean_single (fun _ : Fin 1 => (0 : ℝ)) (Real.exp 0) (observedLikelihood P 1 (exEachAnswer i)) (fun θ => P θ 0 r)
      (mul_pos (Real.exp_pos _) (observedLikelihood_pos hpos _ (exEachAnswer_valid i) _)).ne'
    exact this.trans (hp r hr)
  rw [sum_congr rfl h]
  norm_num

noncomputable def exThreeGpc : GPC := ⟨1, [3], [[true]], [2], [0, 0]⟩

theorem exThreeGpc_wf : exThreeGpc.WF :=
  ⟨by simp [exThreeGpc], by simp [exThreeGpc], by simp [exThreeGpc], by simp [exThreeGpc, countTrue], by simp [exThreeGpc]⟩

theorem exThreeGpc_bias (r : ℕ) (hr : r < 3) : ((exThreeGpc.itemParameters[0]?).map fun p => p.2.getD r 0).getD 0 = 0 := by
  rw [exThreeGpc.intercept_entry 0 r (by simp [exThreeGpc]) (by simpa [GPC.M, exThreeGpc, maxCats] using hr)]
  have : exThreeGpc.biases = [0, 0, 0] := by
    simp [GPC.biases, exThreeGpc, GPC.M, maxCats, freeMask, freeRow, scatterMask, List.range_succ]
  rw [this, show 0 * exThreeGpc.M + r = r by simp]
  interval_cases r <;> rfl

theorem exThreeGpc_flat : FlatAt (fun b => mmlLoss (({ exThreeGpc with bias := b } : GPC).scorer exThreeGpc.lv)
    (rowsOf 3 exThreeGpc.cats.length exEachAnswer) [fun _ => 0] [0]) exThreeGpc.bias := by
  have key : ∀ k, 0 < k → k < 3 → partialAt (fun b => mmlLoss (({ exThreeGpc with bias := b } : GPC).scorer exThreeGpc.lv)
      (rowsOf 3 exThreeGpc.cats.length exEachAnswer) [fun _ => 0] [0]) exThreeGpc.bias
        (countTrue ((freeMask exThreeGpc.M exThreeGpc.cats).take (0 * exThreeGpc.M + k))) = 0 := by
    intro k hk0 hk
    obtain ⟨n, hn, _, e⟩ := exThreeGpc.intercept_partial exThreeGpc_wf (List.cons_ne_nil _ _) [fun _ => 0] [0] rfl (List.cons_ne_nil _ _) 3
      exEachAnswer (fun i _ => exEachAnswer_valid i) 0 3 k rfl hk0 hk
    rw [← hn, e, exEachAnswer_chosen k hk]
    have := exEachAnswer_expected (exThreeGpc.logitModel exThreeGpc_wf 1) exThreeGpc_bias k hk
    rw [sub_eq_zero]
    exact this.trans Nat.cast_one.symm
  intro n hn
  have hn : n < 2 := hn
  interval_cases n
  · exact key 1 (by omega) (by omega)
  · exact key 2 (by omega) (by omega)

example : AnswersMatch (fun θ : Fin 1 → ℝ => tableProb (exThreeGpc.probs (List.ofFn θ))) [3] [fun _ => 0] ([0].map Real.exp) 3 exEachAnswer :=
  C121_gpc exThreeGpc exThreeGpc_wf (List.cons_ne_nil _ _) [fun _ => 0] [0] rfl (List.cons_ne_nil _ _) 3 exEachAnswer
    (fun i _ => exEachAnswer_valid i) exThreeGpc_flat

noncomputable def exThreeNrm : NRM := ⟨1, [3], [[true]], [2, -1], [0, 0]⟩

theorem exThreeNrm_wf : exThreeNrm.WF :=
  ⟨by simp [exThreeNrm], by simp [exThreeNrm], by simp [exThreeNrm], rfl, by simp [exThreeNrm]⟩

theorem exThreeNrm_bias (r : ℕ) (hr : r < 3) : ((exThreeNrm.itemParameters[0]?).map fun p => p.2.getD r 0).getD 0 = 0 := by
  have hM : exThreeNrm.M = 3 := rfl
  rw [exThreeNrm.intercept_entry 0 r (by simp [exThreeNrm]) (by rw [hM]; exact hr)]
  have : exThreeNrm.flatBias = [0, 0, 0] := by
    simp [NRM.flatBias, exThreeNrm, NRM.M, maxCats, freeMask, freeRow, scatterMask, List.range_succ]
  rw [this, hM, Nat.zero_mul]
  interval_cases r <;> simp [sum_range_succ]

theorem exThreeNrm_flat : FlatAt (fun b => mmlLoss (({ exThreeNrm with bias := b } : NRM).scorer exThreeNrm.lv)
    (rowsOf 3 exThreeNrm.cats.length exEachAnswer) [fun _ => 0] [0]) exThreeNrm.bias := by
  have key : ∀ k, 0 < k → k < 3 → partialAt (fun b => mmlLoss (({ exThreeNrm with bias := b } : NRM).scorer exThreeNrm.lv)
      (rowsOf 3 exThreeNrm.cats.length exEachAnswer) [fun _ => 0] [0]) exThreeNrm.bias
        (countTrue ((freeMask exThreeNrm.M exThreeNrm.cats).take (0 * exThreeNrm.M + k))) = 0 := by
    intro k hk0 hk
    obtain ⟨n, hn, _, e⟩ := exThreeNrm.intercept_partial exThreeNrm_wf (List.cons_ne_nil _ _) [fun _ => 0] [0] rfl (List.cons_ne_nil _ _) 3
      exEachAnswer (fun i _ => exEachAnswer_valid i) 0 3 k rfl hk0 hk
    rw [← hn, e, exEachAnswer_chosen k hk, exEachAnswer_chosen 0 (by omega)]
    have h1 := exEachAnswer_expected (exThreeNrm.logitModel 1) exThreeNrm_bias k hk
    have h0 := exEachAnswer_expected (exThreeNrm.logitModel 1) exThreeNrm_bias 0 (by omega)
    rw [sub_eq_zero]
    exact congrArg (· - ((1 : ℕ) : ℝ)) (h1.trans h0.symm)
  intro n hn
  have hn : n < 2 := hn
  interval_cases n
  · exact key 1 (by omega) (by omega)
  · exact key 2 (by omega) (by omega)

example : AnswersMatch (fun θ : Fin 1 → ℝ => tableProb (exThreeNrm.probs (List.ofFn θ))) [3] [fun _ => 0] ([0].map Real.exp) 3 exEachAnswer :=
  C121_nrm exThreeNrm exThreeNrm_wf (List.cons_ne_nil _ _) [fun _ => 0] [0] rfl (List.cons_ne_nil _ _) 3 exEachAnswer
    (fun i _ => exEachAnswer_valid i) exThreeNrm_flat

/-- Two of the three answers were given: there is no minimum. -/
example : ¬ SmallestAt (fun b => mmlLoss (({ exThreeGpc with bias := b } : GPC).scorer exThreeGpc.lv)
    (rowsOf 2 exThreeGpc.cats.length exEachAnswer) [fun _ => 0] [0]) exThreeGpc.bias :=
  C121_gpc_no_minimum exThreeGpc exThreeGpc_wf (List.cons_ne_nil _ _) [fun _ => 0] [0] rfl (List.cons_ne_nil _ _) 2 exEachAnswer
    (fun i _ => exEachAnswer_valid i) 0 3 2 rfl (by omega) 0 (by omega) rfl (by
      intro i' hi'
      interval_cases i' <;> simp [exEachAnswer])

/-! ## Slopes of the other models -/

theorem exBalancedData_valid' (i : ℕ) : ValidResponses [2] (exBalancedData i) := exBalancedData_valid i

/-- The partial credit model of the balanced example. -/
noncomputable def exBalancedGpc : GPC := ⟨1, [2], [[true]], [1], [0]⟩

theorem exBalancedGpc_wf : exBalancedGpc.WF :=
  ⟨by simp [exBalancedGpc], by simp [exBalancedGpc], by simp [exBalancedGpc], by simp [exBalancedGpc, countTrue], by simp [exBalancedGpc]⟩

/-- A logit model with two answers. -/
theorem two_answers {P : (Fin 1 → ℝ) → ℕ → ℕ → ℝ} {A : ℕ → ℕ → Fin 1 → ℝ} {B : ℕ → ℕ → ℝ} (hP : LogitModel [2] P A B)
    (hA : A 0 1 0 - A 0 0 0 = 1) (hB : B 0 1 = 0 ∧ B 0 0 = 0) (θ : Fin 1 → ℝ) : P θ 0 0 = 1 - logistic (θ 0) ∧ P θ 0 1 = logistic (θ 0) := by
  have h1 : A 0 1 0 = A 0 0 0 + 1 := by linarith
  rw [hP θ 0 2 0 rfl (by omega), hP θ 0 2 1 rfl (by omega), sum_range_succ, sum_range_one]
  simp only [univ_unique, Fin.default_eq_zero, sum_singleton, hB.1, hB.2, h1, add_zero, add_mul, one_mul, Real.exp_add]
  have e1 := Real.exp_pos (A 0 0 0 * θ 0)
  have e2 := Real.exp_pos (θ 0)
  have e3 : Real.exp (A 0 0 0 * θ 0) + Real.exp (A 0 0 0 * θ 0) * Real.exp (θ 0) = Real.exp (A 0 0 0 * θ 0) * (1 + Real.exp (θ 0)) := by ring
  rw [e3]
  unfold logistic
  constructor
  · field_simp
    ring
  · field_simp

theorem exBalancedGpc_flat : FlatAt (fun w => mmlLoss (({ exBalancedGpc with weight := w } : GPC).scorer exBalancedGpc.lv)
    (rowsOf 3 exBalancedGpc.cats.length exBalancedData) exBalancedPts [0, 0]) exBalancedGpc.weight := by
  intro n hn
  obtain rfl : n = 0 := by simp [exBalancedGpc] at hn; exact hn
  obtain ⟨n, hn, _, e⟩ := exBalancedGpc.slope_partial exBalancedGpc_wf (List.cons_ne_nil _ _) exBalancedPts [0, 0] rfl (List.cons_ne_nil _ _) 3
    exBalancedData (fun i _ => exBalancedData_valid' i) 0 2 (0 : Fin 1) rfl [true] rfl rfl
  obtain rfl : n = 0 := by rw [hn]; rfl
  rw [e]
  have hp : exBalancedGpc.itemParameters = [([1], [0, 0])] := by
    simp [GPC.itemParameters, GPC.weights, GPC.biases, GPC.M, maxCats, freeMask, freeRow, exBalancedGpc, scatterMask, viewRows, List.range_succ]
  exact exBalanced_slope (two_answers (exBalancedGpc.logitModel exBalancedGpc_wf 1) (by simp [hp, slopeOf]) (by simp [hp]))

example := C121_gpc_slopes exBalancedGpc exBalancedGpc_wf (List.cons_ne_nil _ _) exBalancedPts [0, 0] rfl (List.cons_ne_nil _ _) 3
  exBalancedData (fun i _ => exBalancedData_valid' i) exBalancedGpc_flat 0 2 rfl (0 : Fin 1) [true] rfl rfl

/-- The nominal response model of the balanced example. -/
noncomputable def exBalancedNrm : NRM := ⟨1, [2], [[true]], [1 / 2], [0]⟩

theorem exBalancedNrm_wf : exBalancedNrm.WF :=
  ⟨by simp [exBalancedNrm], by simp [exBalancedNrm], by simp [exBalancedNrm], rfl, by simp [exBalancedNrm]⟩

theorem exBalancedNrm_flat : FlatAt (fun w => mmlLoss (({ exBalancedNrm with weight := w } : NRM).scorer exBalancedNrm.lv)
    (rowsOf 3 exBalancedNrm.cats.length exBalancedData) exBalancedPts [0, 0]) exBalancedNrm.weight := by
  intro n hn
  obtain rfl : n = 0 := by simp [exBalancedNrm] at hn; exact hn
  obtain ⟨n, hn, _, e⟩ := exBalancedNrm.slope_partial exBalancedNrm_wf (List.cons_ne_nil _ _) exBalancedPts [0, 0] rfl (List.cons_ne_nil _ _) 3
    exBalancedData (fun i _ => exBalancedData_valid' i) 0 2 1 (0 : Fin 1) rfl (by omega) (by omega) [true] rfl rfl
  obtain rfl : n = 0 := by rw [hn]; rfl
  rw [e]
  have hM : exBalancedNrm.M = 2 := rfl
  have hb : exBalancedNrm.flatBias = [0, 0] := by
    simp [NRM.flatBias, NRM.M, maxCats, freeMask, freeRow, exBalancedNrm, scatterMask, List.range_succ]
  have hw : exBalancedNrm.flatWeight = [0, 1 / 2] := by
    simp [NRM.flatWeight, NRM.freeWeights, nrmFreeRows, NRM.M, maxCats, freeRow, exBalancedNrm, scatterMask, List.range_succ]
  have hlv : exBalancedNrm.lv = 1 := rfl
  have hP := two_answers (exBalancedNrm.logitModel 1) (by
      show categorySlopeOf exBalancedNrm.itemParameters 0 1 0 - categorySlopeOf exBalancedNrm.itemParameters 0 0 0 = 1
      rw [NRM.slope_entry exBalancedNrm exBalancedNrm_wf 0 1 0 (by simp [exBalancedNrm]) (by rw [hM]; omega) (by rw [hlv]; omega),
        NRM.slope_entry exBalancedNrm exBalancedNrm_wf 0 0 0 (by simp [exBalancedNrm]) (by rw [hM]; omega) (by rw [hlv]; omega), hw, hM, hlv]
      norm_num) (by
      rw [NRM.intercept_entry exBalancedNrm 0 1 (by simp [exBalancedNrm]) (by rw [hM]; omega),
        NRM.intercept_entry exBalancedNrm 0 0 (by simp [exBalancedNrm]) (by rw [hM]; omega), hb, hM]
      norm_num)
  rw [exBalanced_answered, sum_pair (by omega), sum_pair (by omega)]
  have h1 := exBalanced_mean hP fun θ => θ 0 * (tableProb (exBalancedNrm.probs (List.ofFn θ)) 0 1 - tableProb (exBalancedNrm.probs (List.ofFn θ)) 0 0)
  have h2 := exBalanced_mean hP fun θ => θ 0
  rw [sub_eq_zero]
  refine (congrArg₂ (· + ·) h1.1 h1.2).trans ?_
  refine Eq.trans ?_ (congrArg₂ (fun a b =>
    ((if responseOf (exBalancedData 0 0) = 1 then (1 : ℝ) else 0) - if responseOf (exBalancedData 0 0) = 0 then 1 else 0) * a +
    ((if responseOf (exBalancedData 1 0) = 1 then (1 : ℝ) else 0) - if responseOf (exBalancedData 1 0) = 0 then 1 else 0) * b) h2.1 h2.2).symm
  simp only [(hP _).1, (hP _).2, exBalanced_logistic]
  simp [responseOf, exBalancedData]
  ring

example := C121_nrm_slopes exBalancedNrm exBalancedNrm_wf (List.cons_ne_nil _ _) exBalancedPts [0, 0] rfl (List.cons_ne_nil _ _) 3
  exBalancedData (fun i _ => exBalancedData_valid' i) exBalancedNrm_flat 0 2 1 rfl (by omega) (by omega) (0 : Fin 1) [true] rfl rfl

end Irt
