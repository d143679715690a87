import Verif.Lemmas.SingleCrossing
import Verif.Props.CalibratedScores
import Verif.Props.OtherPopulation
import Verif.Props.MmlSymmetry

/-! # C154: slopes and intercepts of the 2PL model are found -/

namespace Irt
open Spec MeasureTheory Filter Topology

/-! ## The 2PL model with one latent variable -/

/-- The 2PL model with one latent variable and given slopes and intercepts. -/
noncomputable def twoPLWith {items : ℕ} (p : (Fin items → ℝ) × (Fin items → ℝ)) : TwoPL :=
  TwoPL.free items 1 (List.ofFn p.1) (List.ofFn p.2)

theorem twoPLWith_wf {items : ℕ} (p : (Fin items → ℝ) × (Fin items → ℝ)) : (twoPLWith p).WF :=
  TwoPL.free_wf _ _ _ _ (by simp) (by simp)

theorem viewRows_one (n : ℕ) (w : List ℝ) (hw : w.length = n) : viewRows n 1 w = w.map fun a => [a] := by
  induction n generalizing w with
  | zero => simp at hw; simp [hw, viewRows]
  | succ n ih =>
    cases w with
    | nil => simp at hw
    | cons a w => simp [viewRows, ih w (by simpa using hw)]

theorem twoPLWith_row {items : ℕ} (p : (Fin items → ℝ) × (Fin items → ℝ)) (θ : Fin 1 → ℝ) (j : ℕ) (hj : j < items) :
    ((twoPLWith p).probs (List.ofFn θ))[j]? = some [1 - logistic (p.1 ⟨j, hj⟩ * θ 0 + p.2 ⟨j, hj⟩), logistic (p.1 ⟨j, hj⟩ * θ 0 + p.2 ⟨j, hj⟩)] := by
  have h := C03_twoPL_formula (twoPLWith p) (twoPLWith_wf p) (List.ofFn θ) j [p.1 ⟨j, hj⟩] (p.2 ⟨j, hj⟩) (by
    rw [TwoPL.itemParameters, twoPLWith, TwoPL.free_weights _ _ _ _ (by simp), viewRows_one _ _ (by simp)]
    simp [TwoPL.free, List.getElem?_zip_eq_some, hj])
  rw [h]
  simp [dot, mul_comm]

theorem twoPLWith_prob {items : ℕ} (p : (Fin items → ℝ) × (Fin items → ℝ)) (θ : Fin 1 → ℝ) (j r : ℕ) :
    tableProb ((twoPLWith p).probs (List.ofFn θ)) j r = if hj : j < items then
      if r = 0 then 1 - logistic (p.1 ⟨j, hj⟩ * θ 0 + p.2 ⟨j, hj⟩) else if r = 1 then logistic (p.1 ⟨j, hj⟩ * θ 0 + p.2 ⟨j, hj⟩) else 0 else 0 := by
  by_cases hj : j < items
  · rw [dif_pos hj, tableProb_row _ _ _ _ (twoPLWith_row p θ j hj)]
    rcases r with _ | _ | r <;> simp
  · rw [dif_neg hj]
    have : ((twoPLWith p).probs (List.ofFn θ))[j]? = none :=
      List.getElem?_eq_none (by rw [(C01_twoPL_distribution _ (twoPLWith_wf p) _).1]; simp [twoPLWith, TwoPL.free]; omega)
    rw [tableProb, this]
    rfl

theorem twoPLWith_proper {items : ℕ} (p : (Fin items → ℝ) × (Fin items → ℝ)) :
    ProperProbs (d := 1) (fun θ => tableProb ((twoPLWith p).probs (List.ofFn θ))) (List.replicate items 2) := by
  intro θ j c hc
  obtain ⟨hj, rfl⟩ := replicate_getElem? _ _ _ _ hc
  simp only [twoPLWith_prob]
  simp [Finset.sum_range_succ, hj]

theorem twoPLWith_jointly {items : ℕ} (j r : ℕ) :
    Continuous fun p : ((Fin items → ℝ) × (Fin items → ℝ)) × (Fin 1 → ℝ) => tableProb ((twoPLWith p.1).probs (List.ofFn p.2)) j r := by
  simp only [twoPLWith_prob]
  have hl : Continuous logistic := continuous_logistic'
  split_ifs with hj
  · fun_prop
  · fun_prop
  · fun_prop
  · fun_prop

theorem twoPLWith_le_one {items : ℕ} (p : (Fin items → ℝ) × (Fin items → ℝ)) (θ : Fin 1 → ℝ) (j r : ℕ) :
    tableProb ((twoPLWith p).probs (List.ofFn θ)) j r ≤ 1 := by
  rw [twoPLWith_prob]
  split_ifs with hj
  · linarith [(logistic_unit (p.1 ⟨j, hj⟩ * θ 0 + p.2 ⟨j, hj⟩)).1]
  · exact (logistic_unit _).2.le
  · exact zero_le_one
  · exact zero_le_one

theorem twoPLWith_continuous {items : ℕ} (p : (Fin items → ℝ) × (Fin items → ℝ)) :
    ContinuousProbs fun θ : Fin 1 → ℝ => tableProb ((twoPLWith p).probs (List.ofFn θ)) := by
  intro j r
  simp only [twoPLWith_prob]
  have hl : Continuous logistic := continuous_logistic'
  split_ifs with hj
  · fun_prop
  · fun_prop
  · fun_prop
  · fun_prop

theorem twoPLWith_isScorer {items : ℕ} (hitems : 0 < items) (p : (Fin items → ℝ) × (Fin items → ℝ)) :
    IsScorer ((twoPLWith p).scorer 1) (List.replicate items 2) fun θ => tableProb ((twoPLWith p).probs (List.ofFn θ)) :=
  (twoPLWith p).isScorer (twoPLWith_wf p) hitems 1

theorem twoPLWith_positive {items : ℕ} (p : (Fin items → ℝ) × (Fin items → ℝ)) :
    PositiveProbs (fun θ : Fin 1 → ℝ => tableProb ((twoPLWith p).probs (List.ofFn θ))) (List.replicate items 2) :=
  (twoPLWith p).positive (twoPLWith_wf p) 1

/-! ## One item and two items in a normal population -/

/-- The probability of a right answer to an item with slope `a` and intercept `b` in a standard normal population. -/
noncomputable abbrev rightOne (a b : ℝ) : ℝ := rightOneAt (1 : Matrix (Fin 1) (Fin 1) ℝ) 0 a b

/-- The probability of right answers to both of two items. -/
noncomputable abbrev rightBoth (a b c d : ℝ) : ℝ := rightBothAt (1 : Matrix (Fin 1) (Fin 1) ℝ) 0 a b c d

theorem rightOne_mono (a : ℝ) {b b' : ℝ} (h : b < b') : rightOne a b < rightOne a b' := rightOneAt_mono Matrix.PosDef.one 0 a h

theorem three_items {items : ℕ} (hitems : 3 ≤ items) (j : Fin items) : ∃ k l : Fin items, j ≠ k ∧ j ≠ l ∧ k ≠ l := by
  obtain ⟨j, hj⟩ := j
  simp only [ne_eq, Fin.ext_iff]
  rcases j with _ | _ | j
  · exact ⟨⟨1, by omega⟩, ⟨2, by omega⟩, by simp, by simp, by simp⟩
  · exact ⟨⟨0, by omega⟩, ⟨2, by omega⟩, by simp, by simp, by simp⟩
  · exact ⟨⟨0, by omega⟩, ⟨1, by omega⟩, by simp, by simp, by simp⟩

/-- The expectation of a product of functions of two answers. -/
theorem answerProb_pair {d : ℕ} {P : (Fin d → ℝ) → ℕ → ℕ → ℝ} {cats : List ℕ} (hP : ProperProbs P cats) (θ : Fin d → ℝ) {j k : Fin cats.length}
    (hjk : j ≠ k) (g h : ℕ → ℝ) :
    ∑ x ∈ fullAnswers cats, answerProb P θ x * (g (x j) * h (x k))
      = (∑ r ∈ Finset.range cats[j], P θ j r * g r) * ∑ r ∈ Finset.range cats[k], P θ k r * h r := by
  have H := Finset.prod_univ_sum (fun k : Fin cats.length => Finset.range cats[k]) fun i r =>
    P θ i r * ((if i = j then g r else 1) * if i = k then h r else 1)
  have hk : k ∈ Finset.univ.erase j := Finset.mem_erase.2 ⟨hjk.symm, Finset.mem_univ k⟩
  rw [← Finset.mul_prod_erase _ _ (Finset.mem_univ j), ← Finset.mul_prod_erase _ _ hk, Finset.prod_eq_one (s := (Finset.univ.erase j).erase k), mul_one] at H
  · simp only [if_true, if_neg hjk, if_neg hjk.symm, one_mul, mul_one] at H
    rw [H]
    refine Finset.sum_congr rfl fun x _ => ?_
    rw [Finset.prod_mul_distrib, Finset.prod_mul_distrib]
    unfold answerProb
    simp
  · intro i hi
    have h1 := (Finset.mem_erase.1 hi).1
    have h2 := Finset.ne_of_mem_erase (Finset.mem_of_mem_erase hi)
    simp only [if_neg h1, if_neg h2, mul_one]
    exact hP θ i cats[i] (by simp)

theorem moments_identified {items : ℕ} (hitems : 3 ≤ items) (p q : (Fin items → ℝ) × (Fin items → ℝ)) (hp : ∀ j, 0 < p.1 j) (hq : ∀ j, 0 < q.1 j)
    (hM : ∀ j, rightOne (p.1 j) (p.2 j) = rightOne (q.1 j) (q.2 j))
    (hJ : ∀ j k, j ≠ k → rightBoth (p.1 j) (p.2 j) (p.1 k) (p.2 k) = rightBoth (q.1 j) (q.2 j) (q.1 k) (q.2 k)) : p = q :=
  momentsAt_identified Matrix.PosDef.one 0 (three_items hitems) p q hp hq hM hJ

section Identified

variable {items : ℕ} (p : (Fin items → ℝ) × (Fin items → ℝ))

theorem twoPLWith_right (j : Fin items) : ∑ x ∈ fullAnswers (List.replicate items 2),
    normalProb (fun θ : Fin 1 → ℝ => tableProb ((twoPLWith p).probs (List.ofFn θ))) 1 x * (if x ⟨j, by simp⟩ = 1 then 1 else 0)
      = rightOne (p.1 j) (p.2 j) := by
  rw [normalProb_sum_mul (P := fun θ : Fin 1 → ℝ => tableProb ((twoPLWith p).probs (List.ofFn θ)))
    (twoPLWith_continuous p) (twoPLWith_isScorer (Fin.pos j) p).nonneg (fun θ j r => twoPLWith_le_one p _ j r) Matrix.PosDef.one]
  unfold rightOne rightOneAt
  congr 1
  funext θ
  rw [answerProb_item (twoPLWith_proper p) θ ⟨j, by simp⟩ fun r => if r = 1 then 1 else 0]
  simp only [twoPLWith_prob]
  simp

theorem twoPLWith_both {j k : Fin items} (hjk : j ≠ k) : ∑ x ∈ fullAnswers (List.replicate items 2),
    normalProb (fun θ : Fin 1 → ℝ => tableProb ((twoPLWith p).probs (List.ofFn θ))) 1 x
      * ((if x ⟨j, by simp⟩ = 1 then 1 else 0) * if x ⟨k, by simp⟩ = 1 then 1 else 0)
      = rightBoth (p.1 j) (p.2 j) (p.1 k) (p.2 k) := by
  rw [normalProb_sum_mul (P := fun θ : Fin 1 → ℝ => tableProb ((twoPLWith p).probs (List.ofFn θ)))
    (twoPLWith_continuous p) (twoPLWith_isScorer (Fin.pos j) p).nonneg (fun θ j r => twoPLWith_le_one p _ j r) Matrix.PosDef.one]
  unfold rightBoth rightBothAt
  congr 1
  funext θ
  rw [answerProb_pair (twoPLWith_proper p) θ (j := ⟨j, by simp⟩) (k := ⟨k, by simp⟩) (fun h => hjk (Fin.ext (by simpa using h)))
    (fun r => if r = 1 then 1 else 0) fun r => if r = 1 then 1 else 0]
  simp only [twoPLWith_prob]
  simp

/-- Three or more items with positive slopes: the distribution of the answers in a standard normal population determines the slopes and the intercepts. -/
theorem C154_identified (hitems : 3 ≤ items) (p q : (Fin items → ℝ) × (Fin items → ℝ)) (hp : ∀ j, 0 < p.1 j) (hq : ∀ j, 0 < q.1 j)
    (h : ∀ x ∈ fullAnswers (List.replicate items 2), normalProb (fun θ : Fin 1 → ℝ => tableProb ((twoPLWith p).probs (List.ofFn θ))) 1 x
      = normalProb (fun θ : Fin 1 → ℝ => tableProb ((twoPLWith q).probs (List.ofFn θ))) 1 x) : p = q := by
  have hM : ∀ j, rightOne (p.1 j) (p.2 j) = rightOne (q.1 j) (q.2 j) := by
    intro j
    rw [← twoPLWith_right p j, ← twoPLWith_right q j]
    exact Finset.sum_congr rfl fun x hx => by rw [h x hx]
  have hJ : ∀ j k, j ≠ k → rightBoth (p.1 j) (p.2 j) (p.1 k) (p.2 k) = rightBoth (q.1 j) (q.2 j) (q.1 k) (q.2 k) := by
    intro j k hjk
    rw [← twoPLWith_both p hjk, ← twoPLWith_both q hjk]
    exact Finset.sum_congr rfl fun x hx => by rw [h x hx]
  exact moments_identified hitems p q hp hq hM hJ

end Identified

/-! ## Fitting the model -/

/-- The bounds within which the parameters are fitted. -/
def TwoPLBounds (items : ℕ) (α β : ℝ) : Set ((Fin items → ℝ) × (Fin items → ℝ)) := {p | ∀ j, α ≤ p.1 j ∧ p.1 j ≤ β ∧ |p.2 j| ≤ β}

theorem twoPLBounds_eq (items : ℕ) (α β : ℝ) :
    TwoPLBounds items α β = (Set.univ.pi fun _ => Set.Icc α β) ×ˢ Set.univ.pi fun _ => Set.Icc (-β) β := by
  ext p
  simp only [TwoPLBounds, Set.mem_ofPred_eq, abs_le, Set.mem_prod, Set.mem_univ_pi, Set.mem_Icc]
  exact ⟨fun h => ⟨fun j => ⟨(h j).1, (h j).2.1⟩, fun j => (h j).2.2⟩, fun h j => ⟨(h.1 j).1, (h.1 j).2, h.2 j⟩⟩

theorem twoPLBounds_compact (items : ℕ) (α β : ℝ) : IsCompact (TwoPLBounds items α β) := by
  rw [twoPLBounds_eq]
  exact (isCompact_univ_pi fun _ => isCompact_Icc).prod (isCompact_univ_pi fun _ => isCompact_Icc)

/-- C154: the 2PL model with at least three items and one latent variable, fitted within bounds (slopes positive) to respondents from a standard normal
population. With enough Gauss-Hermite points and enough respondents all slopes and intercepts with the smallest loss are within `ε` of the
true ones, but for a risk as small as one likes. -/
theorem C154_twoPL {items : ℕ} (hitems : 3 ≤ items) {α : ℝ} (hα : 0 < α) (β : ℝ) {hg : ℕ → Except PyErr (List ℝ × List ℝ)} (hrules : ExactRules hg)
    {ch : Matrix (Fin 1) (Fin 1) ℝ → Except PyErr (Matrix (Fin 1) (Fin 1) ℝ)} {L : Matrix (Fin 1) (Fin 1) ℝ}
    (hL : ch 1 = .ok L) (hchol : IsCholesky 1 L) (p₀ : (Fin items → ℝ) × (Fin items → ℝ)) (h₀ : ∀ j, 0 < p₀.1 j) (ε : ℝ) (hε : 0 < ε) :
    ∃ n₀ : ℕ, 1 ≤ n₀ ∧ ∀ risk : ℝ, 0 < risk → ∃ N₀ : ℕ, ∀ n, n₀ ≤ n → ∀ N, N₀ ≤ N →
      ∀ pts lw, mmlIntegration hg ch "gauss_hermite" (some n) none = .ok (pts, lw) →
      ∀ estimate : (Fin N → Fin (List.replicate items 2).length → ℕ) → (Fin items → ℝ) × (Fin items → ℝ),
      (∀ s ∈ samples N (List.replicate items 2), estimate s ∈ TwoPLBounds items α β ∧
        ∃ L L' : ℝ, mmlLoss ((twoPLWith p₀).scorer 1) (rowsOf N (List.replicate items 2).length (sampleCells s)) pts lw = .ok (some L) ∧
          mmlLoss ((twoPLWith (estimate s)).scorer 1) (rowsOf N (List.replicate items 2).length (sampleCells s)) pts lw = .ok (some L') ∧ L' ≤ L) →
      ∀ far : Finset (Fin N → Fin (List.replicate items 2).length → ℕ), far ⊆ samples N (List.replicate items 2) →
        (∀ s ∈ far, ∃ j, ε ≤ |(estimate s).1 j - p₀.1 j| ∨ ε ≤ |(estimate s).2 j - p₀.2 j|) →
        ∑ s ∈ far, sampleProb (normalProb (fun θ : Fin 1 → ℝ => tableProb ((twoPLWith p₀).probs (List.ofFn θ))) 1) s ≤ risk := by
  have hU : IsOpen {p : (Fin items → ℝ) × (Fin items → ℝ) | ∀ j, |p.1 j - p₀.1 j| < ε ∧ |p.2 j - p₀.2 j| < ε} := by
    rw [Set.ofPred_forall]
    refine isOpen_iInter_of_finite fun j => ?_
    rw [Set.ofPred_and]
    exact (isOpen_lt (by fun_prop) continuous_const).inter (isOpen_lt (by fun_prop) continuous_const)
  obtain ⟨n₀, h1, h⟩ := C151_parameters (fun p : (Fin items → ℝ) × (Fin items → ℝ) => (twoPLWith p).scorer 1)
    (fun p θ => tableProb ((twoPLWith p).probs (List.ofFn θ))) (twoPLWith_isScorer (by omega)) twoPLWith_positive twoPLWith_proper twoPLWith_jointly
    twoPLWith_le_one hrules none (Or.inl ⟨rfl, rfl⟩) Matrix.PosDef.one hL hchol _ (twoPLBounds_compact items α β) p₀
    (fun p hp hb => C154_identified hitems p p₀ (fun j => hα.trans_le (hp j).1) h₀ hb) _ hU (fun j => by simpa using hε)
  refine ⟨n₀, h1, fun risk hrisk => ?_⟩
  obtain ⟨N₀, hN₀⟩ := h risk hrisk
  refine ⟨N₀, fun n hn N hN pts lw hok estimate hest far hfar hout => hN₀ n hn N hN pts lw hok estimate hest far hfar fun s hs hin => ?_⟩
  obtain ⟨j, hj | hj⟩ := hout s hs
  · exact absurd (hin j).1 (not_lt.2 hj)
  · exact absurd (hin j).2 (not_lt.2 hj)

/-- C154: the scores. All EAP scores of the fitted 2PL model are close to those of the true model. -/
theorem C154_scores {items : ℕ} (hitems : 3 ≤ items) {α : ℝ} (hα : 0 < α) (β : ℝ) {hg : ℕ → Except PyErr (List ℝ × List ℝ)} (hrules : ExactRules hg)
    {ch : Matrix (Fin 1) (Fin 1) ℝ → Except PyErr (Matrix (Fin 1) (Fin 1) ℝ)} {L : Matrix (Fin 1) (Fin 1) ℝ}
    (hL : ch 1 = .ok L) (hchol : IsCholesky 1 L) (p₀ : (Fin items → ℝ) × (Fin items → ℝ)) (h₀ : ∀ j, 0 < p₀.1 j)
    (a : AlgAttrs 1) (points : Option ℕ) (grid : Thetas 1) (hgne : grid ≠ [])
    (gcov : Matrix (Fin 1) (Fin 1) ℝ) (hgcov : gcov.PosDef) (hgrid : eapGrid a (points.getD (eapDefaultPoints 1)) = .ok (grid, gcov))
    (ε : ℝ) (hε : 0 < ε) :
    ∃ n₀ : ℕ, 1 ≤ n₀ ∧ ∀ risk : ℝ, 0 < risk → ∃ N₀ : ℕ, ∀ n, n₀ ≤ n → ∀ N, N₀ ≤ N →
      ∀ pts lw, mmlIntegration hg ch "gauss_hermite" (some n) none = .ok (pts, lw) →
      ∀ estimate : (Fin N → Fin (List.replicate items 2).length → ℕ) → (Fin items → ℝ) × (Fin items → ℝ),
      (∀ s ∈ samples N (List.replicate items 2), estimate s ∈ TwoPLBounds items α β ∧
        ∃ L L' : ℝ, mmlLoss ((twoPLWith p₀).scorer 1) (rowsOf N (List.replicate items 2).length (sampleCells s)) pts lw = .ok (some L) ∧
          mmlLoss ((twoPLWith (estimate s)).scorer 1) (rowsOf N (List.replicate items 2).length (sampleCells s)) pts lw = .ok (some L') ∧ L' ≤ L) →
      ∀ far : Finset (Fin N → Fin (List.replicate items 2).length → ℕ), far ⊆ samples N (List.replicate items 2) →
        (∀ s ∈ far, ∃ row, ValidResponses (List.replicate items 2) row ∧ ¬ ∃ e e' : Fin 1 → ℝ,
          eapScores ((twoPLWith p₀).scorer 1) a (rowsOf 1 (List.replicate items 2).length fun _ => row) points = .ok [some e] ∧
          eapScores ((twoPLWith (estimate s)).scorer 1) a (rowsOf 1 (List.replicate items 2).length fun _ => row) points = .ok [some e'] ∧
            ∀ k, |e k - e' k| < ε) →
        ∑ s ∈ far, sampleProb (normalProb (fun θ : Fin 1 → ℝ => tableProb ((twoPLWith p₀).probs (List.ofFn θ))) 1) s ≤ risk :=
  C152_scores (fun p : (Fin items → ℝ) × (Fin items → ℝ) => (twoPLWith p).scorer 1)
    (fun p θ => tableProb ((twoPLWith p).probs (List.ofFn θ))) (twoPLWith_isScorer (by omega)) twoPLWith_positive twoPLWith_proper twoPLWith_jointly
    twoPLWith_le_one hrules none (Or.inl ⟨rfl, rfl⟩) Matrix.PosDef.one hL hchol _ (twoPLBounds_compact items α β) p₀
    (fun p hp hb => C154_identified hitems p p₀ (fun j => hα.trans_le (hp j).1) h₀ hb) a (by norm_num) points grid hgne gcov hgcov hgrid ε hε

/-- The model on the scale of a group with mean `μ` and standard deviation `σ`. -/
theorem twoPLWith_scale {items : ℕ} (p : (Fin items → ℝ) × (Fin items → ℝ)) (μ σ : ℝ) :
    SameOnNewScale (List.replicate items 2) (Matrix.of fun _ _ => σ : Matrix (Fin 1) (Fin 1) ℝ) (fun _ => μ)
      (fun θ => tableProb ((twoPLWith p).probs (List.ofFn θ)))
      (fun θ => tableProb ((twoPLWith (fun j => p.1 j * σ, fun j => p.2 j + p.1 j * μ)).probs (List.ofFn θ))) := by
  intro φ j c r _ _
  simp only [twoPLWith_prob, oldScores, Pi.add_apply, Matrix.mulVec, dotProduct, Matrix.of_apply, Finset.univ_unique, Finset.sum_singleton,
    Fin.default_eq_zero]
  by_cases hj : j < items
  · simp only [dif_pos hj, show p.1 ⟨j, hj⟩ * σ * φ 0 + (p.2 ⟨j, hj⟩ + p.1 ⟨j, hj⟩ * μ) = p.1 ⟨j, hj⟩ * (σ * φ 0 + μ) + p.2 ⟨j, hj⟩ by ring]
  · simp only [dif_neg hj]

/-- C154 for a group with mean `μ` and standard deviation `σ`: the slopes come to the true ones times `σ`, the intercepts to the true ones plus the
true slopes times `μ`. -/
theorem C154_groups {items : ℕ} (hitems : 3 ≤ items) {α : ℝ} (hα : 0 < α) (β : ℝ) {hg : ℕ → Except PyErr (List ℝ × List ℝ)} (hrules : ExactRules hg)
    {ch : Matrix (Fin 1) (Fin 1) ℝ → Except PyErr (Matrix (Fin 1) (Fin 1) ℝ)} {L : Matrix (Fin 1) (Fin 1) ℝ}
    (hL : ch 1 = .ok L) (hchol : IsCholesky 1 L) (p₀ : (Fin items → ℝ) × (Fin items → ℝ)) (h₀ : ∀ j, 0 < p₀.1 j) (μ : ℝ) {σ : ℝ} (hσ : 0 < σ)
    (ε : ℝ) (hε : 0 < ε) :
    ∃ n₀ : ℕ, 1 ≤ n₀ ∧ ∀ risk : ℝ, 0 < risk → ∃ N₀ : ℕ, ∀ n, n₀ ≤ n → ∀ N, N₀ ≤ N →
      ∀ pts lw, mmlIntegration hg ch "gauss_hermite" (some n) none = .ok (pts, lw) →
      ∀ estimate : (Fin N → Fin (List.replicate items 2).length → ℕ) → (Fin items → ℝ) × (Fin items → ℝ),
      (∀ s ∈ samples N (List.replicate items 2), estimate s ∈ TwoPLBounds items α β ∧
        ∃ L L' : ℝ, mmlLoss ((twoPLWith (fun j => p₀.1 j * σ, fun j => p₀.2 j + p₀.1 j * μ)).scorer 1)
            (rowsOf N (List.replicate items 2).length (sampleCells s)) pts lw = .ok (some L) ∧
          mmlLoss ((twoPLWith (estimate s)).scorer 1) (rowsOf N (List.replicate items 2).length (sampleCells s)) pts lw = .ok (some L') ∧ L' ≤ L) →
      ∀ far : Finset (Fin N → Fin (List.replicate items 2).length → ℕ), far ⊆ samples N (List.replicate items 2) →
        (∀ s ∈ far, ∃ j, ε ≤ |(estimate s).1 j - p₀.1 j * σ| ∨ ε ≤ |(estimate s).2 j - (p₀.2 j + p₀.1 j * μ)|) →
        ∑ s ∈ far, sampleProb (normalProbAt (fun θ : Fin 1 → ℝ => tableProb ((twoPLWith p₀).probs (List.ofFn θ))) (fun _ => μ)
          (Matrix.of fun _ _ => σ ^ 2)) s ≤ risk := by
  obtain ⟨n₀, h1, h⟩ := C154_twoPL hitems hα β hrules hL hchol (fun j => p₀.1 j * σ, fun j => p₀.2 j + p₀.1 j * μ) (fun j => mul_pos (h₀ j) hσ) ε hε
  refine ⟨n₀, h1, fun risk hrisk => ?_⟩
  obtain ⟨N₀, hN₀⟩ := h risk hrisk
  refine ⟨N₀, fun n hn N hN pts lw hok estimate hest far hfar hbad => ?_⟩
  have e : (Matrix.of fun _ _ => σ : Matrix (Fin 1) (Fin 1) ℝ) * 1 * (Matrix.of fun _ _ => σ : Matrix (Fin 1) (Fin 1) ℝ).transpose
      = Matrix.of fun _ _ => σ ^ 2 := by
    ext i j
    simp [Matrix.mul_apply, sq]
  refine (le_of_eq (Finset.sum_congr rfl fun s hs => ?_)).trans (hN₀ n hn N hN pts lw hok estimate hest far hfar hbad)
  have := sampleProb_population (twoPLWith_scale p₀ μ σ) (by simp [hσ.ne']) Matrix.PosDef.one (hfar hs)
  rwa [e] at this

/-- Within bounds there are, for every sample, parameters with the smallest loss. -/
theorem C154_exists {items : ℕ} (hitems : 0 < items) (pts : Thetas 1) (lw : List ℝ) (hlen : lw.length = pts.length) (hne : pts ≠ [])
    {α β : ℝ} (hα : 0 < α) (hβ : α ≤ β) (N : ℕ) (s : Fin N → Fin (List.replicate items 2).length → ℕ) (hs : s ∈ samples N (List.replicate items 2)) :
    ∃ p ∈ TwoPLBounds items α β, ∃ L', mmlLoss ((twoPLWith p).scorer 1) (rowsOf N (List.replicate items 2).length (sampleCells s)) pts lw = .ok (some L') ∧
      ∀ q ∈ TwoPLBounds items α β,
        ∃ L, mmlLoss ((twoPLWith q).scorer 1) (rowsOf N (List.replicate items 2).length (sampleCells s)) pts lw = .ok (some L) ∧ L' ≤ L := by
  have hloss := fun p : (Fin items → ℝ) × (Fin items → ℝ) => sample_loss (twoPLWith_isScorer hitems p) (twoPLWith_positive p) pts lw hlen hne hs
  have hc : Continuous fun p : (Fin items → ℝ) × (Fin items → ℝ) =>
      -(∑ i, Real.log (populationProb (fun θ : Fin 1 → ℝ => tableProb ((twoPLWith p).probs (List.ofFn θ))) pts (lw.map Real.exp) (s i))
        + N * Real.log (lw.map Real.exp).sum) := by
    refine Continuous.neg (Continuous.add (continuous_finsetSum _ fun i _ => Continuous.log ?_ fun p => ?_) continuous_const)
    · exact continuousOn_univ.1 (continuousOn_populationProb
        (fun (p : (Fin items → ℝ) × (Fin items → ℝ)) (θ : Fin 1 → ℝ) => tableProb ((twoPLWith p).probs (List.ofFn θ))) Set.univ
        (fun θ j r => Continuous.continuousOn (Continuous.comp (g := fun q : ((Fin items → ℝ) × (Fin items → ℝ)) × (Fin 1 → ℝ) =>
          tableProb ((twoPLWith q.1).probs (List.ofFn q.2)) j r) (f := fun p => (p, θ)) (twoPLWith_jointly j r) (by fun_prop))) pts _ _)
    · exact (populationProb_pos (twoPLWith_isScorer hitems p) (twoPLWith_positive p) pts lw hlen hne (Fintype.mem_piFinset.1 hs i)).ne'
  obtain ⟨p, hp, hmin⟩ := (twoPLBounds_compact items α β).exists_isMinOn
    ⟨(fun _ => α, fun _ => 0), fun _ => ⟨le_rfl, hβ, by simpa using hα.le.trans hβ⟩⟩ hc.continuousOn
  exact ⟨p, hp, _, hloss p, fun q hq => ⟨_, hloss q, hmin hq⟩⟩

/-- Three items with slopes 1, 2 and 1/2 and intercepts 0, 1 and -1: for the rules there are best parameters within bounds for every sample,
and with enough points and respondents they are within a tenth of the truth with a probability of at least 95 percent. -/
example : ∃ (hg : ℕ → Except PyErr (List ℝ × List ℝ)) (n₀ N₀ : ℕ), ExactRules hg ∧ ∀ n, n₀ ≤ n → ∀ N, N₀ ≤ N →
    ∃ (pts : Thetas 1) (lw : List ℝ) (estimate : (Fin N → Fin (List.replicate 3 2).length → ℕ) → (Fin 3 → ℝ) × (Fin 3 → ℝ)),
      mmlIntegration hg (fun _ => .ok (1 : Matrix (Fin 1) (Fin 1) ℝ)) "gauss_hermite" (some n) none = .ok (pts, lw) ∧
      ∀ far : Finset (Fin N → Fin (List.replicate 3 2).length → ℕ), far ⊆ samples N (List.replicate 3 2) →
        (∀ s ∈ far, ∃ j, 1 / 10 ≤ |(estimate s).1 j - ![1, 2, 1 / 2] j| ∨ 1 / 10 ≤ |(estimate s).2 j - ![0, 1, -1] j|) →
        ∑ s ∈ far, sampleProb (normalProb (fun θ : Fin 1 → ℝ => tableProb ((twoPLWith (![1, 2, 1 / 2], ![0, 1, -1])).probs (List.ofFn θ))) 1) s
          ≤ 1 / 20 := by
  classical
  obtain ⟨hg, hrules⟩ := C141_rules_exist
  obtain ⟨n₀, h1, h⟩ := C154_twoPL (items := 3) le_rfl (α := 1 / 10) (by norm_num) 5 hrules (ch := fun _ => .ok (1 : Matrix (Fin 1) (Fin 1) ℝ)) rfl
    (by simp [IsCholesky]) (![1, 2, 1 / 2], ![0, 1, -1]) (fun j => by fin_cases j <;> norm_num) (1 / 10) (by norm_num)
  obtain ⟨N₀, hN₀⟩ := h (1 / 20) (by norm_num)
  refine ⟨hg, n₀, N₀, hrules, fun n hn N hN => ?_⟩
  obtain ⟨x, w, hx, hexact⟩ := hrules n (h1.trans hn)
  obtain ⟨pts, lw, hok, hl, hne, _⟩ := integration_rule (ch := fun _ => .ok (1 : Matrix (Fin 1) (Fin 1) ℝ)) none (Or.inl ⟨rfl, rfl⟩) rfl (h1.trans hn)
    hx hexact
  choose! estimate hb hmin using C154_exists (items := 3) three_pos pts lw hl hne (α := 1 / 10) (β := 5) (by norm_num) (by norm_num) N
  refine ⟨pts, lw, estimate, hok, hN₀ n hn N hN pts lw hok estimate fun s hs => ⟨hb s hs, ?_⟩⟩
  obtain ⟨L', hL', hbest⟩ := hmin s hs
  obtain ⟨L, hL, hle⟩ := hbest (![1, 2, 1 / 2], ![0, 1, -1]) fun j => by
    fin_cases j <;> refine ⟨by norm_num, by norm_num, by norm_num⟩
  exact ⟨L, L', hL, hL', hle⟩

/-- The scores of these items with seven points from -3 to 3, and a group with mean 1 and standard deviation 2. -/
example {hg : ℕ → Except PyErr (List ℝ × List ℝ)} (hrules : ExactRules hg) :=
  C154_scores (items := 3) le_rfl (α := 1 / 10) (by norm_num) 5 hrules (ch := fun _ => .ok (1 : Matrix (Fin 1) (Fin 1) ℝ)) rfl
    (by simp [IsCholesky]) (![1, 2, 1 / 2], ![0, 1, -1]) (fun j => by fin_cases j <;> norm_num) {} (some 7) (cartesianProd fun _ => linspace (-3) 3 7)
    exSeven_ne 1 Matrix.PosDef.one rfl (1 / 100) (by norm_num)

example {hg : ℕ → Except PyErr (List ℝ × List ℝ)} (hrules : ExactRules hg) :=
  C154_groups (items := 3) le_rfl (α := 1 / 10) (by norm_num) 5 hrules (ch := fun _ => .ok (1 : Matrix (Fin 1) (Fin 1) ℝ)) rfl
    (by simp [IsCholesky]) (![1, 2, 1 / 2], ![0, 1, -1]) (fun j => by fin_cases j <;> norm_num) 1 (σ := 2) two_pos (1 / 10) (by norm_num)

/-! ## What is needed -/

/-- Without the signs of the slopes the model is not determined: all slopes with the other sign give the same answers. -/
theorem C154_signs {items : ℕ} (p : (Fin items → ℝ) × (Fin items → ℝ)) {x : Fin (List.replicate items 2).length → ℕ}
    (hx : x ∈ fullAnswers (List.replicate items 2)) :
    normalProb (fun θ : Fin 1 → ℝ => tableProb ((twoPLWith (fun j => -p.1 j, p.2)).probs (List.ofFn θ))) 1 x
      = normalProb (fun θ : Fin 1 → ℝ => tableProb ((twoPLWith p).probs (List.ofFn θ))) 1 x := by
  have h := C153_population (twoPLWith_scale p 0 (-1)) (by simp) Matrix.PosDef.one hx
  have e : (Matrix.of fun _ _ => -1 : Matrix (Fin 1) (Fin 1) ℝ) * 1 * (Matrix.of fun _ _ => -1 : Matrix (Fin 1) (Fin 1) ℝ).transpose = 1 := by
    ext i j
    fin_cases i; fin_cases j
    simp [Matrix.mul_apply]
  simp only [e, mul_neg_one, mul_zero, add_zero] at h
  exact h.symm

/-- The full claim for any number of items with positive slopes. -/
def AnswersDetermineTwoPL (items : ℕ) : Prop :=
  ∀ p q : (Fin items → ℝ) × (Fin items → ℝ), (∀ j, 0 < p.1 j) → (∀ j, 0 < q.1 j) →
    (∀ x ∈ fullAnswers (List.replicate items 2), normalProb (fun θ : Fin 1 → ℝ => tableProb ((twoPLWith p).probs (List.ofFn θ))) 1 x
      = normalProb (fun θ : Fin 1 → ℝ => tableProb ((twoPLWith q).probs (List.ofFn θ))) 1 x) → p = q

theorem logistic_neg_two (x : ℝ) : logistic (-x) = 1 - logistic x := by
  unfold logistic
  rw [Real.exp_neg]
  have := Real.exp_pos x
  field_simp
  ring

/-- Two items do not suffice: with intercepts zero, slopes 1 and 2 give the same answers as slopes 2 and 1. -/
theorem C154_two_items_false : ¬ AnswersDetermineTwoPL 2 := by
  intro hall
  have hne : (![1, 2], ![0, 0]) ≠ ((![2, 1], ![0, 0]) : (Fin 2 → ℝ) × (Fin 2 → ℝ)) := by
    intro h
    have := congrFun (congrArg Prod.fst h) 0
    norm_num at this
  refine hne (hall _ _ (fun j => by fin_cases j <;> norm_num) (fun j => by fin_cases j <;> norm_num) fun x hx => ?_)
  have hval : ∀ j, x j < 2 := fun j => by
    have := Finset.mem_range.1 (Fintype.mem_piFinset.1 hx j)
    rwa [show (List.replicate 2 2)[j] = 2 from List.getElem_replicate ..] at this
  have hprod : ∀ (p : (Fin 2 → ℝ) × (Fin 2 → ℝ)) (θ : Fin 1 → ℝ),
      answerProb (fun θ : Fin 1 → ℝ => tableProb ((twoPLWith p).probs (List.ofFn θ))) θ x
        = tableProb ((twoPLWith p).probs (List.ofFn θ)) 0 (x ⟨0, by simp⟩) * tableProb ((twoPLWith p).probs (List.ofFn θ)) 1 (x ⟨1, by simp⟩) := by
    intro p θ
    exact Fin.prod_univ_two _
  have key : ∀ p q : (Fin 2 → ℝ) × (Fin 2 → ℝ), (∀ θ : Fin 1 → ℝ,
      tableProb ((twoPLWith p).probs (List.ofFn θ)) 0 (x ⟨0, by simp⟩) * tableProb ((twoPLWith p).probs (List.ofFn θ)) 1 (x ⟨1, by simp⟩)
        = tableProb ((twoPLWith q).probs (List.ofFn θ)) 0 (x ⟨0, by simp⟩) * tableProb ((twoPLWith q).probs (List.ofFn θ)) 1 (x ⟨1, by simp⟩)) →
      normalProb (fun θ : Fin 1 → ℝ => tableProb ((twoPLWith p).probs (List.ofFn θ))) 1 x
        = normalProb (fun θ : Fin 1 → ℝ => tableProb ((twoPLWith q).probs (List.ofFn θ))) 1 x := by
    intro p q h
    unfold normalProb
    congr 1
    funext θ
    rw [hprod, hprod, h]
  by_cases heq : x ⟨0, by simp⟩ = x ⟨1, by simp⟩
  · refine key _ _ fun θ => ?_
    simp only [twoPLWith_prob, heq]
    simp [mul_comm]
  · rw [← C154_signs _ hx]
    refine key _ _ fun θ => ?_
    have h0 := hval ⟨0, by simp⟩
    have h1 := hval ⟨1, by simp⟩
    simp only [twoPLWith_prob]
    generalize x ⟨0, by simp⟩ = u at *
    generalize x ⟨1, by simp⟩ = v at *
    interval_cases u <;> interval_cases v <;> simp_all [logistic_neg_two, mul_comm]

end Irt
