import Verif.Props.TwoPLIdentified
import Verif.Lemmas.Recode

/-! # C156: several latent variables, each measured by items of its own -/

namespace Irt
open Spec MeasureTheory Filter Topology

section Family

variable {items d : ℕ} (dim : Fin items → Fin d)

/-- The relationships between items and latent variables: item `j` measures latent variable `dim j` only. -/
def simpleRel : List (List Bool) := List.ofFn fun j => List.ofFn fun k => decide (dim j = k)

/-- The slope matrix. -/
noncomputable def simpleSlopes (p : (Fin items → ℝ) × (Fin items → ℝ)) (j k : ℕ) : ℝ :=
  if h : j < items then if (dim ⟨j, h⟩ : ℕ) = k then p.1 ⟨j, h⟩ else 0 else 0

theorem simpleRel_row : ∀ r ∈ simpleRel dim, r.length = d := by
  intro r hr
  obtain ⟨j, rfl⟩ := List.mem_ofFn.1 hr
  simp

theorem simpleSlopes_zero (p : (Fin items → ℝ) × (Fin items → ℝ)) (j k : ℕ) (r : List Bool) (hr : (simpleRel dim)[j]? = some r)
    (hk : r[k]? = some false) : simpleSlopes dim p j k = 0 := by
  unfold simpleSlopes
  split_ifs with h1 h2
  · unfold simpleRel at hr
    rw [List.getElem?_ofFn, dif_pos h1] at hr
    obtain rfl := Option.some.inj hr
    rw [List.getElem?_ofFn, dif_pos (by rw [← h2]; exact (dim ⟨j, h1⟩).2)] at hk
    have := Option.some.inj hk
    rw [decide_eq_false_iff_not] at this
    exact absurd (Fin.ext h2) this
  · rfl
  · rfl

theorem simple_exists (p : (Fin items → ℝ) × (Fin items → ℝ)) : ∃ w : List ℝ, w.length = countTrue (simpleRel dim).flatten ∧
    viewRows items d (scatterMask 0 (simpleRel dim).flatten w) = rowsOf items d (simpleSlopes dim p) :=
  exists_slopes items d (simpleRel dim) (by simp [simpleRel]) (simpleRel_row dim) (simpleSlopes dim p) fun j k r h1 h2 => simpleSlopes_zero dim p j k r h1 h2

/-- The 2PL model in which item `j` measures latent variable `dim j` only, with given slopes and intercepts. -/
noncomputable def simpleTwoPL (p : (Fin items → ℝ) × (Fin items → ℝ)) : TwoPL :=
  { items, lv := d, rel := simpleRel dim, weight := Classical.choose (simple_exists dim p), bias := List.ofFn p.2 }

theorem simpleTwoPL_wf (p : (Fin items → ℝ) × (Fin items → ℝ)) : (simpleTwoPL dim p).WF where
  relLen := by simp [simpleTwoPL, simpleRel]
  relRow := simpleRel_row dim
  weightLen := (Classical.choose_spec (simple_exists dim p)).1
  biasLen := by simp [simpleTwoPL]

theorem simpleTwoPL_row (p : (Fin items → ℝ) × (Fin items → ℝ)) (θ : Fin d → ℝ) (j : Fin items) :
    ((simpleTwoPL dim p).probs (List.ofFn θ))[(j : ℕ)]?
      = some [1 - logistic (p.1 j * θ (dim j) + p.2 j), logistic (p.1 j * θ (dim j) + p.2 j)] := by
  have hdot : dot (List.ofFn θ) ((List.range d).map (simpleSlopes dim p j)) = p.1 j * θ (dim j) := by
    rw [dot_ofFn]
    rw [Finset.sum_congr rfl fun k _ => by rw [ofRange_getD d _ (k : ℕ) k.2]]
    unfold simpleSlopes
    simp only [dif_pos j.2, Fin.val_inj]
    simp [mul_comm]
  have h := C03_twoPL_formula (simpleTwoPL dim p) (simpleTwoPL_wf dim p) (List.ofFn θ) j ((List.range d).map (simpleSlopes dim p j)) (p.2 j) (by
    rw [TwoPL.itemParameters, TwoPL.weights, List.getElem?_zip_eq_some]
    constructor
    · show (viewRows items d (scatterMask 0 (simpleRel dim).flatten (Classical.choose (simple_exists dim p))))[(j : ℕ)]? = _
      rw [(Classical.choose_spec (simple_exists dim p)).2, rowsOf_getElem? _ _ _ _ j.2]
    · simp [simpleTwoPL])
  rw [h, hdot]

theorem simpleTwoPL_prob (p : (Fin items → ℝ) × (Fin items → ℝ)) (θ : Fin d → ℝ) (j r : ℕ) :
    tableProb ((simpleTwoPL dim p).probs (List.ofFn θ)) j r = if hj : j < items then
      if r = 0 then 1 - logistic (p.1 ⟨j, hj⟩ * θ (dim ⟨j, hj⟩) + p.2 ⟨j, hj⟩)
      else if r = 1 then logistic (p.1 ⟨j, hj⟩ * θ (dim ⟨j, hj⟩) + p.2 ⟨j, hj⟩) else 0 else 0 := by
  by_cases hj : j < items
  · rw [dif_pos hj, tableProb_row _ _ _ _ (simpleTwoPL_row dim p θ ⟨j, hj⟩)]
    rcases r with _ | _ | r <;> simp
  · rw [dif_neg hj]
    have : ((simpleTwoPL dim p).probs (List.ofFn θ))[j]? = none :=
      List.getElem?_eq_none (by rw [(C01_twoPL_distribution _ (simpleTwoPL_wf dim p) _).1]; simp [simpleTwoPL]; omega)
    rw [tableProb, this]
    rfl

theorem simpleTwoPL_proper (p : (Fin items → ℝ) × (Fin items → ℝ)) :
    ProperProbs (d := d) (fun θ => tableProb ((simpleTwoPL dim p).probs (List.ofFn θ))) (List.replicate items 2) := by
  intro θ j c hc
  obtain ⟨hj, rfl⟩ := replicate_getElem? _ _ _ _ hc
  simp only [simpleTwoPL_prob]
  simp [Finset.sum_range_succ, hj]

theorem simpleTwoPL_jointly (j r : ℕ) :
    Continuous fun q : ((Fin items → ℝ) × (Fin items → ℝ)) × (Fin d → ℝ) => tableProb ((simpleTwoPL dim q.1).probs (List.ofFn q.2)) j r := by
  simp only [simpleTwoPL_prob]
  have hl : Continuous logistic := continuous_logistic'
  split_ifs with hj
  · fun_prop
  · fun_prop
  · fun_prop
  · fun_prop

theorem simpleTwoPL_continuous (p : (Fin items → ℝ) × (Fin items → ℝ)) :
    ContinuousProbs fun θ : Fin d → ℝ => tableProb ((simpleTwoPL dim p).probs (List.ofFn θ)) := fun j r =>
  Continuous.comp (g := fun q : ((Fin items → ℝ) × (Fin items → ℝ)) × (Fin d → ℝ) => tableProb ((simpleTwoPL dim q.1).probs (List.ofFn q.2)) j r)
    (f := fun θ => (p, θ)) (simpleTwoPL_jointly dim j r) (by fun_prop)

theorem simpleTwoPL_le_one (p : (Fin items → ℝ) × (Fin items → ℝ)) (θ : Fin d → ℝ) (j r : ℕ) :
    tableProb ((simpleTwoPL dim p).probs (List.ofFn θ)) j r ≤ 1 := by
  rw [simpleTwoPL_prob]
  split_ifs with hj
  · linarith [(logistic_unit (p.1 ⟨j, hj⟩ * θ (dim ⟨j, hj⟩) + p.2 ⟨j, hj⟩)).1]
  · exact (logistic_unit _).2.le
  · exact zero_le_one
  · exact zero_le_one

theorem simpleTwoPL_isScorer (hitems : 0 < items) (p : (Fin items → ℝ) × (Fin items → ℝ)) :
    IsScorer ((simpleTwoPL dim p).scorer d) (List.replicate items 2) fun θ => tableProb ((simpleTwoPL dim p).probs (List.ofFn θ)) :=
  (simpleTwoPL dim p).isScorer (simpleTwoPL_wf dim p) hitems d

theorem simpleTwoPL_positive (p : (Fin items → ℝ) × (Fin items → ℝ)) :
    PositiveProbs (fun θ : Fin d → ℝ => tableProb ((simpleTwoPL dim p).probs (List.ofFn θ))) (List.replicate items 2) :=
  (simpleTwoPL dim p).positive (simpleTwoPL_wf dim p) d

/-! ## The parameters are determined by the answers -/

variable {C : Matrix (Fin d) (Fin d) ℝ} (hC : C.PosDef)

include hC in
theorem simpleTwoPL_right (p : (Fin items → ℝ) × (Fin items → ℝ)) (j : Fin items) : ∑ x ∈ fullAnswers (List.replicate items 2),
    normalProb (fun θ : Fin d → ℝ => tableProb ((simpleTwoPL dim p).probs (List.ofFn θ))) C x * (if x ⟨j, by simp⟩ = 1 then 1 else 0)
      = rightOneAt C (dim j) (p.1 j) (p.2 j) := by
  rw [normalProb_sum_mul (P := fun θ : Fin d → ℝ => tableProb ((simpleTwoPL dim p).probs (List.ofFn θ)))
    (simpleTwoPL_continuous dim p) (simpleTwoPL_isScorer dim (Fin.pos j) p).nonneg (fun θ j r => simpleTwoPL_le_one dim p _ j r) hC]
  unfold rightOneAt
  congr 1
  funext θ
  rw [answerProb_item (simpleTwoPL_proper dim p) θ ⟨j, by simp⟩ fun r => if r = 1 then 1 else 0]
  simp only [simpleTwoPL_prob]
  simp

include hC in
theorem simpleTwoPL_both (p : (Fin items → ℝ) × (Fin items → ℝ)) {j k : Fin items} (hjk : j ≠ k) (hdim : dim k = dim j) :
    ∑ x ∈ fullAnswers (List.replicate items 2), normalProb (fun θ : Fin d → ℝ => tableProb ((simpleTwoPL dim p).probs (List.ofFn θ))) C x
      * ((if x ⟨j, by simp⟩ = 1 then 1 else 0) * if x ⟨k, by simp⟩ = 1 then 1 else 0)
      = rightBothAt C (dim j) (p.1 j) (p.2 j) (p.1 k) (p.2 k) := by
  rw [normalProb_sum_mul (P := fun θ : Fin d → ℝ => tableProb ((simpleTwoPL dim p).probs (List.ofFn θ)))
    (simpleTwoPL_continuous dim p) (simpleTwoPL_isScorer dim (Fin.pos j) p).nonneg (fun θ j r => simpleTwoPL_le_one dim p _ j r) hC]
  unfold rightBothAt
  congr 1
  funext θ
  rw [answerProb_pair (simpleTwoPL_proper dim p) θ (j := ⟨j, by simp⟩) (k := ⟨k, by simp⟩) (fun h => hjk (Fin.ext (by simpa using h)))
    (fun r => if r = 1 then 1 else 0) fun r => if r = 1 then 1 else 0]
  simp only [simpleTwoPL_prob]
  simp [hdim]

variable (h3 : ∀ j : Fin items, ∃ k l, dim k = dim j ∧ dim l = dim j ∧ j ≠ k ∧ j ≠ l ∧ k ≠ l)

include hC h3 in
/-- If every latent variable that is measured at all is measured by three or more items, all with positive slopes, the distribution of the
answers in a normal population with known covariance matrix determines the slopes and the intercepts. -/
theorem C156_identified (p q : (Fin items → ℝ) × (Fin items → ℝ)) (hp : ∀ j, 0 < p.1 j) (hq : ∀ j, 0 < q.1 j)
    (h : ∀ x ∈ fullAnswers (List.replicate items 2), normalProb (fun θ : Fin d → ℝ => tableProb ((simpleTwoPL dim p).probs (List.ofFn θ))) C x
      = normalProb (fun θ : Fin d → ℝ => tableProb ((simpleTwoPL dim q).probs (List.ofFn θ))) C x) : p = q := by
  have key : ∀ j, p.1 j = q.1 j ∧ p.2 j = q.2 j := by
    intro j
    have hid := momentsAt_identified (ι := {k : Fin items // dim k = dim j}) hC (dim j) (fun ⟨k, hk⟩ => by
        obtain ⟨l, l', e1, e2, e3, e4, e5⟩ := h3 k
        exact ⟨⟨l, e1.trans hk⟩, ⟨l', e2.trans hk⟩, fun e => e3 (congrArg Subtype.val e), fun e => e4 (congrArg Subtype.val e),
          fun e => e5 (congrArg Subtype.val e)⟩)
      (fun k => p.1 k.1, fun k => p.2 k.1) (fun k => q.1 k.1, fun k => q.2 k.1) (fun k => hp k.1) (fun k => hq k.1)
      (fun k => by
        have e1 := simpleTwoPL_right dim hC p k.1
        have e2 := simpleTwoPL_right dim hC q k.1
        rw [k.2] at e1 e2
        dsimp only
        rw [← e1, ← e2]
        exact Finset.sum_congr rfl fun x hx => by rw [h x hx])
      (fun k l hkl => by
        have hne : k.1 ≠ l.1 := fun e => hkl (Subtype.ext e)
        have e1 := simpleTwoPL_both dim hC p hne (l.2.trans k.2.symm)
        have e2 := simpleTwoPL_both dim hC q hne (l.2.trans k.2.symm)
        rw [k.2] at e1 e2
        dsimp only
        rw [← e1, ← e2]
        exact Finset.sum_congr rfl fun x hx => by rw [h x hx])
    obtain ⟨g1, g2⟩ := Prod.mk.inj hid
    exact ⟨congrFun g1 ⟨j, rfl⟩, congrFun g2 ⟨j, rfl⟩⟩
  exact Prod.ext (funext fun j => (key j).1) (funext fun j => (key j).2)

/-! ## Fitting the model -/

variable {hg : ℕ → Except PyErr (List ℝ × List ℝ)} (hrules : ExactRules hg)
  {ch : Matrix (Fin d) (Fin d) ℝ → Except PyErr (Matrix (Fin d) (Fin d) ℝ)} (cov : Option CovArg) {L : Matrix (Fin d) (Fin d) ℝ}
  (hcov : cov = none ∧ C = 1 ∨ ∃ c, cov = some c ∧ c.rows = d ∧ c.cols = d ∧ C = Matrix.of fun i j : Fin d => c.entry i j)
  (hL : ch C = .ok L) (hchol : IsCholesky C L)

include hC h3 hrules hcov hL hchol in
/-- C156: a 2PL model with several latent variables, each measured by at least three items of its own, is fitted within bounds (slopes positive) to
respondents from a normal population with the covariance matrix given to the algorithm. With enough Gauss-Hermite points and enough
respondents all slopes and intercepts with the smallest loss are within `ε` of the true ones, but for a risk as small as one likes. -/
theorem C156_parameters (hitems : 0 < items) {α : ℝ} (hα : 0 < α) (β : ℝ) (p₀ : (Fin items → ℝ) × (Fin items → ℝ)) (h₀ : ∀ j, 0 < p₀.1 j)
    (ε : ℝ) (hε : 0 < ε) :
    ∃ n₀ : ℕ, 1 ≤ n₀ ∧ ∀ risk : ℝ, 0 < risk → ∃ N₀ : ℕ, ∀ n, n₀ ≤ n → ∀ N, N₀ ≤ N →
      ∀ pts lw, mmlIntegration hg ch "gauss_hermite" (some n) cov = .ok (pts, lw) →
      ∀ estimate : (Fin N → Fin (List.replicate items 2).length → ℕ) → (Fin items → ℝ) × (Fin items → ℝ),
      (∀ s ∈ samples N (List.replicate items 2), estimate s ∈ TwoPLBounds items α β ∧
        ∃ L L' : ℝ, mmlLoss ((simpleTwoPL dim p₀).scorer d) (rowsOf N (List.replicate items 2).length (sampleCells s)) pts lw = .ok (some L) ∧
          mmlLoss ((simpleTwoPL dim (estimate s)).scorer d) (rowsOf N (List.replicate items 2).length (sampleCells s)) pts lw = .ok (some L') ∧ L' ≤ L) →
      ∀ far : Finset (Fin N → Fin (List.replicate items 2).length → ℕ), far ⊆ samples N (List.replicate items 2) →
        (∀ s ∈ far, ∃ j, ε ≤ |(estimate s).1 j - p₀.1 j| ∨ ε ≤ |(estimate s).2 j - p₀.2 j|) →
        ∑ s ∈ far, sampleProb (normalProb (fun θ : Fin d → ℝ => tableProb ((simpleTwoPL dim p₀).probs (List.ofFn θ))) C) s ≤ risk := by
  have hU : IsOpen {p : (Fin items → ℝ) × (Fin items → ℝ) | ∀ j, |p.1 j - p₀.1 j| < ε ∧ |p.2 j - p₀.2 j| < ε} := by
    rw [Set.ofPred_forall]
    refine isOpen_iInter_of_finite fun j => ?_
    rw [Set.ofPred_and]
    exact (isOpen_lt (by fun_prop) continuous_const).inter (isOpen_lt (by fun_prop) continuous_const)
  obtain ⟨n₀, h1, h⟩ := C151_parameters (fun p : (Fin items → ℝ) × (Fin items → ℝ) => (simpleTwoPL dim p).scorer d)
    (fun p θ => tableProb ((simpleTwoPL dim p).probs (List.ofFn θ))) (simpleTwoPL_isScorer dim hitems) (simpleTwoPL_positive dim)
    (simpleTwoPL_proper dim) (simpleTwoPL_jointly dim) (simpleTwoPL_le_one dim) hrules cov hcov hC hL hchol _ (twoPLBounds_compact items α β) p₀
    (fun p hp hb => C156_identified dim hC h3 p p₀ (fun j => hα.trans_le (hp j).1) h₀ hb) _ hU (fun j => by simpa using hε)
  refine ⟨n₀, h1, fun risk hrisk => ?_⟩
  obtain ⟨N₀, hN₀⟩ := h risk hrisk
  refine ⟨N₀, fun n hn N hN pts lw hok estimate hest far hfar hout => hN₀ n hn N hN pts lw hok estimate hest far hfar fun s hs hin => ?_⟩
  obtain ⟨j, hj | hj⟩ := hout s hs
  · exact absurd (hin j).1 (not_lt.2 hj)
  · exact absurd (hin j).2 (not_lt.2 hj)

include hC h3 hrules hcov hL hchol in
/-- C156: the scores on all latent variables. All EAP scores of the fitted model are close to those of the true model. -/
theorem C156_scores (hitems : 0 < items) {α : ℝ} (hα : 0 < α) (β : ℝ) (p₀ : (Fin items → ℝ) × (Fin items → ℝ)) (h₀ : ∀ j, 0 < p₀.1 j)
    (a : AlgAttrs d) (hd : d ≤ 4) (points : Option ℕ) (grid : Thetas d) (hgne : grid ≠ [])
    (gcov : Matrix (Fin d) (Fin d) ℝ) (hgcov : gcov.PosDef) (hgrid : eapGrid a (points.getD (eapDefaultPoints d)) = .ok (grid, gcov))
    (ε : ℝ) (hε : 0 < ε) :
    ∃ n₀ : ℕ, 1 ≤ n₀ ∧ ∀ risk : ℝ, 0 < risk → ∃ N₀ : ℕ, ∀ n, n₀ ≤ n → ∀ N, N₀ ≤ N →
      ∀ pts lw, mmlIntegration hg ch "gauss_hermite" (some n) cov = .ok (pts, lw) →
      ∀ estimate : (Fin N → Fin (List.replicate items 2).length → ℕ) → (Fin items → ℝ) × (Fin items → ℝ),
      (∀ s ∈ samples N (List.replicate items 2), estimate s ∈ TwoPLBounds items α β ∧
        ∃ L L' : ℝ, mmlLoss ((simpleTwoPL dim p₀).scorer d) (rowsOf N (List.replicate items 2).length (sampleCells s)) pts lw = .ok (some L) ∧
          mmlLoss ((simpleTwoPL dim (estimate s)).scorer d) (rowsOf N (List.replicate items 2).length (sampleCells s)) pts lw = .ok (some L') ∧ L' ≤ L) →
      ∀ far : Finset (Fin N → Fin (List.replicate items 2).length → ℕ), far ⊆ samples N (List.replicate items 2) →
        (∀ s ∈ far, ∃ row, ValidResponses (List.replicate items 2) row ∧ ¬ ∃ e e' : Fin d → ℝ,
          eapScores ((simpleTwoPL dim p₀).scorer d) a (rowsOf 1 (List.replicate items 2).length fun _ => row) points = .ok [some e] ∧
          eapScores ((simpleTwoPL dim (estimate s)).scorer d) a (rowsOf 1 (List.replicate items 2).length fun _ => row) points = .ok [some e'] ∧
            ∀ k, |e k - e' k| < ε) →
        ∑ s ∈ far, sampleProb (normalProb (fun θ : Fin d → ℝ => tableProb ((simpleTwoPL dim p₀).probs (List.ofFn θ))) C) s ≤ risk :=
  C152_scores (fun p : (Fin items → ℝ) × (Fin items → ℝ) => (simpleTwoPL dim p).scorer d)
    (fun p θ => tableProb ((simpleTwoPL dim p).probs (List.ofFn θ))) (simpleTwoPL_isScorer dim hitems) (simpleTwoPL_positive dim)
    (simpleTwoPL_proper dim) (simpleTwoPL_jointly dim) (simpleTwoPL_le_one dim) hrules cov hcov hC hL hchol _ (twoPLBounds_compact items α β) p₀
    (fun p hp hb => C156_identified dim hC h3 p p₀ (fun j => hα.trans_le (hp j).1) h₀ hb) a hd points grid hgne gcov hgcov hgrid ε hε

theorem simpleTwoPL_scale (p : (Fin items → ℝ) × (Fin items → ℝ)) (μ σ : Fin d → ℝ) :
    SameOnNewScale (List.replicate items 2) (Matrix.diagonal σ) μ (fun θ => tableProb ((simpleTwoPL dim p).probs (List.ofFn θ)))
      (fun θ => tableProb ((simpleTwoPL dim (fun j => p.1 j * σ (dim j), fun j => p.2 j + p.1 j * μ (dim j))).probs (List.ofFn θ))) := by
  intro φ j c r _ _
  simp only [simpleTwoPL_prob, oldScores, Pi.add_apply, Matrix.mulVec_diagonal]
  by_cases hj : j < items
  · simp only [dif_pos hj, show p.1 ⟨j, hj⟩ * σ (dim ⟨j, hj⟩) * φ (dim ⟨j, hj⟩) + (p.2 ⟨j, hj⟩ + p.1 ⟨j, hj⟩ * μ (dim ⟨j, hj⟩))
      = p.1 ⟨j, hj⟩ * (σ (dim ⟨j, hj⟩) * φ (dim ⟨j, hj⟩) + μ (dim ⟨j, hj⟩)) + p.2 ⟨j, hj⟩ by ring]
  · simp only [dif_neg hj]

include hC h3 hrules hcov hL hchol in
/-- C156 for a group with other means `μ` and standard deviations multiplied by `σ`: the slopes come to the true ones times the `σ` of the item's latent
variable, the intercepts to the true ones plus the true slopes times its `μ`. -/
theorem C156_groups (hitems : 0 < items) {α : ℝ} (hα : 0 < α) (β : ℝ) (p₀ : (Fin items → ℝ) × (Fin items → ℝ)) (h₀ : ∀ j, 0 < p₀.1 j)
    (μ : Fin d → ℝ) {σ : Fin d → ℝ} (hσ : ∀ k, 0 < σ k) (ε : ℝ) (hε : 0 < ε) :
    ∃ n₀ : ℕ, 1 ≤ n₀ ∧ ∀ risk : ℝ, 0 < risk → ∃ N₀ : ℕ, ∀ n, n₀ ≤ n → ∀ N, N₀ ≤ N →
      ∀ pts lw, mmlIntegration hg ch "gauss_hermite" (some n) cov = .ok (pts, lw) →
      ∀ estimate : (Fin N → Fin (List.replicate items 2).length → ℕ) → (Fin items → ℝ) × (Fin items → ℝ),
      (∀ s ∈ samples N (List.replicate items 2), estimate s ∈ TwoPLBounds items α β ∧
        ∃ L L' : ℝ, mmlLoss ((simpleTwoPL dim (fun j => p₀.1 j * σ (dim j), fun j => p₀.2 j + p₀.1 j * μ (dim j))).scorer d)
            (rowsOf N (List.replicate items 2).length (sampleCells s)) pts lw = .ok (some L) ∧
          mmlLoss ((simpleTwoPL dim (estimate s)).scorer d) (rowsOf N (List.replicate items 2).length (sampleCells s)) pts lw = .ok (some L') ∧ L' ≤ L) →
      ∀ far : Finset (Fin N → Fin (List.replicate items 2).length → ℕ), far ⊆ samples N (List.replicate items 2) →
        (∀ s ∈ far, ∃ j, ε ≤ |(estimate s).1 j - p₀.1 j * σ (dim j)| ∨ ε ≤ |(estimate s).2 j - (p₀.2 j + p₀.1 j * μ (dim j))|) →
        ∑ s ∈ far, sampleProb (normalProbAt (fun θ : Fin d → ℝ => tableProb ((simpleTwoPL dim p₀).probs (List.ofFn θ))) μ
          (Matrix.of fun k l => σ k * C k l * σ l)) s ≤ risk := by
  obtain ⟨n₀, h1, h⟩ := C156_parameters dim hC h3 hrules cov hcov hL hchol hitems hα β
    (fun j => p₀.1 j * σ (dim j), fun j => p₀.2 j + p₀.1 j * μ (dim j)) (fun j => mul_pos (h₀ j) (hσ _)) ε hε
  refine ⟨n₀, h1, fun risk hrisk => ?_⟩
  obtain ⟨N₀, hN₀⟩ := h risk hrisk
  refine ⟨N₀, fun n hn N hN pts lw hok estimate hest far hfar hbad => ?_⟩
  have e : Matrix.diagonal σ * C * (Matrix.diagonal σ).transpose = Matrix.of fun k l => σ k * C k l * σ l := by
    ext k l
    rw [Matrix.diagonal_transpose, Matrix.mul_diagonal, Matrix.diagonal_mul, Matrix.of_apply]
  refine (le_of_eq (Finset.sum_congr rfl fun s hs => ?_)).trans (hN₀ n hn N hN pts lw hok estimate hest far hfar hbad)
  have := sampleProb_population (simpleTwoPL_scale dim p₀ μ σ)
    (by rw [Matrix.det_diagonal]; exact Finset.prod_ne_zero_iff.2 fun k _ => (hσ k).ne') hC (hfar hs)
  rwa [e] at this

/-- Within bounds there are, for every sample, parameters with the smallest loss. -/
theorem C156_exists (hitems : 0 < items) (pts : Thetas d) (lw : List ℝ) (hlen : lw.length = pts.length) (hne : pts ≠ [])
    {α β : ℝ} (hα : 0 < α) (hβ : α ≤ β) (N : ℕ) (s : Fin N → Fin (List.replicate items 2).length → ℕ) (hs : s ∈ samples N (List.replicate items 2)) :
    ∃ p ∈ TwoPLBounds items α β,
      ∃ L', mmlLoss ((simpleTwoPL dim p).scorer d) (rowsOf N (List.replicate items 2).length (sampleCells s)) pts lw = .ok (some L') ∧
      ∀ q ∈ TwoPLBounds items α β,
        ∃ L, mmlLoss ((simpleTwoPL dim q).scorer d) (rowsOf N (List.replicate items 2).length (sampleCells s)) pts lw = .ok (some L) ∧ L' ≤ L := by
  have hloss := fun p : (Fin items → ℝ) × (Fin items → ℝ) =>
    sample_loss (simpleTwoPL_isScorer dim hitems p) (simpleTwoPL_positive dim p) pts lw hlen hne hs
  have hc : Continuous fun p : (Fin items → ℝ) × (Fin items → ℝ) =>
      -(∑ i, Real.log (populationProb (fun θ : Fin d → ℝ => tableProb ((simpleTwoPL dim p).probs (List.ofFn θ))) pts (lw.map Real.exp) (s i))
        + N * Real.log (lw.map Real.exp).sum) := by
    refine Continuous.neg (Continuous.add (continuous_finsetSum _ fun i _ => Continuous.log ?_ fun p => ?_) continuous_const)
    · exact continuousOn_univ.1 (continuousOn_populationProb
        (fun (p : (Fin items → ℝ) × (Fin items → ℝ)) (θ : Fin d → ℝ) => tableProb ((simpleTwoPL dim p).probs (List.ofFn θ))) Set.univ
        (fun θ j r => Continuous.continuousOn (Continuous.comp (g := fun q : ((Fin items → ℝ) × (Fin items → ℝ)) × (Fin d → ℝ) =>
          tableProb ((simpleTwoPL dim q.1).probs (List.ofFn q.2)) j r) (f := fun p => (p, θ)) (simpleTwoPL_jointly dim j r) (by fun_prop))) pts _ _)
    · exact (populationProb_pos (simpleTwoPL_isScorer dim hitems p) (simpleTwoPL_positive dim p) pts lw hlen hne
        (Fintype.mem_piFinset.1 hs i)).ne'
  obtain ⟨p, hp, hmin⟩ := (twoPLBounds_compact items α β).exists_isMinOn
    ⟨(fun _ => α, fun _ => 0), fun _ => ⟨le_rfl, hβ, by simpa using hα.le.trans hβ⟩⟩ hc.continuousOn
  exact ⟨p, hp, _, hloss p, fun q hq => ⟨_, hloss q, hmin hq⟩⟩

end Family

/-! ## Two correlated latent variables with three items each -/

def exDim (j : Fin 6) : Fin 2 := if (j : ℕ) < 3 then 0 else 1

theorem exDim_three : ∀ j : Fin 6, ∃ k l, exDim k = exDim j ∧ exDim l = exDim j ∧ j ≠ k ∧ j ≠ l ∧ k ≠ l := by decide

/-- Correlation 3/5. -/
noncomputable def exCorr : Matrix (Fin 2) (Fin 2) ℝ := !![1, 3 / 5; 3 / 5, 1]

/-- Its Cholesky factor. -/
noncomputable def exFactor : Matrix (Fin 2) (Fin 2) ℝ := !![1, 0; 3 / 5, 4 / 5]

/-- The argument `covariance_matrix`. -/
noncomputable def exCorrArg : CovArg := ⟨2, 2, fun i j => if i = j then 1 else 3 / 5⟩

theorem exCorr_posDef : exCorr.PosDef := by
  refine Matrix.PosDef.of_dotProduct_mulVec_pos (by ext i j; fin_cases i <;> fin_cases j <;> simp [exCorr]) ?_
  intro v hv
  simp only [exCorr, dotProduct, Matrix.mulVec, Fin.sum_univ_two, Pi.star_apply, star_trivial, Matrix.of_apply, Matrix.cons_val_zero,
    Matrix.cons_val_one, Matrix.cons_val', Matrix.cons_val_fin_one]
  have : v 0 ≠ 0 ∨ v 1 ≠ 0 := by
    by_contra h
    push Not at h
    exact hv (funext fun k => by fin_cases k <;> simp [h.1, h.2])
  rcases this with h | h
  · nlinarith [sq_nonneg (v 0 + v 1), sq_nonneg (v 1), sq_nonneg (3 / 5 * v 0 + v 1), pow_pos (abs_pos.2 h) 2, sq_abs (v 0)]
  · nlinarith [sq_nonneg (v 0 + v 1), sq_nonneg (v 0), sq_nonneg (v 0 + 3 / 5 * v 1), pow_pos (abs_pos.2 h) 2, sq_abs (v 1)]

theorem exFactor_cholesky : IsCholesky exCorr exFactor := by
  unfold IsCholesky exCorr exFactor
  ext i j
  fin_cases i <;> fin_cases j <;> simp [Matrix.mul_apply, Fin.sum_univ_two] <;> norm_num

theorem exCorr_arg : some exCorrArg = none ∧ exCorr = 1 ∨ ∃ c, some exCorrArg = some c ∧ c.rows = 2 ∧ c.cols = 2 ∧
    exCorr = Matrix.of fun i j : Fin 2 => c.entry i j :=
  Or.inr ⟨exCorrArg, rfl, rfl, rfl, by ext i j; fin_cases i <;> fin_cases j <;> simp [exCorr, exCorrArg]⟩

/-- Slopes from 1 to 7/2, intercepts from -5/2 to 5/2. -/
noncomputable def exSimple : (Fin 6 → ℝ) × (Fin 6 → ℝ) := (fun j => 1 + (j : ℕ) / 2, fun j => (j : ℕ) - 5 / 2)

theorem exSimple_pos (j : Fin 6) : 0 < exSimple.1 j := by unfold exSimple; positivity

theorem exSimple_mem : exSimple ∈ TwoPLBounds 6 (1 / 10) 5 := by
  intro j
  have h0 : (0 : ℝ) ≤ (j : ℕ) := Nat.cast_nonneg _
  have h5 : ((j : ℕ) : ℝ) ≤ 5 := by exact_mod_cast Nat.le_of_lt_succ j.2
  refine ⟨?_, ?_, abs_le.2 ⟨?_, ?_⟩⟩ <;> simp only [exSimple] <;> linarith

theorem exSeven_two : (cartesianProd fun _ => linspace (-3) 3 7 : Thetas 2) ≠ [] := by
  intro h
  have := length_cartesianProd (fun _ : Fin 2 => linspace (-3) 3 7) 7 fun _ => length_linspace _ _ _
  rw [h] at this
  simp at this

/-- Two latent variables with correlation 3/5 and three items each: for every sample there are best parameters within bounds, and with enough points
and respondents they are within a tenth of the truth with a probability of at least 95 percent. -/
example : ∃ (hg : ℕ → Except PyErr (List ℝ × List ℝ)) (n₀ N₀ : ℕ), ExactRules hg ∧ ∀ n, n₀ ≤ n → ∀ N, N₀ ≤ N →
    ∃ (pts : Thetas 2) (lw : List ℝ) (estimate : (Fin N → Fin (List.replicate 6 2).length → ℕ) → (Fin 6 → ℝ) × (Fin 6 → ℝ)),
      mmlIntegration hg (fun _ => .ok exFactor) "gauss_hermite" (some n) (some exCorrArg) = .ok (pts, lw) ∧
      ∀ far : Finset (Fin N → Fin (List.replicate 6 2).length → ℕ), far ⊆ samples N (List.replicate 6 2) →
        (∀ s ∈ far, ∃ j, 1 / 10 ≤ |(estimate s).1 j - exSimple.1 j| ∨ 1 / 10 ≤ |(estimate s).2 j - exSimple.2 j|) →
        ∑ s ∈ far, sampleProb (normalProb (fun θ : Fin 2 → ℝ => tableProb ((simpleTwoPL exDim exSimple).probs (List.ofFn θ))) exCorr) s
          ≤ 1 / 20 := by
  classical
  obtain ⟨hg, hrules⟩ := C141_rules_exist
  obtain ⟨n₀, h1, h⟩ := C156_parameters exDim exCorr_posDef exDim_three hrules (ch := fun _ => .ok exFactor) (some exCorrArg) exCorr_arg rfl
    exFactor_cholesky (by norm_num) (α := 1 / 10) (by norm_num) 5 exSimple exSimple_pos (1 / 10) (by norm_num)
  obtain ⟨N₀, hN₀⟩ := h (1 / 20) (by norm_num)
  refine ⟨hg, n₀, N₀, hrules, fun n hn N hN => ?_⟩
  obtain ⟨x, w, hx, hexact⟩ := hrules n (h1.trans hn)
  obtain ⟨pts, lw, hok, hl, hne, _⟩ := integration_rule (ch := fun _ => .ok exFactor) (some exCorrArg) exCorr_arg rfl (h1.trans hn) hx hexact
  choose! estimate hb hmin using C156_exists exDim (by norm_num) pts lw hl hne (α := 1 / 10) (β := 5) (by norm_num) (by norm_num) N
  refine ⟨pts, lw, estimate, hok, hN₀ n hn N hN pts lw hok estimate fun s hs => ⟨hb s hs, ?_⟩⟩
  obtain ⟨L', hL', hbest⟩ := hmin s hs
  obtain ⟨L, hL, hle⟩ := hbest exSimple exSimple_mem
  exact ⟨L, L', hL, hL', hle⟩

example {hg : ℕ → Except PyErr (List ℝ × List ℝ)} (hrules : ExactRules hg) :=
  C156_scores exDim exCorr_posDef exDim_three hrules (ch := fun _ => .ok exFactor) (some exCorrArg) exCorr_arg rfl
    exFactor_cholesky (by norm_num) (α := 1 / 10) (by norm_num) 5 exSimple exSimple_pos {} (by norm_num) (some 7)
    (cartesianProd fun _ => linspace (-3) 3 7) exSeven_two 1 Matrix.PosDef.one rfl (1 / 100) (by norm_num)

example {hg : ℕ → Except PyErr (List ℝ × List ℝ)} (hrules : ExactRules hg) :=
  C156_groups exDim exCorr_posDef exDim_three hrules (ch := fun _ => .ok exFactor) (some exCorrArg) exCorr_arg rfl
    exFactor_cholesky (by norm_num) (α := 1 / 10) (by norm_num) 5 exSimple exSimple_pos ![1, -1] (σ := ![2, 3])
    (fun k => by fin_cases k <;> norm_num) (1 / 10) (by norm_num)

end Irt
