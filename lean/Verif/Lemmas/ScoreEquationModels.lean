import Verif.Lemmas.ScoreEquations

/-!
# The partial derivatives of the MML loss of the logit models
-/

namespace Irt

open Spec Finset

/-! ## From the gradient to all categories -/

section Totals
variable {d : ℕ} {cats : List ℕ} {P : (Fin d → ℝ) → ℕ → ℕ → ℝ} (hpos : PositiveProbs P cats) (pts : Thetas d) (lw : List ℝ)
  (hlen : lw.length = pts.length) (hne : pts ≠ []) (N : ℕ) (y : ℕ → ℕ → Cell) (hy : ∀ i, i < N → ValidResponses cats (y i))
include hpos hlen hne hy

/-- The expected numbers of answers add up to the number of answers, as the observed ones do. -/
theorem sum_expected_chosen (j c : ℕ) (hc : cats[j]? = some c) (hone : ∀ θ, ∑ r ∈ range c, P θ j r = 1) :
    ∑ r ∈ range c, (expectedBy P cats.length pts (lw.map Real.exp) N y j r - chosenBy N y j r) = 0 := by
  have h : ∀ r ∈ range c, expectedBy P cats.length pts (lw.map Real.exp) N y j r - chosenBy N y j r
      = ∑ i ∈ answeredBy N y j, posteriorMean pts (lw.map Real.exp) (observedLikelihood P cats.length (y i))
        (fun θ => P θ j r - if responseOf (y i j) = r then 1 else 0) := by
    intro r hr
    rw [← sum_answer_indicator hpos pts lw hlen hne N y hy j c r hc (mem_range.1 hr)]
    refine sum_congr rfl fun i _ => ?_
    congr 1
    funext θ
    congr 1
    simp only [mul_ite, mul_one, mul_zero, sum_ite_eq', if_pos hr]
  rw [sum_congr rfl h, sum_comm]
  refine sum_eq_zero fun i hi => ?_
  obtain ⟨hiN, hm⟩ := mem_filter.1 hi
  obtain ⟨r, hr, hrc⟩ := hy i (mem_range.1 hiN) j c hc hm
  rw [← posteriorMean_sum]
  have e : (fun θ => ∑ r ∈ range c, (P θ j r - if responseOf (y i j) = r then (1 : ℝ) else 0)) = fun _ => 0 * (0 : ℝ) := by
    funext θ
    rw [sum_sub_distrib, hone θ, sum_ite_eq, if_pos (by rw [hr]; simpa [responseOf] using hrc)]
    ring
  rw [e, posteriorMean_smul]
  ring

end Totals

/-- Derivative of an affine form whose slope on one variable is the argument. -/
theorem hasDerivAt_slopes {d : ℕ} (k : Fin d) (r : ℝ) (j j' : ℕ) (θ a : Fin d → ℝ) (b x₀ : ℝ) :
    HasDerivAt (fun x => ∑ q, r * (if j' = j ∧ q = k then x else a q) * θ q + b) (if j' = j then r * θ k else 0) x₀ := by
  by_cases h : j' = j
  · simp only [h, true_and, if_true]
    have h1 : ∀ q ∈ univ, HasDerivAt (fun x : ℝ => r * (if q = k then x else a q) * θ q) (if q = k then r * θ k else 0) x₀ := by
      intro q _
      by_cases hq : q = k
      · simp only [hq, if_true]
        simpa using ((hasDerivAt_id x₀).const_mul r).mul_const (θ k)
      · simp only [if_neg hq]
        exact hasDerivAt_const _ _
    have h2 := HasDerivAt.fun_sum h1
    rw [sum_ite_eq' univ k, if_pos (mem_univ k)] at h2
    exact h2.add_const b
  · simp only [h, false_and, if_false]
    exact hasDerivAt_const _ _

/-! ## Entries of the generalized partial credit model -/

theorem GPC.intercept_entry (m : GPC) (j r : ℕ) (hj : j < m.cats.length) (hr : r < m.M) :
    ((m.itemParameters[j]?).map fun p => p.2.getD r 0).getD 0 = m.biases.getD (j * m.M + r) 0 := by
  obtain ⟨w, dl, hp, _⟩ := m.exists_params j hj
  have h := (List.getElem?_zip_eq_some.1 hp).2
  rw [hp]
  exact viewRows_getD _ _ _ (by rw [GPC.biases, length_scatterMask, length_freeMask]) j dl h r hr

theorem GPC.slope_entry (m : GPC) (hwf : m.WF) (j k : ℕ) (hj : j < m.cats.length) (hk : k < m.lv) :
    slopeOf m.itemParameters j k = (scatterMask 0 m.rel.flatten m.weight).getD (j * m.lv + k) 0 := by
  obtain ⟨w, dl, hp, _⟩ := m.exists_params j hj
  have h := (List.getElem?_zip_eq_some.1 hp).1
  rw [slopeOf_eq _ _ _ _ hp]
  exact viewRows_getD _ _ _ (by rw [length_scatterMask, length_flatten_rel _ _ _ hwf.relLen hwf.relRow]) j w h k hk

theorem GPC.wf_bias (m : GPC) (hwf : m.WF) (b : List ℝ) (hb : b.length = m.bias.length) : ({ m with bias := b } : GPC).WF :=
  ⟨hwf.catsPos, hwf.relLen, hwf.relRow, hwf.weightLen, hb.trans hwf.biasLen⟩

theorem GPC.wf_weight (m : GPC) (hwf : m.WF) (w : List ℝ) (hw : w.length = m.weight.length) : ({ m with weight := w } : GPC).WF :=
  ⟨hwf.catsPos, hwf.relLen, hwf.relRow, hw.trans hwf.weightLen, hwf.biasLen⟩

/-- Partial derivative of the MML loss by an intercept: expected minus observed number of answers. -/
theorem GPC.intercept_partial (m : GPC) (hwf : m.WF) (hcats : m.cats ≠ []) (pts : Thetas m.lv) (lw : List ℝ)
    (hlen : lw.length = pts.length) (hne : pts ≠ []) (N : ℕ) (y : ℕ → ℕ → Cell) (hy : ∀ i, i < N → ValidResponses m.cats (y i))
    (j c k : ℕ) (hc : m.cats[j]? = some c) (hk0 : 0 < k) (hk : k < c) :
    ∃ n, n = countTrue ((freeMask m.M m.cats).take (j * m.M + k)) ∧ n < m.bias.length ∧
      partialAt (fun b => mmlLoss (({ m with bias := b } : GPC).scorer m.lv) (rowsOf N m.cats.length y) pts lw) m.bias n
        = expectedBy (fun θ => tableProb (m.probs (List.ofFn θ))) m.cats.length pts (lw.map Real.exp) N y j k - chosenBy N y j k := by
  have hj := lt_of_getElem?_some hc
  have hmem := List.mem_of_getElem? hc
  have hcM : c ≤ m.M := le_maxCats _ _ hmem
  have htrue : (freeMask m.M m.cats)[j * m.M + k]? = some true := by
    rw [freeMask_getElem? m.M m.cats j k c hc (by omega)]
    simp [hk]
    omega
  have hn : countTrue ((freeMask m.M m.cats).take (j * m.M + k)) < m.bias.length := by
    rw [hwf.biasLen, ← count_freeMask m.M m.cats hwf.catsPos fun c hc => le_maxCats _ _ hc]
    exact countTrue_take_lt _ _ htrue
  refine ⟨_, rfl, hn, ?_⟩
  set n := countTrue ((freeMask m.M m.cats).take (j * m.M + k)) with hndef
  have hpos := m.positive hwf m.lv
  rw [← sum_answer_indicator hpos pts lw hlen hne N y hy j c k hc hk]
  have hwf' : ∀ x, ({ m with bias := m.bias.set n x } : GPC).WF := fun x => m.wf_bias hwf _ (by simp)
  refine partialAt_mml (cats := m.cats) (fun b => ({ m with bias := b } : GPC).scorer m.lv)
    (fun b θ => tableProb (({ m with bias := b } : GPC).probs (List.ofFn θ))) m.bias n
    (fun x j r q => r * slopeOf ({ m with bias := m.bias.set n x } : GPC).itemParameters j q)
    (fun x j r => ((({ m with bias := m.bias.set n x } : GPC).itemParameters[j]?).map fun p => p.2.getD r 0).getD 0)
    (fun x => GPC.isScorer { m with bias := m.bias.set n x } (hwf' x) hcats m.lv)
    (fun x => GPC.logitModel { m with bias := m.bias.set n x } (hwf' x) m.lv) j c hc
    (fun _ r => if r = k then 1 else 0) ?_ pts lw hlen hne N y hy
  intro θ j' c' r hc' hr
  have hj' := lt_of_getElem?_some hc'
  have hcM' : c' ≤ m.M := le_maxCats _ _ (List.mem_of_getElem? hc')
  have hs : ∀ x, ∑ q : Fin m.lv, (r : ℝ) * slopeOf (({ m with bias := m.bias.set n x } : GPC).itemParameters) j' q * θ q
      = ∑ q : Fin m.lv, (r : ℝ) * slopeOf m.itemParameters j' q * θ q := fun x => sum_congr rfl fun q _ => by
    rw [GPC.slope_entry { m with bias := m.bias.set n x } (hwf' x) j' q hj' q.isLt, GPC.slope_entry m hwf j' q hj' q.isLt]
  have hb : ∀ x, ((({ m with bias := m.bias.set n x } : GPC).itemParameters[j']?).map fun p => p.2.getD r 0).getD 0
      = if j' * m.M + r = j * m.M + k then x else m.biases.getD (j' * m.M + r) 0 := by
    intro x
    rw [GPC.intercept_entry { m with bias := m.bias.set n x } j' r hj' (by show r < m.M; omega)]
    show (scatterMask 0 (freeMask m.M m.cats) (m.bias.set n x)).getD (j' * m.M + r) 0 = _
    rw [scatterMask_set _ _ _ htrue hn, getD_set_real _ _ _ _ (by
      rw [length_scatterMask, length_freeMask]
      exact index_lt hj (by omega))]
    rfl
  simp only [hs, hb, cell_eq (show k < m.M by omega) (show r < m.M by omega)]
  by_cases h : j' = j ∧ r = k
  · simp only [h.1, h.2, and_self, if_true]
    exact (hasDerivAt_id _).const_add _
  · have h2 : (if j' = j then (if r = k then (1 : ℝ) else 0) else 0) = 0 := by
      by_cases h1 : j' = j
      · rw [if_pos h1, if_neg fun h2 => h ⟨h1, h2⟩]
      · rw [if_neg h1]
    simp only [if_neg h, h2]
    exact hasDerivAt_const _ _

/-- Partial derivative of the MML loss by a slope: latent score times expected minus observed score. -/
theorem GPC.slope_partial (m : GPC) (hwf : m.WF) (hcats : m.cats ≠ []) (pts : Thetas m.lv) (lw : List ℝ)
    (hlen : lw.length = pts.length) (hne : pts ≠ []) (N : ℕ) (y : ℕ → ℕ → Cell) (hy : ∀ i, i < N → ValidResponses m.cats (y i))
    (j c : ℕ) (k : Fin m.lv) (hc : m.cats[j]? = some c) (row : List Bool) (hrow : m.rel[j]? = some row) (hrel : row[(k : ℕ)]? = some true) :
    ∃ n, n = countTrue (m.rel.flatten.take (j * m.lv + k)) ∧ n < m.weight.length ∧
      partialAt (fun w => mmlLoss (({ m with weight := w } : GPC).scorer m.lv) (rowsOf N m.cats.length y) pts lw) m.weight n
        = ∑ i ∈ answeredBy N y j, posteriorMean pts (lw.map Real.exp)
            (observedLikelihood (fun θ => tableProb (m.probs (List.ofFn θ))) m.cats.length (y i))
            (fun θ => θ k * meanItemScore (fun θ => tableProb (m.probs (List.ofFn θ))) c j θ)
          - ∑ i ∈ answeredBy N y j, (responseOf (y i j) : ℝ) * posteriorMean pts (lw.map Real.exp)
            (observedLikelihood (fun θ => tableProb (m.probs (List.ofFn θ))) m.cats.length (y i)) fun θ => θ k := by
  have hj := lt_of_getElem?_some hc
  have htrue : m.rel.flatten[j * m.lv + k]? = some true := by
    rw [flatten_getElem? m.lv _ hwf.relRow j k k.isLt, hrow, Option.bind_some, hrel]
  have hn : countTrue (m.rel.flatten.take (j * m.lv + k)) < m.weight.length := by
    rw [hwf.weightLen]
    exact countTrue_take_lt _ _ htrue
  refine ⟨_, rfl, hn, ?_⟩
  set n := countTrue (m.rel.flatten.take (j * m.lv + k)) with hndef
  rw [← sum_slope (cats := m.cats) pts lw N y j c k]
  have hwf' : ∀ x, ({ m with weight := m.weight.set n x } : GPC).WF := fun x => m.wf_weight hwf _ (by simp)
  refine partialAt_mml (cats := m.cats) (fun w => ({ m with weight := w } : GPC).scorer m.lv)
    (fun w θ => tableProb (({ m with weight := w } : GPC).probs (List.ofFn θ))) m.weight n
    (fun x j r q => r * slopeOf ({ m with weight := m.weight.set n x } : GPC).itemParameters j q)
    (fun x j r => ((({ m with weight := m.weight.set n x } : GPC).itemParameters[j]?).map fun p => p.2.getD r 0).getD 0)
    (fun x => GPC.isScorer { m with weight := m.weight.set n x } (hwf' x) hcats m.lv)
    (fun x => GPC.logitModel { m with weight := m.weight.set n x } (hwf' x) m.lv) j c hc
    (fun θ r => r * θ k) ?_ pts lw hlen hne N y hy
  intro θ j' c' r hc' hr
  have hj' := lt_of_getElem?_some hc'
  have hcM' : c' ≤ m.M := le_maxCats _ _ (List.mem_of_getElem? hc')
  have hb : ∀ x, ((({ m with weight := m.weight.set n x } : GPC).itemParameters[j']?).map fun p => p.2.getD r 0).getD 0
      = ((m.itemParameters[j']?).map fun p => p.2.getD r 0).getD 0 := by
    intro x
    rw [GPC.intercept_entry { m with weight := m.weight.set n x } j' r hj' (by show r < m.M; omega),
      GPC.intercept_entry m j' r hj' (by omega)]
    rfl
  have hs : ∀ x (q : Fin m.lv), slopeOf (({ m with weight := m.weight.set n x } : GPC).itemParameters) j' q
      = if j' = j ∧ q = k then x else slopeOf m.itemParameters j' q := by
    intro x q
    rw [GPC.slope_entry { m with weight := m.weight.set n x } (hwf' x) j' q hj' q.isLt, GPC.slope_entry m hwf j' q hj' q.isLt]
    show (scatterMask 0 m.rel.flatten (m.weight.set n x)).getD (j' * m.lv + q) 0 = _
    rw [scatterMask_set _ _ _ htrue hn, getD_set_real _ _ _ _ (by
      rw [length_scatterMask, length_flatten_rel _ _ _ hwf.relLen hwf.relRow]
      exact index_lt hj k.isLt)]
    simp only [cell_eq k.isLt q.isLt, Fin.ext_iff]
  simp only [hs, hb]
  exact hasDerivAt_slopes k (r : ℝ) _ _ _ _ _ _

/-! ## Entries of the logistic models -/

theorem TwoPL.wf_bias (m : TwoPL) (hwf : m.WF) (b : List ℝ) (hb : b.length = m.bias.length) : ({ m with bias := b } : TwoPL).WF :=
  ⟨hwf.relLen, hwf.relRow, hwf.weightLen, hb.trans hwf.biasLen⟩

theorem TwoPL.wf_weight (m : TwoPL) (hwf : m.WF) (w : List ℝ) (hw : w.length = m.weight.length) : ({ m with weight := w } : TwoPL).WF :=
  ⟨hwf.relLen, hwf.relRow, hw.trans hwf.weightLen, hwf.biasLen⟩

theorem TwoPL.intercept_entry (m : TwoPL) (hwf : m.WF) (j : ℕ) (hj : j < m.items) :
    ((m.itemParameters[j]?).map Prod.snd).getD 0 = m.bias.getD j 0 := by
  obtain ⟨w, b, hp⟩ := m.exists_params hwf j hj
  have h := (List.getElem?_zip_eq_some.1 hp).2
  rw [hp, List.getD_eq_getElem?_getD]
  exact (congrArg (Option.getD · 0) h).symm

theorem TwoPL.slope_entry (m : TwoPL) (hwf : m.WF) (j k : ℕ) (hj : j < m.items) (hk : k < m.lv) :
    slopeOf m.itemParameters j k = (scatterMask 0 m.rel.flatten m.weight).getD (j * m.lv + k) 0 := by
  obtain ⟨w, dl, hp⟩ := m.exists_params hwf j hj
  have h := (List.getElem?_zip_eq_some.1 hp).1
  rw [slopeOf_eq _ _ _ _ hp]
  exact viewRows_getD _ _ _ (by rw [length_scatterMask, length_flatten_rel _ _ _ hwf.relLen hwf.relRow]) j w h k hk

theorem getElem?_replicate_two {n j : ℕ} (hj : j < n) : (List.replicate n 2)[j]? = some 2 := by
  rw [List.getElem?_replicate, if_pos hj]

/-- Partial derivative of the MML loss by an intercept of the 2PL model. -/
theorem TwoPL.intercept_partial (m : TwoPL) (hwf : m.WF) (pts : Thetas m.lv) (lw : List ℝ)
    (hlen : lw.length = pts.length) (hne : pts ≠ []) (N : ℕ) (y : ℕ → ℕ → Cell)
    (hy : ∀ i, i < N → ValidResponses (List.replicate m.items 2) (y i)) (j : ℕ) (hj : j < m.items) :
    partialAt (fun b => mmlLoss (({ m with bias := b } : TwoPL).scorer m.lv) (rowsOf N m.items y) pts lw) m.bias j
      = expectedBy (fun θ => tableProb (m.probs (List.ofFn θ))) m.items pts (lw.map Real.exp) N y j 1 - chosenBy N y j 1 := by
  have hc := getElem?_replicate_two hj
  have hpos := m.positive hwf m.lv
  have key := sum_answer_indicator hpos pts lw hlen hne N y hy j 2 1 hc (by omega)
  have hwf' : ∀ x, ({ m with bias := m.bias.set j x } : TwoPL).WF := fun x => m.wf_bias hwf _ (by simp)
  have main := partialAt_mml (cats := List.replicate m.items 2) (fun b => ({ m with bias := b } : TwoPL).scorer m.lv)
    (fun b θ => tableProb (({ m with bias := b } : TwoPL).probs (List.ofFn θ))) m.bias j
    (fun x j' r q => r * slopeOf ({ m with bias := m.bias.set j x } : TwoPL).itemParameters j' q)
    (fun x j' r => r * ((({ m with bias := m.bias.set j x } : TwoPL).itemParameters[j']?).map Prod.snd).getD 0)
    (fun x => TwoPL.isScorer { m with bias := m.bias.set j x } (hwf' x) (by show 0 < m.items; omega) m.lv)
    (fun x => TwoPL.logitModel { m with bias := m.bias.set j x } (hwf' x) m.lv) j 2 hc
    (fun _ r => if r = 1 then 1 else 0) (by
      intro θ j' c' r hc' hr
      obtain ⟨hj', rfl⟩ := replicate_getElem? _ _ _ _ hc'
      have hs : ∀ x, ∑ q : Fin m.lv, (r : ℝ) * slopeOf (({ m with bias := m.bias.set j x } : TwoPL).itemParameters) j' q * θ q
          = ∑ q : Fin m.lv, (r : ℝ) * slopeOf m.itemParameters j' q * θ q := fun x => sum_congr rfl fun q _ => by
        rw [TwoPL.slope_entry { m with bias := m.bias.set j x } (hwf' x) j' q hj' q.isLt, TwoPL.slope_entry m hwf j' q hj' q.isLt]
      have hb : ∀ x, ((({ m with bias := m.bias.set j x } : TwoPL).itemParameters[j']?).map Prod.snd).getD 0
          = if j' = j then x else m.bias.getD j' 0 := by
        intro x
        rw [TwoPL.intercept_entry { m with bias := m.bias.set j x } (hwf' x) j' hj']
        exact getD_set_real _ _ _ _ (by rw [hwf.biasLen]; exact hj)
      simp only [hs, hb]
      by_cases h : j' = j
      · simp only [h, if_true]
        have h1 := ((hasDerivAt_id (m.bias.getD j 0)).const_mul (r : ℝ)).const_add
          (∑ q : Fin m.lv, (r : ℝ) * slopeOf m.itemParameters j q * θ q)
        refine h1.congr_deriv ?_
        interval_cases r <;> simp
      · simp only [if_neg h]
        exact hasDerivAt_const _ _) pts lw hlen hne N y hy
  simp only [List.length_replicate] at key main
  rw [main, ← key]

/-- Partial derivative of the MML loss by a slope of the 2PL model. -/
theorem TwoPL.slope_partial (m : TwoPL) (hwf : m.WF) (pts : Thetas m.lv) (lw : List ℝ)
    (hlen : lw.length = pts.length) (hne : pts ≠ []) (N : ℕ) (y : ℕ → ℕ → Cell)
    (hy : ∀ i, i < N → ValidResponses (List.replicate m.items 2) (y i)) (j : ℕ) (hj : j < m.items)
    (k : Fin m.lv) (row : List Bool) (hrow : m.rel[j]? = some row) (hrel : row[(k : ℕ)]? = some true) :
    ∃ n, n = countTrue (m.rel.flatten.take (j * m.lv + k)) ∧ n < m.weight.length ∧
      partialAt (fun w => mmlLoss (({ m with weight := w } : TwoPL).scorer m.lv) (rowsOf N m.items y) pts lw) m.weight n
        = ∑ i ∈ answeredBy N y j, posteriorMean pts (lw.map Real.exp)
            (observedLikelihood (fun θ => tableProb (m.probs (List.ofFn θ))) m.items (y i))
            (fun θ => θ k * meanItemScore (fun θ => tableProb (m.probs (List.ofFn θ))) 2 j θ)
          - ∑ i ∈ answeredBy N y j, (responseOf (y i j) : ℝ) * posteriorMean pts (lw.map Real.exp)
            (observedLikelihood (fun θ => tableProb (m.probs (List.ofFn θ))) m.items (y i)) fun θ => θ k := by
  have hc := getElem?_replicate_two hj
  have htrue : m.rel.flatten[j * m.lv + k]? = some true := by
    rw [flatten_getElem? m.lv _ hwf.relRow j k k.isLt, hrow, Option.bind_some, hrel]
  have hn : countTrue (m.rel.flatten.take (j * m.lv + k)) < m.weight.length := by
    rw [hwf.weightLen]
    exact countTrue_take_lt _ _ htrue
  refine ⟨_, rfl, hn, ?_⟩
  set n := countTrue (m.rel.flatten.take (j * m.lv + k)) with hndef
  have key := sum_slope (cats := List.replicate m.items 2) (P := fun θ => tableProb (m.probs (List.ofFn θ))) pts lw N y j 2 k
  have hwf' : ∀ x, ({ m with weight := m.weight.set n x } : TwoPL).WF := fun x => m.wf_weight hwf _ (by simp)
  have main := partialAt_mml (cats := List.replicate m.items 2) (fun w => ({ m with weight := w } : TwoPL).scorer m.lv)
    (fun w θ => tableProb (({ m with weight := w } : TwoPL).probs (List.ofFn θ))) m.weight n
    (fun x j' r q => r * slopeOf ({ m with weight := m.weight.set n x } : TwoPL).itemParameters j' q)
    (fun x j' r => r * ((({ m with weight := m.weight.set n x } : TwoPL).itemParameters[j']?).map Prod.snd).getD 0)
    (fun x => TwoPL.isScorer { m with weight := m.weight.set n x } (hwf' x) (by show 0 < m.items; omega) m.lv)
    (fun x => TwoPL.logitModel { m with weight := m.weight.set n x } (hwf' x) m.lv) j 2 hc
    (fun θ r => r * θ k) (by
      intro θ j' c' r hc' hr
      obtain ⟨hj', rfl⟩ := replicate_getElem? _ _ _ _ hc'
      have hb : ∀ x, ((({ m with weight := m.weight.set n x } : TwoPL).itemParameters[j']?).map Prod.snd).getD 0 = m.bias.getD j' 0 :=
        fun x => TwoPL.intercept_entry { m with weight := m.weight.set n x } (hwf' x) j' hj'
      have hs : ∀ x (q : Fin m.lv), slopeOf (({ m with weight := m.weight.set n x } : TwoPL).itemParameters) j' q
          = if j' = j ∧ q = k then x else slopeOf m.itemParameters j' q := by
        intro x q
        rw [TwoPL.slope_entry { m with weight := m.weight.set n x } (hwf' x) j' q hj' q.isLt, TwoPL.slope_entry m hwf j' q hj' q.isLt]
        show (scatterMask 0 m.rel.flatten (m.weight.set n x)).getD (j' * m.lv + q) 0 = _
        rw [scatterMask_set _ _ _ htrue hn, getD_set_real _ _ _ _ (by
          rw [length_scatterMask, length_flatten_rel _ _ _ hwf.relLen hwf.relRow]
          exact index_lt hj k.isLt)]
        simp only [cell_eq k.isLt q.isLt, Fin.ext_iff]
      simp only [hs, hb]
      exact hasDerivAt_slopes k (r : ℝ) _ _ _ _ _ _) pts lw hlen hne N y hy
  simp only [List.length_replicate] at key main
  rw [main, ← key]

theorem OnePL.positive (m : OnePL) (hwf : m.WF) :
    PositiveProbs (d := 1) (fun θ => tableProb (m.probs (θ 0))) (List.replicate m.items 2) :=
  fun θ j c r hc hr => (m.logitModel hwf).pos θ j c r hc hr

/-- Partial derivative of the MML loss by an intercept of the 1PL model. -/
theorem OnePL.intercept_partial (m : OnePL) (hwf : m.WF) (pts : Thetas 1) (lw : List ℝ)
    (hlen : lw.length = pts.length) (hne : pts ≠ []) (N : ℕ) (y : ℕ → ℕ → Cell)
    (hy : ∀ i, i < N → ValidResponses (List.replicate m.items 2) (y i)) (j : ℕ) (hj : j < m.items) :
    partialAt (fun b => mmlLoss ({ m with bias := b } : OnePL).scorer (rowsOf N m.items y) pts lw) m.bias j
      = expectedBy (fun θ => tableProb (m.probs (θ 0))) m.items pts (lw.map Real.exp) N y j 1 - chosenBy N y j 1 := by
  have hc := getElem?_replicate_two hj
  have key := sum_answer_indicator (m.positive hwf) pts lw hlen hne N y hy j 2 1 hc (by omega)
  have hwf' : ∀ x, ({ m with bias := m.bias.set j x } : OnePL).WF := fun x => by
    show (m.bias.set j x).length = m.items
    rw [List.length_set]
    exact hwf
  have main := partialAt_mml (d := 1) (cats := List.replicate m.items 2) (fun b => ({ m with bias := b } : OnePL).scorer)
    (fun b θ => tableProb (({ m with bias := b } : OnePL).probs (θ 0))) m.bias j
    (fun _ _ r _ => r) (fun x j' r => r * ({ m with bias := m.bias.set j x } : OnePL).itemParameters.getD j' 0)
    (fun x => OnePL.isScorer { m with bias := m.bias.set j x } (hwf' x) (by show 0 < m.items; omega))
    (fun x => OnePL.logitModel { m with bias := m.bias.set j x } (hwf' x)) j 2 hc
    (fun _ r => if r = 1 then 1 else 0) (by
      intro θ j' c' r hc' hr
      obtain ⟨hj', rfl⟩ := replicate_getElem? _ _ _ _ hc'
      have hb : ∀ x, (({ m with bias := m.bias.set j x } : OnePL).itemParameters).getD j' 0 = if j' = j then x else m.bias.getD j' 0 :=
        fun x => getD_set_real _ _ _ _ (by rw [show m.bias.length = m.items from hwf]; exact hj)
      simp only [hb]
      by_cases h : j' = j
      · simp only [h, if_true]
        have h1 := ((hasDerivAt_id (m.bias.getD j 0)).const_mul (r : ℝ)).const_add (∑ q : Fin 1, (r : ℝ) * θ q)
        refine h1.congr_deriv ?_
        interval_cases r <;> simp
      · simp only [if_neg h]
        exact hasDerivAt_const _ _) pts lw hlen hne N y hy
  simp only [List.length_replicate] at key main
  rw [main, ← key]

/-! ## Entries of the nominal response model -/

theorem sum_getD_range (l : List ℝ) : l.sum = ∑ r ∈ range l.length, l.getD r 0 := by
  induction l with
  | nil => simp
  | cons a l ih => rw [List.sum_cons, List.length_cons, sum_range_succ', ih, add_comm]; simp

theorem NRM.wf_bias (m : NRM) (hwf : m.WF) (b : List ℝ) (hb : b.length = m.bias.length) : ({ m with bias := b } : NRM).WF :=
  ⟨hwf.catsPos, hwf.relLen, hwf.relRow, hwf.weightLen, hb.trans hwf.biasLen⟩

theorem NRM.wf_weight (m : NRM) (hwf : m.WF) (w : List ℝ) (hw : w.length = m.weight.length) : ({ m with weight := w } : NRM).WF :=
  ⟨hwf.catsPos, hwf.relLen, hwf.relRow, hw.trans hwf.weightLen, hwf.biasLen⟩

/-- The flat intercepts before the constraint. -/
noncomputable def NRM.flatBias (m : NRM) : List ℝ := scatterMask 0 (freeMask m.M m.cats) m.bias

/-- The flat slopes before the constraint. -/
noncomputable def NRM.flatWeight (m : NRM) : List ℝ := scatterMask 0 m.freeWeights.flatten m.weight

theorem NRM.intercept_entry (m : NRM) (j r : ℕ) (hj : j < m.cats.length) (hr : r < m.M) :
    ((m.itemParameters[j]?).map fun p => p.2.getD r 0).getD 0
      = if r = 0 then -∑ s ∈ range (m.M - 1), m.flatBias.getD (j * m.M + (s + 1)) 0 else m.flatBias.getD (j * m.M + r) 0 := by
  obtain ⟨wl, dl, hp, _⟩ := m.exists_params j hj
  obtain ⟨raw, hraw, hl, rfl⟩ := m.biases_row j dl (List.getElem?_zip_eq_some.1 hp).2 (by omega)
  have he : ∀ k, k < m.M → raw.getD k 0 = m.flatBias.getD (j * m.M + k) 0 := fun k hk =>
    viewRows_getD _ _ _ m.length_flatBias j raw hraw k hk
  have ht : ∀ k, raw.tail.getD k 0 = raw.getD (k + 1) 0 := fun k => by
    rw [List.getD_eq_getElem?_getD, List.getElem?_tail, List.getD_eq_getElem?_getD]
  rw [hp, Option.map_some, Option.getD_some]
  cases r with
  | zero =>
    simp only [List.getD_cons_zero, if_true]
    rw [sum_getD_range, List.length_tail, hl]
    congr 1
    exact sum_congr rfl fun s hs => by rw [ht, he _ (by have := mem_range.1 hs; omega)]
  | succ r =>
    simp only [List.getD_cons_succ, Nat.add_eq_zero_iff, one_ne_zero, and_false, if_false]
    rw [ht, he _ hr]

theorem NRM.slope_entry (m : NRM) (hwf : m.WF) (j r k : ℕ) (hj : j < m.cats.length) (hr : r < m.M) (hk : k < m.lv) :
    categorySlopeOf m.itemParameters j r k
      = if r = 0 then -∑ s ∈ range (m.M - 1), m.flatWeight.getD ((j * m.M + (s + 1)) * m.lv + k) 0
        else m.flatWeight.getD ((j * m.M + r) * m.lv + k) 0 := by
  obtain ⟨wl, dl, hp, _⟩ := m.exists_params j hj
  have hw := (List.getElem?_zip_eq_some.1 hp).1
  have hlens := m.weight_row_length hwf j wl (by omega) hw
  obtain ⟨raw, hraw, hl, rfl⟩ := m.weights_row j wl hw (by omega)
  have htail : ∀ r ∈ raw.tail, r.length = m.lv := fun r hr => hlens r (by simp [hr])
  have he : ∀ q, q < m.M → (raw.getD q []).getD k 0 = m.flatWeight.getD ((j * m.M + q) * m.lv + k) 0 := by
    intro q hq
    obtain ⟨row, hrow⟩ := getElem?_of_lt raw q (by omega)
    have e1 := viewRows_row_entry _ _ _ m.length_rawRows j raw hraw q hq
    rw [hrow] at e1
    rw [List.getD_eq_getElem?_getD (l := raw), hrow, Option.getD_some]
    exact viewRows_getD _ _ _ (m.length_flatWeights hwf) (j * m.M + q) row e1 k hk
  have ht : ∀ q, raw.tail.getD q [] = raw.getD (q + 1) [] := fun q => by
    rw [List.getD_eq_getElem?_getD, List.getElem?_tail, List.getD_eq_getElem?_getD]
  unfold categorySlopeOf
  rw [hp, Option.map_some, Option.getD_some]
  cases r with
  | zero =>
    simp only [List.getD_cons_zero, if_true]
    have hs := sumRows_getD m.lv raw.tail htail k hk
    have h1 : ((sumRows m.lv raw.tail).map fun x => -x).getD k 0 = -(sumRows m.lv raw.tail).getD k 0 := by
      rw [List.getD_eq_getElem?_getD, List.getElem?_map, List.getD_eq_getElem?_getD]
      cases (sumRows m.lv raw.tail)[k]? <;> simp
    rw [h1, hs, sum_getD_range, List.length_map, List.length_tail, hl]
    congr 1
    refine sum_congr rfl fun s hs => ?_
    have hs' := mem_range.1 hs
    rw [← he (s + 1) (by omega), ← ht, List.getD_eq_getElem?_getD, List.getElem?_map]
    obtain ⟨row, hrow⟩ := getElem?_of_lt raw.tail s (by rw [List.length_tail]; omega)
    rw [List.getD_eq_getElem?_getD (l := raw.tail), hrow]
    rfl
  | succ r =>
    simp only [List.getD_cons_succ, Nat.add_eq_zero_iff, one_ne_zero, and_false, if_false]
    rw [ht, he _ hr]

/-- Entry of a list as a function of one of the entries. -/
theorem hasDerivAt_entry (l : List ℝ) (i i' : ℕ) (h : i < l.length) (x₀ : ℝ) :
    HasDerivAt (fun x => (l.set i x).getD i' 0) (if i' = i then 1 else 0) x₀ := by
  simp only [getD_set_real l i i' _ h]
  by_cases h : i' = i
  · simp only [if_pos h]
    exact hasDerivAt_id _
  · simp only [if_neg h]
    exact hasDerivAt_const _ _

/-- One of `M` values whose first is minus the sum of the others, as a function of the `k`th. -/
theorem hasDerivAt_constrained (M k r : ℕ) (hk0 : 0 < k) (hk : k < M) (hr : r < M) (own : Prop) [Decidable own] (f : ℝ → ℕ → ℝ) (x₀ : ℝ)
    (hf : ∀ s, s < M → HasDerivAt (fun x => f x s) (if own ∧ s = k then 1 else 0) x₀) :
    HasDerivAt (fun x => if r = 0 then -∑ s ∈ range (M - 1), f x (s + 1) else f x r)
      (if own then (if r = k then 1 else 0) - (if r = 0 then 1 else 0) else 0) x₀ := by
  by_cases h0 : r = 0
  · subst h0
    simp only [if_true]
    have h := (HasDerivAt.fun_sum fun s (hs : s ∈ range (M - 1)) => hf (s + 1) (by have := mem_range.1 hs; omega)).neg
    refine h.congr_deriv ?_
    by_cases ho : own
    · simp only [ho, true_and, if_true]
      rw [if_neg (by omega), sum_eq_single_of_mem (k - 1) (mem_range.2 (by omega)) fun s _ hs => if_neg (by omega), if_pos (by omega)]
      ring
    · simp [ho]
  · simp only [if_neg h0, sub_zero]
    refine (hf r hr).congr_deriv ?_
    by_cases ho : own <;> simp [ho]

/-- Partial derivative of the MML loss by an intercept of the nominal response model. -/
theorem NRM.intercept_partial (m : NRM) (hwf : m.WF) (hcats : m.cats ≠ []) (pts : Thetas m.lv) (lw : List ℝ)
    (hlen : lw.length = pts.length) (hne : pts ≠ []) (N : ℕ) (y : ℕ → ℕ → Cell) (hy : ∀ i, i < N → ValidResponses m.cats (y i))
    (j c k : ℕ) (hc : m.cats[j]? = some c) (hk0 : 0 < k) (hk : k < c) :
    ∃ n, n = countTrue ((freeMask m.M m.cats).take (j * m.M + k)) ∧ n < m.bias.length ∧
      partialAt (fun b => mmlLoss (({ m with bias := b } : NRM).scorer m.lv) (rowsOf N m.cats.length y) pts lw) m.bias n
        = (expectedBy (fun θ => tableProb (m.probs (List.ofFn θ))) m.cats.length pts (lw.map Real.exp) N y j k - chosenBy N y j k)
          - (expectedBy (fun θ => tableProb (m.probs (List.ofFn θ))) m.cats.length pts (lw.map Real.exp) N y j 0 - chosenBy N y j 0) := by
  have hj := lt_of_getElem?_some hc
  have hmem := List.mem_of_getElem? hc
  have hcM : c ≤ m.M := le_maxCats _ _ hmem
  have htrue : (freeMask m.M m.cats)[j * m.M + k]? = some true := by
    rw [freeMask_getElem? m.M m.cats j k c hc (by omega)]
    simp [hk]
    omega
  have hn : countTrue ((freeMask m.M m.cats).take (j * m.M + k)) < m.bias.length := by
    rw [hwf.biasLen, ← count_freeMask m.M m.cats hwf.catsPos fun c hc => le_maxCats _ _ hc]
    exact countTrue_take_lt _ _ htrue
  refine ⟨_, rfl, hn, ?_⟩
  set n := countTrue ((freeMask m.M m.cats).take (j * m.M + k)) with hndef
  have hpos : PositiveProbs (fun θ : Fin m.lv → ℝ => tableProb (m.probs (List.ofFn θ))) m.cats :=
    fun θ j c r hc hr => (m.logitModel m.lv).pos θ j c r hc hr
  rw [← sum_answer_indicator hpos pts lw hlen hne N y hy j c k hc hk, ← sum_answer_indicator hpos pts lw hlen hne N y hy j c 0 hc (by omega),
    ← sum_sub_distrib]
  have hwf' : ∀ x, ({ m with bias := m.bias.set n x } : NRM).WF := fun x => m.wf_bias hwf _ (by simp)
  rw [partialAt_mml (cats := m.cats) (fun b => ({ m with bias := b } : NRM).scorer m.lv)
    (fun b θ => tableProb (({ m with bias := b } : NRM).probs (List.ofFn θ))) m.bias n
    (fun x j r q => categorySlopeOf ({ m with bias := m.bias.set n x } : NRM).itemParameters j r q)
    (fun x j r => ((({ m with bias := m.bias.set n x } : NRM).itemParameters[j]?).map fun p => p.2.getD r 0).getD 0)
    (fun x => NRM.isScorer { m with bias := m.bias.set n x } (hwf' x) hcats m.lv)
    (fun x => NRM.logitModel { m with bias := m.bias.set n x } m.lv) j c hc
    (fun _ r => (if r = k then 1 else 0) - (if r = 0 then 1 else 0)) ?_ pts lw hlen hne N y hy]
  · refine sum_congr rfl fun i _ => ?_
    rw [← posteriorMean_sub]
    congr 1
    funext θ
    simp only [mul_sub, sum_sub_distrib]
    ring
  intro θ j' c' r hc' hr
  have hj' := lt_of_getElem?_some hc'
  have hcM' : c' ≤ m.M := le_maxCats _ _ (List.mem_of_getElem? hc')
  have hs : ∀ x, ∑ q : Fin m.lv, categorySlopeOf (({ m with bias := m.bias.set n x } : NRM).itemParameters) j' r q * θ q
      = ∑ q : Fin m.lv, categorySlopeOf m.itemParameters j' r q * θ q := fun x => sum_congr rfl fun q _ => by
    rw [NRM.slope_entry { m with bias := m.bias.set n x } (hwf' x) j' r q hj' (by show r < m.M; omega) q.isLt,
      NRM.slope_entry m hwf j' r q hj' (by omega) q.isLt]
    rfl
  have hb : ∀ x, ((({ m with bias := m.bias.set n x } : NRM).itemParameters[j']?).map fun p => p.2.getD r 0).getD 0
      = if r = 0 then -∑ s ∈ range (m.M - 1), (m.flatBias.set (j * m.M + k) x).getD (j' * m.M + (s + 1)) 0
        else (m.flatBias.set (j * m.M + k) x).getD (j' * m.M + r) 0 := by
    intro x
    rw [NRM.intercept_entry { m with bias := m.bias.set n x } j' r hj' (by show r < m.M; omega)]
    have : ({ m with bias := m.bias.set n x } : NRM).flatBias = m.flatBias.set (j * m.M + k) x := scatterMask_set _ _ _ htrue hn x
    rw [this]
    rfl
  simp only [hs, hb]
  refine (hasDerivAt_constrained m.M k r hk0 (by omega) (by omega) (j' = j)
    (fun x s => (m.flatBias.set (j * m.M + k) x).getD (j' * m.M + s) 0) _ fun s hs => ?_).const_add _
  have := hasDerivAt_entry m.flatBias (j * m.M + k) (j' * m.M + s) (by
    rw [NRM.flatBias, m.length_flatBias]
    exact index_lt hj (by omega)) (m.bias.getD n 0)
  simpa only [cell_eq (show k < m.M by omega) hs] using this

/-- Partial derivative of the MML loss by a slope of the nominal response model. -/
theorem NRM.slope_partial (m : NRM) (hwf : m.WF) (hcats : m.cats ≠ []) (pts : Thetas m.lv) (lw : List ℝ)
    (hlen : lw.length = pts.length) (hne : pts ≠ []) (N : ℕ) (y : ℕ → ℕ → Cell) (hy : ∀ i, i < N → ValidResponses m.cats (y i))
    (j c k : ℕ) (q : Fin m.lv) (hc : m.cats[j]? = some c) (hk0 : 0 < k) (hk : k < c) (row : List Bool) (hrow : m.rel[j]? = some row)
    (hrel : row[(q : ℕ)]? = some true) :
    ∃ n, n = countTrue (m.freeWeights.flatten.take ((j * m.M + k) * m.lv + q)) ∧ n < m.weight.length ∧
      partialAt (fun w => mmlLoss (({ m with weight := w } : NRM).scorer m.lv) (rowsOf N m.cats.length y) pts lw) m.weight n
        = ∑ i ∈ answeredBy N y j, posteriorMean pts (lw.map Real.exp)
            (observedLikelihood (fun θ => tableProb (m.probs (List.ofFn θ))) m.cats.length (y i))
            (fun θ => θ q * (tableProb (m.probs (List.ofFn θ)) j k - tableProb (m.probs (List.ofFn θ)) j 0))
          - ∑ i ∈ answeredBy N y j, ((if responseOf (y i j) = k then (1 : ℝ) else 0) - if responseOf (y i j) = 0 then 1 else 0) *
            posteriorMean pts (lw.map Real.exp)
              (observedLikelihood (fun θ => tableProb (m.probs (List.ofFn θ))) m.cats.length (y i)) fun θ => θ q := by
  have hj := lt_of_getElem?_some hc
  have hmem := List.mem_of_getElem? hc
  have hcM : c ≤ m.M := le_maxCats _ _ hmem
  have htrue : m.freeWeights.flatten[(j * m.M + k) * m.lv + q]? = some true := by
    rw [flatten_getElem? m.lv _ (m.freeWeights_len hwf).2 _ q q.isLt, m.freeWeights_getElem? hwf j k c row hc hrow (by omega),
      Option.bind_some, if_pos (by simp [hk]; omega), hrel]
  have hn : countTrue (m.freeWeights.flatten.take ((j * m.M + k) * m.lv + q)) < m.weight.length := by
    rw [hwf.weightLen]
    exact countTrue_take_lt _ _ htrue
  refine ⟨_, rfl, hn, ?_⟩
  set n := countTrue (m.freeWeights.flatten.take ((j * m.M + k) * m.lv + q)) with hndef
  have hwf' : ∀ x, ({ m with weight := m.weight.set n x } : NRM).WF := fun x => m.wf_weight hwf _ (by simp)
  rw [partialAt_mml (cats := m.cats) (fun w => ({ m with weight := w } : NRM).scorer m.lv)
    (fun w θ => tableProb (({ m with weight := w } : NRM).probs (List.ofFn θ))) m.weight n
    (fun x j r q => categorySlopeOf ({ m with weight := m.weight.set n x } : NRM).itemParameters j r q)
    (fun x j r => ((({ m with weight := m.weight.set n x } : NRM).itemParameters[j]?).map fun p => p.2.getD r 0).getD 0)
    (fun x => NRM.isScorer { m with weight := m.weight.set n x } (hwf' x) hcats m.lv)
    (fun x => NRM.logitModel { m with weight := m.weight.set n x } m.lv) j c hc
    (fun θ r => ((if r = k then 1 else 0) - (if r = 0 then 1 else 0)) * θ q) ?_ pts lw hlen hne N y hy, ← sum_sub_distrib]
  · refine sum_congr rfl fun i _ => ?_
    rw [posteriorMean_sub, posteriorMean_smul]
    congr 2
    funext θ
    simp only [sub_mul, mul_sub, sum_sub_distrib, ite_mul, one_mul, zero_mul, mul_ite, mul_zero, sum_ite_eq', mem_range, hk, if_true,
      show 0 < c by omega]
    ring
  intro θ j' c' r hc' hr
  have hj' := lt_of_getElem?_some hc'
  have hcM' : c' ≤ m.M := le_maxCats _ _ (List.mem_of_getElem? hc')
  have hb : ∀ x, ((({ m with weight := m.weight.set n x } : NRM).itemParameters[j']?).map fun p => p.2.getD r 0).getD 0
      = ((m.itemParameters[j']?).map fun p => p.2.getD r 0).getD 0 := by
    intro x
    rw [NRM.intercept_entry { m with weight := m.weight.set n x } j' r hj' (by show r < m.M; omega),
      NRM.intercept_entry m j' r hj' (by omega)]
    rfl
  have hs : ∀ (x : ℝ) (q' : Fin m.lv), categorySlopeOf (({ m with weight := m.weight.set n x } : NRM).itemParameters) j' r q'
      = if r = 0 then -∑ s ∈ range (m.M - 1), (m.flatWeight.set ((j * m.M + k) * m.lv + q) x).getD ((j' * m.M + (s + 1)) * m.lv + q') 0
        else (m.flatWeight.set ((j * m.M + k) * m.lv + q) x).getD ((j' * m.M + r) * m.lv + q') 0 := by
    intro x q'
    rw [NRM.slope_entry { m with weight := m.weight.set n x } (hwf' x) j' r q' hj' (by show r < m.M; omega) q'.isLt]
    have : ({ m with weight := m.weight.set n x } : NRM).flatWeight = m.flatWeight.set ((j * m.M + k) * m.lv + q) x :=
      scatterMask_set _ _ _ htrue hn x
    rw [this]
    rfl
  have hd : ∀ q' ∈ (univ : Finset (Fin m.lv)),
      HasDerivAt (fun x => categorySlopeOf (({ m with weight := m.weight.set n x } : NRM).itemParameters) j' r q' * θ q')
        ((if q' = q then (if j' = j then (if r = k then 1 else 0) - (if r = 0 then 1 else 0) else 0) * θ q else 0)) (m.weight.getD n 0) := by
    intro q' _
    simp only [hs]
    have h1 := (hasDerivAt_constrained m.M k r hk0 (by omega) (by omega) (q' = q ∧ j' = j)
      (fun x s => (m.flatWeight.set ((j * m.M + k) * m.lv + q) x).getD ((j' * m.M + s) * m.lv + q') 0) (m.weight.getD n 0) fun s hs => by
        have h2 := hasDerivAt_entry m.flatWeight ((j * m.M + k) * m.lv + q) ((j' * m.M + s) * m.lv + q') (by
          rw [NRM.flatWeight, m.length_flatWeights hwf]
          exact index_lt (index_lt hj (by omega)) q.isLt) (m.weight.getD n 0)
        refine h2.congr_deriv ?_
        simp only [cell_eq q.isLt q'.isLt, cell_eq (show k < m.M by omega) hs, Fin.ext_iff]
        congr 1
        simp only [eq_iff_iff]
        tauto).mul_const (θ q')
    refine h1.congr_deriv ?_
    by_cases hq : q' = q
    · subst hq
      simp
    · simp [hq]
  have h3 := (HasDerivAt.fun_sum hd).add_const (((m.itemParameters[j']?).map fun p => p.2.getD r 0).getD 0)
  rw [sum_ite_eq' univ q, if_pos (mem_univ q)] at h3
  simp only [hb]
  refine h3.congr_deriv ?_
  by_cases h : j' = j <;> simp [h]

end Irt
