import Verif.Lemmas.Frequencies
import Verif.Lemmas.GridSymmetry
import Verif.Props.EvaluationOrder
import Verif.Props.FitOrder
import Verif.Props.Reach
import Verif.Props.BitJacobian
import Verif.Props.Dependence

/-!
# C125: only the relative frequencies of the answer patterns count
-/

namespace Irt

open Spec

/-! ## Evaluations -/

theorem zip_lists {d : ℕ} (rs : List (Respondent d)) {β : Type} (f : (Fin d → ℝ) → β) :
    List.zip ((scoreList rs).map f) (answerList rs) = rs.map fun x => (f x.1, x.2) := by
  unfold scoreList answerList
  rw [List.map_map, List.zip_map']
  rfl

theorem residuals_eq {d : ℕ} (probs : (Fin d → ℝ) → List (List ℝ)) (M items : ℕ) (mc : Option (List ℤ)) (over : String)
    (rs : List (Respondent d)) : residuals M items mc over ((scoreList rs).map probs) (answerList rs)
      = rs.mapM (fun x => residualRow M mc (probs x.1) x.2) >>= fun rows =>
        if over = "items" then .ok (reduceDim nanMean items (some 1) rows)
        else if over = "respondents" then .ok (reduceDim nanMean items (some 0) rows)
        else if over = "everything" then .ok (reduceDim nanMean items none rows)
        else .ok (.matrix rows) := by
  unfold residuals
  rw [zip_lists, List.mapM_map]
  rfl

/-- C125, residuals per item and over everything. -/
theorem C125_residuals {d : ℕ} (probs : (Fin d → ℝ) → List (List ℝ)) (M items : ℕ) (mc : Option (List ℤ)) (rs rs' : List (Respondent d))
    (h : SameFrequencies rs rs') (over : String) (hover : over = "respondents" ∨ over = "everything") :
    Unchanged (residuals M items mc over ((scoreList rs).map probs) (answerList rs))
      (residuals M items mc over ((scoreList rs').map probs) (answerList rs')) := by
  rw [residuals_eq, residuals_eq]
  refine unchanged_alike _ _ (fun v v' hv => ?_) (alike_of_frequencies h)
  rcases hover with rfl | rfl
  · rw [if_neg (by decide), if_pos rfl, if_neg (by decide), if_pos rfl, reduceDim_alike items (Or.inr rfl) hv]
  · rw [if_neg (by decide), if_neg (by decide), if_pos rfl, if_neg (by decide), if_neg (by decide), if_pos rfl,
      reduceDim_alike items (Or.inl rfl) hv]

/-- C125, accuracy per item and of the test. -/
theorem C125_accuracy {d : ℕ} (argmax : List ℝ → ℕ) (probs : (Fin d → ℝ) → List (List ℝ)) (items : ℕ) (rs rs' : List (Respondent d))
    (h : SameFrequencies rs rs') (level : String) (hlevel : level = "item" ∨ level = "all") :
    accuracy argmax items level ((scoreList rs).map probs) (answerList rs)
      = accuracy argmax items level ((scoreList rs').map probs) (answerList rs') := by
  have e : ∀ q : List (Respondent d), accuracy argmax items level ((scoreList q).map probs) (answerList q)
      = reduceDim nanMean items (levelDim level) (q.map fun x => List.zipWith (fun p c => accuracyCell (argmax p) c) (probs x.1) x.2) := by
    intro q
    unfold accuracy
    congr 1
    unfold scoreList answerList
    rw [List.map_map, List.zipWith_map, List.zipWith_self]
    rfl
  rw [e, e]
  have ha := (alike_of_frequencies h).map fun x : Respondent d => List.zipWith (fun p c => accuracyCell (argmax p) c) (probs x.1) x.2
  rcases hlevel with rfl | rfl
  · exact reduceDim_alike (dim := levelDim "item") items (Or.inr rfl) ha
  · exact reduceDim_alike (dim := levelDim "all") items (Or.inl rfl) ha

/-- C125, precision, recall and F1 of the predictions. -/
theorem C125_predictions {d : ℕ} (argmax : List ℝ → ℕ) (probs : (Fin d → ℝ) → List (List ℝ)) (cats : List ℕ) (rs rs' : List (Respondent d))
    (h : SameFrequencies rs rs') :
    predictions argmax cats ((scoreList rs).map probs) (answerList rs) = predictions argmax cats ((scoreList rs').map probs) (answerList rs') := by
  unfold predictions
  congr 1
  funext j c
  refine itemMetrics_alike c ?_
  have e : ∀ q : List (Respondent d), observedPairs (((scoreList q).map probs).map fun t => argmax (t.getD j [])) ((answerList q).map fun r => r.getD j none)
      = (q.map fun x => (argmax ((probs x.1).getD j []), x.2.getD j none)).filterMap
        fun pc => if cellMissing pc.2 then none else pc.2.map fun y => (pc.1, y) := by
    intro q
    unfold observedPairs scoreList answerList
    rw [List.map_map, List.map_map, List.map_map, List.zip_map']
    rfl
  rw [e, e]
  exact ((alike_of_frequencies h).map _).filterMap _

/-- C125, infit and outfit of the items. -/
theorem C125_infit_outfit {d : ℕ} (probs : (Fin d → ℝ) → List (List ℝ)) (M items : ℕ) (mc : Option (List ℤ)) (rs rs' : List (Respondent d))
    (h : SameFrequencies rs rs') :
    Unchanged (infitOutfit M items mc "item" ((scoreList rs).map probs) (answerList rs))
      (infitOutfit M items mc "item" ((scoreList rs').map probs) (answerList rs')) := by
  have e : ∀ q : List (Respondent d), infitOutfit M items mc "item" ((scoreList q).map probs) (answerList q)
      = q.mapM (fun x => fitRow M mc (probs x.1) x.2) >>= fun rows =>
        .ok (((List.range items).map fun j => rows.map fun r => r.getD j none).map infitOf,
            ((List.range items).map fun j => rows.map fun r => r.getD j none).map outfitOf) := by
    intro q
    unfold infitOutfit
    rw [if_neg (not_not.2 (by simp)), zip_lists, List.mapM_map]
    rfl
  rw [e, e]
  refine unchanged_alike _ _ (fun v v' hv => ?_) (alike_of_frequencies h)
  rw [List.map_map, List.map_map, List.map_map, List.map_map]
  congr 2
  · exact List.map_congr_left fun j _ => infitOf_alike (hv.map _)
  · exact List.map_congr_left fun j _ => outfitOf_alike (hv.map _)

/-- C125, mean log likelihood per item and of the test. -/
theorem C125_log_likelihood {d : ℕ} {m : Scorer d} {cats : List ℕ} {P : (Fin d → ℝ) → ℕ → ℕ → ℝ} (hm : IsScorer m cats P)
    (rs rs' : List (Respondent d)) (h : SameFrequencies rs rs') (hlen : ∀ x ∈ rs, x.2.length = m.items)
    (hvalid : ∀ x ∈ rs, ValidResponses cats fun j => x.2.getD j none) (level : String) (hlevel : level = "item" ∨ level = "all") :
    ∃ v, evaluatorLogLikelihood m "mean" level (scoreList rs) (answerList rs) = .ok v ∧
      evaluatorLogLikelihood m "mean" level (scoreList rs') (answerList rs') = .ok v := by
  have hal := alike_of_frequencies h
  let cells : Respondent d → List Num := fun x => (List.range m.items).map fun j =>
    cellLogLik P (fun _ => x.1) (fun _ j => x.2.getD j none) 0 j
  have hrun : ∀ q : List (Respondent d), (∀ x ∈ q, x.2.length = m.items) → (∀ x ∈ q, ValidResponses cats fun j => x.2.getD j none) →
      evaluatorLogLikelihood m "mean" level (scoreList q) (answerList q) = .ok (reduceDim nanMean m.items (levelDim level) (q.map cells)) := by
    intro q hq hv
    let r : Fin q.length → Respondent d := fun i => q[i]
    have hr : List.ofFn r = q := List.ofFn_getElem
    have hs : scoresOf r = scoreList q := by
      unfold scoreList
      conv_rhs => rw [← hr, map_ofFn']
      rfl
    have ha : answerRows r = answerList q := by
      unfold answerList
      conv_rhs => rw [← hr, map_ofFn']
      rfl
    obtain ⟨t, Y, ht, hY, hs', ha'⟩ := respondents_range r fun i => hq _ (List.getElem_mem _)
    obtain ⟨ll, h1, h2⟩ := cells_eq hm q.length t Y (fun i hi => by
      have := hv (r ⟨i, hi⟩) (List.getElem_mem _)
      have e : Y i = fun j => (r ⟨i, hi⟩).2.getD j none := funext fun j => hY ⟨i, hi⟩ j
      rw [e]
      exact this)
    rw [← hs, ← ha, hs', ha']
    unfold evaluatorLogLikelihood
    dsimp only
    rw [show dataOf q.length m.items Y = rowsOf q.length m.items Y from rfl, h1, bind_ok, if_pos (List.infix_refl _), h2]
    have e : rowsOf q.length m.items (cellLogLik P t Y) = q.map cells := by
      apply List.ext_getElem
      · simp [rowsOf]
      · intro i h3 h4
        have hi : i < q.length := by simpa [rowsOf] using h3
        simp only [rowsOf, List.getElem_map, List.getElem_range, cells]
        refine List.map_congr_left fun j _ => ?_
        have e1 := ht ⟨i, hi⟩
        have e2 := hY ⟨i, hi⟩ j
        simp only [r] at e1 e2
        simp only [cellLogLik, e1, e2]
        rfl
    rw [e]
    rfl
  refine ⟨_, hrun rs hlen hvalid, ?_⟩
  rw [hrun rs' (fun x hx => hlen x ((hal.mem x).2 hx)) fun x hx => hvalid x ((hal.mem x).2 hx)]
  rcases hlevel with rfl | rfl
  · rw [reduceDim_alike (dim := levelDim "item") _ (Or.inr rfl) (hal.map cells)]
  · rw [reduceDim_alike (dim := levelDim "all") _ (Or.inl rfl) (hal.map cells)]

/-- C125, Q3: the entries of two items for which both data sets have at least two respondents with both residuals. Missing: a single such
respondent (`C125_q3_false`). -/
theorem C125_q3_partial {d : ℕ} (probs : (Fin d → ℝ) → List (List ℝ)) (M p : ℕ) (mc : Option (List ℤ)) (rs rs' : List (Respondent d))
    (h : SameFrequencies rs rs') (R R' : List (List Num))
    (hR : residuals M p mc "none" ((scoreList rs).map probs) (answerList rs) = .ok (.matrix R))
    (hR' : residuals M p mc "none" ((scoreList rs').map probs) (answerList rs') = .ok (.matrix R')) :
    ∃ Q Q', q3 rs.length p M mc ((scoreList rs).map probs) (answerList rs) = .ok Q ∧
      q3 rs'.length p M mc ((scoreList rs').map probs) (answerList rs') = .ok Q' ∧
      ∀ i j : Fin p, 1 < (jointRows R i j).length → 1 < (jointRows R' i j).length → Q i j = Q' i j := by
  have key : ∀ (q : List (Respondent d)) (S : List (List Num)), residuals M p mc "none" ((scoreList q).map probs) (answerList q) = .ok (.matrix S) →
      q.mapM (fun x => residualRow M mc (probs x.1) x.2) = .ok S := by
    intro q S hS
    rw [residuals_eq] at hS
    obtain ⟨rows, h1, h2⟩ := bind_eq_ok hS
    rw [if_neg (by decide), if_neg (by decide), if_neg (by decide)] at h2
    rw [h1, Reduced.matrix.inj (Except.ok.inj h2)]
  have hS := key rs R hR
  have hS' := key rs' R' hR'
  have hl := ((mapM_ok_iff _ _ _).1 hS).1
  have hl' := ((mapM_ok_iff _ _ _).1 hS').1
  have hal : Alike R R' := by
    obtain ⟨v', h1, h2⟩ := mapM_alike _ (alike_of_frequencies h) hS
    rw [hS'] at h1
    rw [Except.ok.inj h1]
    exact h2
  have hq3 : ∀ (q : List (Respondent d)) (S : List (List Num)), S.length = q.length →
      residuals M p mc "none" ((scoreList q).map probs) (answerList q) = .ok (.matrix S) →
      q3 q.length p M mc ((scoreList q).map probs) (answerList q)
        = .ok fun i j => if i = j then none else correlationMatrix (numMatrix (n := S.length) (p := p) S) i j := by
    intro q S hSl hS
    unfold q3
    rw [hS, bind_ok, hSl]
    rfl
  refine ⟨_, _, hq3 rs R hl hR, hq3 rs' R' hl' hR', fun i j h1 h2 => ?_⟩
  by_cases hij : i = j
  · rw [if_pos hij, if_pos hij]
  · rw [if_neg hij, if_neg hij]
    exact correlationMatrix_alike hal i j hij h1 h2

/-- C125, mutual information difference: if for any two items both data sets have at least two respondents who answered both. -/
theorem C125_mutual_information_partial {d p : ℕ} (base : ℝ) (M : ℕ) (probs : (Fin d → ℝ) → List (List ℝ)) (rs rs' : List (Respondent d))
    (h : SameFrequencies rs rs') (h1 : ∀ i j : Fin p, 1 < (jointAnswers rs i j).length) (h1' : ∀ i j : Fin p, 1 < (jointAnswers rs' i j).length) :
    mutualInformationDifference base M (fun (r : Fin (answerList rs).length) (j : Fin p) => ((answerList rs).getD r []).getD j none) ((scoreList rs).map probs)
      = mutualInformationDifference base M (fun (r : Fin (answerList rs').length) (j : Fin p) => ((answerList rs').getD r []).getD j none)
        ((scoreList rs').map probs) := by
  have hal := alike_of_frequencies h
  have hj : ∀ (q : List (Respondent d)) (i j : Fin p), 1 < (jointAnswers q i j).length →
      1 < ((answerList q).filterMap fun r => (r.getD i none).bind fun u => (r.getD j none).map fun v => (u, v)).length := by
    intro q i j hq
    have e : ((answerList q).filterMap fun r => (r.getD i none).bind fun u => (r.getD j none).map fun v => (u, v)).length = (jointAnswers q i j).length := by
      unfold answerList jointAnswers
      clear hq
      induction q with
      | nil => rfl
      | cons x q ih =>
        rw [List.map_cons, List.filterMap_cons, List.filter_cons]
        cases hx : x.2.getD i none with
        | none => simpa using ih
        | some u =>
          cases hy : x.2.getD j none with
          | none => simpa using ih
          | some v => simpa using ih
    rw [e]
    exact hq
  unfold mutualInformationDifference dataMutualInformation
  have ha : Alike (answerList rs) (answerList rs') := hal.map Prod.snd
  have ht : Alike ((scoreList rs).map probs) ((scoreList rs').map probs) := (hal.map Prod.fst).map probs
  rw [jointEntropyMatrix_alike base ha (fun i j => hj rs i j (h1 i j)) fun i j => hj rs' i j (h1' i j),
    expectedMutualInformation_alike base M ht]

/-! ## Marginal maximum likelihood -/

theorem rowsOf_list (K : ℕ) (data : List (List Cell)) (hlen : ∀ r ∈ data, r.length = K) :
    data = rowsOf data.length K fun i j => (data.getD i []).getD j none := by
  apply List.ext_getElem
  · simp [rowsOf]
  · intro i h1 h2
    have hl := hlen _ (List.getElem_mem h1)
    simp only [rowsOf, List.getElem_map, List.getElem_range]
    apply List.ext_getElem
    · simp [hl]
    · intro j h3 h4
      simp [h1, h3]

theorem mmlLoss_list {d : ℕ} {m : Scorer d} {cats : List ℕ} {P : (Fin d → ℝ) → ℕ → ℕ → ℝ} (hm : IsScorer m cats P)
    (hpos : PositiveProbs P cats) (data : List (List Cell)) (hlen : ∀ r ∈ data, r.length = cats.length)
    (hvalid : ∀ r ∈ data, ValidResponses cats fun j => r.getD j none) (pts : Thetas d) (lw : List ℝ) (hl : lw.length = pts.length) (hne : pts ≠ []) :
    mmlLoss m data pts lw = .ok (some (-(data.map fun r => Real.log (weighted pts (lw.map Real.exp)
      (observedLikelihood P cats.length fun j => r.getD j none))).sum)) := by
  conv_lhs => rw [rowsOf_list cats.length data hlen]
  rw [mmlLoss_weighted hm hpos data.length _ (fun i hi => ?_) pts lw hl hne]
  · congr 3
    rw [Finset.sum_range]
    exact sum_rows data [] fun r => Real.log (weighted pts (lw.map Real.exp) (observedLikelihood P cats.length fun j => r.getD j none))
  · have := hvalid _ (List.getElem_mem hi)
    simpa [hi] using this

/-- C125: the loss that MML minimises is proportional to the number of respondents. -/
theorem C125_mml {d : ℕ} {m : Scorer d} {cats : List ℕ} {P : (Fin d → ℝ) → ℕ → ℕ → ℝ} (hm : IsScorer m cats P)
    (hpos : PositiveProbs P cats) (data data' : List (List Cell)) (h : SameFrequencies data data') (hlen : ∀ r ∈ data, r.length = cats.length)
    (hvalid : ∀ r ∈ data, ValidResponses cats fun j => r.getD j none) (pts : Thetas d) (lw : List ℝ) (hl : lw.length = pts.length) (hne : pts ≠ []) :
    ∃ x x', mmlLoss m data pts lw = .ok (some x) ∧ mmlLoss m data' pts lw = .ok (some x') ∧ x' = (data'.length : ℝ) / data.length * x := by
  have hal := alike_of_frequencies h
  refine ⟨_, _, mmlLoss_list hm hpos data hlen hvalid pts lw hl hne, mmlLoss_list hm hpos data' (fun r hr => hlen r ((hal.mem r).2 hr))
    (fun r hr => hvalid r ((hal.mem r).2 hr)) pts lw hl hne, ?_⟩
  have hmean := mean_alike hal fun r => Real.log (weighted pts (lw.map Real.exp) (observedLikelihood P cats.length fun j => r.getD j none))
  have h1 : (data.length : ℝ) ≠ 0 := by simpa using h.1
  have h2 : (data'.length : ℝ) ≠ 0 := by simpa using h.2.1
  rw [div_eq_div_iff h1 h2] at hmean
  field_simp
  linarith

/-- C125: of two models, the same one is preferred. -/
theorem C125_mml_order {d : ℕ} {m₁ m₂ : Scorer d} {cats : List ℕ} {P₁ P₂ : (Fin d → ℝ) → ℕ → ℕ → ℝ} (hm₁ : IsScorer m₁ cats P₁)
    (hpos₁ : PositiveProbs P₁ cats) (hm₂ : IsScorer m₂ cats P₂) (hpos₂ : PositiveProbs P₂ cats) (data data' : List (List Cell))
    (h : SameFrequencies data data') (hlen : ∀ r ∈ data, r.length = cats.length)
    (hvalid : ∀ r ∈ data, ValidResponses cats fun j => r.getD j none) (pts : Thetas d) (lw : List ℝ) (hl : lw.length = pts.length) (hne : pts ≠ []) :
    ∃ x₁ x₂ x₁' x₂', mmlLoss m₁ data pts lw = .ok (some x₁) ∧ mmlLoss m₂ data pts lw = .ok (some x₂) ∧
      mmlLoss m₁ data' pts lw = .ok (some x₁') ∧ mmlLoss m₂ data' pts lw = .ok (some x₂') ∧ (x₁' ≤ x₂' ↔ x₁ ≤ x₂) := by
  obtain ⟨x₁, x₁', h1, h1', e1⟩ := C125_mml hm₁ hpos₁ data data' h hlen hvalid pts lw hl hne
  obtain ⟨x₂, x₂', h2, h2', e2⟩ := C125_mml hm₂ hpos₂ data data' h hlen hvalid pts lw hl hne
  refine ⟨x₁, x₂, x₁', x₂', h1, h2, h1', h2', ?_⟩
  have ha : (0 : ℝ) < data.length := by exact_mod_cast List.length_pos_iff.2 h.1
  have hb : (0 : ℝ) < data'.length := by exact_mod_cast List.length_pos_iff.2 h.2.1
  rw [e1, e2, mul_le_mul_iff_right₀ (by positivity)]

/-- Fits with an optimiser that only looks at relative sizes of derivatives: the same parameters, for every model whose parameters
are given by two lists. -/
theorem fit_same {d : ℕ} {A : Type} (S : MmlSettings d A) {q : ℕ} (hrule : MmlRule S.hermgauss S.cholesky S.method S.points q)
    (hfree : ScaleFree S.rule S.start) (scorer : List ℝ → List ℝ → Scorer d) (cats : List ℕ)
    (P : List ℝ → List ℝ → (Fin d → ℝ) → ℕ → ℕ → ℝ) (weight rest : List ℝ)
    (hsc : ∀ w r : List ℝ, w.length = weight.length → r.length = rest.length → IsScorer (scorer w r) cats (P w r))
    (hpos : ∀ w r : List ℝ, w.length = weight.length → r.length = rest.length → PositiveProbs (P w r) cats)
    (data data' : List (List Cell)) (h : SameFrequencies data data') (hlen : ∀ r ∈ data, r.length = cats.length)
    (hvalid : ∀ r ∈ data, ValidResponses cats fun j => r.getD j none) :
    ∃ w r, S.fit scorer data weight rest = .ok (w, r) ∧ S.fit scorer data' weight rest = .ok (w, r) := by
  obtain ⟨pts, lw, hok, hne, hl, _, _⟩ := mmlIntegration_symmetric hrule
  unfold MmlSettings.fit
  rw [hok]
  simp only [bind_ok]
  have ha : (0 : ℝ) < data.length := by exact_mod_cast List.length_pos_iff.2 h.1
  have hb : (0 : ℝ) < data'.length := by exact_mod_cast List.length_pos_iff.2 h.2.1
  refine gradientFit_scaled _ _ S.rule S.start hfree S.config S.lr _ _ S.maxEpochs (k := (data'.length : ℝ) / data.length) (by positivity) weight rest ?_
  intro w r hw hr
  obtain ⟨x, x', h1, h2, e⟩ := C125_mml (hsc w r hw hr) (hpos w r hw hr) data data' h hlen hvalid pts lw hl hne
  exact ⟨x, h1, by rw [h2, e]⟩

/-- C125, two parameter logistic model: with such an optimiser the fitted model is the same. Missing: the optimiser of the library
(`C125_fit_false`). -/
theorem C125_twoPL_partial {d : ℕ} {A : Type} (S : MmlSettings d A) {q : ℕ} (hrule : MmlRule S.hermgauss S.cholesky S.method S.points q)
    (hfree : ScaleFree S.rule S.start) (items : ℕ) (hitems : 0 < items) (data data' : List (List Cell)) (h : SameFrequencies data data')
    (hlen : ∀ r ∈ data, r.length = items) (hvalid : ∀ r ∈ data, ValidResponses (List.replicate items 2) fun j => r.getD j none) :
    ∃ m, TwoPL.fitMml S items data = .ok m ∧ TwoPL.fitMml S items data' = .ok m := by
  have hwf : ∀ w b : List ℝ, w.length = (List.replicate (items * d) (1 : ℝ)).length → b.length = (List.replicate items (0 : ℝ)).length →
      (TwoPL.free items d w b).WF := fun w b hw hb => TwoPL.free_wf items d w b (by simpa using hw) (by simpa using hb)
  obtain ⟨w, b, h1, h2⟩ := fit_same S hrule hfree (fun w b => (TwoPL.free items d w b).scorer d) (List.replicate items 2)
    (fun w b θ => tableProb ((TwoPL.free items d w b).probs (List.ofFn θ))) (List.replicate (items * d) 1) (List.replicate items 0)
    (fun w b hw hb => (TwoPL.free items d w b).isScorer (hwf w b hw hb) hitems d)
    (fun w b hw hb => (TwoPL.free items d w b).positive (hwf w b hw hb) d) data data' h (by simpa using hlen) hvalid
  exact ⟨_, TwoPL.fitMml_ok S items data w b h1, TwoPL.fitMml_ok S items data' w b h2⟩

/-- C125, three parameter logistic model. Missing: the optimiser of the library. -/
theorem C125_threePL_partial {d : ℕ} {A : Type} (S : MmlSettings d A) {q : ℕ} (hrule : MmlRule S.hermgauss S.cholesky S.method S.points q)
    (hfree : ScaleFree S.rule S.start) (items : ℕ) (hitems : 0 < items) (data data' : List (List Cell)) (h : SameFrequencies data data')
    (hlen : ∀ r ∈ data, r.length = items) (hvalid : ∀ r ∈ data, ValidResponses (List.replicate items 2) fun j => r.getD j none) :
    ∃ m, ThreePL.fitMml S items data = .ok m ∧ ThreePL.fitMml S items data' = .ok m := by
  have hwf : ∀ w r : List ℝ, w.length = (List.replicate (items * d) (1 : ℝ)).length →
      r.length = (List.replicate items (0 : ℝ) ++ List.replicate items (-1.1)).length →
      (ThreePL.free items d w (r.take items) (r.drop items)).WF := fun w r hw hr => by
    rw [List.length_append, List.length_replicate, List.length_replicate] at hr
    exact ThreePL.free_wf items d w _ _ (by simpa using hw) (by rw [List.length_take]; omega) (by rw [List.length_drop]; omega)
  obtain ⟨w, r, h1, h2⟩ := fit_same S hrule hfree (fun w r => (ThreePL.free items d w (r.take items) (r.drop items)).scorer d)
    (List.replicate items 2) (fun w r θ => tableProb ((ThreePL.free items d w (r.take items) (r.drop items)).probs (List.ofFn θ)))
    (List.replicate (items * d) 1) (List.replicate items 0 ++ List.replicate items (-1.1))
    (fun w r hw hr => ThreePL.isScorer _ (hwf w r hw hr) hitems d)
    (fun w r hw hr => ThreePL.positive _ (hwf w r hw hr) d) data data' h (by simpa using hlen) hvalid
  exact ⟨_, ThreePL.fitMml_ok S items data w r h1, ThreePL.fitMml_ok S items data' w r h2⟩

/-- C125, generalised partial credit model. Missing: the optimiser of the library. -/
theorem C125_gpc_partial {d : ℕ} {A : Type} (S : MmlSettings d A) {q : ℕ} (hrule : MmlRule S.hermgauss S.cholesky S.method S.points q)
    (hfree : ScaleFree S.rule S.start) (cats : List ℕ) (hne : cats ≠ []) (hpos : ∀ c ∈ cats, 0 < c) (data data' : List (List Cell))
    (h : SameFrequencies data data') (hlen : ∀ r ∈ data, r.length = cats.length)
    (hvalid : ∀ r ∈ data, ValidResponses cats fun j => r.getD j none) :
    ∃ m, GPC.fitMml S cats data = .ok m ∧ GPC.fitMml S cats data' = .ok m := by
  have hwf : ∀ w b : List ℝ, w.length = (List.replicate (cats.length * d) (1 : ℝ)).length →
      b.length = (List.replicate (cats.sum - cats.length) (0 : ℝ)).length → (GPC.free cats d w b).WF := fun w b hw hb =>
    GPC.free_wf cats hpos d w b (by simpa using hw) (by simpa using hb)
  obtain ⟨w, b, h1, h2⟩ := fit_same S hrule hfree (fun w b => (GPC.free cats d w b).scorer d) cats
    (fun w b θ => tableProb ((GPC.free cats d w b).probs (List.ofFn θ))) (List.replicate (cats.length * d) 1)
    (List.replicate (cats.sum - cats.length) 0)
    (fun w b hw hb => (GPC.free cats d w b).isScorer (hwf w b hw hb) hne d)
    (fun w b hw hb => (GPC.free cats d w b).positive (hwf w b hw hb) d) data data' h hlen hvalid
  exact ⟨_, GPC.fitMml_ok S cats data w b h1, GPC.fitMml_ok S cats data' w b h2⟩

/-! ## What depends on the number of respondents -/

/-- The claim for fits with the optimiser of the library. -/
def SameFitClaim : Prop := ∀ (d : ℕ) (S : MmlSettings d AdamState), (S.rule = fun _ => adamRule) → S.start = {} → 0 < S.lr →
  ∀ (items : ℕ) (data data' : List (List Cell)), 0 < items → SameFrequencies data data' → (∀ r ∈ data, r.length = items) →
    (∀ r ∈ data, ValidResponses (List.replicate items 2) fun j => r.getD j none) →
    TwoPL.fitMml S items data = TwoPL.fitMml S items data'

/-- One epoch at a single node. -/
noncomputable def exSingleEpoch : MmlSettings 2 AdamState := { exOneNodeFit with maxEpochs := 1 }

/-- Respondents who all solved the only item. -/
def exAllSolved (n : ℕ) : List (List Cell) := List.replicate n [some 1]

theorem exAllSolved_same (n k : ℕ) (hn : 0 < n) (hk : 0 < k) : SameFrequencies (exAllSolved n) (exAllSolved k) := by
  classical
  refine ⟨by simp [exAllSolved]; omega, by simp [exAllSolved]; omega, fun a => ?_⟩
  have e : ∀ m, (exAllSolved m).count a = m * [[some 1]].count a := by
    intro m
    unfold exAllSolved
    rw [List.count_replicate, List.count_singleton]
    split <;> simp
  have el : ∀ m, (exAllSolved m).length = m := fun m => by simp [exAllSolved]
  rw [el, el]
  have e1 := e n
  have e2 := e k
  generalize hc : ([[some 1]] : List (List Cell)).count a = c at e1 e2
  convert (by rw [e1, e2]; ring : k * (exAllSolved n).count a = n * (exAllSolved k).count a)

theorem mmlEpochs_single {S : Type} (T : Trainer S) (c : TrainConfig) (b : List ℕ) (lr : ℝ) (s : S) (x : ℝ) (hx : T.loss 0 b s = .ok (some x)) :
    ∃ u, mmlEpochs T c b 1 (LoopState.start lr s) = .ok u ∧ u.final = T.update 0 b lr s := by
  have hit : ∃ u, trainIteration T c b (LoopState.start lr s) = .ok u ∧ u.final = T.update 0 b lr s := by
    unfold trainIteration LoopState.start
    dsimp only [List.length_nil]
    rw [hx]
    exact ⟨_, rfl, rfl⟩
  obtain ⟨u, h1, h2⟩ := hit
  refine ⟨u, ?_, h2⟩
  unfold mmlEpochs
  rw [h1, bind_ok]
  by_cases hl : c.limit ≤ u.lrUpdates
  · rw [if_pos hl]; rfl
  · rw [if_neg hl]; rfl

theorem gradientFit_one {A : Type} (loss : List ℝ → List ℝ → Except PyErr Num) (rule : ℕ → EntryRule A) (a₀ : A) (c : TrainConfig) (lr : ℝ)
    (N : ℕ) (w : List ℝ) (b x : ℝ) (hx : loss w [b] = .ok (some x)) :
    ∃ w', gradientFit loss rule a₀ c lr N 1 w [b] = .ok (w', [(rule 0 lr a₀ b (partialAt (fun p => loss w p) [b] 0)).2]) := by
  have hw : (w.map fun v => (v, a₀)).map Prod.fst = w := by rw [List.map_map]; exact List.map_id w
  obtain ⟨u, h1, h2⟩ := mmlEpochs_single (gradientTrainer loss rule) c (List.range N) lr ⟨w.map fun v => (v, a₀), [b].map fun v => (v, a₀)⟩ x (by
    show loss ((w.map fun v => (v, a₀)).map Prod.fst) [b] = _
    rw [hw, hx])
  unfold gradientFit
  rw [h1]
  dsimp only
  refine ⟨u.final.weight.map Prod.fst, ?_⟩
  congr 2
  rw [h2]
  show [(rule 0 lr a₀ b (partialAt (fun p => loss ((w.map fun v => (v, a₀)).map Prod.fst) p) [b] 0)).2] = _
  rw [hw]

theorem exSolvedRow_valid : ValidResponses (List.replicate 1 2) fun j => ([some 1] : List Cell).getD j none := by
  intro j c hc _
  obtain ⟨hj, rfl⟩ := replicate_getElem? _ _ _ _ hc
  obtain rfl : j = 0 := by omega
  exact ⟨1, rfl, by norm_num⟩

/-- The loss of a data set in which everyone solved the only item, at a single node. -/
theorem exSingleEpoch_loss : ∃ pts lw, mmlIntegration exSingleEpoch.hermgauss exSingleEpoch.cholesky exSingleEpoch.method exSingleEpoch.points none = .ok (pts, lw) ∧
    ∀ (n : ℕ) (w : List ℝ) (b : ℝ), w.length = 2 → mmlLoss ((TwoPL.free 1 2 w [b]).scorer 2) (exAllSolved n) pts lw
      = .ok (some (n * -Real.log (sigmoid b))) := by
  obtain ⟨pts, lw, hok, hne, hl, _, _⟩ := mmlIntegration_symmetric exOneNodeFit_rule
  have htotal := mmlIntegration_total exOneNodeFit exOneNodeFit_unit pts lw hok
  have hpts : pts = [0] := by
    have h2 : mmlIntegration exOneNodeFit.hermgauss exOneNodeFit.cholesky exOneNodeFit.method exOneNodeFit.points none
        = .ok ((gridProduct [0] 2).map fun v => fun i => Real.sqrt 2 * v i,
          ((gridProduct [Real.sqrt Real.pi] 2).map fun v => (∏ i, v i) * Real.pi ^ (-(1 / 2 : ℝ) * (2 : ℕ))).map Real.log) := by
      unfold mmlIntegration
      rw [show mmlPoints 2 exOneNodeFit.points = .ok 1 from rfl]
      simp only [mmlCovariance, bind_ok, show exOneNodeFit.method = "gauss_hermite" from rfl, if_true]
      unfold gaussHermite
      rw [show exOneNodeFit.hermgauss 1 = .ok ([0], [Real.sqrt Real.pi]) from rfl, show exOneNodeFit.cholesky 1 = .ok 1 from rfl]
      simp only [bind_ok, List.map_map, Matrix.one_mulVec, Pi.zero_apply, add_zero, pure, Except.pure]
      rfl
    rw [h2] at hok
    have := (Prod.mk.inj (Except.ok.inj hok)).1
    rw [← this]
    simp only [gridProduct, List.flatMap_cons, List.flatMap_nil, List.map_cons, List.map_nil, List.append_nil, List.cons.injEq, and_true]
    funext i
    fin_cases i <;> simp
  refine ⟨pts, lw, hok, fun n w b hw => ?_⟩
  have hwf : (TwoPL.free 1 2 w [b]).WF := TwoPL.free_wf 1 2 w [b] hw rfl
  rw [mmlLoss_list ((TwoPL.free 1 2 w [b]).isScorer hwf Nat.one_pos 2) ((TwoPL.free 1 2 w [b]).positive hwf 2) _
    (fun r hr => by rw [List.eq_of_mem_replicate hr]; rfl) (fun r hr => by
      rw [List.eq_of_mem_replicate hr]
      exact exSolvedRow_valid) pts lw hl hne]
  subst hpts
  obtain ⟨c, rfl⟩ : ∃ c, lw = [c] := List.length_eq_one_iff.1 (by simpa using hl)
  have hc : Real.exp c = 1 := by simpa [weighted] using htotal
  have hprob : observedLikelihood (fun θ : Fin 2 → ℝ => tableProb ((TwoPL.free 1 2 w [b]).probs (List.ofFn θ))) (List.replicate (TwoPL.free 1 2 w [b]).items 2).length
      (fun j => ([some 1] : List Cell).getD j none) 0 = sigmoid b := by
    obtain ⟨x, y, rfl⟩ : ∃ x y, w = [x, y] := List.length_eq_two.1 hw
    have hp : (TwoPL.free 1 2 [x, y] [b]).itemParameters[0]? = some ([x, y], b) := by
      rw [TwoPL.itemParameters, TwoPL.free_weights _ _ _ _ rfl]
      rfl
    unfold observedLikelihood
    rw [show (List.replicate (TwoPL.free 1 2 [x, y] [b]).items 2).length = 1 from rfl, Finset.prod_range_one]
    rw [if_neg (by simp [cellMissing])]
    dsimp only
    rw [tableProb_row _ _ _ _ (C03_twoPL_formula _ hwf (List.ofFn (0 : Fin 2 → ℝ)) 0 _ _ hp)]
    simp [responseOf, dot, logistic_eq_sigmoid]
  unfold exAllSolved
  rw [List.map_replicate, List.sum_replicate, nsmul_eq_mul]
  unfold weighted
  simp only [List.map_cons, List.map_nil, List.zipWith_cons_cons, List.zipWith_nil_left, List.sum_cons, List.sum_nil, add_zero, hc, one_mul]
  rw [hprob]
  congr 2
  ring

/-- After one epoch the intercept depends on the number of respondents. -/
theorem exSingleEpoch_intercept (n : ℕ) : ∃ w, TwoPL.fitMml exSingleEpoch 1 (exAllSolved n)
    = .ok (TwoPL.free 1 2 w [0.05 * ((n / 2) / (n / 2 + 1e-8))]) := by
  obtain ⟨pts, lw, hok, hloss⟩ := exSingleEpoch_loss
  obtain ⟨w', h1⟩ := gradientFit_one (fun w b => mmlLoss ((TwoPL.free 1 2 w b).scorer 2) (exAllSolved n) pts lw) (fun _ => adamRule) {}
    exSingleEpoch.config 0.05 (exAllSolved n).length (List.replicate (1 * 2) 1) 0 _ (hloss n (List.replicate (1 * 2) 1) 0 rfl)
  have hg : partialAt (fun p => mmlLoss ((TwoPL.free 1 2 (List.replicate (1 * 2) 1) p).scorer 2) (exAllSolved n) pts lw) [0] 0 = -(n / 2) := by
    unfold partialAt
    have e : (fun x => lossValue (mmlLoss ((TwoPL.free 1 2 (List.replicate (1 * 2) 1) (([0] : List ℝ).set 0 x)).scorer 2) (exAllSolved n) pts lw))
        = fun x => n * -Real.log (sigmoid x) := by
      funext x
      rw [show ([0] : List ℝ).set 0 x = [x] from rfl, hloss n (List.replicate (1 * 2) 1) x rfl]
      rfl
    rw [e]
    show deriv (fun x => (n : ℝ) * -Real.log (sigmoid x)) 0 = _
    have h0 : sigmoid 0 = 1 / 2 := by norm_num [sigmoid]
    have hd := ((sigmoid_hasDerivAt 0).log (by rw [h0]; norm_num)).neg.const_mul (n : ℝ)
    refine hd.deriv.trans ?_
    rw [h0]
    norm_num
    ring
  refine ⟨w', TwoPL.fitMml_ok exSingleEpoch 1 _ w' _ ?_⟩
  unfold MmlSettings.fit
  rw [hok, bind_ok]
  refine h1.trans ?_
  rw [hg]
  have h2 : (adamRule 0.05 {} 0 (-((n : ℝ) / 2))).2 = 0 - 0.05 * (-((n : ℝ) / 2) / (|(-((n : ℝ) / 2))| + 1e-8)) := C124_first_step 0 0.05 (-(n / 2))
  rw [h2, abs_neg, abs_of_nonneg (by positivity : (0 : ℝ) ≤ n / 2)]
  congr 4
  rw [neg_div, mul_neg, zero_sub, neg_neg]

/-- C125 is false of fits with the optimiser of the library: one and two respondents with the same answers. -/
theorem C125_fit_false : ¬ SameFitClaim := by
  intro h
  have h1 := h 2 exSingleEpoch rfl rfl (by norm_num [exSingleEpoch, exOneNodeFit, exTwoTraitFit]) 1 (exAllSolved 1) (exAllSolved 2) one_pos
    (exAllSolved_same 1 2 one_pos two_pos) (fun r hr => by rw [List.eq_of_mem_replicate hr]; rfl)
    (fun r hr => by rw [List.eq_of_mem_replicate hr]; exact exSolvedRow_valid)
  obtain ⟨w, hw⟩ := exSingleEpoch_intercept 1
  obtain ⟨w', hw'⟩ := exSingleEpoch_intercept 2
  rw [hw, hw'] at h1
  have h2 := congrArg TwoPL.bias (Except.ok.inj h1)
  simp only [TwoPL.free, List.cons.injEq, and_true] at h2
  norm_num at h2

/-- Everyone twice. -/
theorem sameFrequencies_twice {α : Type} (l : List α) (h : l ≠ []) : SameFrequencies l (l ++ l) := by
  classical
  refine ⟨h, by simpa using h, fun a => ?_⟩
  rw [List.count_append, List.length_append]
  ring

/-- The claim for the correlations of the residuals. -/
def SameQ3Claim : Prop := ∀ (d : ℕ) (probs : (Fin d → ℝ) → List (List ℝ)) (M p : ℕ) (mc : Option (List ℤ)) (rs rs' : List (Respondent d)),
  SameFrequencies rs rs' → q3 rs.length p M mc ((scoreList rs).map probs) (answerList rs)
    = q3 rs'.length p M mc ((scoreList rs').map probs) (answerList rs')

/-- A respondent who skipped the last of three items. -/
def exSkipsLast : Respondent 1 := (0, [some 1, some 1, none])

/-- Three items with equally likely answers. -/
noncomputable def exEvenTable : (Fin 1 → ℝ) → List (List ℝ) := fun _ => [[1 / 2, 1 / 2], [1 / 2, 1 / 2], [1 / 2, 1 / 2]]

theorem exSkipsLast_residuals : residualRow 2 (some [1, 1, 1]) (exEvenTable 0) [some 1, some 1, none] = .ok [some (1 / 2), some (1 / 2), none] := by
  norm_num [residualRow, exEvenTable, keyedResidual, pyGet, cellMissing, pyIndex, List.mapM_cons, bind, Except.bind, pure, Except.pure]

theorem exSkipsLast_one : correlationMatrix (numMatrix (n := 1) (p := 3) [[some (1 / 2), some (1 / 2), none]]) 0 1 = some 0 := by
  unfold correlationMatrix
  rw [if_neg (fun hall => hall 0 2 rfl)]
  have e1 : List.finRange 1 = [0] := rfl
  norm_num [corrMissing, pairRows, e1, numMatrix]

theorem exSkipsLast_two : correlationMatrix (numMatrix (n := 2) (p := 3) [[some (1 / 2), some (1 / 2), none], [some (1 / 2), some (1 / 2), none]]) 0 1
    = none := by
  unfold correlationMatrix
  rw [if_neg (fun hall => hall 0 2 rfl)]
  rw [if_neg (by decide), if_pos (by decide)]
  have e : pairRows (n := 2) (fun i => numMatrix (n := 2) (p := 3) [[some (1 / 2), some (1 / 2), none], [some (1 / 2), some (1 / 2), none]] i 0)
      (fun i => numMatrix (n := 2) (p := 3) [[some (1 / 2), some (1 / 2), none], [some (1 / 2), some (1 / 2), none]] i 1)
      = [(1 / 2, 1 / 2), (1 / 2, 1 / 2)] := rfl
  unfold corrMissing
  dsimp only
  rw [e]
  norm_num [listStd, floatDiv]

/-- C125 is false of Q3: with one respondent the correlation is 0, with everyone twice it is NaN. -/
theorem C125_q3_false : ¬ SameQ3Claim := by
  intro h
  have h1 := h 1 exEvenTable 2 3 (some [1, 1, 1]) [exSkipsLast] ([exSkipsLast] ++ [exSkipsLast]) (sameFrequencies_twice _ (by simp))
  have hr1 : residuals 2 3 (some [1, 1, 1]) "none" ((scoreList [exSkipsLast]).map exEvenTable) (answerList [exSkipsLast])
      = .ok (.matrix [[some (1 / 2), some (1 / 2), none]]) := by
    rw [residuals_eq, List.mapM_cons, List.mapM_nil]
    simp only [exSkipsLast, exSkipsLast_residuals, bind_ok, pure, Except.pure]
    rfl
  have hr2 : residuals 2 3 (some [1, 1, 1]) "none" ((scoreList ([exSkipsLast] ++ [exSkipsLast])).map exEvenTable) (answerList ([exSkipsLast] ++ [exSkipsLast]))
      = .ok (.matrix [[some (1 / 2), some (1 / 2), none], [some (1 / 2), some (1 / 2), none]]) := by
    rw [residuals_eq, List.singleton_append, List.mapM_cons, List.mapM_cons, List.mapM_nil]
    simp only [exSkipsLast, exSkipsLast_residuals, bind_ok, pure, Except.pure]
    rfl
  unfold q3 at h1
  rw [hr1, hr2, bind_ok, bind_ok] at h1
  have h2 : correlationMatrix (numMatrix (n := 1) (p := 3) [[some (1 / 2), some (1 / 2), none]]) 0 1
      = correlationMatrix (numMatrix (n := 2) (p := 3) [[some (1 / 2), some (1 / 2), none], [some (1 / 2), some (1 / 2), none]]) 0 1 := by
    have := congrFun (congrFun (Except.ok.inj h1) 0) 1
    rwa [if_neg (by decide), if_neg (by decide)] at this
  rw [exSkipsLast_one, exSkipsLast_two] at h2
  cases h2

/-- The claim for the mutual information difference. -/
def SameMutualInformationClaim : Prop := ∀ (d p : ℕ) (base : ℝ) (M : ℕ) (probs : (Fin d → ℝ) → List (List ℝ)) (rs rs' : List (Respondent d)),
  SameFrequencies rs rs' →
    mutualInformationDifference base M (fun (r : Fin (answerList rs).length) (j : Fin p) => ((answerList rs).getD r []).getD j none) ((scoreList rs).map probs)
      = mutualInformationDifference base M (fun (r : Fin (answerList rs').length) (j : Fin p) => ((answerList rs').getD r []).getD j none)
        ((scoreList rs').map probs)

/-- C125 is false of the mutual information difference: with one respondent the proportions of the answers are not computed and the
entropy refuses them, with everyone twice there is a result. -/
theorem C125_mutual_information_false : ¬ SameMutualInformationClaim := by
  intro h
  have h1 := h 1 1 2 2 (fun _ => [[1 / 2, 1 / 2]]) [(0, [some 0])] ([(0, [some 0])] ++ [(0, [some 0])]) (sameFrequencies_twice _ (by simp))
  obtain ⟨mid, amid, h2, -⟩ := C76_complete_partial (n := 2) (p := 1) (M := 2) 2 (by norm_num) (by norm_num) le_rfl
    (fun _ _ => 0) (fun _ _ => by norm_num) [2] rfl (fun _ => [[1 / 2, 1 / 2]]) (fun r => by
      refine ⟨rfl, fun j v c hv hc => ?_⟩
      match j with
      | 0 =>
        obtain rfl : v = [1 / 2, 1 / 2] := by simpa using hv.symm
        obtain rfl : c = 2 := by simpa using hc.symm
        exact two_isDistribution _ _ (by norm_num) (by norm_num) (by norm_num)
      | j + 1 => simp at hv)
  have h3 : mutualInformationDifference (n := 1) (p := 1) 2 2 (fun _ _ => some 0) [[[1 / 2, 1 / 2]]] = .ok (mid, amid) := by
    rw [← h2]
    have e1 : (fun (r : Fin 1) (j : Fin 1) => (([[some 0]] : List (List Cell)).getD r []).getD j none) = fun _ _ => some 0 := by
      funext r j
      fin_cases r
      fin_cases j
      rfl
    have e2 : (fun (r : Fin 2) (j : Fin 1) => (([[some 0], [some 0]] : List (List Cell)).getD r []).getD j none) = fun _ _ => some ((0 : ℕ) : ℤ) := by
      funext r j
      fin_cases j
      fin_cases r <;> rfl
    rw [← e1, ← e2]
    exact h1
  have h4 : jointEntropyMatrix (n := 1) (p := 1) 2 (fun _ _ => some 0) = .error .runtimeError := by
    have e1 : List.finRange 1 = [0] := rfl
    unfold jointEntropyMatrix
    norm_num [e1, maxCombos, pairCells, pairProportions, entropy, bind, Except.bind, pure, Except.pure]
  unfold mutualInformationDifference dataMutualInformation at h3
  rw [h4] at h3
  cases h3

/-- The claim for the scores at which joint maximum likelihood starts. -/
def SameStartClaim : Prop := ∀ (mc : Option (List ℤ)) (data data' : List (List Num)) (noise : ℕ → ℕ → ℝ) (s s' : List (List Num)),
  SameFrequencies data data' → jmlStart 1 mc data noise none = .ok s → jmlStart 1 mc data' noise none = .ok s' →
    ∀ i i' : ℕ, i < data.length → data[i]? = data'[i']? → s[i]? = s'[i']?

theorem standardise_alike {l l' : List ℝ} (h : Alike l l') (h1 : 1 < l.length) (h1' : 1 < l'.length) : ∃ f f' : ℝ → Num,
    standardise (l.map some) = l.map f ∧ standardise (l'.map some) = l'.map f' ∧
    ∀ x, f' x = (f x).map fun z => z * Real.sqrt ((l.length * (l'.length - 1)) / (l'.length * (l.length - 1))) := by
  have key : ∀ q : List ℝ, 1 < q.length → standardise (q.map some) = q.map fun x =>
      if Real.sqrt ((q.map fun x => (x - q.sum / q.length) ^ 2).sum / ((q.length : ℝ) - 1)) = 0 then none
      else some ((x - q.sum / q.length) / Real.sqrt ((q.map fun x => (x - q.sum / q.length) ^ 2).sum / ((q.length : ℝ) - 1))) := by
    intro q hq
    unfold standardise
    have e : (q.map some).mapM id = some q := by
      rw [List.mapM_map]
      exact (mapM_option_some _ _ (fun x => x) fun x _ => rfl).trans (by rw [List.map_id'])
    rw [e]
    dsimp only
    by_cases h0 : Real.sqrt ((q.map fun x => (x - q.sum / q.length) ^ 2).sum / ((q.length : ℝ) - 1)) = 0
    · rw [if_pos (Or.inr h0)]
      simp only [h0, if_true]
    · rw [if_neg (by push Not; exact ⟨by omega, h0⟩)]
      simp only [h0, if_false]
  refine ⟨_, _, key l h1, key l' h1', fun x => ?_⟩
  have hm : l'.sum / l'.length = l.sum / l.length := by
    have := mean_alike h fun x : ℝ => x
    simpa using this.symm
  have hs := mean_alike h fun x : ℝ => (x - l.sum / l.length) ^ 2
  rw [hm]
  generalize (l.map fun x => (x - l.sum / l.length) ^ 2).sum = A at hs ⊢
  generalize (l'.map fun x => (x - l.sum / l.length) ^ 2).sum = B at hs ⊢
  have hn : (1 : ℝ) < l.length := by exact_mod_cast h1
  have hn' : (1 : ℝ) < l'.length := by exact_mod_cast h1'
  generalize (l.length : ℝ) = n at *
  generalize (l'.length : ℝ) = n' at *
  have hn0 : n ≠ 0 := by linarith
  have hn0' : n' ≠ 0 := by linarith
  have hn1 : n - 1 ≠ 0 := by linarith
  have hn1' : n' - 1 ≠ 0 := by linarith
  have hK : 0 < n * (n' - 1) / (n' * (n - 1)) := div_pos (mul_pos (by linarith) (by linarith)) (mul_pos (by linarith) (by linarith))
  have hB : B = n' * A / n := by field_simp at hs ⊢; linarith
  have hvar : A / (n - 1) = B / (n' - 1) * (n * (n' - 1) / (n' * (n - 1))) := by
    rw [hB]
    field_simp
  have hsq : Real.sqrt (A / (n - 1)) = Real.sqrt (B / (n' - 1)) * Real.sqrt (n * (n' - 1) / (n' * (n - 1))) := by
    rw [hvar, Real.sqrt_mul' _ hK.le]
  have hK' := Real.sqrt_pos.2 hK
  rw [hsq]
  by_cases h0 : Real.sqrt (B / (n' - 1)) = 0
  · rw [if_pos h0, if_pos (by rw [h0, zero_mul])]
    rfl
  · rw [if_neg h0, if_neg (mul_ne_zero h0 hK'.ne')]
    simp only [Option.map_some]
    congr 1
    field_simp

theorem jmlStart_one (mc : Option (List ℤ)) (data : List (List Num)) (noise : ℕ → ℕ → ℝ) :
    jmlStart 1 mc data noise none = .ok ((standardise (data.map (sumScoreRow mc))).map fun z => [z]) := by
  unfold jmlStart
  dsimp only
  have hl : ∀ s : List Num, (standardise s).length = s.length := by
    intro s
    by_cases hs : ∃ x ∈ s, id x = none
    · unfold standardise
      rw [mapM_option_none s id hs, List.length_map]
    · push Not at hs
      unfold standardise
      rw [mapM_option_some s id (fun x => x.getD 0) (fun x hx => by
        obtain ⟨y, hy⟩ := Option.ne_none_iff_exists'.1 (hs x hx)
        simp only [id] at hy
        simp [hy])]
      dsimp only
      split <;> simp
  congr 1
  apply List.ext_getElem
  · simp [hl]
  · intro i h1 h2
    simp

/-- C125, starting scores of joint maximum likelihood for one latent variable: respondents with the same answers start at scores that
differ by a factor that depends on the numbers of respondents only. Missing: equal scores (`C125_jml_start_false`). -/
theorem C125_jml_start_partial (mc : Option (List ℤ)) (data data' : List (List Num)) (noise noise' : ℕ → ℕ → ℝ) (h : SameFrequencies data data')
    (h1 : 1 < data.length) (h1' : 1 < data'.length) : ∃ s s', jmlStart 1 mc data noise none = .ok s ∧ jmlStart 1 mc data' noise' none = .ok s' ∧
      ∀ (i i' : ℕ) (r : List Num), data[i]? = some r → data'[i']? = some r → ∃ z : Num, s[i]? = some [z] ∧
        s'[i']? = some [z.map fun x => x * Real.sqrt ((data.length * (data'.length - 1)) / (data'.length * (data.length - 1)))] := by
  refine ⟨_, _, jmlStart_one mc data noise, jmlStart_one mc data' noise', fun i i' r hi hi' => ?_⟩
  have hal := (alike_of_frequencies h).map (sumScoreRow mc)
  by_cases hall : ∀ r ∈ data, sumScoreRow mc r ≠ none
  · have hall' : ∀ r ∈ data', sumScoreRow mc r ≠ none := fun r hr => hall r (((alike_of_frequencies h).mem r).2 hr)
    have e : ∀ q : List (List Num), (∀ r ∈ q, sumScoreRow mc r ≠ none) → q.map (sumScoreRow mc) = (q.map fun r => (sumScoreRow mc r).getD 0).map some := by
      intro q hq
      rw [List.map_map]
      refine List.map_congr_left fun r hr => ?_
      obtain ⟨x, hx⟩ := Option.ne_none_iff_exists'.1 (hq r hr)
      simp [hx]
    obtain ⟨f, f', e1, e2, e3⟩ := standardise_alike ((alike_of_frequencies h).map fun r => (sumScoreRow mc r).getD 0) (by simpa using h1) (by simpa using h1')
    rw [e data hall, e data' hall', e1, e2]
    refine ⟨f ((sumScoreRow mc r).getD 0), ?_, ?_⟩
    · simp [hi]
    · simp only [List.getElem?_map, hi', Option.map_some, e3, List.length_map]
  · push Not at hall
    obtain ⟨r₀, hr₀, hn⟩ := hall
    have e : ∀ q : List (List Num), r₀ ∈ q → standardise (q.map (sumScoreRow mc)) = q.map fun _ => none := by
      intro q hq
      unfold standardise
      rw [List.mapM_map]
      rw [mapM_option_none _ _ ⟨r₀, hq, by simpa using hn⟩, List.map_map]
      rfl
    rw [e data hr₀, e data' (((alike_of_frequencies h).mem r₀).1 hr₀)]
    exact ⟨none, by simp only [List.getElem?_map, hi, Option.map_some], by simp only [List.getElem?_map, hi', Option.map_some, Option.map_none]⟩

/-- C125 is false of these scores. -/
theorem C125_jml_start_false : ¬ SameStartClaim := by
  intro h
  obtain ⟨s, s', h1, h2, h3⟩ := C125_jml_start_partial none [[some 1], [some 0]] ([[some 1], [some 0]] ++ [[some 1], [some 0]]) (fun _ _ => 0) (fun _ _ => 0)
    (sameFrequencies_twice _ (by simp)) (by simp) (by simp)
  have h4 := h none [[some 1], [some 0]] ([[some 1], [some 0]] ++ [[some 1], [some 0]]) (fun _ _ => 0) s s' (sameFrequencies_twice _ (by simp)) h1 h2
    0 0 (by simp) rfl
  obtain ⟨z, hz, hz'⟩ := h3 0 0 [some 1] rfl rfl
  rw [hz, hz'] at h4
  obtain ⟨x, rfl, hx⟩ : ∃ x, z = some x ∧ x ≠ 0 := by
    rw [jmlStart_one] at h1
    have e : s = _ := (Except.ok.inj h1).symm
    rw [e] at hz
    norm_num [standardise, sumScoreRow, List.mapM_cons, List.mapM_nil] at hz
    exact ⟨_, hz.symm, by positivity⟩
  simp only [Option.map_some, Option.some.injEq, List.cons.injEq, and_true] at h4
  have h5 := mul_left_cancel₀ hx ((mul_one x).trans h4)
  have h6 : (1 : ℝ) = Real.sqrt 3 / Real.sqrt 2 := by norm_num at h5; exact h5
  rw [eq_div_iff (by positivity)] at h6
  have := Real.sqrt_lt_sqrt (by norm_num) (by norm_num : (2 : ℝ) < 3)
  linarith

/-! ## Examples -/

/-- Three respondents with different answers to two items. -/
def exTrio : List (Respondent 1) := [(0, [some 1, some 0]), (fun _ => 1, [some 0, some 0]), (fun _ => -1, [some 1, some 1])]

/-- The same frequencies in another order and with repetitions. -/
theorem exTrio_twice : SameFrequencies exTrio (exTrio ++ exTrio) := sameFrequencies_twice _ (by simp [exTrio])

theorem exTrio_valid : ∀ x ∈ exTrio, ValidResponses [2, 2] fun j => x.2.getD j none := by
  intro x hx j c hc _
  have hj : j < 2 := by simpa using lt_of_getElem?_some hc
  have hc2 : c = 2 := by interval_cases j <;> simpa using hc.symm
  subst hc2
  simp only [exTrio, List.mem_cons, List.not_mem_nil, or_false] at hx
  rcases hx with rfl | rfl | rfl <;> interval_cases j <;> first | exact ⟨1, rfl, by norm_num⟩ | exact ⟨0, rfl, by norm_num⟩

/-- Frequencies need not come from repeating a list as a whole. -/
example : SameFrequencies [1, 2, 2] [2, 1, 2, 2, 2, 1] := by
  classical
  refine ⟨by simp, by simp, fun a => ?_⟩
  by_cases h1 : a = 1
  · subst h1; simp
  · by_cases h2 : a = 2
    · subst h2; simp
    · simp [List.count_cons, Ne.symm h1, Ne.symm h2]

example : Unchanged (residuals 2 2 none "respondents" ((scoreList exTrio).map fun θ => exScore.probs (List.ofFn θ)) (answerList exTrio))
    (residuals 2 2 none "respondents" ((scoreList (exTrio ++ exTrio)).map fun θ => exScore.probs (List.ofFn θ)) (answerList (exTrio ++ exTrio))) :=
  C125_residuals _ 2 2 none exTrio _ exTrio_twice _ (.inl rfl)

example (argmax : List ℝ → ℕ) : accuracy argmax 2 "all" ((scoreList exTrio).map fun θ => exScore.probs (List.ofFn θ)) (answerList exTrio)
    = accuracy argmax 2 "all" ((scoreList (exTrio ++ exTrio)).map fun θ => exScore.probs (List.ofFn θ)) (answerList (exTrio ++ exTrio)) :=
  C125_accuracy argmax _ 2 exTrio _ exTrio_twice _ (.inr rfl)

example (argmax : List ℝ → ℕ) : predictions argmax [2, 2] ((scoreList exTrio).map fun θ => exScore.probs (List.ofFn θ)) (answerList exTrio)
    = predictions argmax [2, 2] ((scoreList (exTrio ++ exTrio)).map fun θ => exScore.probs (List.ofFn θ)) (answerList (exTrio ++ exTrio)) :=
  C125_predictions argmax _ [2, 2] exTrio _ exTrio_twice

example : Unchanged (infitOutfit 2 2 none "item" ((scoreList exTrio).map fun θ => exScore.probs (List.ofFn θ)) (answerList exTrio))
    (infitOutfit 2 2 none "item" ((scoreList (exTrio ++ exTrio)).map fun θ => exScore.probs (List.ofFn θ)) (answerList (exTrio ++ exTrio))) :=
  C125_infit_outfit _ 2 2 none exTrio _ exTrio_twice

example : ∃ v, evaluatorLogLikelihood (exScore.scorer 1) "mean" "item" (scoreList exTrio) (answerList exTrio) = .ok v ∧
    evaluatorLogLikelihood (exScore.scorer 1) "mean" "item" (scoreList (exTrio ++ exTrio)) (answerList (exTrio ++ exTrio)) = .ok v :=
  C125_log_likelihood exScore_isScorer exTrio _ exTrio_twice (fun x hx => by
    simp only [exTrio, List.mem_cons, List.not_mem_nil, or_false] at hx
    rcases hx with rfl | rfl | rfl <;> rfl) exTrio_valid _ (.inl rfl)

/-- The residuals exist, and each two items have three respondents. -/
example : ∃ R, residuals 2 2 (some [1, 1]) "none" ((scoreList exTrio).map fun _ => [[1 / 2, 1 / 2], [1 / 4, 3 / 4]]) (answerList exTrio) = .ok (.matrix R) ∧
    1 < (jointRows R 0 1).length := by
  refine ⟨[[some (1 / 2), some (3 / 4)], [some (1 / 2), some (3 / 4)], [some (1 / 2), some (1 / 4)]], ?_, by simp [jointRows]⟩
  rw [residuals_eq]
  norm_num [exTrio, residualRow, keyedResidual, pyGet, cellMissing, pyIndex, List.mapM_cons, bind, Except.bind, pure, Except.pure]
  rw [if_neg (by decide), if_neg (by decide), if_neg (by decide)]

example : mutualInformationDifference (n := 3) (p := 2) 2 2 (fun r j => ((answerList exTrio).getD r []).getD j none)
      ((scoreList exTrio).map fun θ => exScore.probs (List.ofFn θ))
    = mutualInformationDifference (n := 6) (p := 2) 2 2 (fun r j => ((answerList (exTrio ++ exTrio)).getD r []).getD j none)
      ((scoreList (exTrio ++ exTrio)).map fun θ => exScore.probs (List.ofFn θ)) := by
  refine C125_mutual_information_partial 2 2 _ exTrio _ exTrio_twice (fun i j => ?_) fun i j => ?_ <;> fin_cases i <;> fin_cases j <;> simp [jointAnswers, exTrio]

/-- The answers of the three respondents and the same twice: the fits agree. -/
theorem exTrio_answers : SameFrequencies (answerList exTrio) (answerList exTrio ++ answerList exTrio) :=
  sameFrequencies_twice _ (by simp [exTrio, answerList])

theorem exTrio_lengths : ∀ r ∈ answerList exTrio, r.length = 2 := by simp [exTrio, answerList]

theorem exTrio_answers_valid : ∀ r ∈ answerList exTrio, ValidResponses [2, 2] fun j => r.getD j none := by
  intro r hr
  obtain ⟨x, hx, rfl⟩ := List.mem_map.1 hr
  exact exTrio_valid x hx

example : ∃ x x', mmlLoss (exScore.scorer 1) (answerList exTrio) [0, fun _ => 1] [0, -1] = .ok (some x) ∧
    mmlLoss (exScore.scorer 1) (answerList exTrio ++ answerList exTrio) [0, fun _ => 1] [0, -1] = .ok (some x') ∧ x' = 2 * x := by
  obtain ⟨x, x', h1, h2, h3⟩ := C125_mml exScore_isScorer (exScore.positive exScore_wf 1) _ _ exTrio_answers exTrio_lengths exTrio_answers_valid
    [0, fun _ => 1] [0, -1] rfl (by simp)
  refine ⟨x, x', h1, h2, h3.trans ?_⟩
  norm_num [answerList, exTrio]

/-- Ten epochs with the optimiser without the small constant. -/
noncomputable def exScaleFreeFit : MmlSettings 2 AdamState := { exTwoTraitFit with rule := fun _ => adamWithoutEps }

example : ∃ m, TwoPL.fitMml exScaleFreeFit 2 (answerList exTrio) = .ok m ∧ TwoPL.fitMml exScaleFreeFit 2 (answerList exTrio ++ answerList exTrio) = .ok m :=
  C125_twoPL_partial exScaleFreeFit exTwoTraitFit_rule adamWithoutEps_scaleFree 2 two_pos _ _ exTrio_answers exTrio_lengths exTrio_answers_valid

example : ∃ m, ThreePL.fitMml exScaleFreeFit 2 (answerList exTrio) = .ok m ∧
    ThreePL.fitMml exScaleFreeFit 2 (answerList exTrio ++ answerList exTrio) = .ok m :=
  C125_threePL_partial exScaleFreeFit exTwoTraitFit_rule adamWithoutEps_scaleFree 2 two_pos _ _ exTrio_answers exTrio_lengths exTrio_answers_valid

example : ∃ m, GPC.fitMml exScaleFreeFit [2, 2] (answerList exTrio) = .ok m ∧
    GPC.fitMml exScaleFreeFit [2, 2] (answerList exTrio ++ answerList exTrio) = .ok m :=
  C125_gpc_partial exScaleFreeFit exTwoTraitFit_rule adamWithoutEps_scaleFree [2, 2] (by simp) (by simp) _ _ exTrio_answers exTrio_lengths
    exTrio_answers_valid

end Irt
