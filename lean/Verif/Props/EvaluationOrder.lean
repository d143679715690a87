import Verif.Lemmas.EvaluationOrder
import Verif.Props.Groups
import Verif.Props.GroupFit

/-!
# C116: evaluations do not depend on the order of the respondents
-/

namespace Irt

open Spec

/-- C116, residuals: averages per item and over everything are unchanged, averages per respondent and the matrix of
residuals move with the respondents. -/
theorem C116_residuals {n d : ℕ} (probs : (Fin d → ℝ) → List (List ℝ)) (M items : ℕ) (mc : Option (List ℤ))
    (r : Fin n → Respondent d) (σ : Equiv.Perm (Fin n)) :
    let run := fun (q : Fin n → Respondent d) over => residuals M items mc over ((scoresOf q).map probs) (answerRows q)
    Unchanged (run r "respondents") (run (fun i => r (σ i)) "respondents") ∧
      Unchanged (run r "everything") (run (fun i => r (σ i)) "everything") ∧
      Reordered σ Reduced.vector (run r "items") (run (fun i => r (σ i)) "items") ∧
      Reordered σ Reduced.matrix (run r "none") (run (fun i => r (σ i)) "none") := by
  intro run
  have hrun : ∀ (q : Fin n → Respondent d) over, run q over
      = (List.ofFn q).mapM (fun x => residualRow M mc (probs x.1) x.2) >>= fun rows =>
        if over = "items" then .ok (reduceDim nanMean items (some 1) rows)
        else if over = "respondents" then .ok (reduceDim nanMean items (some 0) rows)
        else if over = "everything" then .ok (reduceDim nanMean items none rows)
        else .ok (.matrix rows) := by
    intro q over
    simp only [run, residuals, scoresOf, answerRows, map_ofFn', zip_ofFn]
    have e : (List.ofFn fun i => (probs (q i).1, (q i).2)) = (List.ofFn q).map fun x => (probs x.1, x.2) := by
      rw [map_ofFn']
    rw [e, List.mapM_map]
    rfl
  simp only [hrun]
  refine ⟨?_, ?_, ?_, ?_⟩
  · refine unchanged_rows _ _ (fun l l' h => ?_) σ r
    rw [if_neg (by decide), if_pos trivial, if_neg (by decide), if_pos trivial, reduceDim_perm (fun _ _ => nanMean_perm) items (Or.inr rfl) h]
  · refine unchanged_rows _ _ (fun l l' h => ?_) σ r
    rw [if_neg (by decide), if_neg (by decide), if_pos trivial, if_neg (by decide), if_neg (by decide), if_pos trivial,
      reduceDim_perm (fun _ _ => nanMean_perm) items (Or.inl rfl) h]
  · exact reordered_rows _ nanMean _ _ (fun l => by rw [if_pos trivial]; rfl) σ r
  · exact reordered_rows _ id _ _ (fun l => by
      rw [if_neg (by decide), if_neg (by decide), if_neg (by decide), List.map_id]) σ r

/-- C116, accuracy. -/
theorem C116_accuracy {n d : ℕ} (argmax : List ℝ → ℕ) (probs : (Fin d → ℝ) → List (List ℝ)) (items : ℕ)
    (r : Fin n → Respondent d) (σ : Equiv.Perm (Fin n)) :
    let run := fun (q : Fin n → Respondent d) level => accuracy argmax items level ((scoresOf q).map probs) (answerRows q)
    run (fun i => r (σ i)) "item" = run r "item" ∧ run (fun i => r (σ i)) "all" = run r "all" ∧
      ∃ v v', run r "respondent" = .vector v ∧ run (fun i => r (σ i)) "respondent" = .vector v' ∧ MovedBy σ v v' := by
  intro run
  have hrun : ∀ (q : Fin n → Respondent d) level, run q level = reduceDim nanMean items (levelDim level)
      (List.ofFn fun i => List.zipWith (fun p c => accuracyCell (argmax p) c) (probs (q i).1) (q i).2) := by
    intro q level
    simp only [run, accuracy, scoresOf, answerRows, map_ofFn', zipWith_ofFn]
  have hperm := ofFn_perm σ fun i => List.zipWith (fun p c => accuracyCell (argmax p) c) (probs (r i).1) (r i).2
  refine ⟨?_, ?_, ?_⟩
  · rw [hrun, hrun]
    exact reduceDim_perm (fun _ _ => nanMean_perm) items (Or.inr rfl) hperm
  · rw [hrun, hrun]
    exact reduceDim_perm (fun _ _ => nanMean_perm) items (Or.inl rfl) hperm
  · rw [hrun, hrun]
    refine ⟨_, _, rfl, rfl, ?_⟩
    rw [map_ofFn', map_ofFn']
    exact movedBy_ofFn σ _

/-- C116, precision, recall and F1 of the predictions. -/
theorem C116_predictions {n d : ℕ} (argmax : List ℝ → ℕ) (probs : (Fin d → ℝ) → List (List ℝ)) (cats : List ℕ)
    (r : Fin n → Respondent d) (σ : Equiv.Perm (Fin n)) :
    predictions argmax cats ((scoresOf fun i => r (σ i)).map probs) (answerRows fun i => r (σ i))
      = predictions argmax cats ((scoresOf r).map probs) (answerRows r) := by
  unfold predictions
  congr 1
  funext j c
  refine itemMetrics_perm c ?_
  simp only [scoresOf, answerRows, map_ofFn', observedPairs, zip_ofFn]
  exact (ofFn_perm σ fun i => (argmax ((probs (r i).1).getD j []), (r i).2.getD j none)).filterMap _

/-- C116, infit and outfit: unchanged for items, moving with the respondents for respondents. -/
theorem C116_infit_outfit {n d : ℕ} (probs : (Fin d → ℝ) → List (List ℝ)) (M items : ℕ) (mc : Option (List ℤ))
    (r : Fin n → Respondent d) (σ : Equiv.Perm (Fin n)) :
    let run := fun (q : Fin n → Respondent d) level => infitOutfit M items mc level ((scoresOf q).map probs) (answerRows q)
    Unchanged (run r "item") (run (fun i => r (σ i)) "item") ∧
      Reordered σ (fun v : List (Num × Num) => (v.map Prod.fst, v.map Prod.snd)) (run r "respondent")
        (run (fun i => r (σ i)) "respondent") := by
  intro run
  have hrun : ∀ (q : Fin n → Respondent d) level, level ∈ ["item", "respondent"] → run q level
      = (List.ofFn q).mapM (fun x => fitRow M mc (probs x.1) x.2) >>= fun rows =>
        if level = "item" then
          .ok (((List.range items).map fun j => rows.map fun r => r.getD j none).map infitOf,
            ((List.range items).map fun j => rows.map fun r => r.getD j none).map outfitOf)
        else .ok (rows.map infitOf, rows.map outfitOf) := by
    intro q level hl
    simp only [run, infitOutfit, scoresOf, answerRows, map_ofFn', zip_ofFn]
    rw [if_neg (not_not.2 hl)]
    have e : (List.ofFn fun i => (probs (q i).1, (q i).2)) = (List.ofFn q).map fun x => (probs x.1, x.2) := by
      rw [map_ofFn']
    rw [e, List.mapM_map]
    rfl
  rw [hrun _ _ (by simp), hrun _ _ (by simp), hrun _ _ (by simp), hrun _ _ (by simp)]
  refine ⟨?_, ?_⟩
  · refine unchanged_rows _ _ (fun l l' h => ?_) σ r
    rw [if_pos rfl, if_pos rfl, List.map_map, List.map_map, List.map_map, List.map_map]
    congr 2
    · exact List.map_congr_left fun j _ => infitOf_perm (h.map _)
    · exact List.map_congr_left fun j _ => outfitOf_perm (h.map _)
  · refine reordered_rows _ (fun x => (infitOf x, outfitOf x)) _ _ (fun l => ?_) σ r
    rw [if_neg (by decide), List.map_map, List.map_map]
    rfl

/-- C116, Q3. -/
theorem C116_q3 {n d : ℕ} (probs : (Fin d → ℝ) → List (List ℝ)) (M p : ℕ) (mc : Option (List ℤ))
    (r : Fin n → Respondent d) (σ : Equiv.Perm (Fin n)) :
    Unchanged (q3 n p M mc ((scoresOf r).map probs) (answerRows r))
      (q3 n p M mc ((scoresOf fun i => r (σ i)).map probs) (answerRows fun i => r (σ i))) := by
  refine unchanged_of_imp (fun r : Fin n → Respondent d => q3 n p M mc ((scoresOf r).map probs) (answerRows r)) ?_ σ r
  intro σ r x hx
  have h := (C116_residuals probs M p mc r σ).2.2.2.2
  simp only [q3, bind_ok_iff] at hx ⊢
  obtain ⟨y, hy, hx⟩ := hx
  obtain ⟨v, v', rfl, hv', hm⟩ := h y hy
  refine ⟨_, hv', ?_⟩
  rw [← hx]
  have e : (numMatrix (n := n) (p := p) v') = fun i => numMatrix v (σ i) := by
    funext i j
    unfold numMatrix
    rw [List.getD_eq_getElem?_getD (l := v'), hm.2.2 i, ← List.getD_eq_getElem?_getD]
  simp only [e, correlationMatrix_perm]

/-- C116, mutual information difference. -/
theorem C116_mutual_information {n d p : ℕ} (base : ℝ) (M : ℕ) (probs : (Fin d → ℝ) → List (List ℝ))
    (r : Fin n → Respondent d) (σ : Equiv.Perm (Fin n)) :
    let run := fun q : Fin n → Respondent d =>
      mutualInformationDifference base M (fun i (j : Fin p) => (q i).2.getD j none) ((scoresOf q).map probs)
    run (fun i => r (σ i)) = run r := by
  intro run
  simp only [run]
  unfold mutualInformationDifference dataMutualInformation
  rw [jointEntropyMatrix_perm base σ fun i (j : Fin p) => (r i).2.getD j none,
    expectedMutualInformation_perm base M (tables := (scoresOf fun i => r (σ i)).map probs)
      (tables' := (scoresOf r).map probs) ((ofFn_perm σ fun i => (r i).1).map probs)]

/-- C116, groups of respondents: if no two respondents have the same score on the latent variable that forms the
groups, the proportions, the model probabilities and the mid points of the groups are unchanged. Missing: respondents
with the same score, for whom it does not hold (`C116_groups_false`). -/
theorem C116_groups_partial {n d : ℕ} (f : FittedModel d) (sort : List ℝ → List ℕ) (hsort : IsSort sort) (k : Fin d)
    (groups : ℤ) (r : Fin n → Respondent d) (hties : ∀ i j, (r i).1 k = (r j).1 k → i = j) (σ : Equiv.Perm (Fin n)) :
    latentGroupProbabilities f sort k groups false (scoresOf fun i => r (σ i)) (answerRows fun i => r (σ i))
      = latentGroupProbabilities f sort k groups false (scoresOf r) (answerRows r) := by
  have h := takeRows_sorted sort hsort (fun x : Respondent d => x.1 k) r hties σ
  have hs : ∀ q : Fin n → Respondent d, scoresOf q = (List.ofFn q).map Prod.fst := fun q => (map_ofFn' _ _).symm
  have ha : ∀ q : Fin n → Respondent d, answerRows q = (List.ofFn q).map Prod.snd := fun q => (map_ofFn' _ _).symm
  unfold latentGroupProbabilities
  simp only [Bool.false_and, Bool.false_eq_true, if_false, hs, ha, takeRows_map, List.map_map, Function.comp_def, h]

/-- C116, groups on an attached scale that transforms each respondent separately. -/
theorem C116_groups_rescaled_partial {n d : ℕ} (f : FittedModel d) (sort : List ℝ → List ℕ) (hsort : IsSort sort) (k : Fin d)
    (groups : ℤ) (u : (Fin d → ℝ) → Fin d → ℝ) (hu : ∀ ts, transformTheta f.scales ts = .ok (ts.map u))
    (r : Fin n → Respondent d) (hties : ∀ i j, u (r i).1 k = u (r j).1 k → i = j) (σ : Equiv.Perm (Fin n)) :
    latentGroupProbabilities f sort k groups true (scoresOf fun i => r (σ i)) (answerRows fun i => r (σ i))
      = latentGroupProbabilities f sort k groups true (scoresOf r) (answerRows r) := by
  by_cases h0 : f.scales.isEmpty = true
  · have hnil : f.scales = [] := by simpa using h0
    have hid : ∀ t, u t = t := by
      intro t
      have := hu [t]
      rw [hnil] at this
      simpa [transformTheta, pure, Except.pure] using this.symm
    have := C116_groups_partial f sort hsort k groups r (fun i j hij => hties i j (by rw [hid, hid, hij])) σ
    unfold latentGroupProbabilities at this ⊢
    simpa [h0] using this
  · have h := takeRows_sorted sort hsort (fun x : Respondent d => u x.1 k) r hties σ
    have hs : ∀ q : Fin n → Respondent d, scoresOf q = (List.ofFn q).map Prod.fst := fun q => (map_ofFn' _ _).symm
    have ha : ∀ q : Fin n → Respondent d, answerRows q = (List.ofFn q).map Prod.snd := fun q => (map_ofFn' _ _).symm
    unfold latentGroupProbabilities
    rw [if_pos (by simp [h0]), if_pos (by simp [h0])]
    simp only [hu, bind_ok, hs, ha, takeRows_map, List.map_map, Function.comp_def, h]

/-- C116, residuals of groups. -/
theorem C116_group_residuals_partial {n d : ℕ} (f : FittedModel d) (sort : List ℝ → List ℕ) (hsort : IsSort sort) (k : Fin d)
    (groups : ℤ) (standardize : Bool) (train : List (List Cell)) (r : Fin n → Respondent d)
    (hties : ∀ i j, (r i).1 k = (r j).1 k → i = j) (σ : Equiv.Perm (Fin n)) :
    groupFitResiduals f sort k groups false standardize (scoresOf fun i => r (σ i)) train (some (answerRows fun i => r (σ i)))
      = groupFitResiduals f sort k groups false standardize (scoresOf r) train (some (answerRows r)) := by
  have h := C116_groups_partial f sort hsort k groups r hties σ
  unfold groupFitResiduals
  simp only [Option.getD_some, h]
  cases latentGroupProbabilities f sort k groups false (scoresOf r) (answerRows r) with
  | error e => rfl
  | ok g =>
    cases standardize with
    | false => rfl
    | true =>
      simp only [bind_ok, if_true]
      have hl : (answerRows fun i => r (σ i)).length = (answerRows r).length := by simp [answerRows]
      have hzip : ∀ as : List (List (List Cell)), List.zipWith (fun c (om : List (List Num) × List (List Num)) =>
          List.zipWith (fun o m => List.zipWith (standardResidual c.length) o m) om.1 om.2) as (List.zip g.observed g.model)
          = List.zipWith (fun (c : ℕ) (om : List (List Num) × List (List Num)) =>
          List.zipWith (fun o m => List.zipWith (standardResidual c) o m) om.1 om.2) (as.map List.length)
            (List.zip g.observed g.model) := fun as => by rw [List.zipWith_map_left]
      have hchunk : ∀ (xs : List (List Cell)), groups ≤ 0 → torchChunk xs groups = .error .runtimeError := fun xs h0 => by
        unfold torchChunk; rw [if_pos h0]
      by_cases h0 : groups ≤ 0
      · rw [hchunk _ h0, hchunk _ h0]
      · have hok : ∀ xs : List (List Cell), ∃ gs, torchChunk xs groups = .ok gs := fun xs => by
          obtain ⟨gs, hgs, -⟩ := torchChunk_ok xs groups.toNat (by omega)
          rw [Int.toNat_of_nonneg (by omega)] at hgs
          exact ⟨gs, hgs⟩
        obtain ⟨as, ha⟩ := hok (answerRows fun i => r (σ i))
        obtain ⟨bs, hb⟩ := hok (answerRows r)
        rw [ha, hb, bind_ok, bind_ok, hzip as, hzip bs, torchChunk_lengths _ _ hl groups as bs ha hb]

/-! ## Log likelihoods -/

/-- The respondents as functions of their position. -/
theorem respondents_range {n d items : ℕ} (r : Fin n → Respondent d) (hlen : ∀ i, (r i).2.length = items) :
    ∃ (t : ℕ → Fin d → ℝ) (Y : ℕ → ℕ → Cell), (∀ i : Fin n, t i = (r i).1) ∧ (∀ (i : Fin n) j, Y i j = (r i).2.getD j none) ∧
      scoresOf r = (List.range n).map t ∧ answerRows r = dataOf n items Y := by
  refine ⟨fun i => if h : i < n then (r ⟨i, h⟩).1 else 0, fun i j => if h : i < n then (r ⟨i, h⟩).2.getD j none else none,
    fun i => by simp, fun i j => by simp, ?_, ?_⟩
  · apply List.ext_getElem
    · simp [scoresOf]
    · intro i h1 h2
      have hi : i < n := by simpa [scoresOf] using h1
      simp [scoresOf, hi]
  · apply List.ext_getElem
    · simp [answerRows, dataOf]
    · intro i h1 h2
      have hi : i < n := by simpa [answerRows] using h1
      have hl := hlen ⟨i, hi⟩
      simp only [answerRows, dataOf, List.getElem_ofFn, List.getElem_map, List.getElem_range]
      apply List.ext_getElem
      · simp [hl]
      · intro j h3 h4
        simp [hi, h3]

/-- C116, log likelihoods: item and test level means and sums are unchanged, those of respondents and the matrix of the
cells move with the respondents. -/
theorem C116_log_likelihood {n d : ℕ} {m : Scorer d} {cats : List ℕ} {P : (Fin d → ℝ) → ℕ → ℕ → ℝ} (hm : IsScorer m cats P)
    (r : Fin n → Respondent d) (hlen : ∀ i, (r i).2.length = m.items)
    (hvalid : ∀ i, ValidResponses cats fun j => (r i).2.getD j none) (σ : Equiv.Perm (Fin n)) (reduction : String)
    (hred : reduction = "mean" ∨ reduction = "sum") :
    let run := fun (q : Fin n → Respondent d) reduction level => evaluatorLogLikelihood m reduction level (scoresOf q) (answerRows q)
    Unchanged (run r reduction "item") (run (fun i => r (σ i)) reduction "item") ∧
      Unchanged (run r reduction "all") (run (fun i => r (σ i)) reduction "all") ∧
      Reordered σ Reduced.vector (run r reduction "respondent") (run (fun i => r (σ i)) reduction "respondent") ∧
      Reordered σ Reduced.matrix (run r "none" "all") (run (fun i => r (σ i)) "none" "all") := by
  intro run
  -- the cells of a respondent
  let cells : Respondent d → List Num := fun x => (List.range m.items).map fun j =>
    cellLogLik P (fun _ => x.1) (fun _ j => x.2.getD j none) 0 j
  have hrows : ∀ q : Fin n → Respondent d, (∀ i, (q i).2.length = m.items) →
      (∀ i, ValidResponses cats fun j => (q i).2.getD j none) → ∃ ll,
      m.logLik ((scoresOf q).map m.forward) (answerRows q).flatten ((answerRows q).map fun r => r.map cellMissing).flatten = .ok ll ∧
        view m.items (ll.map floorLogLik) = (List.ofFn q).map cells := by
    intro q hq hv
    obtain ⟨t, Y, ht, hY, hs, ha⟩ := respondents_range q hq
    obtain ⟨ll, h1, h2⟩ := cells_eq hm n t Y (fun i hi => by
      have := hv ⟨i, hi⟩
      have e : Y i = fun j => (q ⟨i, hi⟩).2.getD j none := funext fun j => hY ⟨i, hi⟩ j
      rw [e]
      exact this)
    refine ⟨ll, by rw [hs, ha]; exact h1, ?_⟩
    rw [h2, map_ofFn']
    apply List.ext_getElem
    · simp [rowsOf]
    · intro i h3 h4
      have hi : i < n := by simpa [rowsOf] using h3
      simp only [rowsOf, List.getElem_map, List.getElem_range, List.getElem_ofFn, cells]
      refine List.map_congr_left fun j _ => ?_
      have e1 := ht ⟨i, hi⟩
      have e2 := hY ⟨i, hi⟩ j
      simp only at e1 e2
      simp only [cellLogLik, e1, e2]
  have hσ : ∀ i, ((fun i => r (σ i)) i).2.length = m.items := fun i => hlen _
  have hσv : ∀ i, ValidResponses cats fun j => ((fun i => r (σ i)) i).2.getD j none := fun i => hvalid _
  have hrun : ∀ q : Fin n → Respondent d, (∀ i, (q i).2.length = m.items) →
      (∀ i, ValidResponses cats fun j => (q i).2.getD j none) → ∀ level,
      run q "mean" level = (List.ofFn q).mapM (fun x => (.ok (cells x) : Except PyErr _)) >>=
        (fun rows => .ok (reduceDim nanMean m.items (levelDim level) rows)) ∧
      run q "sum" level = (List.ofFn q).mapM (fun x => (.ok (cells x) : Except PyErr _)) >>=
        (fun rows => .ok (reduceDim nanSum m.items (levelDim level) rows)) ∧
      run q "none" level = (List.ofFn q).mapM (fun x => (.ok (cells x) : Except PyErr _)) >>= fun rows => .ok (.matrix rows) := by
    intro q hq hv level
    obtain ⟨ll, h1, h2⟩ := hrows q hq hv
    rw [mapM_ok _ _ cells fun _ _ => rfl]
    simp only [run, evaluatorLogLikelihood, h1, bind_ok, h2]
    refine ⟨?_, ?_, ?_⟩
    · rw [if_pos (List.infix_refl _)]
      rfl
    · rw [if_neg (by decide), if_pos trivial]
      rfl
    · rw [if_neg (by decide), if_neg (by decide)]
      rfl
  have hnone : Reordered σ Reduced.matrix (run r "none" "all") (run (fun i => r (σ i)) "none" "all") := by
    rw [(hrun r hlen hvalid _).2.2, (hrun _ hσ hσv _).2.2]
    exact reordered_rows _ id _ _ (fun l => by rw [List.map_id]) σ r
  rcases hred with rfl | rfl
  · refine ⟨?_, ?_, ?_, hnone⟩
    · rw [(hrun r hlen hvalid _).1, (hrun _ hσ hσv _).1]
      exact unchanged_rows _ _ (fun l l' h => by rw [reduceDim_perm (dim := levelDim "item") (fun _ _ => nanMean_perm) _ (Or.inr rfl) h]) σ r
    · rw [(hrun r hlen hvalid _).1, (hrun _ hσ hσv _).1]
      exact unchanged_rows _ _ (fun l l' h => by rw [reduceDim_perm (dim := levelDim "all") (fun _ _ => nanMean_perm) _ (Or.inl rfl) h]) σ r
    · rw [(hrun r hlen hvalid _).1, (hrun _ hσ hσv _).1]
      exact reordered_rows _ nanMean _ _ (fun l => rfl) σ r
  · refine ⟨?_, ?_, ?_, hnone⟩
    · rw [(hrun r hlen hvalid _).2.1, (hrun _ hσ hσv _).2.1]
      exact unchanged_rows _ _ (fun l l' h => by rw [reduceDim_perm (dim := levelDim "item") (fun _ _ => nanSum_perm) _ (Or.inr rfl) h]) σ r
    · rw [(hrun r hlen hvalid _).2.1, (hrun _ hσ hσv _).2.1]
      exact unchanged_rows _ _ (fun l l' h => by rw [reduceDim_perm (dim := levelDim "all") (fun _ _ => nanSum_perm) _ (Or.inl rfl) h]) σ r
    · rw [(hrun r hlen hvalid _).2.1, (hrun _ hσ hσv _).2.1]
      exact reordered_rows _ nanSum _ _ (fun l => rfl) σ r

/-- `group_fit_log_likelihood` with the order of the scores on latent variable `k` (evaluator.py 576). -/
noncomputable def sortedGroupFit {n d : ℕ} (m : Scorer d) (sort : List ℝ → List ℕ) (k : Fin d) (groups : ℕ)
    (q : Fin n → Respondent d) : Except PyErr (List (Option Logit)) :=
  groupFitLogLikelihood m (sort ((scoresOf q).map fun t => t k)) groups (scoresOf q) (answerRows q)

/-- C116, mean log likelihoods of groups: unchanged for complete data without ties. Missing: missing responses
(`C116_group_fit_false`). -/
theorem C116_group_fit_partial {n d : ℕ} {m : Scorer d} {cats : List ℕ} {P : (Fin d → ℝ) → ℕ → ℕ → ℝ} (hm : IsScorer m cats P)
    (sort : List ℝ → List ℕ) (hsort : IsSort sort) (k : Fin d) (groups : ℕ) (r : Fin n → Respondent d)
    (hlen : ∀ i, (r i).2.length = m.items) (hvalid : ∀ i, ValidResponses cats fun j => (r i).2.getD j none)
    (hobs : ∀ i j, j < m.items → IsObserved ((r i).2.getD j none))
    (hties : ∀ i j, (r i).1 k = (r j).1 k → i = j) (σ : Equiv.Perm (Fin n)) :
    sortedGroupFit m sort k groups (fun i => r (σ i)) = sortedGroupFit m sort k groups r := by
  let total : Respondent d → Option Logit := fun x => strictLogLik P m.items (fun _ => x.1) (fun _ j => x.2.getD j none) 0
  have hrun : ∀ q : Fin n → Respondent d, (∀ i, (q i).2.length = m.items) →
      (∀ i, ValidResponses cats fun j => (q i).2.getD j none) → (∀ i j, j < m.items → IsObserved ((q i).2.getD j none)) →
      sortedGroupFit m sort k groups q = .ok ((groupSlices ((takeRows (List.ofFn q)
        (sort ((List.ofFn q).map fun x => x.1 k))).map total) groups).map strictMean) := by
    intro q hq hv ho
    obtain ⟨t, Y, ht, hY, hs, ha⟩ := respondents_range q hq
    have hkeys : ((scoresOf q).map fun t => t k) = (List.ofFn q).map fun x => x.1 k := by
      rw [scoresOf, map_ofFn', map_ofFn']
    have hp := (hsort ((List.ofFn q).map fun x => x.1 k)).1
    rw [List.length_map, List.length_ofFn] at hp
    unfold sortedGroupFit
    rw [hkeys, hs, ha]
    set order := sort ((List.ofFn q).map fun x => x.1 k) with horder
    have hmem : ∀ i ∈ order, i < n := fun i hi => List.mem_range.1 (hp.mem_iff.1 hi)
    have hl : order.length = n := by simpa using hp.length_eq
    have hYo : ∀ i, i < n → ∀ j, j < m.items → IsObserved (Y i j) := fun i hi j hj => by
      have := hY ⟨i, hi⟩ j
      simp only at this
      rw [this]
      exact ho _ j hj
    rw [groupFit_aligned hm n t Y (fun i hi => by
      have e : Y i = fun j => (q ⟨i, hi⟩).2.getD j none := funext fun j => hY ⟨i, hi⟩ j
      rw [e]
      exact hv _) order hp groups (fun s hs' j hj => by
        have h2 : order.getD s 0 < n := by
          rw [List.getD_eq_getElem _ _ (by omega)]
          exact hmem _ (List.getElem_mem _)
        rw [(cellMissing_eq_false _).2 (hYo s hs' j hj), (cellMissing_eq_false _).2 (hYo _ h2 j hj)])]
    have e : (takeRows (List.ofFn q) order).map total = order.map (strictLogLik P m.items t Y) := by
      have hq : (List.ofFn q).map total = (List.range n).map (strictLogLik P m.items t Y) := by
        rw [map_ofFn']
        apply List.ext_getElem
        · simp
        · intro i h3 h4
          have hi : i < n := by simpa using h3
          have e1 := ht ⟨i, hi⟩
          have e2 := hY ⟨i, hi⟩
          simp only at e1 e2
          simp only [List.getElem_ofFn, List.getElem_map, List.getElem_range, total, strictLogLik, e1, e2]
      rw [← takeRows_map, hq, takeRows_map_range n _ order hmem]
    rw [e, groupSlices_map, List.map_map]
    rfl
  rw [hrun r hlen hvalid hobs, hrun _ (fun i => hlen _) (fun i => hvalid _) (fun i => hobs _),
    takeRows_sorted sort hsort (fun x : Respondent d => x.1 k) r hties σ]

/-! ## Where the order matters -/

/-- The claim for all respondents: the groups do not depend on the order. -/
def GroupsIgnoreOrder : Prop :=
  ∀ (n d : ℕ) (f : FittedModel d) (sort : List ℝ → List ℕ), IsSort sort → ∀ (k : Fin d) (groups : ℤ) (r : Fin n → Respondent d)
    (σ : Equiv.Perm (Fin n)),
    Unchanged (latentGroupProbabilities f sort k groups false (scoresOf r) (answerRows r))
      (latentGroupProbabilities f sort k groups false (scoresOf fun i => r (σ i)) (answerRows fun i => r (σ i)))

/-- Two respondents with the same score and different answers. -/
def exTied : Fin 2 → Respondent 1 := fun i => (fun _ => 0, [some (i : ℤ), some 0])

/-- The claim is false for respondents with the same score: their order in the data decides who comes into which group,
whatever order `torch.sort` gives ties. -/
theorem C116_groups_false : ¬ GroupsIgnoreOrder := by
  intro h
  have h1 := h 2 1 (exAE .ae none) exSort exSort_isSort 0 2 exTied (Equiv.swap 0 1)
  have hp := (exSort_isSort [0, 0]).1
  have ho : exSort [0, 0] = [0, 1] ∨ exSort [0, 0] = [1, 0] := by
    have : exSort [0, 0] ∈ List.permutations [0, 1] := List.mem_permutations.2 (by simpa [List.range_succ] using hp)
    simpa [List.permutations, List.permutationsAux, List.permutationsAux.rec] using this
  have e1 : scoresOf exTied = [fun _ => 0, fun _ => 0] := rfl
  have e2 : answerRows exTied = [[some 0, some 0], [some 1, some 0]] := by simp [answerRows, exTied]
  have e3 : (scoresOf fun i => exTied (Equiv.swap 0 1 i)) = [fun _ => 0, fun _ => 0] := rfl
  have e4 : (answerRows fun i => exTied (Equiv.swap 0 1 i)) = [[some 1, some 0], [some 0, some 0]] := by
    simp [answerRows, exTied]
  have hone : ∀ x : ℤ, x = 0 ∨ x = 1 → ∀ y : ℤ, y = 0 ∨ y = 1 → groupedDataProbabilities 2 2 [[[some x, some 0]], [[some y, some 0]]]
      = .ok [[[some (1 - x), some x], [some 1, some 0]], [[some (1 - y), some y], [some 1, some 0]]] := by
    rintro x (rfl | rfl) y (rfl | rfl) <;>
      simp [groupedDataProbabilities, groupProportions, bincount, cellMissing, List.range_succ, floatDiv, pure, Except.pure, bind,
        Except.bind]
  have hrun : ∀ x : ℤ, x = 0 ∨ x = 1 → ∀ y : ℤ, y = 0 ∨ y = 1 →
      (latentGroupProbabilities (exAE .ae none) exSort 0 2 false [fun _ => 0, fun _ => 0] [[some x, some 0], [some y, some 0]]).map
        GroupProbabilities.observed
        = .ok (if exSort [0, 0] = [0, 1] then [[[some (1 - x), some x], [some 1, some 0]], [[some (1 - y), some y], [some 1, some 0]]]
            else [[[some (1 - y), some y], [some 1, some 0]], [[some (1 - x), some x], [some 1, some 0]]]) := by
    intro x hx y hy
    have hc : maxCats [2, 2] = 2 := rfl
    have hb : ∀ (α : Type) (u v : α), torchChunk [u, v] 2 = .ok [[u], [v]] := by
      intro α u v
      simp [torchChunk, blocks]
    rcases ho with ho | ho
    · simp [latentGroupProbabilities, ho, takeRows, hb, exAE, hc, hone x hx y hy, bind_ok, pure, Except.pure, Except.map]
    · simp [latentGroupProbabilities, ho, takeRows, hb, exAE, hc, hone y hy x hx, bind_ok, pure, Except.pure, Except.map]
  have hab := hrun 0 (Or.inl rfl) 1 (Or.inr rfl)
  have hab' := hrun 1 (Or.inr rfl) 0 (Or.inl rfl)
  rw [e1, e2, e3, e4] at h1
  cases hA : latentGroupProbabilities (exAE .ae none) exSort 0 2 false [fun _ => 0, fun _ => 0] [[some 0, some 0], [some 1, some 0]] with
  | error e => rw [hA] at hab; cases hab
  | ok g =>
    have h2 := (h1 g).1 hA
    rw [h2] at hab'
    rw [hA] at hab
    rw [hab] at hab'
    have h3 := Except.ok.inj hab'
    rcases ho with ho | ho <;> simp [ho] at h3

/-- The claim for all data without ties: the mean log likelihoods of the groups do not depend on the order. -/
def GroupFitIgnoresOrder : Prop :=
  ∀ (n d : ℕ) (m : Scorer d) (cats : List ℕ) (P : (Fin d → ℝ) → ℕ → ℕ → ℝ), IsScorer m cats P →
    ∀ (sort : List ℝ → List ℕ), IsSort sort → ∀ (k : Fin d) (groups : ℕ) (r : Fin n → Respondent d),
    (∀ i, (r i).2.length = m.items) → (∀ i, ValidResponses cats fun j => (r i).2.getD j none) →
    (∀ i j, (r i).1 k = (r j).1 k → i = j) → ∀ σ : Equiv.Perm (Fin n),
    Unchanged (sortedGroupFit m sort k groups r) (sortedGroupFit m sort k groups fun i => r (σ i))

/-- Two respondents, the second with a lower score and a missing response. -/
def exUnsorted : Fin 2 → Respondent 1 := fun i => (fun _ => -(i : ℝ), if i = 0 then [some 1, some 1] else [some (-1), some 1])

theorem exSort_pair (x y : ℝ) : (x < y → exSort [x, y] = [0, 1]) ∧ (y < x → exSort [x, y] = [1, 0]) := by
  obtain ⟨hp, hs⟩ := exSort_isSort [x, y]
  have ho : exSort [x, y] = [0, 1] ∨ exSort [x, y] = [1, 0] := by
    have : exSort [x, y] ∈ List.permutations [0, 1] := List.mem_permutations.2 (by simpa [List.range_succ] using hp)
    simpa [List.permutations, List.permutationsAux, List.permutationsAux.rec] using this
  constructor
  · intro h
    rcases ho with ho | ho
    · exact ho
    · rw [ho] at hs
      simp at hs
      linarith
  · intro h
    rcases ho with ho | ho
    · rw [ho] at hs
      simp at hs
      linarith
    · exact ho

/-- The claim is false with missing responses: the call fails for respondents in one order and not in the other. -/
theorem C116_group_fit_false : ¬ GroupFitIgnoresOrder := by
  intro h
  have h1 := h 2 1 (exScore.scorer 1) _ _ exScore_isScorer exSort exSort_isSort 0 1 exUnsorted
    (fun i => by fin_cases i <;> rfl)
    (by
      intro i j c hc hm
      have hc2 : c = 2 := by simpa [exScore] using List.mem_of_getElem? hc
      subst hc2
      have hj : j < 2 := by
        have := List.getElem?_eq_some_iff.1 hc
        simpa [exScore] using this.1
      fin_cases i <;> interval_cases j <;> simp [exUnsorted, cellMissing] at hm ⊢ <;> exact ⟨1, rfl, by norm_num⟩)
    (by intro i j hij; fin_cases i <;> fin_cases j <;> simp [exUnsorted] at hij ⊢) (Equiv.swap 0 1)
  have hbad : sortedGroupFit (exScore.scorer 1) exSort 0 1 exUnsorted = .error .indexError := by
    have hs : ((scoresOf exUnsorted).map fun t => t 0) = [0, -1] := by simp [scoresOf, exUnsorted]
    unfold sortedGroupFit
    rw [hs, (exSort_pair 0 (-1)).2 (by norm_num)]
    have := C59_group_misaligned 2 exScore.M (fun θ : Fin 1 → ℝ => exScore.forwardRow (List.ofFn θ)) (fun _ => by
      rw [exScore.length_forwardRow]; rfl) 2 (fun i _ => -(i : ℝ)) (fun i j => if i = 1 ∧ j = 0 then some (-1) else some 1)
      [1, 0] (by decide) 1 0 0 (by norm_num) (by norm_num) ⟨1, by simp, by norm_num⟩ (by simp)
    have e1 : scoresOf exUnsorted = (List.range 2).map fun (i : ℕ) _ => -(i : ℝ) := by
      simp [scoresOf, exUnsorted, List.range_succ]
    have e2 : answerRows exUnsorted = dataOf 2 2 fun i j => if i = 1 ∧ j = 0 then some (-1) else some 1 := by
      simp [answerRows, exUnsorted, dataOf, List.range_succ]
    rw [e1, e2]
    exact this
  have hgood : ∃ x, sortedGroupFit (exScore.scorer 1) exSort 0 1 (fun i => exUnsorted (Equiv.swap 0 1 i)) = .ok x := by
    have hs : ((scoresOf fun i => exUnsorted (Equiv.swap 0 1 i)).map fun t => t 0) = [-1, 0] := by simp [scoresOf, exUnsorted]
    unfold sortedGroupFit
    rw [hs, (exSort_pair (-1) 0).1 (by norm_num)]
    have e1 : (scoresOf fun i => exUnsorted (Equiv.swap 0 1 i)) = (List.range 2).map fun (i : ℕ) _ => (i : ℝ) - 1 := by
      simp [scoresOf, exUnsorted, List.range_succ]
    have e2 : (answerRows fun i => exUnsorted (Equiv.swap 0 1 i)) = dataOf 2 2 fun i j => if i = 0 ∧ j = 0 then some (-1) else some 1 := by
      simp [answerRows, exUnsorted, dataOf, List.range_succ]
    rw [e1, e2]
    refine ⟨_, groupFit_aligned exScore_isScorer 2 (fun (i : ℕ) _ => (i : ℝ) - 1) (fun i j => if i = 0 ∧ j = 0 then some (-1) else some 1)
      ?_ [0, 1] (by decide) 1 ?_⟩
    · intro i _ j c hc hm
      have hc2 : c = 2 := by simpa [exScore] using List.mem_of_getElem? hc
      subst hc2
      by_cases h0 : i = 0 ∧ j = 0
      · simp [h0, cellMissing] at hm
      · exact ⟨1, if_neg h0, by norm_num⟩
    · intro s hs' j _
      interval_cases s <;> rfl
  obtain ⟨x, hx⟩ := hgood
  have := (h1 x).2 hx
  rw [hbad] at this
  cases this

/-! ## The hypotheses are met -/

/-- Three respondents with different scores and complete answers. -/
def exThreeOrder : Fin 3 → Respondent 1 := fun i => (fun _ => -(i : ℝ), [some (if i = 1 then 0 else 1), some 1])

theorem exThreeOrder_ties : ∀ i j, (exThreeOrder i).1 0 = (exThreeOrder j).1 0 → i = j := by
  intro i j h
  have : (i : ℕ) = (j : ℕ) := by
    have h' : ((i : ℕ) : ℝ) = ((j : ℕ) : ℝ) := neg_injective h
    exact_mod_cast h'
  exact Fin.ext this

theorem exThreeOrder_valid : ∀ i, ValidResponses exScore.cats fun j => (exThreeOrder i).2.getD j none := by
  intro i j c hc _
  have hc2 : c = 2 := by simpa [exScore] using List.mem_of_getElem? hc
  subst hc2
  have hj : j < 2 := by
    have := List.getElem?_eq_some_iff.1 hc
    simpa [exScore] using this.1
  fin_cases i <;> interval_cases j <;> first | exact ⟨1, rfl, by norm_num⟩ | exact ⟨0, rfl, by norm_num⟩

example : sortedGroupFit (exScore.scorer 1) exSort 0 2 (fun i => exThreeOrder (finRotate 3 i))
    = sortedGroupFit (exScore.scorer 1) exSort 0 2 exThreeOrder :=
  C116_group_fit_partial exScore_isScorer exSort exSort_isSort 0 2 exThreeOrder (fun _ => rfl) exThreeOrder_valid
    (by
      intro i j hj
      change j < 2 at hj
      fin_cases i <;> interval_cases j <;> first | exact ⟨1, rfl, by norm_num⟩ | exact ⟨0, rfl, by norm_num⟩)
    exThreeOrder_ties (finRotate 3)

/-- Three respondents in another order: the result of each respondent is found at the new place. -/
example : ∃ v v', evaluatorLogLikelihood (exScore.scorer 1) "sum" "respondent" (scoresOf exThreeOrder) (answerRows exThreeOrder)
      = .ok (.vector v) ∧
    evaluatorLogLikelihood (exScore.scorer 1) "sum" "respondent" (scoresOf fun i => exThreeOrder (finRotate 3 i))
      (answerRows fun i => exThreeOrder (finRotate 3 i)) = .ok (.vector v') ∧ v'[0]? = v[1]? ∧ v'[2]? = v[0]? := by
  have h := C116_log_likelihood exScore_isScorer exThreeOrder (fun _ => rfl) exThreeOrder_valid (finRotate 3) "sum" (Or.inr rfl)
  have hd : answerRows exThreeOrder = dataOf 3 (exScore.scorer 1).items fun i j => if i = 1 ∧ j = 0 then some 0 else some 1 := by
    change _ = dataOf 3 2 _
    simp [answerRows, exThreeOrder, dataOf, List.range_succ]
  have hs : scoresOf exThreeOrder = (List.range 3).map fun (i : ℕ) _ => -(i : ℝ) := by
    simp only [scoresOf, exThreeOrder, List.ofFn_succ, List.range_succ]
    norm_num
  have hrun := (C59_sums exScore_isScorer 3 (fun i _ => -(i : ℝ)) (fun i j => if i = 1 ∧ j = 0 then some 0 else some 1) (by
    intro i _ j c hc _
    have hc2 : c = 2 := by simpa [exScore] using List.mem_of_getElem? hc
    subst hc2
    by_cases h0 : i = 1 ∧ j = 0
    · exact ⟨0, if_pos h0, by norm_num⟩
    · exact ⟨1, if_neg h0, by norm_num⟩)).2.1
  rw [← hd, ← hs] at hrun
  obtain ⟨v, v', hv, hv', hm⟩ := h.2.2.1.2 _ hrun
  rw [hv] at hrun
  exact ⟨v, v', hrun, hv', hm.2.2 0, hm.2.2 2⟩

/-- The residuals of these respondents exist, so that the comparisons of `C116_residuals` and `C116_q3` are not between
errors. -/
example : ∃ x y, residuals 2 2 none "none" ((scoresOf exThreeOrder).map fun _ => [[1 / 2, 1 / 2], [1 / 2, 1 / 2]])
      (answerRows exThreeOrder) = .ok x ∧
    q3 3 2 2 none ((scoresOf exThreeOrder).map fun _ => [[1 / 2, 1 / 2], [1 / 2, 1 / 2]]) (answerRows exThreeOrder) = .ok y := by
  have hd : answerRows exThreeOrder = dataOf 3 2 fun i j => if i = 1 ∧ j = 0 then some 0 else some 1 := by
    simp [answerRows, exThreeOrder, dataOf, List.range_succ]
  have ht : ((scoresOf exThreeOrder).map fun _ => [[1 / 2, 1 / 2], [1 / 2, 1 / 2]]) = tablesOf 3 2 2 fun _ _ _ => (1 / 2 : ℝ) := by
    simp [scoresOf, tablesOf, List.range_succ]
  have h := C58_residuals 3 2 2 (by norm_num) none (fun _ _ _ => (1 / 2 : ℝ)) (fun i j => if i = 1 ∧ j = 0 then some 0 else some 1)
    (by
      intro i _ j _ y hy _
      split_ifs at hy <;> (cases hy; norm_num))
  rw [← hd, ← ht] at h
  suffices hq : ∃ y, q3 3 2 2 none ((scoresOf exThreeOrder).map fun _ => [[1 / 2, 1 / 2], [1 / 2, 1 / 2]]) (answerRows exThreeOrder)
      = .ok y from ⟨_, hq.choose, h, hq.choose_spec⟩
  rw [q3, h]
  exact ⟨_, rfl⟩

/-- An attached scale that doubles the scores. -/
example : latentGroupProbabilities { exAE .ae none with scales := [⟨fun ts => .ok (ts.map fun t k => 2 * t k), fun ts => .ok ts,
      fun _ => .ok []⟩] } exSort 0 2 true (scoresOf fun i => exThreeOrder (finRotate 3 i)) (answerRows fun i => exThreeOrder (finRotate 3 i))
    = latentGroupProbabilities { exAE .ae none with scales := [⟨fun ts => .ok (ts.map fun t k => 2 * t k), fun ts => .ok ts,
      fun _ => .ok []⟩] } exSort 0 2 true (scoresOf exThreeOrder) (answerRows exThreeOrder) :=
  C116_groups_rescaled_partial _ exSort exSort_isSort 0 2 (fun t k => 2 * t k) (fun ts => by
    simp [transformTheta, pure, Except.pure, bind, Except.bind]) exThreeOrder (fun i j h => exThreeOrder_ties i j (by
      simpa using h)) (finRotate 3)

example : groupFitResiduals (exAE .ae none) exSort 0 2 false true (scoresOf fun i => exThreeOrder (finRotate 3 i)) []
      (some (answerRows fun i => exThreeOrder (finRotate 3 i)))
    = groupFitResiduals (exAE .ae none) exSort 0 2 false true (scoresOf exThreeOrder) [] (some (answerRows exThreeOrder)) :=
  C116_group_residuals_partial _ exSort exSort_isSort 0 2 true [] exThreeOrder exThreeOrder_ties (finRotate 3)

end Irt
