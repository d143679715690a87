import Verif.Spec.EvaluatorCalls
import Verif.Lemmas.EvaluationOrder
import Verif.Props.Groups
import Verif.Props.OneHot
import Verif.Props.Lifecycle

/-! # Lemmas for C117: NaN and `-1` give the same evaluations -/

namespace Irt

open Spec

/-- NaN as the other code of a missing response. -/
def codeCell : Cell → Cell
  | none => some (-1)
  | some y => some y

theorem truncInt_neg_one : truncInt (-1) = -1 := by
  unfold truncInt
  norm_num

theorem cellRows_code (data : List (List Num)) :
    cellRows (residualsCallerData data) = (cellRows data).map fun r => r.map codeCell := by
  unfold cellRows residualsCallerData
  rw [List.map_map, List.map_map]
  refine List.map_congr_left fun r _ => ?_
  simp only [Function.comp, List.map_map]
  refine List.map_congr_left fun x _ => ?_
  cases x with
  | none => simp [nanToNegOne, numToCell, codeCell, truncInt_neg_one]
  | some v => rfl

theorem cellMissing_code (c : Cell) : cellMissing (codeCell c) = cellMissing c := by
  cases c <;> simp [codeCell, cellMissing]

theorem code_or (c : Cell) : codeCell c = c ∨ (cellMissing (codeCell c) = true ∧ cellMissing c = true) := by
  cases c with
  | none => exact Or.inr (by simp [codeCell, cellMissing])
  | some y => exact Or.inl rfl

theorem getD_code_or (row : List Cell) (j : ℕ) :
    (row.map codeCell).getD j none = row.getD j none ∨
      (cellMissing ((row.map codeCell).getD j none) = true ∧ cellMissing (row.getD j none) = true) := by
  rw [List.getD_eq_getElem?_getD, List.getD_eq_getElem?_getD, List.getElem?_map]
  cases row[j]? with
  | none => exact Or.inl rfl
  | some c => exact code_or c

theorem if_missing_congr {α : Type} {c c' : Cell} (h : c' = c ∨ (cellMissing c' = true ∧ cellMissing c = true)) (a : α)
    (g : Cell → α) : (if cellMissing c' then a else g c') = if cellMissing c then a else g c := by
  rcases h with h | ⟨h', h⟩
  · rw [h]
  · rw [if_pos h', if_pos h]

theorem residualRow_code (M : ℕ) (mc : Option (List ℤ)) (table : List (List ℝ)) (row : List Cell) :
    residualRow M mc table (row.map codeCell) = residualRow M mc table row := by
  unfold residualRow
  cases mc with
  | some k =>
    simp only
    rw [List.zip_map_right, List.mapM_map]
    congr 1
    funext pc
    unfold keyedResidual
    simp only [Function.comp, Prod.map, id, cellMissing_code]
    cases pc.2 <;> rfl
  | none =>
    simp only [List.zipWith_map_right]
    congr 1
    funext e
    congr 2
    funext x c
    unfold scoreResidual
    rw [cellMissing_code]
    cases c <;> rfl

theorem residuals_code (M items : ℕ) (mc : Option (List ℤ)) (over : String) (tables : List (List (List ℝ)))
    (data : List (List Cell)) :
    residuals M items mc over tables (data.map fun r => r.map codeCell) = residuals M items mc over tables data := by
  unfold residuals
  rw [List.zip_map_right, List.mapM_map]
  congr 1
  congr 1
  funext td
  exact residualRow_code M mc td.1 td.2

theorem accuracy_code (argmax : List ℝ → ℕ) (items : ℕ) (level : String) (tables : List (List (List ℝ)))
    (data : List (List Cell)) :
    accuracy argmax items level tables (data.map fun r => r.map codeCell) = accuracy argmax items level tables data := by
  unfold accuracy
  rw [List.zipWith_map_right]
  congr 2
  funext t row
  rw [List.zipWith_map_right]
  congr 1
  funext p c
  unfold accuracyCell
  exact if_missing_congr (code_or c) _ fun c => some (if c = some ((argmax p : ℕ) : ℤ) then 1 else 0)

theorem observedPairs_code (preds : List ℕ) (data : List (List Cell)) (j : ℕ) :
    observedPairs preds ((data.map fun r => r.map codeCell).map fun r => r.getD j none)
      = observedPairs preds (data.map fun r => r.getD j none) := by
  unfold observedPairs
  rw [List.map_map, List.zip_map_right, List.zip_map_right, List.filterMap_map, List.filterMap_map]
  refine List.filterMap_congr fun x _ => ?_
  simp only [Function.comp, Prod.map, id]
  exact if_missing_congr (getD_code_or x.2 j) none fun c => c.map fun y => (x.1, y)

theorem predictions_code (argmax : List ℝ → ℕ) (cats : List ℕ) (tables : List (List (List ℝ))) (data : List (List Cell)) :
    predictions argmax cats tables (data.map fun r => r.map codeCell) = predictions argmax cats tables data := by
  unfold predictions
  congr 1
  funext j c
  rw [observedPairs_code]

theorem fitRow_code (M : ℕ) (mc : Option (List ℤ)) (table : List (List ℝ)) (row : List Cell) :
    fitRow M mc table (row.map codeCell) = fitRow M mc table row := by
  unfold fitRow
  congr 1
  funext expected
  cases mc with
  | some keys =>
    simp only [List.length_map]
    congr 1
    congr 1
    funext scores
    congr 2
    funext j
    rcases getD_code_or row j with h | ⟨h', h⟩
    · rw [h]
    · rw [if_pos h', if_pos h]
  | none =>
    simp only [List.length_map]
    congr 2
    funext j
    rcases getD_code_or row j with h | ⟨h', h⟩
    · rw [h]
    · rw [if_pos h', if_pos h]

theorem infitOutfit_code (M items : ℕ) (mc : Option (List ℤ)) (level : String) (tables : List (List (List ℝ)))
    (data : List (List Cell)) :
    infitOutfit M items mc level tables (data.map fun r => r.map codeCell) = infitOutfit M items mc level tables data := by
  unfold infitOutfit
  rw [List.zip_map_right, List.mapM_map]
  congr 2
  congr 1
  funext td
  exact fitRow_code M mc td.1 td.2

theorem mask_code (data : List (List Cell)) :
    ((data.map fun r => r.map codeCell).map fun r => r.map cellMissing) = data.map fun r => r.map cellMissing := by
  rw [List.map_map]
  refine List.map_congr_left fun r _ => ?_
  simp only [Function.comp, List.map_map]
  exact List.map_congr_left fun c _ => cellMissing_code c

theorem flatten_code (data : List (List Cell)) :
    (data.map fun r => r.map codeCell).flatten = data.flatten.map codeCell := by rw [List.map_flatten]

theorem mask_flatten (data : List (List Cell)) :
    (data.map fun r => r.map cellMissing).flatten = data.flatten.map cellMissing := by rw [List.map_flatten]

theorem logLik_code {d : ℕ} {m : Scorer d} (hm : IgnoresMasked m) (outs : List m.Out) (cells : List Cell) :
    m.logLik outs (cells.map codeCell) (cells.map cellMissing) = m.logLik outs cells (cells.map cellMissing) := by
  refine hm _ _ _ _ (by simp) fun i hi => ?_
  rw [List.getElem?_map] at hi ⊢
  cases h : cells[i]? with
  | none => rfl
  | some c =>
    rw [h] at hi
    cases c with
    | none => exact absurd rfl hi
    | some y => rfl

theorem evaluatorLogLikelihood_code {d : ℕ} {m : Scorer d} (hm : IgnoresMasked m) (reduction level : String)
    (theta : Thetas d) (data : List (List Cell)) :
    evaluatorLogLikelihood m reduction level theta (data.map fun r => r.map codeCell)
      = evaluatorLogLikelihood m reduction level theta data := by
  unfold evaluatorLogLikelihood
  simp only [mask_code, flatten_code, mask_flatten, logLik_code hm]

theorem respondentMajorLL_code {d : ℕ} {m : Scorer d} (hm : IgnoresMasked m) (data : List (List Cell)) (grid : Thetas d) :
    respondentMajorLL m (data.map fun r => r.map codeCell) grid = respondentMajorLL m data grid := by
  unfold respondentMajorLL
  have e : repeatInterleave grid.length (data.map fun r => r.map codeCell)
      = (repeatInterleave grid.length data).map fun r => r.map codeCell := by
    unfold repeatInterleave
    simp only [List.flatMap_map, List.map_flatMap, List.map_replicate]
  simp only [e, mask_code, flatten_code, mask_flatten, logLik_code hm, List.length_map]

theorem scoreObjective_code {d : ℕ} {m : Scorer d} (hm : IgnoresMasked m) (prior : Option (Matrix (Fin d) (Fin d) ℝ))
    (data : List (List Cell)) :
    scoreObjective m prior (data.map fun r => r.map codeCell) = scoreObjective m prior data := by
  funext thetas
  unfold scoreObjective
  simp only [mask_code, flatten_code, mask_flatten, logLik_code hm]

theorem eapScores_code {d : ℕ} {m : Scorer d} (hm : IgnoresMasked m) (a : AlgAttrs d) (data : List (List Cell))
    (points : Option ℕ) : eapScores m a (data.map fun r => r.map codeCell) points = eapScores m a data points := by
  unfold eapScores eapOnGrid
  simp only [respondentMajorLL_code hm, List.length_map]

theorem initialTheta_code {d : ℕ} {m : Scorer d} (hm : IgnoresMasked m) (data : List (List Cell)) (ts : Thetas d)
    (perm : List ℕ) : initialTheta m (data.map fun r => r.map codeCell) ts perm = initialTheta m data ts perm := by
  unfold initialTheta initialFromCandidates
  simp only [respondentMajorLL_code hm, List.length_map]

theorem groupedData_code (M items : ℕ) (gs : List (List (List Cell))) :
    groupedDataProbabilities M items (gs.map fun g => g.map fun r => r.map codeCell) = groupedDataProbabilities M items gs := by
  unfold groupedDataProbabilities
  rw [List.mapM_map]
  congr 1
  funext g
  simp only [Function.comp]
  congr 1
  funext j
  unfold groupProportions
  rw [List.map_map, List.filterMap_map, List.filterMap_map]
  congr 2
  refine List.filterMap_congr fun r _ => ?_
  simp only [Function.comp]
  exact if_missing_congr (getD_code_or r j) none fun c => c

theorem chunk_code (data : List (List Cell)) (order : List ℕ) (groups : ℤ) :
    torchChunk (takeRows (data.map fun r => r.map codeCell) order) groups
      = (torchChunk (takeRows data order) groups).map (List.map (List.map fun r => r.map codeCell)) := by
  rw [takeRows_map, torchChunk_map]

theorem latentGroupProbabilities_code {d : ℕ} (f : FittedModel d) (sort : List ℝ → List ℕ) (k : Fin d) (groups : ℤ)
    (rescale : Bool) (theta : Thetas d) (data : List (List Cell)) :
    latentGroupProbabilities f sort k groups rescale theta (data.map fun r => r.map codeCell)
      = latentGroupProbabilities f sort k groups rescale theta data := by
  have key : ∀ (order : List ℕ) {β : Type} (h : List (List (List Num)) → Except PyErr β),
      (torchChunk (takeRows (data.map fun r => r.map codeCell) order) groups >>= fun g =>
        groupedDataProbabilities (maxCats f.cats) f.cats.length g >>= h)
      = (torchChunk (takeRows data order) groups >>= fun g =>
        groupedDataProbabilities (maxCats f.cats) f.cats.length g >>= h) := by
    intro order β h
    rw [chunk_code]
    cases torchChunk (takeRows data order) groups with
    | error e => rfl
    | ok gs => exact congrArg (· >>= h) (groupedData_code _ _ gs)
  unfold latentGroupProbabilities
  by_cases h : (rescale && !f.scales.isEmpty) = true
  · rw [if_pos h, if_pos h]
    simp only [key]
  · rw [if_neg h, if_neg h]
    simp only [key]

theorem groupFitResiduals_code {d : ℕ} (f : FittedModel d) (sort : List ℝ → List ℕ) (k : Fin d) (groups : ℤ)
    (rescale standardize : Bool) (theta : Thetas d) (data : List (List Cell)) (given : Bool) :
    groupFitResiduals f sort k groups rescale standardize theta (data.map fun r => r.map codeCell)
        (if given then some (data.map fun r => r.map codeCell) else none)
      = groupFitResiduals f sort k groups rescale standardize theta data (if given then some data else none) := by
  unfold groupFitResiduals
  have e : ∀ x : List (List Cell), (if given then some x else none).getD x = x := by intro x; cases given <;> rfl
  rw [e, e, latentGroupProbabilities_code]
  congr 1
  funext g
  cases given with
  | false => rfl
  | true =>
    simp only [if_true]
    cases standardize with
    | false => rfl
    | true =>
      simp only [if_true]
      rw [torchChunk_map]
      cases torchChunk data groups with
      | error e => rfl
      | ok gs =>
        change Except.ok _ = Except.ok _
        rw [List.zipWith_map_left]
        simp only [List.length_map]

theorem q3_code (n p M : ℕ) (mc : Option (List ℤ)) (tables : List (List (List ℝ))) (data : List (List Cell)) :
    q3 n p M mc tables (data.map fun r => r.map codeCell) = q3 n p M mc tables data := by
  unfold q3
  rw [residuals_code]

/-- Evaluations do not see which code a missing response has. -/
theorem value_code {d : ℕ} (env : EvalEnv) (f : FittedModel d) (hf : IgnoresMasked f.scorer) (given : Bool)
    (data : List (List Num)) (theta : Thetas d) (what : Evaluation d) (hw : IgnoresCode what) :
    what.value env f given (residualsCallerData data) theta = what.value env f given data theta := by
  cases what <;> simp only [Evaluation.value, cellRows_code, residuals_code, groupFitResiduals_code, accuracy_code,
    predictions_code, infitOutfit_code, evaluatorLogLikelihood_code hf, latentGroupProbabilities_code, q3_code]
  · exact absurd hw id
  · exact absurd hw id
  · simp [residualsCallerData]

/-! ## Scores -/

theorem negOneToNaN_code (x : Num) : negOneToNaN (nanToNegOne x) = negOneToNaN x := by
  cases x <;> simp [nanToNegOne, negOneToNaN]

theorem negOne_code (data : List (List Num)) :
    ((residualsCallerData data).map fun r => r.map negOneToNaN) = data.map fun r => r.map negOneToNaN := by
  unfold residualsCallerData
  rw [List.map_map]
  refine List.map_congr_left fun r _ => ?_
  simp only [Function.comp, List.map_map]
  exact List.map_congr_left fun x _ => negOneToNaN_code x

theorem code_code (data : List (List Num)) : residualsCallerData (residualsCallerData data) = residualsCallerData data := by
  unfold residualsCallerData
  rw [List.map_map]
  refine List.map_congr_left fun r _ => ?_
  simp only [Function.comp, List.map_map]
  refine List.map_congr_left fun x _ => ?_
  cases x <;> rfl

theorem code_of_not_nan (data : List (List Num)) (h : anyNaN data = false) : residualsCallerData data = data := by
  unfold residualsCallerData
  unfold anyNaN at h
  refine (List.map_congr_left fun r hr => ?_).trans (List.map_id _)
  refine (List.map_congr_left fun x hx => ?_).trans (List.map_id _)
  cases x with
  | none =>
    rw [List.any_eq_false] at h
    exact absurd (List.any_eq_true.2 ⟨none, hx, rfl⟩) (h r hr)
  | some v => rfl

theorem oneHot_code (cats : List ℕ) (width : ℕ) (data : List (List Num)) :
    (oneHotEncode cats width (residualsCallerData data)).1 = (oneHotEncode cats width data).1 := by
  have e : ∀ x : List (List Num), (if anyNaN x then x.map fun r => r.map nanToNegOne else x) = residualsCallerData x := by
    intro x
    cases h : anyNaN x with
    | true => rfl
    | false => rw [code_of_not_nan x h]; rfl
  unfold oneHotEncode
  by_cases hw : width ≠ cats.length
  · rw [if_pos hw, if_pos hw]
  · rw [if_neg hw, if_neg hw]
    simp only [e, code_code]

theorem anyMissing_code (data : List (List Num)) :
    ((residualsCallerData data).any fun r => r.any isMissing) = data.any fun r => r.any isMissing := by
  unfold residualsCallerData
  rw [List.any_map]
  congr 1
  funext r
  simp only [Function.comp, List.any_map]
  congr 1
  funext x
  cases x <;> simp [nanToNegOne, isMissing]

theorem impute_code (width : ℕ) (data : List (List Num)) (method : String) (mc : Option (List ℤ)) (cats : Option (List ℤ))
    (draw : ℕ → ℕ → ℕ) :
    imputeMissingInternal width (residualsCallerData data) method mc cats draw
      = imputeMissingInternal width data method mc cats draw := by
  unfold imputeMissingInternal
  simp only [negOne_code]

theorem encoderInput_code (width : ℕ) (cats : List ℕ) (oneHot : Bool) (imputation : Option String) (data : List (List Num))
    (draw : ℕ → ℕ → ℕ) :
    (latentScoresEncoderInput width cats oneHot imputation (residualsCallerData data) draw).1
      = (latentScoresEncoderInput width cats oneHot imputation data draw).1 := by
  cases h : data.any fun r => r.any isMissing with
  | false =>
    have : anyNaN data = false := by
      unfold anyNaN
      rw [List.any_eq_false] at h ⊢
      intro r hr hx
      obtain ⟨x, hx, hn⟩ := List.any_eq_true.1 hx
      refine h r hr (List.any_eq_true.2 ⟨x, hx, ?_⟩)
      cases x with
      | none => rfl
      | some v => exact absurd hn (by simp)
    rw [code_of_not_nan data this]
  | true =>
    unfold latentScoresEncoderInput
    simp only [anyMissing_code, h, if_true, impute_code]
    cases imputation with
    | none =>
      cases oneHot with
      | false => rfl
      | true => simp only [if_true, oneHot_code]
    | some method =>
      simp only
      cases imputeMissingInternal width data method none none draw <;> rfl

theorem cells_code (data : List (List Num)) :
    ((residualsCallerData data).map fun r => r.map numToCell) = (data.map fun r => r.map numToCell).map fun r => r.map codeCell :=
  cellRows_code data

theorem rawScores_code {d : ℕ} (f : FittedModel d) (hf : SeesAnswers f) (width : ℕ) (data : List (List Num))
    (method : String) (se : Bool) (points : Option ℕ) :
    rawScores f width (residualsCallerData data) method se points = rawScores f width data method se points := by
  have hstart : startScores f width (residualsCallerData data) = startScores f width data := by
    unfold startScores
    cases f.attrs.oneHotEncoded with
    | some oneHot => simp only [encoderInput_code]
    | none =>
      simp only [cells_code, initialTheta_code hf.scorer]
      have : (residualsCallerData data).length = data.length := by simp [residualsCallerData]
      rw [this]
  obtain ⟨g, hg⟩ := hf.search
  have hml : ∀ start, mlMapScores f method ((residualsCallerData data).map fun r => r.map numToCell) start
      = mlMapScores f method (data.map fun r => r.map numToCell) start := by
    intro start
    have : ∀ prior, f.optimise prior ((residualsCallerData data).map fun r => r.map numToCell) start
        = f.optimise prior (data.map fun r => r.map numToCell) start := by
      intro prior
      rw [hg, hg, cells_code, scoreObjective_code hf.scorer]
      congr 1
      simp only [List.map_map]
      refine List.map_congr_left fun r _ => ?_
      simp
    unfold mlMapScores
    simp only [this]
  unfold rawScores
  simp only [hstart, hml]
  simp only [cells_code, eapScores_code hf.scorer]

theorem latentScores_code {d : ℕ} (m : ModelLife d) (hf : SeesAnswers m.fitted) (width : ℕ) (data : List (List Num))
    (method : String) (rescale : Bool) (points : Option ℕ) :
    m.latentScores width (residualsCallerData data) method rescale points = m.latentScores width data method rescale points := by
  unfold ModelLife.latentScores latentScores
  rw [rawScores_code m.now ⟨hf.scorer, hf.search⟩]

/-! ## Writes -/

theorem oneHot_writes (cats : List ℕ) (width : ℕ) (data : List (List Num)) :
    (oneHotEncode cats width data).2 = data ∨ (oneHotEncode cats width data).2 = residualsCallerData data := by
  unfold oneHotEncode
  by_cases hw : width ≠ cats.length
  · rw [if_pos hw]; exact Or.inl rfl
  · rw [if_neg hw]
    cases h : anyNaN data with
    | true => exact Or.inr rfl
    | false => exact Or.inl rfl

theorem encoderInput_writes (width : ℕ) (cats : List ℕ) (oneHot : Bool) (imputation : Option String) (data : List (List Num))
    (draw : ℕ → ℕ → ℕ) :
    (latentScoresEncoderInput width cats oneHot imputation data draw).2 = data ∨
      (latentScoresEncoderInput width cats oneHot imputation data draw).2 = residualsCallerData data := by
  unfold latentScoresEncoderInput
  cases h : data.any fun r => r.any isMissing with
  | false =>
    simp only [Bool.false_eq_true, if_false]
    cases oneHot with
    | false => exact Or.inl rfl
    | true => exact oneHot_writes cats width data
  | true =>
    simp only [if_true]
    cases imputation with
    | none =>
      cases oneHot with
      | false => exact Or.inl rfl
      | true => exact oneHot_writes cats width data
    | some method =>
      simp only
      cases imputeMissingInternal width data method none none draw <;> exact Or.inl rfl

theorem scoringWrites_or {d : ℕ} (f : FittedModel d) (width : ℕ) (data : List (List Num)) (method : String) :
    scoringWrites f width data method = data ∨ scoringWrites f width data method = residualsCallerData data := by
  unfold scoringWrites
  by_cases h1 : method ∉ ["NN", "ML", "EAP", "MAP"]
  · rw [if_pos h1]; exact Or.inl rfl
  rw [if_neg h1]
  by_cases h2 : f.attrs.hasEncoder = false ∧ method = "NN"
  · rw [if_pos h2]; exact Or.inl rfl
  rw [if_neg h2]
  by_cases h3 : method = "EAP"
  · rw [if_pos h3]; exact Or.inl rfl
  rw [if_neg h3]
  cases f.attrs.oneHotEncoded with
  | none => exact Or.inl rfl
  | some oneHot => exact encoderInput_writes ..

/-- A tensor is as it was, or its NaN have become `-1`. -/
def CodedOr (x y : List (List Num)) : Prop := y = x ∨ y = residualsCallerData x

theorem CodedOr.trans {x y z : List (List Num)} (h : CodedOr x y) (h' : CodedOr y z) : CodedOr x z := by
  rcases h with rfl | rfl
  · exact h'
  · rcases h' with rfl | rfl
    · exact Or.inr rfl
    · exact Or.inr (code_code x)

theorem codedOr_update {d : ℕ} (s : EvalSession d) (i : ℕ) (x : List (List Num)) (h : CodedOr (s.store i) x) (j : ℕ) :
    CodedOr (s.store j) (Function.update s.store i x j) := by
  by_cases hj : j = i
  · subst hj; rw [Function.update_self]; exact h
  · rw [Function.update_of_ne hj]; exact Or.inl rfl

theorem scored_or {d : ℕ} (s : EvalSession d) (c : EvalCall d) (i : ℕ) : CodedOr (s.store i) (c.scored s i) := by
  unfold EvalCall.scored
  cases c.theta with
  | some t => exact Or.inl rfl
  | none => exact scoringWrites_or ..

/-- What a call leaves as it was. -/
theorem after_keeps {d : ℕ} (s : EvalSession d) (c : EvalCall d) :
    (c.after s).life = s.life ∧ (c.after s).width = s.width ∧ (c.after s).train = s.train ∧
      ∀ j, CodedOr (s.store j) ((c.after s).store j) := by
  unfold EvalCall.after
  cases c.refused with
  | some e => exact ⟨rfl, rfl, rfl, fun _ => Or.inl rfl⟩
  | none =>
    simp only
    cases c.tensor s with
    | error e => exact ⟨rfl, rfl, rfl, fun _ => Or.inl rfl⟩
    | ok i =>
      simp only
      cases c.scores s i with
      | error e => exact ⟨rfl, rfl, rfl, codedOr_update s i _ (scored_or s c i)⟩
      | ok t =>
        refine ⟨rfl, rfl, rfl, codedOr_update s i _ ?_⟩
        cases c.what.writes with
        | false => exact scored_or s c i
        | true => exact (scored_or s c i).trans (Or.inr rfl)

theorem step_keeps {d : ℕ} (s : EvalSession d) (step : EvalStep d) :
    (step.run s).life.fitted = s.life.fitted ∧ (step.run s).width = s.width ∧ (step.run s).train = s.train ∧
      (¬ ChangesScale step → (step.run s).life = s.life) ∧ ∀ j, CodedOr (s.store j) ((step.run s).store j) := by
  cases step with
  | evaluate c =>
    obtain ⟨h1, h2, h3, h4⟩ := after_keeps s c
    exact ⟨congrArg ModelLife.fitted h1, h2, h3, fun _ => h1, h4⟩
  | score i method rescale points =>
    exact ⟨rfl, rfl, rfl, fun _ => rfl, codedOr_update s i _ (scoringWrites_or ..)⟩
  | add scale => exact ⟨rfl, rfl, rfl, fun h => absurd trivial h, fun _ => Or.inl rfl⟩
  | detach => exact ⟨rfl, rfl, rfl, fun h => absurd trivial h, fun _ => Or.inl rfl⟩

theorem session_keeps {d : ℕ} (s : EvalSession d) (history : List (EvalStep d)) :
    (s.run history).life.fitted = s.life.fitted ∧ (s.run history).width = s.width ∧ (s.run history).train = s.train ∧
      ((∀ step ∈ history, ¬ ChangesScale step) → (s.run history).life = s.life) ∧
      ∀ j, CodedOr (s.store j) ((s.run history).store j) := by
  induction history generalizing s with
  | nil => exact ⟨rfl, rfl, rfl, fun _ => rfl, fun _ => Or.inl rfl⟩
  | cons step rest ih =>
    obtain ⟨h1, h2, h3, h4, h5⟩ := step_keeps s step
    obtain ⟨g1, g2, g3, g4, g5⟩ := ih (step.run s)
    refine ⟨g1.trans h1, g2.trans h2, g3.trans h3, fun h => ?_, fun j => (h5 j).trans (g5 j)⟩
    exact (g4 fun t ht => h t (List.mem_cons_of_mem _ ht)).trans (h4 (h step List.mem_cons_self))

end Irt
