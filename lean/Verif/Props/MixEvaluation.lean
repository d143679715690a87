import Verif.Props.MixScoring
import Verif.Props.GroupFit

/-! # C134: the evaluator's log likelihood of a mix of models -/

namespace Irt
open Spec

variable {α : Type} {d : ℕ}

theorem floor_cell (P : (Fin d → ℝ) → ℕ → ℕ → ℝ) (t : ℕ → Fin d → ℝ) (y : ℕ → ℕ → Cell) (i j : ℕ) :
    floorLogLik (if cellMissing (y i j) then none else some (logE (P (t i) j (responseOf (y i j))))) = cellLogLik P t y i j := by
  unfold cellLogLik
  by_cases h : IsObserved (y i j)
  · rw [(cellMissing_eq_false _).2 h, if_pos h]
    simp only [Bool.false_eq_true, if_false, logE, flooredLog]
    split <;> rfl
  · rw [(cellMissing_iff _).2 h, if_neg h]
    rfl

/-- The responses are all there, in another order. -/
theorem mix_cells_perm (N : ℕ) (t : ℕ → Fin d → ℝ) (ps : List (Piece α d)) (y : ℕ → ℕ → Cell) :
    ((mixCells N t ps y).map floorLogLik).Perm (flatTensor N (pieceCats ps).length (cellLogLik (pieceProb ps) t y)) := by
  refine ((mixCells_perm N t ps y).map floorLogLik).trans (List.Perm.of_eq ?_)
  rw [flatTensor_eq, flatTensor_eq, List.map_map]
  exact List.map_congr_left fun s _ => floor_cell (pieceProb ps) t y _ _

theorem mix_items (ps : List (Piece α d)) (hps : ∀ p ∈ ps, p.Right) :
    (mixScorer d (ps.map Piece.comp)).items = (pieceCats ps).length := pieceCats_length ps hps

/-- What the evaluator reduces. -/
theorem mix_evaluated (N : ℕ) (t : ℕ → Fin d → ℝ) (ps : List (Piece α d)) (hps : ∀ p ∈ ps, p.Right) (y : ℕ → ℕ → Cell)
    (hy : ∀ i, i < N → ValidResponses (pieceCats ps) (y i)) (reduction level : String) :
    evaluatorLogLikelihood (mixScorer d (ps.map Piece.comp)) reduction level ((List.range N).map t) (dataOf N (pieceCats ps).length y)
      = .ok (if reduction.toList <:+: "mean".toList then
          reduceDim nanMean (pieceCats ps).length (levelDim level) (view (pieceCats ps).length ((mixCells N t ps y).map floorLogLik))
        else if reduction = "sum" then
          reduceDim nanSum (pieceCats ps).length (levelDim level) (view (pieceCats ps).length ((mixCells N t ps y).map floorLogLik))
        else .matrix (view (pieceCats ps).length ((mixCells N t ps y).map floorLogLik))) := by
  have h := mix_logLik N t ps hps y hy
  unfold evaluatorLogLikelihood
  simp only [dataOf_eq, mask_eq, rowsOf_flatten, List.map_map, mix_items ps hps, Function.comp_def, h, bind_ok]
  split
  · rfl
  · split <;> rfl

theorem view_all {β : Type} (N K : ℕ) (xs : List β) (h : xs.length = N * K) (hK : 0 < K) : (view K xs).flatten = xs := by
  unfold view
  rw [h, Nat.mul_div_cancel _ hK]
  exact flatten_viewRows N K xs h

theorem mix_cells_length (N : ℕ) (t : ℕ → Fin d → ℝ) (ps : List (Piece α d)) (y : ℕ → ℕ → Cell) :
    ((mixCells N t ps y).map floorLogLik).length = N * (pieceCats ps).length := by
  rw [(mix_cells_perm N t ps y).length_eq, length_flatTensor]

/-! ## The whole test -/

/-- C134: the log likelihood of all responses under a mix (`level="all"`, the default) is the sum over the observed responses of their
log probabilities, with -30 for an impossible one. -/
theorem C134_total (ps : List (Piece α d)) (hps : ∀ p ∈ ps, p.Right) (hne : pieceCats ps ≠ []) (N : ℕ) (t : ℕ → Fin d → ℝ)
    (y : ℕ → ℕ → Cell) (hy : ∀ i, i < N → ValidResponses (pieceCats ps) (y i)) :
    evaluatorLogLikelihood (mixScorer d (ps.map Piece.comp)) "sum" "all" ((List.range N).map t) (dataOf N (pieceCats ps).length y)
      = .ok (.scalar (some (∑ i ∈ Finset.range N, ∑ j ∈ (Finset.range (pieceCats ps).length).filter fun j => IsObserved (y i j),
          flooredLog (pieceProb ps (t i) j (responseOf (y i j)))))) := by
  rw [mix_evaluated N t ps hps y hy, if_neg (by decide), if_pos rfl]
  simp only [levelDim, show ("all" = "item") = False from by decide, show ("all" = "respondent") = False from by decide, if_false,
    reduceDim]
  rw [view_all N _ _ (mix_cells_length N t ps y) (List.length_pos_iff.2 hne)]
  unfold nanSum
  rw [((mix_cells_perm N t ps y).filterMap id).sum_eq]
  congr 3
  unfold flatTensor
  rw [List.filterMap_flatMap, List.flatMap_def, List.sum_flatten, List.map_map, list_sum_range]
  refine Finset.sum_congr rfl fun i _ => ?_
  rw [← sum_filterMap_if]
  rfl

/-- C134: the mean over all responses is the mean over the observed ones. -/
theorem C134_mean (ps : List (Piece α d)) (hps : ∀ p ∈ ps, p.Right) (hne : pieceCats ps ≠ []) (N : ℕ) (t : ℕ → Fin d → ℝ)
    (y : ℕ → ℕ → Cell) (hy : ∀ i, i < N → ValidResponses (pieceCats ps) (y i)) :
    ∃ x, evaluatorLogLikelihood (mixScorer d (ps.map Piece.comp)) "mean" "all" ((List.range N).map t) (dataOf N (pieceCats ps).length y)
        = .ok (.scalar x) ∧ (x = none ↔ ∀ i, i < N → ∀ j, j < (pieceCats ps).length → ¬ IsObserved (y i j)) ∧
      ∀ r, x = some r → IsMeanOfObserved (flatTensor N (pieceCats ps).length (cellLogLik (pieceProb ps) t y)) r := by
  have hperm := (mix_cells_perm N t ps y).filterMap id
  refine ⟨nanMean ((mixCells N t ps y).map floorLogLik), ?_, ?_, ?_⟩
  · rw [mix_evaluated N t ps hps y hy, if_pos (List.infix_refl _)]
    simp only [levelDim, show ("all" = "item") = False from by decide, show ("all" = "respondent") = False from by decide, if_false,
      reduceDim]
    rw [view_all N _ _ (mix_cells_length N t ps y) (List.length_pos_iff.2 hne)]
  · have hnone : ∀ i j, cellLogLik (pieceProb ps) t y i j = none ↔ ¬ IsObserved (y i j) := by
      intro i j
      unfold cellLogLik
      by_cases h : IsObserved (y i j) <;> simp [h]
    rw [(nanMean_spec _).1, ← List.length_eq_zero_iff, hperm.length_eq, List.length_eq_zero_iff, List.filterMap_eq_nil_iff]
    simp only [flatTensor, List.mem_flatMap, List.mem_map, List.mem_range]
    constructor
    · intro h i hi j hj
      exact (hnone i j).1 (h _ ⟨i, hi, j, hj, rfl⟩)
    · rintro h x ⟨i, hi, j, hj, rfl⟩
      exact (hnone i j).2 (h i hi j hj)
  · intro r hr
    obtain ⟨h1, h2⟩ := (nanMean_spec _).2 r hr
    refine ⟨?_, ?_⟩
    · rw [← List.length_pos_iff, ← hperm.length_eq, List.length_pos_iff]
      exact h1
    · rw [← hperm.length_eq, ← hperm.sum_eq]
      exact h2

/-! ## Each respondent and each item -/

/-- The claim: without reduction, row `i` and column `j` hold the value of respondent `i` and item `j`. -/
def MixCellwise : Prop :=
  ∀ (ps : List (Piece Logit 1)), (∀ p ∈ ps, p.Right) → ∀ (N : ℕ) (t : ℕ → Fin 1 → ℝ) (y : ℕ → ℕ → Cell),
    (∀ i, i < N → ValidResponses (pieceCats ps) (y i)) →
    evaluatorLogLikelihood (mixScorer 1 (ps.map Piece.comp)) "none" "all" ((List.range N).map t) (dataOf N (pieceCats ps).length y)
      = .ok (.matrix (rowsOf N (pieceCats ps).length (cellLogLik (pieceProb ps) t y)))

/-- The claim: with `level="respondent"` each respondent gets the log likelihood of their own responses. -/
def MixByRespondent : Prop :=
  ∀ (ps : List (Piece Logit 1)), (∀ p ∈ ps, p.Right) → ∀ (N : ℕ) (t : ℕ → Fin 1 → ℝ) (y : ℕ → ℕ → Cell),
    (∀ i, i < N → ValidResponses (pieceCats ps) (y i)) →
    evaluatorLogLikelihood (mixScorer 1 (ps.map Piece.comp)) "sum" "respondent" ((List.range N).map t) (dataOf N (pieceCats ps).length y)
      = .ok (.vector ((List.range N).map fun i => some (∑ j ∈ (Finset.range (pieceCats ps).length).filter fun j => IsObserved (y i j),
          flooredLog (pieceProb ps (t i) j (responseOf (y i j))))))

/-- The claim: with `level="item"` each item gets the log likelihood of the responses to it. -/
def MixByItem : Prop :=
  ∀ (ps : List (Piece Logit 1)), (∀ p ∈ ps, p.Right) → ∀ (N : ℕ) (t : ℕ → Fin 1 → ℝ) (y : ℕ → ℕ → Cell),
    (∀ i, i < N → ValidResponses (pieceCats ps) (y i)) →
    evaluatorLogLikelihood (mixScorer 1 (ps.map Piece.comp)) "sum" "item" ((List.range N).map t) (dataOf N (pieceCats ps).length y)
      = .ok (.vector ((List.range (pieceCats ps).length).map fun j => some (∑ i ∈ (Finset.range N).filter fun i => IsObserved (y i j),
          flooredLog (pieceProb ps (t i) j (responseOf (y i j))))))

/-- The claim: `group_fit_log_likelihood` gives the mean log likelihood of the respondents of each group, if no response is missing. -/
def MixByGroup : Prop :=
  ∀ (ps : List (Piece Logit 1)), (∀ p ∈ ps, p.Right) → ∀ (N : ℕ) (t : ℕ → Fin 1 → ℝ) (y : ℕ → ℕ → Cell),
    (∀ i, i < N → ValidResponses (pieceCats ps) (y i)) → (∀ i, i < N → ∀ j, j < (pieceCats ps).length → IsObserved (y i j)) →
    ∀ groups, 0 < groups → ∃ gs, IsEvenCut (List.range N) groups gs ∧
      groupFitLogLikelihood (mixScorer 1 (ps.map Piece.comp)) (List.range N) groups ((List.range N).map t)
          (dataOf N (pieceCats ps).length y)
        = .ok (gs.map (groupMeanLogLik (pieceProb ps) (pieceCats ps).length t y))

/-- C134: where the values of a mix of two models end up. The number at row `i`, column `j` of the reported matrix belongs to the
respondent and item at position `i * items + j` of a list with all responses to the items of the first model, respondent after
respondent, and then all responses to those of the second. -/
theorem C134_where (p q : Piece α d) (hp : p.Right) (hq : q.Right) (hpne : p.cats ≠ []) (hqne : q.cats ≠ []) (N : ℕ)
    (t : ℕ → Fin d → ℝ) (y : ℕ → ℕ → Cell) (hy : ∀ i, i < N → ValidResponses (pieceCats [p, q]) (y i)) (level : String) :
    ∃ rows, evaluatorLogLikelihood (mixScorer d ([p, q].map Piece.comp)) "none" level ((List.range N).map t)
        (dataOf N (p.cats.length + q.cats.length) y) = .ok (.matrix rows) ∧ rows.length = N ∧
      ∀ i j, i < N → j < p.cats.length + q.cats.length → ∀ s, s = i * (p.cats.length + q.cats.length) + j →
        (rows[i]?.bind fun row => row[j]?) = some (
          if s < N * p.cats.length then cellLogLik p.P t y (s / p.cats.length) (s % p.cats.length)
          else cellLogLik q.P t (fun i j => y i (p.cats.length + j)) ((s - N * p.cats.length) / q.cats.length)
            ((s - N * p.cats.length) % q.cats.length)) := by
  have hlen : (pieceCats [p, q]).length = p.cats.length + q.cats.length := by simp [pieceCats]
  have hps : ∀ r ∈ [p, q], r.Right := by
    intro r hr
    rcases List.mem_cons.1 hr with rfl | hr
    · exact hp
    · rw [List.mem_singleton.1 hr]; exact hq
  have hppos := List.length_pos_iff.2 hpne
  have hqpos := List.length_pos_iff.2 hqne
  refine ⟨view (p.cats.length + q.cats.length) ((mixCells N t [p, q] y).map floorLogLik), ?_, ?_, ?_⟩
  · have h := mix_evaluated N t [p, q] hps y hy "none" level
    rw [if_neg (by decide), if_neg (by decide), hlen] at h
    exact h
  · unfold view
    rw [mix_cells_length, hlen, Nat.mul_div_cancel _ (by omega), length_viewRows]
  · intro i j hi hj s hs
    have hl := mix_cells_length N t [p, q] y
    rw [hlen] at hl
    have hcells : (mixCells N t [p, q] y).map floorLogLik = flatTensor N p.cats.length (cellLogLik p.P t y)
        ++ flatTensor N q.cats.length (cellLogLik q.P t fun i j => y i (p.cats.length + j)) := by
      simp only [mixCells, List.append_nil, List.map_append]
      congr 1
      · rw [flatTensor_eq, flatTensor_eq, List.map_map]
        exact List.map_congr_left fun s _ => floor_cell p.P t y _ _
      · rw [flatTensor_eq, flatTensor_eq, List.map_map]
        exact List.map_congr_left fun s _ => floor_cell q.P t (fun i j => y i (p.cats.length + j)) _ _
    have hsN : s < N * (p.cats.length + q.cats.length) := by
      have : (i + 1) * (p.cats.length + q.cats.length) ≤ N * (p.cats.length + q.cats.length) := Nat.mul_le_mul_right _ hi
      rw [hs]
      linarith [Nat.succ_mul i (p.cats.length + q.cats.length)]
    unfold view
    rw [hl, Nat.mul_div_cancel _ (by omega), viewRows_getElem? N _ _ hl i j hj, ← hs, hcells, flatTensor_eq, flatTensor_eq]
    split
    · rename_i hlt
      rw [List.getElem?_append_left (by simpa using hlt), List.getElem?_map, List.getElem?_range hlt]
      rfl
    · rename_i hge
      rw [List.getElem?_append_right (by simpa using hge), List.getElem?_map, List.length_map, List.length_range,
        List.getElem?_range (by rw [Nat.mul_add] at hsN; omega)]
      rfl

/-- C134: for a single respondent the reported matrix is right. -/
theorem C134_one_respondent (ps : List (Piece α d)) (hps : ∀ p ∈ ps, p.Right) (hne : pieceCats ps ≠ []) (t : ℕ → Fin d → ℝ)
    (y : ℕ → ℕ → Cell) (hy : ValidResponses (pieceCats ps) (y 0)) (level : String) :
    evaluatorLogLikelihood (mixScorer d (ps.map Piece.comp)) "none" level [t 0] (dataOf 1 (pieceCats ps).length y)
      = .ok (.matrix (rowsOf 1 (pieceCats ps).length (cellLogLik (pieceProb ps) t y))) := by
  have hone : ∀ (K : ℕ) {β : Type} (f : ℕ → ℕ → β), flatTensor 1 K f = (List.range K).map (f 0) := by
    intro K β f
    simp [flatTensor, List.range_succ]
  have hcells : ∀ (ps : List (Piece α d)) (y : ℕ → ℕ → Cell), (mixCells 1 t ps y).map floorLogLik
      = (List.range (pieceCats ps).length).map (cellLogLik (pieceProb ps) t y 0) := by
    intro ps
    induction ps with
    | nil => intro y; rfl
    | cons p ps ih =>
      intro y
      rw [mixCells, List.map_append, ih, pieceCats, List.length_append, range_append_map, hone, List.map_map]
      congr 1
      · refine List.map_congr_left fun j hj => ?_
        simp only [Function.comp]
        rw [floor_cell p.P t y 0 j]
        simp only [cellLogLik, pieceProb_cons, List.mem_range.1 hj, if_true]
      · refine List.map_congr_left fun j _ => ?_
        simp only [cellLogLik, pieceProb_cons]
        rw [if_neg (show ¬ p.cats.length + j < p.cats.length by omega), Nat.add_sub_cancel_left]
  have h := mix_evaluated 1 t ps hps y (fun i hi => by rw [show i = 0 by omega]; exact hy) "none" level
  rw [if_neg (by decide), if_neg (by decide), hcells, ← hone, view_flatTensor _ _ (List.length_pos_iff.2 hne)] at h
  exact h

/-- C134: a mix of one model is evaluated like the model, at every level. -/
theorem C134_one_model_partial (p : Piece α d) (hp : p.Right) (hne : p.cats ≠ []) (N : ℕ) (t : ℕ → Fin d → ℝ) (y : ℕ → ℕ → Cell)
    (hy : ∀ i, i < N → ValidResponses p.cats (y i)) :
    evaluatorLogLikelihood (mixScorer d [p.comp]) "sum" "item" ((List.range N).map t) (dataOf N p.cats.length y)
      = .ok (.vector ((List.range p.cats.length).map fun j => some (∑ i ∈ (Finset.range N).filter fun i => IsObserved (y i j),
          flooredLog (p.P (t i) j (responseOf (y i j)))))) ∧
    evaluatorLogLikelihood (mixScorer d [p.comp]) "sum" "respondent" ((List.range N).map t) (dataOf N p.cats.length y)
      = .ok (.vector ((List.range N).map fun i => some (∑ j ∈ (Finset.range p.cats.length).filter fun j => IsObserved (y i j),
          flooredLog (p.P (t i) j (responseOf (y i j)))))) := by
  have h := C59_sums (C131_one_model_partial p hp hne) N t y hy
  have hi : (mixScorer d [p.comp]).items = p.cats.length := by
    have := mix_items [p] (fun q hq => by rw [List.mem_singleton.1 hq]; exact hp)
    simpa [pieceCats] using this
  rw [hi] at h
  exact ⟨h.1, h.2.1⟩

/-! ## Two models and two respondents -/

/-- Two respondents who solve both items. -/
def exSolvers : ℕ → ℕ → Cell := fun _ j => if j = 0 then some ((1 : ℕ) : ℤ) else some 1

theorem exSolvers_valid (i : ℕ) : ValidResponses (pieceCats exMixed) (exSolvers i) := exMixed_valid 1 (by norm_num)

theorem exSolvers_one (i j : ℕ) : exSolvers i j = some 1 := by
  unfold exSolvers
  split <;> rfl

theorem exSolvers_observed (i j : ℕ) : IsObserved (exSolvers i j) := ⟨1, exSolvers_one i j, by norm_num⟩

theorem exMixed_floored : (mixCells 2 exSides exMixed exSolvers).map floorLogLik
    = [some (Real.log (1 / (1 + Real.exp 3))), some (Real.log (1 / (1 + Real.exp (-3)))), some (Real.log (1 / 2)),
       some (Real.log (1 / 2))] := by
  have h := exMixed_cells 1 (by norm_num)
  change mixCells 2 exSides exMixed exSolvers = _ at h
  rw [h]
  simp [floorLogLik]

/-- The log probability of the response of each respondent to each item. -/
noncomputable def exSolversLog (i j : ℕ) : ℝ :=
  if j = 0 then (if i = 0 then Real.log (1 / (1 + Real.exp 3)) else Real.log (1 / (1 + Real.exp (-3)))) else Real.log (1 / 2)

theorem exSolvers_prob (i j : ℕ) (hi : i < 2) (hj : j < 2) :
    pieceProb exMixed (exSides i) j (responseOf (exSolvers i j)) ≠ 0 ∧
    Real.log (pieceProb exMixed (exSides i) j (responseOf (exSolvers i j))) = exSolversLog i j := by
  have e3 : Real.exp (-3) / (1 + Real.exp (-3)) = 1 / (1 + Real.exp 3) := by
    rw [Real.exp_neg]; field_simp; ring
  have e4 : Real.exp 3 / (1 + Real.exp 3) = 1 / (1 + Real.exp (-3)) := by
    rw [Real.exp_neg]; field_simp; ring
  rw [exSolvers_one]
  change pieceProb exMixed (exSides i) j 1 ≠ 0 ∧ Real.log (pieceProb exMixed (exSides i) j 1) = _
  obtain rfl | rfl : j = 0 ∨ j = 1 := by omega
  · obtain rfl | rfl : i = 0 ∨ i = 1 := by omega
    · have : pieceProb exMixed (exSides 0) 0 1 = 1 / (1 + Real.exp 3) := by
        rw [exMixed_prob, ← e3]; simp [tableProb, exSides]
      rw [this]
      exact ⟨by positivity, by simp [exSolversLog]⟩
    · have : pieceProb exMixed (exSides 1) 0 1 = 1 / (1 + Real.exp (-3)) := by
        rw [exMixed_prob, ← e4]; simp [tableProb, exSides]
      rw [this]
      exact ⟨by positivity, by simp [exSolversLog]⟩
  · have : pieceProb exMixed (exSides i) 1 1 = 1 / 2 := by
      rw [exMixed_prob]; simp [tableProb]
    rw [this]
    exact ⟨by norm_num, by simp [exSolversLog]⟩

theorem exSolvers_floored (i j : ℕ) (hi : i < 2) (hj : j < 2) :
    flooredLog (pieceProb exMixed (exSides i) j (responseOf (exSolvers i j))) = exSolversLog i j := by
  rw [flooredLog, if_neg (exSolvers_prob i j hi hj).1, (exSolvers_prob i j hi hj).2]

theorem exMixed_differ : Real.log (1 / (1 + Real.exp (-3))) ≠ Real.log (1 / 2) := by
  intro h
  have he := Real.log_injOn_pos (Set.mem_Ioi.2 (by positivity : (0 : ℝ) < 1 / (1 + Real.exp (-3))))
    (Set.mem_Ioi.2 (by norm_num : (0 : ℝ) < 1 / 2)) h
  have h1 : Real.exp (-3) < 1 := Real.exp_lt_one_iff.2 (by norm_num)
  have h2 : 1 + Real.exp (-3) = 2 := by
    rw [one_div, one_div] at he
    exact inv_inj.1 he
  linarith

/-- C134: the matrix of a mix is not right for two models and two respondents. -/
theorem C134_cells_false : ¬ MixCellwise := by
  intro h
  have key := h exMixed exMixed_right 2 exSides exSolvers fun i _ => exSolvers_valid i
  rw [mix_evaluated 2 exSides exMixed exMixed_right exSolvers (fun i _ => exSolvers_valid i), if_neg (by decide), if_neg (by decide),
    exMixed_floored, exMixed_cats] at key
  have h1 := congrArg (fun r : Except PyErr Reduced => match r with
    | .ok (.matrix rows) => (rows.getD 0 []).getD 1 none
    | _ => none) key
  have h2 : cellLogLik (pieceProb exMixed) exSides exSolvers 0 1 = some (Real.log (1 / 2)) := by
    rw [cellLogLik, if_pos (exSolvers_observed 0 1), exSolvers_floored 0 1 (by norm_num) (by norm_num)]
    simp [exSolversLog]
  simp only [rowsOf, List.range_succ, List.range_zero, List.nil_append, List.map_cons, List.map_nil, List.cons_append,
    List.length_cons, List.length_nil] at h1
  exact exMixed_differ (Option.some.inj (h1.trans h2))

/-- C134: nor are the sums of the respondents: the first is credited with the answers of both to the item of the first model. -/
theorem C134_respondent_false : ¬ MixByRespondent := by
  intro h
  have key := h exMixed exMixed_right 2 exSides exSolvers fun i _ => exSolvers_valid i
  rw [mix_evaluated 2 exSides exMixed exMixed_right exSolvers (fun i _ => exSolvers_valid i), if_neg (by decide), if_pos rfl,
    exMixed_floored, exMixed_cats] at key
  have h1 := congrArg (fun r : Except PyErr Reduced => match r with
    | .ok (.vector xs) => xs.getD 0 none
    | _ => none) key
  have h2 : ∑ j ∈ (Finset.range 2).filter fun j => IsObserved (exSolvers 0 j),
      flooredLog (pieceProb exMixed (exSides 0) j (responseOf (exSolvers 0 j))) = exSolversLog 0 0 + exSolversLog 0 1 := by
    rw [Finset.filter_true_of_mem fun j _ => exSolvers_observed 0 j, Finset.sum_range_succ, Finset.sum_range_one,
      exSolvers_floored 0 0 (by norm_num) (by norm_num), exSolvers_floored 0 1 (by norm_num) (by norm_num)]
  simp only [List.range_succ, List.range_zero, List.nil_append, List.map_cons, List.map_nil, List.cons_append, List.length_cons,
    List.length_nil, levelDim, show ("respondent" = "item") = False from by decide, if_false, if_true, reduceDim, view, viewRows,
    zero_add, Nat.reduceAdd, Nat.reduceDiv, List.take, List.drop, nanSum, List.filterMap_cons, List.filterMap_nil, id, List.sum_cons,
    List.sum_nil, List.getD_cons_zero, add_zero] at h1
  have h3 := (Option.some.inj h1).trans h2
  simp only [exSolversLog, if_true, one_ne_zero, if_false] at h3
  exact exMixed_differ (add_left_cancel h3)

/-- C134: nor those of the items. -/
theorem C134_item_false : ¬ MixByItem := by
  intro h
  have key := h exMixed exMixed_right 2 exSides exSolvers fun i _ => exSolvers_valid i
  rw [mix_evaluated 2 exSides exMixed exMixed_right exSolvers (fun i _ => exSolvers_valid i), if_neg (by decide), if_pos rfl,
    exMixed_floored, exMixed_cats] at key
  have h1 := congrArg (fun r : Except PyErr Reduced => match r with
    | .ok (.vector xs) => xs.getD 0 none
    | _ => none) key
  have h2 : ∑ i ∈ (Finset.range 2).filter fun i => IsObserved (exSolvers i 0),
      flooredLog (pieceProb exMixed (exSides i) 0 (responseOf (exSolvers i 0))) = exSolversLog 0 0 + exSolversLog 1 0 := by
    rw [Finset.filter_true_of_mem fun i _ => exSolvers_observed i 0, Finset.sum_range_succ, Finset.sum_range_one,
      exSolvers_floored 0 0 (by norm_num) (by norm_num), exSolvers_floored 1 0 (by norm_num) (by norm_num)]
  simp only [List.range_succ, List.range_zero, List.nil_append, List.map_cons, List.map_nil, List.cons_append, List.length_cons,
    List.length_nil, levelDim, if_true, reduceDim, view, viewRows, zero_add, Nat.reduceAdd, Nat.reduceDiv, List.take, List.drop, nanSum,
    column, List.filterMap_cons, List.filterMap_nil, id, List.sum_cons, List.sum_nil, List.getD_cons_zero, add_zero] at h1
  have h3 := (Option.some.inj h1).trans h2
  simp only [exSolversLog, if_true, one_ne_zero, if_false] at h3
  exact exMixed_differ (add_left_cancel h3).symm

/-- C134: nor the means of groups of respondents. -/
theorem C134_group_false : ¬ MixByGroup := by
  intro h
  obtain ⟨gs, hcut, key⟩ := h exMixed exMixed_right 2 exSides exSolvers (fun i _ => exSolvers_valid i)
    (fun i _ j _ => exSolvers_observed i j) 2 (by norm_num)
  have hll := mix_logLik 2 exSides exMixed exMixed_right exSolvers fun i _ => exSolvers_valid i
  have hc := exMixed_cells 1 (by norm_num)
  change mixCells 2 exSides exMixed exSolvers = _ at hc
  rw [hc] at hll
  have hgs : gs = [[0], [1]] := by
    obtain ⟨h1, h2, h3⟩ := hcut
    match gs, h1 with
    | [a, b], _ =>
      have hl : a.length + b.length = 2 := by
        have := congrArg List.length h2
        simpa using this
      have hab := h3 a (by simp) b (by simp)
      have hba := h3 b (by simp) a (by simp)
      match a, b, (show a.length = 1 by omega), (show b.length = 1 by omega) with
      | [x], [y], _, _ =>
        simp [List.range_succ] at h2
        rw [h2.1, h2.2]
  have hrun : groupFitLogLikelihood (mixScorer 1 (exMixed.map Piece.comp)) (List.range 2) 2 ((List.range 2).map exSides)
      (dataOf 2 (pieceCats exMixed).length exSolvers)
      = .ok [some (.fin (Real.log (1 / (1 + Real.exp 3)) + Real.log (1 / (1 + Real.exp (-3))))),
             some (.fin (Real.log (1 / 2) + Real.log (1 / 2)))] := by
    unfold groupFitLogLikelihood
    have ht : takeRows ((List.range 2).map exSides) (List.range 2) = (List.range 2).map exSides :=
      takeRows_map_range 2 exSides _ fun i hi => List.mem_range.1 hi
    have hd : takeRows (rowsOf 2 (pieceCats exMixed).length exSolvers) (List.range 2) = rowsOf 2 (pieceCats exMixed).length exSolvers :=
      takeRows_map_range 2 _ _ fun i hi => List.mem_range.1 hi
    simp only [dataOf_eq, ht, hd, mask_eq, rowsOf_flatten, List.map_map, Function.comp_def, hll, bind_ok]
    rw [mix_items exMixed exMixed_right, exMixed_cats]
    simp [view, viewRows, strictSum, groupSlices, groupStep, List.range_succ, strictMean, Logit.sum, Logit.add]
    rfl
  rw [hrun, hgs] at key
  have h1 := congrArg (fun r : Except PyErr (List (Option Logit)) => match r with
    | .ok xs => xs.getD 0 none
    | _ => none) key
  have h2 : groupMeanLogLik (pieceProb exMixed) 2 exSides exSolvers [0] = some (.fin (exSolversLog 0 0 + exSolversLog 0 1)) := by
    unfold groupMeanLogLik
    rw [if_neg (by simp), if_neg]
    · rw [List.map_cons, List.map_nil, List.sum_cons, List.sum_nil, Finset.filter_true_of_mem fun j _ => exSolvers_observed 0 j,
        Finset.sum_range_succ, Finset.sum_range_one, (exSolvers_prob 0 0 (by norm_num) (by norm_num)).2,
        (exSolvers_prob 0 1 (by norm_num) (by norm_num)).2]
      simp
    · rintro ⟨i, hi, j, hj, -, h0⟩
      rw [List.mem_singleton.1 hi] at h0
      exact (exSolvers_prob 0 j (by norm_num) hj).1 h0
  have h3 := h1.trans h2
  simp only [exSolversLog, List.getD_cons_zero, if_true, one_ne_zero, if_false, Option.some.injEq, Logit.fin.injEq] at h3
  exact exMixed_differ (add_left_cancel h3)

/-- Two models of one item each and three respondents, one of them with missing responses. -/
example : ∃ (ps : List (Piece Logit 1)) (y : ℕ → ℕ → Cell), (∀ p ∈ ps, p.Right) ∧ pieceCats ps ≠ [] ∧ ps.length = 2 ∧
    (∀ i, i < 3 → ValidResponses (pieceCats ps) (y i)) ∧ ¬ IsObserved (y 2 1) :=
  ⟨exMixed, fun i j => if i = 2 then none else exSolvers i j, exMixed_right, by rw [exMixed_cats]; simp, rfl, fun i _ j c hc hm => by
    by_cases h : i = 2
    · simp [h, cellMissing] at hm
    · simp only [h, if_false] at hm ⊢
      exact exSolvers_valid i j c hc hm, by simp [IsObserved]⟩

end Irt
