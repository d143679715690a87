import Verif.Props.Residuals
import Verif.Props.Scoring
import Verif.Lemmas.Splits

/-!
# C59: the log likelihoods of the evaluator
-/

namespace Irt

open scoped BigOperators

theorem dataOf_eq (n items : ℕ) (Y : ℕ → ℕ → Cell) : dataOf n items Y = rowsOf n items Y := rfl

theorem column_rowsOf {n items : ℕ} (R : ℕ → ℕ → Num) (j : ℕ) (hj : j < items) :
    column (rowsOf n items R) j = (List.range n).map fun i => R i j := by
  unfold column rowsOf
  rw [List.map_map]
  refine List.map_congr_left fun i _ => ?_
  simp only [Function.comp]
  rw [List.getD_eq_getElem _ _ (by simpa using hj)]
  simp

theorem sum_filterMap_if (n : ℕ) (q : ℕ → Prop) [DecidablePred q] (f : ℕ → ℝ) :
    (((List.range n).map fun i => if q i then some (f i) else none).filterMap id).sum
      = ∑ i ∈ (Finset.range n).filter q, f i := by
  rw [← sum_filter_range, List.filterMap_map, ← List.filterMap_eq_map, List.filterMap_filter]
  congr 1
  refine List.filterMap_congr fun i _ => ?_
  by_cases h : q i <;> simp [h]

theorem mask_eq (n items : ℕ) (Y : ℕ → ℕ → Cell) :
    ((rowsOf n items Y).map fun r => r.map cellMissing) = rowsOf n items fun i j => cellMissing (Y i j) := by
  unfold rowsOf
  rw [List.map_map]
  refine List.map_congr_left fun i _ => ?_
  simp [Function.comp_def]

/-- The matrix of cell values. -/
theorem cells_eq {d : ℕ} {m : Scorer d} {cats : List ℕ} {P : (Fin d → ℝ) → ℕ → ℕ → ℝ} (hm : IsScorer m cats P)
    (n : ℕ) (t : ℕ → Fin d → ℝ) (Y : ℕ → ℕ → Cell) (hY : ∀ i, i < n → ValidResponses cats (Y i)) :
    ∃ ll, m.logLik (((List.range n).map t).map m.forward) (rowsOf n m.items Y).flatten
        ((rowsOf n m.items Y).map fun r => r.map cellMissing).flatten = .ok ll ∧
      view m.items (ll.map floorLogLik) = rowsOf n m.items (cellLogLik P t Y) := by
  refine ⟨flatTensor n m.items fun i j =>
    if cellMissing (Y i j) then none else some (logE (P (t i) j (responseOf (Y i j)))), ?_, ?_⟩
  · rw [mask_eq, rowsOf_flatten, rowsOf_flatten, ← hm.logLik n t Y hY, List.map_map]
    rfl
  · have e : (flatTensor n m.items fun i j =>
        if cellMissing (Y i j) then none else some (logE (P (t i) j (responseOf (Y i j))))).map floorLogLik
        = flatTensor n m.items (cellLogLik P t Y) := by
      rw [flatTensor_eq, flatTensor_eq, List.map_map]
      refine List.map_congr_left fun s _ => ?_
      simp only [Function.comp, cellLogLik]
      by_cases h : IsObserved (Y (s / m.items) (s % m.items))
      · rw [(cellMissing_eq_false _).2 h, if_pos h]
        simp only [Bool.false_eq_true, if_false, logE, flooredLog]
        split <;> rfl
      · rw [(cellMissing_iff _).2 h, if_neg h]
        rfl
    rw [e, view_flatTensor _ _ hm.items_pos]

/-- C59: without reduction, the evaluator's log likelihood is the matrix of the log probabilities of the observed
responses (-30 for impossible ones), NaN for missing ones. -/
theorem C59_cells {d : ℕ} {m : Scorer d} {cats : List ℕ} {P : (Fin d → ℝ) → ℕ → ℕ → ℝ} (hm : IsScorer m cats P)
    (n : ℕ) (t : ℕ → Fin d → ℝ) (Y : ℕ → ℕ → Cell) (hY : ∀ i, i < n → ValidResponses cats (Y i)) (level : String) :
    evaluatorLogLikelihood m "none" level ((List.range n).map t) (dataOf n m.items Y)
      = .ok (.matrix (rowsOf n m.items (cellLogLik P t Y))) := by
  obtain ⟨ll, h1, h2⟩ := cells_eq hm n t Y hY
  unfold evaluatorLogLikelihood
  rw [dataOf_eq]
  simp only [h1, bind_ok, h2]
  rw [if_neg (by decide), if_neg (by decide)]
  rfl

/-- C59: the item, respondent and test level sums add up the same cells, those of the observed responses. -/
theorem C59_sums {d : ℕ} {m : Scorer d} {cats : List ℕ} {P : (Fin d → ℝ) → ℕ → ℕ → ℝ} (hm : IsScorer m cats P)
    (n : ℕ) (t : ℕ → Fin d → ℝ) (Y : ℕ → ℕ → Cell) (hY : ∀ i, i < n → ValidResponses cats (Y i)) :
    evaluatorLogLikelihood m "sum" "item" ((List.range n).map t) (dataOf n m.items Y)
      = .ok (.vector ((List.range m.items).map fun j => some (∑ i ∈ (Finset.range n).filter fun i => IsObserved (Y i j),
          flooredLog (P (t i) j (responseOf (Y i j)))))) ∧
    evaluatorLogLikelihood m "sum" "respondent" ((List.range n).map t) (dataOf n m.items Y)
      = .ok (.vector ((List.range n).map fun i => some (∑ j ∈ (Finset.range m.items).filter fun j => IsObserved (Y i j),
          flooredLog (P (t i) j (responseOf (Y i j)))))) ∧
    evaluatorLogLikelihood m "sum" "all" ((List.range n).map t) (dataOf n m.items Y)
      = .ok (.scalar (some (∑ i ∈ Finset.range n, ∑ j ∈ (Finset.range m.items).filter fun j => IsObserved (Y i j),
          flooredLog (P (t i) j (responseOf (Y i j)))))) := by
  obtain ⟨ll, h1, h2⟩ := cells_eq hm n t Y hY
  have hrun : ∀ level, evaluatorLogLikelihood m "sum" level ((List.range n).map t) (dataOf n m.items Y)
      = .ok (reduceDim nanSum m.items (levelDim level) (rowsOf n m.items (cellLogLik P t Y))) := by
    intro level
    unfold evaluatorLogLikelihood
    rw [dataOf_eq]
    simp only [h1, bind_ok, h2]
    rw [if_neg (by decide), if_pos trivial]
    rfl
  have hrow : ∀ i, nanSum ((List.range m.items).map (cellLogLik P t Y i))
      = some (∑ j ∈ (Finset.range m.items).filter fun j => IsObserved (Y i j),
          flooredLog (P (t i) j (responseOf (Y i j)))) := by
    intro i
    unfold nanSum
    rw [← sum_filterMap_if]
    rfl
  refine ⟨?_, ?_, ?_⟩
  · rw [hrun]
    simp only [levelDim, if_true, reduceDim]
    congr 2
    refine List.map_congr_left fun j hj => ?_
    rw [column_rowsOf _ _ (List.mem_range.1 hj)]
    unfold nanSum
    rw [← sum_filterMap_if]
    rfl
  · rw [hrun]
    simp only [levelDim, show ("respondent" = "item") = False from by decide, if_false, if_true, reduceDim]
    congr 2
    unfold rowsOf
    rw [List.map_map]
    exact List.map_congr_left fun i _ => hrow i
  · rw [hrun]
    simp only [levelDim, show ("all" = "item") = False from by decide, show ("all" = "respondent") = False from by decide,
      if_false, reduceDim]
    congr 2
    unfold nanSum rowsOf
    rw [List.filterMap_flatten, List.sum_flatten, List.map_map, List.map_map, list_sum_range]
    congr 1
    refine Finset.sum_congr rfl fun i _ => ?_
    exact Option.some.inj (hrow i)

/-- C59: the means are taken over the observed responses only. -/
theorem C59_means {d : ℕ} {m : Scorer d} {cats : List ℕ} {P : (Fin d → ℝ) → ℕ → ℕ → ℝ} (hm : IsScorer m cats P)
    (n : ℕ) (t : ℕ → Fin d → ℝ) (Y : ℕ → ℕ → Cell) (hY : ∀ i, i < n → ValidResponses cats (Y i)) :
    ∃ byItem byRespondent overall,
      evaluatorLogLikelihood m "mean" "item" ((List.range n).map t) (dataOf n m.items Y) = .ok (.vector byItem) ∧
      evaluatorLogLikelihood m "mean" "respondent" ((List.range n).map t) (dataOf n m.items Y)
        = .ok (.vector byRespondent) ∧
      evaluatorLogLikelihood m "mean" "all" ((List.range n).map t) (dataOf n m.items Y) = .ok (.scalar overall) ∧
      byItem.length = m.items ∧ byRespondent.length = n ∧
      (∀ j, j < m.items → ∃ x, byItem[j]? = some x ∧ (x = none ↔ ∀ i, i < n → ¬ IsObserved (Y i j)) ∧
        ∀ r, x = some r → IsMeanOfObserved ((List.range n).map fun i => cellLogLik P t Y i j) r) ∧
      (∀ i, i < n → ∃ x, byRespondent[i]? = some x ∧ (x = none ↔ ∀ j, j < m.items → ¬ IsObserved (Y i j)) ∧
        ∀ r, x = some r → IsMeanOfObserved ((List.range m.items).map (cellLogLik P t Y i)) r) ∧
      (overall = none ↔ ∀ i, i < n → ∀ j, j < m.items → ¬ IsObserved (Y i j)) ∧
      ∀ r, overall = some r → IsMeanOfObserved (flatTensor n m.items (cellLogLik P t Y)) r := by
  obtain ⟨ll, h1, h2⟩ := cells_eq hm n t Y hY
  have hrun : ∀ level, evaluatorLogLikelihood m "mean" level ((List.range n).map t) (dataOf n m.items Y)
      = .ok (reduceDim nanMean m.items (levelDim level) (rowsOf n m.items (cellLogLik P t Y))) := by
    intro level
    unfold evaluatorLogLikelihood
    rw [dataOf_eq]
    simp only [h1, bind_ok, h2]
    rw [if_pos (List.infix_refl _)]
    rfl
  have hnone : ∀ i j, cellLogLik P t Y i j = none ↔ ¬ IsObserved (Y i j) := by
    intro i j
    unfold cellLogLik
    by_cases h : IsObserved (Y i j) <;> simp [h]
  refine ⟨_, _, _, hrun "item", hrun "respondent", hrun "all", by simp, by simp [rowsOf], ?_, ?_, ?_, ?_⟩
  · intro j hj
    refine ⟨_, by rw [List.getElem?_map, List.getElem?_range hj]; rfl, ?_, ?_⟩
    · simp only [column_rowsOf _ _ hj]
      rw [(nanMean_spec _).1, List.filterMap_eq_nil_iff]
      simp [hnone]
    · simp only [column_rowsOf _ _ hj]
      exact (nanMean_spec _).2
  · intro i hi
    refine ⟨_, by rw [List.getElem?_map, rowsOf, List.getElem?_map, List.getElem?_range hi]; rfl, ?_, (nanMean_spec _).2⟩
    rw [(nanMean_spec _).1, List.filterMap_eq_nil_iff]
    simp [hnone]
  · rw [(nanMean_spec _).1, List.filterMap_eq_nil_iff, rowsOf_flatten]
    simp only [flatTensor, List.mem_flatMap, List.mem_map, List.mem_range]
    constructor
    · intro h i hi j hj
      exact (hnone i j).1 (h _ ⟨i, hi, j, hj, rfl⟩)
    · rintro h x ⟨i, hi, j, hj, rfl⟩
      exact (hnone i j).2 (h i hi j hj)
  · rw [rowsOf_flatten]
    exact (nanMean_spec _).2

/-! ## Cutting a list into groups -/

/-- Where group `g` starts. -/
def groupStart (n groups g : ℕ) : ℕ := g * (n / groups) + min g (n % groups)

theorem groupStart_succ (n groups g : ℕ) :
    groupStart n groups (g + 1) = groupStart n groups g + (n / groups + if g < n % groups then 1 else 0) := by
  unfold groupStart
  split
  · rw [min_eq_left (by omega), min_eq_left (by omega)]; ring
  · rw [min_eq_right (by omega), min_eq_right (by omega)]; ring

theorem groupStart_last (n groups : ℕ) (h : 0 < groups) : groupStart n groups groups = n := by
  unfold groupStart
  rw [min_eq_right (Nat.mod_lt _ h).le]
  exact Nat.div_add_mod n groups

/-- Group `g`. -/
def groupSlice {α : Type} (xs : List α) (groups g : ℕ) : List α :=
  (xs.drop (groupStart xs.length groups g)).take (xs.length / groups + if g < xs.length % groups then 1 else 0)

theorem groupSlices_eq {α : Type} (xs : List α) (groups : ℕ) :
    groupSlices xs groups = (List.range groups).map (groupSlice xs groups) := by
  have h : ∀ k, (List.range k).foldl (groupStep xs groups) (0, [])
      = (groupStart xs.length groups k, (List.range k).map (groupSlice xs groups)) := by
    intro k
    induction k with
    | zero => simp [groupStart]
    | succ k ih =>
      rw [List.range_succ, List.foldl_append, ih, List.map_append, List.foldl_cons, List.foldl_nil, groupStep,
        groupStart_succ]
      rfl
  unfold groupSlices
  rw [h]

theorem groupSlices_map {α β : Type} (f : α → β) (xs : List α) (groups : ℕ) :
    groupSlices (xs.map f) groups = (groupSlices xs groups).map (List.map f) := by
  rw [groupSlices_eq, groupSlices_eq, List.map_map]
  refine List.map_congr_left fun g _ => ?_
  simp only [Function.comp, groupSlice, List.length_map, List.map_take, List.map_drop]

theorem groupStart_mono (n groups : ℕ) : Monotone (groupStart n groups) :=
  monotone_nat_of_le_succ fun g => by rw [groupStart_succ]; exact Nat.le_add_right _ _

theorem groupSlice_length {α : Type} (xs : List α) (groups g : ℕ) (hg : g < groups) :
    (groupSlice xs groups g).length = xs.length / groups + if g < xs.length % groups then 1 else 0 := by
  have h1 := groupStart_mono xs.length groups (Nat.succ_le_of_lt hg)
  rw [groupStart_last _ _ (by omega), Nat.succ_eq_add_one, groupStart_succ] at h1
  unfold groupSlice
  rw [List.length_take, List.length_drop]
  omega

/-- C70: the groups of `group_fit_log_likelihood` are consecutive pieces of the ordered respondents, each respondent is
in one of them and the group sizes differ by at most one. -/
theorem C70_even_groups {α : Type} (xs : List α) (groups : ℕ) (h : 0 < groups) :
    IsEvenCut xs groups (groupSlices xs groups) := by
  refine ⟨by rw [groupSlices_eq]; simp, ?_, ?_⟩
  · rw [groupSlices_eq]
    have hk : ∀ k, ((List.range k).map (groupSlice xs groups)).flatten = xs.take (groupStart xs.length groups k) := by
      intro k
      induction k with
      | zero => simp [groupStart]
      | succ k ih =>
        rw [List.range_succ, List.map_append, List.flatten_append, ih, groupStart_succ, List.take_add]
        simp [groupSlice]
    rw [hk, groupStart_last _ _ h, List.take_length]
  · rw [groupSlices_eq]
    intro a ha b hb
    obtain ⟨g, hg, rfl⟩ := List.mem_map.1 ha
    obtain ⟨g', hg', rfl⟩ := List.mem_map.1 hb
    rw [groupSlice_length _ _ _ (List.mem_range.1 hg), groupSlice_length _ _ _ (List.mem_range.1 hg')]
    split <;> split <;> omega

/-! ## Group means -/

theorem takeRows_map_range {α : Type} (n : ℕ) (f : ℕ → α) (order : List ℕ) (h : ∀ i ∈ order, i < n) :
    takeRows ((List.range n).map f) order = order.map f := by
  unfold takeRows
  have e : order.map f = order.filterMap fun i => some (f i) := by rw [← List.filterMap_eq_map]; rfl
  rw [e]
  refine List.filterMap_congr fun i hi => ?_
  rw [List.getElem?_map, List.getElem?_range (h i hi)]
  rfl

theorem map_order {α : Type} (order : List ℕ) (f : ℕ → α) :
    order.map f = (List.range order.length).map fun s => f (order.getD s 0) := by
  apply List.ext_getElem
  · simp
  · intro s h1 h2
    have : s < order.length := by simpa using h1
    simp [this]

/-- The sum of the log likelihoods of a respondent as the code computes it: NaN if a response is missing. -/
noncomputable def strictLogLik {d : ℕ} (P : (Fin d → ℝ) → ℕ → ℕ → ℝ) (items : ℕ) (t : ℕ → Fin d → ℝ) (Y : ℕ → ℕ → Cell)
    (i : ℕ) : Option Logit :=
  strictSum ((List.range items).map fun j =>
    if cellMissing (Y i j) then none else some (logE (P (t i) j (responseOf (Y i j)))))

theorem groupFit_aligned {d : ℕ} {m : Scorer d} {cats : List ℕ} {P : (Fin d → ℝ) → ℕ → ℕ → ℝ} (hm : IsScorer m cats P)
    (n : ℕ) (t : ℕ → Fin d → ℝ) (Y : ℕ → ℕ → Cell) (hY : ∀ i, i < n → ValidResponses cats (Y i)) (order : List ℕ)
    (ho : order.Perm (List.range n)) (groups : ℕ)
    (hmask : ∀ s, s < n → ∀ j, j < m.items → cellMissing (Y s j) = cellMissing (Y (order.getD s 0) j)) :
    groupFitLogLikelihood m order groups ((List.range n).map t) (dataOf n m.items Y)
      = .ok ((groupSlices order groups).map fun g => strictMean (g.map (strictLogLik P m.items t Y))) := by
  have hlen : order.length = n := by simpa using ho.length_eq
  have hmem : ∀ i ∈ order, i < n := fun i hi => List.mem_range.1 (ho.mem_iff.1 hi)
  have hget : ∀ s, s < n → order.getD s 0 < n := by
    intro s hs
    rw [List.getD_eq_getElem _ _ (by omega)]
    exact hmem _ (List.getElem_mem _)
  unfold groupFitLogLikelihood
  simp only [dataOf_eq]
  rw [mask_eq, rowsOf_flatten]
  have ht : takeRows ((List.range n).map t) order = (List.range n).map fun s => t (order.getD s 0) := by
    rw [takeRows_map_range n t order hmem, map_order, hlen]
  have hd : takeRows (rowsOf n m.items Y) order = rowsOf n m.items fun s => Y (order.getD s 0) := by
    unfold rowsOf
    rw [takeRows_map_range n _ order hmem, map_order, hlen]
  rw [ht, hd, rowsOf_flatten, flatTensor_congr n m.items _ _ hmask, List.map_map]
  have := hm.logLik n (fun s => t (order.getD s 0)) (fun s => Y (order.getD s 0)) (fun s hs => hY _ (hget s hs))
  simp only [Function.comp_def]
  rw [this, bind_ok, view_flatTensor _ _ hm.items_pos]
  have e : (rowsOf n m.items fun i j => if cellMissing (Y (order.getD i 0) j) then none
      else some (logE (P (t (order.getD i 0)) j (responseOf (Y (order.getD i 0) j))))).map strictSum
      = order.map (strictLogLik P m.items t Y) := by
    rw [map_order, hlen]
    unfold rowsOf
    rw [List.map_map]
    rfl
  rw [e, groupSlices_map, List.map_map]
  rfl

theorem strictLogLik_missing {d : ℕ} (P : (Fin d → ℝ) → ℕ → ℕ → ℝ) (items : ℕ) (t : ℕ → Fin d → ℝ) (Y : ℕ → ℕ → Cell)
    (i j : ℕ) (hj : j < items) (h : ¬ IsObserved (Y i j)) : strictLogLik P items t Y i = none := by
  unfold strictLogLik strictSum
  rw [mapM_option_none _ _ ⟨none, List.mem_map.2 ⟨j, List.mem_range.2 hj, by rw [(cellMissing_iff _).2 h]; rfl⟩, rfl⟩]
  rfl

theorem strictLogLik_complete {d : ℕ} (P : (Fin d → ℝ) → ℕ → ℕ → ℝ) (items : ℕ) (t : ℕ → Fin d → ℝ) (Y : ℕ → ℕ → Cell)
    (i : ℕ) (h : ∀ j, j < items → IsObserved (Y i j)) :
    strictLogLik P items t Y i
      = some (Logit.sum ((List.range items).map fun j => logE (P (t i) j (responseOf (Y i j))))) := by
  unfold strictLogLik strictSum
  rw [mapM_option_some _ _ (fun x => x.getD .negInf)]
  · rw [Option.map_some, List.map_map]
    congr 2
    refine List.map_congr_left fun j hj => ?_
    simp only [Function.comp]
    rw [(cellMissing_eq_false _).2 (h j (List.mem_range.1 hj))]
    rfl
  · intro x hx
    obtain ⟨j, hj, rfl⟩ := List.mem_map.1 hx
    rw [(cellMissing_eq_false _).2 (h j (List.mem_range.1 hj))]
    rfl

theorem strictMean_complete {d : ℕ} (P : (Fin d → ℝ) → ℕ → ℕ → ℝ) (items : ℕ) (t : ℕ → Fin d → ℝ) (Y : ℕ → ℕ → Cell)
    (g : List ℕ) (h : ∀ i ∈ g, ∀ j, j < items → IsObserved (Y i j)) :
    strictMean (g.map (strictLogLik P items t Y)) = groupMeanLogLik P items t Y g := by
  have e : g.map (strictLogLik P items t Y) = (g.map fun i => Logit.sum ((List.range items).map fun j =>
      logE (P (t i) j (responseOf (Y i j))))).map some := by
    rw [List.map_map]
    exact List.map_congr_left fun i hi => strictLogLik_complete P items t Y i (h i hi)
  unfold strictMean groupMeanLogLik
  rw [e, mapM_option_some _ _ (fun x => x.getD .negInf) (by
    intro x hx
    obtain ⟨y, _, rfl⟩ := List.mem_map.1 hx
    rfl), Option.bind_some, List.map_map]
  simp only [Function.comp_def, Option.getD_some, List.map_id', List.map_eq_nil_iff]
  by_cases hg : g = []
  · rw [if_pos hg, if_pos hg]
  · rw [if_neg hg, if_neg hg]
    by_cases hz : ∃ i ∈ g, ∃ j, j < items ∧ IsObserved (Y i j) ∧ P (t i) j (responseOf (Y i j)) = 0
    · rw [if_pos hz]
      obtain ⟨i, hi, j, hj, -, h0⟩ := hz
      rw [Logit.sum_negInf _ (List.mem_map.2 ⟨i, hi, Logit.sum_negInf _ (List.mem_map.2 ⟨j, List.mem_range.2 hj, by
        rw [h0, logE, if_pos rfl]⟩)⟩)]
    · rw [if_neg hz]
      have e2 : (g.map fun i => Logit.sum ((List.range items).map fun j => logE (P (t i) j (responseOf (Y i j)))))
          = (g.map fun i => ∑ j ∈ (Finset.range items).filter fun j => IsObserved (Y i j),
              Real.log (P (t i) j (responseOf (Y i j)))).map Logit.fin := by
        rw [List.map_map]
        refine List.map_congr_left fun i hi => ?_
        simp only [Function.comp]
        rw [Finset.filter_true_of_mem fun j hj => h i hi j (Finset.mem_range.1 hj), ← list_sum_range, ← Logit.sum_fin,
          List.map_map]
        congr 1
        refine List.map_congr_left fun j hj => ?_
        rw [logE, if_neg fun h0 => hz ⟨i, hi, j, List.mem_range.1 hj, h i hi j (List.mem_range.1 hj), h0⟩]
        rfl
      rw [e2, Logit.sum_fin]
      simp

/-- C59, complete data: `group_fit_log_likelihood` cuts the respondents, ordered by the latent variable, into groups and
gives each group the mean of the log likelihood of its own responses. Missing: data with missing responses, for which
it does not hold (`C59_group_missing`, `C59_group_misaligned`, `C59_group_false`). -/
theorem C59_group_partial {d : ℕ} {m : Scorer d} {cats : List ℕ} {P : (Fin d → ℝ) → ℕ → ℕ → ℝ} (hm : IsScorer m cats P)
    (n : ℕ) (t : ℕ → Fin d → ℝ) (Y : ℕ → ℕ → Cell) (hY : ∀ i, i < n → ValidResponses cats (Y i))
    (hobs : ∀ i, i < n → ∀ j, j < m.items → IsObserved (Y i j)) (order : List ℕ) (ho : order.Perm (List.range n))
    (groups : ℕ) (hg : 0 < groups) :
    ∃ gs, IsEvenCut order groups gs ∧
      groupFitLogLikelihood m order groups ((List.range n).map t) (dataOf n m.items Y)
        = .ok (gs.map (groupMeanLogLik P m.items t Y)) := by
  have hmem : ∀ i ∈ order, i < n := fun i hi => List.mem_range.1 (ho.mem_iff.1 hi)
  have hlen : order.length = n := by simpa using ho.length_eq
  refine ⟨_, C70_even_groups order groups hg, ?_⟩
  rw [groupFit_aligned hm n t Y hY order ho groups]
  · congr 1
    refine List.map_congr_left fun g hgm => strictMean_complete P m.items t Y g fun i hi => hobs i (hmem i ?_)
    rw [← (C70_even_groups order groups hg).2.1]
    exact List.mem_flatten.2 ⟨g, hgm, hi⟩
  · intro s hs j hj
    have h2 : order.getD s 0 < n := by
      rw [List.getD_eq_getElem _ _ (by omega)]
      exact hmem _ (List.getElem_mem _)
    rw [(cellMissing_eq_false _).2 (hobs s hs j hj), (cellMissing_eq_false _).2 (hobs _ h2 j hj)]

/-- C59, missing responses: even if the respondents are already in the order of the latent variable, a group with a
missing response gets NaN instead of the log likelihood of its observed responses. -/
theorem C59_group_missing {d : ℕ} {m : Scorer d} {cats : List ℕ} {P : (Fin d → ℝ) → ℕ → ℕ → ℝ} (hm : IsScorer m cats P)
    (n : ℕ) (t : ℕ → Fin d → ℝ) (Y : ℕ → ℕ → Cell) (hY : ∀ i, i < n → ValidResponses cats (Y i))
    (groups : ℕ) (hg : 0 < groups) :
    ∃ (gs : List (List ℕ)) (res : List (Option Logit)), IsEvenCut (List.range n) groups gs ∧
      groupFitLogLikelihood m (List.range n) groups ((List.range n).map t) (dataOf n m.items Y) = .ok res ∧
      ∀ (k : ℕ) (g : List ℕ), gs[k]? = some g → (∃ i ∈ g, ∃ j, j < m.items ∧ ¬ IsObserved (Y i j)) → res[k]? = some none := by
  refine ⟨_, _, C70_even_groups _ groups hg, groupFit_aligned hm n t Y hY _ (List.Perm.refl _) groups ?_, ?_⟩
  · intro s hs j _
    rw [List.getD_eq_getElem _ _ (by simpa using hs), List.getElem_range]
  · rintro k g hk ⟨i, hi, j, hj, hmiss⟩
    rw [List.getElem?_map, hk, Option.map_some, strictMean,
      mapM_option_none _ _ ⟨none, List.mem_map.2 ⟨i, hi, strictLogLik_missing P m.items t Y i j hj hmiss⟩, rfl⟩]
    rfl

/-- C59, missing responses: if sorting moves a response coded -1 to a place where another respondent's response was
observed, the call fails for the models with the base class's log likelihood, since the mask is not sorted. -/
theorem C59_group_misaligned {d : ℕ} (items M : ℕ) (forward : (Fin d → ℝ) → List Logit)
    (hlen : ∀ θ, (forward θ).length = items * M) (n : ℕ) (t : ℕ → Fin d → ℝ) (Y : ℕ → ℕ → Cell) (order : List ℕ)
    (ho : order.Perm (List.range n)) (groups : ℕ) (s j : ℕ) (hs : s < n) (hj : j < items)
    (hobs : IsObserved (Y s j)) (hmiss : Y (order.getD s 0) j = some (-1)) :
    groupFitLogLikelihood (softmaxScorer items M forward) order groups ((List.range n).map t) (dataOf n items Y)
      = .error .indexError := by
  have hlen' : order.length = n := by simpa using ho.length_eq
  have hmem : ∀ i ∈ order, i < n := fun i hi => List.mem_range.1 (ho.mem_iff.1 hi)
  unfold groupFitLogLikelihood
  simp only [dataOf_eq]
  rw [mask_eq, rowsOf_flatten]
  have ht : takeRows ((List.range n).map t) order = (List.range n).map fun s => t (order.getD s 0) := by
    rw [takeRows_map_range n t order hmem, map_order, hlen']
  have hd : takeRows (rowsOf n items Y) order = rowsOf n items fun s => Y (order.getD s 0) := by
    unfold rowsOf
    rw [takeRows_map_range n _ order hmem, map_order, hlen']
  rw [ht, hd, rowsOf_flatten, List.map_map]
  have := C02_base_out_of_range n items M (fun s => forward (t (order.getD s 0))) (fun s => Y (order.getD s 0))
    (fun s j => cellMissing (Y s j)) .none (fun i _ => hlen _) s j hs hj ((cellMissing_eq_false _).2 hobs) (-1) hmiss
    (by left; norm_num) (by norm_num)
  show (baseLogLikelihood (viewRows (((List.range n).map fun s => forward (t (order.getD s 0))).length * items) M
    ((List.range n).map fun s => forward (t (order.getD s 0))).flatten) _ _ .none >>= LL.toCells) >>= _ = _
  rw [List.length_map, List.length_range]
  unfold reshapedOutput at this
  rw [this]
  rfl

/-- The claim for all data: each group gets the mean log likelihood of its own observed responses. -/
def GroupFitUsesOwnResponses : Prop :=
  ∀ (d : ℕ) (m : Scorer d) (cats : List ℕ) (P : (Fin d → ℝ) → ℕ → ℕ → ℝ), IsScorer m cats P →
    ∀ (n : ℕ) (t : ℕ → Fin d → ℝ) (Y : ℕ → ℕ → Cell), (∀ i, i < n → ValidResponses cats (Y i)) →
    ∀ (order : List ℕ), order.Perm (List.range n) → ∀ groups : ℕ, 0 < groups →
    ∃ gs, IsEvenCut order groups gs ∧
      groupFitLogLikelihood m order groups ((List.range n).map t) (dataOf n m.items Y)
        = .ok (gs.map (groupMeanLogLik P m.items t Y))

/-- C59 is false for data with missing responses: one respondent with one of two responses missing. -/
theorem C59_group_false : ¬ GroupFitUsesOwnResponses := by
  intro h
  obtain ⟨gs, ⟨hl, hf, -⟩, hrun⟩ := h 1 _ _ _ exScore_isScorer 1 (fun _ _ => 0) exResponses
    (fun i _ => exResponses_valid i) [0] (by simp [List.range_succ]) 1 one_pos
  obtain ⟨gs', res, ⟨hl', hf', -⟩, hrun', hnan⟩ := C59_group_missing exScore_isScorer 1 (fun _ _ => 0) exResponses
    (fun i _ => exResponses_valid i) 1 one_pos
  have h1 : ∀ l : List (List ℕ), l.length = 1 → l.flatten = [0] → l = [[0]] := by
    intro l hl hf
    obtain ⟨a, rfl⟩ := List.length_eq_one_iff.1 hl
    simpa using hf
  have e := h1 gs hl hf
  have e' := h1 gs' hl' (by simpa [List.range_succ] using hf')
  subst e e'
  rw [show List.range 1 = [0] from rfl] at hrun'
  rw [show List.range 1 = [0] from rfl, hrun'] at hrun
  have hres := Except.ok.inj hrun
  have := hnan 0 [0] rfl ⟨0, by simp, 1, by decide, by
    rw [← cellMissing_iff]; rfl⟩
  rw [hres] at this
  simp only [List.map_cons, List.map_nil, List.getElem?_cons_zero, Option.some.injEq, groupMeanLogLik] at this
  rw [if_neg (by simp)] at this
  split at this <;> simp at this

/-! ## The hypotheses are met -/

example : ∃ x, evaluatorLogLikelihood (exScore.scorer 1) "sum" "item" ((List.range 2).map fun _ _ => 0)
    (dataOf 2 (exScore.scorer 1).items exResponses) = .ok (.vector x) :=
  ⟨_, (C59_sums exScore_isScorer 2 (fun _ _ => 0) exResponses fun i _ => exResponses_valid i).1⟩

example : ∃ gs, IsEvenCut [1, 0, 2] 2 gs ∧
    groupFitLogLikelihood (exScore.scorer 1) [1, 0, 2] 2 ((List.range 3).map fun _ _ => 0)
      (dataOf 3 (exScore.scorer 1).items fun i => exResponses (i + 1))
      = .ok (gs.map (groupMeanLogLik (fun θ : Fin 1 → ℝ => tableProb (exScore.probs (List.ofFn θ))) (exScore.scorer 1).items
          (fun _ _ => 0) fun i => exResponses (i + 1))) :=
  C59_group_partial exScore_isScorer 3 (fun _ _ => 0) (fun i => exResponses (i + 1)) (fun i _ => exResponses_valid _)
    (fun i _ j _ => ⟨1, by simp [exResponses], by norm_num⟩) [1, 0, 2] (by decide) 2 (by norm_num)

/-- Two respondents in the wrong order, the second with a response coded -1. -/
example : groupFitLogLikelihood (softmaxScorer 2 exScore.M fun θ : Fin 1 → ℝ => exScore.forwardRow (List.ofFn θ)) [1, 0] 1
    ((List.range 2).map fun i _ => -(i : ℝ))
    (dataOf 2 2 fun i j => if i = 1 ∧ j = 0 then some (-1) else some 1) = .error .indexError :=
  C59_group_misaligned 2 exScore.M (fun θ => exScore.forwardRow (List.ofFn θ)) (fun _ => by
    rw [exScore.length_forwardRow]; rfl) 2 (fun i _ => -(i : ℝ)) (fun i j => if i = 1 ∧ j = 0 then some (-1) else some 1)
    [1, 0] (by decide) 1 0 0 (by norm_num) (by norm_num) ⟨1, by simp, by norm_num⟩ (by simp)

end Irt
