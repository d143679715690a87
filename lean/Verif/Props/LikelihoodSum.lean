import Verif.Props.Figures
import Verif.Props.Directions

/-! # C98: the log likelihood against the expected sum score -/

namespace Irt

theorem plotIndices_one {d : ℕ} (i : Fin d) : plotIndices d [(i.val : ℤ) + 1] = .ok [i] := by
  have hc : plotChecks d [(i.val : ℤ) + 1] = .ok () := by
    unfold plotChecks
    have := i.isLt
    rw [if_neg (by simp), if_neg (by simp; omega), if_neg (by simp)]
  unfold plotIndices
  rw [hc, bind_ok, List.mapM_cons, plotIndex_succ]
  rfl

/-- The grid of one latent variable, on the scale of the model. -/
noncomputable def linePosition {d : ℕ} (f : Fin d → ℝ) (i : Fin d) (a b : ℝ) (n s : ℕ) : Fin d → ℝ :=
  Function.update f i (stepValue a b n s)

theorem likelihoodSum_points {d : ℕ} (m : PlotModel d) (rescale : Bool) (hraw : rescale = false ∨ m.scales = [])
    (probs : (Fin d → ℝ) → List (List ℝ)) (M : ℕ) (mc : Option (List ℤ)) (S : (Fin d → ℝ) → ℝ)
    (hS : IsRowQuantity (sumScoreQuantity probs M mc none) S) (sc : Scorer d) (data : List Cell) (keep : Option (ℕ → Bool))
    (ll : (Fin d → ℝ) → Num) (hl : IsRowQuantity (logLikQuantity sc data keep) ll) (i : Fin d) (a b : ℝ) (n : ℕ)
    (f : Fin d → ℝ) :
    likelihoodSumPlot m probs M mc sc data keep [(i.val : ℤ) + 1] (some (a, b)) none n (some f) rescale
      = (trimCurve ((List.range n).map fun s => S (linePosition f i a b n s))
          ((List.range n).map fun s => ll (linePosition f i a b n s))).map fun pts => (pts, responseSum data) := by
  unfold likelihoodSumPlot
  rw [plotIndices_one, bind_ok, plotGrid_raw m rescale (useTransformed_raw m rescale hraw), bind_ok, hS, bind_ok, hl, bind_ok]
  simp only [List.map_map]
  change (trimCurve _ _ >>= fun x => pure (x, responseSum data)) = _
  have : ∀ e : Except PyErr (List (ℝ × Num)), (e >>= fun x => pure (x, responseSum data)) = e.map fun pts => (pts, responseSum data) := by
    intro e; cases e <;> rfl
  rw [this]
  rfl

/-- C98: a latent variable along which the expected sum score increases. The curve has one point for each position on the grid,
the expected sum score and the log likelihood at that position, in the order of the expected sum scores. -/
theorem C98_curve_partial {d : ℕ} (m : PlotModel d) (rescale : Bool) (hraw : rescale = false ∨ m.scales = [])
    (probs : (Fin d → ℝ) → List (List ℝ)) (cats : List ℕ) (M : ℕ) (hT : ∀ θ, IsTable cats M (probs θ)) {sc : Scorer d}
    {P : (Fin d → ℝ) → ℕ → ℕ → ℝ} (hm : IsScorer sc cats P) (y : ℕ → Cell) (hy : ValidResponses cats y)
    (hobs : ∀ j, j < sc.items → IsObserved (y j)) (i : Fin d) (a b : ℝ) (hab : a < b) (n : ℕ) (hn : 2 ≤ n) (f : Fin d → ℝ)
    (hinc : ∀ s t : ℝ, s < t →
      ∑ j ∈ Finset.range cats.length, ∑ c ∈ Finset.range M, (c : ℝ) * tableProb (probs (Function.update f i s)) j c
        < ∑ j ∈ Finset.range cats.length, ∑ c ∈ Finset.range M, (c : ℝ) * tableProb (probs (Function.update f i t)) j c) :
    likelihoodSumPlot m probs M none sc ((List.range sc.items).map y) none [(i.val : ℤ) + 1] (some (a, b)) none n (some f) rescale
      = .ok ((List.range n).map (fun s =>
          (∑ j ∈ Finset.range cats.length, ∑ c ∈ Finset.range M,
            (c : ℝ) * tableProb (probs (Function.update f i (stepValue a b n s))) j c,
           some (∑ j ∈ Finset.range sc.items, flooredLog (P (Function.update f i (stepValue a b n s)) j (responseOf (y j)))))),
        responseSum ((List.range sc.items).map y)) := by
  rw [likelihoodSum_points m rescale hraw probs M none _ (C87_sum_score probs cats M hT) sc _ none _
    (C87_log_likelihood_partial hm y hy hobs) i a b n f]
  unfold linePosition
  rw [trim_strictMono n hn _ _ fun s t hst _ => hinc _ _ (stepValue_strictMono a b hab n s t hn hst)]
  rfl

theorem ofFn_update (f : Fin 1 → ℝ) (x : ℝ) : List.ofFn (Function.update f 0 x) = [x] := by
  simp

/-- Two items with slope one: the expected sum score is twice the logistic function of the latent score. The curve of a respondent
with one correct response runs through three points, and the line is at one. -/
example : ∃ pts, likelihoodSumPlot (⟨[], none⟩ : PlotModel 1) (fun θ => exScore.probs (List.ofFn θ)) 2 none (exScore.scorer 1)
      [some 1, some 0] none [1] (some (-1, 1)) none 3 (some fun _ => 0) true = .ok (pts, some 1) ∧
    pts.map Prod.fst = [2 * logistic (-1), 2 * logistic 0, 2 * logistic 1] := by
  have hM : exScore.M = 2 := by simp [GPC.M, exScore, maxCats]
  have hsum : ∀ x : ℝ, ∑ j ∈ Finset.range exScore.cats.length, ∑ c ∈ Finset.range 2,
      (c : ℝ) * tableProb (exScore.probs (List.ofFn (Function.update (fun _ : Fin 1 => (0:ℝ)) 0 x))) j c = 2 * logistic x := by
    intro x
    rw [ofFn_update]
    have : exScore.cats.length = 2 := rfl
    rw [this]
    simp only [Finset.sum_range_succ, Finset.sum_range_zero, exScore_prob x 0 (by norm_num), exScore_prob x 1 (by norm_num)]
    norm_num
    ring
  have h := C98_curve_partial (⟨[], none⟩ : PlotModel 1) true (Or.inr rfl) (fun θ => exScore.probs (List.ofFn θ)) exScore.cats 2
    (fun θ => hM ▸ isTable_gpc exScore exScore_wf _) exScore_isScorer (fun j => if j = 0 then some 1 else some 0)
    (by
      intro j c hc _
      have hc2 : c = 2 := by simpa [exScore] using List.mem_of_getElem? hc
      by_cases h0 : j = 0
      · exact ⟨1, by simp [h0], by omega⟩
      · exact ⟨0, by simp [h0], by omega⟩)
    (by intro j _; by_cases h0 : j = 0 <;> simp [h0, IsObserved]) 0 (-1) 1 (by norm_num) 3 (by norm_num) (fun _ => 0)
    (by
      intro s t hst
      rw [hsum, hsum]
      have := logistic_strictMono hst
      linarith)
  refine ⟨_, h, ?_⟩
  simp only [hsum]
  norm_num [List.range_succ, stepValue]

/-- C98, negation: where the expected sum score has its lowest value strictly inside the range, every position before it is
left out of the curve. -/
theorem C98_dropped_false {d : ℕ} (m : PlotModel d) (rescale : Bool) (hraw : rescale = false ∨ m.scales = [])
    (probs : (Fin d → ℝ) → List (List ℝ)) (M : ℕ) (mc : Option (List ℤ)) (S : (Fin d → ℝ) → ℝ)
    (hS : IsRowQuantity (sumScoreQuantity probs M mc none) S) (sc : Scorer d) (data : List Cell) (keep : Option (ℕ → Bool))
    (ll : (Fin d → ℝ) → Num) (hl : IsRowQuantity (logLikQuantity sc data keep) ll) (i : Fin d) (a b : ℝ) (n k : ℕ)
    (f : Fin d → ℝ) (hk : k + 1 < n)
    (hmin : ∀ s, s < n → s ≠ k → S (linePosition f i a b n k) < S (linePosition f i a b n s)) :
    likelihoodSumPlot m probs M mc sc data keep [(i.val : ℤ) + 1] (some (a, b)) none n (some f) rescale
      = .ok (((List.range n).drop k).map fun s => (S (linePosition f i a b n s), ll (linePosition f i a b n s)), responseSum data) := by
  rw [likelihoodSum_points m rescale hraw probs M mc S hS sc data keep ll hl i a b n f, trim_suffix n k _ _ hk]
  · rfl
  · intro s hs
    by_cases h : s = k
    · rw [h]
    · exact (hmin s hs h).le
  · intro s h1 h2
    exact hmin s h2 (by omega)

/-- One nominal item with slopes 0, -1 and 1. -/
noncomputable def exDip : NRM := { lv := 1, cats := [3], rel := [[true]], weight := [-1, 1], bias := [0, 0] }

theorem exDip_wf : exDip.WF where
  catsPos := by simp [exDip]
  relLen := by simp [exDip]
  relRow := by simp [exDip]
  weightLen := by simp [exDip, countTrue, NRM.freeWeights, NRM.M, maxCats, nrmFreeRows, freeRow, List.range_succ]
  biasLen := by simp [exDip]

theorem exDip_row (x : ℝ) : (exDip.probs [x])[0]?
    = some (multinomialLogit 3 3 fun k => if k = 0 then 0 else if k = 1 then -x else x) := by
  have hM : exDip.M = 3 := by simp [NRM.M, exDip, maxCats]
  have hp : exDip.itemParameters[0]? = some (([[0], [-1], [1]] : List (List ℝ)), ([0, 0, 0] : List ℝ)) := by
    simp [NRM.itemParameters, NRM.weights, NRM.biases, exDip, viewRows, scatterMask, NRM.M, maxCats, freeMask, freeRow,
      List.range_succ, NRM.freeWeights, nrmFreeRows, sumRows]
  have h := exDip.probs_row [x] 0 3 _ _ (fun k => if k = 0 then [0] else if k = 1 then [-1] else [1]) (fun _ => 0) rfl hp
    (by rw [hM]; intro k hk; interval_cases k <;> simp) (by rw [hM]; intro k hk; interval_cases k <;> simp)
  rw [h, hM]
  congr 2
  funext k
  split_ifs <;> simp [dot]

/-- Its expected score falls from 258/273 to 6/7 and then rises to 1 as the latent score goes from `-4 log 2` over `-2 log 2`
to 0. The first of the three points is not drawn. -/
example : ∃ v w, likelihoodSumPlot (⟨[], none⟩ : PlotModel 1) (fun θ => exDip.probs (List.ofFn θ)) 3 none
      (tableScorer 1 fun θ => exDip.probs (List.ofFn θ)) [some 1] none [1] (some (-4 * Real.log 2, 0)) none 3 (some fun _ => 0) true
      = .ok ([(6 / 7, v), (1, w)], some 1) := by
  have hM : exDip.M = 3 := by simp [NRM.M, exDip, maxCats]
  have hT : ∀ θ : Fin 1 → ℝ, IsTable exDip.cats 3 (exDip.probs (List.ofFn θ)) := fun θ => hM ▸ isTable_nrm exDip exDip_wf _
  have hsum : ∀ x : ℝ, ∑ j ∈ Finset.range exDip.cats.length, ∑ c ∈ Finset.range 3,
      (c : ℝ) * tableProb (exDip.probs (List.ofFn (Function.update (fun _ : Fin 1 => (0:ℝ)) 0 x))) j c
        = (Real.exp (-x) + 2 * Real.exp x) / (1 + Real.exp (-x) + Real.exp x) := by
    intro x
    have : exDip.cats.length = 1 := rfl
    rw [this, ofFn_update, Finset.sum_range_one]
    simp only [tableProb, exDip_row, Option.bind_some, multinomialLogit]
    simp [Finset.sum_range_succ]
    ring
  have he : ∀ k : ℕ, Real.exp (k * Real.log 2) = 2 ^ k := by
    intro k
    rw [Real.exp_nat_mul, Real.exp_log (by norm_num)]
  have hval : ∀ k : ℕ, (Real.exp (-(-(k * Real.log 2))) + 2 * Real.exp (-(k * Real.log 2)))
      / (1 + Real.exp (-(-(k * Real.log 2))) + Real.exp (-(k * Real.log 2)))
      = ((2:ℝ) ^ k + 2 * (2 ^ k)⁻¹) / (1 + 2 ^ k + (2 ^ k)⁻¹) := by
    intro k
    rw [neg_neg, he, Real.exp_neg, he]
  have hpos : ∀ s, s < 3 → stepValue (-4 * Real.log 2) 0 3 s = -(((4 - 2 * s : ℕ) : ℝ) * Real.log 2) := by
    intro s hs
    unfold stepValue
    interval_cases s <;> norm_num <;> ring
  have hS : ∀ s, s < 3 → ∑ j ∈ Finset.range exDip.cats.length, ∑ c ∈ Finset.range 3,
      (c : ℝ) * tableProb (exDip.probs (List.ofFn (linePosition (fun _ : Fin 1 => (0:ℝ)) 0 (-4 * Real.log 2) 0 3 s))) j c
        = ((2:ℝ) ^ (4 - 2 * s) + 2 * (2 ^ (4 - 2 * s))⁻¹) / (1 + 2 ^ (4 - 2 * s) + (2 ^ (4 - 2 * s))⁻¹) := by
    intro s hs
    unfold linePosition
    rw [hpos s hs, hsum, hval]
  have hsc : IsScorer (tableScorer exDip.cats.length fun θ : Fin 1 → ℝ => exDip.probs (List.ofFn θ)) exDip.cats
      fun θ => tableProb (exDip.probs (List.ofFn θ)) := by
    refine tableScorer_isScorer exDip.cats (by simp [exDip]) _ (fun θ => (hT θ).1) ?_ ?_
    · intro θ j c p hc hp
      have := ((hT θ).2 j p c hp hc).length
      have hc2 : c = 3 := by simpa [exDip] using List.mem_of_getElem? hc
      omega
    · intro θ p hp x hx
      obtain ⟨j, hj, rfl⟩ := List.mem_iff_getElem.1 hp
      exact ((hT θ).2 j _ _ (List.getElem?_eq_getElem hj)
        (List.getElem?_eq_getElem (by rw [← (hT θ).1]; exact hj))).nonneg x hx
  have h := C98_dropped_false (⟨[], none⟩ : PlotModel 1) true (Or.inr rfl) (fun θ => exDip.probs (List.ofFn θ)) 3 none _
    (C87_sum_score _ exDip.cats 3 hT) _ [some 1] none _
    (C87_log_likelihood_partial hsc (fun _ => some 1)
      (by
        intro j c hc _
        have hc2 : c = 3 := by simpa [exDip] using List.mem_of_getElem? hc
        exact ⟨1, rfl, by omega⟩) (by intro j _; simp [IsObserved])) 0 (-4 * Real.log 2) 0 3 1 (fun _ => 0) (by norm_num)
    (by
      intro s hs hne
      rw [hS s hs, hS 1 (by norm_num)]
      interval_cases s
      · norm_num
      · exact absurd rfl hne
      · norm_num)
  have h1 := hS 1 (by norm_num)
  have h2 := hS 2 (by norm_num)
  norm_num only at h1 h2
  simp only [List.range_succ, List.range_zero, List.nil_append, List.cons_append, List.drop_succ_cons, List.drop_zero,
    List.map_cons, List.map_nil, h1, h2] at h
  exact ⟨_, _, h⟩

/-- C98: with two latent variables the option raises an error. -/
theorem C98_two_variables_false {d : ℕ} (m : PlotModel d) (probs : (Fin d → ℝ) → List (List ℝ)) (M : ℕ) (mc : Option (List ℤ))
    (sc : Scorer d) (data : List Cell) (keep : Option (ℕ → Bool)) (v w : ℤ) (range1 range2 : Option (ℝ × ℝ)) (steps : ℕ)
    (fixed : Option (Fin d → ℝ)) (rescale : Bool) :
    ∃ e, likelihoodSumPlot m probs M mc sc data keep [v, w] range1 range2 steps fixed rescale = .error e := by
  unfold likelihoodSumPlot
  cases h1 : plotIndices d [v, w] with
  | error e => exact ⟨e, rfl⟩
  | ok idx =>
    have hlen : idx.length = 2 := by
      unfold plotIndices at h1
      cases h : plotChecks d [v, w] with
      | error e => rw [h] at h1; cases h1
      | ok u =>
        rw [h, bind_ok, List.mapM_cons, List.mapM_cons] at h1
        cases h3 : plotIndex d v with
        | error e => rw [h3] at h1; cases h1
        | ok x =>
          cases h4 : plotIndex d w with
          | error e => rw [h3, h4] at h1; cases h1
          | ok z =>
            rw [h3, h4] at h1
            cases h1
            rfl
    rw [bind_ok]
    cases h2 : plotGrid m idx range1 range2 steps fixed rescale with
    | error e => exact ⟨e, rfl⟩
    | ok grid =>
      rw [bind_ok]
      cases h3 : sumScoreQuantity probs M mc none grid with
      | error e => exact ⟨e, rfl⟩
      | ok scores =>
        rw [bind_ok]
        cases h4 : logLikQuantity sc data keep grid with
        | error e => exact ⟨e, rfl⟩
        | ok values =>
          rw [bind_ok]
          match idx, hlen with
          | [_, _], _ => exact ⟨_, rfl⟩

/-! ## The vertical line -/

/-- The sum score of a respondent: the sum of the scores of the observed responses, which are the responses themselves or,
with an answer key, one for each correct response. -/
def sumScoreOf (key : Option (List ℤ)) (data : List Cell) : ℤ :=
  match key with
  | none => ((data.filter fun c => !cellMissing c).map fun c => c.getD 0).sum
  | some k => ((List.zipWith (fun c x => if c = some x then (1 : ℤ) else 0) data k)).sum

/-- C98: the vertical line is at the sum score of the respondent. -/
def C98_line_claim (key : Option (List ℤ)) : Prop := ∀ data : List Cell, responseSum data = some (sumScoreOf key data)

/-- C98, complete responses scored by their category. -/
theorem C98_line_partial (data : List Cell) (h : ∀ c ∈ data, cellMissing c = false) :
    responseSum data = some (sumScoreOf none data) := by
  have h1 : data.filter (fun c => !cellMissing c) = data := List.filter_eq_self.mpr fun c hc => by rw [h c hc]; rfl
  have h2 : data.mapM id = some (data.map fun c => c.getD 0) := by
    clear h1
    induction data with
    | nil => rfl
    | cons c cs ih =>
      rw [List.mapM_cons, ih fun x hx => h x (List.mem_cons_of_mem _ hx)]
      have := h c List.mem_cons_self
      cases c with
      | none => simp [cellMissing] at this
      | some v => rfl
  unfold responseSum sumScoreOf
  rw [h2, h1]
  rfl

example : responseSum [some 1, some 2, some 0] = some 3 ∧ sumScoreOf none [some 1, some 2, some 0] = 3 := by decide

/-- C98, the line, is false for incomplete responses: a missing response coded as -1 lowers it by one. -/
theorem C98_line_missing_false : ¬ C98_line_claim none := by
  intro h
  have := h [some (-1), some 1]
  revert this
  decide

/-- C98, the line, is false for multiple choice tests: it is at the sum of the numbers of the chosen options. -/
theorem C98_line_key_false : ¬ C98_line_claim (some [2, 0]) := by
  intro h
  have := h [some 2, some 1]
  revert this
  decide

end Irt
