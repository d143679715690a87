import Verif.Lemmas.EvaluatorCalls
import Verif.Props.EvaluationOrder
import Verif.Model.Scorers
import Verif.Props.Dependence

/-!
# C117: an evaluation gives the same result whenever it is called

Data and scores default to the training data and their scores on the original scale; earlier evaluations, earlier scoring
calls and attached scales make no difference.
-/

namespace Irt

open Spec

/-- C117: after any history of evaluations, scoring calls and scale transformations, calls that raised included, an
evaluation gives what it would have given at the start. (Evaluations on the transformed scale: as long as no scale is
attached or detached in between. Mutual information and the log likelihood of groups: see below.) -/
theorem C117_history_partial {d : ℕ} (env : EvalEnv) (s : EvalSession d) (hs : SeesAnswers s.life.fitted)
    (history : List (EvalStep d)) (c : EvalCall d) (hc : IgnoresCode c.what)
    (hscale : OnTransformedScale c.what → ∀ step ∈ history, ¬ ChangesScale step) :
    c.result env (s.run history) = c.result env s := by
  obtain ⟨h1, h2, h3, h4, h5⟩ := session_keeps s history
  have htensor : c.tensor (s.run history) = c.tensor s := by unfold EvalCall.tensor; rw [h3]
  have hscores : ∀ i, c.scores (s.run history) i = c.scores s i := by
    intro i
    unfold EvalCall.scores
    cases c.theta with
    | some t => rfl
    | none =>
      simp only
      have : ∀ data, (s.run history).life.latentScores (s.width i) data c.method false c.points
          = s.life.latentScores (s.width i) data c.method false c.points := by
        intro data
        unfold ModelLife.latentScores ModelLife.now
        rw [h1]
        rfl
      rw [h2, this]
      rcases h5 i with h | h
      · rw [h]
      · rw [h, latentScores_code s.life hs]
  have hvalue : ∀ data t, c.what.value env (s.run history).life.now c.data.isSome data t
      = c.what.value env s.life.now c.data.isSome data t := by
    intro data t
    by_cases ho : OnTransformedScale c.what
    · rw [h4 (hscale ho)]
    · have hnow : (s.run history).life.now = { s.life.now with scales := (s.run history).life.now.scales } := by
        unfold ModelLife.now
        rw [h1]
      rw [hnow]
      cases hw : c.what with
      | latentGroupProbabilities groups k rescale =>
        rw [hw] at ho
        have : rescale = false := by simpa [OnTransformedScale] using ho
        subst this
        simp only [Evaluation.value, latentGroupProbabilities, Bool.false_and, Bool.false_eq_true, if_false]
      | groupFitResiduals groups k rescale standardize =>
        rw [hw] at ho
        have : rescale = false := by simpa [OnTransformedScale] using ho
        subst this
        simp only [Evaluation.value, groupFitResiduals, latentGroupProbabilities, Bool.false_and, Bool.false_eq_true,
          if_false]
      | _ => rfl
  have hcode : ∀ i t, c.what.value env s.life.now c.data.isSome (c.scored (s.run history) i) t
      = c.what.value env s.life.now c.data.isSome (c.scored s i) t := by
    intro i t
    have same : ∀ x y, CodedOr x y → c.what.value env s.life.now c.data.isSome y t
        = c.what.value env s.life.now c.data.isSome x t := by
      intro x y h
      rcases h with rfl | rfl
      · rfl
      · exact value_code env s.life.now hs.scorer _ _ _ _ hc
    rw [same _ _ ((h5 i).trans (scored_or (s.run history) c i)), same _ _ (scored_or s c i)]
  unfold EvalCall.result
  rw [htensor]
  cases c.refused with
  | some e => rfl
  | none =>
    simp only
    congr 1
    funext i
    rw [hscores]
    congr 1
    funext t
    cases t with
    | none => rfl
    | some t => simp only [hvalue, hcode]

/-- C117: data without NaN are never changed, and then every evaluation, those two included, gives what it would have
given at the start. -/
theorem C117_no_nan_partial {d : ℕ} (env : EvalEnv) (s : EvalSession d) (history : List (EvalStep d)) (c : EvalCall d)
    (hn : ¬ HasNaN s c) (hscale : ∀ step ∈ history, ¬ ChangesScale step) :
    c.result env (s.run history) = c.result env s := by
  obtain ⟨h1, h2, h3, h4, h5⟩ := session_keeps s history
  have hl := h4 hscale
  have htensor : c.tensor (s.run history) = c.tensor s := by unfold EvalCall.tensor; rw [h3]
  unfold EvalCall.result
  rw [htensor]
  cases c.refused with
  | some e => rfl
  | none =>
    simp only
    cases ht : c.tensor s with
    | error e => rfl
    | ok i =>
      have hi : c.data = some i ∨ c.data = none ∧ s.train = some i := by
        unfold EvalCall.tensor at ht
        cases hd : c.data with
        | some k => rw [hd] at ht; left; injection ht with ht; rw [ht]
        | none =>
          rw [hd] at ht
          cases htr : s.train with
          | some k => rw [htr] at ht; right; injection ht with ht; rw [ht]; exact ⟨rfl, rfl⟩
          | none => rw [htr] at ht; cases ht
      have hno : anyNaN (s.store i) = false := by
        unfold anyNaN
        rw [List.any_eq_false]
        intro r hr hx
        obtain ⟨x, hx, hxn⟩ := List.any_eq_true.1 hx
        cases x with
        | none => exact hn ⟨i, hi, r, hr, hx⟩
        | some v => simp at hxn
      have hstore : (s.run history).store i = s.store i := by
        rcases h5 i with h | h
        · exact h
        · rw [h, code_of_not_nan _ hno]
      have hsc : c.scores (s.run history) i = c.scores s i := by unfold EvalCall.scores; rw [hl, h2, hstore]
      have hsd : c.scored (s.run history) i = c.scored s i := by unfold EvalCall.scored; rw [hl, h2, hstore]
      change (c.scores (s.run history) i >>= _) = (c.scores s i >>= _)
      rw [hsc, hl]
      simp only [hsd]

/-- C117: whatever is called, a tensor of the user keeps its observed responses and its missing cells; at most NaN become
`-1`. -/
theorem C117_only_coding {d : ℕ} (s : EvalSession d) (history : List (EvalStep d)) (i : ℕ) :
    OnlyCoding (s.store i) ((s.run history).store i) := by
  have hrefl : ∀ x : List (List Num), OnlyCoding x x := fun x =>
    List.forall₂_same.2 fun r _ => List.forall₂_same.2 fun v _ => Or.inl rfl
  rcases (session_keeps s history).2.2.2.2 i with h | h
  · rw [h]; exact hrefl _
  · rw [h]
    unfold OnlyCoding residualsCallerData
    rw [List.forall₂_map_right_iff]
    refine List.forall₂_same.2 fun r _ => ?_
    rw [List.forall₂_map_right_iff]
    refine List.forall₂_same.2 fun v _ => ?_
    cases v with
    | none => exact Or.inr ⟨rfl, rfl⟩
    | some x => exact Or.inl rfl

/-- C117, default data: an evaluation without data evaluates the training data; without an algorithm it raises. (Not the
standardised residuals of groups, which need their data: `C70_standardized_training_data`.) -/
theorem C117_default_data {d : ℕ} (env : EvalEnv) (s : EvalSession d) (c : EvalCall d) (hd : c.data = none)
    (hr : c.refused = none) (hw : ∀ groups k rescale, c.what ≠ .groupFitResiduals groups k rescale true) :
    (∀ i, s.train = some i → c.result env s = ({ c with data := some i } : EvalCall d).result env s) ∧
      (s.train = none → c.result env s = .error .attributeError) := by
  have hr' : ∀ i, ({ c with data := some i } : EvalCall d).refused = none := fun i => hr
  constructor
  · intro i hi
    have ht : c.tensor s = .ok i := by unfold EvalCall.tensor; rw [hd, hi]
    unfold EvalCall.result
    rw [hr, hr' i, ht]
    simp only
    change (c.scores s i >>= _) = (c.scores s i >>= _)
    congr 1
    funext t
    cases t with
    | none => rfl
    | some t =>
      change c.what.value env s.life.now c.data.isSome (c.scored s i) t = c.what.value env s.life.now true (c.scored s i) t
      rw [hd]
      cases hw' : c.what with
      | groupFitResiduals groups k rescale standardize =>
        cases standardize with
        | true => exact absurd hw' (hw groups k rescale)
        | false => rfl
      | _ => rfl
  · intro hn
    have ht : c.tensor s = .error .attributeError := by unfold EvalCall.tensor; rw [hd, hn]
    unfold EvalCall.result
    rw [hr, ht]
    rfl

/-- C117, default scores: an evaluation without scores is the evaluation with the scores that `latent_scores` returns for
the data on the original scale, computed before. -/
theorem C117_default_scores {d : ℕ} (env : EvalEnv) (s : EvalSession d) (c : EvalCall d) (i : ℕ)
    (hd : c.data = some i ∨ c.data = none ∧ s.train = some i) (hth : c.theta = none) (t : Thetas d)
    (ht : s.life.latentScores (s.width i) (s.store i) c.method false c.points = .ok (some t)) :
    ({ c with theta := some t } : EvalCall d).result env (s.run [.score i c.method false c.points]) = c.result env s := by
  have htensor : c.tensor s = .ok i := by
    unfold EvalCall.tensor
    rcases hd with h | ⟨h, h'⟩
    · rw [h]
    · rw [h, h']
  have htensor' : ({ c with theta := some t } : EvalCall d).tensor (s.run [.score i c.method false c.points]) = .ok i := htensor
  have hsc : c.scores s i = .ok (some t) := by unfold EvalCall.scores; rw [hth]; exact ht
  have hstore : ({ c with theta := some t } : EvalCall d).scored (s.run [.score i c.method false c.points]) i = c.scored s i := by
    unfold EvalCall.scored
    rw [hth]
    exact Function.update_self ..
  have hr : ({ c with theta := some t } : EvalCall d).refused = c.refused := rfl
  unfold EvalCall.result
  rw [hr, htensor, htensor']
  cases c.refused with
  | some e => rfl
  | none =>
    change c.what.value env _ _ (({ c with theta := some t } : EvalCall d).scored (s.run [.score i c.method false c.points]) i) t = _
    rw [hstore]
    change _ = (c.scores s i >>= _)
    rw [hsc]
    rfl

/-! ## The models -/

theorem gatherMask_cells (mask : List Bool) (xs ys : List Cell) (hl : xs.length = ys.length)
    (h : ∀ i : ℕ, mask[i]? ≠ some true → xs[i]? = ys[i]?) :
    gatherMask (mask.map not) (xs.map cellLong) = gatherMask (mask.map not) (ys.map cellLong) := by
  induction mask generalizing xs ys with
  | nil => cases xs <;> cases ys <;> rfl
  | cons b mask ih =>
    cases xs with
    | nil =>
      cases ys with
      | nil => rfl
      | cons y ys => simp at hl
    | cons x xs =>
      cases ys with
      | nil => simp at hl
      | cons y ys =>
        have hrest := ih xs ys (by simpa using hl) fun i hi => by simpa using h (i + 1) (by simpa using hi)
        cases b with
        | true => simpa [gatherMask] using hrest
        | false =>
          have : x = y := by simpa using h 0 (by simp)
          subst this
          simpa [gatherMask] using hrest

theorem softmaxScorer_ignores {d : ℕ} (items M : ℕ) (forward : (Fin d → ℝ) → List Logit) :
    IgnoresMasked (softmaxScorer items M forward) := by
  intro outs mask xs ys hl h
  have := gatherMask_cells mask xs ys hl h
  simp only [softmaxScorer, baseLogLikelihood, this]

theorem tableScorer_ignores {d : ℕ} (items : ℕ) (probs : (Fin d → ℝ) → List (List ℝ)) :
    IgnoresMasked (tableScorer items probs) := by
  intro outs mask xs ys hl h
  have := gatherMask_cells mask xs ys hl h
  simp only [tableScorer, tableLogLikelihood, this]

/-- C117: the log likelihoods of the models ignore missing cells. -/
theorem C117_models (d : ℕ) (m1 : OnePL) (m2 : TwoPL) (m3 : ThreePL) (g : GPC) (n : NRM) (r : GRM) :
    IgnoresMasked m1.scorer ∧ IgnoresMasked (m2.scorer d) ∧ IgnoresMasked (m3.scorer d) ∧ IgnoresMasked (g.scorer d) ∧
      IgnoresMasked (n.scorer d) ∧ IgnoresMasked (r.scorer d) :=
  ⟨softmaxScorer_ignores _ _ _, softmaxScorer_ignores _ _ _, tableScorer_ignores _ _, softmaxScorer_ignores _ _ _,
    softmaxScorer_ignores _ _ _, tableScorer_ignores _ _⟩

/-! ## Where it does not hold -/

/-- The claim for all evaluations. -/
def EvaluationsAreRepeatable : Prop :=
  ∀ (d : ℕ) (env : EvalEnv) (s : EvalSession d), SeesAnswers s.life.fitted → ∀ (history : List (EvalStep d)) (c : EvalCall d),
    (∀ step ∈ history, ¬ ChangesScale step) → c.result env (s.run history) = c.result env s

/-- A model of two items with two categories in which every answer has probability one half; it was not trained with an
encoder. The search keeps the starting values. -/
noncomputable def exCoin : FittedModel 1 where
  scorer := tableScorer 2 fun _ => [[1 / 2, 1 / 2], [1 / 2, 1 / 2]]
  cats := [2, 2]
  attrs := {}
  probs := fun _ => [[1 / 2, 1 / 2], [1 / 2, 1 / 2]]
  scales := []
  encode := fun _ => []
  meanSe := fun _ => []
  optimise := fun _ _ start => start
  permutation := []
  draw := fun _ _ => 0

theorem exCoin_sees : SeesAnswers exCoin := ⟨tableScorer_ignores _ _, fun _ _ _ start => start, fun _ _ _ => rfl⟩

/-- Four respondents with the four pairs of answers to two items, and one who did not answer. -/
def exFifth : List (List Num) := [[some 0, some 0], [some 0, some 1], [some 1, some 0], [some 1, some 1], [none, none]]

noncomputable def exCoinSession (data : List (List Num)) : EvalSession 1 where
  life := .new exCoin
  store := fun _ => data
  width := fun _ => 2
  train := some 0

/-- An evaluation of the training data, with scores that are given. -/
def exCall (theta : Thetas 1) (what : Evaluation 1) : EvalCall 1 where
  data := none
  theta := some theta
  method := "ML"
  points := none
  what := what

noncomputable def exCoinEnv : EvalEnv where
  argmax := fun _ => 0
  sort := fun xs => if xs = [1, 0] then [1, 0] else List.range xs.length
  mc := none

theorem exCall_result (env : EvalEnv) (s : EvalSession 1) (h : s.train = some 0) (theta : Thetas 1) (what : Evaluation 1)
    (hr : (exCall theta what).refused = none) :
    (exCall theta what).result env s = what.value env s.life.now false (s.store 0) theta := by
  have ht : (exCall theta what).tensor s = .ok 0 := by unfold EvalCall.tensor; simp only [exCall, h]
  unfold EvalCall.result
  rw [hr, ht]
  rfl

theorem exCall_residuals (data : List (List Num)) (theta : Thetas 1) :
    ((exCoinSession data).run [.evaluate (exCall theta (.residuals "none"))])
      = { exCoinSession data with store := Function.update (exCoinSession data).store 0 (residualsCallerData data) } := rfl

theorem pairs_too_many {n p : ℕ} (base : ℝ) (x : Fin n → Fin p → Cell) (i j : Fin p) (hij : i ≤ j)
    (h1 : 1 < (pairCells (fun r => x r i) fun r => x r j).length)
    (hm : maxCombos ((List.finRange n).flatMap fun r => (List.finRange p).map (x r))
      < (uniqueCounts (pairCells (fun r => x r i) fun r => x r j)).length) (y : List (List ℝ)) :
    jointEntropyMatrix base x ≠ .ok y := by
  intro h
  unfold jointEntropyMatrix at h
  dsimp only at h
  by_cases hcell : (List.finRange n).flatMap (fun r => (List.finRange p).map (x r)) = []
  · rw [if_pos hcell] at h; cases h
  rw [if_neg hcell] at h
  obtain ⟨props, hprops, -⟩ := bind_eq_ok h
  obtain ⟨row, -, hrow⟩ := ((mapM_ok_iff _ _ _).1 hprops).2 (i : ℕ) i (by simp)
  obtain ⟨v, -, hv⟩ := ((mapM_ok_iff _ _ _).1 hrow).2 (j : ℕ) j (by simp)
  rw [if_pos hij] at hv
  unfold pairProportions at hv
  rw [if_pos h1, if_pos hm] at hv
  cases hv

/-- The answers in `exFifth` as integers. -/
def exFiveCells : List (List Cell) :=
  [[some 0, some 0], [some 0, some 1], [some 1, some 0], [some 1, some 1], [none, none]]

theorem exFifth_cells : cellRows exFifth = exFiveCells := by
  simp [cellRows, exFifth, exFiveCells, numToCell, truncInt]

theorem exCoin_table : IsTable [2, 2] 2 (exCoin.probs fun _ => 0) := by
  have hp : IsDistribution 2 2 [(1 : ℝ) / 2, 1 / 2] := two_isDistribution _ _ (by norm_num) (by norm_num) (by norm_num)
  refine ⟨rfl, ?_⟩
  intro j v c hv hc
  match j with
  | 0 =>
    obtain rfl : v = [1 / 2, 1 / 2] := (Option.some.inj hv).symm
    obtain rfl : c = 2 := (Option.some.inj hc).symm
    exact hp
  | 1 =>
    obtain rfl : v = [1 / 2, 1 / 2] := (Option.some.inj hv).symm
    obtain rfl : c = 2 := (Option.some.inj hc).symm
    exact hp
  | j + 2 => cases hv

/-- C117 is false for the mutual information difference: in data with NaN, `residuals` and `q3` turn these into `-1`, which
`mutual_information_difference` counts as a response. Here the call returns its table at first and raises after a call
of `residuals`. -/
theorem C117_mutual_information_false : ¬ EvaluationsAreRepeatable := by
  intro claim
  have h := claim 1 exCoinEnv (exCoinSession exFifth) exCoin_sees
    [.evaluate (exCall (List.replicate 5 fun _ => 0) (.residuals "none"))]
    (exCall (List.replicate 5 fun _ => 0) (.mutualInformationDifference 2)) (by simp [ChangesScale])
  rw [exCall_residuals, exCall_result _ _ rfl _ _ rfl, exCall_result _ _ rfl _ _ rfl] at h
  have hT : (List.replicate 5 fun _ : Fin 1 => (0 : ℝ)).map exCoin.probs
      = (List.finRange 5).map fun _ => exCoin.probs fun _ => 0 := rfl
  have hgood : ∃ r, mutualInformationDifference (n := 5) (p := 2) 2 2
      (fun r i => ((cellRows exFifth).getD r []).getD i none)
      ((List.replicate 5 fun _ : Fin 1 => (0 : ℝ)).map exCoin.probs) = .ok r := by
    rw [exFifth_cells, hT]
    obtain ⟨E, hE, -⟩ := C76_expected (n := 5) (p := 2) (M := 2) (by norm_num) [2, 2] rfl
      (fun _ => exCoin.probs fun _ => 0) (fun _ => exCoin_table) 2 (by norm_num)
    obtain ⟨J, hJ, -⟩ := C56_joint (n := 5) (p := 2) 2 (by norm_num) (by norm_num)
      (fun r i => (exFiveCells.getD r []).getD i none)
      (by intro r j v h; fin_cases r <;> fin_cases j <;> simp [exFiveCells] at h <;> omega)
      (by intro i j; fin_cases i <;> fin_cases j <;> decide)
    unfold mutualInformationDifference dataMutualInformation
    rw [hJ, hE]
    exact ⟨_, rfl⟩
  obtain ⟨r, hr⟩ := hgood
  have hbad : ∀ y, dataMutualInformation (n := 5) (p := 2) 2
      (fun r i => ((cellRows (residualsCallerData exFifth)).getD r []).getD i none) ≠ .ok y := by
    rw [cellRows_code, exFifth_cells]
    intro y hy
    unfold dataMutualInformation at hy
    obtain ⟨J, hJ, -⟩ := bind_eq_ok hy
    exact pairs_too_many (n := 5) (p := 2) 2 _ 0 1 (by decide) (by decide) (by decide) J hJ
  have hlater : ∀ y, mutualInformationDifference (n := 5) (p := 2) 2 2
      (fun r i => ((cellRows (residualsCallerData exFifth)).getD r []).getD i none)
      ((List.replicate 5 fun _ : Fin 1 => (0 : ℝ)).map exCoin.probs) ≠ .ok y := by
    intro y hy
    unfold mutualInformationDifference at hy
    obtain ⟨O, hO, -⟩ := bind_eq_ok hy
    exact hbad O hO
  change (mutualInformationDifference (n := 5) (p := 2) 2 2
      (fun r i => ((cellRows (residualsCallerData exFifth)).getD r []).getD i none)
      ((List.replicate 5 fun _ : Fin 1 => (0 : ℝ)).map exCoin.probs)).map (fun r => Evaluated.information _ r.1 r.2)
    = (mutualInformationDifference (n := 5) (p := 2) 2 2 (fun r i => ((cellRows exFifth).getD r []).getD i none)
      ((List.replicate 5 fun _ : Fin 1 => (0 : ℝ)).map exCoin.probs)).map (fun r => Evaluated.information _ r.1 r.2) at h
  rw [hr] at h
  cases hx : mutualInformationDifference (n := 5) (p := 2) 2 2
      (fun r i => ((cellRows (residualsCallerData exFifth)).getD r []).getD i none)
      ((List.replicate 5 fun _ : Fin 1 => (0 : ℝ)).map exCoin.probs) with
  | ok y => exact hlater y hx
  | error e => rw [hx] at h; cases h

/-- Two respondents, one item pair; the first did not answer the first item. -/
def exFirstMissing : List (List Num) := [[none, some 1], [some 0, some 1]]

/-- C117 is false for the log likelihood of groups, which marks cells as missing by their position before sorting: the
cells that are left unmarked raise as NaN, and after a call of `residuals` count as an answer in the last category. -/
theorem C117_group_fit_false : ∃ (d : ℕ) (env : EvalEnv) (s : EvalSession d) (earlier c : EvalCall d) (e : PyErr) (v : Evaluated),
    SeesAnswers s.life.fitted ∧ c.result env s = .error e ∧ c.result env (s.run [.evaluate earlier]) = .ok v := by
  have hsort : exCoinEnv.sort (([fun _ => 1, fun _ => 0] : Thetas 1).map fun t => t 0) = [1, 0] := if_pos rfl
  have hcells : cellRows exFirstMissing = [[none, some 1], [some 0, some 1]] := by
    simp [cellRows, exFirstMissing, numToCell, truncInt]
  have hlook : ∀ y : ℤ, (y = 1 ∨ y = -1) → lookupLog [(2 : ℝ)⁻¹, 2⁻¹] y = .ok (logE 2⁻¹) := by
    rintro y (rfl | rfl) <;> simp [lookupLog]
  have hraise : lookupLog [(2 : ℝ)⁻¹, 2⁻¹] (-9223372036854775808) = .error .indexError := by
    norm_num [lookupLog]
  have hbad : groupFitLogLikelihood exCoin.scorer [1, 0] 1 [fun _ => 1, fun _ => 0] (cellRows exFirstMissing)
      = .error .indexError := by
    rw [hcells]
    simp [groupFitLogLikelihood, exCoin, tableScorer, takeRows, cellMissing, tableLogLikelihood, gatherMask, cellLong,
      hlook, hraise, bind, Except.bind]
  have hgood : ∃ v, groupFitLogLikelihood exCoin.scorer [1, 0] 1 [fun _ => 1, fun _ => 0]
      (cellRows (residualsCallerData exFirstMissing)) = .ok v := by
    rw [cellRows_code, hcells]
    simp [groupFitLogLikelihood, exCoin, tableScorer, takeRows, cellMissing, tableLogLikelihood, gatherMask, cellLong,
      hlook, codeCell, bind, Except.bind, LL.toCells]
    exact ⟨_, rfl⟩
  obtain ⟨v, hv⟩ := hgood
  refine ⟨1, exCoinEnv, exCoinSession exFirstMissing, exCall [fun _ => 1, fun _ => 0] (.residuals "none"),
    exCall [fun _ => 1, fun _ => 0] (.groupFitLogLikelihood 1 0), .indexError, .groupFit v, exCoin_sees, ?_, ?_⟩
  · rw [exCall_result _ _ rfl _ _ rfl]
    change (groupFitLogLikelihood exCoin.scorer (exCoinEnv.sort (([fun _ => 1, fun _ => 0] : Thetas 1).map fun t => t 0)) 1
      [fun _ => 1, fun _ => 0] (cellRows exFirstMissing)).map _ = _
    rw [hsort, hbad]
    rfl
  · rw [exCall_residuals, exCall_result _ _ rfl _ _ rfl]
    change (groupFitLogLikelihood exCoin.scorer (exCoinEnv.sort (([fun _ => 1, fun _ => 0] : Thetas 1).map fun t => t 0)) 1
      [fun _ => 1, fun _ => 0] (cellRows (residualsCallerData exFirstMissing))).map _ = _
    rw [hsort, hv]
    rfl

/-! ## Non-vacuity -/

/-- Accuracy of the data with missing answers after `residuals`, a scoring call, an attached scale and a call that raises. -/
example (scale : LiveScale 1) :
    let c := exCall (List.replicate 5 fun _ => 0) (.accuracy "item")
    c.result exCoinEnv ((exCoinSession exFifth).run [.evaluate (exCall [] (.residuals "none")), .score 0 "ML" false none,
      .add scale, .evaluate (exCall [] (.infitOutfit "nothing"))]) = c.result exCoinEnv (exCoinSession exFifth) :=
  C117_history_partial _ _ exCoin_sees _ _ trivial (fun h => absurd h id)

/-- The data have changed in between. -/
example : ((exCoinSession exFifth).run [.evaluate (exCall [] (.residuals "none"))]).store 0 ≠ (exCoinSession exFifth).store 0 := by
  rw [exCall_residuals]
  simp [exCoinSession, residualsCallerData, exFifth, nanToNegOne]

/-- The mutual information difference of complete data after a call of `residuals`. -/
example :
    let s := exCoinSession [[some 0, some 1], [some 1, some 1]]
    let c := exCall [fun _ => 0, fun _ => 0] (.mutualInformationDifference 2)
    c.result exCoinEnv (s.run [.evaluate (exCall [] (.residuals "none"))]) = c.result exCoinEnv s :=
  C117_no_nan_partial _ _ _ _ (by rintro ⟨i, -, row, hrow, hn⟩; simp [exCoinSession] at hrow; rcases hrow with rfl | rfl <;> simp at hn)
    (by simp [ChangesScale])

example : OnlyCoding exFifth (((exCoinSession exFifth).run [.evaluate (exCall [] .q3)]).store 0) :=
  C117_only_coding (exCoinSession exFifth) [.evaluate (exCall [] .q3)] 0

example : (exCall [] (.accuracy "item")).result exCoinEnv (exCoinSession exFifth)
    = ({ exCall [] (.accuracy "item") with data := some 0 } : EvalCall 1).result exCoinEnv (exCoinSession exFifth) :=
  (C117_default_data _ _ _ rfl rfl (fun _ _ _ h => by cases h)).1 0 rfl

/-- Without scores, maximum likelihood scores are computed. -/
example :
    let c : EvalCall 1 := { exCall [] (.accuracy "item") with theta := none }
    ({ c with theta := some (List.replicate 5 fun _ => 0) } : EvalCall 1).result exCoinEnv
      ((exCoinSession exFifth).run [.score 0 c.method false c.points]) = c.result exCoinEnv (exCoinSession exFifth) :=
  C117_default_scores _ _ _ 0 (Or.inr ⟨rfl, rfl⟩) rfl _ (by
    unfold ModelLife.latentScores latentScores rawScores
    rw [if_neg (by simp [exCall]), if_neg (by simp), if_neg (by simp [exCall]), if_neg (by simp [exCall])]
    rfl)

end Irt
