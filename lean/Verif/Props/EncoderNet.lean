import Verif.Lemmas.EncoderNet
import Verif.Props.Encoders

/-!
# C114: scores from an encoder

`latent_scores(data, theta_estimation="NN")` runs the data through the encoder network. After a fit that returned,
the network is in evaluation mode, where a respondent's scores depend on this respondent's answers only, and scoring
changes nothing.
-/

namespace Irt
open Spec

/-! ## Networks in evaluation mode -/

/-- C114: a network in evaluation mode works row by row, with the value that its stored parameters give for the row,
and is unchanged afterwards. -/
theorem C114_evaluation (layers : List NetLayer) :
    RowByRow (fun batch => (runNet false layers batch).1) (netValue layers) ∧
      ∀ batch, (runNet false layers batch).2 = layers :=
  ⟨fun batch out => (runNet_eval layers batch).2 out, fun batch => (runNet_eval layers batch).1⟩

/-- A network with one hidden unit, batch normalisation and an output unit. -/
noncomputable def exNet : List NetLayer :=
  [.linear 2 [([1, 1], 0)], .batchNorm 1 (fun _ => 1) (fun _ => 0) (fun _ => 1) (fun _ => 1 - 1 / 100000),
    .pointwise fun t => t, .linear 1 [([3], 5)]]

theorem exNet_value (x y : ℝ) : netValue exNet [x, y] = some [3 * (x + y - 1) + 5] := by
  simp [exNet, netValue, layerValue]

example : (runNet false exNet [[1, 0], [1, 1]]).1 = .ok [[5], [8]] := by
  rw [(C114_evaluation exNet).1, mapM_some_iff]
  simp only [List.map_cons, List.map_nil, exNet_value]
  norm_num

/-- C114: rows are independent of each other: the same row gets the same value in any two tables. -/
theorem C114_same_row (layers : List NetLayer) (batch batch' : List (List ℝ)) (out out' : List (List ℝ))
    (h : (runNet false layers batch).1 = .ok out) (h' : (runNet false layers batch').1 = .ok out')
    (i i' : ℕ) (hi : i < batch.length) (hi' : i' < batch'.length) (hrow : batch[i] = batch'[i']) :
    out[i]? = out'[i']? ∧ out[i]? ≠ none := by
  rw [(runNet_eval _ _).2, mapM_some_iff] at h h'
  have e1 : (batch.map (netValue layers))[i]? = some (netValue layers batch[i]) := by simp [hi]
  have e2 : (batch'.map (netValue layers))[i']? = some (netValue layers batch[i]) := by simp [hi', hrow]
  rw [h, List.getElem?_map] at e1
  rw [h', List.getElem?_map] at e2
  rcases ho : out[i]? with - | o
  · simp [ho] at e1
  · rcases ho' : out'[i']? with - | o'
    · simp [ho'] at e2
    · rw [ho] at e1
      rw [ho'] at e2
      simp only [Option.map_some, Option.some.injEq] at e1 e2
      refine ⟨?_, by simp⟩
      rw [← e2] at e1
      exact e1

example : (runNet false exNet [[1, 0], [1, 1]]).1 = .ok [[5], [8]] ∧ (runNet false exNet [[1, 1]]).1 = .ok [[8]] := by
  constructor <;>
  · rw [(C114_evaluation exNet).1, mapM_some_iff]
    simp only [List.map_cons, List.map_nil, exNet_value]
    norm_num

theorem netValue_snoc (body : List NetLayer) (l : NetLayer) :
    netValue (body ++ [l]) = fun x => (netValue body x).bind (layerValue l) := by
  funext x
  unfold netValue
  rw [List.foldlM_append]
  show ((List.foldlM (fun x l => layerValue l x) x body).bind fun s => (layerValue l s).bind some) = _
  congr 1
  funext s
  cases layerValue l s <;> rfl

/-- C114: means and standard errors of a variational encoder in evaluation mode are computed row by row: the means
by the hidden layers followed by the mean layer, the standard errors as the exponential of half the value of the
hidden layers followed by the variance layer. -/
theorem C114_variational (body : List NetLayer) (mu sigma : NetLayer) (batch means ses : List (List ℝ)) :
    ((encoderMeanSe false body mu sigma batch).1 = .ok (means, ses) ↔
      batch.mapM (netValue (body ++ [mu])) = some means ∧
      batch.mapM (fun x => (netValue (body ++ [sigma]) x).map fun v => v.map fun t => Real.exp (1 / 2 * t)) =
        some ses) ∧
    (encoderMeanSe false body mu sigma batch).2 = body := by
  refine ⟨?_, (runNet_eval body batch).1⟩
  have e : (fun x => (netValue (body ++ [sigma]) x).map fun v => v.map fun t => Real.exp (1 / 2 * t)) =
      fun x => (netValue (body ++ [sigma]) x).bind fun v => some (v.map fun t => Real.exp (1 / 2 * t)) := by
    funext x
    cases netValue (body ++ [sigma]) x <;> rfl
  rw [e, mapM_option_bind, netValue_snoc, netValue_snoc, mapM_option_bind]
  have hb := (runNet_eval body batch).2
  unfold encoderMeanSe runVariational
  simp only
  rcases hr : (runNet false body batch).1 with e | y
  · simp only [bind, Except.bind, Except.map, reduceCtorEq, false_iff]
    rintro ⟨⟨y, hy, -⟩, -⟩
    rw [(hb y).2 hy] at hr
    exact absurd hr (by simp)
  · have hy := (hb y).1 hr
    have uniq : ∀ y', batch.mapM (netValue body) = some y' → y' = y := fun y' h => by
      rw [hy] at h
      exact (Option.some.inj h).symm
    have hs : ∀ (l : NetLayer) out, batch.mapM (fun x => (netValue body x).bind (layerValue l)) = some out ↔
        (l.run false y).1 = .ok out := by
      intro l out
      rw [(l.run_eval y).2, mapM_option_bind]
      exact ⟨fun ⟨y', h1, h2⟩ => uniq y' h1 ▸ h2, fun h => ⟨y, hy, h⟩⟩
    have hmu : (∃ y, batch.mapM (netValue body) = some y ∧ y.mapM (layerValue mu) = some means) ↔
        (mu.run false y).1 = .ok means := by
      rw [← hs, mapM_option_bind]
    rw [hmu]
    simp only [hs]
    show ((do
      let m ← (mu.run false y).1
      let s ← (sigma.run false y).1
      return (m, s) : Except PyErr _).map _ = _) ↔ _
    cases h1 : (mu.run false y).1 with
    | error e => simp [bind, Except.bind, Except.map]
    | ok m =>
      cases h2 : (sigma.run false y).1 with
      | error e => simp [bind, Except.bind, Except.map]
      | ok v =>
        simp only [bind, Except.bind, Except.map, pure, Except.pure, Except.ok.injEq, Prod.mk.injEq]
        refine and_congr_right fun _ => ⟨fun h => ⟨v, rfl, ?_⟩, ?_⟩
        · rw [mapM_some_iff, ← h, List.map_map]
          rfl
        · rintro ⟨v', rfl, h⟩
          rw [mapM_some_iff] at h
          apply List.map_injective_iff.2 (Option.some_injective _)
          rw [← h, List.map_map]
          rfl

/-- A variational encoder with one hidden unit: the mean is the input, the log variance is zero. -/
example : (encoderMeanSe false [.pointwise fun t => t] (.linear 1 [([1], 0)]) (.linear 1 [([0], 0)]) [[3], [4]]).1 =
    .ok ([[3], [4]], [[1], [1]]) := by
  refine ((C114_variational _ _ _ _ _ _).1).2 ⟨?_, ?_⟩ <;>
  · rw [mapM_some_iff]
    simp [netValue, layerValue]

/-! ## Sizes and bounds -/

theorem netValue_size (layers : List NetLayer) (shapes : List (LayerName × Layer))
    (h : layers.map NetLayer.shape = shapes.map Prod.snd) (x : List ℝ) (w : ℕ)
    (hw : runLayers shapes x.length = .ok w) : ∃ y, netValue layers x = some y ∧ y.length = w := by
  induction layers generalizing shapes x with
  | nil =>
    cases shapes with
    | nil =>
      simp only [runLayers, List.foldlM_nil, pure, Except.pure, Except.ok.injEq] at hw
      exact ⟨x, rfl, hw⟩
    | cons a s => simp at h
  | cons l ls ih =>
    cases shapes with
    | nil => simp at h
    | cons a s =>
      simp only [List.map_cons, List.cons.injEq] at h
      unfold runLayers at hw
      rw [List.foldlM_cons, ← h.1] at hw
      suffices hl : ∃ y, layerValue l x = some y ∧ l.shape.run x.length = .ok y.length by
        obtain ⟨y, hy, hr⟩ := hl
        rw [hr] at hw
        obtain ⟨z, hz, hzl⟩ := ih s h.2 y hw
        refine ⟨z, ?_, hzl⟩
        show (layerValue l x).bind (netValue ls) = _
        rw [hy]
        exact hz
      cases l with
      | linear a rows =>
        by_cases hx : x.length = a
        · exact ⟨_, if_pos hx, by simp [NetLayer.shape, Layer.run, hx]⟩
        · simp [NetLayer.shape, Layer.run, hx, bind, Except.bind] at hw
      | batchNorm k scale shift mean var =>
        by_cases hx : x.length = k
        · exact ⟨_, if_pos hx, by simp [NetLayer.shape, Layer.run, hx]⟩
        · simp [NetLayer.shape, Layer.run, hx, bind, Except.bind] at hw
      | pointwise φ => exact ⟨_, rfl, by simp [NetLayer.shape, Layer.run]⟩

/-- C114: a standard encoder with the layers made by its constructor gives every row of the input size as many
scores as there are latent variables. -/
theorem C114_standard_size (input latent : ℕ) (hidden : List ℕ) (hh : hidden ≠ []) (bn : Bool)
    (s : List (LayerName × Layer)) (hs : hiddenLayers true input hidden bn = .ok s) (layers : List NetLayer)
    (hl : layers.map NetLayer.shape =
      (addModule s (.linear (hidden.length + 1)) (.linear (hidden.getLastD 0) latent)).map Prod.snd)
    (x : List ℝ) (hx : x.length = input) : ∃ y, netValue layers x = some y ∧ y.length = latent := by
  have h := C67_standard input latent hidden hh bn
  unfold standardEncoder at h
  rw [hs] at h
  exact netValue_size layers _ hl x latent (hx ▸ h)

example : ∃ y, netValue exNet [1, 0] = some y ∧ y.length = 1 :=
  C114_standard_size 2 1 [1] (by simp) true _ rfl exNet rfl [1, 0] rfl

/-- C114: the scores of a bounded encoder (a hyperbolic tangent at the end) lie strictly between -1 and 1. -/
theorem C114_bounded (layers : List NetLayer) (x y : List ℝ)
    (h : netValue (layers ++ [.pointwise Real.tanh]) x = some y) : ∀ t ∈ y, -1 < t ∧ t < 1 := by
  rw [netValue_snoc] at h
  obtain ⟨z, -, hz⟩ := Option.bind_eq_some_iff.1 h
  simp only [layerValue, Option.some.injEq] at hz
  intro t ht
  rw [← hz] at ht
  obtain ⟨u, -, rfl⟩ := List.mem_map.1 ht
  exact abs_lt.1 (Real.abs_tanh_lt_one u)

example : netValue (exNet ++ [.pointwise Real.tanh]) [1, 0] = some [Real.tanh 5] := by
  rw [netValue_snoc]
  simp only [exNet_value, Option.bind_some, layerValue]
  norm_num

/-! ## Sessions -/

/-- What an algorithm in evaluation mode gives, and that scoring leaves it as it is. -/
theorem nnScores_eval (a : EncoderAlg) (ha : a.training = false) (cats : List ℕ) (data : List (List Num))
    (draw : ℕ → ℕ → ℕ) : (a.nnScores cats.length cats data draw).2 = a ∧
      ∀ out, (a.nnScores cats.length cats data draw).1 = .ok out ↔
        ∃ input rows, (latentScoresEncoderInput cats.length cats a.oneHot a.imputation data draw).1 = .ok input ∧
          numericRows input = some rows ∧ rows.mapM (netValue a.layers) = some out := by
  unfold EncoderAlg.nnScores
  rcases h1 : (latentScoresEncoderInput cats.length cats a.oneHot a.imputation data draw).1 with e | input
  · simp
  · simp only
    rcases h2 : numericRows input with - | rows
    · refine ⟨rfl, fun out => ?_⟩
      simp only [reduceCtorEq, false_iff]
      rintro ⟨i, r, hi, hr, -⟩
      obtain rfl := Except.ok.inj hi
      rw [h2] at hr
      exact absurd hr (by simp)
    · obtain ⟨e1, e2⟩ := runNet_eval a.layers rows
      rw [ha]
      refine ⟨?_, fun out => ?_⟩
      · simp only [e1]
        rw [← ha]
      · simp only
        rw [e2]
        constructor
        · exact fun h => ⟨input, rows, rfl, h2, h⟩
        · rintro ⟨i, r, hi, hr, h⟩
          obtain rfl := Except.ok.inj hi
          rw [h2] at hr
          obtain rfl := Option.some.inj hr
          exact h

theorem session_score_eval (s : EncoderSession) (i : ℕ) (a : EncoderAlg) (hs : s.attached = some i)
    (ha : s.algs i = some a) (ht : a.training = false) (cats : List ℕ) (data : List (List Num))
    (draw : ℕ → ℕ → ℕ) :
    s.nnScores cats data draw = ((a.nnScores cats.length cats data draw).1, s) := by
  unfold EncoderSession.nnScores
  rw [hs]
  simp only [ha]
  rw [(nnScores_eval a ht cats data draw).1, ← ha, Function.update_eq_self, ← hs]

/-- The algorithm attached after a fit that returned, followed by calls of `latent_scores` and by fits of other
algorithm objects that did not return. -/
theorem session_after_fit (cats : List ℕ) (before later : List EncoderCall) (i : ℕ) (kind : EncoderKind)
    (fresh trained : List NetLayer) (oneHot : Bool) (imputation : Option String)
    (hr : Returned (.fit i kind fresh oneHot imputation (.completed trained)))
    (hl : ∀ c ∈ later, ¬ IsFitOf i c ∧ ¬ Returned c) :
    (EncoderSession.after cats
        (before ++ .fit i kind fresh oneHot imputation (.completed trained) :: later)).attached = some i ∧
      (EncoderSession.after cats
        (before ++ .fit i kind fresh oneHot imputation (.completed trained) :: later)).algs i =
        some ⟨trained, false, oneHot, kind.stored imputation⟩ := by
  unfold EncoderSession.after
  rw [List.foldl_append, List.foldl_cons]
  generalize before.foldl (EncoderSession.step cats) ⟨fun _ => none, none⟩ = s0
  have hf : EncoderAlg.fit kind fresh oneHot imputation (.completed trained) =
      (.ok (), ⟨trained, false, oneHot, kind.stored imputation⟩) := by
    unfold EncoderAlg.fit
    rw [if_neg]
    rintro ⟨h1, h2⟩
    rcases hr with h | h
    · rw [h1] at h; exact absurd h (by simp)
    · exact h h2
  suffices key : ∀ s : EncoderSession, s.attached = some i →
      s.algs i = some ⟨trained, false, oneHot, kind.stored imputation⟩ →
      (later.foldl (EncoderSession.step cats) s).attached = some i ∧
        (later.foldl (EncoderSession.step cats) s).algs i =
          some ⟨trained, false, oneHot, kind.stored imputation⟩ by
    apply key
    · simp [EncoderSession.step, hf, Except.isOk, Except.toBool]
    · simp [EncoderSession.step, hf]
  induction later with
  | nil => exact fun s h1 h2 => ⟨h1, h2⟩
  | cons c later ih =>
    intro s h1 h2
    obtain ⟨hc1, hc2⟩ := hl c (by simp)
    rw [List.foldl_cons]
    apply ih (fun c' hc' => hl c' (by simp [hc']))
    · cases c with
      | score data draw =>
        simp only [EncoderSession.step]
        rw [session_score_eval s i _ h1 h2 rfl]
        exact h1
      | fit j kind' fresh' oneHot' imputation' course =>
        simp only [EncoderSession.step]
        rw [if_neg, h1]
        intro hok
        apply hc2
        unfold EncoderAlg.fit at hok
        split_ifs at hok with h
        · simp [Except.isOk, Except.toBool] at hok
        · cases course with
          | interrupted l => simp [Except.isOk, Except.toBool] at hok
          | completed l =>
            show oneHot' = true ∨ imputation' ≠ none
            by_contra hcon
            push Not at hcon
            exact h ⟨by simpa using hcon.1, hcon.2⟩
    · cases c with
      | score data draw =>
        simp only [EncoderSession.step]
        rw [session_score_eval s i _ h1 h2 rfl]
        exact h2
      | fit j kind' fresh' oneHot' imputation' course =>
        simp only [EncoderSession.step]
        rw [Function.update_of_ne (fun h => hc1 h.symm), h2]

/-- C114: after any history in which the last fit of the model that returned was a fit of algorithm `i` which ended
with the network `trained`, and in which `i` was not fitted again, scores from the encoder are computed respondent by
respondent: by `trained`, from an input which depends on the respondent's own answers only. This holds whatever was
scored in between and whichever fits of other algorithm objects failed. Scoring changes nothing. Means must not be
imputed, i.e. `AE.fit` was not called with `imputation_method="mean"`. -/
theorem C114_own_answers (cats : List ℕ) (kind : EncoderKind) (oneHot : Bool) (imputation : Option String)
    (himp : kind = .vae ∨ imputation ≠ some "mean") :
    ∃ own : List Num → Option (List ℝ), ∀ (before later : List EncoderCall) (i : ℕ) (fresh trained : List NetLayer),
      Returned (.fit i kind fresh oneHot imputation (.completed trained)) →
      (∀ c ∈ later, ¬ IsFitOf i c ∧ ¬ Returned c) → ∀ draw : ℕ → ℕ → ℕ, ∀ s : EncoderSession,
      s = EncoderSession.after cats
        (before ++ .fit i kind fresh oneHot imputation (.completed trained) :: later) →
      RowByRow (fun data => (s.nnScores cats data draw).1) (fun answers => (own answers).bind (netValue trained)) ∧
        ∀ data, (s.nnScores cats data draw).2 = s := by
  have hst : kind.stored imputation ≠ some "mean" := by
    rcases himp with rfl | h
    · simp [EncoderKind.stored]
    · cases kind
      · exact h
      · simp [EncoderKind.stored]
  refine ⟨fun r => ((ownFixed oneHot (kind.stored imputation) r).bind (ownEncoded cats oneHot)).bind
    fun r => r.mapM id, ?_⟩
  rintro before later i fresh trained hr hl draw s rfl
  obtain ⟨h1, h2⟩ := session_after_fit cats before later i kind fresh trained oneHot imputation hr hl
  generalize EncoderSession.after cats
        (before ++ .fit i kind fresh oneHot imputation (.completed trained) :: later) = s at h1 h2
  refine ⟨fun data out => ?_, fun data => by rw [session_score_eval s i _ h1 h2 rfl]⟩
  simp only
  rw [session_score_eval s i _ h1 h2 rfl]
  simp only
  rw [(nnScores_eval _ rfl cats data draw).2 out, mapM_option_bind]
  simp only [encoderInput_iff cats oneHot _ hst, numericRows]
  constructor
  · rintro ⟨input, rows, a, b, c⟩
    exact ⟨rows, (mapM_option_bind _ _ _ _).2 ⟨input, a, b⟩, c⟩
  · rintro ⟨rows, ab, c⟩
    obtain ⟨input, a, b⟩ := (mapM_option_bind _ _ _ _).1 ab
    exact ⟨input, rows, a, b, c⟩

/-- A session: a fit, scoring, and a failed fit of another algorithm object. -/
noncomputable def exScored : List EncoderCall :=
  [.fit 0 .ae [] true none (.completed exNet), .score [[some 1]] fun _ _ => 0,
    .fit 1 .vae [] true none (.interrupted [])]

/-- An item with two categories, one-hot encoded: both answers and a missing answer. -/
theorem exScored_scores : ((EncoderSession.after [2] exScored).nnScores [2] [[some 1], [none], [some 0]]
    fun _ _ => 0).1 = .ok [[5], [2], [5]] := by
  obtain ⟨h1, h2⟩ := session_after_fit [2] []
    [.score [[some 1]] fun _ _ => 0, .fit 1 .vae [] true none (.interrupted [])] 0 .ae [] exNet true none (.inl rfl)
    (by simp [IsFitOf, Returned])
  rw [show exScored = [] ++ .fit 0 .ae [] true none (.completed exNet) ::
    [.score [[some 1]] fun _ _ => 0, .fit 1 .vae [] true none (.interrupted [])] from rfl]
  rw [session_score_eval _ 0 _ h1 h2 rfl]
  simp only
  rw [(nnScores_eval _ rfl [2] _ _).2]
  refine ⟨[[some 0, some 1], [some 0, some 0], [some 1, some 0]], [[0, 1], [0, 0], [1, 0]], ?_, ?_, ?_⟩
  · rw [show (EncoderKind.stored .ae none) = none from rfl, encoderInput_iff [2] true none (by simp), mapM_some_iff]
    have r1 : torchRound 1 = 1 := by have := torchRound_int 1; simpa using this
    have r0 : torchRound 0 = 0 := by have := torchRound_int 0; simpa using this
    have rm : torchRound (-1) = -1 := by have := torchRound_int (-1); simpa using this
    simp [ownFixed, ownEncoded, isMissing, nanToNegOne, roundedCell, r1, r0, rm, oneHotBlock, pyIndex, List.mapM_cons,
      bind, Except.bind, pure, Except.pure, Except.toOption, List.range_succ]
  · unfold numericRows
    rw [mapM_some_iff]
    simp
  · rw [mapM_some_iff]
    simp only [List.map_cons, List.map_nil, exNet_value]
    norm_num

example : Returned (.fit 0 .ae [] true none (.completed exNet)) ∧
    ∀ c ∈ [EncoderCall.score [[some 1]] fun _ _ => 0, .fit 1 .vae [] true none (.interrupted [])],
      ¬ IsFitOf 0 c ∧ ¬ Returned c := ⟨.inl rfl, by simp [IsFitOf, Returned]⟩

/-- C114 (partial: complete data only): with any imputation method, means included, the scores of complete data are
computed respondent by respondent. Missing: data with missing answers when `AE.fit` was called with
`imputation_method="mean"`, where it is false (`C114_mean_false`). -/
theorem C114_complete_partial (cats : List ℕ) (oneHot : Bool) :
    ∃ own : List Num → Option (List ℝ), ∀ (kind : EncoderKind) (imputation : Option String)
      (before later : List EncoderCall) (i : ℕ) (fresh trained : List NetLayer),
      Returned (.fit i kind fresh oneHot imputation (.completed trained)) →
      (∀ c ∈ later, ¬ IsFitOf i c ∧ ¬ Returned c) → ∀ draw : ℕ → ℕ → ℕ, ∀ s : EncoderSession,
      s = EncoderSession.after cats
        (before ++ .fit i kind fresh oneHot imputation (.completed trained) :: later) →
      ∀ data : List (List Num), (∀ r ∈ data, ∀ x ∈ r, x ≠ none ∧ x ≠ some (-1)) →
      (∀ out, (s.nnScores cats data draw).1 = .ok out ↔
        data.mapM (fun answers => (own answers).bind (netValue trained)) = some out) ∧
      (s.nnScores cats data draw).2 = s := by
  refine ⟨fun r => ((ownFixed oneHot none r).bind (ownEncoded cats oneHot)).bind fun r => r.mapM id, ?_⟩
  rintro kind imputation before later i fresh trained hr hl draw s rfl data hd
  obtain ⟨h1, h2⟩ := session_after_fit cats before later i kind fresh trained oneHot imputation hr hl
  generalize EncoderSession.after cats
        (before ++ .fit i kind fresh oneHot imputation (.completed trained) :: later) = s at h1 h2
  refine ⟨fun out => ?_, by rw [session_score_eval s i _ h1 h2 rfl]⟩
  rw [session_score_eval s i _ h1 h2 rfl]
  simp only
  rw [(nnScores_eval _ rfl cats data draw).2 out, mapM_option_bind]
  have hm : ∀ r ∈ data, ∀ x ∈ r, isMissing x = false := by
    intro r hr x hx
    obtain ⟨a, b⟩ := hd r hr x hx
    cases x with
    | none => exact absurd rfl a
    | some v =>
      simp only [isMissing, decide_eq_false_iff_not]
      exact fun h => b (by rw [h])
  simp only [nnInput_complete cats oneHot _ data hm, encoderInput_iff cats oneHot none (by simp), numericRows]
  constructor
  · rintro ⟨input, rows, a, b, c⟩
    exact ⟨rows, (mapM_option_bind _ _ _ _).2 ⟨input, a, b⟩, c⟩
  · rintro ⟨rows, ab, c⟩
    obtain ⟨input, a, b⟩ := (mapM_option_bind _ _ _ _).1 ab
    exact ⟨input, rows, a, b, c⟩

example : ∀ r ∈ [[some (0 : ℝ)], [some 2]], ∀ x ∈ r, x ≠ none ∧ x ≠ some (-1) := by
  intro r hr x hx
  fin_cases hr <;> simp at hx <;> subst hx <;> refine ⟨by simp, ?_⟩ <;> norm_num

/-! ## What does not hold -/

/-- The scores of an `AE` fitted with mean imputation, not one-hot encoded, and with network `trained`. -/
noncomputable def meanFitted (trained : List NetLayer) : EncoderSession :=
  EncoderSession.after [3] [.fit 0 .ae [] false (some "mean") (.completed trained)]

/-- C114 for mean imputation: a respondent's scores depend on this respondent's answers only. -/
def MeanOwnAnswers : Prop :=
  ∀ trained draw, ∃ g, RowByRow (fun data => ((meanFitted trained).nnScores [3] data draw).1) g

theorem meanFitted_scores (x : ℝ) (hx : x ≠ -1) (draw : ℕ → ℕ → ℕ) :
    ((meanFitted []).nnScores [3] [[none], [some x]] draw).1 = .ok [[x], [x]] := by
  obtain ⟨h1, h2⟩ := session_after_fit [3] [] [] 0 .ae [] [] false (some "mean") (.inr (by simp)) (by simp)
  unfold meanFitted
  rw [show [EncoderCall.fit 0 .ae [] false (some "mean") (.completed [])] =
    [] ++ EncoderCall.fit 0 .ae [] false (some "mean") (.completed []) :: [] from rfl]
  rw [session_score_eval _ 0 _ h1 h2 rfl]
  simp only
  rw [(nnScores_eval _ rfl [3] _ _).2]
  refine ⟨[[some x], [some x]], [[x], [x]], ?_, ?_, ?_⟩
  · simp [latentScoresEncoderInput, isMissing, EncoderKind.stored, imputeMissingInternal, negOneToNaN, hx, fillRow,
      column, nanMean]
  · simp [numericRows]
  · simp [netValue]

/-- C114 is false of the code for `AE.fit(…, imputation_method="mean")`: `latent_scores` imputes means over the
respondents in the call, so that the score of a respondent with a missing answer depends on who else is scored. -/
theorem C114_mean_false : ¬ MeanOwnAnswers := by
  intro h
  obtain ⟨g, hg⟩ := h [] fun _ _ => 0
  have h0 := (hg _ _).1 (meanFitted_scores 0 (by norm_num) _)
  have h2 := (hg _ _).1 (meanFitted_scores 2 (by norm_num) _)
  rw [mapM_some_iff] at h0 h2
  simp only [List.map_cons, List.map_nil, List.cons.injEq] at h0 h2
  have := h0.1.symm.trans h2.1
  simp at this

/-- C114 for every history: whatever calls were made before, a respondent's scores depend on this respondent's
answers only (means are not imputed in these histories). -/
def AlwaysOwnAnswers : Prop :=
  ∀ (cats : List ℕ) (calls : List EncoderCall), (∀ c ∈ calls, ∀ i k f o m, c ≠ .fit i k f o (some "mean") m) →
    ∀ draw, ∃ g, RowByRow (fun data => ((EncoderSession.after cats calls).nnScores cats data draw).1) g

/-- Batch normalisation of one unit. -/
noncomputable def exNorm : NetLayer := .batchNorm 1 (fun _ => 1) (fun _ => 0) (fun _ => 0) (fun _ => 1)

/-- A fit that returned and a second fit of the same object that was interrupted. -/
noncomputable def exInterrupted : List EncoderCall :=
  [.fit 0 .ae [] false (some "zero") (.completed [exNorm]),
    .fit 0 .ae [] false (some "zero") (.interrupted [exNorm])]

theorem exInterrupted_scores (x y : ℝ) (hx : x ≠ -1) (hy : y ≠ -1) (draw : ℕ → ℕ → ℕ) :
    ((EncoderSession.after [3] exInterrupted).nnScores [3] [[some x], [some y]] draw).1 =
      .ok [[(x - (x + y) / 2) / Real.sqrt ((((x - (x + y) / 2) ^ 2 + (y - (x + y) / 2) ^ 2) / 2) + 1 / 100000)],
        [(y - (x + y) / 2) / Real.sqrt ((((x - (x + y) / 2) ^ 2 + (y - (x + y) / 2) ^ 2) / 2) + 1 / 100000)]] := by
  simp [EncoderSession.after, exInterrupted, EncoderSession.step, EncoderAlg.fit, EncoderSession.nnScores,
    EncoderAlg.nnScores, latentScoresEncoderInput, isMissing, hx, hy, numericRows, List.mapM_cons, runNet, exNorm,
    NetLayer.run, normaliseRow, batchMean, batchSquares, EncoderKind.stored, Except.isOk, Except.toBool]

/-- C114 is false of the code after an interrupted fit: `fit` calls `encoder.eval()` only after its training loop, so
that the encoder of an object which was fitted before and whose second fit was interrupted is in training mode; its
batch normalisation then uses the mean and variance of the respondents who are scored together. -/
theorem C114_interrupted_false : ¬ AlwaysOwnAnswers := by
  intro h
  obtain ⟨g, hg⟩ := h [3] exInterrupted (by
    intro c hc i k f o m
    fin_cases hc <;> simp) fun _ _ => 0
  have h0 := (hg _ _).1 (exInterrupted_scores 0 0 (by norm_num) (by norm_num) _)
  have h2 := (hg _ _).1 (exInterrupted_scores 0 2 (by norm_num) (by norm_num) _)
  rw [mapM_some_iff] at h0 h2
  simp only [List.map_cons, List.map_nil, List.cons.injEq] at h0 h2
  have := h0.1.symm.trans h2.1
  simp only [Option.some.injEq, List.cons.injEq, and_true] at this
  norm_num at this
  have hp : (-1 : ℝ) / (Real.sqrt 100001 / Real.sqrt 100000) < 0 := div_neg_of_neg_of_pos (by norm_num) (by positivity)
  linarith

/-- C114: in training mode a network that starts with a linear layer and batch normalisation refuses a single
respondent, with ValueError. -/
theorem C114_training_single (a k : ℕ) (rows : List (List ℝ × ℝ)) (scale shift mean var : ℕ → ℝ)
    (rest : List NetLayer) (x : List ℝ) (hx : x.length = a) (hk : rows.length = k) :
    (runNet true (.linear a rows :: .batchNorm k scale shift mean var :: rest) [x]).1 = .error .valueError := by
  simp [runNet, NetLayer.run, hx, linearRow, hk]

example : (runNet true exNet [[1, 0]]).1 = .error .valueError := C114_training_single 2 1 _ _ _ _ _ _ _ rfl rfl

/-- C114: a call of `fit` that is refused leaves the scores as they were. -/
def RefusedFitHarmless : Prop :=
  ∀ (cats : List ℕ) (calls : List EncoderCall) (i : ℕ) (kind : EncoderKind) (fresh : List NetLayer) (oneHot : Bool)
    (imputation : Option String) (course : FitCourse),
    (EncoderAlg.fit kind fresh oneHot imputation course).1 = .error .valueError →
    ∀ data draw, ((EncoderSession.after cats (calls ++ [.fit i kind fresh oneHot imputation course])).nnScores
      cats data draw).1 = ((EncoderSession.after cats calls).nnScores cats data draw).1

/-- C114 is false of the code for refused fits: `fit` replaces the encoder by a new, untrained one before it checks
its arguments, so that scoring after the ValueError uses the untrained encoder. -/
theorem C114_refused_false : ¬ RefusedFitHarmless := by
  intro h
  have := h [3] [.fit 0 .ae [] false (some "zero") (.completed [.pointwise fun t => t])] 0 .ae [.pointwise fun _ => 5]
    false none (.completed []) (by simp [EncoderAlg.fit]) [[some 0]] fun _ _ => 0
  simp [EncoderSession.after, EncoderSession.step, EncoderAlg.fit, EncoderSession.nnScores,
    EncoderAlg.nnScores, latentScoresEncoderInput, isMissing, numericRows, List.mapM_cons, runNet,
    NetLayer.run, EncoderKind.stored, Except.isOk, Except.toBool] at this

/-- C114: refused and interrupted fits of *other* algorithm objects leave the scores as they were. -/
theorem C114_other_fits (cats : List ℕ) (before later : List EncoderCall) (i : ℕ) (kind : EncoderKind)
    (fresh trained : List NetLayer) (oneHot : Bool) (imputation : Option String)
    (hr : Returned (.fit i kind fresh oneHot imputation (.completed trained)))
    (hl : ∀ c ∈ later, ¬ IsFitOf i c ∧ ¬ Returned c) (data : List (List Num)) (draw : ℕ → ℕ → ℕ) :
    ((EncoderSession.after cats
        (before ++ .fit i kind fresh oneHot imputation (.completed trained) :: later)).nnScores cats data draw).1 =
      ((EncoderSession.after cats [.fit i kind fresh oneHot imputation (.completed trained)]).nnScores
        cats data draw).1 := by
  obtain ⟨h1, h2⟩ := session_after_fit cats before later i kind fresh trained oneHot imputation hr hl
  obtain ⟨h3, h4⟩ := session_after_fit cats [] [] i kind fresh trained oneHot imputation hr (by simp)
  rw [session_score_eval _ i _ h1 h2 rfl]
  rw [show [EncoderCall.fit i kind fresh oneHot imputation (.completed trained)] =
    [] ++ EncoderCall.fit i kind fresh oneHot imputation (.completed trained) :: [] from rfl,
    session_score_eval _ i _ h3 h4 rfl]

example : ((EncoderSession.after [2] exScored).nnScores [2] [[some 1], [none], [some 0]] fun _ _ => 0).1 =
    ((EncoderSession.after [2] [.fit 0 .ae [] true none (.completed exNet)]).nnScores [2] [[some 1], [none], [some 0]]
      fun _ _ => 0).1 :=
  C114_other_fits [2] [] [.score [[some 1]] fun _ _ => 0, .fit 1 .vae [] true none (.interrupted [])] 0 .ae [] exNet
    true none (.inl rfl) (by simp [IsFitOf, Returned]) _ _

end Irt
