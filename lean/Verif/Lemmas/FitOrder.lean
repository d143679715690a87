import Verif.Spec.FitOrder
import Verif.Lemmas.GradientFit
import Verif.Props.MmlSymmetry
import Mathlib.Algebra.BigOperators.Fin
import Mathlib.Logic.Equiv.Fin.Basic

/-! # Two trainings side by side -/

namespace Irt
open Spec

/-- Loop states that differ in the parameters only, which are related by `R`. -/
structure LoopRel {S S' : Type} (R : S → S' → Prop) (st : LoopState S) (st' : LoopState S') : Prop where
  params : R st.params st'.params
  sched : st.sched = st'.sched
  prevLr : st.prevLr = st'.prevLr
  lrUpdates : st.lrUpdates = st'.lrUpdates
  bestLoss : st.bestLoss = st'.bestLoss
  history : st.history = st'.history
  best : Option.Rel R st.bestState st'.bestState

theorem LoopRel.final {S S' : Type} {R : S → S' → Prop} {st : LoopState S} {st' : LoopState S'} (h : LoopRel R st st') :
    R st.final st'.final := by
  unfold LoopState.final
  have := h.best
  cases h1 : st.bestState with
  | none =>
    cases h2 : st'.bestState with
    | none => exact h.params
    | some s => rw [h1, h2] at this; cases this
  | some s =>
    cases h2 : st'.bestState with
    | none => rw [h1, h2] at this; cases this
    | some s' => rw [h1, h2] at this; cases this; assumption

/-- Two trainings whose updates keep a relation of the parameters under which the losses are the same end with related parameters. -/
theorem mmlEpochs_related {S S' : Type} (T : Trainer S) (T' : Trainer S') (c : TrainConfig) (b b' : List ℕ) (R : S → S' → Prop)
    (hstep : ∀ i lr s s', R s s' → R (T.update i b lr s) (T'.update i b' lr s'))
    (hloss : ∀ i s s', R s s' → ∃ x, T.loss i b s = .ok x ∧ T'.loss i b' s' = .ok x) (n : ℕ) (st : LoopState S)
    (st' : LoopState S') (h : LoopRel R st st') :
    ∃ u u', mmlEpochs T c b n st = .ok u ∧ mmlEpochs T' c b' n st' = .ok u' ∧ LoopRel R u u' := by
  induction n generalizing st st' with
  | zero => exact ⟨st, st', rfl, rfl, h⟩
  | succ n ih =>
    obtain ⟨x, hx, hx'⟩ := hloss st.history.length st.params st'.params h.params
    have hnew := hstep st.history.length st.sched.lr st.params st'.params h.params
    have hit : ∃ u u', trainIteration T c b st = .ok u ∧ trainIteration T' c b' st' = .ok u' ∧ LoopRel R u u' := by
      unfold trainIteration
      rw [← h.history, ← h.sched, hx, hx']
      refine ⟨_, _, rfl, rfl, ?_⟩
      rw [← h.prevLr, ← h.lrUpdates, ← h.bestLoss]
      refine ⟨hnew, rfl, rfl, rfl, rfl, rfl, ?_⟩
      dsimp only
      split_ifs
      · exact Option.Rel.some hnew
      · exact h.best
    obtain ⟨u, u', h1, h2, h3⟩ := hit
    unfold mmlEpochs
    rw [h1, h2]
    simp only [bind_ok]
    rw [← h3.lrUpdates]
    split_ifs
    · exact ⟨u, u', rfl, rfl, h3⟩
    · exact ih u u' h3

theorem Spec.EntriesAt.set_in {α : Type} {n n' : ℕ} {e : Fin n → Fin n'} (he : Function.Injective e) {w' w : List α}
    (h : EntriesAt e w' w) (i : Fin n) (x : α) : EntriesAt e (w'.set (e i) x) (w.set i x) := by
  obtain ⟨h1, h2, h3⟩ := h
  refine ⟨by rw [List.length_set, h1], by rw [List.length_set, h2], fun k => ?_⟩
  rw [List.getElem?_set, List.getElem?_set]
  by_cases hk : i = k
  · subst hk
    rw [if_pos rfl, if_pos rfl, if_pos (by rw [h1]; exact (e i).isLt), if_pos (by rw [h2]; exact i.isLt)]
  · rw [if_neg (fun h => hk (he (Fin.ext h))), if_neg (fun h => hk (Fin.ext h)), h3 k]

theorem Spec.EntriesAt.set_out {α : Type} {n n' : ℕ} {e : Fin n → Fin n'} {w' w : List α} (h : EntriesAt e w' w) (i' : ℕ)
    (hi : ∀ i, (e i : ℕ) ≠ i') (x : α) : EntriesAt e (w'.set i' x) w := by
  obtain ⟨h1, h2, h3⟩ := h
  refine ⟨by rw [List.length_set, h1], h2, fun k => ?_⟩
  rw [List.getElem?_set, if_neg (fun h => hi k h.symm), h3 k]

theorem Spec.EntriesAt.map {α β : Type} {n n' : ℕ} {e : Fin n → Fin n'} {w' w : List α} (h : EntriesAt e w' w) (f : α → β) :
    EntriesAt e (w'.map f) (w.map f) :=
  ⟨by rw [List.length_map, h.1], by rw [List.length_map, h.2.1], fun k => by rw [List.getElem?_map, List.getElem?_map, h.2.2 k]⟩

/-- The partial derivatives agree where the entries correspond. -/
theorem partialAt_in {n n' : ℕ} {e : Fin n → Fin n'} (he : Function.Injective e) (loss loss' : List ℝ → Except PyErr Num)
    (hl : ∀ w' w, EntriesAt e w' w → loss w = loss' w') {w' w : List ℝ} (h : EntriesAt e w' w) (i : Fin n) :
    partialAt loss' w' (e i) = partialAt loss w i := by
  unfold partialAt
  have h0 : w'.getD (e i) 0 = w.getD i 0 := by rw [List.getD_eq_getElem?_getD, List.getD_eq_getElem?_getD, h.2.2 i]
  rw [h0]
  congr 1
  funext x
  rw [hl _ _ (h.set_in he i x)]

/-- The partial derivatives of the other entries are zero. -/
theorem partialAt_out {n n' : ℕ} {e : Fin n → Fin n'} (loss loss' : List ℝ → Except PyErr Num)
    (hl : ∀ w' w, EntriesAt e w' w → loss w = loss' w') {w' w : List ℝ} (h : EntriesAt e w' w) (i' : ℕ)
    (hi : ∀ i, (e i : ℕ) ≠ i') : partialAt loss' w' i' = 0 := by
  unfold partialAt
  have : (fun x => lossValue (loss' (w'.set i' x))) = fun _ => lossValue (loss w) := by
    funext x
    rw [hl _ _ (h.set_out i' hi x)]
  rw [this]
  simp

/-- Training two losses that agree on corresponding parameters, from corresponding starting values, gives corresponding results;
entries without a counterpart stay where they were. -/
theorem gradientFit_corresponding {A : Type} (loss loss' : List ℝ → List ℝ → Except PyErr Num) (rule : ℕ → EntryRule A) (a₀ : A)
    (c : TrainConfig) (lr : ℝ) (N N' maxEpochs : ℕ) {n n' k k' : ℕ} (e : Fin n → Fin n') (f : Fin k → Fin k')
    (he : Function.Injective e) (hf : Function.Injective f)
    (hq : QuietRule rule a₀ ∨ (Function.Surjective e ∧ Function.Surjective f))
    (hloss : ∀ w' w r' r, EntriesAt e w' w → EntriesAt f r' r → ∃ x, loss w r = .ok x ∧ loss' w' r' = .ok x)
    (w₀' w₀ r₀' r₀ : List ℝ) (hw : EntriesAt e w₀' w₀) (hr : EntriesAt f r₀' r₀) :
    ∃ w' w r' r, gradientFit loss rule a₀ c lr N maxEpochs w₀ r₀ = .ok (w, r) ∧
      gradientFit loss' rule a₀ c lr N' maxEpochs w₀' r₀' = .ok (w', r') ∧ EntriesAt e w' w ∧ EntriesAt f r' r ∧
      (∀ i' : Fin n', (∀ i, e i ≠ i') → w'[(i' : ℕ)]? = w₀'[(i' : ℕ)]?) ∧ (∀ i' : Fin k', (∀ i, f i ≠ i') → r'[(i' : ℕ)]? = r₀'[(i' : ℕ)]?) := by
  obtain ⟨Q, hQ0, hQ⟩ : ∃ Q : A → Prop, Q a₀ ∧ ((Function.Surjective e ∧ Function.Surjective f) ∨
      ∀ i lr a v, Q a → (rule i lr a v 0).2 = v ∧ Q (rule i lr a v 0).1) := by
    rcases hq with ⟨Q, h1, h2⟩ | h
    · exact ⟨Q, h1, Or.inr h2⟩
    · exact ⟨fun _ => True, trivial, Or.inl h⟩
  have hl : ∀ w' w r' r, EntriesAt e w' w → EntriesAt f r' r → loss w r = loss' w' r' := by
    intro w' w r' r h1 h2
    obtain ⟨x, hx, hx'⟩ := hloss w' w r' r h1 h2
    rw [hx, hx']
  set R : FitState A → FitState A → Prop := fun s s' =>
    EntriesAt e s'.weight s.weight ∧ EntriesAt f s'.rest s.rest ∧
    (∀ i' : Fin n', (∀ i, e i ≠ i') → ∃ a, Q a ∧ (s'.weight[(i' : ℕ)]?) = (w₀'[(i' : ℕ)]?).map fun v => (v, a)) ∧
    (∀ i' : Fin k', (∀ i, f i ≠ i') → ∃ a, Q a ∧ (s'.rest[(i' : ℕ)]?) = (r₀'[(i' : ℕ)]?).map fun v => (v, a)) with hR
  have hstep : ∀ i lr s s', R s s' → R ((gradientTrainer loss rule).update i (List.range N) lr s)
      ((gradientTrainer loss' rule).update i (List.range N') lr s') := by
    rintro it lr s s' ⟨h1, h2, h3, h4⟩
    have h1m := h1.map Prod.fst
    have h2m := h2.map Prod.fst
    refine ⟨⟨by simp [gradientTrainer, h1.1], by simp [gradientTrainer, h1.2.1], fun i => ?_⟩,
      ⟨by simp [gradientTrainer, h2.1], by simp [gradientTrainer, h2.2.1], fun i => ?_⟩, fun i' hi' => ?_, fun i' hi' => ?_⟩
    · simp only [gradientTrainer, List.getElem?_mapIdx, h1.2.2 i]
      rw [partialAt_in he (fun p => loss p (s.rest.map Prod.fst)) (fun p => loss' p (s'.rest.map Prod.fst))
        (fun w' w h => hl w' w _ _ h h2m) h1m i]
    · simp only [gradientTrainer, List.getElem?_mapIdx, h2.2.2 i]
      rw [partialAt_in hf (fun p => loss (s.weight.map Prod.fst) p) (fun p => loss' (s'.weight.map Prod.fst) p)
        (fun r' r h => hl _ _ r' r h1m h) h2m i]
    · obtain ⟨a, ha, hv⟩ := h3 i' hi'
      rcases hQ with hs | hQ
      · obtain ⟨i, hi⟩ := hs.1 i'
        exact absurd hi (hi' i)
      · simp only [gradientTrainer, List.getElem?_mapIdx, hv]
        rw [partialAt_out (fun p => loss p (s.rest.map Prod.fst)) (fun p => loss' p (s'.rest.map Prod.fst))
          (fun w' w h => hl w' w _ _ h h2m) h1m i' (fun i h => hi' i (Fin.ext h))]
        cases hw0 : w₀'[(i' : ℕ)]? with
        | none => exact ⟨a, ha, rfl⟩
        | some v =>
          obtain ⟨e1, e2⟩ := hQ it lr a v ha
          exact ⟨_, e2, by simp [e1]⟩
    · obtain ⟨a, ha, hv⟩ := h4 i' hi'
      rcases hQ with hs | hQ
      · obtain ⟨i, hi⟩ := hs.2 i'
        exact absurd hi (hi' i)
      · simp only [gradientTrainer, List.getElem?_mapIdx, hv]
        rw [partialAt_out (fun p => loss (s.weight.map Prod.fst) p) (fun p => loss' (s'.weight.map Prod.fst) p)
          (fun r' r h => hl _ _ r' r h1m h) h2m i' (fun i h => hi' i (Fin.ext h))]
        cases hr0 : r₀'[(i' : ℕ)]? with
        | none => exact ⟨a, ha, rfl⟩
        | some v =>
          obtain ⟨e1, e2⟩ := hQ it lr a v ha
          exact ⟨_, e2, by simp [e1]⟩
  obtain ⟨u, u', hu, hu', hrel⟩ := mmlEpochs_related (gradientTrainer loss rule) (gradientTrainer loss' rule) c (List.range N)
    (List.range N') R hstep (fun i s s' h => hloss _ _ _ _ (h.1.map _) (h.2.1.map _)) maxEpochs
    (LoopState.start lr ⟨w₀.map fun v => (v, a₀), r₀.map fun v => (v, a₀)⟩)
    (LoopState.start lr ⟨w₀'.map fun v => (v, a₀), r₀'.map fun v => (v, a₀)⟩)
    ⟨⟨hw.map _, hr.map _, fun i' _ => ⟨a₀, hQ0, by simp [LoopState.start]⟩, fun i' _ => ⟨a₀, hQ0, by simp [LoopState.start]⟩⟩,
      rfl, rfl, rfl, rfl, rfl, Option.Rel.none⟩
  obtain ⟨g1, g2, g3, g4⟩ := hrel.final
  refine ⟨u'.final.weight.map Prod.fst, u.final.weight.map Prod.fst, u'.final.rest.map Prod.fst, u.final.rest.map Prod.fst, ?_, ?_,
    g1.map _, g2.map _, fun i' hi' => ?_, fun i' hi' => ?_⟩
  · unfold gradientFit; rw [hu]
  · unfold gradientFit; rw [hu']
  · obtain ⟨a, _, h⟩ := g3 i' hi'
    rw [List.getElem?_map, h, Option.map_map]
    cases w₀'[(i' : ℕ)]? <;> rfl
  · obtain ⟨a, _, h⟩ := g4 i' hi'
    rw [List.getElem?_map, h, Option.map_map]
    cases r₀'[(i' : ℕ)]? <;> rfl

/-! ## Marginal maximum likelihood -/

/-- The likelihood of a respondent is the product over the items that correspond to an item of the other model, if the remaining
items are unanswered. -/
theorem observedLikelihood_corresponding {d K K' : ℕ} (σ : Fin K → Fin K') (hσ : Function.Injective σ)
    (P' P : (Fin d → ℝ) → ℕ → ℕ → ℝ) (row' row : ℕ → Cell) (θ : Fin d → ℝ) (hP : ∀ j : Fin K, P' θ (σ j) = P θ j)
    (hrow : ∀ j : Fin K, row' (σ j) = row j) (hmiss : ∀ j' : Fin K', (∀ j, σ j ≠ j') → cellMissing (row' j') = true) :
    observedLikelihood P' K' row' θ = observedLikelihood P K row θ := by
  unfold observedLikelihood
  rw [Finset.prod_range, Finset.prod_range]
  symm
  rw [← Finset.prod_subset (Finset.subset_univ (Finset.univ.map ⟨σ, hσ⟩)), Finset.prod_map]
  · refine Finset.prod_congr rfl fun j _ => ?_
    simp only [Function.Embedding.coeFn_mk, hP, hrow]
  · intro j' _ hj'
    rw [if_pos]
    refine hmiss j' fun j h => hj' ?_
    rw [Finset.mem_map]
    exact ⟨j, Finset.mem_univ _, h⟩

theorem observedLikelihood_empty {d : ℕ} (P : (Fin d → ℝ) → ℕ → ℕ → ℝ) (K : ℕ) (row : ℕ → Cell)
    (h : ∀ j, j < K → cellMissing (row j) = true) : observedLikelihood P K row = fun _ => 1 := by
  funext θ
  unfold observedLikelihood
  refine Finset.prod_eq_one fun j hj => ?_
  rw [if_pos (h j (Finset.mem_range.1 hj))]

/-- With a Gauss-Hermite rule whose weights sum to `√π` the weights of the integration sum to one. -/
theorem mmlIntegration_total {d : ℕ} {A : Type} (S : MmlSettings d A) {q : ℕ} (hw : UnitWeights S q) (pts : Thetas d) (lw : List ℝ)
    (h : mmlIntegration S.hermgauss S.cholesky S.method S.points none = .ok (pts, lw)) :
    weighted pts (lw.map Real.exp) (fun _ => 1) = 1 := by
  obtain ⟨hm, hcount, x, w, hx, hlen, hpos, hsum, hch⟩ := hw
  have hok : mmlIntegration S.hermgauss S.cholesky S.method S.points none
      = .ok ((gridProduct x d).map fun v => fun i => Real.sqrt 2 * v i,
          ((gridProduct w d).map fun v => (∏ i, v i) * Real.pi ^ (-(1 / 2 : ℝ) * d)).map Real.log) := by
    unfold mmlIntegration
    rw [hcount]
    simp only [mmlCovariance, bind_ok, hm, if_true]
    unfold gaussHermite
    rw [hx, hch]
    simp only [bind_ok, List.map_map, Matrix.one_mulVec, Pi.zero_apply, add_zero, pure, Except.pure]
    rfl
  rw [hok] at h
  obtain ⟨rfl, rfl⟩ := Prod.mk.inj (Except.ok.inj h)
  have hexp : (((gridProduct w d).map fun v => (∏ i, v i) * Real.pi ^ (-(1 / 2 : ℝ) * d)).map Real.log).map Real.exp
      = (gridProduct w d).map fun v => (∏ i, v i) * Real.pi ^ (-(1 / 2 : ℝ) * d) := by
    rw [List.map_map, List.map_map]
    refine List.map_congr_left fun v hv => ?_
    exact Real.exp_log (mul_pos (gridProduct_pos w hpos d v hv) (Real.rpow_pos_of_pos Real.pi_pos _))
  rw [hexp]
  unfold weighted
  rw [List.zipWith_map]
  have hprod := gridProduct_sum x w hlen d (fun _ _ => 1)
  simp only [Finset.prod_const_one, mul_one, Finset.prod_const, Finset.card_univ, Fintype.card_fin] at hprod ⊢
  rw [sum_zipWith_mul_right, hprod]
  have hs : (List.zipWith (fun _ b : ℝ => b) x w).sum = w.sum := by
    clear hx hpos hsum hprod hexp hok h
    induction x generalizing w with
    | nil => cases w with
      | nil => rfl
      | cons b w => simp at hlen
    | cons a x ih => cases w with
      | nil => simp at hlen
      | cons b w => simp only [List.zipWith_cons_cons, List.sum_cons, ih w (by simpa using hlen)]
  rw [hs, hsum, Real.sqrt_eq_rpow, ← Real.rpow_natCast, ← Real.rpow_mul Real.pi_pos.le, ← Real.rpow_add Real.pi_pos]
  simp

theorem Spec.SameAnswers.valid {cats cats' : List ℕ} {N N' : ℕ} {τ : Fin N → Fin N'} {σ : Fin cats.length → Fin cats'.length}
    {y' y : ℕ → ℕ → Cell} (h : SameAnswers τ σ y' y) (hcats : ∀ j : Fin cats.length, cats'[(σ j : ℕ)]? = cats[(j : ℕ)]?)
    (hy : ∀ i, i < N → ValidResponses cats (y i)) : ∀ i, i < N' → ValidResponses cats' (y' i) := by
  intro i' hi' j' c hc hobs
  have hj' : j' < cats'.length := lt_of_getElem?_some hc
  by_cases hr : ∃ i, τ i = ⟨i', hi'⟩
  · obtain ⟨i, hi⟩ := hr
    by_cases hs : ∃ j, σ j = ⟨j', hj'⟩
    · obtain ⟨j, hj⟩ := hs
      have e : y' i' j' = y i j := by
        have := h.same i j
        rwa [hi, hj] at this
      have hc' : cats[(j : ℕ)]? = some c := by rw [← hcats j, hj]; exact hc
      rw [e] at hobs ⊢
      exact hy i i.isLt j c hc' hobs
    · have := h.items ⟨i', hi'⟩ ⟨j', hj'⟩ fun j e => hs ⟨j, e⟩
      rw [this] at hobs
      cases hobs
  · have := h.respondents ⟨i', hi'⟩ ⟨j', hj'⟩ fun i e => hr ⟨i, e⟩
    rw [this] at hobs
    cases hobs

/-- Two models fitted by MML to the same answers in another order, the one possibly with further items that nobody answered. -/
theorem mmlFit_corresponding {d : ℕ} {A : Type} (S : MmlSettings d A) {q : ℕ}
    (hrule : MmlRule S.hermgauss S.cholesky S.method S.points q) (scorer scorer' : List ℝ → List ℝ → Scorer d) (cats cats' : List ℕ)
    (P P' : List ℝ → List ℝ → (Fin d → ℝ) → ℕ → ℕ → ℝ) {n n' k k' : ℕ} (e : Fin n → Fin n') (f : Fin k → Fin k')
    (he : Function.Injective e) (hf : Function.Injective f)
    (hq : QuietRule S.rule S.start ∨ (Function.Surjective e ∧ Function.Surjective f))
    (hsc : ∀ w r : List ℝ, w.length = n → r.length = k → IsScorer (scorer w r) cats (P w r))
    (hpos : ∀ w r : List ℝ, w.length = n → r.length = k → PositiveProbs (P w r) cats)
    (hsc' : ∀ w r : List ℝ, w.length = n' → r.length = k' → IsScorer (scorer' w r) cats' (P' w r))
    (hpos' : ∀ w r : List ℝ, w.length = n' → r.length = k' → PositiveProbs (P' w r) cats')
    (σ : Fin cats.length → Fin cats'.length) (hσ : Function.Injective σ)
    (hP : ∀ w' w r' r, EntriesAt e w' w → EntriesAt f r' r → ∀ θ (j : Fin cats.length), P' w' r' θ (σ j) = P w r θ j)
    (N N' : ℕ) (τ : Fin N → Fin N') (hτ : Function.Injective τ) (hu : UnitWeights S q ∨ Function.Surjective τ) (y y' : ℕ → ℕ → Cell)
    (hy : ∀ i, i < N → ValidResponses cats (y i))
    (hcats : ∀ j : Fin cats.length, cats'[(σ j : ℕ)]? = cats[(j : ℕ)]?) (hyy : SameAnswers τ σ y' y)
    (w₀' w₀ r₀' r₀ : List ℝ) (hw : EntriesAt e w₀' w₀) (hr : EntriesAt f r₀' r₀) :
    ∃ w' w r' r, S.fit scorer (rowsOf N cats.length y) w₀ r₀ = .ok (w, r) ∧
      S.fit scorer' (rowsOf N' cats'.length y') w₀' r₀' = .ok (w', r') ∧ EntriesAt e w' w ∧ EntriesAt f r' r ∧
      (∀ i' : Fin n', (∀ i, e i ≠ i') → w'[(i' : ℕ)]? = w₀'[(i' : ℕ)]?) ∧
      (∀ i' : Fin k', (∀ i, f i ≠ i') → r'[(i' : ℕ)]? = r₀'[(i' : ℕ)]?) := by
  obtain ⟨pts, lw, hok, hne, hlen, _, _⟩ := mmlIntegration_symmetric hrule
  unfold MmlSettings.fit
  rw [hok]
  simp only [bind_ok]
  have hy' : ∀ i, i < N' → ValidResponses cats' (y' i) := hyy.valid hcats hy
  refine gradientFit_corresponding _ _ S.rule S.start S.config S.lr _ _ S.maxEpochs e f he hf hq ?_ w₀' w₀ r₀' r₀ hw hr
  intro w' w r' r h1 h2
  refine ⟨_, mmlLoss_weighted (hsc w r h1.2.1 h2.2.1) (hpos w r h1.2.1 h2.2.1) N y hy pts lw hlen hne, ?_⟩
  rw [mmlLoss_weighted (hsc' w' r' h1.1 h2.1) (hpos' w' r' h1.1 h2.1) N' y' hy' pts lw hlen hne]
  congr 3
  rw [Finset.sum_range, Finset.sum_range]
  rw [← Finset.sum_subset (Finset.subset_univ (Finset.univ.map ⟨τ, hτ⟩)), Finset.sum_map]
  · refine Finset.sum_congr rfl fun i _ => ?_
    congr 2
    funext θ
    exact observedLikelihood_corresponding σ hσ _ _ _ _ θ (hP w' w r' r h1 h2 θ) (hyy.same i) (hyy.items (τ i))
  · intro i' _ hi'
    have hno : ∀ i, τ i ≠ i' := fun i h => hi' (by rw [Finset.mem_map]; exact ⟨i, Finset.mem_univ _, h⟩)
    rcases hu with hu | hu
    · rw [observedLikelihood_empty _ _ _ fun j' hj' => hyy.respondents i' ⟨j', hj'⟩ hno, mmlIntegration_total S hu pts lw hok, Real.log_one]
    · obtain ⟨i, hi⟩ := hu i'
      exact absurd hi (hno i)

/-! ## Positions of the parameters of an item -/

/-- Positions of the rows of a table. -/
def rowPositions {K K' : ℕ} (σ : Fin K → Fin K') (d : ℕ) : Fin (K * d) → Fin (K' * d) := fun i =>
  finProdFinEquiv (σ (finProdFinEquiv.symm i).1, (finProdFinEquiv.symm i).2)

theorem rowPositions_apply {K K' : ℕ} (σ : Fin K → Fin K') (d : ℕ) (j : Fin K) (k : Fin d) :
    rowPositions σ d (finProdFinEquiv (j, k)) = finProdFinEquiv (σ j, k) := by simp [rowPositions]

theorem rowPositions_injective {K K' : ℕ} {σ : Fin K → Fin K'} (hσ : Function.Injective σ) (d : ℕ) :
    Function.Injective (rowPositions σ d) := by
  intro a b h
  have h := finProdFinEquiv.injective h
  rw [Prod.mk.injEq] at h
  exact finProdFinEquiv.symm.injective (Prod.ext (hσ h.1) h.2)

theorem rowPositions_surjective {K K' : ℕ} {σ : Fin K → Fin K'} (hσ : Function.Surjective σ) (d : ℕ) :
    Function.Surjective (rowPositions σ d) := by
  intro b
  obtain ⟨j, hj⟩ := hσ (finProdFinEquiv.symm b).1
  exact ⟨finProdFinEquiv (j, (finProdFinEquiv.symm b).2), by rw [rowPositions_apply, hj]; exact finProdFinEquiv.apply_symm_apply b⟩

theorem viewRows_rowPositions {K K' d : ℕ} (σ : Fin K → Fin K') (w' w : List ℝ) (h : EntriesAt (rowPositions σ d) w' w) (j : Fin K) :
    (viewRows K' d w')[(σ j : ℕ)]? = (viewRows K d w)[(j : ℕ)]? := by
  obtain ⟨h1, h2, h3⟩ := h
  have he : ∀ k, k < d → w'[(σ j : ℕ) * d + k]? = some (w.getD (j * d + k) 0) := by
    intro k hk
    have := h3 (finProdFinEquiv (j, ⟨k, hk⟩))
    rw [rowPositions_apply] at this
    simp only [finProdFinEquiv_apply_val] at this
    rw [show (σ j : ℕ) * d + k = k + d * (σ j : ℕ) by ring, this, show k + d * (j : ℕ) = j * d + k by ring,
      List.getElem?_eq_getElem (by rw [h2]; exact index_lt j.isLt hk), List.getD_eq_getElem?_getD,
      List.getElem?_eq_getElem (by rw [h2]; exact index_lt j.isLt hk)]
    rfl
  rw [viewRows_row K' d w' h1 (σ j) (σ j).isLt _ he, viewRows_row K d w h2 j j.isLt (fun k => w.getD (j * d + k) 0)]
  intro k hk
  rw [List.getD_eq_getElem?_getD, List.getElem?_eq_getElem (by rw [h2]; exact index_lt j.isLt hk)]
  rfl

theorem viewRows_outside {K K' d : ℕ} (σ : Fin K → Fin K') (w' : List ℝ) (v : ℝ) (hlen : w'.length = K' * d)
    (h : ∀ i' : Fin (K' * d), (∀ i, rowPositions σ d i ≠ i') → w'[(i' : ℕ)]? = (List.replicate (K' * d) v)[(i' : ℕ)]?) (j' : Fin K')
    (hj' : ∀ j, σ j ≠ j') : (viewRows K' d w')[(j' : ℕ)]? = some (List.replicate d v) := by
  rw [viewRows_row K' d w' hlen j' j'.isLt (fun _ => v)]
  · simp [List.map_const']
  · intro k hk
    have := h (finProdFinEquiv (j', ⟨k, hk⟩)) (fun i hi => by
      have hi := finProdFinEquiv.injective hi
      rw [Prod.mk.injEq] at hi
      exact hj' _ hi.1)
    simp only [finProdFinEquiv_apply_val] at this
    rw [show (j' : ℕ) * d + k = k + d * (j' : ℕ) by ring, this, List.getElem?_replicate, if_pos]
    rw [show k + d * (j' : ℕ) = j' * d + k by ring]
    exact index_lt j'.isLt hk

theorem entriesAt_replicate {α : Type} {n n' : ℕ} (e : Fin n → Fin n') (v : α) :
    EntriesAt e (List.replicate n' v) (List.replicate n v) :=
  ⟨List.length_replicate, List.length_replicate, fun i => by
    rw [List.getElem?_replicate, List.getElem?_replicate, if_pos (e i).isLt, if_pos i.isLt]⟩

/-- Positions in two vectors written one after the other. -/
def pairPositions {K K' : ℕ} (σ : Fin K → Fin K') : Fin (K + K) → Fin (K' + K') := fun i =>
  finSumFinEquiv (Sum.map σ σ (finSumFinEquiv.symm i))

theorem pairPositions_apply {K K' : ℕ} (σ : Fin K → Fin K') (s : Fin K ⊕ Fin K) :
    pairPositions σ (finSumFinEquiv s) = finSumFinEquiv (Sum.map σ σ s) := by
  unfold pairPositions
  rw [Equiv.symm_apply_apply]

theorem pairPositions_injective {K K' : ℕ} {σ : Fin K → Fin K'} (hσ : Function.Injective σ) : Function.Injective (pairPositions σ) := by
  intro a b h
  exact finSumFinEquiv.symm.injective (Sum.map_injective.2 ⟨hσ, hσ⟩ (finSumFinEquiv.injective h))

theorem pairPositions_surjective {K K' : ℕ} {σ : Fin K → Fin K'} (hσ : Function.Surjective σ) :
    Function.Surjective (pairPositions σ) := by
  intro b
  obtain ⟨a, ha⟩ := Sum.map_surjective.2 ⟨hσ, hσ⟩ (finSumFinEquiv.symm b)
  exact ⟨finSumFinEquiv a, by simp only [pairPositions, Equiv.symm_apply_apply, ha, Equiv.apply_symm_apply]⟩

theorem pairPositions_first {K K' : ℕ} {σ : Fin K → Fin K'} {r' r : List ℝ} (h : EntriesAt (pairPositions σ) r' r) :
    EntriesAt σ (r'.take K') (r.take K) := by
  obtain ⟨h1, h2, h3⟩ := h
  refine ⟨by rw [List.length_take]; omega, by rw [List.length_take]; omega, fun j => ?_⟩
  have := h3 (finSumFinEquiv (Sum.inl j))
  rw [pairPositions_apply] at this
  simp only [Sum.map_inl, finSumFinEquiv_apply_left, Fin.val_castAdd] at this
  rw [List.getElem?_take_of_lt (σ j).isLt, List.getElem?_take_of_lt j.isLt, this]

theorem pairPositions_second {K K' : ℕ} {σ : Fin K → Fin K'} {r' r : List ℝ} (h : EntriesAt (pairPositions σ) r' r) :
    EntriesAt σ (r'.drop K') (r.drop K) := by
  obtain ⟨h1, h2, h3⟩ := h
  refine ⟨by rw [List.length_drop]; omega, by rw [List.length_drop]; omega, fun j => ?_⟩
  have := h3 (finSumFinEquiv (Sum.inr j))
  rw [pairPositions_apply] at this
  simp only [Sum.map_inr, finSumFinEquiv_apply_right, Fin.val_natAdd] at this
  rw [List.getElem?_drop, List.getElem?_drop, this]

theorem pairPositions_outside {K K' : ℕ} {σ : Fin K → Fin K'} {r' r₀ : List ℝ}
    (h : ∀ i' : Fin (K' + K'), (∀ i, pairPositions σ i ≠ i') → r'[(i' : ℕ)]? = r₀[(i' : ℕ)]?) (j' : Fin K') (hj' : ∀ j, σ j ≠ j') :
    r'[(j' : ℕ)]? = r₀[(j' : ℕ)]? ∧ r'[K' + (j' : ℕ)]? = r₀[K' + (j' : ℕ)]? := by
  constructor
  · refine h (finSumFinEquiv (Sum.inl j')) fun i hi => ?_
    have hi := finSumFinEquiv.injective hi
    cases hs : finSumFinEquiv.symm i with
    | inl a => rw [hs] at hi; exact hj' a (Sum.inl.inj hi)
    | inr a => rw [hs] at hi; cases hi
  · refine h (finSumFinEquiv (Sum.inr j')) fun i hi => ?_
    have hi := finSumFinEquiv.injective hi
    cases hs : finSumFinEquiv.symm i with
    | inl a => rw [hs] at hi; cases hi
    | inr a => rw [hs] at hi; exact hj' a (Sum.inr.inj hi)

/-! ## Intercepts of items with different numbers of categories -/

/-- Number of free intercepts of the items. -/
def freeIntercepts (cats : List ℕ) (j : Fin cats.length) : ℕ := cats.getD j 0 - 1

theorem freeIntercepts_sum (cats : List ℕ) (hpos : ∀ c ∈ cats, 0 < c) : ∑ j, freeIntercepts cats j = cats.sum - cats.length := by
  have h : ∑ j, freeIntercepts cats j + cats.length = cats.sum := by
    have e1 : ∑ j, freeIntercepts cats j + cats.length = ∑ j : Fin cats.length, (freeIntercepts cats j + 1) := by
      rw [Finset.sum_add_distrib]; simp
    rw [e1, ← Fin.sum_univ_getElem cats]
    refine Finset.sum_congr rfl fun j _ => ?_
    have := hpos cats[(j : ℕ)] (List.getElem_mem _)
    unfold freeIntercepts
    rw [List.getD_eq_getElem?_getD, List.getElem?_eq_getElem j.isLt, Option.getD_some]
    omega
  omega

/-- Positions of the intercepts of the items. -/
def interceptPositions {cats cats' : List ℕ} (σ : Fin cats.length → Fin cats'.length)
    (hcats : ∀ j, freeIntercepts cats j = freeIntercepts cats' (σ j)) :
    Fin (∑ j, freeIntercepts cats j) → Fin (∑ j, freeIntercepts cats' j) := fun i =>
  finSigmaFinEquiv ⟨σ (finSigmaFinEquiv.symm i).1, Fin.cast (hcats _) (finSigmaFinEquiv.symm i).2⟩

theorem interceptPositions_apply {cats cats' : List ℕ} (σ : Fin cats.length → Fin cats'.length)
    (hcats : ∀ j, freeIntercepts cats j = freeIntercepts cats' (σ j)) (j : Fin cats.length) (k : Fin (freeIntercepts cats j)) :
    interceptPositions σ hcats (finSigmaFinEquiv ⟨j, k⟩) = finSigmaFinEquiv ⟨σ j, Fin.cast (hcats j) k⟩ := by
  have key : ∀ s : (i : Fin cats.length) × Fin (freeIntercepts cats i), s = ⟨j, k⟩ →
      (finSigmaFinEquiv ⟨σ s.1, Fin.cast (hcats s.1) s.2⟩ : Fin (∑ i, freeIntercepts cats' i))
        = finSigmaFinEquiv ⟨σ j, Fin.cast (hcats j) k⟩ := by
    rintro _ rfl
    rfl
  exact key _ (Equiv.symm_apply_apply _ _)

theorem interceptPositions_injective {cats cats' : List ℕ} {σ : Fin cats.length → Fin cats'.length} (hσ : Function.Injective σ)
    (hcats : ∀ j, freeIntercepts cats j = freeIntercepts cats' (σ j)) : Function.Injective (interceptPositions σ hcats) := by
  intro a b h
  obtain ⟨⟨j, k⟩, rfl⟩ := finSigmaFinEquiv.surjective a
  obtain ⟨⟨i, l⟩, rfl⟩ := finSigmaFinEquiv.surjective b
  rw [interceptPositions_apply, interceptPositions_apply] at h
  have h := finSigmaFinEquiv.injective h
  rw [Sigma.mk.injEq] at h
  obtain rfl := hσ h.1
  have := eq_of_heq h.2
  rw [Fin.cast_injective _ this]

theorem interceptPositions_surjective {cats cats' : List ℕ} {σ : Fin cats.length → Fin cats'.length} (hσ : Function.Surjective σ)
    (hcats : ∀ j, freeIntercepts cats j = freeIntercepts cats' (σ j)) : Function.Surjective (interceptPositions σ hcats) := by
  intro b
  obtain ⟨⟨i, l⟩, rfl⟩ := finSigmaFinEquiv.surjective b
  obtain ⟨j, rfl⟩ := hσ i
  exact ⟨finSigmaFinEquiv ⟨j, Fin.cast (hcats j).symm l⟩, by rw [interceptPositions_apply]; rfl⟩

theorem scatterMask_true (m : List Bool) (p : List ℝ) (i : ℕ) (h : m[i]? = some true) (v : ℝ)
    (hv : p[countTrue (m.take i)]? = some v) : (scatterMask 0 m p)[i]? = some v := by
  unfold countTrue at hv
  induction m generalizing p i with
  | nil => simp at h
  | cons b m ih =>
    cases i with
    | zero =>
      simp at h
      subst h
      cases p with
      | nil => simp at hv
      | cons x p => simpa [scatterMask] using hv
    | succ i =>
      simp at h
      cases b with
      | false =>
        simp only [scatterMask, List.getElem?_cons_succ]
        exact ih p i h (by simpa using hv)
      | true =>
        cases p with
        | nil => simp at hv
        | cons x p =>
          simp only [scatterMask, List.getElem?_cons_succ]
          exact ih p i h (by simpa using hv)

theorem count_freeMask_take (M : ℕ) (cats : List ℕ) (hpos : ∀ c ∈ cats, 0 < c) (hM : ∀ c ∈ cats, c ≤ M) (j : Fin cats.length) (k : ℕ)
    (hk : 0 < k) (hkc : k ≤ cats[(j : ℕ)]) : countTrue ((freeMask M cats).take (j * M + k))
      = ∑ i : Fin (j : ℕ), freeIntercepts cats (Fin.castLE j.isLt.le i) + (k - 1) := by
  have hsplit : freeMask M cats = freeMask M (cats.take j) ++ (freeRow M cats[(j : ℕ)] ++ freeMask M (cats.drop (j + 1))) := by
    unfold freeMask
    rw [← List.flatMap_cons, ← List.drop_eq_getElem_cons j.isLt, ← List.flatMap_append, List.take_append_drop]
  have hl : (freeMask M (cats.take j)).length = j * M := by
    rw [length_freeMask, List.length_take, min_eq_left j.isLt.le]
  have hcM := hM cats[(j : ℕ)] (List.getElem_mem _)
  have hrow : (freeRow M cats[(j : ℕ)]).take k = freeRow k k := by
    unfold freeRow
    rw [← List.map_take, List.take_range, min_eq_left (by omega)]
    refine List.map_congr_left fun i hi => ?_
    have := List.mem_range.1 hi
    have h1 : i < cats[(j : ℕ)] := by omega
    simp [h1, this]
  rw [hsplit, List.take_append, hl, List.take_of_length_le (by rw [hl]; omega), Nat.add_sub_cancel_left, List.take_append,
    length_freeRow, show k - M = 0 by omega, List.take_zero, List.append_nil, hrow]
  have e1 := count_freeMask M (cats.take j) (fun c hc => hpos c (List.mem_of_mem_take hc)) fun c hc => hM c (List.mem_of_mem_take hc)
  rw [← freeIntercepts_sum _ fun c hc => hpos c (List.mem_of_mem_take hc)] at e1
  have e2 := count_freeRow k k hk le_rfl
  unfold countTrue at e1 e2 ⊢
  rw [List.count_append, e1, e2]
  congr 1
  unfold freeIntercepts
  rw [← Finset.sum_range fun i => (cats.take j).getD i 0 - 1, List.length_take, min_eq_left j.isLt.le]
  simp only [Fin.val_castLE]
  rw [← Finset.sum_range fun i => cats.getD i 0 - 1]
  refine Finset.sum_congr rfl fun i hi => ?_
  rw [List.getD_eq_getElem?_getD, List.getD_eq_getElem?_getD, List.getElem?_take_of_lt (Finset.mem_range.1 hi)]

/-- The intercept of category `k` of item `j` in the parameter vector of the model. -/
theorem scatter_intercept (M : ℕ) (cats : List ℕ) (hpos : ∀ c ∈ cats, 0 < c) (hM : ∀ c ∈ cats, c ≤ M) (b : List ℝ)
    (hb : b.length = ∑ j, freeIntercepts cats j) (j : Fin cats.length) (k : ℕ) (hk : 0 < k) (hkc : k < cats[(j : ℕ)])
    (hlt : k - 1 < freeIntercepts cats j) :
    (scatterMask 0 (freeMask M cats) b)[(j : ℕ) * M + k]? = b[(finSigmaFinEquiv (⟨j, ⟨k - 1, hlt⟩⟩ :
      (i : Fin cats.length) × Fin (freeIntercepts cats i)) : ℕ)]? := by
  have hcM := hM cats[(j : ℕ)] (List.getElem_mem _)
  have hpos' := (finSigmaFinEquiv (⟨j, ⟨k - 1, hlt⟩⟩ : (i : Fin cats.length) × Fin (freeIntercepts cats i))).isLt
  obtain ⟨v, hv⟩ := getElem?_of_lt b _ (by rw [hb]; exact hpos')
  rw [hv]
  refine scatterMask_true _ _ _ ?_ v ?_
  · rw [freeMask_getElem? M cats j k cats[(j : ℕ)] (List.getElem?_eq_getElem _) (by omega)]
    simp [hkc]; omega
  · rw [count_freeMask_take M cats hpos hM j k hk hkc.le, ← hv, finSigmaFinEquiv_apply]

end Irt
