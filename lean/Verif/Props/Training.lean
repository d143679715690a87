import Verif.Lemmas.Training
import Verif.Lemmas.Scoring

/-!
# C49, C50, C73: training loops, interrupted fits, starting scores

`Trainer` is the loss (which may be NaN or raise) and the optimiser update; both are arbitrary.
-/

namespace Irt

variable {S : Type}

/-! ## C49 -/

/-- C49, what the MML loop returns: at most `maxEpochs` iterations are made on the full data; fewer only after
`limit` learning rate reductions; and the parameters returned are those *after* the update of the first iteration
with the smallest loss (the final parameters if every loss was NaN or there was no iteration). -/
theorem C49_mml (T : Trainer S) (c : TrainConfig) (hf : 0 < c.factor) (lr : ℝ) (hlr : 0 ≤ lr) (batch : List ℕ)
    (maxEpochs : ℕ) (s₀ : S) (st : LoopState S)
    (h : mmlEpochs T c batch maxEpochs (LoopState.start lr s₀) = .ok st) :
    ∃ l, Run T s₀ l st.params ∧ st.history = l.map TrainStep.loss ∧ (∀ u ∈ l, u.batch = batch) ∧
      l.length ≤ maxEpochs ∧ (l.length < maxEpochs → c.limit ≤ st.lrUpdates) ∧
      (1 ≤ c.limit → st.lrUpdates ≤ c.limit) ∧
      ((∃ t, IsFirstBest l t ∧ st.final = t.after) ∨ ((∀ u ∈ l, u.loss = none) ∧ st.final = st.params)) := by
  obtain ⟨l, hinv, h1, h2, h3, h4, _⟩ := mmlEpochs_inv hf hlr maxEpochs (LoopInv.start T c lr s₀) h
  simp only [List.nil_append] at hinv
  refine ⟨l, hinv.run, hinv.history, h1, h2, h3, fun hl => h4 (hl), ?_⟩
  rcases hinv.best with ⟨_, g2, g3⟩ | ⟨t, x, g1, _, _, g4⟩
  · exact Or.inr ⟨g3, by simp [LoopState.final, g2]⟩
  · exact Or.inl ⟨t, g1, by simp [LoopState.final, g4]⟩

/-- C49, what the JML loop returns: the batches are visited in order, epoch after epoch, for at most `maxEpochs`
epochs; fewer only after `limit` reductions; the parameters and latent scores returned are those after the
iteration whose *batch* had the smallest loss. -/
theorem C49_jml (T : Trainer S) (c : TrainConfig) (hf : 0 < c.factor) (lr : ℝ) (hlr : 0 ≤ lr)
    (batches : List (List ℕ)) (maxEpochs : ℕ) (s₀ : S) (st : LoopState S)
    (h : jmlEpochs T c batches maxEpochs (LoopState.start lr s₀) = .ok st) :
    ∃ l, Run T s₀ l st.params ∧ st.history = l.map TrainStep.loss ∧
      l.map TrainStep.batch <+: (List.replicate maxEpochs batches).flatten ∧
      (l.map TrainStep.batch ≠ (List.replicate maxEpochs batches).flatten → c.limit ≤ st.lrUpdates) ∧
      (1 ≤ c.limit → st.lrUpdates ≤ c.limit) ∧
      ((∃ t, IsFirstBest l t ∧ st.final = t.after) ∨ ((∀ u ∈ l, u.loss = none) ∧ st.final = st.params)) := by
  obtain ⟨l, hinv, h1, h2, h3⟩ := jmlEpochs_inv hf hlr batches maxEpochs (LoopInv.start T c lr s₀) h
  simp only [List.nil_append] at hinv
  refine ⟨l, hinv.run, hinv.history, h1, h2, fun hl => h3 (hl), ?_⟩
  rcases hinv.best with ⟨_, g2, g3⟩ | ⟨t, x, g1, _, _, g4⟩
  · exact Or.inr ⟨g3, by simp [LoopState.final, g2]⟩
  · exact Or.inl ⟨t, g1, by simp [LoopState.final, g4]⟩

/-- C49, what the autoencoder loop returns: the batches of each epoch are visited in order (batches of fewer than
four respondents are dropped with batch normalisation), for at most `maxEpochs` epochs; fewer only after `limit`
reductions or a NaN loss; the recorded losses are the means over intervals of `E` iterations; the parameters
returned are those after the last iteration of the first interval with the smallest mean, or the final ones if no
interval was completed. -/
theorem C49_autoencoder (T : Trainer S) (c : TrainConfig) (hf : 0 < c.factor) (E : ℕ) (lr : ℝ) (hlr : 0 ≤ lr)
    (bn : Bool) (batches : ℕ → List (List ℕ)) (maxEpochs : ℕ) (s₀ : S) (st : AEState S)
    (h : aeEpochs T c E bn batches maxEpochs 0 (AEState.start lr s₀) = .ok st) :
    ∃ l, Run T s₀ l st.params ∧ (∀ u ∈ l, u.loss ≠ none) ∧
      l.map TrainStep.batch <+: batchesInOrder bn batches maxEpochs ∧
      (l.map TrainStep.batch ≠ batchesInOrder bn batches maxEpochs →
        c.limit ≤ st.lrUpdates ∨ ∃ b, T.loss l.length b st.params = .ok none) ∧
      (1 ≤ c.limit → st.lrUpdates ≤ c.limit) ∧
      st.history = (evaluationSteps E l.length).map (intervalMean l E) ∧
      ((∃ t u, t ∈ evaluationSteps E l.length ∧ l[t - 1]? = some u ∧ st.final = u.after ∧
          ∀ t' ∈ evaluationSteps E l.length, intervalMean l E t ≤ intervalMean l E t' ∧
            (t' < t → intervalMean l E t < intervalMean l E t')) ∨
        (evaluationSteps E l.length = [] ∧ st.final = st.params)) := by
  obtain ⟨l, hinv, h1, h2, h3⟩ := aeEpochs_inv hf hlr bn batches maxEpochs 0 (AEInv.start T c E lr s₀) h
  simp only [List.nil_append] at hinv h2
  have hu : usedBatches bn batches 0 maxEpochs = batchesInOrder bn batches maxEpochs := by
    unfold usedBatches batchesInOrder; simp only [Nat.zero_add]
  rw [hu] at h1 h2
  refine ⟨l, hinv.run, hinv.notNaN, h1, h2, fun hl => h3 (hl), hinv.history, ?_⟩
  rcases hinv.best with ⟨g1, _, g3⟩ | ⟨t, u, g1, g2, g3, _, g5⟩
  · exact Or.inr ⟨g1, by simp [AEState.final, g3]⟩
  · exact Or.inl ⟨t, u, g1, g2, by simp [AEState.final, g3], g5⟩

/-- C49, learning rate of MML and JML: after `k` reductions it is the initial one times `factor ^ k`, and `k`
reductions take at least `k (patience + 1)` iterations. -/
theorem C49_learning_rate (T : Trainer S) (c : TrainConfig) (hf : 0 < c.factor) (lr : ℝ) (hlr : 0 ≤ lr)
    (maxEpochs : ℕ) (s₀ : S) (st : LoopState S)
    (h : (∃ batch, mmlEpochs T c batch maxEpochs (LoopState.start lr s₀) = .ok st) ∨
      ∃ batches, jmlEpochs T c batches maxEpochs (LoopState.start lr s₀) = .ok st) :
    st.sched.lr = lr * c.factor ^ st.lrUpdates ∧ st.lrUpdates * (c.patience + 1) ≤ st.history.length := by
  have key : ∃ l, LoopInv T c lr s₀ st l := by
    rcases h with ⟨b, h⟩ | ⟨bs, h⟩
    · obtain ⟨l, hinv, _⟩ := mmlEpochs_inv hf hlr maxEpochs (LoopInv.start T c lr s₀) h
      exact ⟨_, hinv⟩
    · obtain ⟨l, hinv, _⟩ := jmlEpochs_inv hf hlr bs maxEpochs (LoopInv.start T c lr s₀) h
      exact ⟨_, hinv⟩
  obtain ⟨l, hinv⟩ := key
  refine ⟨hinv.lr, ?_⟩
  have := hinv.count
  rw [hinv.history, List.length_map]
  omega

/-- C49, learning rate of the autoencoders. -/
theorem C49_learning_rate_autoencoder (T : Trainer S) (c : TrainConfig) (hf : 0 < c.factor) (E : ℕ) (lr : ℝ)
    (hlr : 0 ≤ lr) (bn : Bool) (batches : ℕ → List (List ℕ)) (maxEpochs : ℕ) (s₀ : S) (st : AEState S)
    (h : aeEpochs T c E bn batches maxEpochs 0 (AEState.start lr s₀) = .ok st) :
    st.sched.lr = lr * c.factor ^ st.lrUpdates ∧ st.lrUpdates * (c.patience + 1) ≤ st.history.length := by
  obtain ⟨l, hinv, _⟩ := aeEpochs_inv hf hlr bn batches maxEpochs 0 (AEInv.start T c E lr s₀) h
  refine ⟨hinv.lr, ?_⟩
  have := hinv.count
  rw [hinv.history, List.length_map]
  omega

/-- C49 with an optimiser that never increases a loss that does not depend on the iteration: the parameters
returned by MML have a loss that is at most every recorded loss. Missing: optimisers that overshoot, such as the
Adam optimiser used (`C49_false`). -/
theorem C49_descent_partial (T : Trainer S) (c : TrainConfig) (hf : 0 < c.factor) (lr : ℝ) (hlr : 0 ≤ lr)
    (batch : List ℕ) (L : S → ℝ) (hL : ∀ i s, T.loss i batch s = .ok (some (L s)))
    (hdesc : ∀ i r s, L (T.update i batch r s) ≤ L s) (maxEpochs : ℕ) (hn : 0 < maxEpochs) (s₀ : S) (st : LoopState S)
    (h : mmlEpochs T c batch maxEpochs (LoopState.start lr s₀) = .ok st) :
    st.history ≠ [] ∧ ∀ x, some x ∈ st.history → L st.final ≤ x := by
  have step : ∀ {l s}, Run T s₀ l s → (∀ u ∈ l, u.batch = batch) → ∀ u ∈ l, ∃ i, u.loss = some (L u.before) ∧
      u.after = T.update i batch u.lr u.before := by
    intro l s hr
    induction hr with
    | nil => simp
    | @snoc l s b r x hr hx ih =>
      intro hb u hu
      rcases List.mem_append.1 hu with hu | hu
      · exact ih (fun v hv => hb v (List.mem_append_left _ hv)) u hu
      · have hbb : b = batch := hb ⟨b, r, s, x, _⟩ (List.mem_append_right _ List.mem_cons_self)
        simp at hu
        subst hbb
        rw [hu]
        rw [hL] at hx
        exact ⟨l.length, (Except.ok.inj hx).symm, rfl⟩
  obtain ⟨l, hrun, hh, hb, _, _, _, hres⟩ := C49_mml T c hf lr hlr batch maxEpochs s₀ st h
  have hne : st.history ≠ [] := by
    intro he
    obtain ⟨m, rfl⟩ : ∃ m, maxEpochs = m + 1 := ⟨maxEpochs - 1, by omega⟩
    obtain ⟨l', h1, _, _, h3, _, h5⟩ := mmlEpochs_inv hf hlr _ (LoopInv.start T c lr s₀) h
    have hl0 : l' = [] := by
      have := h1.history
      rw [he] at this
      simpa using this.symm
    subst hl0
    by_cases hlim : c.limit ≤ (LoopState.start lr s₀).lrUpdates
    · have := h5 hn hlim; simp at this
    · have h6 := h3 (by simp)
      have h7 := h1.count
      simp at h7
      rw [h7.1] at h6
      simp [LoopState.start] at hlim
      omega
  refine ⟨hne, ?_⟩
  intro x hx
  rw [hh] at hx
  obtain ⟨v, hv, hvx⟩ := List.mem_map.1 hx
  rcases hres with ⟨t, ⟨pre, post, y, hl, hy, h1, h2⟩, hfin⟩ | ⟨hnan, _⟩
  · have htl : t ∈ l := by rw [hl]; simp
    obtain ⟨i, ht1, ht2⟩ := step hrun hb t htl
    have hyx : y ≤ x := by
      rw [hl] at hv
      rcases List.mem_append.1 hv with hv | hv
      · exact (h1 v hv x hvx).le
      · rcases List.mem_cons.1 hv with rfl | hv
        · rw [hvx] at hy; exact (Option.some.inj hy).ge
        · exact h2 v hv x hvx
    rw [hfin, ht2]
    refine (hdesc _ _ _).trans ?_
    rw [ht1] at hy
    rw [Option.some.inj hy]
    exact hyx
  · rw [hnan v hv] at hvx; cases hvx

/-- The loss `x²` with the first step of Adam (a step of length `lr` against the sign of the gradient). -/
noncomputable def exTrainer : Trainer ℝ where
  loss := fun _ _ x => .ok (some (x ^ 2))
  update := fun _ _ lr x => if 0 < x then x - lr else if x < 0 then x + lr else x

/-- Settings of `MML.fit`. -/
noncomputable def mmlConfig : TrainConfig := { factor := 3 / 5, patience := 7, threshold := 5 / 100000, limit := 2 }

/-- C49 is false: MML with its default settings on the loss `x²` from `x = 1/20` (one epoch) records the loss 1/400
at the starting value, but returns -1/5, whose loss is 1/25, although it started from a better value. -/
theorem C49_false : ∃ st, mmlEpochs exTrainer mmlConfig [0] 1 (LoopState.start (1 / 4) (1 / 20 : ℝ)) = .ok st ∧
    st.history = [some (1 / 400)] ∧ st.final = -(1 / 5) ∧
    exTrainer.loss 1 [0] st.final = .ok (some (1 / 25)) := by
  have hu : exTrainer.update 0 [0] (1 / 4) (1 / 20) = -(1 / 5) := by
    simp only [exTrainer]; rw [if_pos (by norm_num)]; norm_num
  refine ⟨_, mmlEpochs_one _ _ _ _, ?_, ?_, ?_⟩
  · simp only [LoopState.start, List.nil_append]; norm_num
  · simp only [LoopState.final, LoopState.start, improves, if_true, Option.getD_some, List.length_nil]
    exact hu
  · simp only [LoopState.final, LoopState.start, improves, if_true, Option.getD_some, List.length_nil]
    rw [hu]
    simp only [exTrainer]
    norm_num

/-- A run of two epochs meets the hypotheses of `C49_mml`, and with the update "do nothing" those of
`C49_descent_partial`. -/
example : ∃ st, mmlEpochs exTrainer mmlConfig [0] 1 (LoopState.start (1 / 4) (1 / 20 : ℝ)) = .ok st ∧
    0 < mmlConfig.factor := ⟨_, mmlEpochs_one _ _ _ _, by norm_num [mmlConfig]⟩

/-- Halving the parameter never increases its square. -/
example : ∃ st, mmlEpochs { exTrainer with update := fun _ _ _ x => x / 2 } mmlConfig [0] 1
      (LoopState.start (1 / 4) (1 : ℝ)) = .ok st ∧
    (∀ i s, Trainer.loss { exTrainer with update := fun _ _ _ x => x / 2 } i [0] s = .ok (some (s ^ 2))) ∧
    ∀ x : ℝ, (x / 2) ^ 2 ≤ x ^ 2 :=
  ⟨_, mmlEpochs_one _ _ _ _, fun _ _ => rfl, fun x => by nlinarith [sq_nonneg x]⟩

/-- One epoch of JML with one batch. -/
example : ∃ st, jmlEpochs exTrainer mmlConfig [[0]] 1 (LoopState.start (1 / 4) (1 / 20 : ℝ)) = .ok st := by
  simp only [jmlEpochs, jmlBatches, trainIteration, exTrainer, bind, Except.bind, pure, Except.pure, ite_self]
  exact ⟨_, rfl⟩

/-- One epoch of an autoencoder with two batches and evaluation after every second batch. -/
example : ∃ st, aeEpochs exTrainer mmlConfig 2 false (fun _ => [[0], [1]]) 1 0 (AEState.start (1 / 4) (1 / 20 : ℝ))
    = .ok st ∧ st.history.length = 1 := by
  have h1 : aeBatch exTrainer mmlConfig 2 [0] (AEState.start (1 / 4) (1 / 20 : ℝ))
      = .ok ({ AEState.start (1 / 4) (exTrainer.update 0 [0] (1 / 4) (1 / 20 : ℝ)) with
          total := 1, window := [(1 / 20) ^ 2] }, .next) := by
    simp [aeBatch, exTrainer, AEState.start]
  have h2 : ∀ st : AEState ℝ, st.total = 1 → st.history = [] → ∃ r, aeBatch exTrainer mmlConfig 2 [1] st = .ok r ∧
      r.1.history.length = 1 ∧ r.2 ≠ .nan := by
    intro st h hh
    refine ⟨_, by simp [aeBatch, exTrainer, h]; rfl, by simp [hh], batchEnd_ne_nan _⟩
  obtain ⟨r, hr, hl, hn⟩ := h2 { AEState.start (1 / 4) (exTrainer.update 0 [0] (1 / 4) (1 / 20 : ℝ)) with
          total := 1, window := [(1 / 20) ^ 2] } rfl rfl
  have h3 : aeBatches exTrainer mmlConfig 2 false [[0], [1]] (AEState.start (1 / 4) (1 / 20 : ℝ)) = .ok (r.1, false) := by
    obtain ⟨r1, r2⟩ := r
    simp only [aeBatches, h1, bind, Except.bind, pure, Except.pure, Bool.false_eq_true, and_false, if_false, hr]
    cases r2 with
    | nan => exact absurd rfl hn
    | stop => rfl
    | next => rfl
  refine ⟨r.1, ?_, hl⟩
  simp only [aeEpochs, h3, bind, Except.bind, pure, Except.pure, Bool.false_eq_true, if_false, ite_self]
  simp

/-! ## C50 -/

/-- C50 is false for the B-spline models under MML: when training raises in any epoch, the model returned to the
caller evaluates every later query at the quadrature points of the fit, whatever the query. -/
theorem C50_false {Out : Type} {d : ℕ} (T : Trainer S) (c : TrainConfig) (lr : ℝ) (batch : List ℕ) (maxEpochs : ℕ)
    (grid : Thetas d) (m m' : CachedModel S d) (e : PyErr)
    (h : mmlTrain T c lr batch maxEpochs true grid m = (m', some e)) (f : S → (Fin d → ℝ) → Out) (θ : Thetas d) :
    m'.forward f θ = grid.map (f m'.params) := by
  unfold mmlTrain at h
  cases hm : mmlEpochs T c batch maxEpochs (LoopState.start lr m.params) with
  | error p =>
    rw [hm] at h
    obtain ⟨e', st⟩ := p
    simp only [if_true] at h
    rw [← (Prod.mk.inj h).1]
    rfl
  | ok st => rw [hm] at h; simp at h

/-- Such a fit: responses outside the categories make the log likelihood of the first epoch raise `IndexError`. Of
one query the model then returns two rows, those of the quadrature points 0 and 1. -/
example : ∃ m', mmlTrain (S := Unit) { loss := fun _ _ _ => .error .indexError, update := fun _ _ _ s => s } mmlConfig
      (1 / 4) [0] 1000 true [fun _ : Fin 1 => (0:ℝ), fun _ => 1] { params := () } = (m', some .indexError) ∧
    m'.forward (fun _ t => t 0) [fun _ => 5] = [0, 1] :=
  ⟨_, rfl, by simp [CachedModel.forward, mmlEpochs, trainIteration, bind, Except.bind]⟩

/-- C50 where it holds: after a fit that returned, and after any fit of a model without precomputed basis, the model
is evaluated at the scores asked for. Missing: spline models after a fit that raised (`C50_false`). -/
theorem C50_usable_partial {Out : Type} {d : ℕ} (T : Trainer S) (c : TrainConfig) (lr : ℝ) (batch : List ℕ)
    (maxEpochs : ℕ) (isSpline : Bool) (grid : Thetas d) (m m' : CachedModel S d) (hm : m.basis = none)
    (r : Option PyErr) (h : mmlTrain T c lr batch maxEpochs isSpline grid m = (m', r))
    (hok : r = none ∨ isSpline = false) (f : S → (Fin d → ℝ) → Out) (θ : Thetas d) :
    m'.forward f θ = θ.map (f m'.params) := by
  have hb : m'.basis = none := by
    unfold mmlTrain at h
    cases hl : mmlEpochs T c batch maxEpochs (LoopState.start lr m.params) with
    | error p =>
      rw [hl] at h
      obtain ⟨e', st⟩ := p
      have h1 := Prod.mk.inj h
      rcases hok with h2 | h2
      · rw [h2] at h1; cases h1.2
      · rw [← h1.1, h2]; exact hm
    | ok st =>
      rw [hl] at h
      rw [← (Prod.mk.inj h).1]
      cases isSpline <;> simp [hm]
  simp [CachedModel.forward, hb]

/-- C50, what an interrupted fit leaves in the parameters: those of the last completed iteration, not the best. -/
theorem C50_parameters {d : ℕ} (T : Trainer S) (c : TrainConfig) (lr : ℝ) (batch : List ℕ) (n k : ℕ)
    (hk : k < n) (hlim : 1 ≤ c.limit) (isSpline : Bool) (grid : Thetas d) (m : CachedModel S d) (st : LoopState S)
    (hst : mmlEpochs T c batch k (LoopState.start lr m.params) = .ok st) (hcont : st.lrUpdates < c.limit)
    (e : PyErr) (he : T.loss st.history.length batch st.params = .error e) :
    (mmlTrain T c lr batch n isSpline grid m).2 = some e ∧
      (mmlTrain T c lr batch n isSpline grid m).1.params = st.params := by
  have key : ∀ (k n : ℕ) (s : LoopState S), k < n → mmlEpochs T c batch k s = .ok st →
      mmlEpochs T c batch n s = .error (e, st) := by
    intro k
    induction k with
    | zero =>
      intro n s hn hs
      obtain ⟨n, rfl⟩ : ∃ j, n = j + 1 := ⟨n - 1, by omega⟩
      simp only [mmlEpochs, Except.ok.injEq] at hs
      subst hs
      unfold mmlEpochs
      have : trainIteration T c batch s = .error (e, s) := by unfold trainIteration; rw [he]
      rw [this]; rfl
    | succ k ih =>
      intro n s hn hs
      obtain ⟨n, rfl⟩ : ∃ j, n = j + 1 := ⟨n - 1, by omega⟩
      unfold mmlEpochs at hs ⊢
      cases hit : trainIteration T c batch s with
      | error e => rw [hit] at hs; cases hs
      | ok s1 =>
        rw [hit] at hs
        simp only [bind, Except.bind] at hs ⊢
        by_cases hl : c.limit ≤ s1.lrUpdates
        · rw [if_pos hl] at hs
          simp only [pure, Except.pure, Except.ok.injEq] at hs
          subst hs
          omega
        · rw [if_neg hl] at hs ⊢
          exact ih n s1 (by omega) hs
  have h := key k n _ hk hst
  unfold mmlTrain
  rw [h]
  exact ⟨rfl, rfl⟩

/-! ## C73 -/

/-- C73 is false without an answer key: one NaN response makes the default starting scores of all respondents NaN. -/
theorem C73_nan_false (lv : ℕ) (data : List (List Num)) (r : List Num) (hr : r ∈ data) (hn : none ∈ r)
    (noise : ℕ → ℕ → ℝ) :
    jmlStart lv none data noise none = .ok (List.replicate data.length (List.replicate lv none)) := by
  have hs : (data.map (sumScoreRow none)).mapM id = none := by
    apply mapM_option_none
    refine ⟨sumScoreRow none r, List.mem_map_of_mem hr, ?_⟩
    unfold sumScoreRow
    simp only [id]
    rw [mapM_option_none r id ⟨none, hn, rfl⟩]
    rfl
  have hst : standardise (data.map (sumScoreRow none)) = List.replicate data.length none := by
    unfold standardise
    rw [hs]
    simp only [List.map_map]
    exact List.map_const'
  unfold jmlStart
  simp only [hst]
  congr 1
  apply List.ext_getElem (by simp)
  intro i h1 h2
  simp only [List.getElem_map, List.getElem_zip, List.getElem_replicate, Option.map_none]
  rw [List.map_const', List.length_range]

theorem mapM_map_some (r : List ℝ) : (r.map some).mapM id = some r := by
  have := mapM_option_some (r.map some) id (fun x => x.getD 0) (by
    intro x hx; obtain ⟨y, _, rfl⟩ := List.mem_map.1 hx; rfl)
  rw [this, List.map_map]
  simp [Function.comp_def]

/-- Standardised scores when they are defined. -/
theorem standardise_eq (v : List ℝ) (hne : ∃ x ∈ v, ∃ y ∈ v, x ≠ y) :
    ∃ m sd : ℝ, 0 < sd ∧ standardise (v.map some) = v.map (fun x => some ((x - m) / sd)) ∧
      (v.map fun x => (x - m) / sd).sum = 0 ∧
      (v.map fun x => ((x - m) / sd) ^ 2).sum = (v.length : ℝ) - 1 := by
  have hm := mapM_map_some v
  obtain ⟨x, hx, y, hy, hxy⟩ := hne
  have hlen : 2 ≤ v.length := by
    match v, hx, hy with
    | [a], hx, hy => simp at hx hy; exact absurd (hx.trans hy.symm) hxy
    | a :: b :: t, _, _ => simp
  set m := v.sum / (v.length : ℝ) with hmdef
  have hn : (0 : ℝ) < (v.length : ℝ) - 1 := by
    have : (2 : ℝ) ≤ v.length := by exact_mod_cast hlen
    linarith
  have hss : 0 < (v.map fun x => (x - m) ^ 2).sum := by
    have hpos : ∃ z ∈ v, 0 < (z - m) ^ 2 := by
      by_cases h : x = m
      · exact ⟨y, hy, by have : y - m ≠ 0 := fun h' => hxy (by linarith); positivity⟩
      · exact ⟨x, hx, by have : x - m ≠ 0 := fun h' => h (by linarith); positivity⟩
    obtain ⟨z, hz, hzp⟩ := hpos
    exact list_sum_pos_of_mem v (fun x => (x - m) ^ 2) (fun x _ => sq_nonneg _) z hz hzp
  set var := (v.map fun x => (x - m) ^ 2).sum / ((v.length : ℝ) - 1) with hvar
  have hvp : 0 < var := div_pos hss hn
  refine ⟨m, Real.sqrt var, Real.sqrt_pos.2 hvp, ?_, ?_, ?_⟩
  · unfold standardise
    rw [hm]
    simp only
    rw [if_neg]
    rintro (h | h)
    · omega
    · exact (Real.sqrt_pos.2 hvp).ne' h
  · have h1 : (v.map fun x => (x - m) / Real.sqrt var).sum = (v.map fun x => x - m).sum / Real.sqrt var := by
      simp only [div_eq_mul_inv]
      rw [List.sum_map_mul_right]
    have h2 : (v.map fun x => x - m).sum = v.sum - (v.length : ℝ) * m := by
      have : ∀ w : List ℝ, (w.map fun x => x - m).sum = w.sum - (w.length : ℝ) * m := by
        intro w
        induction w with
        | nil => simp
        | cons a t ih => simp only [List.map_cons, List.sum_cons, ih, List.length_cons]; push_cast; ring
      exact this v
    rw [h1, h2, hmdef]
    have : (v.length : ℝ) ≠ 0 := by positivity
    field_simp
    simp
  · have h1 : (v.map fun x => ((x - m) / Real.sqrt var) ^ 2) = v.map fun x => (x - m) ^ 2 * var⁻¹ := by
      apply List.map_congr_left
      intro x _
      rw [div_pow, Real.sq_sqrt hvp.le, div_eq_mul_inv]
    rw [h1, List.sum_map_mul_right, hvar]
    field_simp

/-- Starting scores from defined sum scores that are not all equal. -/
theorem jmlStart_eq (mc : Option (List ℤ)) (data : List (List Num)) (v : List ℝ)
    (hv : data.map (sumScoreRow mc) = v.map some) (hne : ∃ x ∈ v, ∃ y ∈ v, x ≠ y) :
    ∃ z : List ℝ, z.length = data.length ∧ z.sum = 0 ∧ (z.map fun x => x ^ 2).sum = (data.length : ℝ) - 1 ∧
      (∀ (i j : ℕ) x y a b, z[i]? = some x → z[j]? = some y → v[i]? = some a → v[j]? = some b → (x < y ↔ a < b)) ∧
      ∀ lv noise, jmlStart lv mc data noise none = .ok ((List.zip (List.range data.length) z).map fun p =>
        (List.range lv).map fun k => some (if 1 < lv then p.2 + noise p.1 k * (1 / 10) else p.2)) := by
  obtain ⟨m, sd, hsd, h1, h2, h3⟩ := standardise_eq v hne
  have hlen : v.length = data.length := by
    have := congrArg List.length hv
    simpa using this.symm
  refine ⟨v.map fun x => (x - m) / sd, by simp [hlen], h2, ?_, ?_, ?_⟩
  · rw [List.map_map, ← hlen]; exact h3
  · intro i j x y a b hx hy ha hb
    rw [List.getElem?_map, ha] at hx
    rw [List.getElem?_map, hb] at hy
    simp at hx hy
    rw [← hx, ← hy, div_lt_div_iff_of_pos_right hsd]
    constructor <;> intro h <;> linarith
  · intro lv noise
    unfold jmlStart
    simp only [hv, h1]
    congr 1
    have : v.map (fun x => some ((x - m) / sd)) = (v.map fun x => (x - m) / sd).map some := by
      rw [List.map_map]; rfl
    rw [this, List.zip_map_right, List.map_map]
    rfl

/-- C73 for complete data: the starting scores are the standardised sum scores, with mean 0 and variance 1, in the
order of the sum scores; with several latent variables a tenth of a standard normal draw is added. Missing: data
with missing responses (`C73_nan_false`, `C73_minus_one_false`) and equal sum scores (`C73_equal_scores_false`). -/
theorem C73_complete_partial (rows : List (List ℝ))
    (hne : ∃ x ∈ rows, ∃ y ∈ rows, x.sum ≠ y.sum) :
    ∃ z : List ℝ, z.length = rows.length ∧ z.sum = 0 ∧ (z.map fun x => x ^ 2).sum = (rows.length : ℝ) - 1 ∧
      (∀ (i j : ℕ) x y a b, z[i]? = some x → z[j]? = some y → rows[i]? = some a → rows[j]? = some b →
        (x < y ↔ List.sum a < List.sum b)) ∧
      ∀ lv noise, jmlStart lv none (rows.map fun r => r.map some) noise none
        = .ok ((List.zip (List.range rows.length) z).map fun p =>
          (List.range lv).map fun k => some (if 1 < lv then p.2 + noise p.1 k * (1 / 10) else p.2)) := by
  have hv : (rows.map fun r => r.map some).map (sumScoreRow none) = (rows.map List.sum).map some := by
    rw [List.map_map, List.map_map]
    apply List.map_congr_left
    intro r _
    simp only [Function.comp, sumScoreRow]
    rw [mapM_map_some]; rfl
  obtain ⟨x, hx, y, hy, hxy⟩ := hne
  obtain ⟨z, h1, h2, h3, h4, h5⟩ := jmlStart_eq none _ _ hv
    ⟨_, List.mem_map_of_mem hx, _, List.mem_map_of_mem hy, hxy⟩
  rw [List.length_map] at h1 h3
  refine ⟨z, h1, h2, h3, ?_, by simpa using h5⟩
  intro i j x y a b hx hy ha hb
  exact h4 i j x y a.sum b.sum hx hy (by simp [ha]) (by simp [hb])

/-- C73 with an answer key, for every missing pattern: the starting scores are the standardised numbers of correct
responses. Missing: everyone has the same number of correct responses (`C73_equal_scores_false`). -/
theorem C73_key_partial (key : List ℤ) (data : List (List Num)) (hw : ∀ r ∈ data, r.length = key.length)
    (hne : ∃ x ∈ data, ∃ y ∈ data, numberRight key x ≠ numberRight key y) :
    ∃ z : List ℝ, z.length = data.length ∧ z.sum = 0 ∧ (z.map fun x => x ^ 2).sum = (data.length : ℝ) - 1 ∧
      (∀ (i j : ℕ) x y a b, z[i]? = some x → z[j]? = some y → data[i]? = some a → data[j]? = some b →
        (x < y ↔ numberRight key a < numberRight key b)) ∧
      ∀ lv noise, jmlStart lv (some key) data noise none
        = .ok ((List.zip (List.range data.length) z).map fun p =>
          (List.range lv).map fun k => some (if 1 < lv then p.2 + noise p.1 k * (1 / 10) else p.2)) := by
  have hcount : ∀ (key : List ℤ) (r : List Num), r.length = key.length →
      (List.zipWith (fun (x : Num) (k : ℤ) => if x = some (k : ℝ) then (1 : ℝ) else 0) r key).sum
        = (numberRight key r : ℝ) := by
    intro key
    induction key with
    | nil => intro r hr; simp [numberRight]
    | cons k ks ih =>
      intro r hr
      match r, hr with
      | x :: xs, hr =>
        have hxs : xs.length = ks.length := by simpa using hr
        rw [List.zipWith_cons_cons, List.sum_cons, ih xs hxs]
        unfold numberRight
        rw [Finset.card_filter, Finset.card_filter, List.length_cons, Finset.sum_range_succ']
        push_cast
        simp only [List.getElem?_cons_succ, List.getElem?_cons_zero, Option.some.injEq, exists_eq_left']
        rw [add_comm]
  have hv : data.map (sumScoreRow (some key)) = (data.map fun r => (numberRight key r : ℝ)).map some := by
    rw [List.map_map]
    apply List.map_congr_left
    intro r hr
    simp only [sumScoreRow, Function.comp, hcount key r (hw r hr)]
  obtain ⟨x, hx, y, hy, hxy⟩ := hne
  obtain ⟨z, h1, h2, h3, h4, h5⟩ := jmlStart_eq (some key) _ _ hv
    ⟨_, List.mem_map_of_mem hx, _, List.mem_map_of_mem hy, by exact_mod_cast hxy⟩
  refine ⟨z, h1, h2, h3, ?_, h5⟩
  intro i j x y a b hx hy ha hb
  rw [h4 i j x y (numberRight key a) (numberRight key b) hx hy (by simp [ha]) (by simp [hb])]
  exact Nat.cast_lt

/-- C73 is false when all sum scores are equal (or there is one respondent): all starting scores are NaN. -/
theorem C73_equal_scores_false (lv : ℕ) (rows : List (List ℝ)) (s : ℝ) (hs : ∀ r ∈ rows, r.sum = s) (hr : rows ≠ [])
    (noise : ℕ → ℕ → ℝ) :
    jmlStart lv none (rows.map fun r => r.map some) noise none
      = .ok (List.replicate rows.length (List.replicate lv none)) := by
  have hv : (rows.map fun r => r.map some).map (sumScoreRow none) = (List.replicate rows.length s).map some := by
    rw [← List.map_const', List.map_map, List.map_map]
    apply List.map_congr_left
    intro r hr
    simp only [Function.comp, sumScoreRow]
    rw [mapM_map_some, Option.map_some, hs r hr]
  have hn : 0 < rows.length := List.length_pos_iff.2 hr
  have hst : standardise ((List.replicate rows.length s).map some) = List.replicate rows.length none := by
    unfold standardise
    rw [mapM_map_some]
    simp only
    rw [if_pos]
    · rw [List.map_const', List.length_replicate]
    · right
      have hz : (List.replicate rows.length s).sum / ((List.replicate rows.length s).length : ℝ) = s := by
        rw [List.sum_replicate, List.length_replicate, nsmul_eq_mul]
        have : (rows.length : ℝ) ≠ 0 := by positivity
        field_simp
      rw [hz]
      simp
  unfold jmlStart
  simp only [hv, hst, List.length_map]
  congr 1
  apply List.ext_getElem (by simp)
  intro i h1 h2
  simp only [List.getElem_map, List.getElem_zip, List.getElem_replicate, Option.map_none]
  rw [List.map_const', List.length_range]

/-- C73 is false with missing responses coded -1, which count as -1: the first respondent answered their only
observed item correctly, the second has three wrong answers, and the first starts below the second. -/
theorem C73_minus_one_false : ∃ x y : ℝ,
    jmlStart 1 none [[some 1, some (-1), some (-1)], [some 0, some 0, some 0]] (fun _ _ => 0) none
      = .ok [[some x], [some y]] ∧ x < y := by
  obtain ⟨z, h1, _, _, h4, h5⟩ := C73_complete_partial [[1, -1, -1], [0, 0, 0]]
    ⟨_, List.mem_cons_self, [0, 0, 0], by simp, by norm_num⟩
  match z, h1 with
  | [x, y], _ =>
    refine ⟨x, y, ?_, (h4 0 1 x y [1, -1, -1] [0, 0, 0] rfl rfl rfl rfl).2 (by norm_num)⟩
    have := h5 1 fun _ _ => 0
    simpa [List.range_succ] using this

/-- C73: starting scores of the wrong shape are refused. -/
theorem C73_refused (lv : ℕ) (mc : Option (List ℤ)) (data : List (List Num)) (noise : ℕ → ℕ → ℝ)
    (t : List (List Num)) (h : t.length ≠ data.length ∨ ∃ r ∈ t, r.length ≠ lv) :
    jmlStart lv mc data noise (some t) = .error .valueError := by
  unfold jmlStart
  by_cases h1 : t.length ≠ data.length
  · simp only [if_pos h1]
  · rcases h with h | h
    · exact absurd h h1
    · simp only [if_neg h1, if_pos h]

/-- Two respondents with one item: the hypotheses of the C73 theorems. -/
example : (∃ x ∈ [[(1:ℝ)], [0]], ∃ y ∈ [[(1:ℝ)], [0]], x.sum ≠ y.sum) ∧
    (none : Num) ∈ [some 1, none] ∧ ∀ r ∈ [[(1:ℝ), 0], [0, 1]], r.sum = 1 :=
  ⟨⟨[1], by simp, [0], by simp, by norm_num⟩, by simp, by simp⟩

example : ∃ x ∈ [[some 1, none], [none, some (-1)]], ∃ y ∈ [[some 1, none], [none, some (-1)]],
    numberRight [1, 0] x ≠ numberRight [1, 0] y := by
  refine ⟨_, List.mem_cons_self, [none, some (-1)], by simp, ?_⟩
  unfold numberRight
  simp only [Finset.card_filter]
  simp [Finset.sum_range_succ]

end Irt
