import Verif.Model.ScaleTraining
import Verif.Props.Training

/-!
# C93: fitting a scale transformation
-/

namespace Irt

variable {S : Type}

/-- What holds after the steps `l` of the loop. -/
structure ScaleInv (T : Trainer S) (c : TrainConfig) (E : ℕ) (lr₀ : ℝ) (s₀ : S) (st : ScaleTraining S)
    (l : List (TrainStep S)) : Prop where
  run : Run T s₀ l st.params
  total : st.total = l.length
  notNaN : ∀ u ∈ l, u.loss ≠ none
  window : st.window = (l.drop (l.length - E)).map fun u => u.loss.getD 0
  prevLr : st.prevLr = st.sched.lr
  lr : st.sched.lr = lr₀ * c.factor ^ st.lrUpdates
  bad : st.sched.bad ≤ c.patience
  rates : ∀ u ∈ l, ∃ j ≤ st.lrUpdates, u.lr = lr₀ * c.factor ^ j
  count : st.lrUpdates * (c.patience + 1) + st.sched.bad ≤ (evaluationSteps E l.length).length

theorem ScaleInv.start (T : Trainer S) (c : TrainConfig) (E : ℕ) (lr₀ : ℝ) (s₀ : S) :
    ScaleInv T c E lr₀ s₀ (ScaleTraining.start lr₀ s₀) [] := by
  have h0 : evaluationSteps E 0 = [] := by simp [evaluationSteps, List.range_succ]
  exact ⟨.nil, rfl, by simp, by simp [ScaleTraining.start], rfl, by simp [ScaleTraining.start], Nat.zero_le _, by simp,
    by simp [ScaleTraining.start, h0]⟩

theorem scaleBatch_inv {T : Trainer S} {c : TrainConfig} (hf : 0 < c.factor) {E : ℕ} {lr₀ : ℝ} (hlr : 0 ≤ lr₀) {s₀ : S}
    {b : List ℕ} {st : ScaleTraining S} {r : ScaleTraining S × BatchEnd} {l : List (TrainStep S)}
    (hinv : ScaleInv T c E lr₀ s₀ st l) (h : scaleBatch T c E b st = .ok r) :
    (r.2 = .nan ∧ r.1 = st ∧ T.loss l.length b st.params = .ok none) ∨
    ((r.2 = .stop ∧ c.limit ≤ r.1.lrUpdates ∨ r.2 = .next ∧ r.1.lrUpdates < c.limit) ∧
      r.1.lrUpdates ≤ st.lrUpdates + 1 ∧
      ∃ u : TrainStep S, u.batch = b ∧ ScaleInv T c E lr₀ s₀ r.1 (l ++ [u])) := by
  unfold scaleBatch at h
  rw [hinv.total] at h
  cases hloss : T.loss l.length b st.params with
  | error e => rw [hloss] at h; cases h
  | ok x =>
    rw [hloss] at h
    cases x with
    | none =>
      simp only [Except.ok.injEq] at h
      subst h
      exact Or.inl ⟨rfl, rfl, rfl⟩
    | some x =>
      right
      simp only at h
      by_cases hE : E = 0
      · rw [if_pos hE] at h; cases h
      · rw [if_neg hE] at h
        set u : TrainStep S := ⟨b, st.sched.lr, st.params, some x, T.update l.length b st.sched.lr st.params⟩ with hu
        have hwin := window_snoc l E u st.window x rfl hinv.window
        have hrun : Run T s₀ (l ++ [u]) (T.update l.length b st.sched.lr st.params) :=
          Run.snoc b _ _ hinv.run hloss
        have hnan : ∀ v ∈ l ++ [u], v.loss ≠ none := by
          intro v hv
          rcases List.mem_append.1 hv with hv | hv
          · exact hinv.notNaN v hv
          · simp at hv; subst hv; simp [hu]
        have hlen : (l ++ [u]).length = l.length + 1 := by simp
        have hnn : 0 ≤ st.sched.lr := by rw [hinv.lr]; positivity
        have hend : ∀ k : ℕ, (if c.limit ≤ k then BatchEnd.stop else BatchEnd.next) = .stop ∧ c.limit ≤ k ∨
            (if c.limit ≤ k then BatchEnd.stop else BatchEnd.next) = .next ∧ k < c.limit := by
          intro k
          by_cases hP : c.limit ≤ k
          · exact Or.inl ⟨if_pos hP, hP⟩
          · exact Or.inr ⟨if_neg hP, not_le.1 hP⟩
        have hrate : ∀ k, st.lrUpdates ≤ k → ∀ v ∈ l ++ [u], ∃ j ≤ k, v.lr = lr₀ * c.factor ^ j := by
          intro k hk v hv
          rcases List.mem_append.1 hv with hv | hv
          · obtain ⟨j, hj, hv'⟩ := hinv.rates v hv
            exact ⟨j, hj.trans hk, hv'⟩
          · simp at hv; subst hv
            exact ⟨_, hk, hinv.lr⟩
        simp only [Except.ok.injEq] at h
        rw [hinv.prevLr] at h
        by_cases hev : (l.length + 1) % E = 0 ∧ l.length + 1 ≠ 1
        · rw [if_pos hev] at h
          have hsteps : evaluationSteps E (l ++ [u]).length = evaluationSteps E l.length ++ [l.length + 1] := by
            rw [hlen, evaluationSteps_succ, if_pos hev]
          generalize (some ((if (st.window ++ [x]).length > E then (st.window ++ [x]).drop 1 else st.window ++ [x]).sum
            / ((if (st.window ++ [x]).length > E then (st.window ++ [x]).drop 1 else st.window ++ [x]).length : ℝ))) = m at h
          obtain ⟨hb, hstep⟩ := Plateau.step_spec c hf st.sched hnn hinv.bad m
          subst h
          refine ⟨?_, ?_, u, rfl, hrun, by simp, hnan, hwin, rfl, ?_, hb, hrate _ ?_, ?_⟩
          · exact hend _
          · dsimp only
            split <;> omega
          · dsimp only
            rcases hstep with ⟨h1, _⟩ | ⟨h1, h2, _⟩
            · rw [if_neg (by rw [h1]; simp), h1, hinv.lr]
            · rw [if_pos (Ne.symm h2), h1, hinv.lr, pow_succ]; ring
          · dsimp only
            split <;> omega
          · dsimp only
            have hc := hinv.count
            rw [hsteps, List.length_append, List.length_singleton]
            rcases hstep with ⟨h1, h2⟩ | ⟨h1, h2, h3, h4, _⟩
            · rw [if_neg (by rw [h1]; simp)]; omega
            · rw [if_pos (Ne.symm h2), h3, Nat.add_mul]; omega
        · rw [if_neg hev] at h
          have hsteps : evaluationSteps E (l ++ [u]).length = evaluationSteps E l.length := by
            rw [hlen, evaluationSteps_succ, if_neg hev, List.append_nil]
          subst h
          refine ⟨?_, ?_, u, rfl, hrun, by simp, hnan, hwin, rfl, ?_, hinv.bad, hrate _ ?_, ?_⟩
          · exact hend _
          · dsimp only
            split <;> omega
          · dsimp only
            rw [if_neg (by simp)]
            exact hinv.lr
          · dsimp only
            split <;> omega
          · dsimp only
            rw [if_neg (by simp), hsteps]
            exact hinv.count

/-- How far the loop got through the batches `bs`: through all of them, or up to a batch with a NaN loss, or up to the batch
with which the number of learning rate reductions reached the limit. -/
inductive Reached (T : Trainer S) (c : TrainConfig) (st : ScaleTraining S) (n : ℕ) (visited bs : List (List ℕ)) : Prop
  | all : visited = bs → Reached T c st n visited bs
  | nan (b : List ℕ) : visited ++ [b] <+: bs → T.loss n b st.params = .ok none → Reached T c st n visited bs
  | limit : visited <+: bs → c.limit ≤ st.lrUpdates → Reached T c st n visited bs

theorem scaleBatches_inv {T : Trainer S} {c : TrainConfig} (hf : 0 < c.factor) {E : ℕ} {lr₀ : ℝ} (hlr : 0 ≤ lr₀) {s₀ : S}
    (bs : List (List ℕ)) {st : ScaleTraining S} {r : ScaleTraining S × BatchEnd} {l : List (TrainStep S)}
    (hinv : ScaleInv T c E lr₀ s₀ st l) (hlim : st.lrUpdates < c.limit ∨ c.limit = 0 ∧ l = []) (h : scaleBatches T c E bs st = .ok r) :
    ∃ l', ScaleInv T c E lr₀ s₀ r.1 (l ++ l') ∧
      (r.2 = .next ∧ l'.map TrainStep.batch = bs ∧ (bs = [] ∨ r.1.lrUpdates < c.limit) ∨
       r.2 = .nan ∧ (r.1.lrUpdates < c.limit ∨ c.limit = 0 ∧ l ++ l' = []) ∧
        (∃ b, l'.map TrainStep.batch ++ [b] <+: bs ∧ T.loss (l ++ l').length b r.1.params = .ok none) ∨
       r.2 = .stop ∧ l'.map TrainStep.batch <+: bs ∧ c.limit ≤ r.1.lrUpdates ∧
        (1 ≤ c.limit → r.1.lrUpdates = c.limit) ∧ (c.limit = 0 → (l ++ l').length = 1)) := by
  induction bs generalizing st l with
  | nil =>
    simp only [scaleBatches, Except.ok.injEq] at h
    subst h
    exact ⟨[], by simpa using hinv, Or.inl ⟨rfl, rfl, Or.inl rfl⟩⟩
  | cons b bs ih =>
    unfold scaleBatches at h
    cases hit : scaleBatch T c E b st with
    | error e => rw [hit] at h; cases h
    | ok q =>
      rw [hit] at h
      obtain ⟨q1, q2⟩ := q
      rcases scaleBatch_inv hf hlr hinv hit with ⟨h1, h2, h3⟩ | ⟨h1, h2, u, hu, hinv1⟩
      · simp only at h1 h2
        subst h1; subst h2
        simp only [bind, Except.bind, pure, Except.pure, Except.ok.injEq] at h
        subst h
        exact ⟨[], by simpa using hinv, Or.inr (Or.inl ⟨rfl, by simpa using hlim, b, by simp, by simpa using h3⟩)⟩
      · rcases h1 with ⟨h1, h1'⟩ | ⟨h1, h1'⟩
        · simp only at h1
          subst h1
          simp only [bind, Except.bind, pure, Except.pure, Except.ok.injEq] at h
          subst h
          refine ⟨[u], hinv1, Or.inr (Or.inr ⟨rfl, by simp [hu], h1', fun h0 => ?_, fun h0 => ?_⟩)⟩
          · simp only at h2 h1' ⊢
            omega
          · rcases hlim with hlim | ⟨_, rfl⟩
            · omega
            · simp
        · simp only at h1
          subst h1
          have h' : scaleBatches T c E bs q1 = .ok r := by simpa only [bind, Except.bind] using h
          obtain ⟨l', g1, g2⟩ := ih hinv1 (Or.inl h1') h'
          refine ⟨u :: l', by simpa using g1, ?_⟩
          rcases g2 with ⟨k1, k2, k3⟩ | ⟨k1, k2, b', k3, k4⟩ | ⟨k1, k2, k3, k4, k5⟩
          · refine Or.inl ⟨k1, by simp [hu, k2], Or.inr ?_⟩
            rcases k3 with rfl | k3
            · simp only [scaleBatches, Except.ok.injEq] at h'
              rw [← h']; exact h1'
            · exact k3
          · refine Or.inr (Or.inl ⟨k1, ?_, b', ?_, by simpa using k4⟩)
            · simpa using k2
            · simpa [hu, List.cons_prefix_cons] using k3
          · refine Or.inr (Or.inr ⟨k1, ?_, k3, k4, fun h0 => ?_⟩)
            · simpa [hu, List.cons_prefix_cons] using k2
            · simpa using k5 h0

/-- The batches of `n` epochs from epoch `e` on. -/
def epochBatches (batches : ℕ → List (List ℕ)) (e n : ℕ) : List (List ℕ) := ((List.range n).map fun i => batches (e + i)).flatten

theorem epochBatches_succ (batches : ℕ → List (List ℕ)) (e n : ℕ) :
    epochBatches batches e (n + 1) = batches e ++ epochBatches batches (e + 1) n := by
  unfold epochBatches
  rw [List.range_succ_eq_map, List.map_cons, List.flatten_cons, List.map_map]
  simp only [Nat.add_zero]
  congr 3
  funext i
  simp only [Function.comp]
  congr 1
  omega

theorem scaleEpochs_inv {T : Trainer S} {c : TrainConfig} (hf : 0 < c.factor) {E : ℕ} {lr₀ : ℝ} (hlr : 0 ≤ lr₀) {s₀ : S}
    (batches : ℕ → List (List ℕ)) (n e : ℕ) {st st' : ScaleTraining S} {l : List (TrainStep S)}
    (hinv : ScaleInv T c E lr₀ s₀ st l) (hlim : st.lrUpdates < c.limit ∨ c.limit = 0 ∧ l = [])
    (h : scaleEpochs T c E batches n e st = .ok st') :
    ∃ l', ScaleInv T c E lr₀ s₀ st' (l ++ l') ∧
      Reached T c st' (l ++ l').length (l'.map TrainStep.batch) (epochBatches batches e n) ∧
      (1 ≤ c.limit → st'.lrUpdates ≤ c.limit) ∧ (c.limit = 0 → (l ++ l').length ≤ 1) := by
  induction n generalizing st l e with
  | zero =>
    simp only [scaleEpochs, Except.ok.injEq] at h
    subst h
    refine ⟨[], by simpa using hinv, .all rfl, fun h0 => ?_, fun h0 => ?_⟩
    · rcases hlim with h1 | ⟨h1, _⟩ <;> omega
    · rcases hlim with h1 | ⟨_, rfl⟩
      · omega
      · simp
  | succ n ih =>
    unfold scaleEpochs at h
    cases hit : scaleBatches T c E (batches e) st with
    | error e' => rw [hit] at h; cases h
    | ok r =>
      rw [hit] at h
      obtain ⟨l1, g1, g2⟩ := scaleBatches_inv hf hlr (batches e) hinv hlim hit
      rw [epochBatches_succ]
      simp only [bind, Except.bind] at h
      by_cases hemp : batches e = []
      · rw [if_pos hemp] at h; cases h
      rw [if_neg hemp] at h
      by_cases hn : r.2 = .nan
      · rw [if_pos hn] at h
        simp only [pure, Except.pure, Except.ok.injEq] at h
        subst h
        rcases g2 with ⟨k1, _⟩ | ⟨_, k2, b, k3, k4⟩ | ⟨k1, _⟩
        · rw [k1] at hn; cases hn
        · refine ⟨l1, g1, .nan b (k3.trans (List.prefix_append _ _)) k4, fun h0 => ?_, fun h0 => ?_⟩
          · rcases k2 with k2 | ⟨k2, _⟩ <;> omega
          · rcases k2 with k2 | ⟨_, k2⟩
            · omega
            · rw [k2]; simp
        · rw [k1] at hn; cases hn
      · rw [if_neg hn] at h
        rcases g2 with ⟨_, k2, k3⟩ | ⟨k1, _⟩ | ⟨k1, k2, k3, k4, k5⟩
        · have hl : r.1.lrUpdates < c.limit := k3.resolve_left hemp
          rw [if_neg (not_le.2 hl)] at h
          obtain ⟨l2, m1, m2, m3, m4⟩ := ih (e + 1) g1 (Or.inl hl) h
          refine ⟨l1 ++ l2, by simpa using m1, ?_, m3, by simpa using m4⟩
          rw [List.map_append, k2]
          rcases m2 with m2 | ⟨b, m2, m2'⟩ | ⟨m2, m2'⟩
          · exact .all (by rw [m2])
          · refine .nan b ?_ (by simpa using m2')
            rw [List.append_assoc]
            exact (List.prefix_append_right_inj _).2 m2
          · exact .limit ((List.prefix_append_right_inj _).2 m2) m2'
        · exact absurd k1 hn
        · rw [if_pos k3] at h
          simp only [pure, Except.pure, Except.ok.injEq] at h
          subst h
          exact ⟨l1, g1, .limit (k2.trans (List.prefix_append _ _)) k3, fun h0 => (k4 h0).le, fun h0 => (k5 h0).le⟩

theorem evaluationSteps_length (E n : ℕ) : (evaluationSteps E n).length ≤ n / E := by
  induction n with
  | zero => simp [evaluationSteps, List.range_succ]
  | succ n ih =>
    rw [evaluationSteps_succ, List.length_append, Nat.succ_div]
    by_cases h : (n + 1) % E = 0 ∧ n + 1 ≠ 1
    · rw [if_pos h, if_pos (Nat.dvd_of_mod_eq_zero h.1)]
      simpa using ih
    · rw [if_neg h]
      simp only [List.length_nil, Nat.add_zero]
      omega

/-- C93: `fit` of a flow or of a linking function that does not raise went through the batches in order, epoch after epoch, for
at most `maxEpochs` epochs, with one update of the transformation per batch, and leaves the transformation as it was after
the last update. It stopped early only at a batch with a NaN loss, for which no update is made, or after `limit` reductions
of the learning rate. Each reduction multiplies the learning rate by 0.6 and takes at least two evaluation intervals. -/
theorem C93_fit (T : Trainer S) (limit E : ℕ) (batches : ℕ → List (List ℕ)) (maxEpochs : ℕ) (lr : ℝ) (hlr : 0 ≤ lr) (s₀ s : S)
    (h : scaleFit T limit E batches maxEpochs lr s₀ = .ok s) :
    ∃ (l : List (TrainStep S)) (reductions : ℕ), Run T s₀ l s ∧ (∀ u ∈ l, u.loss ≠ none) ∧
      (l.map TrainStep.batch = ((List.range maxEpochs).map batches).flatten ∨
       (∃ b, l.map TrainStep.batch ++ [b] <+: ((List.range maxEpochs).map batches).flatten ∧ T.loss l.length b s = .ok none) ∨
       l.map TrainStep.batch <+: ((List.range maxEpochs).map batches).flatten ∧ limit ≤ reductions) ∧
      (∀ u ∈ l, ∃ j ≤ reductions, u.lr = lr * (3 / 5) ^ j) ∧
      reductions * 2 * E ≤ l.length ∧ (1 ≤ limit → reductions ≤ limit) ∧ (limit = 0 → l.length ≤ 1) := by
  unfold scaleFit at h
  cases hr : scaleEpochs T (scaleConfig limit) E batches maxEpochs 0 (ScaleTraining.start lr s₀) with
  | error e => rw [hr] at h; cases h
  | ok st =>
    rw [hr] at h
    obtain rfl := Except.ok.inj h
    have hlim : (ScaleTraining.start lr s₀).lrUpdates < (scaleConfig limit).limit ∨
        (scaleConfig limit).limit = 0 ∧ ([] : List (TrainStep S)) = [] := by
      show 0 < limit ∨ limit = 0 ∧ _
      rcases Nat.eq_zero_or_pos limit with h0 | h0
      · exact Or.inr ⟨h0, rfl⟩
      · exact Or.inl h0
    obtain ⟨l, hinv, hreach, h1, h2⟩ := scaleEpochs_inv (by norm_num [scaleConfig]) hlr batches maxEpochs 0
      (ScaleInv.start T (scaleConfig limit) E lr s₀) hlim hr
    simp only [List.nil_append] at hinv hreach h2
    have hb : epochBatches batches 0 maxEpochs = ((List.range maxEpochs).map batches).flatten := by
      simp [epochBatches]
    rw [hb] at hreach
    refine ⟨l, st.lrUpdates, hinv.run, hinv.notNaN, ?_, hinv.rates, ?_, h1, h2⟩
    · rcases hreach with k | ⟨b, k1, k2⟩ | ⟨k1, k2⟩
      · exact Or.inl k
      · exact Or.inr (Or.inl ⟨b, k1, k2⟩)
      · exact Or.inr (Or.inr ⟨k1, k2⟩)
    · have hc := hinv.count
      have he := evaluationSteps_length E l.length
      have hle : st.lrUpdates * 2 ≤ l.length / E := by
        have : st.lrUpdates * (scaleConfig limit).patience = st.lrUpdates := by simp [scaleConfig]
        rw [Nat.mul_add, this] at hc
        omega
      exact (Nat.mul_le_mul_right E hle).trans (Nat.div_mul_le_self _ _)

theorem scaleBatch_error {T : Trainer S} {c : TrainConfig} {E : ℕ} {s₀ : S} {b : List ℕ} {st : ScaleTraining S}
    {e : PyErr} {st' : ScaleTraining S} {l : List (TrainStep S)} (hrun : Run T s₀ l st.params) (htot : st.total = l.length)
    (h : scaleBatch T c E b st = .error (e, st')) :
    (st' = st ∧ T.loss l.length b st.params = .error e) ∨
    (E = 0 ∧ e = .zeroDivision ∧ ∃ u : TrainStep S, u.batch = b ∧ Run T s₀ (l ++ [u]) st'.params) := by
  unfold scaleBatch at h
  rw [htot] at h
  cases hloss : T.loss l.length b st.params with
  | error e' =>
    rw [hloss] at h
    simp only [Except.error.injEq, Prod.mk.injEq] at h
    exact Or.inl ⟨h.2.symm, by rw [h.1]⟩
  | ok x =>
    rw [hloss] at h
    cases x with
    | none => cases h
    | some x =>
      simp only at h
      by_cases hE : E = 0
      · rw [if_pos hE] at h
        simp only [Except.error.injEq, Prod.mk.injEq] at h
        obtain ⟨h1, rfl⟩ := h
        exact Or.inr ⟨hE, h1.symm, ⟨b, st.sched.lr, st.params, some x, T.update l.length b st.sched.lr st.params⟩, rfl,
          Run.snoc b _ _ hrun hloss⟩
      · rw [if_neg hE] at h; cases h

theorem scaleBatch_zero {T : Trainer S} {c : TrainConfig} {b : List ℕ} {st : ScaleTraining S}
    {r : ScaleTraining S × BatchEnd} (h : scaleBatch T c 0 b st = .ok r) : r.2 = .nan ∧ r.1 = st := by
  unfold scaleBatch at h
  cases hloss : T.loss st.total b st.params with
  | error e => rw [hloss] at h; cases h
  | ok x =>
    rw [hloss] at h
    cases x with
    | none =>
      simp only [Except.ok.injEq] at h
      subst h
      exact ⟨rfl, rfl⟩
    | some x => simp at h

theorem scaleBatches_error {T : Trainer S} {c : TrainConfig} (hf : 0 < c.factor) {E : ℕ} {lr₀ : ℝ} (hlr : 0 ≤ lr₀) {s₀ : S}
    (bs : List (List ℕ)) {st : ScaleTraining S} {e : PyErr} {st' : ScaleTraining S} {l : List (TrainStep S)}
    (hinv : ScaleInv T c E lr₀ s₀ st l) (h0 : E = 0 → l = []) (h : scaleBatches T c E bs st = .error (e, st')) :
    ∃ l', Run T s₀ (l ++ l') st'.params ∧
      ((∃ b, l'.map TrainStep.batch ++ [b] <+: bs ∧ T.loss (l ++ l').length b st'.params = .error e) ∨
        E = 0 ∧ e = .zeroDivision ∧ (l ++ l').length = 1 ∧ l'.map TrainStep.batch <+: bs) := by
  induction bs generalizing st l with
  | nil => simp [scaleBatches] at h
  | cons b bs ih =>
    unfold scaleBatches at h
    cases hit : scaleBatch T c E b st with
    | error q =>
      rw [hit] at h
      obtain ⟨e', q⟩ := q
      simp only [bind, Except.bind, Except.error.injEq, Prod.mk.injEq] at h
      obtain ⟨rfl, rfl⟩ := h
      rcases scaleBatch_error hinv.run hinv.total hit with ⟨rfl, h2⟩ | ⟨h1, h2, u, hu, h3⟩
      · exact ⟨[], by simpa using hinv.run, Or.inl ⟨b, by simp, by simpa using h2⟩⟩
      · exact ⟨[u], h3, Or.inr ⟨h1, h2, by simp [h0 h1], by simp [hu]⟩⟩
    | ok q =>
      rw [hit] at h
      obtain ⟨q1, q2⟩ := q
      rcases scaleBatch_inv hf hlr hinv hit with ⟨h1, h2, h3⟩ | ⟨h1, h2, u, hu, hinv1⟩
      · simp only at h1
        subst h1
        simp [bind, Except.bind, pure, Except.pure] at h
      · rcases h1 with ⟨h1, h1'⟩ | ⟨h1, h1'⟩
        · simp only at h1
          subst h1
          simp [bind, Except.bind, pure, Except.pure] at h
        · simp only at h1
          subst h1
          have h' : scaleBatches T c E bs q1 = .error (e, st') := by simpa only [bind, Except.bind] using h
          have hE : E ≠ 0 := by
            rintro rfl
            have := (scaleBatch_zero hit).1
            cases this
          obtain ⟨l', g1, g2⟩ := ih hinv1 (fun h => absurd h hE) h'
          refine ⟨u :: l', by simpa using g1, ?_⟩
          rcases g2 with ⟨b', k1, k2⟩ | ⟨k1, _⟩
          · exact Or.inl ⟨b', by simpa [hu, List.cons_prefix_cons] using k1, by simpa using k2⟩
          · exact absurd k1 hE

theorem scaleEpochs_error {T : Trainer S} {c : TrainConfig} (hf : 0 < c.factor) {E : ℕ} {lr₀ : ℝ} (hlr : 0 ≤ lr₀) {s₀ : S}
    (batches : ℕ → List (List ℕ)) (n e : ℕ) {st : ScaleTraining S} {err : PyErr} {st' : ScaleTraining S}
    {l : List (TrainStep S)} (hinv : ScaleInv T c E lr₀ s₀ st l) (hlim : st.lrUpdates < c.limit ∨ c.limit = 0 ∧ l = [])
    (h0 : E = 0 → l = []) (h : scaleEpochs T c E batches n e st = .error (err, st')) :
    ∃ l', Run T s₀ (l ++ l') st'.params ∧
      ((∃ b, l'.map TrainStep.batch ++ [b] <+: epochBatches batches e n ∧ T.loss (l ++ l').length b st'.params = .error err) ∨
        E = 0 ∧ err = .zeroDivision ∧ (l ++ l').length = 1 ∧ l'.map TrainStep.batch <+: epochBatches batches e n ∨
        err = .nameError ∧ ∃ i < n, batches (e + i) = []) := by
  induction n generalizing st l e with
  | zero => simp [scaleEpochs] at h
  | succ n ih =>
    unfold scaleEpochs at h
    rw [epochBatches_succ]
    cases hit : scaleBatches T c E (batches e) st with
    | error q =>
      rw [hit] at h
      obtain ⟨e', q⟩ := q
      simp only [bind, Except.bind, Except.error.injEq, Prod.mk.injEq] at h
      obtain ⟨rfl, rfl⟩ := h
      obtain ⟨l', g1, g2⟩ := scaleBatches_error hf hlr (batches e) hinv h0 hit
      refine ⟨l', g1, ?_⟩
      rcases g2 with ⟨b, k1, k2⟩ | ⟨k1, k2, k3, k4⟩
      · exact Or.inl ⟨b, k1.trans (List.prefix_append _ _), k2⟩
      · exact Or.inr (Or.inl ⟨k1, k2, k3, k4.trans (List.prefix_append _ _)⟩)
    | ok r =>
      rw [hit] at h
      obtain ⟨l1, g1, g2⟩ := scaleBatches_inv hf hlr (batches e) hinv hlim hit
      simp only [bind, Except.bind] at h
      by_cases hemp : batches e = []
      · rw [if_pos hemp] at h
        simp only [Except.error.injEq, Prod.mk.injEq] at h
        obtain ⟨rfl, rfl⟩ := h
        exact ⟨l1, g1.run, Or.inr (Or.inr ⟨rfl, 0, by omega, by simpa using hemp⟩)⟩
      rw [if_neg hemp] at h
      by_cases hn : r.2 = .nan
      · rw [if_pos hn] at h; simp [pure, Except.pure] at h
      rw [if_neg hn] at h
      by_cases hl : c.limit ≤ r.1.lrUpdates
      · rw [if_pos hl] at h; simp [pure, Except.pure] at h
      rw [if_neg hl] at h
      rcases g2 with ⟨hnext, k2, k3⟩ | ⟨k1, _⟩ | ⟨_, _, k3, _⟩
      · have hE : E ≠ 0 := by
          rintro rfl
          cases hb : batches e with
          | nil => exact hemp hb
          | cons b bs =>
            rw [hb] at hit
            unfold scaleBatches at hit
            cases hit' : scaleBatch T c 0 b st with
            | error q => rw [hit'] at hit; cases hit
            | ok q =>
              rw [hit'] at hit
              obtain ⟨q1, q2⟩ := q
              have := (scaleBatch_zero hit').1
              simp only at this
              subst this
              simp only [bind, Except.bind, pure, Except.pure, Except.ok.injEq] at hit
              rw [← hit] at hn
              exact hn rfl
        obtain ⟨l2, m1, m2⟩ := ih (e + 1) g1 (Or.inl (not_le.1 hl)) (fun h => absurd h hE) h
        refine ⟨l1 ++ l2, by simpa using m1, ?_⟩
        rcases m2 with ⟨b, m2, m3⟩ | ⟨m2, _⟩ | ⟨m2, i, hi, m3⟩
        · refine Or.inl ⟨b, ?_, by simpa using m3⟩
          rw [List.map_append, k2, List.append_assoc]
          exact (List.prefix_append_right_inj _).2 m2
        · exact absurd m2 hE
        · exact Or.inr (Or.inr ⟨m2, i + 1, by omega, by rw [← m3]; congr 1; omega⟩)
      · exact absurd k1 hn
      · exact absurd k3 hl

/-- C93: `fit` raises only what the loss of the next batch raises, `ZeroDivisionError` for the evaluation interval 0 (after
exactly one update), or because there are no batches. The transformation then holds the updates made so far. -/
theorem C93_error (T : Trainer S) (limit E : ℕ) (batches : ℕ → List (List ℕ)) (maxEpochs : ℕ) (lr : ℝ) (hlr : 0 ≤ lr) (s₀ s : S)
    (e : PyErr) (h : scaleFit T limit E batches maxEpochs lr s₀ = .error (e, s)) :
    ∃ l : List (TrainStep S), Run T s₀ l s ∧
      ((∃ b, l.map TrainStep.batch ++ [b] <+: ((List.range maxEpochs).map batches).flatten ∧
          T.loss l.length b s = .error e) ∨
        E = 0 ∧ e = .zeroDivision ∧ l.length = 1 ∨
        e = .nameError ∧ ∃ i < maxEpochs, batches i = []) := by
  unfold scaleFit at h
  cases hr : scaleEpochs T (scaleConfig limit) E batches maxEpochs 0 (ScaleTraining.start lr s₀) with
  | ok st => rw [hr] at h; cases h
  | error q =>
    rw [hr] at h
    obtain ⟨e', st⟩ := q
    simp only [Except.error.injEq, Prod.mk.injEq] at h
    obtain ⟨rfl, rfl⟩ := h
    have hlim : (ScaleTraining.start lr s₀).lrUpdates < (scaleConfig limit).limit ∨
        (scaleConfig limit).limit = 0 ∧ ([] : List (TrainStep S)) = [] := by
      show 0 < limit ∨ limit = 0 ∧ _
      rcases Nat.eq_zero_or_pos limit with h0 | h0
      · exact Or.inr ⟨h0, rfl⟩
      · exact Or.inl h0
    obtain ⟨l, h1, h2⟩ := scaleEpochs_error (by norm_num [scaleConfig]) hlr batches maxEpochs 0
      (ScaleInv.start T (scaleConfig limit) E lr s₀) hlim (fun _ => rfl) hr
    have hb : epochBatches batches 0 maxEpochs = ((List.range maxEpochs).map batches).flatten := by
      simp [epochBatches]
    simp only [List.nil_append, hb, Nat.zero_add] at h1 h2
    refine ⟨l, h1, ?_⟩
    rcases h2 with h2 | ⟨k1, k2, k3, _⟩ | h2
    · exact Or.inl h2
    · exact Or.inr (Or.inl ⟨k1, k2, k3⟩)
    · exact Or.inr (Or.inr h2)

/-! ## What is kept is the last transformation, not the best -/

/-- One epoch with one batch makes one update. -/
theorem scaleFit_one (T : Trainer S) (limit E : ℕ) (hE : E ≠ 0) (b : List ℕ) (lr : ℝ) (s : S) (x : ℝ)
    (hx : T.loss 0 b s = .ok (some x)) :
    scaleFit T limit E (fun _ => [b]) 1 lr s = .ok (T.update 0 b lr s) := by
  unfold scaleFit
  have h1 : ∃ st, scaleBatch T (scaleConfig limit) E b (ScaleTraining.start lr s) = .ok st ∧ st.2 ≠ .nan ∧
      st.1.params = T.update 0 b lr s := by
    unfold scaleBatch
    simp only [ScaleTraining.start, hx, if_neg hE]
    exact ⟨_, rfl, batchEnd_ne_nan _, rfl⟩
  obtain ⟨⟨st, en⟩, h1, h2, h3⟩ := h1
  have h4 : scaleBatches T (scaleConfig limit) E [b] (ScaleTraining.start lr s) = .ok (st, en) := by
    simp only [scaleBatches, h1, bind, Except.bind, pure, Except.pure]
    cases en <;> rfl
  have h5 : scaleEpochs T (scaleConfig limit) E (fun _ => [b]) 1 0 (ScaleTraining.start lr s) = .ok st := by
    simp only [scaleEpochs, h4, bind, Except.bind, pure, Except.pure]
    simp only at h2
    simp [h2]
  rw [h5]
  simp only at h3
  simp only [h3]

/-- The claim: fitting a transformation to a loss that depends only on the transformation does not leave it with a larger loss
than it started with. -/
def C93_not_worse_claim : Prop :=
  ∀ (T : Trainer ℝ) (f : ℝ → ℝ), (∀ i b s, T.loss i b s = .ok (some (f s))) →
    ∀ (limit E : ℕ) (batches : ℕ → List (List ℕ)) (maxEpochs : ℕ) (lr : ℝ) (s₀ s : ℝ), 0 < lr →
      scaleFit T limit E batches maxEpochs lr s₀ = .ok s → f s ≤ f s₀

/-- C93, negation: `fit` keeps the last transformation, not the best one, so that it can be left with a larger loss than it
started with. -/
theorem C93_not_worse_false : ¬ C93_not_worse_claim := by
  intro h
  have hu : exTrainer.update 0 [0] (1 / 4) (1 / 20) = -(1 / 5) := by
    simp only [exTrainer]; rw [if_pos (by norm_num)]; norm_num
  have h1 := h exTrainer (fun x => x ^ 2) (fun _ _ _ => rfl) 1 50 (fun _ => [[0]]) 1 (1 / 4) (1 / 20) _ (by norm_num)
    (scaleFit_one exTrainer 1 50 (by norm_num) [0] (1 / 4) (1 / 20) _ rfl)
  rw [hu] at h1
  norm_num at h1

/-- The claim: if the loss is a number at the start and `fit` does not raise, it is a number for what `fit` keeps. -/
def C93_usable_claim : Prop :=
  ∀ (T : Trainer ℝ) (limit E : ℕ) (batches : ℕ → List (List ℕ)) (maxEpochs : ℕ) (lr : ℝ) (s₀ s : ℝ), 0 < lr →
    (∀ i b, ∃ x, T.loss i b s₀ = .ok (some x)) → scaleFit T limit E batches maxEpochs lr s₀ = .ok s →
    ∀ i b, ∃ x, T.loss i b s = .ok (some x)

/-- C93, negation: when training breaks down, `fit` keeps the transformation whose loss is NaN and does not raise. Three
epochs are asked for; the second batch has a NaN loss. -/
theorem C93_usable_false : ¬ C93_usable_claim := by
  intro h
  let T : Trainer ℝ := { loss := fun _ _ x => .ok (if x = 1 then some 0 else none), update := fun _ _ lr x => x - lr }
  have hfit : scaleFit T 1 50 (fun _ => [[0]]) 3 (1 / 4) 1 = .ok (3 / 4) := by
    have h1 : T.loss 0 [0] 1 = .ok (some 0) := by simp [T]
    have h2 : T.loss 1 [0] (3 / 4) = .ok none := by
      simp only [T]; rw [if_neg (by norm_num)]
    have h3 : T.update 0 [0] (1 / 4) 1 = 3 / 4 := by simp only [T]; norm_num
    unfold scaleFit
    have hb1 : scaleBatches T (scaleConfig 1) 50 [[0]] (ScaleTraining.start (1 / 4) 1)
        = .ok ({ ScaleTraining.start (1 / 4) (3 / 4 : ℝ) with window := [0], total := 1 }, .next) := by
      simp only [scaleBatches, scaleBatch, ScaleTraining.start, h1, h3, scaleConfig, bind, Except.bind]
      simp
    have hb2 : scaleBatches T (scaleConfig 1) 50 [[0]]
        ({ ScaleTraining.start (1 / 4) (3 / 4 : ℝ) with window := [0], total := 1 })
        = .ok ({ ScaleTraining.start (1 / 4) (3 / 4 : ℝ) with window := [0], total := 1 }, .nan) := by
      simp only [scaleBatches, scaleBatch, ScaleTraining.start, h2, bind, Except.bind, pure, Except.pure]
    simp only [scaleEpochs, hb1, bind, Except.bind]
    rw [if_neg (by simp), if_neg (by simp), if_neg (by simp [scaleConfig, ScaleTraining.start])]
    simp only [hb2]
    rw [if_neg (by simp)]
    rfl
  obtain ⟨x, hx⟩ := h T 1 50 (fun _ => [[0]]) 3 (1 / 4) 1 (3 / 4) (by norm_num) (fun _ _ => ⟨0, by simp [T]⟩) hfit 0 []
  simp only [T] at hx
  rw [if_neg (by norm_num)] at hx
  cases hx

/-- C93: if no update ever increases the loss, and the loss depends only on the transformation and is a number, `fit` does not
leave it with a larger loss than it started with. Missing: optimisers that overshoot, such as Adam. -/
theorem C93_not_worse_partial (T : Trainer S) (f : S → ℝ) (hl : ∀ i b s, T.loss i b s = .ok (some (f s)))
    (hdesc : ∀ i b r s, f (T.update i b r s) ≤ f s) (limit E : ℕ) (batches : ℕ → List (List ℕ)) (maxEpochs : ℕ) (lr : ℝ)
    (hlr : 0 ≤ lr) (s₀ s : S) (h : scaleFit T limit E batches maxEpochs lr s₀ = .ok s) : f s ≤ f s₀ := by
  obtain ⟨l, k, hrun, hrest⟩ := C93_fit T limit E batches maxEpochs lr hlr s₀ s h
  clear h hl hrest
  induction hrun with
  | nil => exact le_rfl
  | snoc b r x _ _ ih => exact (hdesc _ _ _ _).trans ih

/-- A fit that meets the hypotheses. -/
example : scaleFit { exTrainer with update := fun _ _ _ x => x / 2 } 1 50 (fun _ => [[0, 1]]) 1 (1 / 4) (1 : ℝ) = .ok (1 / 2) ∧
    ∀ x : ℝ, (x / 2) ^ 2 ≤ x ^ 2 :=
  ⟨scaleFit_one _ 1 50 (by norm_num) [0, 1] (1 / 4) 1 (1 ^ 2) rfl, fun x => by nlinarith [sq_nonneg x]⟩

/-- A fit that raises: the evaluation interval is 0. -/
example : scaleFit exTrainer 1 0 (fun _ => [[0]]) 1 (1 / 4) (1 : ℝ) = .error (.zeroDivision, exTrainer.update 0 [0] (1 / 4) 1) := by
  simp [scaleFit, scaleEpochs, scaleBatches, scaleBatch, ScaleTraining.start, exTrainer, bind, Except.bind]

end Irt
