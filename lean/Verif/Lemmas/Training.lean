import Verif.Spec.Training

namespace Irt

variable {S : Type}

theorem improves_iff (x : Num) (b : Option ℝ) :
    improves x b = true ↔ ∃ v, x = some v ∧ ∀ w, b = some w → v < w := by
  cases x with
  | none => simp [improves]
  | some v => cases b <;> simp [improves]

/-! ## The scheduler -/

/-- What the scheduler does to the learning rate and the counter of bad epochs. -/
theorem Plateau.step_spec (c : TrainConfig) (hf : 0 < c.factor) (p : Plateau) (hlr : 0 ≤ p.lr)
    (hbad : p.bad ≤ c.patience) (x : Num) :
    (p.step c x).bad ≤ c.patience ∧
    ((p.step c x).lr = p.lr ∧ (p.step c x).bad ≤ p.bad + 1 ∨
      (p.step c x).lr = p.lr * c.factor ∧ (p.step c x).lr ≠ p.lr ∧ (p.step c x).bad = 0 ∧
        p.bad = c.patience ∧ improves x (p.best.map fun b => b * (1 - c.threshold)) = false) := by
  unfold Plateau.step
  have hm : max (p.lr * c.factor) 0 = p.lr * c.factor := max_eq_left (mul_nonneg hlr hf.le)
  by_cases hi : improves x (p.best.map fun b => b * (1 - c.threshold)) = true
  · simp [hi]
  · have hi' : improves x (p.best.map fun b => b * (1 - c.threshold)) = false := by simpa using hi
    simp only [hi', Bool.false_eq_true, if_false]
    by_cases hb : p.bad + 1 > c.patience
    · simp only [if_pos hb, hm]
      refine ⟨Nat.zero_le _, ?_⟩
      by_cases he : p.lr - p.lr * c.factor > 1 / 10 ^ 8
      · simp only [if_pos he]
        right
        refine ⟨trivial, ?_, trivial, by omega, trivial⟩
        intro h
        rw [h] at he
        norm_num at he
      · simp only [if_neg he]
        left
        exact ⟨trivial, Nat.zero_le _⟩
    · simp only [if_neg hb]
      exact ⟨by omega, Or.inl ⟨trivial, le_rfl⟩⟩

/-! ## Best state -/

/-- The best loss and best state belong to the first best step. -/
def BestInv (l : List (TrainStep S)) (bestLoss : Option ℝ) (bestState : Option S) : Prop :=
  (bestLoss = none ∧ bestState = none ∧ ∀ u ∈ l, u.loss = none) ∨
    ∃ t x, IsFirstBest l t ∧ t.loss = some x ∧ bestLoss = some x ∧ bestState = some t.after

theorem BestInv.snoc {l : List (TrainStep S)} {bl : Option ℝ} {bs : Option S} (h : BestInv l bl bs)
    (u : TrainStep S) :
    BestInv (l ++ [u]) (if improves u.loss bl then u.loss else bl) (if improves u.loss bl then some u.after else bs) := by
  by_cases hi : improves u.loss bl = true
  · rw [if_pos hi, if_pos hi]
    obtain ⟨v, hv, hlt⟩ := (improves_iff _ _).1 hi
    right
    refine ⟨u, v, ⟨l, [], v, rfl, hv, ?_, by simp⟩, hv, hv, rfl⟩
    rcases h with ⟨_, _, h3⟩ | ⟨t, x, ⟨pre, post, x', hl, hx', h1, h2⟩, hx, hb, _⟩
    · intro w hw y hy; rw [h3 w hw] at hy; cases hy
    · intro w hw y hy
      have hxx : x' = x := by rw [hx'] at hx; exact Option.some.inj hx
      have hvx := hlt x hb
      subst hxx
      rw [hl] at hw
      rcases List.mem_append.1 hw with hw | hw
      · exact hvx.trans (h1 w hw y hy)
      · rcases List.mem_cons.1 hw with rfl | hw
        · rw [hy] at hx'; rw [Option.some.inj hx']; exact hvx
        · exact lt_of_lt_of_le hvx (h2 w hw y hy)
  · rw [if_neg hi, if_neg hi]
    rcases h with ⟨h1, h2, h3⟩ | ⟨t, x, ⟨pre, post, x', hl, hx', h1, h2⟩, hx, hb, hs⟩
    · left
      refine ⟨h1, h2, ?_⟩
      intro w hw
      rcases List.mem_append.1 hw with hw | hw
      · exact h3 w hw
      · simp at hw; subst hw
        cases hl : w.loss with
        | none => rfl
        | some v => exact absurd ((improves_iff _ _).2 ⟨v, hl, by simp [h1]⟩) hi
    · right
      refine ⟨t, x, ⟨pre, post ++ [u], x', by rw [hl]; simp, hx', h1, ?_⟩, hx, hb, hs⟩
      intro w hw y hy
      rcases List.mem_append.1 hw with hw | hw
      · exact h2 w hw y hy
      · simp at hw; subst hw
        by_contra hc
        refine hi ((improves_iff _ _).2 ⟨y, hy, ?_⟩)
        intro z hz
        rw [hb] at hz
        have hxx : x' = x := by rw [hx'] at hx; exact Option.some.inj hx
        rw [← Option.some.inj hz, ← hxx]
        exact not_le.1 hc

/-! ## Invariant of the MML and JML loops -/

structure LoopInv (T : Trainer S) (c : TrainConfig) (lr₀ : ℝ) (s₀ : S) (st : LoopState S)
    (l : List (TrainStep S)) : Prop where
  run : Run T s₀ l st.params
  history : st.history = l.map TrainStep.loss
  best : BestInv l st.bestLoss st.bestState
  prev : st.prevLr = st.sched.lr
  lr : st.sched.lr = lr₀ * c.factor ^ st.lrUpdates
  bad : st.sched.bad ≤ c.patience
  count : st.lrUpdates * (c.patience + 1) + st.sched.bad ≤ l.length

theorem LoopInv.start (T : Trainer S) (c : TrainConfig) (lr₀ : ℝ) (s₀ : S) :
    LoopInv T c lr₀ s₀ (LoopState.start lr₀ s₀) [] where
  run := .nil
  history := rfl
  best := Or.inl ⟨rfl, rfl, by simp⟩
  prev := rfl
  lr := by simp [LoopState.start]
  bad := Nat.zero_le _
  count := by simp [LoopState.start]

theorem trainIteration_inv {T : Trainer S} {c : TrainConfig} (hf : 0 < c.factor) {lr₀ : ℝ} (hlr : 0 ≤ lr₀) {s₀ : S}
    {b : List ℕ} {st st' : LoopState S} {l : List (TrainStep S)} (hinv : LoopInv T c lr₀ s₀ st l)
    (h : trainIteration T c b st = .ok st') :
    (∃ u : TrainStep S, u.batch = b ∧ LoopInv T c lr₀ s₀ st' (l ++ [u])) ∧
      (st'.lrUpdates = st.lrUpdates ∧ st'.sched.lr = st.prevLr ∨
        st'.lrUpdates = st.lrUpdates + 1 ∧ st'.sched.lr ≠ st.prevLr) := by
  unfold trainIteration at h
  have hlen : st.history.length = l.length := by rw [hinv.history, List.length_map]
  cases hloss : T.loss st.history.length b st.params with
  | error e => rw [hloss] at h; cases h
  | ok x =>
    rw [hloss] at h
    simp only [Except.ok.injEq] at h
    have hnn : 0 ≤ st.sched.lr := by rw [hinv.lr]; positivity
    obtain ⟨hb, hstep⟩ := Plateau.step_spec c hf st.sched hnn hinv.bad x
    rw [hlen] at hloss
    refine ⟨⟨⟨b, st.sched.lr, st.params, x, T.update l.length b st.sched.lr st.params⟩, rfl, ?_⟩, ?_⟩
    · subst h
      refine ⟨?_, ?_, ?_, rfl, ?_, hb, ?_⟩
      · show Run T s₀ _ (T.update st.history.length b st.sched.lr st.params)
        rw [hlen]
        exact Run.snoc b _ x hinv.run hloss
      · simp [hinv.history]
      · have := hinv.best.snoc ⟨b, st.sched.lr, st.params, x, T.update l.length b st.sched.lr st.params⟩
        simp only [hlen]
        exact this
      · show (st.sched.step c x).lr = lr₀ * c.factor ^ (if (st.sched.step c x).lr ≠ st.prevLr then _ else _)
        rcases hstep with ⟨h1, _⟩ | ⟨h1, h2, _⟩
        · rw [if_neg (by rw [hinv.prev, h1]; simp), h1, hinv.lr]
        · rw [if_pos (by rw [hinv.prev]; exact h2), h1, hinv.lr, pow_succ]; ring
      · show (if (st.sched.step c x).lr ≠ st.prevLr then _ else _) * _ + (st.sched.step c x).bad ≤ _
        have hc := hinv.count
        rw [List.length_append, List.length_singleton]
        rcases hstep with ⟨h1, h2⟩ | ⟨h1, h2, h3, h4, _⟩
        · rw [if_neg (by rw [hinv.prev, h1]; simp)]; omega
        · rw [if_pos (by rw [hinv.prev]; exact h2), h3, Nat.add_mul]; omega
    · subst h
      by_cases hch : (st.sched.step c x).lr = st.prevLr
      · left; simp [hch]
      · right; simp [hch]

theorem mmlEpochs_one (T : Trainer S) (c : TrainConfig) (b : List ℕ) (st : LoopState S) :
    mmlEpochs T c b 1 st = trainIteration T c b st := by
  unfold mmlEpochs mmlEpochs
  cases trainIteration T c b st with
  | error e => rfl
  | ok s => simp only [bind, Except.bind, pure, Except.pure, ite_self]

theorem mmlEpochs_inv {T : Trainer S} {c : TrainConfig} (hf : 0 < c.factor) {lr₀ : ℝ} (hlr : 0 ≤ lr₀) {s₀ : S}
    {b : List ℕ} (n : ℕ) {st st' : LoopState S} {l : List (TrainStep S)} (hinv : LoopInv T c lr₀ s₀ st l)
    (h : mmlEpochs T c b n st = .ok st') :
    ∃ l', LoopInv T c lr₀ s₀ st' (l ++ l') ∧ (∀ u ∈ l', u.batch = b) ∧ l'.length ≤ n ∧
      (l'.length < n → c.limit ≤ st'.lrUpdates) ∧
      (st.lrUpdates < c.limit → st'.lrUpdates ≤ c.limit) ∧ (0 < n → c.limit ≤ st.lrUpdates → l'.length = 1) := by
  induction n generalizing st l with
  | zero =>
    simp only [mmlEpochs, Except.ok.injEq] at h
    subst h
    exact ⟨[], by simpa using hinv, by simp, le_rfl, by simp, fun h => h.le, by simp⟩
  | succ n ih =>
    unfold mmlEpochs at h
    cases hit : trainIteration T c b st with
    | error e => rw [hit] at h; cases h
    | ok st1 =>
      rw [hit] at h
      obtain ⟨⟨u, hu, hinv1⟩, hcnt⟩ := trainIteration_inv hf hlr hinv hit
      by_cases hl : c.limit ≤ st1.lrUpdates
      · have he : st1 = st' := by
          simp only [bind, Except.bind, if_pos hl, pure, Except.pure, Except.ok.injEq] at h
          exact h
        subst he
        refine ⟨[u], hinv1, by simpa using hu, by simp, fun _ => hl, ?_, by simp⟩
        intro h1
        rcases hcnt with ⟨h2, _⟩ | ⟨h2, _⟩ <;> omega
      · have h' : mmlEpochs T c b n st1 = .ok st' := by
          simpa only [bind, Except.bind, if_neg hl] using h
        obtain ⟨l', h1, h2, h3, h4, h5, h6⟩ := ih hinv1 h'
        refine ⟨u :: l', by simpa using h1, by simpa [hu] using h2, by simpa using h3, ?_, fun _ => h5 (not_le.1 hl), ?_⟩
        · intro hlt; exact h4 (by simpa using hlt)
        · intro _ hle
          rcases hcnt with ⟨h2, _⟩ | ⟨h2, _⟩ <;> omega

theorem jmlBatches_inv {T : Trainer S} {c : TrainConfig} (hf : 0 < c.factor) {lr₀ : ℝ} (hlr : 0 ≤ lr₀) {s₀ : S}
    (bs : List (List ℕ)) {st st' : LoopState S} {l : List (TrainStep S)} (hinv : LoopInv T c lr₀ s₀ st l)
    (h : jmlBatches T c bs st = .ok st') :
    ∃ l', LoopInv T c lr₀ s₀ st' (l ++ l') ∧ l'.map TrainStep.batch <+: bs ∧
      (l'.map TrainStep.batch ≠ bs → c.limit ≤ st'.lrUpdates) ∧
      (st.lrUpdates < c.limit → st'.lrUpdates ≤ c.limit) := by
  induction bs generalizing st l with
  | nil =>
    simp only [jmlBatches, Except.ok.injEq] at h
    subst h
    exact ⟨[], by simpa using hinv, by simp, by simp, fun h => h.le⟩
  | cons b bs ih =>
    unfold jmlBatches at h
    cases hit : trainIteration T c b st with
    | error e => rw [hit] at h; cases h
    | ok st1 =>
      rw [hit] at h
      obtain ⟨⟨u, hu, hinv1⟩, hcnt⟩ := trainIteration_inv hf hlr hinv hit
      by_cases hl : st1.sched.lr ≠ st.prevLr ∧ c.limit ≤ st1.lrUpdates
      · have he : st1 = st' := by
          simp only [bind, Except.bind, if_pos hl, pure, Except.pure, Except.ok.injEq] at h
          exact h
        subst he
        refine ⟨[u], hinv1, ?_, fun _ => hl.2, ?_⟩
        · simp [hu]
        · intro h1
          rcases hcnt with ⟨h2, _⟩ | ⟨h2, _⟩ <;> omega
      · have h' : jmlBatches T c bs st1 = .ok st' := by
          simpa only [bind, Except.bind, if_neg hl] using h
        obtain ⟨l', h1, h2, h3, h4⟩ := ih hinv1 h'
        refine ⟨u :: l', by simpa using h1, ?_, ?_, ?_⟩
        · simpa [hu, List.cons_prefix_cons] using h2
        · intro hne; exact h3 (by simpa [hu] using hne)
        · intro hlt
          apply h4
          rcases hcnt with ⟨h2, h3⟩ | ⟨h2, h3⟩
          · omega
          · by_contra hc
            exact hl ⟨h3, by omega⟩

theorem jmlEpochs_inv {T : Trainer S} {c : TrainConfig} (hf : 0 < c.factor) {lr₀ : ℝ} (hlr : 0 ≤ lr₀) {s₀ : S}
    (bs : List (List ℕ)) (n : ℕ) {st st' : LoopState S} {l : List (TrainStep S)} (hinv : LoopInv T c lr₀ s₀ st l)
    (h : jmlEpochs T c bs n st = .ok st') :
    ∃ l', LoopInv T c lr₀ s₀ st' (l ++ l') ∧ l'.map TrainStep.batch <+: (List.replicate n bs).flatten ∧
      (l'.map TrainStep.batch ≠ (List.replicate n bs).flatten → c.limit ≤ st'.lrUpdates) ∧
      (st.lrUpdates < c.limit → st'.lrUpdates ≤ c.limit) := by
  induction n generalizing st l with
  | zero =>
    simp only [jmlEpochs, Except.ok.injEq] at h
    subst h
    exact ⟨[], by simpa using hinv, by simp, by simp, fun h => h.le⟩
  | succ n ih =>
    unfold jmlEpochs at h
    cases hit : jmlBatches T c bs st with
    | error e => rw [hit] at h; cases h
    | ok st1 =>
      rw [hit] at h
      obtain ⟨l1, hinv1, hpre, hne, hle⟩ := jmlBatches_inv hf hlr bs hinv hit
      by_cases hl : c.limit ≤ st1.lrUpdates
      · have he : st1 = st' := by
          simp only [bind, Except.bind, if_pos hl, pure, Except.pure, Except.ok.injEq] at h
          exact h
        subst he
        refine ⟨l1, hinv1, ?_, fun _ => hl, hle⟩
        rw [List.replicate_succ, List.flatten_cons]
        exact hpre.trans (List.prefix_append _ _)
      · have h' : jmlEpochs T c bs n st1 = .ok st' := by
          simpa only [bind, Except.bind, if_neg hl] using h
        obtain ⟨l2, h1, h2, h3, h4⟩ := ih hinv1 h'
        have hfull : l1.map TrainStep.batch = bs := by
          by_contra hc; exact hl (hne hc)
        refine ⟨l1 ++ l2, by simpa using h1, ?_, ?_, fun _ => h4 (not_le.1 hl)⟩
        · rw [List.replicate_succ, List.flatten_cons, List.map_append, hfull]
          exact (List.prefix_append_right_inj _).2 h2
        · intro hc
          apply h3
          rw [List.replicate_succ, List.flatten_cons, List.map_append, hfull] at hc
          exact fun h => hc (by rw [h])

/-! ## Invariant of the autoencoder loop -/

theorem intervalMean_append (l l' : List (TrainStep S)) (E t : ℕ) (ht : t ≤ l.length) :
    intervalMean (l ++ l') E t = intervalMean l E t := by
  unfold intervalMean
  rw [List.take_append_of_le_length ht]

theorem evaluationSteps_succ (E n : ℕ) :
    evaluationSteps E (n + 1) = evaluationSteps E n ++ (if (n + 1) % E = 0 ∧ n + 1 ≠ 1 then [n + 1] else []) := by
  unfold evaluationSteps
  rw [List.range_succ, List.filter_append]
  congr 1
  by_cases h : (n + 1) % E = 0 ∧ n + 1 ≠ 1
  · rw [if_pos h, List.filter_cons_of_pos (by simpa using h)]; rfl
  · rw [if_neg h, List.filter_cons_of_neg (by simpa using h)]; rfl

theorem mem_evaluationSteps {E n t : ℕ} (h : t ∈ evaluationSteps E n) : 0 < t ∧ t ≤ n ∧ E ∣ t := by
  unfold evaluationSteps at h
  have h2 := (List.mem_filter.1 h)
  have h3 := List.mem_range.1 h2.1
  have h4 : t % E = 0 ∧ t ≠ 0 ∧ t ≠ 1 := by simpa using h2.2
  exact ⟨by omega, by omega, Nat.dvd_of_mod_eq_zero h4.1⟩

/-- The best interval: the saved state is the one after the last step of the first interval with the smallest mean
loss. -/
def AEBest (l : List (TrainStep S)) (E : ℕ) (bestAvg : Option ℝ) (bestState : Option S) : Prop :=
  (evaluationSteps E l.length = [] ∧ bestAvg = none ∧ bestState = none) ∨
    ∃ t u, t ∈ evaluationSteps E l.length ∧ l[t - 1]? = some u ∧ bestState = some u.after ∧
      bestAvg = some (intervalMean l E t) ∧
      ∀ t' ∈ evaluationSteps E l.length, intervalMean l E t ≤ intervalMean l E t' ∧
        (t' < t → intervalMean l E t < intervalMean l E t')

structure AEInv (T : Trainer S) (c : TrainConfig) (E : ℕ) (lr₀ : ℝ) (s₀ : S) (st : AEState S)
    (l : List (TrainStep S)) : Prop where
  run : Run T s₀ l st.params
  total : st.total = l.length
  notNaN : ∀ u ∈ l, u.loss ≠ none
  window : st.window = (l.drop (l.length - E)).map fun u => u.loss.getD 0
  history : st.history = (evaluationSteps E l.length).map (intervalMean l E)
  best : AEBest l E st.bestAvg st.bestState
  lr : st.sched.lr = lr₀ * c.factor ^ st.lrUpdates
  bad : st.sched.bad ≤ c.patience
  count : st.lrUpdates * (c.patience + 1) + st.sched.bad ≤ (evaluationSteps E l.length).length

theorem AEInv.start (T : Trainer S) (c : TrainConfig) (E : ℕ) (lr₀ : ℝ) (s₀ : S) :
    AEInv T c E lr₀ s₀ (AEState.start lr₀ s₀) [] := by
  have h0 : evaluationSteps E 0 = [] := by simp [evaluationSteps, List.range_succ]
  exact ⟨.nil, rfl, by simp, by simp [AEState.start], by simp [h0, AEState.start], Or.inl ⟨h0, rfl, rfl⟩, by simp [AEState.start],
    Nat.zero_le _, by simp [AEState.start, h0]⟩

theorem window_snoc (l : List (TrainStep S)) (E : ℕ) (u : TrainStep S) (w : List ℝ) (x : ℝ) (hx : u.loss = some x)
    (hw : w = (l.drop (l.length - E)).map fun u => u.loss.getD 0) :
    (if (w ++ [x]).length > E then (w ++ [x]).drop 1 else w ++ [x])
      = ((l ++ [u]).drop ((l ++ [u]).length - E)).map fun u => u.loss.getD 0 := by
  have hl : w.length = l.length - (l.length - E) := by rw [hw, List.length_map, List.length_drop]
  rw [List.length_append, List.length_singleton, hl, List.length_append, List.length_singleton]
  by_cases h : E ≤ l.length
  · rw [if_pos (by omega)]
    have e : w ++ [x] = ((l ++ [u]).drop (l.length - E)).map fun u => u.loss.getD 0 := by
      rw [List.drop_append_of_le_length (by omega), List.map_append, ← hw]
      simp [hx]
    rw [e, ← List.map_drop, List.drop_drop]
    congr 2
    omega
  · rw [if_neg (by omega), hw]
    have e1 : l.length - E = 0 := by omega
    have e2 : l.length + 1 - E = 0 := by omega
    rw [e1, e2]
    simp [hx]

theorem intervalMean_window (l : List (TrainStep S)) (E : ℕ) (hE : E ≤ l.length) (w : List ℝ)
    (hw : w = (l.drop (l.length - E)).map fun u => u.loss.getD 0) :
    w.sum / (w.length : ℝ) = intervalMean l E l.length := by
  unfold intervalMean
  have hlen : w.length = E := by rw [hw, List.length_map, List.length_drop]; omega
  rw [hlen, hw, List.take_length]

theorem AEBest.snoc {l : List (TrainStep S)} {E : ℕ} {ba : Option ℝ} {bs : Option S} (h : AEBest l E ba bs)
    (u : TrainStep S) (hev : (l.length + 1) % E = 0 ∧ l.length + 1 ≠ 1) :
    AEBest (l ++ [u]) E
      (if improves (some (intervalMean (l ++ [u]) E (l.length + 1))) ba then some (intervalMean (l ++ [u]) E (l.length + 1))
        else ba)
      (if improves (some (intervalMean (l ++ [u]) E (l.length + 1))) ba then some u.after else bs) := by
  have hsteps : evaluationSteps E (l ++ [u]).length = evaluationSteps E l.length ++ [l.length + 1] := by
    rw [List.length_append, List.length_singleton, evaluationSteps_succ, if_pos hev]
  have hold : ∀ t ∈ evaluationSteps E l.length, intervalMean (l ++ [u]) E t = intervalMean l E t := fun t ht =>
    intervalMean_append l [u] E t (mem_evaluationSteps ht).2.1
  set m := intervalMean (l ++ [u]) E (l.length + 1) with hm
  unfold AEBest
  rw [hsteps]
  by_cases hi : improves (some m) ba = true
  · rw [if_pos hi, if_pos hi]
    obtain ⟨v, hv, hlt⟩ := (improves_iff _ _).1 hi
    obtain rfl := Option.some.inj hv
    right
    refine ⟨l.length + 1, u, by simp, by simp, rfl, rfl, ?_⟩
    intro t' ht'
    rcases List.mem_append.1 ht' with ht | ht
    · rcases h with ⟨h1, _⟩ | ⟨t, w, _, _, _, hb, hmin⟩
      · rw [h1] at ht; cases ht
      · have h1 := hlt _ hb
        have h2 := (hmin t' ht).1
        rw [hold t' ht, ← hm]
        exact ⟨(h1.trans_le h2).le, fun _ => h1.trans_le h2⟩
    · simp at ht; subst ht
      exact ⟨le_rfl, fun h => absurd h (lt_irrefl _)⟩
  · rw [if_neg hi, if_neg hi]
    rcases h with ⟨_, h2, _⟩ | ⟨t, w, ht, hw, hs, hb, hmin⟩
    · exact absurd ((improves_iff _ _).2 ⟨m, rfl, by simp [h2]⟩) hi
    · right
      have htl := mem_evaluationSteps ht
      refine ⟨t, w, List.mem_append_left _ ht, ?_, hs, by rw [hold t ht]; exact hb, ?_⟩
      · rw [List.getElem?_append_left (by omega)]; exact hw
      · intro t' ht'
        rw [hold t ht]
        rcases List.mem_append.1 ht' with h' | h'
        · rw [hold t' h']; exact hmin t' h'
        · simp at h'; subst h'
          rw [← hm]
          refine ⟨?_, fun h => by omega⟩
          by_contra hc
          refine hi ((improves_iff _ _).2 ⟨m, rfl, ?_⟩)
          intro z hz
          rw [hb] at hz
          rw [← Option.some.inj hz]
          exact not_le.1 hc

theorem AEBest.keep {l : List (TrainStep S)} {E : ℕ} {ba : Option ℝ} {bs : Option S} (h : AEBest l E ba bs)
    (u : TrainStep S) (hev : ¬((l.length + 1) % E = 0 ∧ l.length + 1 ≠ 1)) : AEBest (l ++ [u]) E ba bs := by
  have hsteps : evaluationSteps E (l ++ [u]).length = evaluationSteps E l.length := by
    rw [List.length_append, List.length_singleton, evaluationSteps_succ, if_neg hev, List.append_nil]
  have hold : ∀ t ∈ evaluationSteps E l.length, intervalMean (l ++ [u]) E t = intervalMean l E t := fun t ht =>
    intervalMean_append l [u] E t (mem_evaluationSteps ht).2.1
  unfold AEBest
  rw [hsteps]
  rcases h with h | ⟨t, w, ht, hw, hs, hb, hmin⟩
  · exact Or.inl h
  · right
    have htl := mem_evaluationSteps ht
    refine ⟨t, w, ht, ?_, hs, by rw [hold t ht]; exact hb, ?_⟩
    · rw [List.getElem?_append_left (by omega)]; exact hw
    · intro t' ht'
      rw [hold t ht, hold t' ht']; exact hmin t' ht'

theorem batchEnd_ne_nan (P : Prop) [Decidable P] : (if P then BatchEnd.stop else BatchEnd.next) ≠ .nan := by
  by_cases h : P <;> simp [h]

theorem aeBatch_inv {T : Trainer S} {c : TrainConfig} (hf : 0 < c.factor) {E : ℕ} {lr₀ : ℝ} (hlr : 0 ≤ lr₀) {s₀ : S}
    {b : List ℕ} {st : AEState S} {r : AEState S × BatchEnd} {l : List (TrainStep S)}
    (hinv : AEInv T c E lr₀ s₀ st l) (h : aeBatch T c E b st = .ok r) :
    (r.2 = .nan ∧ r.1 = st ∧ T.loss l.length b st.params = .ok none) ∨
    (r.2 ≠ .nan ∧ (r.2 = .stop → c.limit ≤ r.1.lrUpdates) ∧
      (r.2 = .next → st.lrUpdates < c.limit → r.1.lrUpdates < c.limit) ∧
      (st.lrUpdates < c.limit → r.1.lrUpdates ≤ c.limit) ∧
      ∃ u : TrainStep S, u.batch = b ∧ AEInv T c E lr₀ s₀ r.1 (l ++ [u])) := by
  unfold aeBatch at h
  rw [hinv.total] at h
  cases hloss : T.loss l.length b st.params with
  | error e => rw [hloss] at h; cases h
  | ok x =>
    rw [hloss] at h
    cases x with
    | none =>
      simp only [Except.ok.injEq] at h
      subst h
      exact Or.inl ⟨rfl, rfl, rfl⟩
    | some x =>
      right
      simp only at h
      by_cases hE : E = 0
      · rw [if_pos hE] at h; cases h
      · rw [if_neg hE] at h
        set u : TrainStep S := ⟨b, st.sched.lr, st.params, some x, T.update l.length b st.sched.lr st.params⟩ with hu
        have hwin := window_snoc l E u st.window x rfl hinv.window
        have hrun : Run T s₀ (l ++ [u]) (T.update l.length b st.sched.lr st.params) :=
          Run.snoc b _ _ hinv.run hloss
        have hnan : ∀ v ∈ l ++ [u], v.loss ≠ none := by
          intro v hv
          rcases List.mem_append.1 hv with hv | hv
          · exact hinv.notNaN v hv
          · simp at hv; subst hv; simp [hu]
        have hlen : (l ++ [u]).length = l.length + 1 := by simp
        have hold : ∀ t ∈ evaluationSteps E l.length, intervalMean (l ++ [u]) E t = intervalMean l E t :=
          fun t ht => intervalMean_append l [u] E t (mem_evaluationSteps ht).2.1
        have hhist : (evaluationSteps E l.length).map (intervalMean (l ++ [u]) E) = st.history := by
          rw [hinv.history]; exact List.map_congr_left hold
        by_cases hev : (l.length + 1) % E = 0 ∧ l.length + 1 ≠ 1
        · rw [if_pos hev] at h
          have hEle : E ≤ l.length + 1 := Nat.le_of_dvd (by omega) (Nat.dvd_of_mod_eq_zero hev.1)
          have hmean := intervalMean_window (l ++ [u]) E (by rw [hlen]; exact hEle) _ hwin
          rw [hlen] at hmean
          simp only [hmean, Except.ok.injEq] at h
          set m := intervalMean (l ++ [u]) E (l.length + 1) with hm
          have hnn : 0 ≤ st.sched.lr := by rw [hinv.lr]; positivity
          obtain ⟨hb, hstep⟩ := Plateau.step_spec c hf st.sched hnn hinv.bad (some m)
          have hsteps : evaluationSteps E (l ++ [u]).length = evaluationSteps E l.length ++ [l.length + 1] := by
            rw [hlen, evaluationSteps_succ, if_pos hev]
          subst h
          refine ⟨?_, ?_, ?_, ?_, u, rfl, hrun, by simp, hnan, hwin, ?_, hinv.best.snoc u hev, ?_, hb, ?_⟩
          · exact batchEnd_ne_nan _
          · intro hs; dsimp only at hs ⊢
            by_contra hc
            rw [if_neg hc] at hs; cases hs
          · intro hs _; dsimp only at hs ⊢
            by_contra hc
            rw [if_pos (not_lt.1 hc)] at hs; cases hs
          · intro hlt; dsimp only
            split <;> omega
          · dsimp only
            rw [hsteps, List.map_append, hhist]; rfl
          · dsimp only
            rcases hstep with ⟨h1, _⟩ | ⟨h1, h2, _⟩
            · rw [if_neg (by rw [h1]; simp), h1, hinv.lr]
            · rw [if_pos (Ne.symm h2), h1, hinv.lr, pow_succ]; ring
          · dsimp only
            have hc := hinv.count
            rw [hsteps, List.length_append, List.length_singleton]
            rcases hstep with ⟨h1, h2⟩ | ⟨h1, h2, h3, h4, _⟩
            · rw [if_neg (by rw [h1]; simp)]; omega
            · rw [if_pos (Ne.symm h2), h3, Nat.add_mul]; omega
        · rw [if_neg hev] at h
          simp only [Except.ok.injEq] at h
          have hsteps : evaluationSteps E (l ++ [u]).length = evaluationSteps E l.length := by
            rw [hlen, evaluationSteps_succ, if_neg hev, List.append_nil]
          subst h
          refine ⟨by simp, by simp, fun _ h => h, fun h => h.le, u, rfl, hrun, by simp, hnan, hwin, ?_,
            hinv.best.keep u hev, hinv.lr, hinv.bad, ?_⟩
          · dsimp only; rw [hsteps, hhist]
          · dsimp only; rw [hsteps]; exact hinv.count

theorem aeBatches_inv {T : Trainer S} {c : TrainConfig} (hf : 0 < c.factor) {E : ℕ} {lr₀ : ℝ} (hlr : 0 ≤ lr₀) {s₀ : S}
    (bn : Bool) (bs : List (List ℕ)) {st : AEState S} {r : AEState S × Bool} {l : List (TrainStep S)}
    (hinv : AEInv T c E lr₀ s₀ st l) (h : aeBatches T c E bn bs st = .ok r) :
    ∃ l', AEInv T c E lr₀ s₀ r.1 (l ++ l') ∧
      l'.map TrainStep.batch <+: bs.filter (fun b => !(decide (b.length < 4) && bn)) ∧
      (l'.map TrainStep.batch ≠ bs.filter (fun b => !(decide (b.length < 4) && bn)) →
        c.limit ≤ r.1.lrUpdates ∨ r.2 = true) ∧
      (st.lrUpdates < c.limit → r.1.lrUpdates ≤ c.limit) ∧
      (r.2 = true → ∃ b, T.loss (l ++ l').length b r.1.params = .ok none) := by
  induction bs generalizing st l with
  | nil =>
    simp only [aeBatches, Except.ok.injEq] at h
    subst h
    exact ⟨[], by simpa using hinv, by simp, by simp, fun h => h.le, by simp⟩
  | cons b bs ih =>
    unfold aeBatches at h
    by_cases hsk : b.length < 4 ∧ bn = true
    · rw [if_pos hsk] at h
      have hfl : (b :: bs).filter (fun b => !(decide (b.length < 4) && bn))
          = bs.filter (fun b => !(decide (b.length < 4) && bn)) :=
        List.filter_cons_of_neg (by simp [hsk.1, hsk.2])
      rw [hfl]
      exact ih hinv h
    · rw [if_neg hsk] at h
      have hfl : (b :: bs).filter (fun b => !(decide (b.length < 4) && bn))
          = b :: bs.filter (fun b => !(decide (b.length < 4) && bn)) := by
        apply List.filter_cons_of_pos
        cases bn
        · simp
        · simpa using hsk
      rw [hfl]
      cases hit : aeBatch T c E b st with
      | error e => rw [hit] at h; cases h
      | ok q =>
        rw [hit] at h
        obtain ⟨q1, q2⟩ := q
        rcases aeBatch_inv hf hlr hinv hit with ⟨h1, h2, h3⟩ | ⟨h1, h2, h3, h4, u, hu, hinv1⟩
        · simp only at h1 h2
          subst h1; subst h2
          simp only [bind, Except.bind, pure, Except.pure, Except.ok.injEq] at h
          subst h
          exact ⟨[], by simpa using hinv, by simp, fun _ => Or.inr rfl, fun h => h.le, fun _ => ⟨b, by simpa using h3⟩⟩
        · cases q2 with
          | nan => exact absurd rfl h1
          | stop =>
            simp only [bind, Except.bind, pure, Except.pure, Except.ok.injEq] at h
            subst h
            exact ⟨[u], hinv1, by simp [hu], fun _ => Or.inl (h2 rfl), h4, by simp⟩
          | next =>
            have h' : aeBatches T c E bn bs q1 = .ok r := by simpa only [bind, Except.bind] using h
            obtain ⟨l', g1, g2, g3, g4, g5⟩ := ih hinv1 h'
            refine ⟨u :: l', by simpa using g1, ?_, ?_, fun hlt => g4 (h3 rfl hlt), ?_⟩
            · simpa [hu, List.cons_prefix_cons] using g2
            · intro hne; exact g3 (by simpa [hu] using hne)
            · intro hr; obtain ⟨b', hb'⟩ := g5 hr; exact ⟨b', by simpa using hb'⟩

/-- The batches that are not skipped, over `n` epochs starting at epoch `e`. -/
def usedBatches (bn : Bool) (batches : ℕ → List (List ℕ)) (e n : ℕ) : List (List ℕ) :=
  ((List.range n).map fun i => (batches (e + i)).filter (fun b => !(decide (b.length < 4) && bn))).flatten

theorem usedBatches_succ (bn : Bool) (batches : ℕ → List (List ℕ)) (e n : ℕ) :
    usedBatches bn batches e (n + 1)
      = (batches e).filter (fun b => !(decide (b.length < 4) && bn)) ++ usedBatches bn batches (e + 1) n := by
  unfold usedBatches
  rw [List.range_succ_eq_map, List.map_cons, List.flatten_cons, List.map_map]
  simp only [Nat.add_zero]
  congr 3
  funext i
  simp only [Function.comp]
  congr 2
  omega

theorem aeEpochs_inv {T : Trainer S} {c : TrainConfig} (hf : 0 < c.factor) {E : ℕ} {lr₀ : ℝ} (hlr : 0 ≤ lr₀) {s₀ : S}
    (bn : Bool) (batches : ℕ → List (List ℕ)) (n e : ℕ) {st st' : AEState S} {l : List (TrainStep S)}
    (hinv : AEInv T c E lr₀ s₀ st l) (h : aeEpochs T c E bn batches n e st = .ok st') :
    ∃ l', AEInv T c E lr₀ s₀ st' (l ++ l') ∧ l'.map TrainStep.batch <+: usedBatches bn batches e n ∧
      (l'.map TrainStep.batch ≠ usedBatches bn batches e n →
        c.limit ≤ st'.lrUpdates ∨ ∃ b, T.loss (l ++ l').length b st'.params = .ok none) ∧
      (st.lrUpdates < c.limit → st'.lrUpdates ≤ c.limit) := by
  induction n generalizing st l e with
  | zero =>
    simp only [aeEpochs, Except.ok.injEq] at h
    subst h
    exact ⟨[], by simpa using hinv, by simp, by simp [usedBatches], fun h => h.le⟩
  | succ n ih =>
    unfold aeEpochs at h
    cases hit : aeBatches T c E bn (batches e) st with
    | error e' => rw [hit] at h; cases h
    | ok r =>
      rw [hit] at h
      obtain ⟨l1, g1, g2, g3, g4, g5⟩ := aeBatches_inv hf hlr bn (batches e) hinv hit
      rw [usedBatches_succ]
      simp only [bind, Except.bind] at h
      by_cases hn : r.2 = true
      · rw [if_pos hn] at h
        simp only [pure, Except.pure, Except.ok.injEq] at h
        subst h
        exact ⟨l1, g1, g2.trans (List.prefix_append _ _), fun _ => Or.inr (g5 hn), g4⟩
      · rw [if_neg hn] at h
        by_cases hemp : batches e = []
        · rw [if_pos hemp] at h; cases h
        · rw [if_neg hemp] at h
          by_cases hl : c.limit ≤ r.1.lrUpdates
          · rw [if_pos hl] at h
            simp only [pure, Except.pure, Except.ok.injEq] at h
            subst h
            exact ⟨l1, g1, g2.trans (List.prefix_append _ _), fun _ => Or.inl hl, g4⟩
          · rw [if_neg hl] at h
            obtain ⟨l2, k1, k2, k3, k4⟩ := ih (e + 1) g1 h
            have hfull : l1.map TrainStep.batch = (batches e).filter (fun b => !(decide (b.length < 4) && bn)) := by
              by_contra hc
              rcases g3 hc with h' | h'
              · exact hl h'
              · exact hn h'
            refine ⟨l1 ++ l2, by simpa using k1, ?_, ?_, fun _ => k4 (not_le.1 hl)⟩
            · rw [List.map_append, hfull]
              exact (List.prefix_append_right_inj _).2 k2
            · intro hc
              rw [List.map_append, hfull] at hc
              have := k3 fun h => hc (by rw [h])
              simpa using this

end Irt
