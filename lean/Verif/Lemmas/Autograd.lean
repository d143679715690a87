import Verif.Spec.Autograd
import Verif.Lemmas.FitOrder

namespace Irt

open Spec Autograd

/-! ## Two trainings side by side, also when they raise -/

/-- Two ends of a loop: the same exception, or success in both cases, with related states. -/
def LoopEnd {S S' : Type} (R : S → S' → Prop) :
    Except (PyErr × LoopState S) (LoopState S) → Except (PyErr × LoopState S') (LoopState S') → Prop
  | .ok u, .ok u' => LoopRel R u u'
  | .error e, .error e' => e.1 = e'.1 ∧ LoopRel R e.2 e'.2
  | _, _ => False

section

variable {S S' : Type} {R : S → S' → Prop} {T : Trainer S} {T' : Trainer S'}

theorem loopEnd_bind {m : Except (PyErr × LoopState S) (LoopState S)} {m' : Except (PyErr × LoopState S') (LoopState S')}
    {f : LoopState S → Except (PyErr × LoopState S) (LoopState S)}
    {f' : LoopState S' → Except (PyErr × LoopState S') (LoopState S')} (h : LoopEnd R m m')
    (hf : ∀ u u', LoopRel R u u' → LoopEnd R (f u) (f' u')) : LoopEnd R (m >>= f) (m' >>= f') := by
  cases m with
  | error e =>
    cases m' with
    | error e' => exact h
    | ok u' => exact h.elim
  | ok u =>
    cases m' with
    | error e' => exact h.elim
    | ok u' => exact hf u u' h

variable (hloss : ∀ i b s s', R s s' → T.loss i b s = T'.loss i b s')
  (hstep : ∀ i b lr s s', R s s' → R (T.update i b lr s) (T'.update i b lr s'))

include hloss hstep

theorem trainIteration_sim (c : TrainConfig) (b : List ℕ) {st : LoopState S} {st' : LoopState S'} (h : LoopRel R st st') :
    LoopEnd R (trainIteration T c b st) (trainIteration T' c b st') := by
  unfold trainIteration
  rw [← h.history, ← h.sched, ← hloss _ b _ _ h.params]
  cases T.loss st.history.length b st.params with
  | error e => exact ⟨rfl, h⟩
  | ok x =>
    have hnew := hstep st.history.length b st.sched.lr _ _ h.params
    dsimp only
    rw [← h.prevLr, ← h.lrUpdates, ← h.bestLoss]
    refine ⟨hnew, rfl, rfl, rfl, rfl, rfl, ?_⟩
    dsimp only
    split_ifs
    · exact Option.Rel.some hnew
    · exact h.best

theorem mmlEpochs_sim (c : TrainConfig) (b : List ℕ) (n : ℕ) {st : LoopState S} {st' : LoopState S'} (h : LoopRel R st st') :
    LoopEnd R (mmlEpochs T c b n st) (mmlEpochs T' c b n st') := by
  induction n generalizing st st' with
  | zero => exact h
  | succ n ih =>
    unfold mmlEpochs
    refine loopEnd_bind (trainIteration_sim hloss hstep c b h) fun u u' hu => ?_
    rw [← hu.lrUpdates]
    split_ifs
    · exact hu
    · exact ih hu

theorem jmlBatches_sim (c : TrainConfig) (bs : List (List ℕ)) {st : LoopState S} {st' : LoopState S'} (h : LoopRel R st st') :
    LoopEnd R (jmlBatches T c bs st) (jmlBatches T' c bs st') := by
  induction bs generalizing st st' with
  | nil => exact h
  | cons b bs ih =>
    unfold jmlBatches
    refine loopEnd_bind (trainIteration_sim hloss hstep c b h) fun u u' hu => ?_
    rw [← hu.lrUpdates, ← hu.sched, ← h.prevLr]
    split_ifs
    · exact hu
    · exact ih hu

theorem jmlEpochs_sim (c : TrainConfig) (bs : List (List ℕ)) (n : ℕ) {st : LoopState S} {st' : LoopState S'}
    (h : LoopRel R st st') : LoopEnd R (jmlEpochs T c bs n st) (jmlEpochs T' c bs n st') := by
  induction n generalizing st st' with
  | zero => exact h
  | succ n ih =>
    unfold jmlEpochs
    refine loopEnd_bind (jmlBatches_sim hloss hstep c bs h) fun u u' hu => ?_
    rw [← hu.lrUpdates]
    split_ifs
    · exact hu
    · exact ih hu

end

/-- The same for the states of an autoencoder. -/
structure AeLoopRel {S S' : Type} (R : S → S' → Prop) (st : AEState S) (st' : AEState S') : Prop where
  params : R st.params st'.params
  sched : st.sched = st'.sched
  lrUpdates : st.lrUpdates = st'.lrUpdates
  window : st.window = st'.window
  total : st.total = st'.total
  bestAvg : st.bestAvg = st'.bestAvg
  history : st.history = st'.history
  best : Option.Rel R st.bestState st'.bestState

theorem AeLoopRel.final {S S' : Type} {R : S → S' → Prop} {st : AEState S} {st' : AEState S'} (h : AeLoopRel R st st') :
    R st.final st'.final := by
  unfold AEState.final
  have := h.best
  cases h1 : st.bestState with
  | none =>
    cases h2 : st'.bestState with
    | none => exact h.params
    | some s => rw [h1, h2] at this; cases this
  | some s =>
    cases h2 : st'.bestState with
    | none => rw [h1, h2] at this; cases this
    | some s' => rw [h1, h2] at this; cases this; assumption

/-- Two ends of a loop of the autoencoder, with something else that is the same. -/
def AeLoopEnd {S S' X : Type} (R : S → S' → Prop) :
    Except (PyErr × AEState S) (AEState S × X) → Except (PyErr × AEState S') (AEState S' × X) → Prop
  | .ok u, .ok u' => AeLoopRel R u.1 u'.1 ∧ u.2 = u'.2
  | .error e, .error e' => e.1 = e'.1 ∧ AeLoopRel R e.2 e'.2
  | _, _ => False

/-- Two ends of the loop over the epochs. -/
def AeFinalEnd {S S' : Type} (R : S → S' → Prop) :
    Except (PyErr × AEState S) (AEState S) → Except (PyErr × AEState S') (AEState S') → Prop
  | .ok u, .ok u' => AeLoopRel R u u'
  | .error e, .error e' => e.1 = e'.1 ∧ AeLoopRel R e.2 e'.2
  | _, _ => False

section

variable {S S' : Type} {R : S → S' → Prop} {T : Trainer S} {T' : Trainer S'}
  (hloss : ∀ i b s s', R s s' → T.loss i b s = T'.loss i b s')
  (hstep : ∀ i b lr s s', R s s' → R (T.update i b lr s) (T'.update i b lr s'))

include hloss hstep

theorem aeBatch_sim (c : TrainConfig) (E : ℕ) (b : List ℕ) {st : AEState S} {st' : AEState S'} (h : AeLoopRel R st st') :
    AeLoopEnd R (aeBatch T c E b st) (aeBatch T' c E b st') := by
  unfold aeBatch
  rw [← h.total, ← h.sched, ← hloss _ b _ _ h.params]
  cases T.loss st.total b st.params with
  | error e => exact ⟨rfl, h⟩
  | ok x =>
    cases x with
    | none => exact ⟨h, rfl⟩
    | some loss =>
      have hnew := hstep st.total b st.sched.lr _ _ h.params
      dsimp only
      rw [← h.window, ← h.history, ← h.bestAvg, ← h.lrUpdates]
      by_cases hE : E = 0
      · rw [if_pos hE, if_pos hE]
        exact ⟨rfl, hnew, rfl, rfl, rfl, rfl, rfl, rfl, h.best⟩
      · rw [if_neg hE, if_neg hE]
        by_cases hm : (st.total + 1) % E = 0 ∧ st.total + 1 ≠ 1
        · rw [if_pos hm, if_pos hm]
          refine ⟨⟨hnew, rfl, rfl, rfl, rfl, rfl, rfl, ?_⟩, rfl⟩
          dsimp only
          split_ifs <;> first | exact Option.Rel.some hnew | exact h.best
        · rw [if_neg hm, if_neg hm]
          exact ⟨⟨hnew, rfl, rfl, rfl, rfl, rfl, rfl, h.best⟩, rfl⟩

theorem aeBatches_sim (c : TrainConfig) (E : ℕ) (bn : Bool) (bs : List (List ℕ)) {st : AEState S} {st' : AEState S'}
    (h : AeLoopRel R st st') : AeLoopEnd R (aeBatches T c E bn bs st) (aeBatches T' c E bn bs st') := by
  induction bs generalizing st st' with
  | nil => exact ⟨h, rfl⟩
  | cons b bs ih =>
    unfold aeBatches
    by_cases hb : b.length < 4 ∧ bn = true
    · rw [if_pos hb, if_pos hb]
      exact ih h
    · rw [if_neg hb, if_neg hb]
      have h1 := aeBatch_sim hloss hstep c E b h
      cases hm : aeBatch T c E b st with
      | error e =>
        cases hm' : aeBatch T' c E b st' with
        | error e' => rw [hm, hm'] at h1; exact h1
        | ok u' => rw [hm, hm'] at h1; exact h1.elim
      | ok u =>
        cases hm' : aeBatch T' c E b st' with
        | error e' => rw [hm, hm'] at h1; exact h1.elim
        | ok u' =>
          rw [hm, hm'] at h1
          obtain ⟨h2, h3⟩ := h1
          obtain ⟨u, x⟩ := u
          obtain ⟨u', x'⟩ := u'
          dsimp only at h2 h3
          subst h3
          simp only [bind_ok]
          cases x with
          | nan => exact ⟨h2, rfl⟩
          | stop => exact ⟨h2, rfl⟩
          | next => exact ih h2

theorem aeEpochs_sim (c : TrainConfig) (E : ℕ) (bn : Bool) (batches : ℕ → List (List ℕ)) (n e : ℕ) {st : AEState S}
    {st' : AEState S'} (h : AeLoopRel R st st') : AeFinalEnd R (aeEpochs T c E bn batches n e st) (aeEpochs T' c E bn batches n e st') := by
  induction n generalizing st st' e with
  | zero => exact h
  | succ n ih =>
    unfold aeEpochs
    have h1 := aeBatches_sim hloss hstep c E bn (batches e) h
    cases hm : aeBatches T c E bn (batches e) st with
    | error e1 =>
      cases hm' : aeBatches T' c E bn (batches e) st' with
      | error e' => rw [hm, hm'] at h1; exact h1
      | ok u' => rw [hm, hm'] at h1; exact h1.elim
    | ok u =>
      cases hm' : aeBatches T' c E bn (batches e) st' with
      | error e' => rw [hm, hm'] at h1; exact h1.elim
      | ok u' =>
        rw [hm, hm'] at h1
        obtain ⟨h2, h3⟩ := h1
        obtain ⟨u, x⟩ := u
        obtain ⟨u', x'⟩ := u'
        dsimp only at h2 h3
        subst h3
        simp only [bind_ok]
        rw [← h2.lrUpdates]
        by_cases hx : x = true
        · rw [if_pos hx, if_pos hx]; exact h2
        · rw [if_neg hx, if_neg hx]
          by_cases hb : batches e = []
          · rw [if_pos hb, if_pos hb]; exact ⟨rfl, h2⟩
          · rw [if_neg hb, if_neg hb]
            by_cases hl : c.limit ≤ u.lrUpdates
            · rw [if_pos hl, if_pos hl]; exact h2
            · rw [if_neg hl, if_neg hl]; exact ih (e + 1) h2

end

theorem loopRel_start {S S' : Type} {R : S → S' → Prop} {s : S} {s' : S'} (h : R s s') (lr : ℝ) :
    LoopRel R (LoopState.start lr s) (LoopState.start lr s') :=
  ⟨h, rfl, rfl, rfl, rfl, rfl, Option.Rel.none⟩

theorem aeLoopRel_start {S S' : Type} {R : S → S' → Prop} {s : S} {s' : S'} (h : R s s') (lr : ℝ) :
    AeLoopRel R (AEState.start lr s) (AEState.start lr s') :=
  ⟨h, rfl, rfl, rfl, rfl, rfl, rfl, Option.Rel.none⟩

/-! ## Buffers do not matter -/

namespace Autograd

variable {A : Type}

/-- States that differ in the buffers only. -/
def BufRel (s s' : State A) : Prop := SameButBuffers s.weight s'.weight ∧ SameButBuffers s.rest s'.rest

theorem zeroGrad_eq (l : List (Param × A)) :
    zeroGrad l = (l.map fun s => (s.1.value, s.1.requires, s.2)).map fun x => (({ value := x.1, requires := x.2.1 } : Param), x.2.2) := by
  unfold zeroGrad
  rw [List.map_map]
  rfl

theorem zeroGrad_congr {l l' : List (Param × A)} (h : SameButBuffers l l') : zeroGrad l = zeroGrad l' := by
  rw [zeroGrad_eq, zeroGrad_eq, h]

theorem values_congr {l l' : List (Param × A)} (h : SameButBuffers l l') : values l = values l' := by
  have := congrArg (List.map fun x : ℝ × Bool × A => x.1) h
  simpa [values, List.map_map, Function.comp_def] using this

theorem any_requires (l : List (Param × A)) :
    (l.any fun e => e.1.requires) = (l.map fun s => (s.1.value, s.1.requires, s.2)).any fun x => x.2.1 := by
  rw [List.any_map]
  rfl

theorem trainer_loss_congr (loss : ℕ → List ℕ → List ℝ → List ℝ → Except PyErr Num) (rule : ℕ → EntryRule A) (i : ℕ) (b : List ℕ)
    (s s' : State A) (h : BufRel s s') : (trainer loss rule).loss i b s = (trainer loss rule).loss i b s' := by
  unfold trainer
  dsimp only
  rw [values_congr h.1, values_congr h.2, List.any_append, List.any_append, any_requires, any_requires, any_requires s'.weight,
    any_requires s'.rest, h.1, h.2]

theorem trainer_update_congr (loss : ℕ → List ℕ → List ℝ → List ℝ → Except PyErr Num) (rule : ℕ → EntryRule A) (i : ℕ) (b : List ℕ)
    (lr : ℝ) (s s' : State A) (h : BufRel s s') : BufRel ((trainer loss rule).update i b lr s) ((trainer loss rule).update i b lr s') := by
  unfold trainer
  dsimp only
  rw [zeroGrad_congr h.1, zeroGrad_congr h.2]
  exact ⟨rfl, rfl⟩

theorem values_zeroGrad (l : List (Param × A)) : values (zeroGrad l) = values l := by
  unfold values zeroGrad
  rw [List.map_map]
  rfl

/-- One training iteration for a group of parameters. -/
theorem step_group (rule : EntryRule A) (lr : ℝ) (g : ℕ → ℝ) (l : List (Param × A)) :
    optimizerStep rule lr (backward g (zeroGrad l)) = l.mapIdx fun k s =>
      if s.1.requires then
        ({ value := (rule lr s.2 s.1.value (g k)).2, requires := true, grad := some (g k) }, (rule lr s.2 s.1.value (g k)).1)
      else ({ s.1 with grad := none }, s.2) := by
  unfold optimizerStep backward zeroGrad
  apply List.ext_getElem?
  intro k
  rw [List.getElem?_map, List.getElem?_mapIdx, List.getElem?_map, List.getElem?_mapIdx]
  cases h : l[k]? with
  | none => rfl
  | some s =>
    obtain ⟨⟨v, r, gr⟩, a⟩ := s
    cases r with
    | false => simp
    | true => simp

theorem mapIdx_fst {B : Type} (l : List (Param × A)) (f : ℕ → Param × A → B) : (l.mapIdx f).length = l.length := List.length_mapIdx

/-! ## All parameters trained -/

/-- A state with flags and buffers where everything is trained, and the state without them. -/
def TrainRel (s : State A) (s' : FitState A) : Prop :=
  (s.weight.map (fun e => (e.1.value, e.2)) = s'.weight ∧ ∀ e ∈ s.weight, e.1.requires = true) ∧
    (s.rest.map (fun e => (e.1.value, e.2)) = s'.rest ∧ ∀ e ∈ s.rest, e.1.requires = true)

theorem step_trained (rule : EntryRule A) (lr : ℝ) (g : ℕ → ℝ) (l : List (Param × A)) (h : ∀ e ∈ l, e.1.requires = true) :
    (optimizerStep rule lr (backward g (zeroGrad l))).map (fun e => (e.1.value, e.2)) =
        (l.map fun e => (e.1.value, e.2)).mapIdx (fun k e => ((rule lr e.2 e.1 (g k)).2, (rule lr e.2 e.1 (g k)).1)) ∧
      ∀ e ∈ optimizerStep rule lr (backward g (zeroGrad l)), e.1.requires = true := by
  rw [step_group]
  constructor
  · apply List.ext_getElem?
    intro k
    rw [List.getElem?_map, List.getElem?_mapIdx, List.getElem?_mapIdx, List.getElem?_map]
    cases hk : l[k]? with
    | none => rfl
    | some s =>
      have := h s (List.mem_of_getElem? hk)
      simp [this]
  · intro e he
    obtain ⟨k, hk⟩ := List.mem_iff_getElem?.mp he
    rw [List.getElem?_mapIdx] at hk
    cases hs : l[k]? with
    | none => rw [hs] at hk; cases hk
    | some s =>
      have := h s (List.mem_of_getElem? hs)
      rw [hs] at hk
      simp only [Option.map_some, this, if_true, Option.some.injEq] at hk
      rw [← hk]

theorem values_trained {l : List (Param × A)} {l' : List (ℝ × A)} (h : l.map (fun e => (e.1.value, e.2)) = l') :
    values l = l'.map Prod.fst := by
  rw [← h, List.map_map]
  rfl

theorem trained_update (loss : List ℝ → List ℝ → Except PyErr Num) (rule : ℕ → EntryRule A) (i : ℕ) (b : List ℕ) (lr : ℝ)
    (s : State A) (s' : FitState A) (h : TrainRel s s') :
    TrainRel ((trainer (fun _ _ => loss) rule).update i b lr s) ((gradientTrainer loss rule).update i b lr s') := by
  unfold trainer gradientTrainer
  dsimp only
  rw [values_zeroGrad, values_zeroGrad, values_trained h.1.1, values_trained h.2.1]
  have hw := step_trained (rule i) lr (partialAt (fun p => loss p (s'.rest.map Prod.fst)) (s'.weight.map Prod.fst)) s.weight h.1.2
  have hr := step_trained (rule i) lr (partialAt (fun p => loss (s'.weight.map Prod.fst) p) (s'.rest.map Prod.fst)) s.rest h.2.2
  rw [h.1.1] at hw
  rw [h.2.1] at hr
  exact ⟨hw, hr⟩

theorem trained_loss (loss : List ℝ → List ℝ → Except PyErr Num) (rule : ℕ → EntryRule A) (i : ℕ) (b : List ℕ)
    (s : State A) (s' : FitState A) (h : TrainRel s s') (hne : s.weight ++ s.rest ≠ []) :
    (trainer (fun _ _ => loss) rule).loss i b s = (gradientTrainer loss rule).loss i b s' := by
  unfold trainer gradientTrainer
  dsimp only
  rw [values_trained h.1.1, values_trained h.2.1]
  have : ((s.weight ++ s.rest).any fun e => e.1.requires) = true := by
    obtain ⟨e, he⟩ := List.exists_mem_of_ne_nil _ hne
    refine List.any_eq_true.mpr ⟨e, he, ?_⟩
    rcases List.mem_append.mp he with h1 | h1
    · exact h.1.2 e h1
    · exact h.2.2 e h1
  cases loss (s'.weight.map Prod.fst) (s'.rest.map Prod.fst) with
  | error e => rfl
  | ok x => simp [this]

theorem length_update (loss : ℕ → List ℕ → List ℝ → List ℝ → Except PyErr Num) (rule : ℕ → EntryRule A) (i : ℕ) (b : List ℕ)
    (lr : ℝ) (s : State A) : ((trainer loss rule).update i b lr s).weight.length = s.weight.length ∧
      ((trainer loss rule).update i b lr s).rest.length = s.rest.length := by
  unfold trainer
  dsimp only
  rw [step_group, step_group, List.length_mapIdx, List.length_mapIdx]
  exact ⟨rfl, rfl⟩

theorem loadValues_values (l : List (Param × A)) (l' : List (Param × A)) (h : l.length = l'.length) :
    (loadValues (values l) (l'.map Prod.fst)).map Param.value = values l := by
  unfold loadValues values
  apply List.ext_getElem?
  intro k
  rw [List.getElem?_map, List.getElem?_zipWith, List.getElem?_map, List.getElem?_map]
  cases hk : l[k]? with
  | none => rfl
  | some e =>
    have : k < l'.length := by rw [← h]; exact lt_of_getElem?_some hk
    rw [List.getElem?_eq_getElem this]
    rfl

end Autograd

end Irt
