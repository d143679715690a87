import Verif.Lemmas.FitCrash

/-!
# C120: calls of `fit` that fail

`attempt c k w` is a call of `model.fit` that is interrupted before its step `k`, if it gets that far (`none`: never).
`Refused`, `AfterUpdates`, `SameModel`, `SameFit` are in Spec/FitCrash.
-/

namespace Irt

open Spec Crash

variable {S E X : Type} {d : ℕ}

theorem appendData_ok_iff (stored : Option DataTensor) (data : DataTensor) :
    (∃ x, appendData stored data = .ok x) ↔ ¬ OtherItems stored data := by
  cases stored with
  | none => simp [appendData, OtherItems]
  | some old =>
    by_cases h : old.width = data.width
    · simp [appendData, OtherItems, h]
    · simp [appendData, OtherItems, h]

theorem appendData_appended {stored : Option DataTensor} {data x : DataTensor} (h : appendData stored data = .ok x) :
    Appended stored data (some x) := by
  cases stored with
  | none => simp only [appendData, Except.ok.injEq] at h; simp [Appended, h]
  | some old =>
    by_cases hw : old.width = data.width
    · simp only [appendData, hw, if_true, ne_eq, not_true, if_false, Except.ok.injEq] at h
      exact ⟨hw, by rw [← h]⟩
    · simp [appendData, hw] at h

/-! ## Refused calls -/

theorem storeData_triple (w₀ : FitWorld S E X d) (data : DataTensor) :
    Triple (fun w => w = w₀) (SameModel w₀) (fun _ w => SameModel w₀ w ∧ ¬ OtherItems w₀.trainData data)
      (storeData data : Crash (FitWorld S E X d) Unit) := by
  refine triple_bind (R := fun x w => w = w₀ ∧ appendData w₀.trainData data = .ok x) (triple_eval _ ?_ ?_) fun x => ?_
  · rintro w rfl; exact ⟨rfl, rfl, rfl, rfl⟩
  · rintro w a rfl h; exact ⟨rfl, h⟩
  · refine triple_stmt _ ?_ ?_ ?_
    · rintro w ⟨rfl, -⟩; exact ⟨rfl, rfl, rfl, rfl⟩
    · rintro w ⟨rfl, -⟩; exact ⟨rfl, rfl, rfl, rfl⟩
    · rintro w ⟨rfl, h⟩; exact ⟨⟨rfl, rfl, rfl, rfl⟩, (appendData_ok_iff _ _).1 ⟨x, h⟩⟩

/-- A statement that leaves the model alone. -/
theorem keep_stmt (w₀ : FitWorld S E X d) (Z : Prop) (f : FitWorld S E X d → FitWorld S E X d)
    (h : ∀ w, SameModel w₀ w → SameModel w₀ (f w)) :
    Triple (fun w => SameModel w₀ w ∧ Z) (SameModel w₀) (fun _ w => SameModel w₀ w ∧ Z) (stmt f) :=
  triple_stmt f (fun w h => h.1) (fun w hw => h w hw.1) fun w hw => ⟨h w hw.1, hw.2⟩

theorem keep_eval {α β : Type} (w₀ : FitWorld S E X d) (Z : Prop) (f : FitWorld S E X d → Except PyErr α)
    {g : α → Crash (FitWorld S E X d) β}
    (hf : ∀ a, FailsWith (fun w => SameModel w₀ w ∧ (Z ∧ ∃ v, f v = .ok a)) (SameModel w₀) (g a)) :
    FailsWith (fun w => SameModel w₀ w ∧ Z) (SameModel w₀) (eval f >>= g) :=
  failsWith_eval f (fun w h => h.1) fun a k w hw => hf a k w ⟨hw.1.1, hw.1.2, w, hw.2⟩

theorem mmlIntegration_points (c : MmlCall S d) (n : ℕ) (h : mmlPoints d c.points = .ok n) :
    mmlIntegration c.hermgauss c.cholesky c.method (some n) c.covariance
      = mmlIntegration c.hermgauss c.cholesky c.method c.points c.covariance := by
  unfold mmlIntegration
  rw [h]
  rfl

theorem newAdam_ok (lr : ℝ) (a : Unit) : (∃ _v : FitWorld S E X d, (if lr < 0 then Except.error PyErr.valueError else .ok ()) = .ok a) →
    ¬ lr < 0 := by
  rintro ⟨-, h⟩ hl
  rw [if_pos hl] at h
  simp at h

theorem mml_refused (c : MmlCall S d) (w₀ : FitWorld S E X d) (h : Refused w₀.trainData (AlgorithmCall.mml c : AlgorithmCall S E X d)) :
    FailsWith (fun w => w = w₀) (SameModel w₀) (mmlFitCall c : Crash (FitWorld S E X d) Unit) := by
  refine failsWith_bind (storeData_triple w₀ c.data) fun _ => ?_
  refine failsWith_bind (keep_stmt w₀ _ _ fun w h => h) fun _ => ?_
  refine keep_eval w₀ _ _ fun n => ?_
  refine keep_eval w₀ _ _ fun cov => ?_
  refine failsWith_bind (keep_stmt w₀ _ _ fun w h => h) fun _ => ?_
  refine keep_eval w₀ _ _ fun u => ?_
  refine keep_eval w₀ _ _ fun pts => ?_
  refine failsWith_false ?_
  rintro w ⟨-, ⟨⟨⟨⟨h0, -, h1⟩, -, h2⟩, h3⟩, -, h4⟩⟩
  have h3 := newAdam_ok c.lr u h3
  rw [mmlIntegration_points c n h1] at h4
  rcases h with h | ⟨h, h'⟩ | ⟨m, hm, h⟩ | h | ⟨e, he⟩
  · exact h0 h
  · rw [h] at h1; simp [mmlPoints, h'] at h1
  · rw [hm] at h2; simp [mmlCovariance, h] at h2
  · exact h3 h
  · rw [he] at h4; simp at h4

theorem jml_refused (c : JmlCall S X) (w₀ : FitWorld S E X d) (h : Refused w₀.trainData (AlgorithmCall.jml c : AlgorithmCall S E X d)) :
    FailsWith (fun w => w = w₀) (SameModel w₀) (jmlFitCall c : Crash (FitWorld S E X d) Unit) := by
  refine failsWith_bind (storeData_triple w₀ c.data) fun _ => ?_
  refine failsWith_bind (keep_stmt w₀ _ _ fun w h => h) fun _ => ?_
  refine keep_eval w₀ _ _ fun x => ?_
  refine failsWith_bind (keep_stmt w₀ _ _ fun w h => h) fun _ => ?_
  refine keep_eval w₀ _ _ fun u => ?_
  refine keep_eval w₀ _ _ fun bs => ?_
  refine failsWith_false ?_
  rintro w ⟨-, ⟨⟨h0, -, h1⟩, h2⟩, -, h3⟩
  have h2 := newAdam_ok c.lr u h2
  rcases h with h | ⟨e, h⟩ | h | ⟨e, h⟩
  · exact h0 h
  · rw [h] at h1; simp at h1
  · exact h2 h
  · rw [h] at h3; simp at h3

/-- A statement under an `if`. -/
theorem keep_ite (w₀ : FitWorld S E X d) (Z : Prop) (b : Bool) (f : FitWorld S E X d → FitWorld S E X d)
    (h : ∀ w, SameModel w₀ w → SameModel w₀ (f w)) :
    Triple (fun w => SameModel w₀ w ∧ Z) (SameModel w₀) (fun _ w => SameModel w₀ w ∧ Z)
      (stmtIf b f) := by
  cases b
  · exact triple_pure () (fun w h => h.1) fun w h => h
  · exact keep_stmt w₀ Z f h

theorem ae_refused (c : AeCall S E X) (w₀ : FitWorld S E X d) (h : Refused w₀.trainData (AlgorithmCall.ae c : AlgorithmCall S E X d)) :
    FailsWith (fun w => w = w₀) (SameModel w₀) (aeFitCall c : Crash (FitWorld S E X d) Unit) := by
  refine failsWith_bind (storeData_triple w₀ c.data) fun _ => ?_
  refine failsWith_bind (keep_stmt w₀ _ _ fun w h => h) fun _ => ?_
  refine failsWith_bind (keep_stmt w₀ _ _ fun w h => h) fun _ => ?_
  refine failsWith_bind (keep_ite w₀ _ _ _ fun w h => h) fun _ => ?_
  refine failsWith_bind (keep_ite w₀ _ _ _ fun w h => h) fun _ => ?_
  refine failsWith_bind (keep_stmt w₀ _ _ fun w h => h) fun _ => ?_
  refine keep_eval w₀ _ _ fun v => ?_
  refine keep_eval w₀ _ _ fun bs => ?_
  refine keep_eval w₀ _ _ fun u => ?_
  refine failsWith_false ?_
  rintro w ⟨-, ⟨⟨h0, -, h1⟩, -, h2⟩, h3⟩
  have h3 := newAdam_ok c.lr u h3
  rcases h with h | h | ⟨e, h⟩ | h
  · exact h0 h
  · rw [if_pos h] at h1; simp at h1
  · rw [h] at h2; simp at h2
  · exact h3 h

theorem attempt_of_fails (c : AlgorithmCall S E X d) (k : Option ℕ) (w : FitWorld S E X d) (Q : FitWorld S E X d → Prop)
    (h : FailsWith (fun v => v = w) Q c.program) : (attempt c k w).1 ≠ none ∧ Q (attempt c k w).2 := by
  obtain ⟨⟨e, he⟩, hq⟩ := h k w rfl
  have hm : modelFit c k w = (.error e, (c.program k w).2) := by
    show Crash.bind _ _ k w = _
    unfold Crash.bind
    rcases hp : c.program k w with ⟨r, v⟩
    rw [hp] at he
    obtain rfl : r = .error e := he
    rfl
  unfold attempt
  rw [hm]
  exact ⟨by simp, hq⟩

/-- C120: a call that is refused because of its arguments does not complete and leaves the model as it was: parameters,
mode, stored basis and the algorithm it points to. -/
theorem C120_refused (c : AlgorithmCall S E X d) (k : Option ℕ) (w : FitWorld S E X d) (h : Refused w.trainData c) :
    (attempt c k w).1 ≠ none ∧ SameModel w (attempt c k w).2 := by
  refine attempt_of_fails c k w _ ?_
  cases c with
  | mml c => exact mml_refused c w h
  | jml c => exact jml_refused c w h
  | ae c => exact ae_refused c w h

/-! ## Every crash point -/

/-- The algorithm the model points to is the same, and the stored data is described by `D`. -/
def Kept (w₀ : FitWorld S E X d) (D : Option DataTensor → Prop) (w : FitWorld S E X d) : Prop :=
  w.attached = w₀.attached ∧ D w.trainData

theorem ite_some {U : Type} {p : Prop} [Decidable p] {a t : U} {o : Option U} (h : (if p then some a else o) = some t) :
    a = t ∨ o = some t := by
  split at h
  · exact .inl (Option.some.inj h)
  · exact .inr h

theorem trainIteration_facts {U : Type} {T : Trainer U} {c : TrainConfig} {b : List ℕ} {st st' : LoopState U}
    (h : trainIteration T c b st = .ok st') :
    st'.params = T.update st.history.length b st.sched.lr st.params ∧ st'.history.length = st.history.length + 1 ∧
    (st'.bestState = st.bestState ∨ st'.bestState = some st'.params) := by
  unfold trainIteration at h
  split at h
  · simp at h
  · rename_i loss _
    obtain rfl := Except.ok.inj h
    refine ⟨rfl, by simp, ?_⟩
    by_cases hb : improves loss st.bestLoss = true
    · right; simp [hb]
    · left; simp [hb]

/-- What is known of the local variables of the loop. -/
def LoopOK {U : Type} (update : ℕ → List ℕ → ℝ → U → U) (s : U) (st : LoopState U) : Prop :=
  AfterUpdates update s st.history.length st.params ∧ ∀ t, st.bestState = some t → ∃ n, AfterUpdates update s n t

theorem loopOK_step {U : Type} {T : Trainer U} {c : TrainConfig} {b : List ℕ} {st st' : LoopState U} {s : U}
    (h : trainIteration T c b st = .ok st') (hs : LoopOK T.update s st) : LoopOK T.update s st' := by
  obtain ⟨h1, h2, h3⟩ := trainIteration_facts h
  have hp : AfterUpdates T.update s st'.history.length st'.params := by
    rw [h1, h2]; exact .next _ _ hs.1
  refine ⟨hp, fun t ht => ?_⟩
  rcases h3 with h3 | h3
  · rw [h3] at ht; exact hs.2 t ht
  · rw [h3] at ht
    obtain rfl := Option.some.inj ht
    exact ⟨_, hp⟩

theorem loopOK_final {U : Type} {update : ℕ → List ℕ → ℝ → U → U} {s : U} {st : LoopState U} (h : LoopOK update s st) :
    ∃ n, AfterUpdates update s n st.final := by
  unfold LoopState.final
  cases hb : st.bestState with
  | none => exact ⟨_, h.1⟩
  | some t => exact h.2 t hb

theorem loopOK_start {U : Type} (update : ℕ → List ℕ → ℝ → U → U) (lr : ℝ) (s : U) : LoopOK update s (LoopState.start lr s) :=
  ⟨.start, fun t ht => by simp [LoopState.start] at ht⟩

theorem mapError_ok {ε ε' α : Type} {f : ε → ε'} {x : Except ε α} {a : α} (h : x.mapError f = .ok a) : x = .ok a := by
  cases x with
  | error e => simp [Except.mapError] at h
  | ok b => simpa [Except.mapError] using h

theorem mmlLoop_triple (w₀ : FitWorld S E X d) (D : Option DataTensor → Prop) (T : Trainer S) (c : TrainConfig) (b : List ℕ) (s : S) (n : ℕ)
    (st : LoopState S) (hst : LoopOK T.update s st) :
    Triple (fun w => Kept w₀ D w ∧ w.params = st.params) (fun w => Kept w₀ D w ∧ ∃ n, AfterUpdates T.update s n w.params)
      (fun st' w => Kept w₀ D w ∧ LoopOK T.update s st' ∧ w.params = st'.params)
      (mmlLoop T c b n st : Crash (FitWorld S E X d) _) := by
  induction n generalizing st with
  | zero =>
    refine triple_pure _ (fun w hw => ⟨hw.1, ?_⟩) fun w hw => ⟨hw.1, hst, hw.2⟩
    rw [hw.2]; exact ⟨_, hst.1⟩
  | succ n ih =>
    have q0 : ∀ w : FitWorld S E X d, Kept w₀ D w ∧ w.params = st.params → Kept w₀ D w ∧ ∃ n, AfterUpdates T.update s n w.params :=
      fun w hw => ⟨hw.1, by rw [hw.2]; exact ⟨_, hst.1⟩⟩
    refine triple_bind (R := fun _ w => Kept w₀ D w ∧ w.params = st.params) (triple_stmt _ q0 q0 fun w hw => hw) fun _ => ?_
    refine triple_bind (R := fun st' w => (Kept w₀ D w ∧ w.params = st.params) ∧ LoopOK T.update s st') (triple_eval _ q0
      fun w a hw he => ⟨hw, loopOK_step (mapError_ok he) hst⟩) fun st' => ?_
    refine triple_pull fun hst' => ?_
    have q1 : ∀ w : FitWorld S E X d, Kept w₀ D w ∧ w.params = st'.params → Kept w₀ D w ∧ ∃ n, AfterUpdates T.update s n w.params :=
      fun w hw => ⟨hw.1, by rw [hw.2]; exact ⟨_, hst'.1⟩⟩
    refine triple_bind (R := fun _ w => Kept w₀ D w ∧ w.params = st'.params)
      (triple_stmt _ q0 (fun w hw => q1 { w with params := st'.params } ⟨hw.1, rfl⟩) fun w hw => ⟨hw.1, rfl⟩) fun _ => ?_
    refine triple_bind (R := fun _ w => Kept w₀ D w ∧ w.params = st'.params)
      (triple_stmt _ q1 q1 fun w hw => hw) fun _ => ?_
    split
    · exact triple_pure _ q1 fun w hw => ⟨hw.1, hst', hw.2⟩
    · exact ih st' hst'

theorem store_triple (w₀ : FitWorld S E X d) (data : DataTensor) (Q : FitWorld S E X d → Prop) (hQ₀ : Q w₀)
    (hQ : ∀ w, Kept w₀ (Appended w₀.trainData data) w ∧ w.params = w₀.params → Q w) :
    Triple (fun w => w = w₀) Q (fun _ w => Kept w₀ (Appended w₀.trainData data) w ∧ w.params = w₀.params)
      (storeData data : Crash (FitWorld S E X d) Unit) := by
  refine triple_bind (R := fun x w => w = w₀ ∧ appendData w₀.trainData data = .ok x) (triple_eval _ ?_ ?_) fun x => ?_
  · rintro w rfl; exact hQ₀
  · rintro w a rfl h; exact ⟨rfl, h⟩
  · refine triple_stmt _ ?_ ?_ ?_
    · rintro w ⟨rfl, -⟩; exact hQ₀
    · rintro w ⟨rfl, h⟩; exact hQ _ ⟨⟨rfl, appendData_appended h⟩, rfl⟩
    · rintro w ⟨rfl, h⟩; exact ⟨⟨rfl, appendData_appended h⟩, rfl⟩

/-- Statements and expressions before the training loop. -/
theorem before_stmt {w₀ : FitWorld S E X d} {D : Option DataTensor → Prop} {Q : FitWorld S E X d → Prop}
    (hQ : ∀ w, Kept w₀ D w ∧ w.params = w₀.params → Q w) (f : FitWorld S E X d → FitWorld S E X d)
    (h : ∀ w, Kept w₀ D w ∧ w.params = w₀.params → Kept w₀ D (f w) ∧ (f w).params = w₀.params) :
    Triple (fun w => Kept w₀ D w ∧ w.params = w₀.params) Q (fun _ w => Kept w₀ D w ∧ w.params = w₀.params) (stmt f) :=
  triple_stmt f hQ (fun w hw => hQ _ (h w hw)) h

theorem before_stmtIf {w₀ : FitWorld S E X d} {D : Option DataTensor → Prop} {Q : FitWorld S E X d → Prop}
    (hQ : ∀ w, Kept w₀ D w ∧ w.params = w₀.params → Q w) (b : Bool) (f : FitWorld S E X d → FitWorld S E X d)
    (h : ∀ w, Kept w₀ D w ∧ w.params = w₀.params → Kept w₀ D (f w) ∧ (f w).params = w₀.params) :
    Triple (fun w => Kept w₀ D w ∧ w.params = w₀.params) Q (fun _ w => Kept w₀ D w ∧ w.params = w₀.params) (stmtIf b f) := by
  cases b
  · exact triple_pure () hQ fun w hw => hw
  · exact before_stmt hQ f h

theorem before_eval {α : Type} {w₀ : FitWorld S E X d} {D : Option DataTensor → Prop} {Q : FitWorld S E X d → Prop}
    (hQ : ∀ w, Kept w₀ D w ∧ w.params = w₀.params → Q w) (f : FitWorld S E X d → Except PyErr α) :
    Triple (fun w => Kept w₀ D w ∧ w.params = w₀.params) Q (fun _ w => Kept w₀ D w ∧ w.params = w₀.params) (eval f) :=
  triple_eval f hQ fun _ _ hw _ => hw

theorem mml_triple (c : MmlCall S d) (w₀ : FitWorld S E X d) :
    Triple (fun w => w = w₀) (fun w => Kept w₀ (OldOr w₀.trainData c.data) w ∧ ∃ n, ParamsAfter (AlgorithmCall.mml c : AlgorithmCall S E X d) w₀.params n w.params)
      (fun _ w => Kept w₀ (Appended w₀.trainData c.data) w ∧ w.training = false ∧ (c.isSpline = true → w.basis = none)) (mmlFitCall c : Crash (FitWorld S E X d) Unit) := by
  have hQ : ∀ w : FitWorld S E X d, Kept w₀ (Appended w₀.trainData c.data) w ∧ w.params = w₀.params →
      Kept w₀ (OldOr w₀.trainData c.data) w ∧ ∃ n, ParamsAfter (AlgorithmCall.mml c : AlgorithmCall S E X d) w₀.params n w.params :=
    fun w hw => ⟨⟨hw.1.1, .inr hw.1.2⟩, 0, ([], []), by rw [hw.2]; exact .start⟩
  have hQ₀ : Kept w₀ (OldOr w₀.trainData c.data) w₀ ∧ ∃ n, ParamsAfter (AlgorithmCall.mml c : AlgorithmCall S E X d) w₀.params n w₀.params :=
    ⟨⟨rfl, .inl rfl⟩, 0, ([], []), .start⟩
  refine triple_bind (store_triple w₀ c.data _ hQ₀ hQ) fun _ => ?_
  refine triple_bind (before_stmt hQ _ fun w h => h) fun _ => ?_
  refine triple_bind (before_eval hQ _) fun n => ?_
  refine triple_bind (before_eval hQ _) fun cov => ?_
  refine triple_bind (before_stmt hQ _ fun w h => h) fun _ => ?_
  refine triple_bind (before_eval hQ _) fun u => ?_
  refine triple_bind (before_eval hQ _) fun pts => ?_
  refine triple_bind (before_stmtIf hQ _ _ fun w h => h) fun _ => ?_
  refine triple_bind (R := fun start w => (Kept w₀ (Appended w₀.trainData c.data) w ∧ w.params = start.params) ∧
    start = LoopState.start c.lr w₀.params) (triple_eval _ hQ ?_) fun start => ?_
  · rintro w a hw he
    obtain rfl := Except.ok.inj he
    exact ⟨⟨hw.1, rfl⟩, by rw [hw.2]⟩
  have hloop := fun st hst => triple_weaken (mmlLoop_triple w₀ (Appended w₀.trainData c.data) (c.trainer pts) c.config (List.range c.data.rows.length)
    w₀.params c.maxEpochs st hst) (fun w h => h) (fun w ⟨h, n, hn⟩ => (⟨⟨h.1, .inr h.2⟩, n, pts, hn⟩ :
      Kept w₀ (OldOr w₀.trainData c.data) w ∧ ∃ n, ParamsAfter (AlgorithmCall.mml c : AlgorithmCall S E X d) w₀.params n w.params)) fun st' w h => h
  refine triple_bind (R := fun st w => Kept w₀ (Appended w₀.trainData c.data) w ∧ LoopOK (c.trainer pts).update w₀.params st ∧ w.params = st.params)
    (fun k w hw => hloop start (by rw [hw.2]; exact loopOK_start _ _ _) k w hw.1) fun st => ?_
  have q2 : ∀ w : FitWorld S E X d, Kept w₀ (Appended w₀.trainData c.data) w ∧ LoopOK (c.trainer pts).update w₀.params st ∧ w.params = st.params →
      Kept w₀ (OldOr w₀.trainData c.data) w ∧ ∃ n, ParamsAfter (AlgorithmCall.mml c : AlgorithmCall S E X d) w₀.params n w.params :=
    fun w hw => ⟨⟨hw.1.1, .inr hw.1.2⟩, _, pts, by rw [hw.2.2]; exact hw.2.1.1⟩
  refine triple_bind (R := fun _ w => (Kept w₀ (Appended w₀.trainData c.data) w ∧ LoopOK (c.trainer pts).update w₀.params st ∧ w.params = st.params) ∧
    (c.isSpline = true → w.basis = none)) ?_ fun _ => ?_
  · by_cases hs : c.isSpline = true
    · rw [hs]
      exact triple_stmt _ q2 q2 fun w hw => ⟨hw, fun _ => rfl⟩
    · rw [Bool.not_eq_true] at hs
      rw [hs]
      exact triple_pure _ q2 fun w hw => ⟨hw, fun h => by simp at h⟩
  have q3 : ∀ w : FitWorld S E X d, (Kept w₀ (Appended w₀.trainData c.data) w ∧ (∃ n, AfterUpdates (c.trainer pts).update w₀.params n w.params) ∧ (c.isSpline = true → w.basis = none)) →
      Kept w₀ (OldOr w₀.trainData c.data) w ∧ ∃ n, ParamsAfter (AlgorithmCall.mml c : AlgorithmCall S E X d) w₀.params n w.params :=
    fun w hw => ⟨⟨hw.1.1, .inr hw.1.2⟩, hw.2.1.imp fun _ h => ⟨pts, h⟩⟩
  refine triple_bind (R := fun _ w => Kept w₀ (Appended w₀.trainData c.data) w ∧ (∃ n, AfterUpdates (c.trainer pts).update w₀.params n w.params) ∧ (c.isSpline = true → w.basis = none))
    (triple_stmt _ (fun w hw => q2 w hw.1) (fun w hw => q3 _ ⟨hw.1.1, loopOK_final hw.1.2.1, hw.2⟩)
      fun w hw => ⟨hw.1.1, loopOK_final hw.1.2.1, hw.2⟩) fun _ => ?_
  exact triple_stmt _ q3 q3 fun w hw => ⟨hw.1, rfl, hw.2.2⟩

theorem jmlStep_triple (w₀ : FitWorld S E X d) (D : Option DataTensor → Prop) (T : Trainer (S × X)) (c : TrainConfig) (b : List ℕ) (s : S × X)
    (st : LoopState (S × X)) (hst : LoopOK T.update s st) :
    Triple (fun w => Kept w₀ D w ∧ w.params = st.params.1)
      (fun w => Kept w₀ D w ∧ ∃ n x, AfterUpdates T.update s n (w.params, x))
      (fun st' w => (Kept w₀ D w ∧ w.params = st'.params.1) ∧ LoopOK T.update s st')
      (jmlStep T c b st : Crash (FitWorld S E X d) _) := by
  have q0 : ∀ w : FitWorld S E X d, Kept w₀ D w ∧ w.params = st.params.1 →
      Kept w₀ D w ∧ ∃ n x, AfterUpdates T.update s n (w.params, x) :=
    fun w hw => ⟨hw.1, by rw [hw.2]; exact ⟨_, _, hst.1⟩⟩
  refine triple_bind (R := fun st' w => (Kept w₀ D w ∧ w.params = st.params.1) ∧ LoopOK T.update s st') (triple_eval _ q0
    fun w a hw he => ⟨hw, loopOK_step (mapError_ok he) hst⟩) fun st' => ?_
  refine triple_pull fun hst' => ?_
  have q1 : ∀ w : FitWorld S E X d, Kept w₀ D w ∧ w.params = st'.params.1 →
      Kept w₀ D w ∧ ∃ n x, AfterUpdates T.update s n (w.params, x) :=
    fun w hw => ⟨hw.1, by rw [hw.2]; exact ⟨_, _, hst'.1⟩⟩
  refine triple_bind (R := fun _ w => Kept w₀ D w ∧ w.params = st'.params.1)
    (triple_stmt _ q0 (fun w hw => q1 { w with params := st'.params.1, scores := some st'.params.2 } ⟨hw.1, rfl⟩)
      fun w hw => ⟨hw.1, rfl⟩) fun _ => ?_
  refine triple_bind (R := fun _ w => Kept w₀ D w ∧ w.params = st'.params.1)
    (triple_stmt _ q1 q1 fun w hw => hw) fun _ => ?_
  exact triple_pure _ q1 fun w hw => ⟨hw, hst'⟩

theorem jmlBatchLoop_triple (w₀ : FitWorld S E X d) (D : Option DataTensor → Prop) (T : Trainer (S × X)) (c : TrainConfig) (s : S × X)
    (bs : List (List ℕ)) (st : LoopState (S × X)) (hst : LoopOK T.update s st) :
    Triple (fun w => Kept w₀ D w ∧ w.params = st.params.1)
      (fun w => Kept w₀ D w ∧ ∃ n x, AfterUpdates T.update s n (w.params, x))
      (fun st' w => (Kept w₀ D w ∧ w.params = st'.params.1) ∧ LoopOK T.update s st')
      (jmlBatchLoop T c bs st : Crash (FitWorld S E X d) _) := by
  induction bs generalizing st with
  | nil => exact triple_pure _ (fun w hw => ⟨hw.1, by rw [hw.2]; exact ⟨_, _, hst.1⟩⟩) fun w hw => ⟨hw, hst⟩
  | cons b bs ih =>
    refine triple_bind (jmlStep_triple w₀ D T c b s st hst) fun st' => ?_
    refine triple_pull fun hst' => ?_
    split
    · exact triple_pure _ (fun w hw => ⟨hw.1, by rw [hw.2]; exact ⟨_, _, hst'.1⟩⟩) fun w hw => ⟨hw, hst'⟩
    · exact ih st' hst'

theorem jmlLoop_triple (w₀ : FitWorld S E X d) (D : Option DataTensor → Prop) (T : Trainer (S × X)) (c : TrainConfig) (s : S × X)
    (bs : List (List ℕ)) (n : ℕ) (st : LoopState (S × X)) (hst : LoopOK T.update s st) :
    Triple (fun w => Kept w₀ D w ∧ w.params = st.params.1)
      (fun w => Kept w₀ D w ∧ ∃ n x, AfterUpdates T.update s n (w.params, x))
      (fun st' w => (Kept w₀ D w ∧ w.params = st'.params.1) ∧ LoopOK T.update s st')
      (jmlLoop T c bs n st : Crash (FitWorld S E X d) _) := by
  induction n generalizing st with
  | zero => exact triple_pure _ (fun w hw => ⟨hw.1, by rw [hw.2]; exact ⟨_, _, hst.1⟩⟩) fun w hw => ⟨hw, hst⟩
  | succ n ih =>
    refine triple_bind (jmlBatchLoop_triple w₀ D T c s bs st hst) fun st' => ?_
    refine triple_pull fun hst' => ?_
    split
    · exact triple_pure _ (fun w hw => ⟨hw.1, by rw [hw.2]; exact ⟨_, _, hst'.1⟩⟩) fun w hw => ⟨hw, hst'⟩
    · exact ih st' hst'

theorem jml_triple (c : JmlCall S X) (w₀ : FitWorld S E X d) :
    Triple (fun w => w = w₀) (fun w => Kept w₀ (OldOr w₀.trainData c.data) w ∧ ∃ n, ParamsAfter (AlgorithmCall.jml c : AlgorithmCall S E X d) w₀.params n w.params)
      (fun _ w => Kept w₀ (Appended w₀.trainData c.data) w ∧ w.training = false) (jmlFitCall c : Crash (FitWorld S E X d) Unit) := by
  have hQ : ∀ w : FitWorld S E X d, Kept w₀ (Appended w₀.trainData c.data) w ∧ w.params = w₀.params →
      Kept w₀ (OldOr w₀.trainData c.data) w ∧ ∃ n, ParamsAfter (AlgorithmCall.jml c : AlgorithmCall S E X d) w₀.params n w.params :=
    fun w hw => ⟨⟨hw.1.1, .inr hw.1.2⟩, 0, .inl ⟨rfl, hw.2⟩⟩
  have hQ₀ : Kept w₀ (OldOr w₀.trainData c.data) w₀ ∧ ∃ n, ParamsAfter (AlgorithmCall.jml c : AlgorithmCall S E X d) w₀.params n w₀.params :=
    ⟨⟨rfl, .inl rfl⟩, 0, .inl ⟨rfl, rfl⟩⟩
  refine triple_bind (store_triple w₀ c.data _ hQ₀ hQ) fun _ => ?_
  refine triple_bind (before_stmt hQ _ fun w h => h) fun _ => ?_
  refine triple_bind (before_eval hQ _) fun x => ?_
  refine triple_bind (before_stmt hQ _ fun w h => h) fun _ => ?_
  refine triple_bind (before_eval hQ _) fun _ => ?_
  refine triple_bind (before_eval hQ _) fun batches => ?_
  refine triple_bind (before_stmt hQ _ fun w h => h) fun _ => ?_
  refine triple_bind (R := fun start w => (Kept w₀ (Appended w₀.trainData c.data) w ∧ w.params = start.params.1) ∧
    LoopOK c.trainer.update (w₀.params, x) start) (triple_eval _ hQ ?_) fun start => ?_
  · rintro w a hw he
    obtain rfl := Except.ok.inj he
    exact ⟨⟨hw.1, rfl⟩, by rw [hw.2]; exact loopOK_start _ _ _⟩
  refine triple_pull fun hstart => ?_
  have hq : ∀ w : FitWorld S E X d, (Kept w₀ (Appended w₀.trainData c.data) w ∧ ∃ n x', AfterUpdates c.trainer.update (w₀.params, x) n (w.params, x')) →
      Kept w₀ (OldOr w₀.trainData c.data) w ∧ ∃ n, ParamsAfter (AlgorithmCall.jml c : AlgorithmCall S E X d) w₀.params n w.params :=
    fun w ⟨h, n, x', hn⟩ => ⟨⟨h.1, .inr h.2⟩, n, .inr ⟨x, x', hn⟩⟩
  refine triple_bind (triple_weaken (jmlLoop_triple w₀ (Appended w₀.trainData c.data) c.trainer c.config (w₀.params, x) batches c.maxEpochs start hstart)
    (fun w h => h) hq fun _ _ h => h) fun st => ?_
  refine triple_pull fun hst => ?_
  have q1 : ∀ w : FitWorld S E X d, Kept w₀ (Appended w₀.trainData c.data) w ∧ w.params = st.params.1 →
      Kept w₀ (OldOr w₀.trainData c.data) w ∧ ∃ n, ParamsAfter (AlgorithmCall.jml c : AlgorithmCall S E X d) w₀.params n w.params :=
    fun w hw => hq w ⟨hw.1, by rw [hw.2]; exact ⟨_, _, hst.1⟩⟩
  have q2 : ∀ w : FitWorld S E X d, Kept w₀ (Appended w₀.trainData c.data) w ∧ w.params = st.final.1 →
      Kept w₀ (OldOr w₀.trainData c.data) w ∧ ∃ n, ParamsAfter (AlgorithmCall.jml c : AlgorithmCall S E X d) w₀.params n w.params := by
    intro w hw
    obtain ⟨n, hn⟩ := loopOK_final hst
    exact hq w ⟨hw.1, n, st.final.2, by rw [hw.2]; exact hn⟩
  refine triple_bind (R := fun _ w => Kept w₀ (Appended w₀.trainData c.data) w ∧ w.params = st.params.1) (triple_stmt _ q1 q1 fun w hw => hw) fun _ => ?_
  refine triple_bind (R := fun _ w => Kept w₀ (Appended w₀.trainData c.data) w ∧ w.params = st.final.1)
    (triple_stmt _ q1 (fun w hw => q2 { w with params := st.final.1 } ⟨hw.1, rfl⟩) fun w hw => ⟨hw.1, rfl⟩) fun _ => ?_
  exact triple_stmt _ q2 q2 fun w hw => ⟨hw.1, rfl⟩

/-- What is known of the local variables of the loop of the autoencoder. -/
def AeOK {U : Type} (update : ℕ → List ℕ → ℝ → U → U) (s : U) (st : AEState U) : Prop :=
  AfterUpdates update s st.total st.params ∧ ∀ t, st.bestState = some t → ∃ n, AfterUpdates update s n t

theorem aeOK_final {U : Type} {update : ℕ → List ℕ → ℝ → U → U} {s : U} {st : AEState U} (h : AeOK update s st) :
    ∃ n, AfterUpdates update s n st.final := by
  unfold AEState.final
  cases hb : st.bestState with
  | none => exact ⟨_, h.1⟩
  | some t => exact h.2 t hb

theorem aeOK_step {U : Type} (T : Trainer U) (c : TrainConfig) (interval : ℕ) (b : List ℕ) (st : AEState U) {s : U}
    (hs : AeOK T.update s st) :
    match aeBatch T c interval b st with
    | .error r => AeOK T.update s r.2
    | .ok r => AeOK T.update s r.1 := by
  unfold aeBatch
  cases T.loss st.total b st.params with
  | error e => exact hs
  | ok loss =>
    cases loss with
    | none => exact hs
    | some loss =>
      have h1 : AfterUpdates T.update s (st.total + 1) (T.update st.total b st.sched.lr st.params) := .next _ _ hs.1
      dsimp only
      by_cases h0 : interval = 0
      · rw [if_pos h0]; exact ⟨h1, hs.2⟩
      · rw [if_neg h0]
        by_cases h2 : (st.total + 1) % interval = 0 ∧ st.total + 1 ≠ 1
        · rw [if_pos h2]
          refine ⟨h1, fun t ht => ?_⟩
          dsimp only at ht
          rcases ite_some ht with rfl | ht
          · exact ⟨_, h1⟩
          · exact hs.2 t ht
        · rw [if_neg h2]; exact ⟨h1, hs.2⟩

theorem aeBatchLoop_triple (w₀ : FitWorld S E X d) (D : Option DataTensor → Prop) (T : Trainer (S × E)) (c : TrainConfig) (interval : ℕ)
    (skip : Bool) (s : S × E) (bs : List (List ℕ)) (st : AEState (S × E)) (hst : AeOK T.update s st) :
    Triple (fun w => Kept w₀ D w ∧ w.params = st.params.1)
      (fun w => Kept w₀ D w ∧ ∃ n x, AfterUpdates T.update s n (w.params, x))
      (fun r w => (Kept w₀ D w ∧ w.params = r.1.params.1) ∧ AeOK T.update s r.1)
      (aeBatchLoop T c interval skip bs st : Crash (FitWorld S E X d) _) := by
  induction bs generalizing st with
  | nil => exact triple_pure _ (fun w hw => ⟨hw.1, by rw [hw.2]; exact ⟨_, _, hst.1⟩⟩) fun w hw => ⟨hw, hst⟩
  | cons b bs ih =>
    unfold aeBatchLoop
    by_cases hb : b.length < 4 ∧ skip = true
    · rw [if_pos hb]; exact ih st hst
    · rw [if_neg hb]
      have hstep := aeOK_step T c interval b st hst
      have q0 : ∀ w : FitWorld S E X d, Kept w₀ D w ∧ w.params = st.params.1 →
          Kept w₀ D w ∧ ∃ n x, AfterUpdates T.update s n (w.params, x) :=
        fun w hw => ⟨hw.1, by rw [hw.2]; exact ⟨_, _, hst.1⟩⟩
      rcases hr : aeBatch T c interval b st with ⟨e, st'⟩ | r
      · rw [hr] at hstep
        have q1 : ∀ w : FitWorld S E X d, Kept w₀ D w ∧ w.params = st'.params.1 →
            Kept w₀ D w ∧ ∃ n x, AfterUpdates T.update s n (w.params, x) :=
          fun w hw => ⟨hw.1, by rw [hw.2]; exact ⟨_, _, hstep.1⟩⟩
        refine triple_bind (R := fun _ w => Kept w₀ D w ∧ w.params = st'.params.1)
          (triple_stmt _ q0 (fun w hw => q1 { w with params := st'.params.1, encoder := some (st'.params.2, true) } ⟨hw.1, rfl⟩)
            fun w hw => ⟨hw.1, rfl⟩) fun _ => ?_
        exact triple_eval _ q1 fun w a hw he => by simp at he
      · rw [hr] at hstep
        have q1 : ∀ w : FitWorld S E X d, Kept w₀ D w ∧ w.params = r.1.params.1 →
            Kept w₀ D w ∧ ∃ n x, AfterUpdates T.update s n (w.params, x) :=
          fun w hw => ⟨hw.1, by rw [hw.2]; exact ⟨_, _, hstep.1⟩⟩
        refine triple_bind (R := fun _ w => Kept w₀ D w ∧ w.params = r.1.params.1)
          (triple_stmt _ q0 (fun w hw => q1 { w with params := r.1.params.1, encoder := some (r.1.params.2, true) } ⟨hw.1, rfl⟩)
            fun w hw => ⟨hw.1, rfl⟩) fun _ => ?_
        refine triple_bind (R := fun _ w => Kept w₀ D w ∧ w.params = r.1.params.1) (triple_stmt _ q1 q1 fun w hw => hw) fun _ => ?_
        split
        · exact triple_pure _ q1 fun w hw => ⟨hw, hstep⟩
        · exact triple_pure _ q1 fun w hw => ⟨hw, hstep⟩
        · exact ih r.1 hstep

theorem aeLoop_triple (w₀ : FitWorld S E X d) (D : Option DataTensor → Prop) (T : Trainer (S × E)) (c : TrainConfig) (interval : ℕ)
    (skip : Bool) (s : S × E) (batches : ℕ → List (List ℕ)) (n e : ℕ) (st : AEState (S × E)) (hst : AeOK T.update s st) :
    Triple (fun w => Kept w₀ D w ∧ w.params = st.params.1)
      (fun w => Kept w₀ D w ∧ ∃ n x, AfterUpdates T.update s n (w.params, x))
      (fun st' w => (Kept w₀ D w ∧ w.params = st'.params.1) ∧ AeOK T.update s st')
      (aeLoop T c interval skip batches n e st : Crash (FitWorld S E X d) _) := by
  induction n generalizing e st with
  | zero => exact triple_pure _ (fun w hw => ⟨hw.1, by rw [hw.2]; exact ⟨_, _, hst.1⟩⟩) fun w hw => ⟨hw, hst⟩
  | succ n ih =>
    have q0 : ∀ w : FitWorld S E X d, Kept w₀ D w ∧ w.params = st.params.1 →
        Kept w₀ D w ∧ ∃ n x, AfterUpdates T.update s n (w.params, x) :=
      fun w hw => ⟨hw.1, by rw [hw.2]; exact ⟨_, _, hst.1⟩⟩
    refine triple_bind (R := fun _ w => Kept w₀ D w ∧ w.params = st.params.1) (triple_stmt _ q0 q0 fun w hw => hw) fun _ => ?_
    refine triple_bind (R := fun _ w => Kept w₀ D w ∧ w.params = st.params.1) (triple_stmt _ q0 q0 fun w hw => hw) fun _ => ?_
    refine triple_bind (aeBatchLoop_triple w₀ D T c interval skip s (batches e) st hst) fun r => ?_
    refine triple_pull fun hr => ?_
    have q1 : ∀ w : FitWorld S E X d, Kept w₀ D w ∧ w.params = r.1.params.1 →
        Kept w₀ D w ∧ ∃ n x, AfterUpdates T.update s n (w.params, x) :=
      fun w hw => ⟨hw.1, by rw [hw.2]; exact ⟨_, _, hr.1⟩⟩
    split
    · exact triple_pure _ q1 fun w hw => ⟨hw, hr⟩
    · split
      · exact triple_eval _ q1 fun w a hw he => by simp at he
      · split
        · exact triple_pure _ q1 fun w hw => ⟨hw, hr⟩
        · exact ih (e + 1) r.1 hr

theorem ae_triple (c : AeCall S E X) (w₀ : FitWorld S E X d) :
    Triple (fun w => w = w₀) (fun w => Kept w₀ (OldOr w₀.trainData c.data) w ∧ ∃ n, ParamsAfter (AlgorithmCall.ae c : AlgorithmCall S E X d) w₀.params n w.params)
      (fun _ w => Kept w₀ (Appended w₀.trainData c.data) w ∧ w.training = false) (aeFitCall c : Crash (FitWorld S E X d) Unit) := by
  have hq : ∀ w : FitWorld S E X d, (Kept w₀ (Appended w₀.trainData c.data) w ∧ ∃ n x', AfterUpdates c.trainer.update (w₀.params, c.fresh) n (w.params, x')) →
      Kept w₀ (OldOr w₀.trainData c.data) w ∧ ∃ n, ParamsAfter (AlgorithmCall.ae c : AlgorithmCall S E X d) w₀.params n w.params :=
    fun w ⟨h, n, x', hn⟩ => ⟨⟨h.1, .inr h.2⟩, n, x', hn⟩
  have hQ₀ : Kept w₀ (OldOr w₀.trainData c.data) w₀ ∧ ∃ n, ParamsAfter (AlgorithmCall.ae c : AlgorithmCall S E X d) w₀.params n w₀.params :=
    ⟨⟨rfl, .inl rfl⟩, 0, c.fresh, .start⟩
  have hQ : ∀ w : FitWorld S E X d, Kept w₀ (Appended w₀.trainData c.data) w ∧ w.params = w₀.params →
      Kept w₀ (OldOr w₀.trainData c.data) w ∧ ∃ n, ParamsAfter (AlgorithmCall.ae c : AlgorithmCall S E X d) w₀.params n w.params :=
    fun w hw => hq w ⟨hw.1, 0, c.fresh, by rw [hw.2]; exact .start⟩
  refine triple_bind (store_triple w₀ c.data _ hQ₀ hQ) fun _ => ?_
  refine triple_bind (before_stmt hQ _ fun w h => h) fun _ => ?_
  refine triple_bind (before_stmt hQ _ fun w h => h) fun _ => ?_
  refine triple_bind (before_stmtIf hQ _ _ fun w h => h) fun _ => ?_
  refine triple_bind (before_stmtIf hQ _ _ fun w h => h) fun _ => ?_
  refine triple_bind (before_stmt hQ _ fun w h => h) fun _ => ?_
  refine triple_bind (before_eval hQ _) fun _ => ?_
  refine triple_bind (before_eval hQ _) fun batches => ?_
  refine triple_bind (before_eval hQ _) fun _ => ?_
  refine triple_bind (R := fun start w => (Kept w₀ (Appended w₀.trainData c.data) w ∧ w.params = start.params.1) ∧
    AeOK c.trainer.update (w₀.params, c.fresh) start) (triple_eval _ hQ ?_) fun start => ?_
  · rintro w a hw he
    obtain rfl := Except.ok.inj he
    refine ⟨⟨hw.1, rfl⟩, ?_⟩
    rw [hw.2]
    exact ⟨.start, fun t ht => by simp [AEState.start] at ht⟩
  refine triple_pull fun hstart => ?_
  have q0 : ∀ w : FitWorld S E X d, Kept w₀ (Appended w₀.trainData c.data) w ∧ w.params = start.params.1 →
      Kept w₀ (OldOr w₀.trainData c.data) w ∧ ∃ n, ParamsAfter (AlgorithmCall.ae c : AlgorithmCall S E X d) w₀.params n w.params :=
    fun w hw => hq w ⟨hw.1, by rw [hw.2]; exact ⟨_, _, hstart.1⟩⟩
  refine triple_bind (R := fun _ w => Kept w₀ (Appended w₀.trainData c.data) w ∧ w.params = start.params.1) (triple_eval _ q0 fun w _ hw _ => hw) fun skip => ?_
  refine triple_bind (triple_weaken (aeLoop_triple w₀ (Appended w₀.trainData c.data) c.trainer c.config c.interval skip (w₀.params, c.fresh) batches
    c.maxEpochs 0 start hstart) (fun w h => h) hq fun _ _ h => h) fun st => ?_
  refine triple_pull fun hst => ?_
  have q1 : ∀ w : FitWorld S E X d, Kept w₀ (Appended w₀.trainData c.data) w ∧ w.params = st.params.1 →
      Kept w₀ (OldOr w₀.trainData c.data) w ∧ ∃ n, ParamsAfter (AlgorithmCall.ae c : AlgorithmCall S E X d) w₀.params n w.params :=
    fun w hw => hq w ⟨hw.1, by rw [hw.2]; exact ⟨_, _, hst.1⟩⟩
  have q2 : ∀ w : FitWorld S E X d, Kept w₀ (Appended w₀.trainData c.data) w ∧ w.params = st.final.1 →
      Kept w₀ (OldOr w₀.trainData c.data) w ∧ ∃ n, ParamsAfter (AlgorithmCall.ae c : AlgorithmCall S E X d) w₀.params n w.params := by
    intro w hw
    obtain ⟨n, hn⟩ := aeOK_final hst
    exact hq w ⟨hw.1, n, st.final.2, by rw [hw.2]; exact hn⟩
  refine triple_bind (R := fun _ w => Kept w₀ (Appended w₀.trainData c.data) w ∧ w.params = st.final.1)
    (triple_stmt _ q1 (fun w hw => q2 { w with params := st.final.1 } ⟨hw.1, rfl⟩) fun w hw => ⟨hw.1, rfl⟩) fun _ => ?_
  refine triple_bind (R := fun _ w => Kept w₀ (Appended w₀.trainData c.data) w ∧ w.params = st.final.1) (triple_stmt _ q2 q2 fun w hw => hw) fun _ => ?_
  refine triple_bind (R := fun _ w => Kept w₀ (Appended w₀.trainData c.data) w ∧ w.params = st.final.1) (triple_stmt _ q2 q2 fun w hw => hw) fun _ => ?_
  refine triple_bind (R := fun _ w => (Kept w₀ (Appended w₀.trainData c.data) w ∧ w.params = st.final.1) ∧ w.training = false)
    (triple_stmt _ q2 q2 fun w hw => ⟨hw, rfl⟩) fun _ => ?_
  exact triple_stmt _ (fun w hw => q2 w hw.1) (fun w hw => q2 w hw.1) fun w hw => ⟨hw.1.1, hw.2⟩

theorem attempt_triple (c : AlgorithmCall S E X d) (k : Option ℕ) (w : FitWorld S E X d) (Q R : FitWorld S E X d → Prop)
    (h : Triple (fun v => v = w) Q (fun _ v => R v) c.program) :
    Q { (attempt c k w).2 with attached := (c.program k w).2.attached } ∧
    ((attempt c k w).1 ≠ none → Q (attempt c k w).2) ∧
    ((attempt c k w).1 = none → R { (attempt c k w).2 with attached := (c.program k w).2.attached } ∧ (attempt c k w).2.attached = true) := by
  obtain ⟨hq, hr⟩ := h k w rfl
  rcases hp : c.program k w with ⟨r, v⟩
  rw [hp] at hq hr
  rcases r with e | ⟨a, k'⟩
  · have hm : attempt c k w = (some e, v) := by
      unfold attempt
      have : modelFit c k w = (.error e, v) := by
        show Crash.bind _ _ k w = _
        simp only [Crash.bind, hp]
      rw [this]
    rw [hm]
    exact ⟨hq, fun _ => hq, fun h => by simp at h⟩
  · rcases k' with _ | _ | k'
    · have hm : attempt c k w = (none, { v with attached := true }) := by
        unfold attempt
        have : modelFit c k w = (.ok ((), none), { v with attached := true }) := by
          show Crash.bind _ _ k w = _
          simp only [Crash.bind, hp]
          rfl
        rw [this]
      rw [hm]
      exact ⟨hq, fun h => by simp at h, fun _ => ⟨hr a none rfl, rfl⟩⟩
    · have hm : attempt c k w = (some .interrupted, v) := by
        unfold attempt
        have : modelFit c k w = (.error .interrupted, v) := by
          show Crash.bind _ _ k w = _
          simp only [Crash.bind, hp]
          rfl
        rw [this]
      rw [hm]
      exact ⟨hq, fun _ => hq, fun h => by simp at h⟩
    · have hm : attempt c k w = (none, { v with attached := true }) := by
        unfold attempt
        have : modelFit c k w = (.ok ((), some k'), { v with attached := true }) := by
          show Crash.bind _ _ k w = _
          simp only [Crash.bind, hp]
          rfl
        rw [this]
      rw [hm]
      exact ⟨hq, fun h => by simp at h, fun _ => ⟨hr a _ rfl, rfl⟩⟩

theorem program_triple (c : AlgorithmCall S E X d) (w₀ : FitWorld S E X d) :
    Triple (fun w => w = w₀) (fun w => Kept w₀ (OldOr w₀.trainData c.data) w ∧ ∃ n, ParamsAfter c w₀.params n w.params)
      (fun _ w => Kept w₀ (Appended w₀.trainData c.data) w ∧ w.training = false) c.program := by
  cases c with
  | mml c => exact triple_weaken (mml_triple c w₀) (fun w h => h) (fun w h => h) fun _ w h => ⟨h.1, h.2.1⟩
  | jml c => exact jml_triple c w₀
  | ae c => exact ae_triple c w₀

/-- C120: a call that does not complete, at whatever point it ended, leaves the model pointing to the algorithm it pointed to
before; the parameters are those after some number of the optimiser updates of the call; and the stored data is as before or
has the data of the call appended once. -/
theorem C120_crash (c : AlgorithmCall S E X d) (k : Option ℕ) (w : FitWorld S E X d) (h : (attempt c k w).1 ≠ none) :
    (attempt c k w).2.attached = w.attached ∧ (∃ n, ParamsAfter c w.params n (attempt c k w).2.params) ∧
    OldOr w.trainData c.data (attempt c k w).2.trainData := by
  obtain ⟨⟨h1, h2⟩, h3⟩ := (attempt_triple c k w _ _ (program_triple c w)).2.1 h
  exact ⟨h1, h3, h2⟩

/-- C120: a call that completes leaves the model pointing to the algorithm, in evaluation mode, with parameters after some number
of updates, and the data of the call stored once. -/
theorem C120_completed (c : AlgorithmCall S E X d) (k : Option ℕ) (w : FitWorld S E X d) (h : (attempt c k w).1 = none) :
    (attempt c k w).2.attached = true ∧ (attempt c k w).2.training = false ∧
    (∃ n, ParamsAfter c w.params n (attempt c k w).2.params) ∧ Appended w.trainData c.data (attempt c k w).2.trainData := by
  obtain ⟨h0, -, h2⟩ := attempt_triple c k w _ _ (program_triple c w)
  obtain ⟨⟨⟨h3, h4⟩, h5⟩, h6⟩ := h2 h
  exact ⟨h6, h5, h0.2, h4⟩

/-- What a completed call with an autoencoder leaves behind. -/
theorem ae_left (c : AeCall S E X) (w₀ : FitWorld S E X d) :
    Triple (fun w => w = w₀) (fun _ => True)
      (fun _ w => ∃ n x, AfterUpdates c.trainer.update (w₀.params, c.fresh) n (w.params, x) ∧ w.encoder = some (x, false) ∧
        w.scores = some (c.score x)) (aeFitCall c : Crash (FitWorld S E X d) Unit) := by
  have hQ : ∀ w : FitWorld S E X d, Kept w₀ (Appended w₀.trainData c.data) w ∧ w.params = w₀.params → True := fun _ _ => trivial
  refine triple_bind (store_triple w₀ c.data _ trivial hQ) fun _ => ?_
  refine triple_bind (before_stmt hQ _ fun w h => h) fun _ => ?_
  refine triple_bind (before_stmt hQ _ fun w h => h) fun _ => ?_
  refine triple_bind (before_stmtIf hQ _ _ fun w h => h) fun _ => ?_
  refine triple_bind (before_stmtIf hQ _ _ fun w h => h) fun _ => ?_
  refine triple_bind (before_stmt hQ _ fun w h => h) fun _ => ?_
  refine triple_bind (before_eval hQ _) fun _ => ?_
  refine triple_bind (before_eval hQ _) fun batches => ?_
  refine triple_bind (before_eval hQ _) fun _ => ?_
  refine triple_bind (R := fun start w => (Kept w₀ (Appended w₀.trainData c.data) w ∧ w.params = start.params.1) ∧
    AeOK c.trainer.update (w₀.params, c.fresh) start) (triple_eval _ hQ ?_) fun start => ?_
  · rintro w a hw he
    obtain rfl := Except.ok.inj he
    refine ⟨⟨hw.1, rfl⟩, ?_⟩
    rw [hw.2]
    exact ⟨.start, fun t ht => by simp [AEState.start] at ht⟩
  refine triple_pull fun hstart => ?_
  refine triple_bind (R := fun _ w => Kept w₀ (Appended w₀.trainData c.data) w ∧ w.params = start.params.1)
    (triple_eval _ (fun _ _ => trivial) fun w _ hw _ => hw) fun skip => ?_
  refine triple_bind (triple_weaken (aeLoop_triple w₀ (Appended w₀.trainData c.data) c.trainer c.config c.interval skip (w₀.params, c.fresh) batches
    c.maxEpochs 0 start hstart) (fun w h => h) (fun _ _ => trivial) fun _ _ h => h) fun st => ?_
  refine triple_pull fun hst => ?_
  obtain ⟨n, hn⟩ := aeOK_final hst
  refine triple_bind (R := fun _ w => w.params = st.final.1) (triple_stmt _ (fun _ _ => trivial) (fun _ _ => trivial) fun w hw => rfl) fun _ => ?_
  refine triple_bind (R := fun _ w => w.params = st.final.1) (triple_stmt _ (fun _ _ => trivial) (fun _ _ => trivial) fun w hw => hw) fun _ => ?_
  refine triple_bind (R := fun _ w => w.params = st.final.1 ∧ w.encoder = some (st.final.2, false))
    (triple_stmt _ (fun _ _ => trivial) (fun _ _ => trivial) fun w hw => ⟨hw, rfl⟩) fun _ => ?_
  refine triple_bind (R := fun _ w => w.params = st.final.1 ∧ w.encoder = some (st.final.2, false))
    (triple_stmt _ (fun _ _ => trivial) (fun _ _ => trivial) fun w hw => hw) fun _ => ?_
  refine triple_stmt _ (fun _ _ => trivial) (fun _ _ => trivial) fun w hw => ⟨n, st.final.2, ?_, hw.2, rfl⟩
  show AfterUpdates _ _ n (w.params, _)
  rw [hw.1]
  exact hn

/-- C120: a completed call with an autoencoder leaves an encoder in evaluation mode that was trained together with the parameters of
the model, and stores the scores this encoder gives. -/
theorem C120_encoder (c : AeCall S E X) (k : Option ℕ) (w : FitWorld S E X d) (h : (attempt (.ae c) k w).1 = none) :
    ∃ n x, AfterUpdates c.trainer.update (w.params, c.fresh) n ((attempt (.ae c) k w).2.params, x) ∧
      (attempt (.ae c) k w).2.encoder = some (x, false) ∧ (attempt (.ae c) k w).2.scores = some (c.score x) :=
  ((attempt_triple (.ae c) k w _ _ (ae_left c w)).2.2 h).1

/-! ## Calls that complete -/

theorem ends_true {W α : Type} {m : Crash W α} {P : W → Prop} {R : α → W → Prop} (h : Ends P R m) : Ends P (fun _ _ => True) m :=
  fun w hw => by obtain ⟨a, v, h1, -⟩ := h w hw; exact ⟨a, v, h1, trivial⟩

theorem ends_pull {W α : Type} {m : Crash W α} {P : W → Prop} {R : α → W → Prop} {φ : Prop} (h : φ → Ends P R m) :
    Ends (fun w => P w ∧ φ) R m := fun w hw => h hw.2 w hw.1

/-- The rest of the program after a statement. -/
theorem ends_next {W β : Type} (f : W → W) {g : Unit → Crash W β} (h : Ends (fun _ => True) (fun _ _ => True) (g ())) :
    Ends (fun _ => True) (fun _ _ => True) (stmt f >>= g) :=
  ends_bind (R := fun _ _ => True) (ends_stmt f fun _ _ => trivial) fun _ => h

theorem ends_nextIf {W β : Type} (b : Bool) (f : W → W) {g : Unit → Crash W β} (h : Ends (fun _ => True) (fun _ _ => True) (g ())) :
    Ends (fun _ => True) (fun _ _ => True) (stmtIf b f >>= g) := by
  refine ends_bind (R := fun _ _ => True) ?_ fun _ => h
  cases b
  · exact ends_pure () fun _ _ => trivial
  · exact ends_stmt f fun _ _ => trivial

/-- The rest of the program after an expression that does not depend on the state. -/
theorem ends_value {W α β : Type} (x : Except PyErr α) (a : α) (hx : x = .ok a) {g : α → Crash W β}
    (h : Ends (fun _ => True) (fun _ _ => True) (g a)) : Ends (fun _ => True) (fun _ _ => True) (eval (fun _ => x) >>= g) := by
  refine ends_bind (R := fun b _ => True ∧ b = a) (ends_eval _ fun w _ => ⟨a, hx, trivial, rfl⟩) fun b => ends_pull ?_
  rintro rfl
  exact h

theorem ends_state {W α β : Type} (f : W → α) {g : α → Crash W β}
    (h : ∀ a, Ends (fun _ => True) (fun _ _ => True) (g a)) : Ends (fun _ => True) (fun _ _ => True) (eval (fun w => .ok (f w)) >>= g) :=
  ends_bind (R := fun _ _ => True) (ends_eval _ fun w _ => ⟨f w, rfl, trivial⟩) h

theorem trainIteration_ok {U : Type} (T : Trainer U) (c : TrainConfig) (b : List ℕ) (st : LoopState U)
    (h : ∀ i b s, ∃ x, T.loss i b s = .ok x) : ∃ st', trainIteration T c b st = .ok st' := by
  obtain ⟨x, hx⟩ := h st.history.length b st.params
  unfold trainIteration
  rw [hx]
  exact ⟨_, rfl⟩

theorem mmlLoop_ends (T : Trainer S) (c : TrainConfig) (b : List ℕ) (h : ∀ i b s, ∃ x, T.loss i b s = .ok x) (n : ℕ) (st : LoopState S) :
    Ends (fun _ => True) (fun _ _ => True) (mmlLoop T c b n st : Crash (FitWorld S E X d) _) := by
  induction n generalizing st with
  | zero => exact ends_pure _ fun _ _ => trivial
  | succ n ih =>
    obtain ⟨st', hs⟩ := trainIteration_ok T c b st h
    refine ends_next _ (ends_value _ st' (by rw [hs]; rfl) (ends_next _ (ends_next _ ?_)))
    split
    · exact ends_pure _ fun _ _ => trivial
    · exact ih st'

theorem jmlBatchLoop_ends (T : Trainer (S × X)) (c : TrainConfig) (h : ∀ i b s, ∃ x, T.loss i b s = .ok x) (bs : List (List ℕ))
    (st : LoopState (S × X)) :
    Ends (fun _ => True) (fun _ _ => True) (jmlBatchLoop T c bs st : Crash (FitWorld S E X d) _) := by
  induction bs generalizing st with
  | nil => exact ends_pure _ fun _ _ => trivial
  | cons b bs ih =>
    obtain ⟨st', hs⟩ := trainIteration_ok T c b st h
    refine ends_bind (R := fun _ _ => True) ?_ fun st' => ?_
    · exact ends_value _ st' (by rw [hs]; rfl) (ends_next _ (ends_next _ (ends_pure _ fun _ _ => trivial)))
    · split
      · exact ends_pure _ fun _ _ => trivial
      · exact ih st'

theorem jmlLoop_ends (T : Trainer (S × X)) (c : TrainConfig) (h : ∀ i b s, ∃ x, T.loss i b s = .ok x) (bs : List (List ℕ)) (n : ℕ)
    (st : LoopState (S × X)) :
    Ends (fun _ => True) (fun _ _ => True) (jmlLoop T c bs n st : Crash (FitWorld S E X d) _) := by
  induction n generalizing st with
  | zero => exact ends_pure _ fun _ _ => trivial
  | succ n ih =>
    refine ends_bind (jmlBatchLoop_ends T c h bs st) fun st' => ?_
    split
    · exact ends_pure _ fun _ _ => trivial
    · exact ih st'

theorem aeBatch_ok {U : Type} (T : Trainer U) (c : TrainConfig) (interval : ℕ) (b : List ℕ) (st : AEState U)
    (h : ∀ i b s, ∃ x, T.loss i b s = .ok x) (hi : interval ≠ 0) : ∃ r, aeBatch T c interval b st = .ok r := by
  obtain ⟨x, hx⟩ := h st.total b st.params
  unfold aeBatch
  rw [hx]
  cases x with
  | none => exact ⟨_, rfl⟩
  | some x =>
    dsimp only
    rw [if_neg hi]
    split
    · exact ⟨_, rfl⟩
    · exact ⟨_, rfl⟩

theorem aeBatchLoop_ends (T : Trainer (S × E)) (c : TrainConfig) (interval : ℕ) (skip : Bool)
    (h : ∀ i b s, ∃ x, T.loss i b s = .ok x) (hi : interval ≠ 0) (bs : List (List ℕ)) (st : AEState (S × E)) :
    Ends (fun _ => True) (fun _ _ => True) (aeBatchLoop T c interval skip bs st : Crash (FitWorld S E X d) _) := by
  induction bs generalizing st with
  | nil => exact ends_pure _ fun _ _ => trivial
  | cons b bs ih =>
    unfold aeBatchLoop
    by_cases hb : b.length < 4 ∧ skip = true
    · rw [if_pos hb]; exact ih st
    · rw [if_neg hb]
      obtain ⟨r, hr⟩ := aeBatch_ok T c interval b st h hi
      rw [hr]
      refine ends_next _ (ends_next _ ?_)
      split
      · exact ends_pure _ fun _ _ => trivial
      · exact ends_pure _ fun _ _ => trivial
      · exact ih r.1

theorem aeLoop_ends (T : Trainer (S × E)) (c : TrainConfig) (interval : ℕ) (skip : Bool) (batches : ℕ → List (List ℕ))
    (h : ∀ i b s, ∃ x, T.loss i b s = .ok x) (hi : interval ≠ 0) (hb : ∀ e, batches e ≠ []) (n e : ℕ) (st : AEState (S × E)) :
    Ends (fun _ => True) (fun _ _ => True) (aeLoop T c interval skip batches n e st : Crash (FitWorld S E X d) _) := by
  induction n generalizing e st with
  | zero => exact ends_pure _ fun _ _ => trivial
  | succ n ih =>
    refine ends_next _ (ends_next _ (ends_bind (aeBatchLoop_ends T c interval skip h hi (batches e) st) fun r => ?_))
    split
    · exact ends_pure _ fun _ _ => trivial
    · rw [if_neg (hb e)]
      split
      · exact ends_pure _ fun _ _ => trivial
      · exact ih (e + 1) r.1

theorem storeData_ends (data : DataTensor) (stored : Option DataTensor) (h : ¬ OtherItems stored data) :
    Ends (fun w => w.trainData = stored) (fun _ _ => True) (storeData data : Crash (FitWorld S E X d) Unit) := by
  obtain ⟨x, hx⟩ := (appendData_ok_iff stored data).2 h
  refine ends_bind (R := fun _ _ => True) (ends_eval _ fun w hw => ⟨x, by rw [hw]; exact hx, trivial⟩) fun _ => ?_
  exact ends_stmt _ fun _ _ => trivial

theorem ok_of_not_error {α : Type} {x : Except PyErr α} (h : ¬ ∃ e, x = .error e) : ∃ a, x = .ok a := by
  cases x with
  | error e => exact absurd ⟨e, rfl⟩ h
  | ok a => exact ⟨a, rfl⟩

theorem newAdam_value {lr : ℝ} (h : ¬ lr < 0) : (if lr < 0 then Except.error PyErr.valueError else .ok ()) = .ok () := if_neg h

theorem mml_ends (c : MmlCall S d) (stored : Option DataTensor) (hr : ¬ Refused stored (AlgorithmCall.mml c : AlgorithmCall S E X d))
    (hl : LossComputable (AlgorithmCall.mml c : AlgorithmCall S E X d)) :
    Ends (fun w => w.trainData = stored) (fun _ _ => True) (mmlFitCall c : Crash (FitWorld S E X d) Unit) := by
  simp only [Refused, not_or] at hr
  obtain ⟨h0, -, -, h3, h4⟩ := hr
  obtain ⟨pts, hp⟩ := ok_of_not_error h4
  obtain ⟨n, hn⟩ : ∃ n, mmlPoints d c.points = .ok n := ok_of_not_error fun ⟨e, he⟩ => by
    simp [mmlIntegration, he, Bind.bind, Except.bind] at hp
  obtain ⟨cov, hc⟩ : ∃ m, mmlCovariance d c.covariance = .ok m := ok_of_not_error fun ⟨e, he⟩ => by
    simp [mmlIntegration, hn, he, Bind.bind, Except.bind] at hp
  refine ends_bind (storeData_ends c.data stored h0) fun _ => ?_
  refine ends_next _ (ends_value _ n hn (ends_value _ cov hc (ends_next _ (ends_value _ () (newAdam_value h3)
    (ends_value _ pts (by rw [mmlIntegration_points c n hn]; exact hp) (ends_nextIf _ _ (ends_state _ fun start => ?_)))))))
  refine ends_bind (mmlLoop_ends _ _ _ (hl pts) _ _) fun st => ?_
  exact ends_nextIf _ _ (ends_next _ (ends_stmt _ fun _ _ => trivial))

theorem jml_ends (c : JmlCall S X) (stored : Option DataTensor) (hr : ¬ Refused stored (AlgorithmCall.jml c : AlgorithmCall S E X d))
    (hl : LossComputable (AlgorithmCall.jml c : AlgorithmCall S E X d)) :
    Ends (fun w => w.trainData = stored) (fun _ _ => True) (jmlFitCall c : Crash (FitWorld S E X d) Unit) := by
  simp only [Refused, not_or] at hr
  obtain ⟨h0, h1, h2, h3⟩ := hr
  obtain ⟨x, hx⟩ := ok_of_not_error h1
  obtain ⟨bs, hbs⟩ := ok_of_not_error h3
  refine ends_bind (storeData_ends c.data stored h0) fun _ => ?_
  refine ends_next _ (ends_value _ x hx (ends_next _ (ends_value _ () (newAdam_value h2) (ends_value _ bs hbs (ends_next _
    (ends_state _ fun start => ?_))))))
  refine ends_bind (jmlLoop_ends _ _ hl _ _ _) fun st => ?_
  exact ends_next _ (ends_next _ (ends_stmt _ fun _ _ => trivial))

theorem ae_ends (c : AeCall S E X) (stored : Option DataTensor) (hr : ¬ Refused stored (AlgorithmCall.ae c : AlgorithmCall S E X d))
    (hl : LossComputable (AlgorithmCall.ae c : AlgorithmCall S E X d)) :
    Ends (fun w => w.trainData = stored) (fun _ _ => True) (aeFitCall c : Crash (FitWorld S E X d) Unit) := by
  simp only [Refused, not_or] at hr
  obtain ⟨h0, h1, h2, h3⟩ := hr
  obtain ⟨bs, hbs⟩ := ok_of_not_error h2
  refine ends_bind (storeData_ends c.data stored h0) fun _ => ?_
  refine ends_next _ (ends_next _ (ends_nextIf _ _ (ends_nextIf _ _ (ends_next _ (ends_value _ () (if_neg h1) (ends_value _ bs hbs
    (ends_value _ () (newAdam_value h3) (ends_state _ fun start => ends_state _ fun skip => ?_))))))))
  refine ends_bind (aeLoop_ends _ _ _ _ _ hl.1 hl.2.1 (hl.2.2 bs hbs) _ _ _) fun st => ?_
  exact ends_next _ (ends_next _ (ends_next _ (ends_next _ (ends_stmt _ fun _ _ => trivial))))

/-- C120: a call that is not refused and whose loss can be computed completes, if nobody interrupts it. -/
theorem C120_completes (c : AlgorithmCall S E X d) (w : FitWorld S E X d) (hr : ¬ Refused w.trainData c) (hl : LossComputable c) :
    (attempt c none w).1 = none := by
  have h : Ends (fun v => v.trainData = w.trainData) (fun _ _ => True) c.program := by
    cases c with
    | mml c => exact mml_ends c _ hr hl
    | jml c => exact jml_ends c _ hr hl
    | ae c => exact ae_ends c _ hr hl
  have h2 : Ends (fun v => v.trainData = w.trainData) (fun _ _ => True) (modelFit c) :=
    ends_bind h fun _ => ends_stmt _ fun _ _ => trivial
  obtain ⟨a, v, h1, -⟩ := h2 w rfl
  unfold attempt
  rw [h1]

/-! ## The same call from two states -/

theorem rel_state {W α β : Type} {R R' : W → W → Prop} (f : W → α) {g : α → Crash W β} (hf : ∀ w w', R w w' → f w = f w')
    (h : ∀ a, Rel R R' (g a)) : Rel R R' (eval (fun w => .ok (f w)) >>= g) :=
  rel_bind (rel_eval _ fun w w' hw => by rw [hf w w' hw]) h

theorem rel_value {W α β : Type} {R R' : W → W → Prop} (x : Except PyErr α) {g : α → Crash W β}
    (h : ∀ a, Rel R R' (g a)) : Rel R R' (eval (fun _ => x) >>= g) :=
  rel_bind (rel_eval _ fun _ _ _ => rfl) h

theorem rel_stmtIf {W : Type} {R R' : W → W → Prop} (b : Bool) (f : W → W) (h1 : b = true → ∀ w w', R w w' → R' (f w) (f w'))
    (h0 : b = false → ∀ w w', R w w' → R' w w') : Rel R R' (stmtIf b f) := by
  cases b
  · exact rel_weaken (rel_pure (R := R) ()) (fun _ _ h => h) (h0 rfl)
  · exact rel_stmt f (h1 rfl)

theorem storeData_rel {R R' : FitWorld S E X d → FitWorld S E X d → Prop} (data : DataTensor)
    (hd : ∀ w w', R w w' → (OtherItems w.trainData data ↔ OtherItems w'.trainData data))
    (hs : ∀ w w' x x', R w w' → R' { w with trainData := x } { w' with trainData := x' }) :
    Rel R R' (storeData data : Crash (FitWorld S E X d) Unit) := by
  intro w w' h
  have hk : ∀ v : FitWorld S E X d, (∃ x, appendData v.trainData data = .ok x ∧ ¬ OtherItems v.trainData data) ∨
      (appendData v.trainData data = .error .runtimeError ∧ OtherItems v.trainData data) := by
    intro v
    cases hv : v.trainData with
    | none => left; exact ⟨data, rfl, by rintro ⟨o, ho, -⟩; simp at ho⟩
    | some o =>
      by_cases hw : o.width = data.width
      · left
        refine ⟨_, by simp only [appendData, hw, ne_eq, not_true, if_false, if_true]; rfl, ?_⟩
        rintro ⟨o', ho, hne⟩
        obtain rfl := Option.some.inj ho
        exact hne hw
      · right
        exact ⟨by simp [appendData, hw], o, rfl, hw⟩
  have run : ∀ (v : FitWorld S E X d) x, appendData v.trainData data = .ok x →
      (storeData data : Crash (FitWorld S E X d) Unit) none v = (.ok ((), none), { v with trainData := some x }) := by
    intro v x hx
    show Crash.bind _ _ none v = _
    simp only [Crash.bind, eval, hx]
    rfl
  have fail : ∀ (v : FitWorld S E X d) e, appendData v.trainData data = .error e →
      (storeData data : Crash (FitWorld S E X d) Unit) none v = (.error (.raised e), v) := by
    intro v e hx
    show Crash.bind _ _ none v = _
    simp only [Crash.bind, eval, hx]
  rcases hk w with ⟨x, hx, hn⟩ | ⟨hx, hn⟩
  · rcases hk w' with ⟨x', hx', hn'⟩ | ⟨hx', hn'⟩
    · exact .inl ⟨(), _, _, run w x hx, run w' x' hx', hs _ _ _ _ h⟩
    · exact absurd ((hd w w' h).2 hn') hn
  · rcases hk w' with ⟨x', hx', hn'⟩ | ⟨hx', hn'⟩
    · exact absurd ((hd w w' h).1 hn) hn'
    · exact .inr ⟨_, _, _, fail w _ hx, fail w' _ hx'⟩

/-- Related states in a fit with `MML`. -/
def MmlRel (b h cv : Prop) (w w' : FitWorld S E X d) : Prop :=
  w'.params = w.params ∧ (b → w'.basis = w.basis) ∧ (h → w'.history = w.history) ∧ (cv → w'.covariance = w.covariance)

theorem mmlLoop_rel (T : Trainer S) (c : TrainConfig) (b : List ℕ) (n : ℕ) (st : LoopState S) :
    Rel (MmlRel True True True) (MmlRel True True True) (mmlLoop T c b n st : Crash (FitWorld S E X d) _) := by
  induction n generalizing st with
  | zero => exact rel_pure _
  | succ n ih =>
    refine rel_bind (R' := MmlRel True True True) (rel_stmt _ fun w w' h => h) fun _ => rel_value _ fun st' => ?_
    refine rel_bind (R' := MmlRel True True True) (rel_stmt _ fun w w' h => ⟨rfl, h.2⟩) fun _ => ?_
    refine rel_bind (R' := MmlRel True True True) (rel_stmt _ fun w w' h => ⟨h.1, h.2.1, fun _ => rfl, h.2.2.2⟩) fun _ => ?_
    split
    · exact rel_pure _
    · exact ih st'

theorem mml_rel (c : MmlCall S d) :
    Rel (fun w w' : FitWorld S E X d => MmlRel (c.isSpline = false) False False w w' ∧
        (OtherItems w.trainData c.data ↔ OtherItems w'.trainData c.data))
      (fun w w' => MmlRel True True True w w' ∧ w'.training = w.training) (mmlFitCall c) := by
  refine rel_bind (R' := MmlRel (c.isSpline = false) False False) (storeData_rel c.data (fun w w' h => h.2) fun w w' x x' h => h.1) fun _ => ?_
  refine rel_bind (R' := MmlRel (c.isSpline = false) True False) (rel_stmt _ fun w w' h => ⟨h.1, h.2.1, fun _ => rfl, h.2.2.2⟩) fun _ => ?_
  refine rel_value _ fun n => rel_value _ fun cov => ?_
  refine rel_bind (R' := MmlRel (c.isSpline = false) True True) (rel_stmt _ fun w w' h => ⟨h.1, h.2.1, h.2.2.1, fun _ => rfl⟩) fun _ => ?_
  refine rel_value _ fun _ => rel_value _ fun pts => ?_
  refine rel_bind (R' := MmlRel True True True) (rel_stmtIf _ _ (fun _ w w' h => ⟨h.1, fun _ => rfl, h.2.2⟩)
    fun hb w w' h => ⟨h.1, fun _ => h.2.1 hb, h.2.2⟩) fun _ => ?_
  refine rel_state _ (fun w w' h => by rw [h.1]) fun start => ?_
  refine rel_bind (mmlLoop_rel _ _ _ _ _) fun st => ?_
  refine rel_bind (R' := MmlRel True True True) (rel_stmtIf _ _ (fun _ w w' h => ⟨h.1, fun _ => rfl, h.2.2⟩) fun _ w w' h => h) fun _ => ?_
  refine rel_bind (R' := MmlRel True True True) (rel_stmt _ fun w w' h => ⟨rfl, h.2⟩) fun _ => ?_
  exact rel_stmt _ fun w w' h => ⟨h, rfl⟩

/-- Related states in a fit with `JML`. -/
def JmlRel (h x : Prop) (w w' : FitWorld S E X d) : Prop :=
  w'.params = w.params ∧ w'.basis = w.basis ∧ (h → w'.history = w.history) ∧ (x → w'.scores = w.scores)

theorem jmlBatchLoop_rel (T : Trainer (S × X)) (c : TrainConfig) (bs : List (List ℕ)) (st : LoopState (S × X)) :
    Rel (JmlRel True True) (JmlRel True True) (jmlBatchLoop T c bs st : Crash (FitWorld S E X d) _) := by
  induction bs generalizing st with
  | nil => exact rel_pure _
  | cons b bs ih =>
    refine rel_bind (R' := JmlRel True True) ?_ fun st' => ?_
    · refine rel_value _ fun st' => ?_
      refine rel_bind (R' := JmlRel True True) (rel_stmt _ fun w w' h => ⟨rfl, h.2.1, h.2.2.1, fun _ => rfl⟩) fun _ => ?_
      refine rel_bind (R' := JmlRel True True) (rel_stmt _ fun w w' h => ⟨h.1, h.2.1, fun _ => rfl, h.2.2.2⟩) fun _ => ?_
      exact rel_pure _
    · split
      · exact rel_pure _
      · exact ih st'

theorem jmlLoop_rel (T : Trainer (S × X)) (c : TrainConfig) (bs : List (List ℕ)) (n : ℕ) (st : LoopState (S × X)) :
    Rel (JmlRel True True) (JmlRel True True) (jmlLoop T c bs n st : Crash (FitWorld S E X d) _) := by
  induction n generalizing st with
  | zero => exact rel_pure _
  | succ n ih =>
    refine rel_bind (jmlBatchLoop_rel T c bs st) fun st' => ?_
    split
    · exact rel_pure _
    · exact ih st'

theorem jml_rel (c : JmlCall S X) :
    Rel (fun w w' : FitWorld S E X d => JmlRel False False w w' ∧ (OtherItems w.trainData c.data ↔ OtherItems w'.trainData c.data))
      (fun w w' => JmlRel True True w w' ∧ w'.training = w.training) (jmlFitCall c) := by
  refine rel_bind (R' := JmlRel False False) (storeData_rel c.data (fun w w' h => h.2) fun w w' x x' h => h.1) fun _ => ?_
  refine rel_bind (R' := JmlRel True False) (rel_stmt _ fun w w' h => ⟨h.1, h.2.1, fun _ => rfl, h.2.2.2⟩) fun _ => ?_
  refine rel_value _ fun x => ?_
  refine rel_bind (R' := JmlRel True True) (rel_stmt _ fun w w' h => ⟨h.1, h.2.1, h.2.2.1, fun _ => rfl⟩) fun _ => ?_
  refine rel_value _ fun _ => rel_value _ fun bs => ?_
  refine rel_bind (R' := JmlRel True True) (rel_stmt _ fun w w' h => h) fun _ => ?_
  refine rel_state _ (fun w w' h => by rw [h.1]) fun start => ?_
  refine rel_bind (jmlLoop_rel _ _ _ _ _) fun st => ?_
  refine rel_bind (R' := JmlRel True True) (rel_stmt _ fun w w' h => ⟨h.1, h.2.1, h.2.2.1, fun _ => rfl⟩) fun _ => ?_
  refine rel_bind (R' := JmlRel True True) (rel_stmt _ fun w w' h => ⟨rfl, h.2⟩) fun _ => ?_
  exact rel_stmt _ fun w w' h => ⟨h, rfl⟩

/-- Related states in a fit with `AE` or `VAE`. -/
def AeRel (h o b i e : Prop) (w w' : FitWorld S E X d) : Prop :=
  w'.params = w.params ∧ w'.basis = w.basis ∧ (h → w'.history = w.history) ∧ (o → w'.oneHot = w.oneHot) ∧
  (b → w'.batchNorm = w.batchNorm) ∧ (i → w'.imputation = w.imputation) ∧ (e → w'.encoder = w.encoder)

theorem aeBatchLoop_rel (i : Prop) (T : Trainer (S × E)) (c : TrainConfig) (interval : ℕ) (skip : Bool) (bs : List (List ℕ)) (st : AEState (S × E)) :
    Rel (AeRel True True True i True) (AeRel True True True i True) (aeBatchLoop T c interval skip bs st : Crash (FitWorld S E X d) _) := by
  induction bs generalizing st with
  | nil => exact rel_pure _
  | cons b bs ih =>
    unfold aeBatchLoop
    by_cases hb : b.length < 4 ∧ skip = true
    · rw [if_pos hb]; exact ih st
    · rw [if_neg hb]
      rcases aeBatch T c interval b st with ⟨e, st'⟩ | r
      · refine rel_bind (R' := AeRel True True True i True) (rel_stmt _ fun w w' h => ⟨rfl, h.2.1, h.2.2.1, h.2.2.2.1, h.2.2.2.2.1, h.2.2.2.2.2.1, fun _ => rfl⟩) fun _ => ?_
        exact rel_eval _ fun _ _ _ => rfl
      · refine rel_bind (R' := AeRel True True True i True) (rel_stmt _ fun w w' h => ⟨rfl, h.2.1, h.2.2.1, h.2.2.2.1, h.2.2.2.2.1, h.2.2.2.2.2.1, fun _ => rfl⟩) fun _ => ?_
        refine rel_bind (R' := AeRel True True True i True) (rel_stmt _ fun w w' h => ⟨h.1, h.2.1, fun _ => rfl, h.2.2.2⟩) fun _ => ?_
        split
        · exact rel_pure _
        · exact rel_pure _
        · exact ih r.1

theorem aeLoop_rel (i : Prop) (T : Trainer (S × E)) (c : TrainConfig) (interval : ℕ) (skip : Bool) (batches : ℕ → List (List ℕ)) (n e : ℕ)
    (st : AEState (S × E)) :
    Rel (AeRel True True True i True) (AeRel True True True i True) (aeLoop T c interval skip batches n e st : Crash (FitWorld S E X d) _) := by
  induction n generalizing e st with
  | zero => exact rel_pure _
  | succ n ih =>
    refine rel_bind (R' := AeRel True True True i True) (rel_stmt _ fun w w' h => ⟨h.1, h.2.1, h.2.2.1, h.2.2.2.1, h.2.2.2.2.1, h.2.2.2.2.2.1,
      fun _ => by rw [h.2.2.2.2.2.2 trivial]⟩) fun _ => ?_
    refine rel_bind (R' := AeRel True True True i True) (rel_stmt _ fun w w' h => h) fun _ => ?_
    refine rel_bind (aeBatchLoop_rel i T c interval skip (batches e) st) fun r => ?_
    split
    · exact rel_pure _
    · split
      · exact rel_eval _ fun _ _ _ => rfl
      · split
        · exact rel_pure _
        · exact ih (e + 1) r.1

theorem ae_rel (c : AeCall S E X) :
    Rel (fun w w' : FitWorld S E X d => AeRel False False (c.variational = true) False False w w' ∧
        (OtherItems w.trainData c.data ↔ OtherItems w'.trainData c.data))
      (fun w w' => AeRel True True True (c.variational = false) True w w' ∧ w'.training = w.training ∧ w'.scores = w.scores) (aeFitCall c) := by
  refine rel_bind (R' := AeRel False False (c.variational = true) False False)
    (storeData_rel c.data (fun w w' h => h.2) fun w w' x x' h => h.1) fun _ => ?_
  refine rel_bind (R' := AeRel True False (c.variational = true) False False)
    (rel_stmt _ fun w w' h => ⟨h.1, h.2.1, fun _ => rfl, h.2.2.2⟩) fun _ => ?_
  refine rel_bind (R' := AeRel True True (c.variational = true) False False)
    (rel_stmt _ fun w w' h => ⟨h.1, h.2.1, h.2.2.1, fun _ => rfl, h.2.2.2.2⟩) fun _ => ?_
  refine rel_bind (R' := AeRel True True True False False) (rel_stmtIf _ _
    (fun _ w w' h => ⟨h.1, h.2.1, h.2.2.1, h.2.2.2.1, fun _ => rfl, h.2.2.2.2.2⟩)
    fun hb w w' h => ⟨h.1, h.2.1, h.2.2.1, h.2.2.2.1, fun _ => h.2.2.2.2.1 (by simpa using hb), h.2.2.2.2.2⟩) fun _ => ?_
  refine rel_bind (R' := AeRel True True True (c.variational = false) False) (rel_stmtIf _ _
    (fun _ w w' h => ⟨h.1, h.2.1, h.2.2.1, h.2.2.2.1, h.2.2.2.2.1, fun _ => rfl, h.2.2.2.2.2.2⟩)
    fun hb w w' h => ⟨h.1, h.2.1, h.2.2.1, h.2.2.2.1, h.2.2.2.2.1, fun hv => by simp [hv] at hb, h.2.2.2.2.2.2⟩) fun _ => ?_
  refine rel_bind (R' := AeRel True True True (c.variational = false) True)
    (rel_stmt _ fun w w' h => ⟨h.1, h.2.1, h.2.2.1, h.2.2.2.1, h.2.2.2.2.1, h.2.2.2.2.2.1, fun _ => rfl⟩) fun _ => ?_
  refine rel_value _ fun _ => rel_value _ fun bs => rel_value _ fun _ => ?_
  refine rel_state _ (fun w w' h => by rw [h.1]) fun start => ?_
  refine rel_state _ (fun w w' h => by rw [h.2.2.2.2.1 trivial]) fun skip => ?_
  refine rel_bind (aeLoop_rel _ _ _ _ _ _ _ _ _) fun st => ?_
  refine rel_bind (R' := AeRel True True True (c.variational = false) True) (rel_stmt _ fun w w' h => ⟨rfl, h.2⟩) fun _ => ?_
  refine rel_bind (R' := AeRel True True True (c.variational = false) True)
    (rel_stmt _ fun w w' h => ⟨h.1, h.2.1, h.2.2.1, h.2.2.2.1, h.2.2.2.2.1, h.2.2.2.2.2.1, fun _ => rfl⟩) fun _ => ?_
  refine rel_bind (R' := AeRel True True True (c.variational = false) True)
    (rel_stmt _ fun w w' h => ⟨h.1, h.2.1, h.2.2.1, h.2.2.2.1, h.2.2.2.2.1, h.2.2.2.2.2.1, fun _ => rfl⟩) fun _ => ?_
  refine rel_bind (R' := fun w w' => AeRel True True True (c.variational = false) True w w' ∧ w'.training = w.training)
    (rel_stmt _ fun w w' h => ⟨h, rfl⟩) fun _ => ?_
  exact rel_stmt _ fun w w' h => ⟨h.1, h.2, rfl⟩

/-- C120: what a call does depends only on the parameters it starts from (and on what `SameStart` names). From two such states,
whatever was fitted, refused or interrupted before, it ends in the same way, and if it completes it leaves the same model, losses,
scores, encoder and settings; only the stored data may differ. -/
theorem C120_same (c : AlgorithmCall S E X d) (w w' : FitWorld S E X d) (hs : SameStart c w w')
    (hd : OtherItems w.trainData c.data ↔ OtherItems w'.trainData c.data) :
    (attempt c none w').1 = (attempt c none w).1 ∧
    ((attempt c none w).1 = none → SameFit c (attempt c none w).2 (attempt c none w').2) := by
  have key : ∀ {R R' : FitWorld S E X d → FitWorld S E X d → Prop}, Rel R R' c.program → R w w' →
      (∀ v v', R' v v' → SameFit c { v with attached := true } { v' with attached := true }) →
      (attempt c none w').1 = (attempt c none w).1 ∧
      ((attempt c none w).1 = none → SameFit c (attempt c none w).2 (attempt c none w').2) := by
    intro R R' hrel hR hfit
    rcases hrel w w' hR with ⟨a, v, v', h1, h2, h3⟩ | ⟨e, v, v', h1, h2⟩
    · have m1 : modelFit c none w = (.ok ((), none), { v with attached := true }) := by
        show Crash.bind _ _ none w = _
        simp only [Crash.bind, h1]; rfl
      have m2 : modelFit c none w' = (.ok ((), none), { v' with attached := true }) := by
        show Crash.bind _ _ none w' = _
        simp only [Crash.bind, h2]; rfl
      unfold attempt
      rw [m1, m2]
      exact ⟨rfl, fun _ => hfit v v' h3⟩
    · have m1 : modelFit c none w = (.error (.raised e), v) := by
        show Crash.bind _ _ none w = _
        simp only [Crash.bind, h1]
      have m2 : modelFit c none w' = (.error (.raised e), v') := by
        show Crash.bind _ _ none w' = _
        simp only [Crash.bind, h2]
      unfold attempt
      rw [m1, m2]
      exact ⟨rfl, fun h => by simp at h⟩
  obtain ⟨hp, hs⟩ := hs
  cases c with
  | mml c =>
    exact key (mml_rel c) ⟨⟨hp, hs, False.elim, False.elim⟩, hd⟩
      fun v v' h => ⟨⟨h.1.1, h.2, h.1.2.1 trivial, rfl⟩, h.1.2.2.1 trivial, h.1.2.2.2 trivial⟩
  | jml c =>
    exact key (jml_rel c) ⟨⟨hp, hs, False.elim, False.elim⟩, hd⟩
      fun v v' h => ⟨⟨h.1.1, h.2, h.1.2.1, rfl⟩, h.1.2.2.1 trivial, h.1.2.2.2 trivial⟩
  | ae c =>
    refine key (ae_rel c) ⟨⟨hp, hs.1, False.elim, False.elim, hs.2, False.elim, False.elim⟩, hd⟩ ?_
    rintro v v' ⟨⟨h1, h2, h3, h4, h5, h6, h7⟩, h8, h9⟩
    exact ⟨⟨h1, h8, h2, rfl⟩, h3 trivial, h9, h7 trivial, h4 trivial, fun hv => ⟨h5 trivial, h6 hv⟩⟩

/-! ## Attributes that a call does not touch -/

theorem keeps_pure {W α : Type} {P : W → Prop} (a : α) : Keeps P (Crash.pure a : Crash W α) := fun _ _ h => h

theorem keeps_bind {W α β : Type} {P : W → Prop} {m : Crash W α} {f : α → Crash W β} (hm : Keeps P m) (hf : ∀ a, Keeps P (f a)) :
    Keeps P (m >>= f) := by
  intro k w hw
  show P (Crash.bind m f k w).2
  unfold Crash.bind
  have h := hm k w hw
  rcases hmk : m k w with ⟨r, w'⟩
  rw [hmk] at h
  rcases r with e | ⟨a, k'⟩
  · exact h
  · exact hf a k' w' h

theorem keeps_stmt {W : Type} {P : W → Prop} (f : W → W) (h : ∀ w, P w → P (f w)) : Keeps P (stmt f) := by
  intro k w hw
  rcases k with _ | _ | k
  · exact h w hw
  · exact hw
  · exact h w hw

theorem keeps_stmtIf {W : Type} {P : W → Prop} (b : Bool) (f : W → W) (h : b = true → ∀ w, P w → P (f w)) : Keeps P (stmtIf b f) := by
  cases b
  · exact keeps_pure ()
  · exact keeps_stmt f (h rfl)

theorem keeps_eval {W α : Type} {P : W → Prop} (f : W → Except PyErr α) : Keeps P (eval f) := by
  intro k w hw
  unfold eval
  split <;> exact hw

theorem keeps_store {P : FitWorld S E X d → Prop} (data : DataTensor) (h : ∀ w x, P w → P { w with trainData := x }) :
    Keeps P (storeData data : Crash (FitWorld S E X d) Unit) :=
  keeps_bind (keeps_eval _) fun _ => keeps_stmt _ fun w hw => h w _ hw

/-- What `SameStart` names apart from the parameters. -/
def StartOf (c : AlgorithmCall S E X d) (w₀ w : FitWorld S E X d) : Prop :=
  match c with
  | .mml c => c.isSpline = false → w.basis = w₀.basis
  | .jml _ => w.basis = w₀.basis
  | .ae c => w.basis = w₀.basis ∧ (c.variational = true → w.batchNorm = w₀.batchNorm)

theorem mml_keeps (c : MmlCall S d) (w₀ : FitWorld S E X d) :
    Keeps (StartOf (.mml c) w₀) (mmlFitCall c : Crash (FitWorld S E X d) Unit) := by
  refine keeps_bind (keeps_store _ fun w x h => h) fun _ => keeps_bind (keeps_stmt _ fun w h => h) fun _ => ?_
  refine keeps_bind (keeps_eval _) fun _ => keeps_bind (keeps_eval _) fun _ => keeps_bind (keeps_stmt _ fun w h => h) fun _ => ?_
  refine keeps_bind (keeps_eval _) fun _ => keeps_bind (keeps_eval _) fun pts => ?_
  refine keeps_bind (keeps_stmtIf _ _ fun hb w h hc => by rw [hb] at hc; simp at hc) fun _ => ?_
  refine keeps_bind (keeps_eval _) fun start => keeps_bind ?_ fun st => ?_
  · generalize c.maxEpochs = n
    induction n generalizing start with
    | zero => exact keeps_pure _
    | succ n ih =>
      refine keeps_bind (keeps_stmt _ fun w h => h) fun _ => keeps_bind (keeps_eval _) fun st' => ?_
      refine keeps_bind (keeps_stmt _ fun w h => h) fun _ => keeps_bind (keeps_stmt _ fun w h => h) fun _ => ?_
      split
      · exact keeps_pure _
      · exact ih st'
  · refine keeps_bind (keeps_stmtIf _ _ fun hb w h hc => by rw [hb] at hc; simp at hc) fun _ => ?_
    exact keeps_bind (keeps_stmt _ fun w h => h) fun _ => keeps_stmt _ fun w h => h

theorem jml_keeps (c : JmlCall S X) (w₀ : FitWorld S E X d) :
    Keeps (StartOf (.jml c) w₀) (jmlFitCall c : Crash (FitWorld S E X d) Unit) := by
  refine keeps_bind (keeps_store _ fun w x h => h) fun _ => keeps_bind (keeps_stmt _ fun w h => h) fun _ => ?_
  refine keeps_bind (keeps_eval _) fun _ => keeps_bind (keeps_stmt _ fun w h => h) fun _ => ?_
  refine keeps_bind (keeps_eval _) fun _ => keeps_bind (keeps_eval _) fun bs => keeps_bind (keeps_stmt _ fun w h => h) fun _ => ?_
  refine keeps_bind (keeps_eval _) fun start => keeps_bind ?_ fun st => ?_
  · generalize c.maxEpochs = n
    induction n generalizing start with
    | zero => exact keeps_pure _
    | succ n ih =>
      refine keeps_bind ?_ fun st' => ?_
      · clear ih
        induction bs generalizing start with
        | nil => exact keeps_pure _
        | cons b bs ih =>
          refine keeps_bind ?_ fun st' => ?_
          · refine keeps_bind (keeps_eval _) fun st' => keeps_bind (keeps_stmt _ fun w h => h) fun _ => ?_
            exact keeps_bind (keeps_stmt _ fun w h => h) fun _ => keeps_pure _
          · split
            · exact keeps_pure _
            · exact ih st'
      · split
        · exact keeps_pure _
        · exact ih st'
  · exact keeps_bind (keeps_stmt _ fun w h => h) fun _ => keeps_bind (keeps_stmt _ fun w h => h) fun _ => keeps_stmt _ fun w h => h

theorem aeBatchLoop_keeps (a : AeCall S E X) (w₀ : FitWorld S E X d) (T : Trainer (S × E)) (c : TrainConfig) (interval : ℕ) (skip : Bool)
    (bs : List (List ℕ)) (st : AEState (S × E)) :
    Keeps (StartOf (.ae a) w₀) (aeBatchLoop T c interval skip bs st : Crash (FitWorld S E X d) _) := by
  induction bs generalizing st with
  | nil => exact keeps_pure _
  | cons b bs ih =>
    unfold aeBatchLoop
    by_cases hb : b.length < 4 ∧ skip = true
    · rw [if_pos hb]; exact ih st
    · rw [if_neg hb]
      rcases aeBatch T c interval b st with ⟨e, st'⟩ | r
      · exact keeps_bind (keeps_stmt _ fun w h => h) fun _ => keeps_eval _
      · refine keeps_bind (keeps_stmt _ fun w h => h) fun _ => keeps_bind (keeps_stmt _ fun w h => h) fun _ => ?_
        split
        · exact keeps_pure _
        · exact keeps_pure _
        · exact ih r.1

theorem aeLoop_keeps (a : AeCall S E X) (w₀ : FitWorld S E X d) (T : Trainer (S × E)) (c : TrainConfig) (interval : ℕ) (skip : Bool)
    (batches : ℕ → List (List ℕ)) (n e : ℕ) (st : AEState (S × E)) :
    Keeps (StartOf (.ae a) w₀) (aeLoop T c interval skip batches n e st : Crash (FitWorld S E X d) _) := by
  induction n generalizing e st with
  | zero => exact keeps_pure _
  | succ n ih =>
    refine keeps_bind (keeps_stmt _ fun w h => h) fun _ => keeps_bind (keeps_stmt _ fun w h => h) fun _ => ?_
    refine keeps_bind (aeBatchLoop_keeps a w₀ T c interval skip (batches e) st) fun r => ?_
    split
    · exact keeps_pure _
    · split
      · exact keeps_eval _
      · split
        · exact keeps_pure _
        · exact ih (e + 1) r.1

theorem ae_keeps (c : AeCall S E X) (w₀ : FitWorld S E X d) :
    Keeps (StartOf (.ae c) w₀) (aeFitCall c : Crash (FitWorld S E X d) Unit) := by
  refine keeps_bind (keeps_store _ fun w x h => h) fun _ => keeps_bind (keeps_stmt _ fun w h => h) fun _ => ?_
  refine keeps_bind (keeps_stmt _ fun w h => h) fun _ => ?_
  refine keeps_bind (keeps_stmtIf _ _ fun hb w h => ⟨h.1, fun hv => by rw [hv] at hb; simp at hb⟩) fun _ => ?_
  refine keeps_bind (keeps_stmtIf _ _ fun hb w h => h) fun _ => keeps_bind (keeps_stmt _ fun w h => h) fun _ => ?_
  refine keeps_bind (keeps_eval _) fun _ => keeps_bind (keeps_eval _) fun _ => keeps_bind (keeps_eval _) fun _ => ?_
  refine keeps_bind (keeps_eval _) fun start => keeps_bind (keeps_eval _) fun skip => ?_
  refine keeps_bind (aeLoop_keeps c w₀ _ _ _ _ _ _ _ _) fun st => ?_
  refine keeps_bind (keeps_stmt _ fun w h => h) fun _ => keeps_bind (keeps_stmt _ fun w h => h) fun _ => ?_
  exact keeps_bind (keeps_stmt _ fun w h => h) fun _ => keeps_bind (keeps_stmt _ fun w h => h) fun _ => keeps_stmt _ fun w h => h

theorem attempt_startOf (c : AlgorithmCall S E X d) (k : Option ℕ) (w : FitWorld S E X d) : StartOf c w (attempt c k w).2 := by
  have hk : Keeps (StartOf c w) (modelFit c) := by
    refine keeps_bind ?_ fun _ => keeps_stmt _ fun v h => ?_
    · cases c with
      | mml c => exact mml_keeps c w
      | jml c => exact jml_keeps c w
      | ae c => exact ae_keeps c w
    · cases c <;> exact h
  have h0 : StartOf c w w := by
    cases c with
    | mml c => exact fun _ => rfl
    | jml c => exact rfl
    | ae c => exact ⟨rfl, fun _ => rfl⟩
  have := hk k w h0
  unfold attempt
  rcases hm : modelFit c k w with ⟨r, v⟩
  rw [hm] at this
  cases r <;> exact this

theorem otherItems_oldOr {old now : Option DataTensor} {data : DataTensor} (h : OldOr old data now) :
    OtherItems old data ↔ OtherItems now data := by
  rcases h with rfl | h
  · rfl
  · cases old with
    | none =>
      obtain rfl : now = some data := h
      simp [OtherItems]
    | some o =>
      obtain ⟨hw, rfl⟩ := h
      simp [OtherItems, hw]

/-- C120: a call can be repeated. Whatever an attempt at it came to (refused, interrupted anywhere, completed), once the parameters of
the model are put back to what they were the same call ends as it would have ended the first time, and leaves the same fit. -/
theorem C120_retry (c : AlgorithmCall S E X d) (k : Option ℕ) (w : FitWorld S E X d) :
    (attempt c none { (attempt c k w).2 with params := w.params }).1 = (attempt c none w).1 ∧
    ((attempt c none w).1 = none →
      SameFit c (attempt c none w).2 (attempt c none { (attempt c k w).2 with params := w.params }).2) := by
  refine C120_same c w _ ⟨rfl, ?_⟩ ?_
  · have := attempt_startOf c k w
    cases c <;> exact this
  · refine otherItems_oldOr ?_
    by_cases h : (attempt c k w).1 = none
    · exact .inr (C120_completed c k w h).2.2.2
    · exact (C120_crash c k w h).2.2

/-- C120: after a refused call the parameters need not be put back: the next call does what it would have done. -/
theorem C120_after_refused (c c' : AlgorithmCall S E X d) (k : Option ℕ) (w : FitWorld S E X d) (h : Refused w.trainData c)
    (hd : OtherItems w.trainData c'.data ↔ OtherItems (attempt c k w).2.trainData c'.data)
    (hb : ∀ a, c' = .ae a → a.variational = true → (attempt c k w).2.batchNorm = w.batchNorm) :
    (attempt c' none (attempt c k w).2).1 = (attempt c' none w).1 ∧
    ((attempt c' none w).1 = none → SameFit c' (attempt c' none w).2 (attempt c' none (attempt c k w).2).2) := by
  obtain ⟨-, h1, -, h3, -⟩ := C120_refused c k w h
  refine C120_same c' w _ ⟨h1, ?_⟩ hd
  cases c' with
  | mml c' => exact fun _ => h3
  | jml c' => exact h3
  | ae c' => exact ⟨h3, hb c' rfl⟩

/-! ## What a failed call does leave behind -/

/-- A call that is refused stores nothing. -/
def RefusedStoresNothing : Prop := ∀ (c : AlgorithmCall ℝ ℝ ℝ 1) (w : FitWorld ℝ ℝ ℝ 1), Refused w.trainData c →
  (attempt c none w).2.trainData = w.trainData

/-- After a refused call and a corrected one with the same data, this data is stored once. -/
def CorrectedStoresOnce : Prop := ∀ (c c' : AlgorithmCall ℝ ℝ ℝ 1) (w : FitWorld ℝ ℝ ℝ 1), Refused w.trainData c → c'.data = c.data →
  (attempt c' none (attempt c none w).2).1 = none → Appended w.trainData c.data (attempt c' none (attempt c none w).2).2.trainData

/-- A refused call keeps the trained encoder of the algorithm. -/
def RefusedKeepsEncoder : Prop := ∀ (c : AlgorithmCall ℝ ℝ ℝ 1) (w : FitWorld ℝ ℝ ℝ 1), Refused w.trainData c →
  (attempt c none w).2.encoder = w.encoder

/-- An interrupted call leaves a model in evaluation mode in evaluation mode. -/
def InterruptedKeepsMode : Prop := ∀ (c : AlgorithmCall ℝ ℝ ℝ 1) (k : ℕ) (w : FitWorld ℝ ℝ ℝ 1), w.training = false →
  (attempt c (some k) w).2.training = false

/-- One respondent who answered the only item. -/
def exCrashData : DataTensor := ⟨1, [[some 1]]⟩

/-- Training that lowers the loss. -/
noncomputable def exCrashTrainer (U : Type) (loss : U → ℝ) (step : U → U) : Trainer U :=
  { loss := fun _ _ s => .ok (some (loss s)), update := fun _ _ _ s => step s }

noncomputable def exCrashConfig : TrainConfig := { factor := 1 / 2, patience := 5, threshold := 0, limit := 2 }

/-- A call with `JML` and given starting scores. -/
noncomputable def exCrashJml (start : Except PyErr ℝ) (batches : List (List ℕ)) (epochs : ℕ) : AlgorithmCall ℝ ℝ ℝ 1 :=
  .jml { data := exCrashData, maxEpochs := epochs, start := start, lr := 1, config := exCrashConfig, batches := .ok batches,
         trainer := exCrashTrainer (ℝ × ℝ) (fun s => s.1 ^ 2) fun s => (s.1 / 2, s.2) }

/-- A call with `AE` without one-hot encoding. -/
noncomputable def exCrashAe (imputation : Option String) (epochs : ℕ) : AlgorithmCall ℝ ℝ ℝ 1 :=
  .ae { variational := false, data := exCrashData, oneHot := false, imputation := imputation, batchNorm := false, fresh := 7,
        maxEpochs := epochs, lr := 1, config := exCrashConfig, interval := 1, batches := .ok fun _ => [[0]],
        trainer := exCrashTrainer (ℝ × ℝ) (fun s => s.1 ^ 2) fun s => (s.1 / 2, s.2), score := fun e => e }

/-- A model that was fitted before with another algorithm object, and a new algorithm object. -/
noncomputable def exCrashWorld : FitWorld ℝ ℝ ℝ 1 := { params := 8, training := false, attached := false }

theorem crash_bind_def {W α β : Type} (m : Crash W α) (f : α → Crash W β) : (m >>= f) = Crash.bind m f := rfl

theorem exCrashJml_refused : attempt (exCrashJml (.error .valueError) [] 0) none exCrashWorld
    = (some (.raised .valueError), { exCrashWorld with trainData := some exCrashData }) := by
  simp [attempt, modelFit, AlgorithmCall.program, exCrashJml, jmlFitCall, storeData, crash_bind_def, Crash.bind, eval, stmt, appendData,
    exCrashWorld]

theorem C120_stores_false : ¬ RefusedStoresNothing := by
  intro h
  have := h (exCrashJml (.error .valueError) [] 0) exCrashWorld (.inr (.inl ⟨_, rfl⟩))
  rw [exCrashJml_refused] at this
  simp [exCrashWorld] at this

theorem C120_corrected_false : ¬ CorrectedStoresOnce := by
  intro h
  have h1 := h (exCrashJml (.error .valueError) [] 0) (exCrashJml (.ok 0) [] 0) exCrashWorld (.inr (.inl ⟨_, rfl⟩)) rfl
  rw [exCrashJml_refused] at h1
  have hc : (attempt (exCrashJml (.ok 0) [] 0) none { exCrashWorld with trainData := some exCrashData }).1 = none := by
    refine C120_completes _ _ ?_ fun i b s => ⟨_, rfl⟩
    have h01 : ¬ (1 : ℝ) < 0 := by norm_num
    rintro (⟨o, ho, hw⟩ | ⟨e, he⟩ | hl | ⟨e, he⟩)
    · obtain rfl := Option.some.inj ho
      exact hw rfl
    · simp at he
    · exact h01 hl
    · simp at he
  have h2 := h1 hc
  have h3 := (C120_completed _ _ _ hc).2.2.2
  obtain ⟨-, h3⟩ := h3
  have h2 : (attempt (exCrashJml (.ok 0) [] 0) none { exCrashWorld with trainData := some exCrashData }).2.trainData = some exCrashData := h2
  rw [h2] at h3
  simp [exCrashData, exCrashJml, AlgorithmCall.data] at h3

theorem C120_encoder_false : ¬ RefusedKeepsEncoder := by
  intro h
  have := h (exCrashAe none 0) { exCrashWorld with encoder := some (3, false) } (.inr (.inl ⟨rfl, rfl⟩))
  simp [attempt, modelFit, AlgorithmCall.program, exCrashAe, aeFitCall, storeData, crash_bind_def, Crash.bind, eval, stmt, stmtIf, appendData,
    exCrashWorld] at this

theorem C120_mode_false : ¬ InterruptedKeepsMode := by
  intro h
  have := h (exCrashJml (.ok 0) [] 0) 4 exCrashWorld rfl
  have h01 : ¬ (1 : ℝ) < 0 := by norm_num
  simp [attempt, modelFit, AlgorithmCall.program, exCrashJml, jmlFitCall, jmlLoop, newAdam, storeData, crash_bind_def, Crash.bind, Crash.pure,
    eval, stmt, appendData, exCrashWorld, h01] at this

/-! ## Examples -/

theorem exCrashJml_ok (n : ℕ) : ¬ Refused (none : Option DataTensor) (exCrashJml (.ok 0) [[0]] n) ∧ LossComputable (exCrashJml (.ok 0) [[0]] n) := by
  have h01 : ¬ (1 : ℝ) < 0 := by norm_num
  refine ⟨?_, fun i b s => ⟨_, rfl⟩⟩
  rintro (⟨o, ho, -⟩ | ⟨e, he⟩ | hl | ⟨e, he⟩)
  · simp at ho
  · simp at he
  · exact h01 hl
  · simp at he

/-- A refused call: `AE` without one-hot encoding and without imputation. -/
example : (attempt (exCrashAe none 3) none exCrashWorld).1 ≠ none ∧ SameModel exCrashWorld (attempt (exCrashAe none 3) none exCrashWorld).2 :=
  C120_refused _ _ _ (.inr (.inl ⟨rfl, rfl⟩))

/-- A call of three epochs completes if nobody interrupts it. -/
example : (attempt (exCrashJml (.ok 0) [[0]] 3) none exCrashWorld).1 = none :=
  C120_completes _ _ (exCrashJml_ok 3).1 (exCrashJml_ok 3).2

/-- Interrupted after one update it does not complete, and the parameter is that after one update. -/
theorem exCrashJml_interrupted : (attempt (exCrashJml (.ok 0) [[0]] 3) (some 5) exCrashWorld).1 = some .interrupted ∧
    (attempt (exCrashJml (.ok 0) [[0]] 3) (some 5) exCrashWorld).2.params = 4 := by
  have h01 : ¬ (1 : ℝ) < 0 := by norm_num
  have h84 : (8 : ℝ) / 2 = 4 := by norm_num
  simp [attempt, modelFit, AlgorithmCall.program, exCrashJml, jmlFitCall, jmlLoop, jmlBatchLoop, jmlStep, newAdam, storeData, crash_bind_def,
    Crash.bind, eval, stmt, appendData, exCrashWorld, h01, exCrashTrainer, trainIteration, LoopState.start, Except.mapError, h84]

example : (attempt (exCrashJml (.ok 0) [[0]] 3) (some 5) exCrashWorld).2.attached = false :=
  (C120_crash _ _ _ (by rw [exCrashJml_interrupted.1]; simp)).1

/-- The interrupted call, repeated from the old parameters. -/
example : (attempt (exCrashJml (.ok 0) [[0]] 3) none
    { (attempt (exCrashJml (.ok 0) [[0]] 3) (some 5) exCrashWorld).2 with params := exCrashWorld.params }).1 = none := by
  rw [(C120_retry _ _ _).1]
  exact C120_completes _ _ (exCrashJml_ok 3).1 (exCrashJml_ok 3).2

/-- Two models with the same parameters, one of them used before. -/
example : SameStart (exCrashAe (some "zero") 3) exCrashWorld
    { exCrashWorld with history := [some 1], scores := some 2, encoder := some (3, false), training := true } := ⟨rfl, rfl, fun _ => rfl⟩

/-- A call with an autoencoder that completes. -/
theorem exCrashAe_completes : (attempt (exCrashAe (some "zero") 3) none exCrashWorld).1 = none := by
  have h01 : ¬ (1 : ℝ) < 0 := by norm_num
  refine C120_completes _ _ ?_ ⟨fun i b s => ⟨_, rfl⟩, one_ne_zero, fun bs hbs e => ?_⟩
  · rintro (⟨o, ho, -⟩ | ⟨-, h⟩ | ⟨e, he⟩ | hl)
    · simp [exCrashWorld] at ho
    · simp at h
    · simp at he
    · exact h01 hl
  · rw [← Except.ok.inj hbs]
    simp

example : ∃ x, (attempt (exCrashAe (some "zero") 3) none exCrashWorld).2.encoder = some (x, false) ∧
    (attempt (exCrashAe (some "zero") 3) none exCrashWorld).2.scores = some x := by
  obtain ⟨n, x, -, h1, h2⟩ := C120_encoder _ none exCrashWorld exCrashAe_completes
  exact ⟨x, h1, h2⟩

end Irt
