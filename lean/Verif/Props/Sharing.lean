import Verif.Model.Sharing
import Verif.Lemmas.Splits
import Verif.Lemmas.LogLik
import Verif.Lemmas.MonoModels

/-!
# C83 Algorithm objects and histories of fits, and C84 `fit_multiple_models_cpu`
-/

namespace Irt

variable {σ π : Type}

/-! ## C83 -/

theorem Session.run_cons (w : Session σ) (c : FitCall σ) (h : List (FitCall σ)) :
    w.run (c :: h) = (w.fit c).1.run h := rfl

theorem Session.run_append (w : Session σ) (h h' : List (FitCall σ)) : w.run (h ++ h') = (w.run h).run h' := by
  simp [Session.run]

theorem Session.fit_other_alg (w : Session σ) (c : FitCall σ) (a : ℕ) (h : c.alg ≠ a) : (w.fit c).1.algs a = w.algs a := by
  simp [Session.fit, Function.update_of_ne (Ne.symm h)]

theorem Session.run_other_alg (w : Session σ) (h : List (FitCall σ)) (a : ℕ) (ha : ∀ c ∈ h, c.alg ≠ a) :
    (w.run h).algs a = w.algs a := by
  induction h generalizing w with
  | nil => rfl
  | cons c h ih =>
    rw [Session.run_cons, ih _ fun c' hc' => ha c' (List.mem_cons_of_mem _ hc'),
      Session.fit_other_alg _ _ _ (ha c (List.mem_cons_self))]

/-- **C83** What a model reads from its algorithm object does not change as long as later calls use other algorithm objects
and do not fit this model, or try to and raise. -/
theorem C83_unaffected (w : Session σ) (m : ℕ) (h : List (FitCall σ))
    (hm : ∀ c ∈ h, c.model ≠ m ∨ c.raised ≠ none) (ha : ∀ c ∈ h, w.algorithm m ≠ some c.alg) :
    (w.run h).seenBy m = w.seenBy m := by
  induction h generalizing w with
  | nil => rfl
  | cons c h ih =>
    have hc := hm c (List.mem_cons_self)
    have hp : (w.fit c).1.algorithm m = w.algorithm m := by
      simp only [Session.fit]
      split
      · rename_i hr
        rcases hc with hc | hc
        · rw [Function.update_of_ne (Ne.symm hc)]
        · exfalso
          apply hc
          unfold AlgObject.fit at hr
          split at hr
          · exact hr
          · simp at hr
      · rfl
    rw [Session.run_cons, ih _ (fun c' hc' => hm c' (List.mem_cons_of_mem _ hc'))
      (by rw [hp]; exact fun c' hc' => ha c' (List.mem_cons_of_mem _ hc'))]
    unfold Session.seenBy
    rw [hp]
    cases h0 : w.algorithm m with
    | none => rfl
    | some a =>
      have : c.alg ≠ a := fun e => ha c (List.mem_cons_self) (by rw [h0, e])
      simp [Session.fit_other_alg _ _ _ this]

/-- **C83** A model fitted with an algorithm object that no other call uses, before or after, sees exactly the data of its
own fit and what that fit left behind, whatever else is fitted in the session. -/
theorem C83_own_algorithm (before after : List (FitCall σ)) (c : FitCall σ) (hc : c.raised = none)
    (hb : ∀ c' ∈ before, c'.alg ≠ c.alg) (ha : ∀ c' ∈ after, c'.alg ≠ c.alg)
    (hm : ∀ c' ∈ after, c'.model ≠ c.model ∨ c'.raised ≠ none) :
    (({} : Session σ).run (before ++ c :: after)).seenBy c.model
      = some { trainData := some c.data, fitted := some c.left } := by
  rw [Session.run_append, Session.run_cons]
  set w := ({} : Session σ).run before with hw
  have hfresh : w.algs c.alg = {} := by rw [hw, Session.run_other_alg _ _ _ hb]
  have hfit : (w.algs c.alg).fit c.data c.left c.raised = (⟨some c.data, some c.left⟩, none) := by
    rw [hfresh, hc]; rfl
  have hptr : (w.fit c).1.algorithm c.model = some c.alg := by simp [Session.fit, hfit]
  rw [C83_unaffected _ _ _ hm (by rw [hptr]; intro c' hc' e; exact ha c' hc' (Option.some.inj e).symm)]
  simp [Session.seenBy, hptr]
  simp [Session.fit, hfit]

/-- **C83** Two models fitted one after the other with the same algorithm object, on data with the same number of items: both
then see the rows of both data sets, and what the second fit left behind is what the *first* model reads. -/
theorem C83_same_algorithm (m₁ m₂ a width : ℕ) (r₁ r₂ : List (List Cell)) (s₁ s₂ : σ) :
    let w := ({} : Session σ).run [⟨m₁, a, ⟨width, r₁⟩, s₁, none⟩, ⟨m₂, a, ⟨width, r₂⟩, s₂, none⟩]
    w.seenBy m₁ = some { trainData := some ⟨width, r₁ ++ r₂⟩, fitted := some s₂ } ∧ w.seenBy m₂ = w.seenBy m₁ := by
  have hp : ∀ m ∈ [m₁, m₂], Function.update (Function.update (fun _ => (none : Option ℕ)) m₁ (some a)) m₂ (some a) m = some a := by
    intro m hm
    by_cases h : m = m₂
    · simp [h]
    · rw [Function.update_of_ne h]
      simp only [List.mem_cons, List.not_mem_nil, or_false] at hm
      rcases hm with rfl | rfl
      · simp
      · exact absurd rfl h
  simp [Session.run, Session.fit, AlgObject.fit, appendData, Session.seenBy, hp]

/-- **C83** Fitting another model does not leave a model's own training data and scores alone in general: not when it is
given the same algorithm object. -/
theorem C83_other_model_false :
    ¬ ∀ (h : List (FitCall ℕ)) (c : FitCall ℕ) (m : ℕ), c.model ≠ m →
      ((({} : Session ℕ).run h).fit c).1.seenBy m = (({} : Session ℕ).run h).seenBy m := by
  intro h
  have h0 := h [⟨0, 0, ⟨1, [[some 0]]⟩, 0, none⟩] ⟨1, 0, ⟨1, [[some 1]]⟩, 1, none⟩ 0 (by decide)
  have := congrArg (fun o => o.bind AlgObject.fitted) h0
  simp [Session.run, Session.fit, AlgObject.fit, appendData, Session.seenBy] at this

/-- **C83** An algorithm object that has been given data cannot be used for data with another number of items: the call
raises and nothing changes. -/
theorem C83_other_items (w : Session σ) (c : FitCall σ) (d : DataTensor) (hd : (w.algs c.alg).trainData = some d)
    (hw : d.width ≠ c.data.width) :
    (w.fit c).2 = some .runtimeError ∧ ∀ m, (w.fit c).1.seenBy m = w.seenBy m := by
  have hf : (w.algs c.alg).fit c.data c.left c.raised = (w.algs c.alg, some .runtimeError) := by
    simp [AlgObject.fit, appendData, hd, hw]
  refine ⟨by simp [Session.fit, hf], fun m => ?_⟩
  simp [Session.fit, hf, Session.seenBy]

/-- **C83** The rows stored in an algorithm object are those of all calls that used it, in order, whichever models they
fitted and whether or not they raised, if all data has the same number of items. -/
theorem C83_rows (h : List (FitCall σ)) (a width : ℕ) (hw : ∀ c ∈ h, c.data.width = width)
    (hne : ∃ c ∈ h, c.alg = a) :
    ((({} : Session σ).run h).algs a).trainData
      = some ⟨width, (h.filter fun c => c.alg = a).flatMap fun c => c.data.rows⟩ := by
  have key : ∀ (w : Session σ) (h : List (FitCall σ)) (old : Option (List (List Cell))),
      (w.algs a).trainData = old.map (⟨width, ·⟩) → (∀ c ∈ h, c.data.width = width) →
      ((w.run h).algs a).trainData =
        if (old = none ∧ ¬ ∃ c ∈ h, c.alg = a) then none
        else some ⟨width, old.getD [] ++ (h.filter fun c => c.alg = a).flatMap fun c => c.data.rows⟩ := by
    intro w h
    induction h generalizing w with
    | nil => intro old ho _; cases old <;> simp [Session.run, ho]
    | cons c h ih =>
      intro old ho hwid
      rw [Session.run_cons]
      have hcw := hwid c (List.mem_cons_self)
      by_cases hca : c.alg = a
      · rw [ih (w.fit c).1 (some (old.getD [] ++ c.data.rows)) ?_ fun c' hc' => hwid c' (List.mem_cons_of_mem _ hc')]
        · simp [hca]
        · subst hca
          cases old with
          | none =>
            simp only [Option.map_none] at ho
            simp [Session.fit, AlgObject.fit, appendData, ho, ← hcw]
          | some r =>
            simp only [Option.map_some] at ho
            simp [Session.fit, AlgObject.fit, appendData, ho, hcw]
      · rw [ih (w.fit c).1 old (by rw [Session.fit_other_alg _ _ _ hca, ho])
          fun c' hc' => hwid c' (List.mem_cons_of_mem _ hc')]
        simp [hca]
  rw [key {} h none rfl hw]
  simp [hne]

/-- Three fits, the first and the last with the same algorithm object. -/
def exHistory : List (FitCall ℕ) :=
  [⟨0, 0, ⟨2, [[some 0, some 1]]⟩, 10, none⟩, ⟨1, 1, ⟨2, [[some 1, none]]⟩, 11, none⟩, ⟨2, 0, ⟨2, [[some 1, some 1]]⟩, 12, some .valueError⟩]

example : ∃ s, (({} : Session ℕ).run exHistory).seenBy 1 = some s ∧ s.fitted = some 11 :=
  ⟨_, C83_own_algorithm [⟨0, 0, ⟨2, [[some 0, some 1]]⟩, 10, none⟩] [⟨2, 0, ⟨2, [[some 1, some 1]]⟩, 12, some .valueError⟩]
    ⟨1, 1, ⟨2, [[some 1, none]]⟩, 11, none⟩ rfl (by simp) (by simp) (by simp), rfl⟩

example : ((({} : Session ℕ).run exHistory).algs 0).trainData = some ⟨2, [[some 0, some 1], [some 1, some 1]]⟩ := by
  rw [C83_rows exHistory 0 2 (by simp [exHistory]) (by simp [exHistory])]
  simp [exHistory]

/-! ## C84 -/

/-- The arrivals, one after the other, with a first exception and a store so far. -/
theorem collect_fold {β : Type} (schedule : List ℕ) (results : ℕ → Except PyErr β) (s : Option PyErr × (ℕ → Option β))
    (step : Option PyErr × (ℕ → Option β) → ℕ → Option PyErr × (ℕ → Option β))
    (hstep : step = fun s i => match results i with
      | .ok v => (s.1, Function.update s.2 i (some v))
      | .error e => (some (s.1.getD e), s.2)) :
    ((∀ i ∈ schedule, ∃ v, results i = .ok v) →
      (schedule.foldl step s).1 = s.1 ∧
      ∀ i, (schedule.foldl step s).2 i = if i ∈ schedule then (results i).toOption else s.2 i) ∧
    ((∃ i ∈ schedule, ∃ e, results i = .error e) ∨ s.1 ≠ none →
      ∃ e, (schedule.foldl step s).1 = some e ∧ (s.1 = some e ∨ ∃ i ∈ schedule, results i = .error e)) := by
  induction schedule generalizing s with
  | nil =>
    refine ⟨fun _ => by simp, ?_⟩
    rintro (⟨i, hi, _⟩ | h)
    · simp at hi
    · obtain ⟨e, he⟩ := Option.ne_none_iff_exists'.1 h
      exact ⟨e, by simpa using he, .inl he⟩
  | cons j js ih =>
    obtain ⟨ih1, ih2⟩ := ih (step s j)
    rw [List.foldl_cons]
    cases hj : results j with
    | ok v =>
      have hs : step s j = (s.1, Function.update s.2 j (some v)) := by simp [hstep, hj]
      rw [hs] at ih1 ih2 ⊢
      constructor
      · intro hall
        obtain ⟨h1, h2⟩ := ih1 fun i hi => hall i (List.mem_cons_of_mem _ hi)
        refine ⟨h1, fun i => ?_⟩
        rw [h2 i]
        by_cases hi : i ∈ js
        · simp [hi]
        · by_cases hij : i = j
          · subst hij; simp [hi, hj, Except.toOption]
          · simp [hi, hij, Function.update_of_ne]
      · intro h
        obtain ⟨e, he, h'⟩ := ih2 (by
          rcases h with ⟨i, hi, e, he⟩ | h
          · rcases List.mem_cons.1 hi with rfl | hi
            · rw [hj] at he; cases he
            · exact .inl ⟨i, hi, e, he⟩
          · exact .inr h)
        exact ⟨e, he, h'.imp id fun ⟨i, hi, h⟩ => ⟨i, List.mem_cons_of_mem _ hi, h⟩⟩
    | error e =>
      have hs : step s j = (some (s.1.getD e), s.2) := by simp [hstep, hj]
      rw [hs] at ih1 ih2 ⊢
      constructor
      · intro hall
        obtain ⟨v, hv⟩ := hall j (List.mem_cons_self)
        rw [hj] at hv; cases hv
      · intro _
        obtain ⟨e', he', h'⟩ := ih2 (.inr (by simp))
        refine ⟨e', he', ?_⟩
        rcases h' with h' | ⟨i, hi, h⟩
        · cases h0 : s.1 with
          | none =>
            simp only [h0, Option.getD_none, Option.some.injEq] at h'
            exact .inr ⟨j, List.mem_cons_self, by rw [hj, h']⟩
          | some e0 =>
            simp only [h0, Option.getD_some] at h'
            exact .inl h'
        · exact .inr ⟨i, List.mem_cons_of_mem _ hi, h⟩

theorem poolCollect_ok {β : Type} (schedule : List ℕ) (results : ℕ → Except PyErr β) (n : ℕ)
    (hs : schedule.Perm (List.range n)) (v : ℕ → β) (h : ∀ i < n, results i = .ok (v i)) :
    poolCollect schedule results n = .ok ((List.range n).map fun i => some (v i)) := by
  have hm : ∀ i, i ∈ schedule ↔ i < n := fun i => by rw [hs.mem_iff, List.mem_range]
  have key := (collect_fold schedule results (none, fun _ => none) _ rfl).1
    fun i hi => ⟨_, h i ((hm i).1 hi)⟩
  unfold poolCollect
  simp only
  generalize hf : schedule.foldl _ _ = r at key ⊢
  obtain ⟨r1, r2⟩ := r
  obtain ⟨k1, k2⟩ := key
  simp only at k1 k2
  subst k1
  simp only [Except.ok.injEq]
  apply List.map_congr_left
  intro i hi
  rw [k2 i, if_pos ((hm i).2 (List.mem_range.1 hi)), h i (List.mem_range.1 hi)]
  rfl

theorem poolCollect_error {β : Type} (schedule : List ℕ) (results : ℕ → Except PyErr β) (n : ℕ)
    (hs : schedule.Perm (List.range n)) (h : ∃ i < n, ∃ e, results i = .error e) :
    ∃ e, poolCollect schedule results n = .error e ∧ ∃ i < n, results i = .error e := by
  have hm : ∀ i, i ∈ schedule ↔ i < n := fun i => by rw [hs.mem_iff, List.mem_range]
  obtain ⟨i, hi, e, he⟩ := h
  obtain ⟨e', h1, h2⟩ := (collect_fold schedule results (none, fun _ => none) _ rfl).2
    (.inl ⟨i, (hm i).2 hi, e, he⟩)
  refine ⟨e', ?_, ?_⟩
  · unfold poolCollect
    simp only
    generalize hf : schedule.foldl _ _ = r at h1 ⊢
    obtain ⟨r1, r2⟩ := r
    simp only at h1
    subst h1
    rfl
  · rcases h2 with h2 | ⟨j, hj, h2⟩
    · simp at h2
    · exact ⟨j, (hm j).1 hj, h2⟩

/-- The stored data can be extended by `data`. -/
def Fits (a : AlgObject σ) (data : DataTensor) : Prop := ∀ d, a.trainData = some d → d.width = data.width

theorem appendData_ok (a : AlgObject σ) (data : DataTensor) (h : Fits a data) :
    ∃ d, appendData a.trainData data = .ok d ∧ d.width = data.width := by
  cases ha : a.trainData with
  | none => exact ⟨_, rfl, rfl⟩
  | some d => exact ⟨⟨d.width, d.rows ++ data.rows⟩, by simp [appendData, h d ha], h d ha⟩

theorem runChunk_ok (train : ℕ → Except PyErr (π × σ)) (data : DataTensor) (a : AlgObject σ) (ks : List ℕ)
    (h : Fits a data) (hk : ∀ k ∈ ks, ∃ r, train k = .ok r) :
    ∃ ps a', runChunk train data a ks = .ok (ps, a') ∧ List.Forall₂ (fun k p => ∃ s, train k = .ok (p, s)) ks ps := by
  induction ks generalizing a with
  | nil => exact ⟨[], a, rfl, .nil⟩
  | cons k ks ih =>
    obtain ⟨d, hd, hw⟩ := appendData_ok a data h
    obtain ⟨⟨p, s⟩, hr⟩ := hk k (List.mem_cons_self)
    obtain ⟨ps, a', h1, h2⟩ := ih ⟨some d, some s⟩ (by intro d' hd'; simp only [Option.some.injEq] at hd'; rw [← hd', hw])
      fun k' hk' => hk k' (List.mem_cons_of_mem _ hk')
    exact ⟨p :: ps, a', by simp [runChunk, hd, hr, h1, bind, Except.bind, pure, Except.pure], .cons ⟨s, hr⟩ h2⟩

theorem runChunk_error (train : ℕ → Except PyErr (π × σ)) (data : DataTensor) (a : AlgObject σ) (ks : List ℕ)
    (h : Fits a data) (e : PyErr) (he : runChunk train data a ks = .error e) : ∃ k ∈ ks, train k = .error e := by
  induction ks generalizing a with
  | nil => simp [runChunk] at he
  | cons k ks ih =>
    obtain ⟨d, hd, hw⟩ := appendData_ok a data h
    cases hr : train k with
    | error e' =>
      simp [runChunk, hd, hr, bind, Except.bind] at he
      exact ⟨k, List.mem_cons_self, by rw [hr, he]⟩
    | ok r =>
      cases hrest : runChunk train data ⟨some d, some r.2⟩ ks with
      | ok x => simp [runChunk, hd, hr, hrest, bind, Except.bind, pure, Except.pure] at he
      | error e' =>
        simp [runChunk, hd, hr, hrest, bind, Except.bind] at he
        subst he
        obtain ⟨k', hk', h'⟩ := ih ⟨some d, some r.2⟩ (by intro d' hd'; simp only [Option.some.injEq] at hd'; rw [← hd', hw]) hrest
        exact ⟨k', List.mem_cons_of_mem _ hk', h'⟩

/-- The number of chunks that are sent to the workers. -/
def poolChunks (n cores : ℕ) : ℕ := (blocks (poolChunkSize n cores - 1) (List.range n)).length

theorem fitMultiple_ok (train : ℕ → Except PyErr (π × σ)) (data : DataTensor) (a : AlgObject σ) (n : ℕ)
    (coresToUse : Option ℕ) (cpus : ℕ) (schedule : List ℕ) (hc : coresToUse.getD (min n cpus) ≠ 0)
    (hs : schedule.Perm (List.range (poolChunks n (coresToUse.getD (min n cpus)))))
    (v : List ℕ → List (π × AlgObject σ))
    (hv : ∀ b ∈ blocks (poolChunkSize n (coresToUse.getD (min n cpus)) - 1) (List.range n),
      chunkResult train data a b = .ok (v b)) :
    fitMultiple train data a n coresToUse cpus schedule
      = .ok ((blocks (poolChunkSize n (coresToUse.getD (min n cpus)) - 1) (List.range n)).flatMap v) := by
  unfold fitMultiple
  simp only [hc, if_false]
  generalize hb : blocks (poolChunkSize n (coresToUse.getD (min n cpus)) - 1) (List.range n) = bs at hv ⊢
  have hp := poolCollect_ok schedule (fun i => chunkResult train data a (bs.getD i [])) bs.length
    (by rw [← hb]; exact hs) (fun i => v (bs.getD i [])) (by
      intro i hi
      apply hv
      rw [List.getD_eq_getElem _ _ hi]
      exact List.getElem_mem hi)
  simp only [hp, bind, Except.bind, pure, Except.pure, Except.ok.injEq, List.map_map]
  rw [List.flatMap_def]
  congr 1
  apply List.ext_getElem (by simp)
  intro i h1 h2
  have hi : i < bs.length := by simpa using h2
  simp [List.getElem?_eq_getElem hi]

theorem chunkResult_ok (train : ℕ → Except PyErr (π × σ)) (data : DataTensor) (a : AlgObject σ) (ks : List ℕ)
    (h : Fits a data) (hk : ∀ k ∈ ks, ∃ r, train k = .ok r) :
    ∃ rs, chunkResult train data a ks = .ok rs ∧
      List.Forall₂ (fun k (r : π × AlgObject σ) => ∃ s, train k = .ok (r.1, s)) ks rs := by
  obtain ⟨ps, a', h1, h2⟩ := runChunk_ok train data a ks h hk
  refine ⟨ps.map fun p => (p, a'), by simp [chunkResult, h1, bind, Except.bind, pure, Except.pure], ?_⟩
  rw [List.forall₂_map_right_iff]
  exact h2

/-- **C84** Whatever the order in which the workers finish, if every fit succeeds the call returns one fitted model per given
model, in the order given. -/
theorem C84_order (train : ℕ → Except PyErr (π × σ)) (data : DataTensor) (a : AlgObject σ) (n : ℕ)
    (coresToUse : Option ℕ) (cpus : ℕ) (schedule : List ℕ) (hc : coresToUse.getD (min n cpus) ≠ 0)
    (hs : schedule.Perm (List.range (poolChunks n (coresToUse.getD (min n cpus)))))
    (ha : ∀ d, a.trainData = some d → d.width = data.width) (hk : ∀ k < n, ∃ r, train k = .ok r) :
    ∃ rs, fitMultiple train data a n coresToUse cpus schedule = .ok rs ∧ rs.length = n ∧
      ∀ (k : ℕ) (r : π × AlgObject σ), rs[k]? = some r → ∃ s, train k = .ok (r.1, s) := by
  classical
  set bs := blocks (poolChunkSize n (coresToUse.getD (min n cpus)) - 1) (List.range n) with hbs
  have hb : ∀ b ∈ bs, ∀ k ∈ b, k < n := by
    intro b hb k hk
    have : k ∈ bs.flatten := List.mem_flatten.2 ⟨b, hb, hk⟩
    rw [hbs, blocks_flatten] at this
    exact List.mem_range.1 this
  have hex : ∀ b, ∃ rs, b ∈ bs → chunkResult train data a b = .ok rs ∧
      List.Forall₂ (fun k (r : π × AlgObject σ) => ∃ s, train k = .ok (r.1, s)) b rs := by
    intro b
    by_cases h : b ∈ bs
    · obtain ⟨rs, h1⟩ := chunkResult_ok train data a b ha fun k hk' => hk k (hb b h k hk')
      exact ⟨rs, fun _ => h1⟩
    · exact ⟨[], fun h' => absurd h' h⟩
  choose v hv using hex
  have hres := fitMultiple_ok train data a n coresToUse cpus schedule hc hs v fun b h => (hv b h).1
  have hF : List.Forall₂ (fun k (r : π × AlgObject σ) => ∃ s, train k = .ok (r.1, s)) (List.range n) (bs.flatMap v) := by
    have hfl : List.range n = bs.flatten := (blocks_flatten _ _).symm
    rw [hfl]
    have : ∀ l : List (List ℕ), (∀ b ∈ l, b ∈ bs) →
        List.Forall₂ (fun k (r : π × AlgObject σ) => ∃ s, train k = .ok (r.1, s)) l.flatten (l.flatMap v) := by
      intro l
      induction l with
      | nil => intro _; exact .nil
      | cons b l ih =>
        intro hl
        rw [List.flatten_cons, List.flatMap_cons]
        exact List.rel_append (hv b (hl b (List.mem_cons_self))).2 (ih fun b' hb' => hl b' (List.mem_cons_of_mem _ hb'))
    exact this bs fun _ h => h
  refine ⟨_, hres, by rw [← hF.length_eq, List.length_range], ?_⟩
  intro k r hr
  obtain ⟨hlt, rfl⟩ := List.getElem?_eq_some_iff.1 hr
  have hkn : k < (List.range n).length := by rw [hF.length_eq]; exact hlt
  have := hF.get hkn hlt
  simpa using this

/-- **C84** If some fit raises, the call raises, whatever the order in which the workers finish, and the exception is that of
one of the fits. -/
theorem C84_error (train : ℕ → Except PyErr (π × σ)) (data : DataTensor) (a : AlgObject σ) (n : ℕ)
    (coresToUse : Option ℕ) (cpus : ℕ) (schedule : List ℕ) (hc : coresToUse.getD (min n cpus) ≠ 0)
    (hs : schedule.Perm (List.range (poolChunks n (coresToUse.getD (min n cpus)))))
    (ha : ∀ d, a.trainData = some d → d.width = data.width) (hk : ∃ k < n, ∃ e, train k = .error e) :
    ∃ e, fitMultiple train data a n coresToUse cpus schedule = .error e ∧ ∃ k < n, train k = .error e := by
  unfold fitMultiple
  simp only [hc, if_false]
  have hs' := hs
  unfold poolChunks at hs'
  generalize hbs : blocks (poolChunkSize n (coresToUse.getD (min n cpus)) - 1) (List.range n) = bs at hs' ⊢
  have hfl : bs.flatten = List.range n := by rw [← hbs, blocks_flatten]
  have hrun : ∀ i < bs.length, ∀ e, chunkResult train data a (bs.getD i []) = .error e → ∃ k < n, train k = .error e := by
    intro i hi e he
    rw [List.getD_eq_getElem _ _ hi] at he
    have : runChunk train data a bs[i] = .error e := by
      cases h : runChunk train data a bs[i] with
      | ok x => simp [chunkResult, h, bind, Except.bind, pure, Except.pure] at he
      | error e' => simpa [chunkResult, h, bind, Except.bind] using he
    obtain ⟨k, hk, h⟩ := runChunk_error train data a _ ha e this
    refine ⟨k, ?_, h⟩
    have : k ∈ bs.flatten := List.mem_flatten.2 ⟨bs[i], List.getElem_mem hi, hk⟩
    rw [hfl] at this
    exact List.mem_range.1 this
  have hex : ∃ i < bs.length, ∃ e, chunkResult train data a (bs.getD i []) = .error e := by
    obtain ⟨k, hkn, e, he⟩ := hk
    have hmem : k ∈ bs.flatten := by rw [hfl]; exact List.mem_range.2 hkn
    obtain ⟨b, hb, hkb⟩ := List.mem_flatten.1 hmem
    obtain ⟨i, hi, rfl⟩ := List.getElem_of_mem hb
    refine ⟨i, hi, ?_⟩
    rw [List.getD_eq_getElem _ _ hi]
    have hno : ∀ (a : AlgObject σ) (ks : List ℕ), k ∈ ks → ∀ x, runChunk train data a ks ≠ .ok x := by
      intro a ks
      induction ks generalizing a with
      | nil => intro h; simp at h
      | cons k' ks ih =>
        intro hmem x hx
        rw [runChunk] at hx
        obtain ⟨d, hd, hx⟩ := bind_eq_ok hx
        obtain ⟨r, hr, hx⟩ := bind_eq_ok hx
        obtain ⟨rest, hrest, hx⟩ := bind_eq_ok hx
        rcases List.mem_cons.1 hmem with rfl | hmem
        · rw [he] at hr; cases hr
        · exact ih _ hmem _ hrest
    cases h : runChunk train data a bs[i] with
    | ok x => exact absurd h (hno a _ hkb x)
    | error e' => exact ⟨e', by simp [chunkResult, h, bind, Except.bind]⟩
  obtain ⟨e, h1, i, hi, h2⟩ := poolCollect_error schedule (fun i => chunkResult train data a (bs.getD i [])) bs.length hs' hex
  exact ⟨e, by simp only [h1, bind, Except.bind, pure, Except.pure], hrun i hi e h2⟩

theorem blocks_zero {α : Type} (xs : List α) : blocks 0 xs = xs.map fun x => [x] := by
  induction xs with
  | nil => simp [blocks]
  | cons x xs ih => rw [blocks]; simp [ih]

theorem poolChunkSize_small {n cores : ℕ} (h : n ≤ 4 * cores) : poolChunkSize n cores - 1 = 0 := by
  unfold poolChunkSize
  rcases Nat.lt_or_ge n (cores * 4) with h' | h'
  · rw [Nat.div_eq_of_lt h']; split <;> omega
  · have : n = cores * 4 := by omega
    rw [← this]
    rcases Nat.eq_zero_or_pos n with h0 | h0
    · simp [h0]
    · rw [Nat.div_self h0, Nat.mod_self]; rfl

/-- **C84, partial** With at most four models per process, every returned model has its own algorithm object, holding the
training data once and what its own fit left behind. Missing: more models than that. -/
theorem C84_separate_partial (train : ℕ → Except PyErr (π × σ)) (data : DataTensor) (n : ℕ)
    (coresToUse : Option ℕ) (cpus : ℕ) (schedule : List ℕ) (hc : coresToUse.getD (min n cpus) ≠ 0)
    (hs : schedule.Perm (List.range (poolChunks n (coresToUse.getD (min n cpus)))))
    (hn : n ≤ 4 * coresToUse.getD (min n cpus)) (p : ℕ → π) (s : ℕ → σ) (hk : ∀ k < n, train k = .ok (p k, s k)) :
    fitMultiple train data {} n coresToUse cpus schedule
      = .ok ((List.range n).map fun k => (p k, { trainData := some data, fitted := some (s k) })) := by
  have hz := poolChunkSize_small hn
  rw [fitMultiple_ok train data {} n coresToUse cpus schedule hc hs
    (fun b => b.map fun k => (p k, { trainData := some data, fitted := some (s k) }))]
  · rw [hz, blocks_zero, List.flatMap_map]
    simp [List.map_eq_flatMap]
  · rw [hz, blocks_zero]
    intro b hb
    obtain ⟨k, hkn, rfl⟩ := List.mem_map.1 hb
    simp [chunkResult, runChunk, appendData, hk k (List.mem_range.1 hkn), bind, Except.bind, pure, Except.pure]

/-- **C84** With more than four models per process models share an algorithm object: of five models fitted on one core, the
first reads the encoder and scores that fitting the second left behind, and has its training data twice. -/
theorem C84_shared_false (data : DataTensor) (cpus : ℕ) (schedule : List ℕ) (hs : schedule.Perm [0, 1, 2])
    (p : ℕ → π) (s : ℕ → σ) :
    ∃ rs, fitMultiple (fun k => .ok (p k, s k)) data {} 5 (some 1) cpus schedule = .ok rs ∧
      rs[0]? = some (p 0, { trainData := some ⟨data.width, data.rows ++ data.rows⟩, fitted := some (s 1) }) := by
  have hb : blocks (poolChunkSize 5 ((some 1).getD (min 5 cpus)) - 1) (List.range 5) = [[0, 1], [2, 3], [4]] := by
    simp [poolChunkSize, List.range_succ, blocks]
  refine ⟨_, fitMultiple_ok (fun k => .ok (p k, s k)) data {} 5 (some 1) cpus schedule (by simp)
    (by unfold poolChunks; rw [hb]; exact hs)
    (fun b => if b = [4] then [(p 4, ⟨some data, some (s 4)⟩)] else b.map fun k => (p k,
      ⟨some ⟨data.width, data.rows ++ data.rows⟩, some (s (b.getD 1 0))⟩)) ?_, ?_⟩
  · rw [hb]
    intro b hb
    simp only [List.mem_cons, List.not_mem_nil, or_false] at hb
    rcases hb with rfl | rfl | rfl <;>
      simp [chunkResult, runChunk, appendData, bind, Except.bind, pure, Except.pure]
  · rw [hb]; simp

/-- **C84** An empty list of models is refused with a `ValueError` unless the number of cores is given; with a positive
number of cores the result is the empty list. -/
theorem C84_no_models (train : ℕ → Except PyErr (π × σ)) (data : DataTensor) (a : AlgObject σ) (cpus cores : ℕ) :
    fitMultiple train data a 0 none cpus [] = .error .valueError ∧
    (cores ≠ 0 → fitMultiple train data a 0 (some cores) cpus [] = .ok []) := by
  constructor
  · simp [fitMultiple, throw, throwThe, MonadExceptOf.throw, bind, Except.bind]
  · intro h
    simp [fitMultiple, h, blocks, poolCollect, bind, Except.bind, pure, Except.pure]

example : poolChunks 5 1 = 3 := by simp [poolChunks, blocks_length, poolChunkSize]

/-- Five models on two cores, finished in an arbitrary order, the third of which raises. -/
example (schedule : List ℕ) (hs : schedule.Perm (List.range 5)) :
    fitMultiple (fun k => if k = 2 then .error .runtimeError else .ok (k, k)) ⟨1, [[some 0]]⟩ {} 5 (some 2) 8 schedule
      = .error .runtimeError := by
  obtain ⟨e, h, k, hk, he⟩ := C84_error (fun k => if k = 2 then .error .runtimeError else .ok (k, k)) ⟨1, [[some 0]]⟩ {} 5
    (some 2) 8 schedule (by simp) (by simpa [poolChunks, blocks_length, poolChunkSize] using hs) (by simp)
    ⟨2, by omega, .runtimeError, by simp⟩
  by_cases h2 : k = 2
  · simp only [h2, if_true, Except.error.injEq] at he; rw [h, he]
  · simp [h2] at he

example (schedule : List ℕ) (hs : schedule.Perm (List.range 5)) :
    ∃ rs, fitMultiple (fun k => .ok (k, k)) ⟨1, [[some 0]]⟩ {} 5 (some 2) 8 schedule = .ok rs ∧ rs.map (·.1) = [0, 1, 2, 3, 4] := by
  refine ⟨_, C84_separate_partial (fun k => .ok (k, k)) ⟨1, [[some 0]]⟩ 5 (some 2) 8 schedule (by simp)
    (by simpa [poolChunks, blocks_length, poolChunkSize] using hs) (by simp) id id (by simp), by simp [List.range_succ]⟩

end Irt
