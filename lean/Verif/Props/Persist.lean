import Verif.Model.Persist
import Mathlib.Data.List.Nodup

/-!
# C64: `save_model` and `load_model`
-/

namespace Irt

variable {H A Sc : Type} {d : ℕ}

/-- Same names and shapes of the tensors, in the same order, without repeated names. -/
def SameLayout (a b : StateDict) : Prop :=
  a.map (fun e => (e.1, e.2.shape)) = b.map (fun e => (e.1, e.2.shape)) ∧ (a.map Prod.fst).Nodup

/-- The two state dictionaries have the same names and every name has the same shape. -/
def Compatible (a b : StateDict) : Prop :=
  ∀ name, (a.lookup name).map StoredTensor.shape = (b.lookup name).map StoredTensor.shape

theorem lookup_of_nodup (s : StateDict) (h : (s.map Prod.fst).Nodup) (e : String × StoredTensor) (he : e ∈ s) :
    s.lookup e.1 = some e.2 := by
  induction s with
  | nil => cases he
  | cons a l ih =>
    rw [List.map_cons, List.nodup_cons] at h
    obtain ⟨n, t⟩ := a
    rcases List.mem_cons.1 he with rfl | he'
    · simp [List.lookup]
    · have : e.1 ≠ n := fun hh => h.1 (by rw [← hh]; exact List.mem_map.2 ⟨e, he', rfl⟩)
      rw [List.lookup_cons, show (e.1 == n) = false by simpa using this]
      exact ih h.2 he'

theorem lookup_shape (a b : StateDict) (h : a.map (fun e => (e.1, e.2.shape)) = b.map (fun e => (e.1, e.2.shape)))
    (name : String) : (a.lookup name).map StoredTensor.shape = (b.lookup name).map StoredTensor.shape := by
  induction a generalizing b with
  | nil =>
    obtain rfl : b = [] := by simpa using h.symm
    rfl
  | cons x l ih =>
    cases b with
    | nil => simp at h
    | cons y l' =>
      obtain ⟨n, t⟩ := x
      obtain ⟨n', t'⟩ := y
      simp only [List.map_cons, List.cons.injEq, Prod.mk.injEq] at h
      obtain ⟨⟨rfl, hs⟩, h2⟩ := h
      simp only [List.lookup_cons]
      cases name == n
      · exact ih l' h2
      · simp [hs]

theorem loadStateDict_ok (own incoming : StateDict) (h : Compatible own incoming) (hn : (own.map Prod.fst).Nodup) :
    (loadStateDict own incoming).2 = none := by
  unfold loadStateDict
  simp only
  rw [if_neg]
  simp only [Bool.or_eq_true, not_or, Bool.not_eq_true, List.any_eq_false]
  constructor
  · intro e he
    have h1 := h e.1
    rw [lookup_of_nodup own hn e he] at h1
    obtain ⟨t, ht, hs⟩ := Option.map_eq_some_iff.1 h1.symm
    rw [ht]
    simp [hs]
  · intro e he
    have h1 := h e.1
    cases hl : own.lookup e.1 with
    | some t => simp
    | none =>
      rw [hl] at h1
      have : incoming.lookup e.1 = none := by simpa using h1.symm
      rw [List.lookup_eq_none_iff] at this
      simpa using this e he

theorem loadStateDict_eq (own incoming : StateDict) (h : SameLayout own incoming) :
    loadStateDict own incoming = (incoming, none) := by
  have hc : Compatible own incoming := lookup_shape own incoming h.1
  refine Prod.ext ?_ (loadStateDict_ok own incoming hc h.2)
  show own.map _ = incoming
  have hlen : own.length = incoming.length := by simpa using congrArg List.length h.1
  have hnames : own.map Prod.fst = incoming.map Prod.fst := by
    have := congrArg (List.map Prod.fst) h.1
    simpa [List.map_map, Function.comp_def] using this
  have hni : (incoming.map Prod.fst).Nodup := hnames ▸ h.2
  refine List.ext_getElem (by simpa using hlen) fun i hi hi' => ?_
  have hio : i < own.length := by simpa using hi
  rw [List.getElem_map]
  have h1 : own[i].1 = incoming[i].1 := by
    have := congrArg (fun l => l[i]?) hnames
    simpa [List.getElem?_map, List.getElem?_eq_getElem hio, List.getElem?_eq_getElem hi'] using this
  have h2 : own[i].2.shape = incoming[i].2.shape := by
    have := congrArg (fun l => l[i]?) h.1
    simp [List.getElem?_map, List.getElem?_eq_getElem hio, List.getElem?_eq_getElem hi'] at this
    exact this.2
  rw [h1, lookup_of_nodup incoming hni incoming[i] (List.getElem_mem _)]
  simp [h2]

/-- C64: a saved model, loaded into any model with the same constructor arguments and layout: loading succeeds, the
tensors, the algorithm and the scale transformations are those of the saved model whatever the target held before, and, if
no basis is stored, the output is the same for all latent scores. -/
theorem C64_round_trip (saved target : ModelObject H A Sc d) (hh : target.hyper = saved.hyper)
    (hl : SameLayout target.state saved.state) :
    ∃ r, target.load saved.save = (r, none) ∧ r.state = saved.state ∧ r.algorithm = saved.algorithm ∧
      r.scales = saved.scales ∧
      (target.basis = none → saved.basis = none → ∀ (Out : Type) (f : H → StateDict → (Fin d → ℝ) → Out)
        (theta : Thetas d), r.output f theta = saved.output f theta) := by
  refine ⟨{ target with state := saved.state, algorithm := saved.algorithm, scales := saved.scales }, ?_, rfl, rfl, rfl, ?_⟩
  · unfold ModelObject.load ModelObject.save
    simp only [loadStateDict_eq _ _ hl, Option.getD_some]
  · intro ht hs Out f theta
    unfold ModelObject.output
    simp only [ht, hs, hh]

/-- C64: a file without the algorithm or the scales leaves those of the model as they are. -/
theorem C64_older_files (target : ModelObject H A Sc d) (state : StateDict) (hl : SameLayout target.state state) :
    ∃ r, target.load { state := state, algorithm := none, scales := none } = (r, none) ∧ r.state = state ∧
      r.algorithm = target.algorithm ∧ r.scales = target.scales := by
  refine ⟨{ target with state := state }, ?_, rfl, rfl, rfl⟩
  unfold ModelObject.load
  simp only [loadStateDict_eq _ _ hl, Option.getD_none]

/-- C64: a file whose tensors have other names or shapes is refused. -/
theorem C64_other_structure_refused (target : ModelObject H A Sc d) (c : Checkpoint A Sc)
    (h : ¬ Compatible target.state c.state) :
    (target.load c).2 = some .runtimeError := by
  have hbad : (loadStateDict target.state c.state).2 = some .runtimeError := by
    unfold loadStateDict
    simp only
    rw [if_pos]
    by_contra hb
    simp only [Bool.or_eq_true, not_or, Bool.not_eq_true, List.any_eq_false] at hb
    obtain ⟨h1, h2⟩ := hb
    refine h fun name => ?_
    cases hl : target.state.lookup name with
    | none =>
      cases hc : c.state.lookup name with
      | none => rfl
      | some t =>
        exfalso
        obtain ⟨l1, l2, hs, -⟩ := List.lookup_eq_some_iff.1 hc
        have := h2 (name, t) (by rw [hs]; simp)
        rw [hl] at this
        simp at this
    | some t =>
      obtain ⟨l1, l2, hs, -⟩ := List.lookup_eq_some_iff.1 hl
      have := h1 (name, t) (by rw [hs]; simp)
      simp only at this
      cases hc : c.state.lookup name with
      | none => rw [hc] at this; simp at this
      | some t' =>
        rw [hc] at this
        simpa using (by simpa using this : t'.shape = t.shape).symm
  unfold ModelObject.load
  simp only [hbad]

/-- C64 over histories: after any sequence of saves (to this or other paths), loads and other changes, loading a path
gives the tensors, algorithm and scales that the model had when that path was last written, provided the layout has not
changed. -/
theorem C64_history (m : ModelObject H A Sc d) (files : String → Option (Checkpoint A Sc)) (before after : List (FileUse H A Sc d))
    (path : String) (hafter : ∀ u ∈ after, u ≠ .save path) :
    let atSave := (before.foldl FileUse.run (m, files)).1
    let now := after.foldl FileUse.run (FileUse.run (before.foldl FileUse.run (m, files)) (.save path))
    SameLayout now.1.state atSave.state →
      ∃ r, FileUse.run now (.load path) = (r, now.2) ∧ r.state = atSave.state ∧ r.algorithm = atSave.algorithm ∧
        r.scales = atSave.scales := by
  intro atSave now hl
  have key : ∀ (l : List (FileUse H A Sc d)) (s : ModelObject H A Sc d × (String → Option (Checkpoint A Sc))),
      (∀ u ∈ l, u ≠ .save path) → (l.foldl FileUse.run s).2 path = s.2 path := by
    intro l
    induction l with
    | nil => intro s _; rfl
    | cons u l ih =>
      intro s hu
      rw [List.foldl_cons, ih _ fun v hv => hu v (by simp [hv])]
      cases u with
      | save p =>
        have hne : path ≠ p := fun hh => hu (.save p) (by simp) (by rw [hh])
        show Function.update s.2 p _ path = _
        rw [Function.update_of_ne hne]
      | load p =>
        simp only [FileUse.run]
        cases s.2 p <;> rfl
      | change g => rfl
  have hfile : now.2 path = some atSave.save := by
    have h1 := key after (FileUse.run (before.foldl FileUse.run (m, files)) (.save path)) hafter
    rw [show now.2 path = _ from h1]
    show Function.update _ path _ path = _
    rw [Function.update_self]
  obtain ⟨r, hr, h1, h2, h3⟩ : ∃ r, now.1.load atSave.save = (r, none) ∧ r.state = atSave.state ∧
      r.algorithm = atSave.algorithm ∧ r.scales = atSave.scales := by
    refine ⟨{ now.1 with state := atSave.state, algorithm := atSave.algorithm, scales := atSave.scales }, ?_, rfl, rfl, rfl⟩
    unfold ModelObject.load ModelObject.save
    simp only [loadStateDict_eq _ _ hl, Option.getD_some]
  refine ⟨r, ?_, h1, h2, h3⟩
  unfold FileUse.run
  simp only [hfile]
  rw [hr]

/-- A load that raises leaves the model as it was. -/
def FailedLoadChangesNothing : Prop :=
  ∀ (target : ModelObject Unit Unit Unit 1) (c : Checkpoint Unit Unit), (target.load c).2 ≠ none → (target.load c).1 = target

/-- This is false: with one tensor of another shape, the other tensors have already been overwritten. -/
theorem C64_failed_load_false : ¬ FailedLoadChangesNothing := by
  intro h
  have h1 := h { hyper := (), state := [("bias_param", ⟨[1], [0]⟩), ("weight_param", ⟨[1], [0]⟩)] }
    { state := [("bias_param", ⟨[1], [7]⟩), ("weight_param", ⟨[2], [3, 4]⟩)], algorithm := none, scales := none }
    (by simp [ModelObject.load, loadStateDict, List.lookup])
  have h2 := congrArg ModelObject.state h1
  simp [ModelObject.load, loadStateDict, List.lookup] at h2

/-- The round trip for all targets, also those left behind by an interrupted fit. -/
def RoundTripForEveryTarget : Prop :=
  ∀ (saved target : ModelObject Unit Unit Unit 1), target.hyper = saved.hyper → SameLayout target.state saved.state →
    saved.basis = none → ∀ (f : Unit → StateDict → (Fin 1 → ℝ) → ℝ) (theta : Thetas 1),
      ((target.load saved.save).1).output f theta = saved.output f theta

/-- This is false: a basis stored in the target (after an interrupted MML fit of a spline model, C50) survives loading,
and the loaded model ignores the latent scores. -/
theorem C64_stored_basis_false : ¬ RoundTripForEveryTarget := by
  intro h
  have h1 := h { hyper := (), state := [] } { hyper := (), state := [], basis := some [fun _ => 0] } rfl
    ⟨rfl, by simp⟩ rfl (fun _ _ t => t 0) [fun _ => 1]
  simp [ModelObject.load, ModelObject.save, loadStateDict, ModelObject.output] at h1

/-- C64: the latent density kept for the evaluation of the target is that of the model it was before (see C75). -/
theorem C64_evaluator_kept (saved target : ModelObject H A Sc d) :
    (target.load saved.save).1.density = target.density := by
  unfold ModelObject.load
  simp only
  split <;> rfl

/-! ## The hypotheses are met -/

/-- A saved model with two tensors, and a target with other values. -/
def exSaved : ModelObject ℕ String ℕ 1 :=
  { hyper := 2, state := [("weight_param", ⟨[2], [1, 2]⟩), ("bias_param", ⟨[1], [3]⟩)], algorithm := some "MML", scales := [5] }

/-- The target. -/
def exTarget : ModelObject ℕ String ℕ 1 :=
  { hyper := 2, state := [("weight_param", ⟨[2], [0, 0]⟩), ("bias_param", ⟨[1], [0]⟩)], scales := [1, 2] }

theorem exLayout : SameLayout exTarget.state exSaved.state := ⟨rfl, by simp [exTarget]⟩

example : ∃ r, exTarget.load exSaved.save = (r, none) ∧ r.algorithm = some "MML" ∧ r.scales = [5] := by
  obtain ⟨r, h1, -, h2, h3, -⟩ := C64_round_trip exSaved exTarget rfl exLayout
  exact ⟨r, h1, h2, h3⟩

example : ¬ Compatible exTarget.state [("weight_param", ⟨[3], [0, 0, 0]⟩)] := by
  intro h
  have := h "weight_param"
  simp [exTarget, List.lookup] at this

example : ∃ r, FileUse.run ([FileUse.change fun _ => exTarget].foldl FileUse.run
    (FileUse.run (exSaved, fun _ => none) (.save "a.pt"))) (.load "a.pt") = r ∧ r.1.state = exSaved.state := by
  obtain ⟨r, h1, h2, -⟩ := C64_history exSaved (fun _ => none) [] [.change fun _ => exTarget] "a.pt" (by simp) exLayout
  exact ⟨_, h1, h2⟩

end Irt
