import Verif.Spec.Reset
import Verif.Props.Constructors
import Verif.Props.Population

/-! # C145: `reset_parameters` gives the parameters of a new model -/

namespace Irt
open Spec

theorem map_const_length {α : Type} (l : List ℝ) (c : α) : (l.map fun _ => c) = List.replicate l.length c := by
  simp

/-- C145: whatever was trained or loaded, `reset_parameters` leaves the model that the constructor returns (with the random numbers
drawn now). -/
theorem C145_fresh (call : ConstructorCall) (draw draw' : ℕ → ℝ) {m m' : IrtModel} (hm : call.run draw = .ok m) (h : SameShape m m') :
    m'.resetParameters draw' = call.run draw' := by
  cases call with
  | onePL data items =>
    simp only [ConstructorCall.run, OnePL.construct] at hm ⊢
    cases h1 : chosenItems data items with
    | error e => simp [h1, bind, Except.bind, Except.map] at hm
    | ok n =>
      cases h2 : baseInit (List.replicate n 2) none with
      | error e => simp [h1, h2, bind, Except.bind, Except.map] at hm
      | ok c =>
        simp only [h1, h2, bind, Except.bind, pure, Except.pure, Except.map, Except.ok.injEq] at hm ⊢
        subst hm
        cases m' <;> simp only [SameShape] at h
        rename_i m'
        obtain ⟨e1, e2⟩ := h
        obtain ⟨i, b⟩ := m'
        simp only at e1 e2
        subst e1
        simp [IrtModel.resetParameters, OnePL.reset, e2]
  | twoPL data lv items rel =>
    simp only [ConstructorCall.run, TwoPL.construct, TwoPL.init] at hm ⊢
    cases h1 : chosenItems data items with
    | error e => simp [h1, bind, Except.bind, Except.map] at hm
    | ok n =>
      cases h2 : baseInit (List.replicate n 2) none with
      | error e => simp [h1, h2, bind, Except.bind, Except.map] at hm
      | ok c =>
        cases h3 : checkRelationships n lv rel with
        | error e => simp [h1, h2, h3, bind, Except.bind, Except.map] at hm
        | ok r =>
          simp only [h1, h2, h3, bind, Except.bind, pure, Except.pure, Except.map, Except.ok.injEq] at hm ⊢
          subst hm
          cases m' <;> simp only [SameShape] at h
          rename_i m'
          obtain ⟨e1, e2, e3, e4, e5⟩ := h
          obtain ⟨i, l, r', w, b⟩ := m'
          simp only at e1 e2 e3 e4 e5
          subst e1 e2 e3
          simp [IrtModel.resetParameters, TwoPL.reset, e4, e5]
  | threePL data lv items rel =>
    simp only [ConstructorCall.run, ThreePL.construct, ThreePL.init] at hm ⊢
    cases h1 : chosenItems data items with
    | error e => simp [h1, bind, Except.bind, Except.map] at hm
    | ok n =>
      cases h2 : baseInit (List.replicate n 2) none with
      | error e => simp [h1, h2, bind, Except.bind, Except.map] at hm
      | ok c =>
        cases h3 : checkRelationships n lv rel with
        | error e => simp [h1, h2, h3, bind, Except.bind, Except.map] at hm
        | ok r =>
          simp only [h1, h2, h3, bind, Except.bind, pure, Except.pure, Except.map, Except.ok.injEq] at hm ⊢
          subst hm
          cases m' <;> simp only [SameShape] at h
          rename_i m'
          obtain ⟨e1, e2, e3, e4, e5, e6⟩ := h
          obtain ⟨i, l, r', w, b, g⟩ := m'
          simp only at e1 e2 e3 e4 e5 e6
          subst e1 e2 e3
          simp [IrtModel.resetParameters, ThreePL.reset, e4, e5, e6]
  | gpc data lv cats rel =>
    simp only [ConstructorCall.run, GPC.construct] at hm ⊢
    cases h1 : chosenCategories data cats with
    | error e => simp [h1, bind, Except.bind, Except.map] at hm
    | ok n =>
      cases h2 : baseInit n none with
      | error e => simp [h1, h2, bind, Except.bind, Except.map] at hm
      | ok c =>
        cases h3 : checkRelationships n.length lv rel with
        | error e => simp [h1, h2, h3, bind, Except.bind, Except.map] at hm
        | ok r =>
          by_cases h4 : n.sum - n.length < 0
          · simp [h1, h2, h3, h4, bind, Except.bind, Except.map] at hm
          · simp only [h1, h2, h3, if_neg h4, bind, Except.bind, Except.map, Except.ok.injEq] at hm ⊢
            subst hm
            cases m' <;> simp only [SameShape] at h
            rename_i m'
            obtain ⟨e1, e2, e3, e4, e5⟩ := h
            obtain ⟨l, c', r', w, b⟩ := m'
            simp only at e1 e2 e3 e4 e5
            subst e1 e2 e3
            simp [IrtModel.resetParameters, GPC.reset, e4, e5]
  | nrm data lv cats rel mc =>
    simp only [ConstructorCall.run, NRM.construct] at hm ⊢
    cases h1 : chosenCategories data cats with
    | error e => simp [h1, bind, Except.bind, Except.map] at hm
    | ok n =>
      cases h2 : baseInit n mc with
      | error e => simp [h1, h2, bind, Except.bind, Except.map] at hm
      | ok c =>
        cases h3 : checkRelationships n.length lv rel with
        | error e => simp [h1, h2, h3, bind, Except.bind, Except.map] at hm
        | ok r =>
          by_cases h4 : n.sum - n.length < 0
          · simp [h1, h2, h3, h4, bind, Except.bind, Except.map] at hm
          · simp only [h1, h2, h3, if_neg h4, bind, Except.bind, Except.map, Except.ok.injEq] at hm ⊢
            subst hm
            cases m' <;> simp only [SameShape] at h
            rename_i m'
            obtain ⟨e1, e2, e3, e4, e5⟩ := h
            obtain ⟨l, c', r', w, b⟩ := m'
            simp only at e1 e2 e3 e4 e5
            subst e1 e2 e3
            rw [List.length_map, List.length_range] at e4
            rw [List.length_replicate] at e5
            simp [IrtModel.resetParameters, NRM.reset, e4, e5]
  | grm data lv cats rel =>
    simp only [ConstructorCall.run, GRM.construct] at hm ⊢
    cases h1 : chosenCategories data cats with
    | error e => simp [h1, bind, Except.bind, Except.map] at hm
    | ok n =>
      cases h2 : baseInit n none with
      | error e => simp [h1, h2, bind, Except.bind, Except.map] at hm
      | ok c =>
        cases h3 : checkRelationships n.length lv rel with
        | error e => simp [h1, h2, h3, bind, Except.bind, Except.map] at hm
        | ok r =>
          by_cases h4 : c < 0
          · simp [h1, h2, h3, h4, bind, Except.bind, Except.map] at hm
          · by_cases h5 : c = 0
            · simp [h1, h2, h3, h5, bind, Except.bind, Except.map] at hm
            · simp only [h1, h2, h3, if_neg h4, if_neg h5, bind, Except.bind, Except.map, Except.ok.injEq] at hm ⊢
              subst hm
              cases m' <;> simp only [SameShape, GRM.reset] at h
              rename_i m'
              obtain ⟨e1, e2, e3, e4, e5⟩ := h
              obtain ⟨l, c', r', w, b⟩ := m'
              simp only at e1 e2 e3 e4 e5
              subst e1 e2 e3
              rw [List.length_map, List.length_range] at e4
              simp [IrtModel.resetParameters, GRM.reset, GRM.M, e4]

theorem Spec.SameShape.refl (m : IrtModel) : SameShape m m := by
  cases m <;> simp [SameShape]

theorem Spec.SameShape.trans {a b c : IrtModel} (h : SameShape a b) (h' : SameShape b c) : SameShape a c := by
  cases a <;> cases b <;> cases c <;> simp_all [SameShape]

/-- A reset keeps the shape; so a second reset finds what the constructor made. For a graded response model the number of intercepts is
written anew, for the others the tensors are filled. -/
theorem sameShape_reset (call : ConstructorCall) (draw draw' : ℕ → ℝ) {m m' m'' : IrtModel} (hm : call.run draw = .ok m) (h : SameShape m m')
    (hr : m'.resetParameters draw' = .ok m'') : SameShape m m'' := by
  rw [C145_fresh call draw draw' hm h] at hr
  have h2 := C145_fresh call draw draw hm (Spec.SameShape.refl m)
  rw [hm] at h2
  have h3 := C145_fresh call draw draw' hm (Spec.SameShape.refl m)
  rw [hr] at h3
  cases m with
  | onePL m =>
    simp only [IrtModel.resetParameters, Except.ok.injEq] at h3
    subst h3
    simp [SameShape, OnePL.reset]
  | twoPL m =>
    simp only [IrtModel.resetParameters, Except.ok.injEq] at h3
    subst h3
    simp [SameShape, TwoPL.reset]
  | threePL m =>
    simp only [IrtModel.resetParameters, Except.ok.injEq] at h3
    subst h3
    simp [SameShape, ThreePL.reset]
  | gpc m =>
    simp only [IrtModel.resetParameters, Except.ok.injEq] at h3
    subst h3
    simp [SameShape, GPC.reset]
  | nrm m =>
    simp only [IrtModel.resetParameters, Except.ok.injEq] at h3
    subst h3
    simp [SameShape, NRM.reset]
  | grm m =>
    simp only [IrtModel.resetParameters, Except.ok.injEq] at h2 h3
    subst h3
    have e := congrArg (fun x : IrtModel => match x with | .grm g => g.bias.length | _ => 0) h2
    simp only at e
    simp only [SameShape, GRM.reset, List.length_map, List.length_range, true_and]
    exact e
  | other p => simp [IrtModel.resetParameters] at h3
  | mix ms => simp [IrtModel.resetParameters] at h3

theorem sameShape_history {d : ℕ} (call : ConstructorCall) (draw : ℕ → ℝ) {m : IrtModel} (hm : call.run draw = .ok m)
    (history : List (ObjectStep d)) (hh : ∀ s ∈ history, KeepsShape s) (o : UsedModel d) (ho : SameShape m o.params) :
    SameShape m (o.run history).params := by
  induction history generalizing o with
  | nil => exact ho
  | cons s history ih =>
    refine ih (fun t ht => hh t (List.mem_cons_of_mem _ ht)) _ ?_
    have hs := hh s List.mem_cons_self
    cases s with
    | fit write attrs => exact ho.trans (hs _)
    | load write attrs scales => exact ho.trans (hs _)
    | add s => exact ho
    | detach => exact ho
    | reset draw' =>
      simp only [ObjectStep.run, UsedModel.reset]
      cases hr : o.params.resetParameters draw' with
      | error e => simpa [hr, bind, Except.bind, Except.toOption] using ho
      | ok p => simpa [hr, bind, Except.bind, pure, Except.pure, Except.toOption] using sameShape_reset call draw draw' hm ho hr

/-- C145: after any history of training, loading, scales and earlier resets, `reset_parameters` of a 1PL, 2PL, 3PL, generalized partial
credit, nominal response or graded response model returns, the parameters are those the constructor makes, and the algorithm and the
attached scales stay what they were. -/
theorem C145_history {d : ℕ} (call : ConstructorCall) (draw draw' : ℕ → ℝ) {m : IrtModel} (hm : call.run draw = .ok m)
    (history : List (ObjectStep d)) (hh : ∀ s ∈ history, KeepsShape s) :
    ∃ new, call.run draw' = .ok new ∧
      (UsedModel.run { params := m } history).reset draw'
        = .ok { UsedModel.run ({ params := m } : UsedModel d) history with params := new } := by
  have hs := sameShape_history call draw hm history hh { params := m } (Spec.SameShape.refl m)
  have h := C145_fresh call draw draw' hm hs
  cases hn : call.run draw' with
  | error e =>
    rw [hn] at h
    cases hp : (UsedModel.run ({ params := m } : UsedModel d) history).params <;> rw [hp] at h hs <;>
      simp only [IrtModel.resetParameters, reduceCtorEq] at h <;> cases m <;> simp only [SameShape] at hs <;>
      cases call <;> simp only [ConstructorCall.run, Except.map] at hm <;> split at hm <;> simp at hm
  | ok new =>
    refine ⟨new, rfl, ?_⟩
    rw [hn] at h
    simp [UsedModel.reset, h, bind, Except.bind, pure, Except.pure]

/-- So a model that is reset and trained again is trained like a new one, whatever the training makes of data and parameters. -/
theorem C145_refit {d : ℕ} {R : Type} (train : IrtModel → R) (call : ConstructorCall) (draw draw' : ℕ → ℝ) {m new : IrtModel}
    (hm : call.run draw = .ok m) (hnew : call.run draw' = .ok new) (history : List (ObjectStep d)) (hh : ∀ s ∈ history, KeepsShape s) :
    ((UsedModel.run ({ params := m } : UsedModel d) history).reset draw').map (fun o => train o.params) = .ok (train new) := by
  obtain ⟨n, h1, h2⟩ := C145_history (d := d) call draw draw' hm history hh
  rw [hnew] at h1
  cases h1
  rw [h2]
  rfl

/-- The claim for all models. -/
def ResetAlwaysWorks : Prop := ∀ (m : IrtModel) (draw : ℕ → ℝ), ∃ m', m.resetParameters draw = .ok m'

/-- C145 is false for a mix: its `reset_parameters` never works, whatever its models. -/
theorem C145_mix_false : ¬ ResetAlwaysWorks ∧ ∀ (ms : List IrtModel) (draw : ℕ → ℝ), (IrtModel.mix ms).resetParameters draw = .error .attributeError := by
  refine ⟨fun h => ?_, fun _ _ => rfl⟩
  obtain ⟨m', h'⟩ := h (.mix []) fun _ => 0
  simp [IrtModel.resetParameters] at h'

/-- The claim that a model that was reset can be used like a new one, for the EAP scores of a 2PL model. -/
def ResetIsLikeNew : Prop := ∀ (d : ℕ) (call : ConstructorCall) (draw : ℕ → ℝ) (m new : IrtModel) (history : List (ObjectStep d)),
  call.run draw = .ok m → call.run draw = .ok new → (∀ s ∈ history, KeepsShape s) → ∀ (o : UsedModel d) (p p' : TwoPL),
  (UsedModel.run { params := m } history).reset draw = .ok o → o.params = .twoPL p → new = .twoPL p' →
  ∀ data points, eapScores (p.scorer d) o.attrs data points = eapScores (p'.scorer d) ({ params := new } : UsedModel d).attrs data points

noncomputable def exNew : TwoPL := { items := 1, lv := 1, rel := [[true]], weight := [1], bias := [0] }

theorem exNew_construct (draw : ℕ → ℝ) : (ConstructorCall.twoPL none 1 (some 1) none).run draw = .ok (.twoPL exNew) := by
  simp [ConstructorCall.run, TwoPL.construct, chosenItems, baseInit, TwoPL.init, checkRelationships, bind, Except.bind, pure, Except.pure,
    Except.map, exNew, countTrue]

theorem exNew_wf : exNew.WF := ⟨by simp [exNew], by simp [exNew], by simp [exNew, countTrue], by simp [exNew]⟩

/-- A new model has EAP scores; one that was fitted by marginal maximum likelihood and then reset has none, because the algorithm stays. -/
theorem C145_like_new_false : ¬ ResetIsLikeNew := by
  intro h
  obtain ⟨n, h1, h2⟩ := C145_history (d := 1) (.twoPL none 1 (some 1) none) (fun _ => 0) (fun _ => 0) (exNew_construct _)
    [.fit id (Algorithm.mml.afterFit [] 1 false none)] (by
      intro s hs
      rw [List.mem_singleton] at hs
      subst hs
      exact fun m => Spec.SameShape.refl m)
  rw [exNew_construct] at h1
  cases h1
  have key := h 1 _ _ _ _ _ (exNew_construct fun _ => 0) (exNew_construct fun _ => 0) (by
      intro s hs
      rw [List.mem_singleton] at hs
      subst hs
      exact fun m => Spec.SameShape.refl m) _ exNew exNew h2 rfl rfl (rowsOf 1 1 fun _ _ => some 1) (some 1)
  have hm := exNew.isScorer exNew_wf (by simp [exNew]) 1
  have hpos := exNew.positive exNew_wf 1
  have hrun := (eapOf_run hm hpos ({ params := IrtModel.twoPL exNew } : UsedModel 1).attrs (by norm_num) (some 1)
    (cartesianProd fun _ => linspace (-3) 3 1) (by simp [cartesianProd, linspace]) 1 Matrix.PosDef.one rfl (fun _ => some 1) (by
      intro j c hc _
      obtain ⟨_, rfl⟩ := replicate_getElem? _ _ _ _ hc
      exact ⟨1, rfl, by norm_num⟩)).2
  have e : (List.replicate exNew.items 2).length = 1 := by simp [exNew]
  rw [e] at hrun
  rw [hrun] at key
  have h3 : eapScores (exNew.scorer 1) (Algorithm.mml.afterFit [] 1 false none) (rowsOf 1 1 fun _ _ => some 1) (some 1) = .error .valueError :=
    C46_mml_false _ _ _ _ _ _ _
  have key' : eapScores (exNew.scorer 1) (Algorithm.mml.afterFit [] 1 false none) (rowsOf 1 1 fun _ _ => some 1) (some 1) = .ok _ := key
  rw [h3] at key'
  cases key'

/-! ## The hypotheses are met -/

/-- A 2PL model that was trained, got a scale, and was trained again. -/
example : ∃ history : List (ObjectStep 1), (∀ s ∈ history, KeepsShape s) ∧
    (UsedModel.run ({ params := .twoPL exNew } : UsedModel 1) history).params ≠ .twoPL exNew ∧
    ∃ o, (UsedModel.run ({ params := .twoPL exNew } : UsedModel 1) history).reset (fun _ => 0) = .ok o ∧ o.params = .twoPL exNew ∧ o.scales.length = 1 := by
  let write : IrtModel → IrtModel := fun m => match m with
    | .twoPL m => .twoPL { m with weight := m.weight.map fun _ => 3 }
    | m => m
  have hw : ∀ m, SameShape m (write m) := by
    intro m
    cases m <;> simp [write, SameShape]
  have hh : ∀ s ∈ ([.fit write {}, .add (reverseScale fun _ => true), .fit write {}] : List (ObjectStep 1)), KeepsShape s := by
    intro s hs
    simp only [List.mem_cons, List.not_mem_nil, or_false] at hs
    rcases hs with rfl | rfl | rfl
    · exact hw
    · trivial
    · exact hw
  refine ⟨_, hh, ?_, ?_⟩
  · simp [UsedModel.run, ObjectStep.run, write, exNew]
  · obtain ⟨n, h1, h2⟩ := C145_history (d := 1) (.twoPL none 1 (some 1) none) (fun _ => 0) (fun _ => 0) (exNew_construct _) _ hh
    rw [exNew_construct] at h1
    cases h1
    exact ⟨_, h2, rfl, rfl⟩

/-- A graded response model: the start values of the intercepts come back. -/
example : ∃ m, (ConstructorCall.grm none 1 (some [3, 2]) none).run (fun _ => 1) = .ok (.grm m) ∧ m.bias.length = 3 ∧
    ({ m with weight := [5, 5], bias := [1, 2, 3] } : GRM).reset [1, 1] = m := by
  refine ⟨_, rfl, ?_, ?_⟩
  · simp [GRM.reset, GRM.M, maxCats, gatherMask, freeMask, freeRow, scatterMask, grmStartBias, countTrue, List.range_succ]
  · rfl

end Irt
