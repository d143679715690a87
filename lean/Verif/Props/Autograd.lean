import Verif.Lemmas.Autograd
import Verif.Props.FlowLink
import Verif.Props.BitJacobian
import Verif.Props.LatentScores

/-!
# C122: what derivatives leave behind
-/

namespace Irt

open Spec Autograd

variable {A : Type} {d : ℕ}

/-! ## One iteration -/

/-- One iteration of training: an entry that requires a gradient is moved by the optimiser along the partial derivative of the loss of this
iteration, whatever earlier calls of `backward()` left in its buffer; a frozen entry keeps its value and its optimiser state. -/
theorem C122_step (loss : ℕ → List ℕ → List ℝ → List ℝ → Except PyErr Num) (rule : ℕ → EntryRule A) (i : ℕ) (b : List ℕ) (lr : ℝ)
    (s : State A) (k : ℕ) (p : Param) (a : A) :
    (s.weight[k]? = some (p, a) → ∃ p' a', ((trainer loss rule).update i b lr s).weight[k]? = some (p', a') ∧ p'.requires = p.requires ∧
      (a', p'.value) = if p.requires then
        rule i lr a p.value (partialAt (fun w => loss i b w (values s.rest)) (values s.weight) k) else (a, p.value)) ∧
    (s.rest[k]? = some (p, a) → ∃ p' a', ((trainer loss rule).update i b lr s).rest[k]? = some (p', a') ∧ p'.requires = p.requires ∧
      (a', p'.value) = if p.requires then
        rule i lr a p.value (partialAt (fun r => loss i b (values s.weight) r) (values s.rest) k) else (a, p.value)) := by
  constructor
  · intro h
    unfold trainer
    dsimp only
    rw [step_group, List.getElem?_mapIdx, h, values_zeroGrad, values_zeroGrad]
    obtain ⟨v, r, g⟩ := p
    cases r <;> exact ⟨_, _, rfl, rfl, rfl⟩
  · intro h
    unfold trainer
    dsimp only
    rw [step_group, List.getElem?_mapIdx, h, values_zeroGrad, values_zeroGrad]
    obtain ⟨v, r, g⟩ := p
    cases r <;> exact ⟨_, _, rfl, rfl, rfl⟩

/-! ## Whole trainings -/

/-- Training by MML, with any number of epochs and any optimiser, raises the same exception or gives the same losses and parameters
whatever is in the gradient buffers at the beginning. -/
theorem C122_buffers_mml (loss : ℕ → List ℕ → List ℝ → List ℝ → Except PyErr Num) (rule : ℕ → EntryRule A) (c : TrainConfig)
    (lr : ℝ) (batch : List ℕ) (n : ℕ) (s s' : State A) (hw : SameButBuffers s.weight s'.weight) (hr : SameButBuffers s.rest s'.rest) :
    loopOutcome (mmlEpochs (trainer loss rule) c batch n (LoopState.start lr s)) =
      loopOutcome (mmlEpochs (trainer loss rule) c batch n (LoopState.start lr s')) := by
  have h := mmlEpochs_sim (R := BufRel) (trainer_loss_congr loss rule) (trainer_update_congr loss rule) c batch n
    (loopRel_start (R := BufRel) ⟨hw, hr⟩ lr)
  revert h
  generalize mmlEpochs (trainer loss rule) c batch n (LoopState.start lr s) = m
  generalize mmlEpochs (trainer loss rule) c batch n (LoopState.start lr s') = m'
  intro h
  cases m <;> cases m' <;> first | exact h.elim | skip
  · exact congrArg Except.error h.1
  · unfold loopOutcome
    dsimp only
    rw [h.history, values_congr h.final.1, values_congr h.final.2]

/-- The same for JML. -/
theorem C122_buffers_jml (loss : ℕ → List ℕ → List ℝ → List ℝ → Except PyErr Num) (rule : ℕ → EntryRule A) (c : TrainConfig)
    (lr : ℝ) (batches : List (List ℕ)) (n : ℕ) (s s' : State A) (hw : SameButBuffers s.weight s'.weight)
    (hr : SameButBuffers s.rest s'.rest) :
    loopOutcome (jmlEpochs (trainer loss rule) c batches n (LoopState.start lr s)) =
      loopOutcome (jmlEpochs (trainer loss rule) c batches n (LoopState.start lr s')) := by
  have h := jmlEpochs_sim (R := BufRel) (trainer_loss_congr loss rule) (trainer_update_congr loss rule) c batches n
    (loopRel_start (R := BufRel) ⟨hw, hr⟩ lr)
  revert h
  generalize jmlEpochs (trainer loss rule) c batches n (LoopState.start lr s) = m
  generalize jmlEpochs (trainer loss rule) c batches n (LoopState.start lr s') = m'
  intro h
  cases m <;> cases m' <;> first | exact h.elim | skip
  · exact congrArg Except.error h.1
  · unfold loopOutcome
    dsimp only
    rw [h.history, values_congr h.final.1, values_congr h.final.2]

/-- The same for the autoencoders. -/
theorem C122_buffers_ae (loss : ℕ → List ℕ → List ℝ → List ℝ → Except PyErr Num) (rule : ℕ → EntryRule A) (c : TrainConfig)
    (lr : ℝ) (E : ℕ) (batchNorm : Bool) (batches : ℕ → List (List ℕ)) (n : ℕ) (s s' : State A)
    (hw : SameButBuffers s.weight s'.weight) (hr : SameButBuffers s.rest s'.rest) :
    aeOutcome (aeEpochs (trainer loss rule) c E batchNorm batches n 0 (AEState.start lr s)) =
      aeOutcome (aeEpochs (trainer loss rule) c E batchNorm batches n 0 (AEState.start lr s')) := by
  have h := aeEpochs_sim (R := BufRel) (trainer_loss_congr loss rule) (trainer_update_congr loss rule) c E batchNorm batches n 0
    (aeLoopRel_start (R := BufRel) ⟨hw, hr⟩ lr)
  revert h
  generalize aeEpochs (trainer loss rule) c E batchNorm batches n 0 (AEState.start lr s) = m
  generalize aeEpochs (trainer loss rule) c E batchNorm batches n 0 (AEState.start lr s') = m'
  intro h
  cases m <;> cases m' <;> first | exact h.elim | skip
  · exact congrArg Except.error h.1
  · unfold aeOutcome
    dsimp only
    rw [h.history, values_congr h.final.1, values_congr h.final.2]

/-- Two different buffers with the same values. -/
example : SameButBuffers (A := Unit) [(⟨1, true, some 5⟩, ()), (⟨2, false, none⟩, ())] [(⟨1, true, none⟩, ()), (⟨2, false, some 3⟩, ())] :=
  rfl

/-- If no parameter is frozen, `fit` gives the parameters (or raises the exception) of the training in which there are no flags and
buffers. -/
theorem C122_fit_fresh (loss : List ℝ → List ℝ → Except PyErr Num) (rule : ℕ → EntryRule A) (a₀ : A) (c : TrainConfig) (lr : ℝ)
    (N n : ℕ) (weight rest : List Param) (hw : AllTrainable weight) (hr : AllTrainable rest) (hne : weight ++ rest ≠ []) :
    (fit (fun _ _ => loss) rule a₀ c lr N n weight rest).map (fun r => (r.1.map Param.value, r.2.map Param.value)) =
      gradientFit loss rule a₀ c lr N n (weight.map Param.value) (rest.map Param.value) := by
  let R : State A → FitState A → Prop := fun s s' =>
    TrainRel s s' ∧ s.weight.length = weight.length ∧ s.rest.length = rest.length
  have hpos : ∀ s s', R s s' → s.weight ++ s.rest ≠ [] := by
    intro s s' h h0
    apply hne
    rw [List.append_eq_nil_iff] at h0 ⊢
    obtain ⟨-, h1, h2⟩ := h
    rw [h0.1] at h1
    rw [h0.2] at h2
    exact ⟨List.eq_nil_of_length_eq_zero h1.symm, List.eq_nil_of_length_eq_zero h2.symm⟩
  have hgrp : ∀ l : List Param, AllTrainable l → ((attach a₀ l).map (fun e => (e.1.value, e.2)) = (l.map Param.value).map (fun v => (v, a₀)) ∧
      ∀ e ∈ attach a₀ l, e.1.requires = true) := by
    intro l hl
    refine ⟨?_, ?_⟩
    · unfold attach
      rw [List.map_map, List.map_map]
      rfl
    · intro e he
      obtain ⟨p, hp, rfl⟩ := List.mem_map.mp he
      exact hl p hp
  have h0 : R ⟨attach a₀ weight, attach a₀ rest⟩
      ⟨(weight.map Param.value).map (fun v => (v, a₀)), (rest.map Param.value).map (fun v => (v, a₀))⟩ :=
    ⟨⟨hgrp weight hw, hgrp rest hr⟩, by simp [attach], by simp [attach]⟩
  have h := mmlEpochs_sim (R := R) (T := trainer (fun _ _ => loss) rule) (T' := gradientTrainer loss rule)
    (fun i b s s' hs => trained_loss loss rule i b s s' hs.1 (hpos s s' hs))
    (fun i b lr s s' hs => ⟨trained_update loss rule i b lr s s' hs.1, (length_update _ rule i b lr s).1.trans hs.2.1,
      (length_update _ rule i b lr s).2.trans hs.2.2⟩) c (List.range N) n (loopRel_start h0 lr)
  unfold fit gradientFit
  revert h
  generalize mmlEpochs (trainer (fun _ _ => loss) rule) c (List.range N) n _ = m
  generalize mmlEpochs (gradientTrainer loss rule) c (List.range N) n _ = m'
  intro h
  cases m with
  | error e =>
    cases m' with
    | error e' => exact congrArg Except.error h.1
    | ok u => exact h.elim
  | ok u =>
    cases m' with
    | error e' => exact h.elim
    | ok u' =>
      dsimp only
      simp only [Except.map]
      have h1 := h.final
      have h2 := h.params
      rw [loadValues_values _ _ (h1.2.1.trans h2.2.1.symm), loadValues_values _ _ (h1.2.2.trans h2.2.2.symm),
        values_trained h1.1.1.1, values_trained h1.1.2.1]

/-- Flags are the same after `fit`, and the values of frozen parameters too. -/
theorem C122_frozen_kept (loss : ℕ → List ℕ → List ℝ → List ℝ → Except PyErr Num) (rule : ℕ → EntryRule A) (a₀ : A) (c : TrainConfig)
    (lr : ℝ) (N n : ℕ) (weight rest : List Param) (r : List Param × List Param)
    (hfit : fit loss rule a₀ c lr N n weight rest = .ok r) :
    r.1.map Param.requires = weight.map Param.requires ∧ r.2.map Param.requires = rest.map Param.requires ∧
      (∀ (k : ℕ) (p : Param), weight[k]? = some p → p.requires = false → ∃ p', r.1[k]? = some p' ∧ p'.value = p.value) ∧
      ∀ (k : ℕ) (p : Param), rest[k]? = some p → p.requires = false → ∃ p', r.2[k]? = some p' ∧ p'.value = p.value := by
  let Q : List Param → List (Param × A) → Prop := fun l s => s.map (fun e => e.1.requires) = l.map Param.requires ∧
    ∀ (k : ℕ) (p : Param), l[k]? = some p → p.requires = false → ∃ e, s[k]? = some e ∧ e.1.value = p.value ∧ e.1.requires = false
  have hstart : ∀ l, Q l (attach a₀ l) := by
    intro l
    refine ⟨?_, ?_⟩
    · unfold attach
      rw [List.map_map]
      rfl
    · intro k p hk hp
      exact ⟨(p, a₀), by unfold attach; rw [List.getElem?_map, hk]; rfl, rfl, hp⟩
  have hgrp : ∀ (l : List Param) (s : List (Param × A)) (ru : EntryRule A) (lr : ℝ) (g : ℕ → ℝ), Q l s →
      Q l (optimizerStep ru lr (backward g (zeroGrad s))) := by
    intro l s ru lr g h
    rw [step_group]
    refine ⟨?_, ?_⟩
    · rw [← h.1]
      apply List.ext_getElem?
      intro k
      rw [List.getElem?_map, List.getElem?_mapIdx, List.getElem?_map]
      cases s[k]? with
      | none => rfl
      | some e =>
        obtain ⟨⟨v, q, g⟩, a⟩ := e
        cases q <;> rfl
    · intro k p hk hp
      obtain ⟨e, he, hv, hq⟩ := h.2 k p hk hp
      refine ⟨({ e.1 with grad := none }, e.2), ?_, hv, hq⟩
      rw [List.getElem?_mapIdx, he]
      simp [hq]
  let R : State A → State A → Prop := fun s s' => s = s' ∧ Q weight s.weight ∧ Q rest s.rest
  have h := mmlEpochs_sim (R := R) (T := trainer loss rule) (T' := trainer loss rule)
    (fun i b s s' hs => by rw [hs.1])
    (fun i b lr s s' hs => ⟨by rw [hs.1], hgrp weight s.weight (rule i) lr _ hs.2.1, hgrp rest s.rest (rule i) lr _ hs.2.2⟩)
    c (List.range N) n (loopRel_start (s := ⟨attach a₀ weight, attach a₀ rest⟩) (s' := ⟨attach a₀ weight, attach a₀ rest⟩)
      ⟨rfl, hstart weight, hstart rest⟩ lr)
  unfold fit at hfit
  revert h hfit
  generalize mmlEpochs (trainer loss rule) c (List.range N) n _ = m
  intro hfit h
  cases m with
  | error e => cases hfit
  | ok u =>
    obtain rfl := Except.ok.inj hfit
    have hload : ∀ (l : List Param) (f s : List (Param × A)), Q l f → Q l s →
        (loadValues (values f) (s.map Prod.fst)).map Param.requires = l.map Param.requires ∧
        ∀ (k : ℕ) (p : Param), l[k]? = some p → p.requires = false →
          ∃ p', (loadValues (values f) (s.map Prod.fst))[k]? = some p' ∧ p'.value = p.value := by
      intro l f s hf hs
      have hlen : f.length = s.length := by
        have h1 := congrArg List.length hf.1
        have h2 := congrArg List.length hs.1
        simp only [List.length_map] at h1 h2
        omega
      refine ⟨?_, ?_⟩
      · rw [← hs.1]
        unfold loadValues values
        apply List.ext_getElem?
        intro k
        rw [List.getElem?_map, List.getElem?_zipWith, List.getElem?_map, List.getElem?_map, List.getElem?_map]
        by_cases hk : k < f.length
        · rw [List.getElem?_eq_getElem hk, List.getElem?_eq_getElem (hlen ▸ hk)]
          rfl
        · rw [List.getElem?_eq_none (by omega), List.getElem?_eq_none (by omega)]
          rfl
      · intro k p hk hp
        obtain ⟨e, he, hv, -⟩ := hf.2 k p hk hp
        obtain ⟨e', he', -, -⟩ := hs.2 k p hk hp
        refine ⟨{ e'.1 with value := e.1.value }, ?_, hv⟩
        unfold loadValues values
        rw [List.getElem?_zipWith, List.getElem?_map, List.getElem?_map, he, he']
        rfl
    have h1 := hload weight u.final.weight u.params.weight h.final.2.1 h.params.2.1
    have h2 := hload rest u.final.rest u.params.rest h.final.2.2 h.params.2.2
    exact ⟨h1.1, h2.1, h1.2, h2.2⟩

/-- If every parameter is frozen, `fit` raises a `RuntimeError` in its first epoch. -/
theorem C122_all_frozen (loss : ℕ → List ℕ → List ℝ → List ℝ → Except PyErr Num) (rule : ℕ → EntryRule A) (a₀ : A) (c : TrainConfig)
    (lr : ℝ) (N n : ℕ) (weight rest : List Param) (hw : ∀ p ∈ weight ++ rest, p.requires = false) (x : Num)
    (hloss : loss 0 (List.range N) (weight.map Param.value) (rest.map Param.value) = .ok x) :
    fit loss rule a₀ c lr N (n + 1) weight rest = .error .runtimeError := by
  have hany : ((attach a₀ weight ++ attach a₀ rest).any fun e => e.1.requires) = false := by
    rw [List.any_eq_false]
    intro e he
    have : ∃ p ∈ weight ++ rest, e = (p, a₀) := by
      rcases List.mem_append.mp he with h | h <;> obtain ⟨p, hp, rfl⟩ := List.mem_map.mp h
      · exact ⟨p, List.mem_append_left _ hp, rfl⟩
      · exact ⟨p, List.mem_append_right _ hp, rfl⟩
    obtain ⟨p, hp, rfl⟩ := this
    simp [hw p hp]
  have hv : ∀ l : List Param, values (attach a₀ l) = l.map Param.value := by
    intro l
    unfold values attach
    rw [List.map_map]
    rfl
  have hl : (trainer loss rule).loss 0 (List.range N) ⟨attach a₀ weight, attach a₀ rest⟩ = .error .runtimeError := by
    unfold trainer
    dsimp only
    rw [hv, hv, hloss]
    dsimp only
    rw [hany]
    rfl
  unfold fit mmlEpochs trainIteration LoopState.start
  dsimp only [List.length_nil]
  rw [hl]
  rfl

/-! ## Histories -/

theorem setRequires_value (b : Bool) (l : List Param) : (setRequires b l).map Param.value = l.map Param.value := by
  unfold setRequires
  rw [List.map_map]
  rfl

theorem setRequires_trainable (l : List Param) : AllTrainable (setRequires true l) := by
  intro p hp
  obtain ⟨q, -, rfl⟩ := List.mem_map.mp hp
  rfl

theorem addGrad_value (g : ℕ → ℝ) (l : List Param) : (addGrad g l).map Param.value = l.map Param.value := by
  unfold addGrad
  apply List.ext_getElem?
  intro k
  rw [List.getElem?_map, List.getElem?_mapIdx, List.getElem?_map]
  cases l[k]? with
  | none => rfl
  | some p => obtain ⟨v, r, g⟩ := p; cases r <;> rfl

theorem addGrad_trainable (g : ℕ → ℝ) (l : List Param) (h : AllTrainable l) : AllTrainable (addGrad g l) := by
  intro p hp
  obtain ⟨k, hk⟩ := List.mem_iff_getElem?.mp hp
  unfold addGrad at hk
  rw [List.getElem?_mapIdx] at hk
  cases hs : l[k]? with
  | none => rw [hs] at hk; cases hk
  | some q =>
    have := h q (List.mem_of_getElem? hs)
    rw [hs] at hk
    simp only [Option.map_some, this, if_true, Option.some.injEq] at hk
    rw [← hk]

/-- However a scoring call by ML or MAP ends, the parameters keep their values and buffers. If it returns, or is stopped after the search
was set up, all parameters require gradients afterwards. -/
theorem C122_scoring (stop : Option (Point × Stop)) (l : List Param) :
    (searchCall stop l).1.map (fun p => (p.value, p.grad)) = l.map (fun p => (p.value, p.grad)) ∧
      ((∀ s, stop ≠ some (.prior, s) ∧ stop ≠ some (.window, s)) → AllTrainable (searchCall stop l).1) ∧
      ((∀ s, stop ≠ some (.window, s)) → AllTrainable l → AllTrainable (searchCall stop l).1) := by
  have h : ∀ b, (setRequires b l).map (fun p => (p.value, p.grad)) = l.map (fun p => (p.value, p.grad)) := by
    intro b
    unfold setRequires
    rw [List.map_map]
    rfl
  have h2 : (setRequires true (setRequires false l)).map (fun p => (p.value, p.grad)) = l.map (fun p => (p.value, p.grad)) := by
    unfold setRequires
    rw [List.map_map, List.map_map]
    rfl
  rcases stop with _ | ⟨p, s⟩
  · exact ⟨h2, fun _ => setRequires_trainable _, fun _ _ => setRequires_trainable _⟩
  · cases p with
    | prior => exact ⟨rfl, fun hs => absurd rfl (hs s).1, fun _ hl => hl⟩
    | window => exact ⟨h false, fun hs => absurd rfl (hs s).2, fun hs => absurd rfl (hs s)⟩
    | setup => cases s <;> exact ⟨h2, fun _ => setRequires_trainable _, fun _ _ => setRequires_trainable _⟩
    | search => exact ⟨h2, fun _ => setRequires_trainable _, fun _ _ => setRequires_trainable _⟩

theorem runUses_inv (us : List Use) (hus : NoWindowStop us) (l : List Param × List Param) (h1 : AllTrainable l.1)
    (h2 : AllTrainable l.2) : AllTrainable (runUses us l).1 ∧ AllTrainable (runUses us l).2 ∧
      (runUses us l).1.map Param.value = l.1.map Param.value ∧ (runUses us l).2.map Param.value = l.2.map Param.value := by
  induction us generalizing l with
  | nil => exact ⟨h1, h2, rfl, rfl⟩
  | cons u us ih =>
    have hstep : AllTrainable (u.run l).1 ∧ AllTrainable (u.run l).2 ∧ (u.run l).1.map Param.value = l.1.map Param.value ∧
        (u.run l).2.map Param.value = l.2.map Param.value := by
      cases u with
      | derivatives gw gr =>
        exact ⟨addGrad_trainable gw _ h1, addGrad_trainable gr _ h2, addGrad_value gw _, addGrad_value gr _⟩
      | scores stop =>
        have hw : ∀ s, stop ≠ some (.window, s) := fun s hs => hus _ List.mem_cons_self s (by rw [hs])
        have hv : ∀ l : List Param, (searchCall stop l).1.map Param.value = l.map Param.value := by
          intro l
          have := congrArg (List.map Prod.fst) (C122_scoring stop l).1
          simpa [List.map_map, Function.comp_def] using this
        exact ⟨(C122_scoring stop l.1).2.2 hw h1, (C122_scoring stop l.2).2.2 hw h2, hv _, hv _⟩
    obtain ⟨a, b, e, f⟩ := ih (fun v hv => hus v (List.mem_cons_of_mem _ hv)) (u.run l) hstep.1 hstep.2.1
    exact ⟨a, b, e.trans hstep.2.2.1, f.trans hstep.2.2.2⟩

/-- C122 as a user expects it: whatever was computed with the model before, and however those calls ended, a fit from the same values
gives the same parameters. -/
def HistoryClaim : Prop :=
  ∀ (A : Type) (loss : List ℝ → List ℝ → Except PyErr Num) (rule : ℕ → EntryRule A) (a₀ : A) (c : TrainConfig) (lr : ℝ)
    (N n : ℕ) (weight rest : List Param) (us : List Use), AllTrainable weight → AllTrainable rest → weight ++ rest ≠ [] →
    (fit (fun _ _ => loss) rule a₀ c lr N n (runUses us (weight, rest)).1 (runUses us (weight, rest)).2).map
        (fun r => (r.1.map Param.value, r.2.map Param.value)) =
      gradientFit loss rule a₀ c lr N n (weight.map Param.value) (rest.map Param.value)

/-- A fit after any history of calls that compute derivatives or scores gives what it gives without the history, if no scoring call was
stopped between lines 800 and 814. Missing: calls stopped there (`C122_window_false`) and parameters frozen by the user
(`C122_frozen_false`). -/
theorem C122_history_partial (loss : List ℝ → List ℝ → Except PyErr Num) (rule : ℕ → EntryRule A) (a₀ : A) (c : TrainConfig) (lr : ℝ)
    (N n : ℕ) (weight rest : List Param) (us : List Use) (hus : NoWindowStop us) (hw : AllTrainable weight) (hr : AllTrainable rest)
    (hne : weight ++ rest ≠ []) :
    (fit (fun _ _ => loss) rule a₀ c lr N n (runUses us (weight, rest)).1 (runUses us (weight, rest)).2).map
        (fun r => (r.1.map Param.value, r.2.map Param.value)) =
      gradientFit loss rule a₀ c lr N n (weight.map Param.value) (rest.map Param.value) := by
  obtain ⟨h1, h2, h3, h4⟩ := runUses_inv us hus (weight, rest) hw hr
  rw [← show (runUses us (weight, rest)).1.map Param.value = weight.map Param.value from h3,
    ← show (runUses us (weight, rest)).2.map Param.value = rest.map Param.value from h4]
  refine C122_fit_fresh loss rule a₀ c lr N n _ _ h1 h2 fun h0 => hne ?_
  have e1 := congrArg List.length h3
  have e2 := congrArg List.length h4
  have e0 := congrArg List.length h0
  simp only [List.length_map, List.length_append, List.length_nil] at e1 e2 e0
  apply List.eq_nil_of_length_eq_zero
  rw [List.length_append]
  omega

/-- A history with derivatives, completed, failed and interrupted scoring calls. -/
example : NoWindowStop [.derivatives (fun _ => 3) (fun k => k), .scores none, .scores (some (.search, .interrupted)),
    .scores (some (.prior, .raised .valueError)), .derivatives (fun _ => -1) (fun _ => 0)] ∧
    (runUses [.derivatives (fun _ => 3) (fun k => k), .scores none] ([⟨1, true, none⟩], [⟨0, true, some 1⟩])).1.map Param.grad
      = [some (0 + 3)] := by
  refine ⟨?_, rfl⟩
  intro u hu s
  simp only [List.mem_cons, List.not_mem_nil, or_false] at hu
  rcases hu with rfl | rfl | rfl | rfl | rfl <;> simp

/-- Plain gradient descent. -/
def exDescent : EntryRule Unit := fun lr a v g => (a, v - lr * g)

/-- A training with one epoch. -/
noncomputable def exOneEpoch : TrainConfig := ⟨1 / 2, 10, 0, 5⟩

theorem partialAt_first (v : ℝ) : partialAt (fun w => .ok (some (w[0]?.getD 0))) [v] 0 = 1 := by
  unfold partialAt
  have : (fun x : ℝ => lossValue (.ok (some (([v].set 0 x)[0]?.getD 0)))) = fun x => x := by
    funext x
    rfl
  rw [this]
  exact deriv_id _

/-- One epoch of descent for one weight. -/
theorem exDescent_fit (v : ℝ) (g : Option ℝ) :
    ∃ r, fit (fun _ _ w _ => .ok (some (w.getD 0 0))) (fun _ => exDescent) () exOneEpoch 1 1 1 [⟨v, true, g⟩] [] = .ok (r, []) ∧
      r.map Param.value = [v - 1] := by
  have h : AllTrainable [⟨v, true, g⟩] := by
    intro p hp
    rw [List.mem_singleton.mp hp]
  have hg := partialAt_first v
  refine ⟨[⟨v - 1, true, some 1⟩], ?_, rfl⟩
  unfold fit mmlEpochs trainIteration LoopState.start
  simp [trainer, attach, values, zeroGrad, backward, optimizerStep, mmlEpochs, LoopState.final, improves, loadValues, exDescent, hg,
    exOneEpoch, Plateau.step, bind, Except.bind, pure, Except.pure]

/-- One weight is trained, the other is frozen: `C122_frozen_kept` applies. -/
example : fit (fun _ _ w _ => .ok (some (w.getD 0 0))) (fun _ => exDescent) () exOneEpoch 1 1 1 [⟨0, true, some 7⟩, ⟨5, false, some 2⟩] []
    = .ok ([⟨-1, true, some 1⟩, ⟨5, false, none⟩], []) := by
  have hg : partialAt (fun w => .ok (some (w[0]?.getD 0))) [0, 5] 0 = 1 := by
    unfold partialAt
    have : (fun x : ℝ => lossValue (.ok (some (([0, 5].set 0 x)[0]?.getD 0)))) = fun x => x := by
      funext x
      rfl
    rw [this]
    exact deriv_id _
  unfold fit mmlEpochs trainIteration LoopState.start
  simp [trainer, attach, values, zeroGrad, backward, optimizerStep, mmlEpochs, LoopState.final, improves, loadValues, exDescent, hg,
    exOneEpoch, Plateau.step, bind, Except.bind, pure, Except.pure]

/-- A scoring call that is interrupted between freezing the parameters and the first line of the search leaves them frozen: the next fit
raises instead of training. -/
theorem C122_window_false : ¬ HistoryClaim := by
  intro h
  have h1 := h Unit (fun w _ => .ok (some (w.getD 0 0))) (fun _ => exDescent) () exOneEpoch 1 1 1 [⟨0, true, none⟩] []
    [.scores (some (.window, .interrupted))] (by intro p hp; rw [List.mem_singleton.mp hp]) (by intro p hp; cases hp) (by simp)
  have h2 := C122_all_frozen (fun _ _ w _ => .ok (some (w.getD 0 0))) (fun _ => exDescent) () exOneEpoch 1 1 0
    (runUses [.scores (some (.window, .interrupted))] ([⟨0, true, none⟩], [])).1
    (runUses [.scores (some (.window, .interrupted))] ([⟨0, true, none⟩], [])).2
    (by intro p hp; rw [List.mem_singleton.mp hp]) (some 0) rfl
  rw [h2] at h1
  obtain ⟨r, hr, -⟩ := exDescent_fit 0 none
  have h3 := C122_fit_fresh (fun w _ => .ok (some (w.getD 0 0))) (fun _ => exDescent) () exOneEpoch 1 1 1 [⟨0, true, none⟩] []
    (by intro p hp; rw [List.mem_singleton.mp hp]) (by intro p hp; cases hp) (by simp)
  rw [hr, ← h1] at h3
  cases h3

/-- The claim for parameters that the user froze: their values are never changed by scoring and fitting. -/
def FrozenClaim : Prop :=
  ∀ (A : Type) (loss : List ℝ → List ℝ → Except PyErr Num) (rule : ℕ → EntryRule A) (a₀ : A) (c : TrainConfig) (lr : ℝ)
    (N n : ℕ) (weight rest : List Param) (us : List Use) (r : List Param × List Param), NoWindowStop us →
    fit (fun _ _ => loss) rule a₀ c lr N n (runUses us (weight, rest)).1 (runUses us (weight, rest)).2 = .ok r →
    ∀ (k : ℕ) (p : Param), weight[k]? = some p → p.requires = false → ∃ p', r.1[k]? = some p' ∧ p'.value = p.value

/-- A completed scoring call makes frozen parameters trainable, so that the next fit moves them. (Without a scoring call in between they
stay: `C122_frozen_kept`.) -/
theorem C122_frozen_false : ¬ FrozenClaim := by
  intro h
  obtain ⟨r, hr, hv⟩ := exDescent_fit 0 none
  obtain ⟨p', h1, h2⟩ := h Unit (fun w _ => .ok (some (w.getD 0 0))) (fun _ => exDescent) () exOneEpoch 1 1 1 [⟨0, false, none⟩] []
    [.scores none] (r, []) (by intro u hu s; rw [List.mem_singleton.mp hu]; simp) hr 0 ⟨0, false, none⟩ rfl rfl
  have h3 : (r.map Param.value)[0]? = some p'.value := by rw [List.getElem?_map, h1]; rfl
  rw [hv, h2] at h3
  norm_num at h3

/-- The claim for exceptions: what stops the scoring is what the caller sees. -/
def StopSeenClaim : Prop := ∀ (p : Point) (s : Stop) (l : List Param), (searchCall (some (p, s)) l).2 = some s

/-- In the search itself the claim holds. Missing: the lines before it. -/
theorem C122_stop_seen_partial (s : Stop) (l : List Param) : (searchCall (some (.search, s)) l).2 = some s := rfl

/-- Exactly when the caller sees what stopped the scoring: in the search itself, for an interruption of its setup, and if what stopped it
was a `NameError` anyway. -/
theorem C122_stop_seen_iff (p : Point) (s : Stop) (l : List Param) :
    (searchCall (some (p, s)) l).2 = some s ↔ p = .search ∨ (p = .setup ∧ s = .interrupted) ∨ s = .raised .nameError := by
  cases p <;> cases s <;> simp [searchCall, eq_comm]

example : (searchCall (some (.setup, .raised .valueError)) []).2 ≠ some (.raised .valueError) :=
  fun h => by simpa using (C122_stop_seen_iff _ _ _).1 h

/-- An interruption before the first line of the search reaches the caller as a `NameError`. -/
theorem C122_stop_seen_false : ¬ StopSeenClaim := by
  intro h
  have := h .window .interrupted []
  simp [searchCall] at this

/-! ## The buffer of the loop over the items -/

theorem zeros_add (b v : Thetas d) (h : b.length = v.length) :
    List.zipWith (fun x y => x + y) (b.map fun _ => (0 : Fin d → ℝ)) v = v := by
  induction b generalizing v with
  | nil =>
    cases v with
    | nil => rfl
    | cons _ _ => cases h
  | cons x b ih =>
    cases v with
    | nil => cases h
    | cons y v =>
      rw [List.map_cons, List.zipWith_cons_cons, ih v (by simpa using h), zero_add]

/-- The items share one buffer, but every item gets its own derivatives, whatever the buffer holds at the beginning. -/
theorem C122_item_buffer (g : ℕ → Except PyErr (Thetas d)) (N : ℕ) (hg : ∀ i v, g i = .ok v → v.length = N) (items : List ℕ)
    (buffer : Option (Thetas d)) (hb : ∀ b, buffer = some b → b.length = N) : bufferLoop g items buffer = items.mapM g := by
  induction items generalizing buffer with
  | nil => rfl
  | cons i items ih =>
    unfold bufferLoop
    rw [List.mapM_cons]
    cases hi : g i with
    | error e => rfl
    | ok v =>
      simp only [bind_ok]
      have hfill : fillBuffer (buffer.map fun b => b.map fun _ => (0 : Fin d → ℝ)) v = v := by
        cases buffer with
        | none => rfl
        | some b => exact zeros_add b v ((hb b rfl).trans (hg i v hi).symm)
      rw [hfill, ih (some v) fun b hb' => by rw [← Option.some.inj hb']; exact hg i v hi]

/-- Two items: the second column is not the sum of both. -/
example : bufferLoop (fun i => .ok [fun _ : Fin 1 => (i : ℝ) + 1]) [0, 1] none = .ok [[fun _ => (0 : ℕ) + 1], [fun _ => (1 : ℕ) + 1]] := by
  rw [C122_item_buffer _ 1 (fun i v h => by rw [← Except.ok.inj h]; rfl) _ _ (by intro b hb; cases hb)]
  rfl

theorem gradOfSum_length (out : Thetas d → Except PyErr (List ℝ)) (θ v : Thetas d) (h : gradOfSum out θ = .ok v) :
    v.length = θ.length := by
  unfold gradOfSum at h
  cases ho : out θ with
  | error e => rw [ho] at h; cases h
  | ok o =>
    rw [ho] at h
    have h' := Except.ok.inj h
    rw [← h', List.length_mapIdx]

/-! ## Scales -/

/-- Scales in the order of attachment such that gradients switched on and a tensor with flags `⟨req, leaf⟩` give what the plain loop
gives: no bit scale meets a tensor that requires a gradient and is no leaf. -/
theorem jacobianLoopIn_on (scales : List (GradScale d)) (jac : List (Matrix (Fin d) (Fin d) ℝ)) (θ : Thetas d) (f : Flags)
    (h : NoKind .bit scales ∨ (f.requires = false ∧ scales.Pairwise fun s t => s.kind = .trained → t.kind ≠ .bit)) :
    jacobianLoopIn true scales jac θ f = jacobianLoop (scales.map GradScale.scale) jac θ := by
  induction scales generalizing jac θ f with
  | nil => rfl
  | cons s ss ih =>
    unfold jacobianLoopIn
    rw [List.map_cons]
    unfold jacobianLoop
    have hj : ∃ f' : Flags, (f.requires = false → f'.requires = false) ∧
        s.jacobian true θ f = (s.scale.jacobian θ).map fun j => (j, f') := by
      unfold GradScale.jacobian
      cases hk : s.kind with
      | plain => exact ⟨f, id, by cases s.scale.jacobian θ <;> rfl⟩
      | trained => exact ⟨f, id, by cases s.scale.jacobian θ <;> rfl⟩
      | bit =>
        rcases h with h | h
        · exact absurd hk (h s List.mem_cons_self)
        · refine ⟨f, id, ?_⟩
          have hc : bitFlags d f = .ok f := by unfold bitFlags clearFlag; rw [h.1]; simp
          dsimp only
          rw [hc]
          simp only [bind_ok]
          cases s.scale.jacobian θ <;> rfl
    obtain ⟨f', hf', he⟩ := hj
    rw [he]
    cases hjac : s.scale.jacobian θ with
    | error e => rfl
    | ok j =>
      simp only [Except.map, bind_ok]
      cases ht : s.scale.transform θ with
      | error e => rfl
      | ok θ' =>
        simp only [bind_ok]
        apply ih
        rcases h with h | h
        · exact Or.inl fun t ht => h t (List.mem_cons_of_mem _ ht)
        · rw [List.pairwise_cons] at h
          by_cases hk : s.kind = .trained
          · exact Or.inl fun t ht => h.2.1 t ht hk
          · refine Or.inr ⟨?_, h.2.2⟩
            unfold GradScale.transformFlags
            cases hk' : s.kind with
            | plain => simp [hf' h.1]
            | bit => rfl
            | trained => exact absurd hk' hk

/-- The first scale is a bit scale and the tensor is a leaf: the flag is cleared. -/
theorem jacobianLoopIn_bit (s : GradScale d) (ss : List (GradScale d)) (hs : s.kind = .bit)
    (hss : ss.Pairwise fun s t => s.kind = .trained → t.kind ≠ .bit) (jac : List (Matrix (Fin d) (Fin d) ℝ)) (θ : Thetas d) (f : Flags)
    (hf : f.requires = true → f.leaf = true) :
    jacobianLoopIn true (s :: ss) jac θ f = jacobianLoop ((s :: ss).map GradScale.scale) jac θ := by
  unfold jacobianLoopIn
  rw [List.map_cons]
  unfold jacobianLoop
  have hc : ∃ f', bitFlags d f = .ok f' := by
    unfold bitFlags
    split_ifs
    · unfold clearFlag
      cases hr : f.requires with
      | false => exact ⟨_, rfl⟩
      | true => rw [hf hr]; exact ⟨_, rfl⟩
    · exact ⟨_, rfl⟩
  obtain ⟨f', hf'⟩ := hc
  unfold GradScale.jacobian
  rw [hs]
  dsimp only
  rw [hf']
  simp only [bind_ok]
  cases hjac : s.scale.jacobian θ with
  | error e => rfl
  | ok j =>
    simp only [bind_ok, pure, Except.pure]
    cases ht : s.scale.transform θ with
    | error e => rfl
    | ok θ' =>
      simp only [bind_ok]
      apply jacobianLoopIn_on
      refine Or.inr ⟨?_, hss⟩
      unfold GradScale.transformFlags
      rw [hs]

theorem rescaleGradientsIn_eq (mode : Bool) (scales : List (GradScale d)) (flat : List (Fin d → ℝ)) (θ : Thetas d) (f : Flags)
    (h : thetaTransformJacobianIn mode scales θ f = thetaTransformJacobian (scales.map GradScale.scale) θ) :
    rescaleGradientsIn mode scales flat θ f = rescaleGradients (scales.map GradScale.scale) flat θ := by
  unfold rescaleGradientsIn rescaleGradients
  rw [h]

/-- Which lists of scales `probability_gradients` and `information` can handle: a bit scale may only come first, and only if the tensor
does not require a gradient. -/
def BitAllowed (scales : List (GradScale d)) (f : Flags) : Prop :=
  NoKind .bit scales ∨ (f.requires = false ∧ NoKind .bit scales.tail)

theorem jacobianIn_gradients (scales : List (GradScale d)) (θ : Thetas d) (f : Flags) (h : BitAllowed scales f) :
    thetaTransformJacobianIn true scales θ { requires := true, leaf := !f.requires } =
      thetaTransformJacobian (scales.map GradScale.scale) θ := by
  unfold thetaTransformJacobianIn thetaTransformJacobian
  rcases h with h | ⟨hf, h⟩
  · exact jacobianLoopIn_on scales _ θ _ (Or.inl h)
  · cases scales with
    | nil => rfl
    | cons s ss =>
      have hp : ss.Pairwise fun s t => s.kind = .trained → t.kind ≠ .bit :=
        List.pairwise_of_forall_mem_list fun a _ b hb _ => h b hb
      by_cases hs : s.kind = .bit
      · exact jacobianLoopIn_bit s ss hs hp _ θ _ fun _ => by rw [hf]; rfl
      · refine jacobianLoopIn_on (s :: ss) _ θ _ (Or.inl fun t ht => ?_)
        rcases List.mem_cons.mp ht with rfl | ht
        · exact hs
        · exact h t ht

/-- `probability_gradients` gives the same in every gradient mode, also under `no_grad`, and does not depend on the flags of the latent
scores, if no bit scale is attached; with a bit scale in the first place also, if the scores do not require a gradient. Missing: the
other cases, in which it raises (`C122_bit_flag`, `C122_bit_later`). -/
theorem C122_probability_gradients_partial (mode : Bool) (probs : (Fin d → ℝ) → List (List ℝ)) (items C : ℕ)
    (scales : List (GradScale d)) (rescale : Bool) (θ : Thetas d) (f : Flags) (h : BitAllowed scales f) :
    probabilityGradientsIn mode probs items C scales rescale θ f =
      probabilityGradients probs items C (scales.map GradScale.scale) rescale θ := by
  unfold probabilityGradientsIn probabilityGradients
  dsimp only
  rw [rescaleGradientsIn_eq true scales _ θ _ (jacobianIn_gradients scales θ f h), List.isEmpty_map]

/-- The same for `information`. -/
theorem C122_information_partial (mode : Bool) (probs : (Fin d → ℝ) → List (List ℝ)) (items C : ℕ) (scales : List (GradScale d))
    (item : Bool) (degrees : Option (List ℝ)) (rescale : Bool) (θ : Thetas d) (f : Flags) (h : BitAllowed scales f) :
    informationIn mode probs items C scales item degrees rescale θ f =
      information probs items C (scales.map GradScale.scale) item degrees rescale θ := by
  unfold informationIn information
  rw [C122_probability_gradients_partial mode probs items C scales rescale θ f h]
  rfl

/-- A flow after a rotation, for any scores; a bit scale before a reversal, for scores without the flag. -/
example (r : Scale 2) (f : Flags) (b : Scale 1) :
    BitAllowed [⟨r, .plain⟩, ⟨(FlowState.init 2).scale, .trained⟩] f ∧
      BitAllowed [⟨b, .bit⟩, ⟨reverseScale fun _ => true, .plain⟩] ⟨false, true⟩ := by
  refine ⟨Or.inl ?_, Or.inr ⟨rfl, ?_⟩⟩
  · intro s hs
    simp only [List.mem_cons, List.not_mem_nil, or_false] at hs
    rcases hs with rfl | rfl <;> simp
  · intro s hs
    simp only [List.tail_cons, List.mem_cons, List.not_mem_nil, or_false] at hs
    rw [hs]
    simp

/-- A bit scale in the first place and scores that require a gradient: a `RuntimeError`. -/
theorem C122_bit_flag (mode : Bool) (probs : (Fin 1 → ℝ) → List (List ℝ)) (items C : ℕ) (s : GradScale 1) (ss : List (GradScale 1))
    (hs : s.kind = .bit) (θ : Thetas 1) (f : Flags) (hf : f.requires = true) :
    probabilityGradientsIn mode probs items C (s :: ss) true θ f = .error .runtimeError := by
  have hj : thetaTransformJacobianIn true (s :: ss) θ { requires := true, leaf := !f.requires } = .error .runtimeError := by
    unfold thetaTransformJacobianIn jacobianLoopIn GradScale.jacobian
    rw [hs, hf]
    rfl
  unfold probabilityGradientsIn rescaleGradientsIn
  rw [hj]
  rfl

/-- A bit scale after other scales that depend on the scores: a `RuntimeError` even for scores that do not require a gradient. -/
theorem C122_bit_later (mode : Bool) (probs : (Fin 1 → ℝ) → List (List ℝ)) (items C : ℕ) (s t : GradScale 1) (ss : List (GradScale 1))
    (hs : s.kind ≠ .bit) (ht : t.kind = .bit) (θ θ' : Thetas 1) (j : List (Matrix (Fin 1) (Fin 1) ℝ)) (hj : s.scale.jacobian θ = .ok j)
    (htr : s.scale.transform θ = .ok θ') (f : Flags) :
    probabilityGradientsIn mode probs items C (s :: t :: ss) true θ f = .error .runtimeError := by
  have hjac : thetaTransformJacobianIn true (s :: t :: ss) θ { requires := true, leaf := !f.requires } = .error .runtimeError := by
    unfold thetaTransformJacobianIn jacobianLoopIn
    have h1 : s.jacobian true θ { requires := true, leaf := !f.requires } = .ok (j, { requires := true, leaf := !f.requires }) := by
      unfold GradScale.jacobian
      cases hk : s.kind with
      | bit => exact absurd hk hs
      | plain => dsimp only; rw [hj]; rfl
      | trained => dsimp only; rw [hj]; rfl
    have h2 : s.transformFlags true { requires := true, leaf := !f.requires } = ⟨true, false⟩ := by
      unfold GradScale.transformFlags
      cases hk : s.kind with
      | bit => exact absurd hk hs
      | plain => rfl
      | trained => rfl
    rw [h1, htr]
    simp only [bind_ok]
    unfold jacobianLoopIn GradScale.jacobian
    rw [ht, h2]
    rfl
  unfold probabilityGradientsIn rescaleGradientsIn
  rw [hjac]
  rfl

/-- `Reverse` followed by a bit scale. -/
example (probs : (Fin 1 → ℝ) → List (List ℝ)) (b : Scale 1) (θ : Thetas 1) :
    probabilityGradientsIn true probs 2 2 [⟨reverseScale fun _ => true, .plain⟩, ⟨b, .bit⟩] true θ ⟨false, true⟩ = .error .runtimeError :=
  C122_bit_later true probs 2 2 ⟨reverseScale fun _ => true, .plain⟩ ⟨b, .bit⟩ [] (by decide) rfl θ _ _ rfl rfl _

/-- The claim that the flag of the tensor of latent scores does not matter. -/
def FlagsIrrelevant : Prop :=
  ∀ (d : ℕ) (probs : (Fin d → ℝ) → List (List ℝ)) (items C : ℕ) (scales : List (GradScale d)) (θ : Thetas d) (f f' : Flags),
    probabilityGradientsIn true probs items C scales true θ f = probabilityGradientsIn true probs items C scales true θ f'

/-- On a bit scale the gradients for two Rasch items exist for a tensor that does not require a gradient, and the same values in a tensor
that requires one raise. -/
theorem C122_bit_flag_false : ¬ FlagsIrrelevant := by
  intro h
  obtain ⟨b, -, hu, -, g, hj, hg⟩ := C30_one_item_false
  let sc : GradScale 1 := ⟨⟨b.transform, b.inverse, b.jacobian raschTwoGrads⟩, .bit⟩
  have h1 := C122_bit_flag true raschTwo 2 2 sc [] rfl [fun _ => 0] ⟨true, true⟩ rfl
  have h2 := C122_probability_gradients_partial true raschTwo 2 2 [sc] true [fun _ => 0] ⟨false, true⟩
    (Or.inr ⟨rfl, fun s hs => by cases hs⟩)
  rw [h 1 raschTwo 2 2 [sc] [fun _ => 0] ⟨true, true⟩ ⟨false, true⟩, h2] at h1
  obtain ⟨B, -, hB, -⟩ := C28_scores b hu [fun _ => 0] (by simp)
  have hjac : thetaTransformJacobian ([sc].map GradScale.scale) [fun _ => 0] = .ok [(Matrix.of fun _ _ => g) * 1] := by
    unfold thetaTransformJacobian
    rw [List.map_cons]
    unfold jacobianLoop
    rw [show sc.scale.jacobian [fun _ => 0] = _ from hj, show sc.scale.transform [fun _ => 0] = _ from hB]
    rfl
  have hdet : ((Matrix.of fun _ _ => g : Matrix (Fin 1) (Fin 1) ℝ) * 1).transpose.det ≠ 0 := by
    rw [mul_one, Matrix.det_transpose, Matrix.det_fin_one]
    exact hg.ne'
  have hsolve : ∀ v, linalgSolve ((Matrix.of fun _ _ => g : Matrix (Fin 1) (Fin 1) ℝ) * 1).transpose v =
      .ok ((((Matrix.of fun _ _ => g : Matrix (Fin 1) (Fin 1) ℝ) * 1).transpose)⁻¹.mulVec v) := by
    intro v
    unfold linalgSolve
    rw [if_neg hdet]
  have hre : ∀ v1 v2 v3 v4, ∃ r, rescaleGradients ([sc].map GradScale.scale) [v1, v2, v3, v4] [fun _ => 0] = .ok r := by
    intro v1 v2 v3 v4
    unfold rescaleGradients
    rw [hjac]
    simp only [bind_ok]
    rw [if_neg (by simp), if_pos (by simp)]
    exact ⟨_, mapM_ok _ _ (fun p => (p.1)⁻¹.mulVec p.2) (by
      intro p hp
      have : p.1 = ((Matrix.of fun _ _ => g : Matrix (Fin 1) (Fin 1) ℝ) * 1).transpose := by
        have := (List.of_mem_zip (a := p.1) (b := p.2) hp).1
        simp only [List.flatMap_cons, List.flatMap_nil, List.append_nil] at this
        exact (List.mem_replicate.mp this).2
      rw [this]
      exact hsolve p.2)⟩
  obtain ⟨r, hr⟩ := hre _ _ _ _
  unfold probabilityGradients at h1
  dsimp only [List.map_cons, List.map_nil, List.isEmpty_cons, Bool.not_false, Bool.and_self, if_true, List.flatten_cons, List.flatten_nil,
    probabilityJacobian, raschTwo, List.mapIdx_cons, List.mapIdx_nil, List.length_cons, List.length_nil, List.append_nil] at h1
  erw [hr] at h1
  cases h1

/-- `expected_item_score_gradients` gives the same in every gradient mode, for scores that are a leaf or do not require a gradient, and any
order of scales in which no bit scale comes after a trained one. Afterwards the scores of the caller do not require gradients. Missing:
the flag (`C122_flag_kept_false`), and the cases in which it raises. -/
theorem C122_score_gradients_partial (mode : Bool) (probs : (Fin d → ℝ) → List (List ℝ)) (cats : List ℕ) (mc : Option (List ℤ))
    (scales : List (GradScale d)) (byItemScore rescale : Bool) (θ : Thetas d) (f : Flags) (hf : f.requires = true → f.leaf = true)
    (h : scales.Pairwise fun s t => s.kind = .trained → t.kind ≠ .bit) :
    expectedScoreGradientsIn mode probs cats mc scales byItemScore rescale θ f =
      (expectedScoreGradients probs cats mc (scales.map GradScale.scale) byItemScore rescale θ).map
        fun g => (g, { f with requires := false }) := by
  have hc : clearFlag f = .ok { f with requires := false } := by
    unfold clearFlag
    obtain ⟨r, l⟩ := f
    cases r with
    | false => rfl
    | true => rw [hf rfl]; rfl
  unfold expectedScoreGradientsIn expectedScoreGradients
  rw [hc]
  simp only [bind_ok]
  rw [C122_item_buffer _ θ.length (fun i v hv => gradOfSum_length _ θ v hv) _ none (by intro b hb; cases hb), List.isEmpty_map]
  cases (List.range cats.length).mapM fun item => gradOfSum (fun θ => do
    let s ← gradientScores probs cats mc byItemScore θ
    return s.map fun r => r.getD item 0) θ with
  | error e => rfl
  | ok columns =>
    simp only [bind_ok]
    split_ifs
    · rw [rescaleGradientsIn_eq true scales _ θ { f with requires := false }
        (jacobianLoopIn_on scales _ θ _ (Or.inr ⟨rfl, h⟩))]
      cases rescaleGradients (scales.map GradScale.scale) _ θ <;> rfl
    · rfl

/-- Scores computed from other tensors that require gradients are refused. -/
theorem C122_score_gradients_refused (mode : Bool) (probs : (Fin d → ℝ) → List (List ℝ)) (cats : List ℕ) (mc : Option (List ℤ))
    (scales : List (GradScale d)) (byItemScore rescale : Bool) (θ : Thetas d) :
    expectedScoreGradientsIn mode probs cats mc scales byItemScore rescale θ ⟨true, false⟩ = .error .runtimeError := rfl

/-- The claim that computing gradients leaves the flag of the caller's tensor alone. -/
def FlagKept : Prop :=
  ∀ (d : ℕ) (probs : (Fin d → ℝ) → List (List ℝ)) (cats : List ℕ) (θ : Thetas d) (f : Flags) (r : List (List (Fin d → ℝ)) × Flags),
    expectedScoreGradientsIn true probs cats none [] false false θ f = .ok r → r.2 = f

theorem C122_flag_kept_false : ¬ FlagKept := by
  intro h
  have h1 := C122_score_gradients_partial true (fun _ : Fin 1 → ℝ => [[1 / 2, 1 / 2]]) [2] none [] false false [fun _ => 0] ⟨true, true⟩
    (fun _ => rfl) List.Pairwise.nil
  have h2 : ∃ g, expectedScoreGradients (fun _ : Fin 1 → ℝ => [[1 / 2, 1 / 2]]) [2] none [] false false [fun _ => 0] = .ok g :=
    ⟨_, rfl⟩
  obtain ⟨g, hg⟩ := h2
  rw [List.map_nil, hg] at h1
  have h3 := h 1 _ _ _ _ _ h1
  cases h3

/-! ## Standard errors -/

theorem jacobianLoopIn_off (scales : List (GradScale d)) (jac : List (Matrix (Fin d) (Fin d) ℝ)) (θ : Thetas d) (l : Bool) :
    (NoKind .trained scales → jacobianLoopIn false scales jac θ ⟨false, l⟩ = jacobianLoop (scales.map GradScale.scale) jac θ) ∧
    (¬ NoKind .trained scales → ∀ js, jacobianLoop (scales.map GradScale.scale) jac θ = .ok js →
      jacobianLoopIn false scales jac θ ⟨false, l⟩ = .error .runtimeError) := by
  induction scales generalizing jac θ l with
  | nil => exact ⟨fun _ => rfl, fun h => absurd (fun s hs => by cases hs) h⟩
  | cons s ss ih =>
    unfold jacobianLoopIn
    rw [List.map_cons]
    unfold jacobianLoop
    have hbit : bitFlags d ⟨false, l⟩ = .ok ⟨false, l⟩ := by unfold bitFlags clearFlag; simp
    have hnk : s.kind ≠ .trained → (NoKind .trained (s :: ss) ↔ NoKind .trained ss) := by
      intro hk
      refine ⟨fun h t ht => h t (List.mem_cons_of_mem _ ht), fun h t ht => ?_⟩
      rcases List.mem_cons.mp ht with rfl | ht
      · exact hk
      · exact h t ht
    cases hjac : s.scale.jacobian θ with
    | error e =>
      have : s.jacobian false θ ⟨false, l⟩ = .error e := by
        unfold GradScale.jacobian
        cases s.kind with
        | plain => dsimp only; rw [hjac]; rfl
        | trained => dsimp only; rw [hjac]; rfl
        | bit => dsimp only; rw [hbit, hjac]; rfl
      rw [this]
      exact ⟨fun _ => rfl, fun _ js h => by cases h⟩
    | ok j =>
      by_cases hk : s.kind = .trained
      · have : s.jacobian false θ ⟨false, l⟩ = .error .runtimeError := by
          unfold GradScale.jacobian
          rw [hk]
          dsimp only
          rw [hjac]
          rfl
        rw [this]
        exact ⟨fun h => absurd hk (h s List.mem_cons_self), fun _ js h => rfl⟩
      · have h1 : s.jacobian false θ ⟨false, l⟩ = .ok (j, ⟨false, l⟩) := by
          unfold GradScale.jacobian
          cases hk' : s.kind with
          | plain => dsimp only; rw [hjac]; rfl
          | trained => exact absurd hk' hk
          | bit => dsimp only; rw [hbit, hjac]; rfl
        have h2 : s.transformFlags false ⟨false, l⟩ = ⟨false, true⟩ := by
          unfold GradScale.transformFlags
          cases hk' : s.kind with
          | plain => rfl
          | trained => exact absurd hk' hk
          | bit => rfl
        rw [h1]
        simp only [bind_ok, hnk hk, h2]
        cases s.scale.transform θ with
        | error e => exact ⟨fun _ => rfl, fun _ js h => by cases h⟩
        | ok θ' =>
          simp only [bind_ok]
          exact ih _ _ _

/-- Standard errors of a variational autoencoder (`NN`): without a flow or a link attached, or without rescaling, they are what the model
of `latent_scores` says although gradients are off. Missing: flows and links (`C122_vae_trained`). -/
theorem C122_vae_partial (f : FittedModel d) (scales : List (GradScale d)) (hf : f.scales = scales.map GradScale.scale)
    (hse : f.attrs.hasMeanSe = true) (rescale : Bool) (h : rescale = false ∨ NoKind .trained scales) (θ : Thetas d)
    (input : Option (List (List Num))) :
    standardErrorsIn f scales "NN" rescale θ input = standardErrorsOf f "NN" rescale θ input := by
  have hc : f.attrs.hasMeanSe = true ∧ "NN" = "NN" := ⟨hse, rfl⟩
  unfold standardErrorsIn standardErrorsOf
  rw [if_pos hc, if_pos hc, hf, List.isEmpty_map]
  dsimp only
  rcases h with h | h
  · rw [h]
    rfl
  · unfold thetaTransformJacobianIn thetaTransformJacobian
    rw [(jacobianLoopIn_off scales _ _ true).1 h]

/-- The other methods: as the model of `latent_scores` says, if no bit scale comes after another scale. -/
theorem C122_information_se_partial (f : FittedModel d) (scales : List (GradScale d)) (hf : f.scales = scales.map GradScale.scale)
    (method : String) (hm : ¬ (f.attrs.hasMeanSe = true ∧ method = "NN")) (rescale : Bool) (h : NoKind .bit scales.tail) (θ : Thetas d)
    (input : Option (List (List Num))) :
    standardErrorsIn f scales method rescale θ input = standardErrorsOf f method rescale θ input := by
  unfold standardErrorsIn standardErrorsOf
  rw [if_neg hm, if_neg hm, hf, C122_information_partial false _ _ _ scales false none rescale θ ⟨false, true⟩ (Or.inr ⟨rfl, h⟩)]
  rfl

/-- With a flow or a link attached the rescaled standard errors of a variational autoencoder raise a `RuntimeError`, although every
Jacobian exists. -/
theorem C122_vae_trained (f : FittedModel d) (scales : List (GradScale d)) (hse : f.attrs.hasMeanSe = true)
    (h : ¬ NoKind .trained scales) (θ : Thetas d) (input : Option (List (List Num))) (js : List (Matrix (Fin d) (Fin d) ℝ))
    (hjs : thetaTransformJacobian (scales.map GradScale.scale) ((f.meanSe (input.getD [])).map Prod.fst) = .ok js) :
    standardErrorsIn f scales "NN" true θ input = .error .runtimeError := by
  unfold standardErrorsIn
  rw [if_pos ⟨hse, rfl⟩]
  have hne : scales.isEmpty = false := by
    cases scales with
    | nil => exact absurd (fun s hs => by cases hs) h
    | cons _ _ => rfl
  rw [hne]
  unfold thetaTransformJacobianIn
  unfold thetaTransformJacobian at hjs
  have := (jacobianLoopIn_off scales _ _ true).2 h js hjs
  dsimp only
  rw [this]
  rfl

/-- The claim for standard errors on every scale. -/
def RescaledErrorsClaim : Prop :=
  ∀ (d : ℕ) (f : FittedModel d) (scales : List (GradScale d)), f.scales = scales.map GradScale.scale → ∀ (θ : Thetas d)
    (input : Option (List (List Num))), standardErrorsIn f scales "NN" true θ input = standardErrorsOf f "NN" true θ input

/-- A variational autoencoder on the scale of a fitted flow. -/
theorem C122_vae_false : ¬ RescaledErrorsClaim := by
  intro h
  have hflow : ∃ s : RQSpline, s.WF ∧ s.uw.length = 1 := by
    obtain ⟨h1, h2⟩ := C21_reachable 1 50 (-5.5) 5.5 (-3) 3 0.001 0.001 0.001 _ _ false
      (by norm_num) (by norm_num) (by norm_num) (by norm_num) (by norm_num) (by norm_num) (by norm_num)
      (by norm_num) (by norm_num) (if_neg (by norm_num)) ⟨rfl, rfl, rfl, rfl, fun _ => ⟨rfl, rfl⟩⟩
      (by simp)
    exact ⟨_, h1, h2⟩
  obtain ⟨s, h1, h2⟩ := hflow
  let sample : Thetas 1 := [fun _ => 0, fun _ => 1]
  let sc : GradScale 1 := ⟨(FlowState.fit sample s).scale, .trained⟩
  let f : FittedModel 1 := { exAE .vae none with scales := [sc.scale] }
  obtain ⟨F, J, hF, hJ, -⟩ := C23_jacobian sample s h1 h2
    (fun k => ⟨fun _ => 0, by simp [sample], fun _ => 1, by simp [sample], by norm_num⟩) ((f.meanSe [[some 1, some 0]]).map Prod.fst)
  have hjs : ∃ js, thetaTransformJacobian ([sc].map GradScale.scale) ((f.meanSe ((some [[some 1, some 0]]).getD [])).map Prod.fst) = .ok js := by
    unfold thetaTransformJacobian
    rw [List.map_cons]
    unfold jacobianLoop
    rw [show sc.scale.jacobian ((f.meanSe ((some [[some 1, some 0]]).getD [])).map Prod.fst) = _ from hJ,
      show sc.scale.transform ((f.meanSe ((some [[some 1, some 0]]).getD [])).map Prod.fst) = _ from hF]
    exact ⟨_, rfl⟩
  obtain ⟨js, hjs⟩ := hjs
  have e1 := C122_vae_trained f [sc] rfl (fun hn => hn sc List.mem_cons_self rfl) [] (some [[some 1, some 0]]) js hjs
  have e2 := h 1 f [sc] rfl [] (some [[some 1, some 0]])
  rw [e1] at e2
  have hc : f.attrs.hasMeanSe = true ∧ "NN" = "NN" := ⟨rfl, rfl⟩
  unfold standardErrorsOf at e2
  rw [if_pos hc] at e2
  dsimp only at e2
  rw [show f.scales = [sc].map GradScale.scale from rfl, hjs] at e2
  cases e2

end Irt
