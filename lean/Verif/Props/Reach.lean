import Verif.Lemmas.Reach
import Verif.Props.Autograd
import Verif.Model.ScaleTraining
import Verif.Props.MmlSymmetry

/-! # Property C124: how far training moves the parameters -/

namespace Irt
open Spec Autograd

/-! ## One entry -/

theorem afterSteps_balanced (v : ℝ) (gs : List (ℝ × ℝ)) : (afterSteps v gs).1.Balanced := by
  have : ∀ (gs : List (ℝ × ℝ)) (s : AdamState × ℝ), s.1.Balanced →
      (gs.foldl (fun s p => adamRule p.1 s.1 s.2 p.2) s).1.Balanced := by
    intro gs
    induction gs with
    | nil => intro s hs; exact hs
    | cons p gs ih => intro s hs; exact ih _ (adam_balanced _ _ _ _ hs)
  exact this gs _ AdamState.balanced_start

/-- C124: whatever derivatives came before and whatever the next one is, a step changes the value by at most 7.28 times the learning
rate. -/
theorem C124_step (v : ℝ) (gs : List (ℝ × ℝ)) (lr g : ℝ) (hlr : 0 ≤ lr) :
    |(afterSteps v (gs ++ [(lr, g)])).2 - (afterSteps v gs).2| ≤ 7.28 * lr := by
  unfold afterSteps
  rw [List.foldl_append]
  exact adam_step lr hlr _ _ _ (afterSteps_balanced v gs)

/-- C124: the first step goes against the derivative, and its length is the learning rate, up to `1e-8` in the denominator. -/
theorem C124_first_step (v lr g : ℝ) : (afterSteps v [(lr, g)]).2 = v - lr * (g / (|g| + 1e-8)) := by
  show v - lr / (1 - 0.9 ^ (0 + 1)) * (0.9 * 0 + 0.1 * g)
    / (Real.sqrt (max 0 (0.999 * 0 + 0.001 * g ^ 2)) / Real.sqrt (1 - 0.999 ^ (0 + 1)) + 1e-8) = _
  have h1 : max 0 (0.999 * 0 + 0.001 * g ^ 2) = 0.001 * g ^ 2 := by
    rw [mul_zero, zero_add]
    exact max_eq_right (by positivity)
  have h2 : Real.sqrt (0.001 * g ^ 2) / Real.sqrt (1 - 0.999 ^ (0 + 1)) = |g| := by
    have h0 : (1 : ℝ) - 0.999 ^ (0 + 1) = 0.001 := by norm_num
    rw [Real.sqrt_mul (by norm_num), Real.sqrt_sq_eq_abs, h0, mul_comm, mul_div_assoc, div_self, mul_one]
    exact (Real.sqrt_pos.2 (by norm_num)).ne'
  rw [h1, h2]
  norm_num
  ring

/-! ## The loops -/

section Loops
variable {loss : ℕ → List ℕ → List ℝ → List ℝ → Except PyErr Num} {T : Trainer (State AdamState)}
  (hT : T = trainer loss fun _ => adamRule) {w r : List ℝ}

/-- What the loops of MML and JML keep: `L` is the first learning rate. -/
structure Reach (L : ℝ) (w r : List ℝ) (st : LoopState (State AdamState)) : Prop where
  params : NearState (7.28 * L * st.history.length) w r st.params
  best : ∀ s, st.bestState = some s → NearState (7.28 * L * st.history.length) w r s
  lr0 : 0 ≤ st.sched.lr
  lr : st.sched.lr ≤ L

include hT in
theorem reach_iteration {L : ℝ} (c : TrainConfig) (b : List ℕ)
    (st : LoopState (State AdamState)) (h : Reach L w r st) :
    match trainIteration T c b st with
    | .ok st' => Reach L w r st' ∧ st'.history.length = st.history.length + 1
    | .error (_, st') => st' = st := by
  unfold trainIteration
  cases hl : T.loss st.history.length b st.params with
  | error e => rfl
  | ok x =>
    dsimp only
    have hL : 0 ≤ L := h.lr0.trans h.lr
    have hup : NearState (7.28 * L * (st.history.length + 1)) w r (T.update st.history.length b st.sched.lr st.params) := by
      rw [hT]
      refine (near_update _ _ b st.sched.lr h.lr0 h.params).mono ?_
      have := h.lr
      nlinarith
    have hlen : ((st.history ++ [x]).length : ℝ) = st.history.length + 1 := by simp
    have hs := plateau_lr c st.sched x h.lr0
    refine ⟨⟨?_, ?_, hs.1, hs.2.trans h.lr⟩, by simp⟩
    · show NearState (7.28 * L * ((st.history ++ [x]).length : ℝ)) w r _
      rw [hlen]; exact hup
    · intro s hbs
      show NearState (7.28 * L * ((st.history ++ [x]).length : ℝ)) w r s
      rw [hlen]
      dsimp only at hbs
      split at hbs
      · rw [← Option.some.inj hbs]; exact hup
      · exact (h.best s hbs).mono (by nlinarith)

theorem reach_start (lr : ℝ) (hlr : 0 ≤ lr) (ps qs : List Param) :
    Reach lr (ps.map fun p => p.value) (qs.map fun p => p.value) (LoopState.start lr ⟨attach {} ps, attach {} qs⟩) := by
  refine ⟨?_, fun s hs => by simp [LoopState.start] at hs, hlr, le_rfl⟩
  have : (7.28 * lr * ((LoopState.start lr (⟨attach {} ps, attach {} qs⟩ : State AdamState)).history.length : ℝ)) = 0 := by
    simp [LoopState.start]
  rw [this]
  exact ⟨near_start ps, near_start qs⟩

include hT in
theorem reach_mml {L : ℝ} (c : TrainConfig) (b : List ℕ) :
    ∀ (n : ℕ) (st : LoopState (State AdamState)), Reach L w r st →
    match mmlEpochs T c b n st with
    | .ok st' => Reach L w r st' ∧ st'.history.length ≤ st.history.length + n
    | .error (_, st') => Reach L w r st' ∧ st'.history.length ≤ st.history.length + n
  | 0, st, h => ⟨h, le_rfl⟩
  | n + 1, st, h => by
    unfold mmlEpochs
    have h1 := reach_iteration hT c b st h
    cases hi : trainIteration T c b st with
    | error e =>
      rw [hi] at h1
      dsimp only at h1
      show Reach L w r e.2 ∧ _
      rw [h1]
      exact ⟨h, by omega⟩
    | ok st1 =>
      rw [hi] at h1
      dsimp only at h1
      show match (if c.limit ≤ st1.lrUpdates then pure st1 else mmlEpochs T c b n st1 :
          Except (PyErr × LoopState (State AdamState)) (LoopState (State AdamState))) with
        | .ok st' => _
        | .error (_, st') => _
      by_cases hlim : c.limit ≤ st1.lrUpdates
      · rw [if_pos hlim]
        exact ⟨h1.1, by omega⟩
      · rw [if_neg hlim]
        have h2 := reach_mml c b n st1 h1.1
        cases hm : mmlEpochs T c b n st1 with
        | ok st2 =>
          rw [hm] at h2
          exact ⟨h2.1, by have := h2.2; omega⟩
        | error e =>
          rw [hm] at h2
          exact ⟨h2.1, by have := h2.2; omega⟩


include hT in
theorem reach_batches {L : ℝ} (c : TrainConfig) : ∀ (bs : List (List ℕ)) (st : LoopState (State AdamState)), Reach L w r st →
    match jmlBatches T c bs st with
    | .ok st' => Reach L w r st' ∧ st'.history.length ≤ st.history.length + bs.length
    | .error (_, st') => Reach L w r st' ∧ st'.history.length ≤ st.history.length + bs.length
  | [], st, h => ⟨h, le_rfl⟩
  | b :: bs, st, h => by
    unfold jmlBatches
    have h1 := reach_iteration hT c b st h
    cases hi : trainIteration T c b st with
    | error e =>
      rw [hi] at h1
      dsimp only at h1
      show Reach L w r e.2 ∧ _
      rw [h1]
      exact ⟨h, by simp⟩
    | ok st1 =>
      rw [hi] at h1
      dsimp only at h1
      show match (if st1.sched.lr ≠ st.prevLr ∧ c.limit ≤ st1.lrUpdates then pure st1 else jmlBatches T c bs st1 :
          Except (PyErr × LoopState (State AdamState)) (LoopState (State AdamState))) with
        | .ok st' => _
        | .error (_, st') => _
      by_cases hlim : st1.sched.lr ≠ st.prevLr ∧ c.limit ≤ st1.lrUpdates
      · rw [if_pos hlim]
        exact ⟨h1.1, by rw [h1.2, List.length_cons]; omega⟩
      · rw [if_neg hlim]
        have h2 := reach_batches c bs st1 h1.1
        cases hm : jmlBatches T c bs st1 with
        | ok st2 =>
          rw [hm] at h2
          exact ⟨h2.1, by have := h2.2; rw [List.length_cons]; omega⟩
        | error e =>
          rw [hm] at h2
          exact ⟨h2.1, by have := h2.2; rw [List.length_cons]; omega⟩

include hT in
theorem reach_jml {L : ℝ} (c : TrainConfig) (bs : List (List ℕ)) : ∀ (n : ℕ) (st : LoopState (State AdamState)), Reach L w r st →
    match jmlEpochs T c bs n st with
    | .ok st' => Reach L w r st' ∧ st'.history.length ≤ st.history.length + n * bs.length
    | .error (_, st') => Reach L w r st' ∧ st'.history.length ≤ st.history.length + n * bs.length
  | 0, st, h => ⟨h, by simp⟩
  | n + 1, st, h => by
    unfold jmlEpochs
    have h1 := reach_batches hT c bs st h
    have hmul : (n + 1) * bs.length = n * bs.length + bs.length := by ring
    cases hi : jmlBatches T c bs st with
    | error e =>
      rw [hi] at h1
      exact ⟨h1.1, by have := h1.2; rw [hmul]; omega⟩
    | ok st1 =>
      rw [hi] at h1
      dsimp only at h1
      show match (if c.limit ≤ st1.lrUpdates then pure st1 else jmlEpochs T c bs n st1 :
          Except (PyErr × LoopState (State AdamState)) (LoopState (State AdamState))) with
        | .ok st' => _
        | .error (_, st') => _
      by_cases hlim : c.limit ≤ st1.lrUpdates
      · rw [if_pos hlim]
        exact ⟨h1.1, by rw [hmul]; omega⟩
      · rw [if_neg hlim]
        have h2 := reach_jml c bs n st1 h1.1
        cases hm : jmlEpochs T c bs n st1 with
        | ok st2 =>
          rw [hm] at h2
          exact ⟨h2.1, by have := h2.2; rw [hmul]; omega⟩
        | error e =>
          rw [hm] at h2
          exact ⟨h2.1, by have := h2.2; rw [hmul]; omega⟩

/-- What the loop of the autoencoders keeps. -/
structure AeReach (L : ℝ) (w r : List ℝ) (st : AEState (State AdamState)) : Prop where
  params : NearState (7.28 * L * st.total) w r st.params
  best : ∀ s, st.bestState = some s → NearState (7.28 * L * st.total) w r s
  lr0 : 0 ≤ st.sched.lr
  lr : st.sched.lr ≤ L

theorem ite_reach {D : ℝ} {p : Prop} [Decidable p] {a s : State AdamState} {b : Option (State AdamState)}
    (hs : (if p then some a else b) = some s) (ha : NearState D w r a) (hb : ∀ s, b = some s → NearState D w r s) :
    NearState D w r s := by
  by_cases hp : p
  · rw [if_pos hp] at hs
    rw [← Option.some.inj hs]; exact ha
  · rw [if_neg hp] at hs
    exact hb s hs

include hT in
theorem reach_aeBatch {L : ℝ} (c : TrainConfig) (E : ℕ) (b : List ℕ) (st : AEState (State AdamState)) (h : AeReach L w r st) :
    match aeBatch T c E b st with
    | .ok p => AeReach L w r p.1 ∧ p.1.total ≤ st.total + 1
    | .error (_, st') => AeReach L w r st' ∧ st'.total ≤ st.total + 1 := by
  unfold aeBatch
  cases hl : T.loss st.total b st.params with
  | error e => exact ⟨h, Nat.le_succ _⟩
  | ok x =>
    cases x with
    | none => exact ⟨h, Nat.le_succ _⟩
    | some x =>
      dsimp only
      have hL : 0 ≤ L := h.lr0.trans h.lr
      have hcast : ((st.total + 1 : ℕ) : ℝ) = st.total + 1 := by push_cast; rfl
      have hup : NearState (7.28 * L * ((st.total + 1 : ℕ) : ℝ)) w r (T.update st.total b st.sched.lr st.params) := by
        rw [hT, hcast]
        refine (near_update _ _ b st.sched.lr h.lr0 h.params).mono ?_
        have := h.lr
        nlinarith
      have hold : ∀ s, st.bestState = some s → NearState (7.28 * L * ((st.total + 1 : ℕ) : ℝ)) w r s := by
        intro s hs
        rw [hcast]
        exact (h.best s hs).mono (by nlinarith)
      by_cases hE : E = 0
      · rw [if_pos hE]
        exact ⟨⟨hup, hold, h.lr0, h.lr⟩, le_rfl⟩
      · rw [if_neg hE]
        by_cases hev : (st.total + 1) % E = 0 ∧ st.total + 1 ≠ 1
        · rw [if_pos hev]
          have hs := plateau_lr c st.sched
            (some ((if (st.window ++ [x]).length > E then (st.window ++ [x]).drop 1 else st.window ++ [x]).sum
              / ((if (st.window ++ [x]).length > E then (st.window ++ [x]).drop 1 else st.window ++ [x]).length : ℝ))) h.lr0
          refine ⟨⟨hup, ?_, hs.1, hs.2.trans h.lr⟩, le_rfl⟩
          intro s hbs
          dsimp only at hbs
          exact ite_reach hbs hup hold
        · rw [if_neg hev]
          exact ⟨⟨hup, hold, h.lr0, h.lr⟩, le_rfl⟩

include hT in
theorem reach_aeBatches {L : ℝ} (c : TrainConfig) (E : ℕ) (bn : Bool) : ∀ (bs : List (List ℕ)) (st : AEState (State AdamState)),
    AeReach L w r st →
    match aeBatches T c E bn bs st with
    | .ok p => AeReach L w r p.1 ∧ p.1.total ≤ st.total + bs.length
    | .error (_, st') => AeReach L w r st' ∧ st'.total ≤ st.total + bs.length
  | [], st, h => ⟨h, le_rfl⟩
  | b :: bs, st, h => by
    unfold aeBatches
    by_cases hskip : b.length < 4 ∧ bn = true
    · rw [if_pos hskip]
      have h2 := reach_aeBatches c E bn bs st h
      cases hm : aeBatches T c E bn bs st with
      | ok p =>
        rw [hm] at h2
        exact ⟨h2.1, by have := h2.2; rw [List.length_cons]; omega⟩
      | error e =>
        rw [hm] at h2
        exact ⟨h2.1, by have := h2.2; rw [List.length_cons]; omega⟩
    · rw [if_neg hskip]
      have h1 := reach_aeBatch hT c E b st h
      cases hi : aeBatch T c E b st with
      | error e =>
        rw [hi] at h1
        exact ⟨h1.1, by have := h1.2; rw [List.length_cons]; omega⟩
      | ok p =>
        rw [hi] at h1
        dsimp only at h1
        obtain ⟨st1, e⟩ := p
        dsimp only at h1
        cases e with
        | nan => exact ⟨h1.1, by rw [List.length_cons]; dsimp only; omega⟩
        | stop => exact ⟨h1.1, by rw [List.length_cons]; dsimp only; omega⟩
        | next =>
          have h2 := reach_aeBatches c E bn bs st1 h1.1
          show match aeBatches T c E bn bs st1 with
            | .ok p => _
            | .error (_, st') => _
          cases hm : aeBatches T c E bn bs st1 with
          | ok p =>
            rw [hm] at h2
            exact ⟨h2.1, by have := h2.2; rw [List.length_cons]; omega⟩
          | error e =>
            rw [hm] at h2
            exact ⟨h2.1, by have := h2.2; rw [List.length_cons]; omega⟩

include hT in
theorem reach_aeEpochs {L : ℝ} (c : TrainConfig) (E : ℕ) (bn : Bool) (batches : ℕ → List (List ℕ)) :
    ∀ (n e : ℕ) (st : AEState (State AdamState)), AeReach L w r st →
    match aeEpochs T c E bn batches n e st with
    | .ok st' => AeReach L w r st' ∧ st'.total ≤ st.total + ∑ i ∈ Finset.range n, (batches (e + i)).length
    | .error (_, st') => AeReach L w r st' ∧ st'.total ≤ st.total + ∑ i ∈ Finset.range n, (batches (e + i)).length
  | 0, e, st, h => ⟨h, by simp⟩
  | n + 1, e, st, h => by
    unfold aeEpochs
    have h1 := reach_aeBatches hT c E bn (batches e) st h
    have hsum : ∑ i ∈ Finset.range (n + 1), (batches (e + i)).length
        = (batches e).length + ∑ i ∈ Finset.range n, (batches (e + 1 + i)).length := by
      rw [Finset.sum_range_succ', add_comm]
      congr 1
      exact Finset.sum_congr rfl fun i _ => by rw [add_assoc, add_comm 1 i]
    rw [hsum]
    cases hi : aeBatches T c E bn (batches e) st with
    | error e =>
      rw [hi] at h1
      exact ⟨h1.1, by have := h1.2; omega⟩
    | ok p =>
      rw [hi] at h1
      dsimp only at h1
      show match (if p.2 = true then pure p.1
        else if batches e = [] then throw (.zeroDivision, p.1)
        else if c.limit ≤ p.1.lrUpdates then pure p.1
        else aeEpochs T c E bn batches n (e + 1) p.1 :
          Except (PyErr × AEState (State AdamState)) (AEState (State AdamState))) with
        | .ok st' => _
        | .error (_, st') => _
      by_cases hn : p.2 = true
      · rw [if_pos hn]
        exact ⟨h1.1, by omega⟩
      rw [if_neg hn]
      by_cases hb : batches e = []
      · rw [if_pos hb]
        exact ⟨h1.1, by have := h1.2; omega⟩
      rw [if_neg hb]
      by_cases hlim : c.limit ≤ p.1.lrUpdates
      · rw [if_pos hlim]
        exact ⟨h1.1, by omega⟩
      rw [if_neg hlim]
      have h2 := reach_aeEpochs c E bn batches n (e + 1) p.1 h1.1
      cases hm : aeEpochs T c E bn batches n (e + 1) p.1 with
      | ok st2 =>
        rw [hm] at h2
        exact ⟨h2.1, by have := h2.2; omega⟩
      | error e' =>
        rw [hm] at h2
        exact ⟨h2.1, by have := h2.2; omega⟩

/-- What the loop of the scale transformations keeps. -/
structure ScaleReach (L : ℝ) (w r : List ℝ) (st : ScaleTraining (State AdamState)) : Prop where
  params : NearState (7.28 * L * st.total) w r st.params
  lr0 : 0 ≤ st.sched.lr
  lr : st.sched.lr ≤ L

include hT in
theorem reach_scaleBatch {L : ℝ} (c : TrainConfig) (E : ℕ) (b : List ℕ) (st : ScaleTraining (State AdamState)) (h : ScaleReach L w r st) :
    match scaleBatch T c E b st with
    | .ok p => ScaleReach L w r p.1 ∧ p.1.total ≤ st.total + 1
    | .error (_, st') => ScaleReach L w r st' ∧ st'.total ≤ st.total + 1 := by
  unfold scaleBatch
  cases hl : T.loss st.total b st.params with
  | error e => exact ⟨h, Nat.le_succ _⟩
  | ok x =>
    cases x with
    | none => exact ⟨h, Nat.le_succ _⟩
    | some x =>
      dsimp only
      have hL : 0 ≤ L := h.lr0.trans h.lr
      have hcast : ((st.total + 1 : ℕ) : ℝ) = st.total + 1 := by push_cast; rfl
      have hup : NearState (7.28 * L * ((st.total + 1 : ℕ) : ℝ)) w r (T.update st.total b st.sched.lr st.params) := by
        rw [hT, hcast]
        refine (near_update _ _ b st.sched.lr h.lr0 h.params).mono ?_
        have := h.lr
        nlinarith
      by_cases hE : E = 0
      · rw [if_pos hE]
        exact ⟨⟨hup, h.lr0, h.lr⟩, le_rfl⟩
      · rw [if_neg hE]
        refine ⟨⟨hup, ?_, ?_⟩, le_rfl⟩
        · dsimp only
          split
          · exact (plateau_lr c st.sched _ h.lr0).1
          · exact h.lr0
        · dsimp only
          split
          · exact (plateau_lr c st.sched _ h.lr0).2.trans h.lr
          · exact h.lr

include hT in
theorem reach_scaleBatches {L : ℝ} (c : TrainConfig) (E : ℕ) : ∀ (bs : List (List ℕ)) (st : ScaleTraining (State AdamState)),
    ScaleReach L w r st →
    match scaleBatches T c E bs st with
    | .ok p => ScaleReach L w r p.1 ∧ p.1.total ≤ st.total + bs.length
    | .error (_, st') => ScaleReach L w r st' ∧ st'.total ≤ st.total + bs.length
  | [], st, h => ⟨h, le_rfl⟩
  | b :: bs, st, h => by
    unfold scaleBatches
    have h1 := reach_scaleBatch hT c E b st h
    cases hi : scaleBatch T c E b st with
    | error e =>
      rw [hi] at h1
      exact ⟨h1.1, by have := h1.2; rw [List.length_cons]; omega⟩
    | ok p =>
      rw [hi] at h1
      dsimp only at h1
      obtain ⟨st1, e⟩ := p
      dsimp only at h1
      cases e with
      | nan => exact ⟨h1.1, by rw [List.length_cons]; dsimp only; omega⟩
      | stop => exact ⟨h1.1, by rw [List.length_cons]; dsimp only; omega⟩
      | next =>
        have h2 := reach_scaleBatches c E bs st1 h1.1
        show match scaleBatches T c E bs st1 with
          | .ok p => _
          | .error (_, st') => _
        cases hm : scaleBatches T c E bs st1 with
        | ok p =>
          rw [hm] at h2
          exact ⟨h2.1, by have := h2.2; rw [List.length_cons]; omega⟩
        | error e =>
          rw [hm] at h2
          exact ⟨h2.1, by have := h2.2; rw [List.length_cons]; omega⟩

include hT in
theorem reach_scaleEpochs {L : ℝ} (c : TrainConfig) (E : ℕ) (batches : ℕ → List (List ℕ)) :
    ∀ (n e : ℕ) (st : ScaleTraining (State AdamState)), ScaleReach L w r st →
    match scaleEpochs T c E batches n e st with
    | .ok st' => ScaleReach L w r st' ∧ st'.total ≤ st.total + ∑ i ∈ Finset.range n, (batches (e + i)).length
    | .error (_, st') => ScaleReach L w r st' ∧ st'.total ≤ st.total + ∑ i ∈ Finset.range n, (batches (e + i)).length
  | 0, e, st, h => ⟨h, by simp⟩
  | n + 1, e, st, h => by
    unfold scaleEpochs
    have h1 := reach_scaleBatches hT c E (batches e) st h
    have hsum : ∑ i ∈ Finset.range (n + 1), (batches (e + i)).length
        = (batches e).length + ∑ i ∈ Finset.range n, (batches (e + 1 + i)).length := by
      rw [Finset.sum_range_succ', add_comm]
      congr 1
      exact Finset.sum_congr rfl fun i _ => by rw [add_assoc, add_comm 1 i]
    rw [hsum]
    cases hi : scaleBatches T c E (batches e) st with
    | error e =>
      rw [hi] at h1
      exact ⟨h1.1, by have := h1.2; omega⟩
    | ok p =>
      rw [hi] at h1
      dsimp only at h1
      show match (if batches e = [] then .error (.nameError, p.1)
        else if p.2 = .nan then pure p.1
        else if c.limit ≤ p.1.lrUpdates then pure p.1
        else scaleEpochs T c E batches n (e + 1) p.1 :
          Except (PyErr × ScaleTraining (State AdamState)) (ScaleTraining (State AdamState))) with
        | .ok st' => _
        | .error (_, st') => _
      by_cases hb : batches e = []
      · rw [if_pos hb]
        exact ⟨h1.1, by have := h1.2; omega⟩
      rw [if_neg hb]
      by_cases hn : p.2 = .nan
      · rw [if_pos hn]
        exact ⟨h1.1, by omega⟩
      rw [if_neg hn]
      by_cases hlim : c.limit ≤ p.1.lrUpdates
      · rw [if_pos hlim]
        exact ⟨h1.1, by omega⟩
      rw [if_neg hlim]
      have h2 := reach_scaleEpochs c E batches n (e + 1) p.1 h1.1
      cases hm : scaleEpochs T c E batches n (e + 1) p.1 with
      | ok st2 =>
        rw [hm] at h2
        exact ⟨h2.1, by have := h2.2; omega⟩
      | error e' =>
        rw [hm] at h2
        exact ⟨h2.1, by have := h2.2; omega⟩

end Loops

/-! ## The property -/

theorem stateWithin_of {D D' : ℝ} (hD : 0 ≤ D) (hDD : D ≤ D') {ps qs : List Param} {s : State AdamState}
    (h : NearState D (ps.map fun p => p.value) (qs.map fun p => p.value) s) : StateWithin D' ps qs s :=
  ⟨within_of_near (hD.trans hDD) (near_mono h.1 hDD), within_of_near (hD.trans hDD) (near_mono h.2 hDD)⟩

theorem reach_final {L : ℝ} {w r : List ℝ} {st : LoopState (State AdamState)} (h : Reach L w r st) :
    NearState (7.28 * L * st.history.length) w r st.final := by
  unfold LoopState.final
  cases hb : st.bestState with
  | none => exact h.params
  | some s => exact h.best s hb

theorem aeReach_final {L : ℝ} {w r : List ℝ} {st : AEState (State AdamState)} (h : AeReach L w r st) :
    NearState (7.28 * L * st.total) w r st.final := by
  unfold AEState.final
  cases hb : st.bestState with
  | none => exact h.params
  | some s => exact h.best s hb

section Property
variable (loss : ℕ → List ℕ → List ℝ → List ℝ → Except PyErr ℝ) (c : TrainConfig) (lr : ℝ) (hlr : 0 ≤ lr) (ps qs : List Param)
include hlr

/-- C124, MML: whatever the loss, the data and the settings, after `n` epochs no parameter is farther from its start than
`7.28 * lr * n`. This holds for the parameters that are kept (those of the best epoch), for the last ones, and for those that an
exception leaves behind. -/
theorem C124_mml (respondents n : ℕ) :
    match mmlEpochs (adamTrainer loss) c (List.range respondents) n (LoopState.start lr (newState ps qs)) with
    | .ok st => StateWithin (7.28 * lr * n) ps qs st.final ∧ StateWithin (7.28 * lr * n) ps qs st.params
    | .error (_, st) => StateWithin (7.28 * lr * n) ps qs st.params := by
  have h := reach_mml (T := adamTrainer loss) rfl c (List.range respondents) n _ (reach_start lr hlr ps qs)
  have hle : ∀ k : ℕ, k ≤ 0 + n → 7.28 * lr * (k : ℝ) ≤ 7.28 * lr * n := fun k hk =>
    mul_le_mul_of_nonneg_left (by exact_mod_cast (by omega : k ≤ n)) (by positivity)
  unfold newState
  cases hm : mmlEpochs (adamTrainer loss) c (List.range respondents) n (LoopState.start lr ⟨attach {} ps, attach {} qs⟩) with
  | ok st =>
    rw [hm] at h
    exact ⟨stateWithin_of (by positivity) (hle _ h.2) (reach_final h.1), stateWithin_of (by positivity) (hle _ h.2) h.1.params⟩
  | error e =>
    rw [hm] at h
    exact stateWithin_of (by positivity) (hle _ h.2) h.1.params

/-- C124: the learning rate never rises above the one `fit` was given and never becomes negative. -/
theorem C124_lr (respondents n : ℕ) (st : LoopState (State AdamState))
    (h : mmlEpochs (adamTrainer loss) c (List.range respondents) n (LoopState.start lr (newState ps qs)) = .ok st) :
    0 ≤ st.sched.lr ∧ st.sched.lr ≤ lr := by
  have h1 := reach_mml (T := adamTrainer loss) rfl c (List.range respondents) n _ (reach_start lr hlr ps qs)
  unfold newState at h
  rw [h] at h1
  exact ⟨h1.1.lr0, h1.1.lr⟩

/-- C124, JML: `rest` are the parameters of the model, or the latent scores of the respondents; with `k` batches per epoch the bound is
`7.28 * lr * (n * k)`. -/
theorem C124_jml (batches : List (List ℕ)) (n : ℕ) :
    match jmlEpochs (adamTrainer loss) c batches n (LoopState.start lr (newState ps qs)) with
    | .ok st => StateWithin (7.28 * lr * (n * batches.length : ℕ)) ps qs st.final ∧
        StateWithin (7.28 * lr * (n * batches.length : ℕ)) ps qs st.params
    | .error (_, st) => StateWithin (7.28 * lr * (n * batches.length : ℕ)) ps qs st.params := by
  have h := reach_jml (T := adamTrainer loss) rfl c batches n _ (reach_start lr hlr ps qs)
  have hle : ∀ k : ℕ, k ≤ 0 + n * batches.length → 7.28 * lr * (k : ℝ) ≤ 7.28 * lr * (n * batches.length : ℕ) := fun k hk =>
    mul_le_mul_of_nonneg_left (by exact_mod_cast (by omega : k ≤ n * batches.length)) (by positivity)
  unfold newState
  cases hm : jmlEpochs (adamTrainer loss) c batches n (LoopState.start lr ⟨attach {} ps, attach {} qs⟩) with
  | ok st =>
    rw [hm] at h
    exact ⟨stateWithin_of (by positivity) (hle _ h.2) (reach_final h.1), stateWithin_of (by positivity) (hle _ h.2) h.1.params⟩
  | error e =>
    rw [hm] at h
    exact stateWithin_of (by positivity) (hle _ h.2) h.1.params

/-- C124, autoencoders: the same with the number of batches of all epochs, for the model and the encoder. -/
theorem C124_ae (E : ℕ) (batchNorm : Bool) (batches : ℕ → List (List ℕ)) (n : ℕ) :
    match aeEpochs (adamTrainer loss) c E batchNorm batches n 0 (AEState.start lr (newState ps qs)) with
    | .ok st => StateWithin (7.28 * lr * (∑ i ∈ Finset.range n, (batches i).length : ℕ)) ps qs st.final ∧
        StateWithin (7.28 * lr * (∑ i ∈ Finset.range n, (batches i).length : ℕ)) ps qs st.params
    | .error (_, st) => StateWithin (7.28 * lr * (∑ i ∈ Finset.range n, (batches i).length : ℕ)) ps qs st.params := by
  have h0 : AeReach lr (ps.map fun p => p.value) (qs.map fun p => p.value) (AEState.start lr (newState ps qs)) := by
    refine ⟨?_, fun s hs => by simp [AEState.start] at hs, hlr, le_rfl⟩
    have : (7.28 * lr * ((AEState.start lr (newState ps qs)).total : ℝ)) = 0 := by simp [AEState.start]
    rw [this]
    exact ⟨near_start ps, near_start qs⟩
  have h := reach_aeEpochs (T := adamTrainer loss) rfl c E batchNorm batches n 0 _ h0
  simp only [zero_add] at h
  have hle : ∀ k : ℕ, k ≤ 0 + ∑ i ∈ Finset.range n, (batches i).length →
      7.28 * lr * (k : ℝ) ≤ 7.28 * lr * (∑ i ∈ Finset.range n, (batches i).length : ℕ) := fun k hk =>
    mul_le_mul_of_nonneg_left (by exact_mod_cast (by omega : k ≤ ∑ i ∈ Finset.range n, (batches i).length)) (by positivity)
  cases hm : aeEpochs (adamTrainer loss) c E batchNorm batches n 0 (AEState.start lr (newState ps qs)) with
  | ok st =>
    rw [hm] at h
    exact ⟨stateWithin_of (by positivity) (hle _ h.2) (aeReach_final h.1), stateWithin_of (by positivity) (hle _ h.2) h.1.params⟩
  | error e =>
    rw [hm] at h
    exact stateWithin_of (by positivity) (hle _ h.2) h.1.params

/-- C124, flows and linking functions: the same. -/
theorem C124_scale (limit E : ℕ) (batches : ℕ → List (List ℕ)) (n : ℕ) :
    match scaleFit (adamTrainer loss) limit E batches n lr (newState ps qs) with
    | .ok s => StateWithin (7.28 * lr * (∑ i ∈ Finset.range n, (batches i).length : ℕ)) ps qs s
    | .error (_, s) => StateWithin (7.28 * lr * (∑ i ∈ Finset.range n, (batches i).length : ℕ)) ps qs s := by
  have h0 : ScaleReach lr (ps.map fun p => p.value) (qs.map fun p => p.value) (ScaleTraining.start lr (newState ps qs)) := by
    refine ⟨?_, hlr, le_rfl⟩
    have : (7.28 * lr * ((ScaleTraining.start lr (newState ps qs)).total : ℝ)) = 0 := by simp [ScaleTraining.start]
    rw [this]
    exact ⟨near_start ps, near_start qs⟩
  have h := reach_scaleEpochs (T := adamTrainer loss) rfl (scaleConfig limit) E batches n 0 _ h0
  simp only [zero_add] at h
  have hle : ∀ k : ℕ, k ≤ 0 + ∑ i ∈ Finset.range n, (batches i).length →
      7.28 * lr * (k : ℝ) ≤ 7.28 * lr * (∑ i ∈ Finset.range n, (batches i).length : ℕ) := fun k hk =>
    mul_le_mul_of_nonneg_left (by exact_mod_cast (by omega : k ≤ ∑ i ∈ Finset.range n, (batches i).length)) (by positivity)
  unfold scaleFit
  cases hm : scaleEpochs (adamTrainer loss) (scaleConfig limit) E batches n 0 (ScaleTraining.start lr (newState ps qs)) with
  | ok st =>
    rw [hm] at h
    exact stateWithin_of (by positivity) (hle _ h.2) h.1.params
  | error e =>
    rw [hm] at h
    exact stateWithin_of (by positivity) (hle _ h.2) h.1.params

end Property

/-! ## Fitted models -/

theorem loadValues_values (vs : List ℝ) (l : List Param) (h : vs.length = l.length) : (loadValues vs l).map Param.value = vs := by
  induction vs generalizing l with
  | nil => rfl
  | cons v vs ih =>
    cases l with
    | nil => simp at h
    | cons q l =>
      show v :: (loadValues vs l).map Param.value = v :: vs
      rw [ih l (by simpa using h)]

theorem trainable_fresh (w : List ℝ) : AllTrainable (w.map fun v => (⟨v, true, none⟩ : Param)) ∧
    (w.map fun v => (⟨v, true, none⟩ : Param)).map Param.value = w := by
  refine ⟨fun p hp => ?_, ?_⟩
  · obtain ⟨v, _, rfl⟩ := List.mem_map.1 hp
    rfl
  · rw [List.map_map]
    exact List.map_id w

/-- C124: an estimation by MML with Adam. -/
theorem C124_fit {d : ℕ} (S : MmlSettings d AdamState) (hrule : S.rule = fun _ => adamRule) (hstart : S.start = {}) (hlr : 0 ≤ S.lr)
    (scorer : List ℝ → List ℝ → Scorer d) (data : List (List Cell)) (w r w' r' : List ℝ) (hne : w ++ r ≠ [])
    (hfit : S.fit scorer data w r = .ok (w', r')) :
    Within (7.28 * S.lr * S.maxEpochs) w w' ∧ Within (7.28 * S.lr * S.maxEpochs) r r' := by
  unfold MmlSettings.fit at hfit
  obtain ⟨⟨pts, lw⟩, _, hfit⟩ := bind_eq_ok hfit
  dsimp only at hfit
  obtain ⟨hw, hwv⟩ := trainable_fresh w
  obtain ⟨hr, hrv⟩ := trainable_fresh r
  have h := C122_fit_fresh (fun w r => mmlLoss (scorer w r) data pts lw) S.rule S.start S.config S.lr data.length S.maxEpochs _ _ hw hr
    (by intro h0; apply hne; simpa using h0)
  rw [hwv, hrv, hfit] at h
  unfold Autograd.fit at h
  rw [hstart] at h
  have hreach := reach_mml (loss := fun _ _ w r => mmlLoss (scorer w r) data pts lw) (T := trainer (fun _ _ w r => mmlLoss (scorer w r) data pts lw) S.rule)
    (by rw [hrule]) S.config (List.range data.length) S.maxEpochs _ (reach_start S.lr hlr (w.map fun v => (⟨v, true, none⟩ : Param))
      (r.map fun v => (⟨v, true, none⟩ : Param)))
  cases hm : mmlEpochs (trainer (fun _ _ w r => mmlLoss (scorer w r) data pts lw) S.rule) S.config (List.range data.length) S.maxEpochs
      (LoopState.start S.lr ⟨attach {} (w.map fun v => (⟨v, true, none⟩ : Param)), attach {} (r.map fun v => (⟨v, true, none⟩ : Param))⟩) with
  | error e =>
    rw [hm] at h
    obtain ⟨e1, e2⟩ := e
    cases h
  | ok st =>
    rw [hm] at h hreach
    have hle : 7.28 * S.lr * (st.history.length : ℝ) ≤ 7.28 * S.lr * S.maxEpochs :=
      mul_le_mul_of_nonneg_left (by have := hreach.2; exact_mod_cast (by simpa [LoopState.start] using this)) (by positivity)
    have h1 := stateWithin_of (by positivity) hle (reach_final hreach.1)
    have h2 := stateWithin_of (by positivity) hle hreach.1.params
    have hlen : ∀ {D : ℝ} {a b : List ℝ}, Within D a b → b.length = a.length := fun h => h.1
    have h' := Except.ok.inj h
    rw [Prod.mk.injEq] at h'
    have e1 : (loadValues (values st.final.weight) (st.params.weight.map Prod.fst)).map Param.value = values st.final.weight :=
      loadValues_values _ _ (by
        have a1 := hlen h1.1
        have a2 := hlen h2.1
        unfold values at a1 a2 ⊢
        rw [List.length_map] at a1 a2 ⊢
        rw [List.length_map, a1, a2])
    have e2 : (loadValues (values st.final.rest) (st.params.rest.map Prod.fst)).map Param.value = values st.final.rest :=
      loadValues_values _ _ (by
        have a1 := hlen h1.2
        have a2 := hlen h2.2
        unfold values at a1 a2 ⊢
        rw [List.length_map] at a1 a2 ⊢
        rw [List.length_map, a1, a2])
    dsimp only at h'
    rw [e1, e2] at h'
    rw [← h'.1, ← h'.2]
    have g1 := h1.1
    have g2 := h1.2
    rw [hwv] at g1
    rw [hrv] at g2
    exact ⟨g1, g2⟩

theorem within_replicate {D v : ℝ} {n : ℕ} {w : List ℝ} (h : Within D (List.replicate n v) w) : w.length = n ∧ ∀ x ∈ w, |x - v| ≤ D := by
  obtain ⟨h1, h2⟩ := h
  rw [List.length_replicate] at h1
  refine ⟨h1, fun x hx => ?_⟩
  obtain ⟨k, hk, rfl⟩ := List.getElem_of_mem hx
  have := h2 k
  rwa [List.getD_eq_getElem _ _ hk, List.getD_eq_getElem _ _ (by rw [List.length_replicate]; omega), List.getElem_replicate] at this

theorem mem_of_viewRows {α : Type} : ∀ (n k : ℕ) (xs : List α) (l : List α), l ∈ viewRows n k xs → ∀ x ∈ l, x ∈ xs
  | 0, _, _, l, hl, _, _ => by simp [viewRows] at hl
  | n + 1, k, xs, l, hl, x, hx => by
    rcases List.mem_cons.1 hl with rfl | hl
    · exact List.mem_of_mem_take hx
    · exact List.mem_of_mem_drop (mem_of_viewRows n k _ l hl x hx)

theorem mem_of_scatterMask : ∀ (m : List Bool) (p : List ℝ) (x : ℝ), x ∈ scatterMask 0 m p → x = 0 ∨ x ∈ p
  | [], _, x, h => by simp [scatterMask] at h
  | false :: m, p, x, h => by
    rcases List.mem_cons.1 h with rfl | h
    · exact Or.inl rfl
    · exact mem_of_scatterMask m p x h
  | true :: m, [], x, h => by
    rcases List.mem_cons.1 h with rfl | h
    · exact Or.inl rfl
    · exact mem_of_scatterMask m [] x h
  | true :: m, y :: p, x, h => by
    rcases List.mem_cons.1 h with rfl | h
    · exact Or.inr List.mem_cons_self
    · rcases mem_of_scatterMask m p x h with h | h
      · exact Or.inl h
      · exact Or.inr (List.mem_cons_of_mem _ h)

/-- C124: a fitted two parameter logistic model: the slopes are at most `7.28 * lr * max_epochs` away from one, and the intercepts
from zero. -/
theorem C124_twoPL {d : ℕ} (S : MmlSettings d AdamState) (hrule : S.rule = fun _ => adamRule) (hstart : S.start = {}) (hlr : 0 ≤ S.lr)
    (items : ℕ) (hitems : 0 < items) (data : List (List Cell)) (m : TwoPL) (hfit : TwoPL.fitMml S items data = .ok m) :
    m.itemParameters.length = items ∧ ∀ p ∈ m.itemParameters,
      (∀ a ∈ p.1, |a - 1| ≤ 7.28 * S.lr * S.maxEpochs) ∧ |p.2| ≤ 7.28 * S.lr * S.maxEpochs := by
  unfold TwoPL.fitMml TwoPL.init at hfit
  simp only [checkRelationships, bind_ok, pure, Except.pure, countTrue_free] at hfit
  obtain ⟨⟨w, b⟩, h1, h2⟩ := bind_eq_ok hfit
  have h2' : TwoPL.free items d w b = m := Except.ok.inj h2
  have h3 := C124_fit S hrule hstart hlr _ data _ _ _ _ (by simp; omega) h1
  obtain ⟨hw, hw'⟩ := within_replicate h3.1
  obtain ⟨hb, hb'⟩ := within_replicate h3.2
  rw [← h2', TwoPL.itemParameters, TwoPL.free_weights _ _ _ _ hw]
  refine ⟨?_, fun p hp => ⟨fun a ha => hw' a ?_, ?_⟩⟩
  · rw [List.length_zip, length_viewRows, show (TwoPL.free items d w b).bias.length = items from hb, min_self]
  · exact mem_of_viewRows _ _ _ _ (List.of_mem_zip hp).1 a ha
  · have := hb' p.2 (List.of_mem_zip hp).2
    rwa [sub_zero] at this

/-- C124: the three parameter logistic model; the guessing parameter is the logistic function of a number at most that far from -1.1. -/
theorem C124_threePL {d : ℕ} (S : MmlSettings d AdamState) (hrule : S.rule = fun _ => adamRule) (hstart : S.start = {}) (hlr : 0 ≤ S.lr)
    (items : ℕ) (hitems : 0 < items) (data : List (List Cell)) (m : ThreePL) (hfit : ThreePL.fitMml S items data = .ok m) :
    m.itemParameters.length = items ∧ ∀ p ∈ m.itemParameters,
      (∀ a ∈ p.1, |a - 1| ≤ 7.28 * S.lr * S.maxEpochs) ∧ |p.2.1| ≤ 7.28 * S.lr * S.maxEpochs ∧
      ∃ g, p.2.2 = logistic g ∧ |g - -1.1| ≤ 7.28 * S.lr * S.maxEpochs := by
  unfold ThreePL.fitMml ThreePL.init at hfit
  simp only [checkRelationships, bind_ok, pure, Except.pure, countTrue_free] at hfit
  obtain ⟨⟨w, b⟩, h1, h2⟩ := bind_eq_ok hfit
  have h2' : ThreePL.free items d w (b.take items) (b.drop items) = m := Except.ok.inj h2
  obtain ⟨h3, h4, h5⟩ := C124_fit S hrule hstart hlr _ data _ _ _ _ (by simp; omega) h1
  obtain ⟨hw, hw'⟩ := within_replicate h3
  rw [List.length_append, List.length_replicate, List.length_replicate] at h4
  have hb : Within (7.28 * S.lr * S.maxEpochs) (List.replicate items 0) (b.take items) := by
    refine ⟨by rw [List.length_take, List.length_replicate]; omega, fun k => ?_⟩
    have := h5 k
    rcases lt_or_ge k items with hk | hk
    · rw [List.getD_append _ _ _ _ (by rw [List.length_replicate]; exact hk)] at this
      rwa [List.getD_eq_getElem?_getD (l := b.take items), List.getElem?_take_of_lt hk, ← List.getD_eq_getElem?_getD]
    · rw [List.getD_eq_default _ _ (by rw [List.length_take]; omega), List.getD_eq_default _ _ (by rw [List.length_replicate]; exact hk),
        sub_self, abs_zero]
      positivity
  have hg : Within (7.28 * S.lr * S.maxEpochs) (List.replicate items (-1.1)) (b.drop items) := by
    refine ⟨by rw [List.length_drop, List.length_replicate]; omega, fun k => ?_⟩
    have := h5 (items + k)
    rw [List.getD_append_right _ _ _ _ (by rw [List.length_replicate]; omega), List.length_replicate, Nat.add_sub_cancel_left] at this
    rwa [List.getD_eq_getElem?_getD (l := b.drop items), List.getElem?_drop, ← List.getD_eq_getElem?_getD]
  obtain ⟨hb1, hb2⟩ := within_replicate hb
  obtain ⟨hg1, hg2⟩ := within_replicate hg
  rw [← h2', ThreePL.itemParameters, ThreePL.free_weights _ _ _ _ _ hw]
  refine ⟨?_, fun p hp => ⟨fun a ha => hw' a ?_, ?_, ?_⟩⟩
  · rw [List.length_zip, List.length_zip, length_viewRows, List.length_map,
      show (ThreePL.free items d w (b.take items) (b.drop items)).bias.length = items from hb1,
      show (ThreePL.free items d w (b.take items) (b.drop items)).guessing.length = items from hg1, min_self, min_self]
  · exact mem_of_viewRows _ _ _ _ (List.of_mem_zip hp).1 a ha
  · have := hb2 p.2.1 (List.of_mem_zip (List.of_mem_zip hp).2).1
    rwa [sub_zero] at this
  · obtain ⟨g, hg, he⟩ := List.mem_map.1 (List.of_mem_zip (List.of_mem_zip hp).2).2
    exact ⟨g, by rw [← he, logistic_eq_sigmoid], hg2 g hg⟩

/-- C124: the generalized partial credit model. -/
theorem C124_gpc {d : ℕ} (S : MmlSettings d AdamState) (hrule : S.rule = fun _ => adamRule) (hstart : S.start = {}) (hlr : 0 ≤ S.lr)
    (hd : 0 < d) (cats : List ℕ) (hcats : cats ≠ []) (data : List (List Cell)) (m : GPC) (hfit : GPC.fitMml S cats data = .ok m) :
    m.itemParameters.length = cats.length ∧ ∀ p ∈ m.itemParameters,
      (∀ a ∈ p.1, |a - 1| ≤ 7.28 * S.lr * S.maxEpochs) ∧ ∀ b ∈ p.2, |b| ≤ 7.28 * S.lr * S.maxEpochs := by
  unfold GPC.fitMml GPC.init at hfit
  simp only [checkRelationships, bind_ok, pure, Except.pure, countTrue_free] at hfit
  obtain ⟨⟨w, b⟩, h1, h2⟩ := bind_eq_ok hfit
  have h2' : GPC.free cats d w b = m := Except.ok.inj h2
  have h3 := C124_fit S hrule hstart hlr _ data _ _ _ _ (by
    intro h0
    have := (List.append_eq_nil_iff.1 h0).1
    rw [List.replicate_eq_nil_iff] at this
    have h5 := List.length_pos_iff.2 hcats
    have h6 := Nat.mul_pos h5 hd
    omega) h1
  obtain ⟨hw, hw'⟩ := within_replicate h3.1
  obtain ⟨hb, hb'⟩ := within_replicate h3.2
  rw [← h2', GPC.itemParameters, GPC.free_weights _ _ _ _ hw]
  refine ⟨?_, fun p hp => ⟨fun a ha => hw' a ?_, fun x hx => ?_⟩⟩
  · rw [List.length_zip, length_viewRows, length_viewRows]
    exact min_self _
  · exact mem_of_viewRows _ _ _ _ (List.of_mem_zip hp).1 a ha
  · rcases mem_of_scatterMask _ _ _ (mem_of_viewRows _ _ _ _ (List.of_mem_zip hp).2 x hx) with h | h
    · rw [h, abs_zero]; positivity
    · have := hb' x h
      rwa [sub_zero] at this

/-! ## Instances -/

/-- Ten epochs with learning rate 0.05: the slopes are in [-2.64, 4.64], whatever the answers. -/
example : ∃ m, TwoPL.fitMml exTwoTraitFit 4 (rowsOf 6 4 exTwoClusters) = .ok m ∧ m.itemParameters.length = 4 ∧
    ∀ p ∈ m.itemParameters, (∀ a ∈ p.1, |a - 1| ≤ 3.64) ∧ |p.2| ≤ 3.64 := by
  obtain ⟨m, hm, _⟩ := C105_twoPL_equal_slopes exTwoTraitFit exTwoTraitFit_rule 4 (by norm_num) 6 exTwoClusters
    fun i _ => exTwoClusters_valid i
  have h := C124_twoPL exTwoTraitFit rfl rfl (by norm_num [exTwoTraitFit]) 4 (by norm_num) _ m hm
  have e : 7.28 * exTwoTraitFit.lr * (exTwoTraitFit.maxEpochs : ℝ) = 3.64 := by norm_num [exTwoTraitFit]
  rw [e] at h
  exact ⟨m, hm, h⟩

example : ∃ m, ThreePL.fitMml exTwoTraitFit 4 (rowsOf 6 4 exTwoClusters) = .ok m ∧ m.itemParameters.length = 4 ∧
    ∀ p ∈ m.itemParameters, (∀ a ∈ p.1, |a - 1| ≤ 3.64) ∧ |p.2.1| ≤ 3.64 ∧ ∃ g, p.2.2 = logistic g ∧ |g - -1.1| ≤ 3.64 := by
  obtain ⟨m, hm, _⟩ := C105_threePL_equal_slopes exTwoTraitFit exTwoTraitFit_rule 4 (by norm_num) 6 exTwoClusters
    fun i _ => exTwoClusters_valid i
  have h := C124_threePL exTwoTraitFit rfl rfl (by norm_num [exTwoTraitFit]) 4 (by norm_num) _ m hm
  have e : 7.28 * exTwoTraitFit.lr * (exTwoTraitFit.maxEpochs : ℝ) = 3.64 := by norm_num [exTwoTraitFit]
  rw [e] at h
  exact ⟨m, hm, h⟩

/-- A loss that raises everywhere, a loss with a minimum: the loops of all algorithms, three epochs of two batches. -/
example : (match jmlEpochs (adamTrainer fun _ _ _ _ => .error .runtimeError) ⟨0.6, 4, 5e-5, 2⟩ [[0, 1], [2]] 3
      (LoopState.start 0.05 (newState [⟨1, true, none⟩] [⟨0, true, none⟩])) with
    | .ok st => StateWithin 2.184 [⟨1, true, none⟩] [⟨0, true, none⟩] st.final ∧ StateWithin 2.184 [⟨1, true, none⟩] [⟨0, true, none⟩] st.params
    | .error (_, st) => StateWithin 2.184 [⟨1, true, none⟩] [⟨0, true, none⟩] st.params) ∧
    (match jmlEpochs (adamTrainer fun _ _ w _ => .ok (w.map fun x => (x - 100) ^ 2).sum) ⟨0.6, 4, 5e-5, 2⟩ [[0, 1], [2]] 3
      (LoopState.start 0.05 (newState [⟨1, true, none⟩] [⟨0, true, none⟩])) with
    | .ok st => StateWithin 2.184 [⟨1, true, none⟩] [⟨0, true, none⟩] st.final ∧ StateWithin 2.184 [⟨1, true, none⟩] [⟨0, true, none⟩] st.params
    | .error (_, st) => StateWithin 2.184 [⟨1, true, none⟩] [⟨0, true, none⟩] st.params) := by
  have e : 7.28 * 0.05 * ((3 * [[0, 1], [2]].length : ℕ) : ℝ) = 2.184 := by norm_num
  have h := fun loss => C124_jml loss ⟨0.6, 4, 5e-5, 2⟩ 0.05 (by norm_num) [⟨1, true, none⟩] [⟨0, true, none⟩] [[0, 1], [2]] 3
  rw [e] at h
  exact ⟨h fun _ _ _ _ => .error .runtimeError, h fun _ _ w _ => .ok (w.map fun x => (x - 100) ^ 2).sum⟩

/-- The bound for one step cannot be much smaller: with learning rate one and derivative one the first step changes the value by
almost one. -/
example : 0.99 ≤ |(afterSteps 5 ([] ++ [(1, 1)])).2 - (afterSteps 5 []).2| := by
  have h : (afterSteps 5 ([] ++ [(1, 1)])).2 = 5 - 1 * (1 / (|1| + 1e-8)) := C124_first_step 5 1 1
  rw [h, show (afterSteps 5 []).2 = 5 from rfl]
  norm_num

end Irt
