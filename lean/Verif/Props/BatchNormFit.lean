import Verif.Model.BatchNormFit
import Verif.Props.EncoderNet
import Verif.Props.Autoencoder

/-!
# C115: autoencoders with batch normalisation can be trained

Batch normalisation refuses a batch with a single respondent. With `AE`, the training loop leaves out batches of
fewer than four respondents, so that any number of respondents and any batch size is accepted. `VAE.fit` does not
store that batch normalisation is used, and its loop leaves out nothing.
-/

namespace Irt
open Spec

/-- A network in training mode accepts a batch of at least two rows of the right size. -/
theorem runNet_training (layers : List NetLayer) (shapes : List (LayerName × Layer))
    (h : layers.map NetLayer.shape = shapes.map Prod.snd) (batch : List (List ℝ)) (w w' : ℕ)
    (hw : runLayers shapes w = .ok w') (hb : ∀ r ∈ batch, r.length = w) (h2 : batch.length ≠ 1) :
    ∃ out, (runNet true layers batch).1 = .ok out ∧ out.length = batch.length ∧ ∀ r ∈ out, r.length = w' := by
  induction layers generalizing shapes batch w with
  | nil =>
    cases shapes with
    | nil =>
      simp only [runLayers, List.foldlM_nil, pure, Except.pure, Except.ok.injEq] at hw
      exact ⟨batch, rfl, rfl, hw ▸ hb⟩
    | cons a s => simp at h
  | cons l ls ih =>
    cases shapes with
    | nil => simp at h
    | cons a s =>
      simp only [List.map_cons, List.cons.injEq] at h
      unfold runLayers at hw
      rw [List.foldlM_cons, ← h.1] at hw
      suffices hl : ∃ y k, (l.run true batch).1 = .ok y ∧ l.shape.run w = .ok k ∧ y.length = batch.length ∧
          ∀ r ∈ y, r.length = k by
        obtain ⟨y, k, hy, hr, hyl, hyk⟩ := hl
        rw [hr] at hw
        obtain ⟨out, ho, hol, hor⟩ := ih s h.2 y k hw hyk (hyl ▸ h2)
        refine ⟨out, ?_, hol.trans hyl, hor⟩
        unfold runNet
        rcases hrun : l.run true batch with ⟨r, l'⟩
        rw [hrun] at hy
        simp only at hy
        subst hy
        exact ho
      have hall : ∀ k, w = k → (batch.all fun r => decide (r.length = k)) = true := by
        rintro k rfl
        rw [List.all_eq_true]
        exact fun r hr => decide_eq_true (hb r hr)
      cases l with
      | linear a rows =>
        by_cases hx : w = a
        · refine ⟨batch.map (linearRow rows), rows.length, ?_, by simp [NetLayer.shape, Layer.run, hx], by simp, ?_⟩
          · simp only [NetLayer.run, hall a hx, if_true]
          · intro r hr
            obtain ⟨x, -, rfl⟩ := List.mem_map.1 hr
            simp [linearRow]
        · simp [NetLayer.shape, Layer.run, hx, bind, Except.bind] at hw
      | batchNorm k scale shift mean var =>
        by_cases hx : w = k
        · by_cases h0 : batch.length = 0
          · refine ⟨batch, k, ?_, by simp [NetLayer.shape, Layer.run, hx], rfl, hx ▸ hb⟩
            simp only [NetLayer.run, hall k hx, if_true, h0]
            rfl
          · refine ⟨batch.map (normaliseRow scale shift (batchMean batch) fun j => batchSquares batch j / batch.length),
              k, ?_, by simp [NetLayer.shape, Layer.run, hx], by simp, ?_⟩
            · simp only [NetLayer.run, hall k hx, if_true, h2, h0, if_false]
            · intro r hr
              obtain ⟨x, hx', rfl⟩ := List.mem_map.1 hr
              simp [normaliseRow, hb x hx', hx]
        · simp [NetLayer.shape, Layer.run, hx, bind, Except.bind] at hw
      | pointwise φ =>
        refine ⟨batch.map fun r => r.map φ, w, rfl, by simp [NetLayer.shape, Layer.run], by simp, ?_⟩
        intro r hr
        obtain ⟨x, hx', rfl⟩ := List.mem_map.1 hr
        simp [hb x hx']

theorem length_takeRows {α : Type} (data : List α) (b : List ℕ) (h : ∀ i ∈ b, i < data.length) :
    (takeRows data b).length = b.length := by
  unfold takeRows
  induction b with
  | nil => rfl
  | cons i b ih =>
    rw [List.filterMap_cons_some (b := data[i]'(h i (by simp))) (by simp [h i (by simp)])]
    simp [ih fun j hj => h j (by simp [hj])]

theorem mem_takeRows {α : Type} (data : List α) (b : List ℕ) : ∀ r ∈ takeRows data b, r ∈ data := by
  intro r hr
  obtain ⟨i, -, hi⟩ := List.mem_filterMap.1 hr
  exact List.mem_of_getElem? hi

/-- The loop does not raise if the loss never raises for the batches it is computed for. -/
theorem aeBatches_ok {S : Type} (T : Trainer S) (c : TrainConfig) (E : ℕ) (hE : E ≠ 0) (norm : Bool)
    (bs : List (List ℕ)) (hT : ∀ b ∈ bs, (norm = true → 4 ≤ b.length) → ∀ i s, ∃ x, T.loss i b s = .ok x)
    (st : AEState S) : ∃ r, aeBatches T c E norm bs st = .ok r := by
  induction bs generalizing st with
  | nil => exact ⟨_, rfl⟩
  | cons b bs ih =>
    have ih' := ih fun b' hb' => hT b' (by simp [hb'])
    unfold aeBatches
    by_cases hs : b.length < 4 ∧ norm = true
    · rw [if_pos hs]
      exact ih' st
    · rw [if_neg hs]
      obtain ⟨x, hx⟩ := hT b (by simp) (fun hn => by by_contra h; exact hs ⟨by omega, hn⟩) st.total st.params
      have hb : ∃ r, aeBatch T c E b st = .ok r := by
        unfold aeBatch
        rw [hx]
        cases x with
        | none => exact ⟨_, rfl⟩
        | some v =>
          simp only [if_neg hE]
          split_ifs <;> exact ⟨_, rfl⟩
      obtain ⟨r, hr⟩ := hb
      rw [hr]
      show ∃ r', (match r.2 with
        | .nan => _
        | .stop => _
        | .next => _) = Except.ok r'
      rcases r with ⟨st', e⟩
      cases e with
      | next => exact ih' st'
      | nan => exact ⟨_, rfl⟩
      | stop => exact ⟨_, rfl⟩

theorem aeEpochs_ok {S : Type} (T : Trainer S) (c : TrainConfig) (E : ℕ) (hE : E ≠ 0) (norm : Bool)
    (batches : ℕ → List (List ℕ)) (hne : ∀ e, batches e ≠ [])
    (hT : ∀ e, ∀ b ∈ batches e, (norm = true → 4 ≤ b.length) → ∀ i s, ∃ x, T.loss i b s = .ok x)
    (n e : ℕ) (st : AEState S) : ∃ st', aeEpochs T c E norm batches n e st = .ok st' := by
  induction n generalizing e st with
  | zero => exact ⟨_, rfl⟩
  | succ n ih =>
    unfold aeEpochs
    obtain ⟨r, hr⟩ := aeBatches_ok T c E hE norm (batches e) (hT e) st
    rw [hr]
    show ∃ st', (if r.2 = true then _ else if batches e = [] then _ else _) = Except.ok st'
    rw [if_neg (hne e)]
    split_ifs
    · exact ⟨_, rfl⟩
    · exact ⟨_, rfl⟩
    · exact ih _ _

/-- Sizes of the batches of a loader: a batch of one respondent only if the batch size is one or the last batch has
one respondent. -/
theorem blocks_singleton {α : Type} (k : ℕ) (xs : List α) :
    (∃ b ∈ blocks k xs, b.length = 1) ↔ (k = 0 ∧ xs ≠ []) ∨ xs.length % (k + 1) = 1 := by
  induction xs using blocks.induct (k := k) with
  | case1 =>
    rw [blocks]
    simp
  | case2 x xs ih =>
    rw [blocks]
    simp only [List.mem_cons, exists_eq_or_imp, ih, List.length_cons, List.length_take, List.length_drop, ne_eq,
      reduceCtorEq, not_false_eq_true, and_true]
    rcases Nat.eq_zero_or_pos k with rfl | hk
    · simp
    · rcases le_or_gt xs.length k with h | h
      · have e1 : xs.length - k = 0 := by omega
        have e2 : List.drop k xs = [] := List.drop_eq_nil_of_le h
        rw [Nat.min_eq_right h, e1, e2]
        rcases Nat.lt_or_ge xs.length k with h' | h'
        · rw [Nat.mod_eq_of_lt (show xs.length + 1 < k + 1 by omega)]
          simp
          intro h0
          omega
        · have : xs.length = k := by omega
          rw [this, Nat.mod_self]
          simp
      · rw [Nat.min_eq_left h.le, show xs.length + 1 = (xs.length - k) + (k + 1) by omega, Nat.add_mod_right]
        simp [Nat.pos_iff_ne_zero.1 hk]

theorem loaderBatches_singleton (size N : ℕ) (hs : 0 < size) (perm : List ℕ) (hp : perm.Perm (List.range N)) :
    (∃ b ∈ loaderBatches size perm, b.length = 1) ↔ (size = 1 ∧ 0 < N) ∨ N % size = 1 := by
  have hl : perm.length = N := by rw [hp.length_eq, List.length_range]
  unfold loaderBatches
  rw [blocks_singleton, hl, Nat.sub_add_cancel hs]
  have : perm ≠ [] ↔ 0 < N := by
    rw [← hl, List.length_pos_iff]
  rw [this]
  have : size - 1 = 0 ↔ size = 1 := by omega
  rw [this]

/-- Data and encoder of a fit: there is a respondent, every row has the input size, and for all parameters the layers
have the given shapes, which fit the input. -/
structure TrainingSetup {S : Type} (net : S → List NetLayer) (input : List (List ℝ)) : Prop where
  respondents : 0 < input.length
  shapes : ∃ (shapes : List (LayerName × Layer)) (w w' : ℕ), (∀ s, (net s).map NetLayer.shape = shapes.map Prod.snd) ∧
    runLayers shapes w = .ok w' ∧ ∀ r ∈ input, r.length = w

theorem normTraining_ok {S : Type} (kind : EncoderKind) (norm : Bool) (net : S → List NetLayer)
    (input : List (List ℝ)) (hset : TrainingSetup net input)
    (rest : ℕ → List ℕ → S → List (List ℝ) → Num) (update : ℕ → List ℕ → ℝ → S → S) (size : ℕ) (hs : 0 < size)
    (c : TrainConfig) (interval : ℕ) (hE : interval ≠ 0) (lr : ℝ) (maxEpochs : ℕ) (perm : ℕ → List ℕ)
    (hp : ∀ e, (perm e).Perm (List.range input.length)) (start : S)
    (hk : ∀ e, ∀ b ∈ loaderBatches size (perm e), (kind.storedNorm norm = true → 4 ≤ b.length) → b.length ≠ 1) :
    ∃ st, normTraining kind norm net input rest update size c interval lr maxEpochs perm start = .ok st := by
  obtain ⟨shapes, w, w', h1, h2, h3⟩ := hset.shapes
  unfold normTraining
  apply aeEpochs_ok _ _ _ hE
  · intro e h
    have := (C99_epoch size input.length hs (perm e) (hp e)).1
    rw [h] at this
    have := this.length_eq
    simp at this
    have h' := hset.respondents
    rw [← this] at h'
    simp at h'
  · intro e b hb hn i s
    have hin : ∀ j ∈ b, j < input.length := by
      intro j hj
      have := (C99_epoch size input.length hs (perm e) (hp e)).1
      exact List.mem_range.1 (this.mem_iff.1 (List.mem_flatten.2 ⟨b, hb, hj⟩))
    obtain ⟨out, ho, -, -⟩ := runNet_training (net s) shapes (h1 s) (takeRows input b) w w' h2
      (fun r hr => h3 r (mem_takeRows _ _ r hr)) (by rw [length_takeRows _ _ hin]; exact hk e b hb hn)
    exact ⟨_, by simp only [normTrainer, ho]; rfl⟩

/-- C115: training with `AE` and batch normalisation raises nothing, for every number of respondents and every batch
size. -/
theorem C115_ae {S : Type} (net : S → List NetLayer) (input : List (List ℝ)) (hset : TrainingSetup net input)
    (rest : ℕ → List ℕ → S → List (List ℝ) → Num) (update : ℕ → List ℕ → ℝ → S → S) (size : ℕ) (hs : 0 < size)
    (c : TrainConfig) (interval : ℕ) (hE : interval ≠ 0) (lr : ℝ) (maxEpochs : ℕ) (perm : ℕ → List ℕ)
    (hp : ∀ e, (perm e).Perm (List.range input.length)) (start : S) :
    ∃ st, normTraining .ae true net input rest update size c interval lr maxEpochs perm start = .ok st :=
  normTraining_ok .ae true net input hset rest update size hs c interval hE lr maxEpochs perm hp start
    fun e b _ h => by have := h rfl; omega

/-- C115 (partial: neither the batch size is one nor one respondent is left for the last batch): training with `VAE`
and batch normalisation raises nothing. -/
theorem C115_vae_partial {S : Type} (norm : Bool) (net : S → List NetLayer) (input : List (List ℝ))
    (hset : TrainingSetup net input)
    (rest : ℕ → List ℕ → S → List (List ℝ) → Num) (update : ℕ → List ℕ → ℝ → S → S) (size : ℕ) (hs : 1 < size)
    (hlast : input.length % size ≠ 1)
    (c : TrainConfig) (interval : ℕ) (hE : interval ≠ 0) (lr : ℝ) (maxEpochs : ℕ) (perm : ℕ → List ℕ)
    (hp : ∀ e, (perm e).Perm (List.range input.length)) (start : S) :
    ∃ st, normTraining .vae norm net input rest update size c interval lr maxEpochs perm start = .ok st :=
  normTraining_ok .vae norm net input hset rest update size (by omega) c interval hE lr maxEpochs perm hp start
    fun e b hb _ h1 => by
      have := (loaderBatches_singleton size input.length (by omega) (perm e) (hp e)).1 ⟨b, hb, h1⟩
      rcases this with ⟨h, -⟩ | h
      · omega
      · exact hlast h

/-- Six respondents with two inputs each. -/
noncomputable def exSix : List (List ℝ) := [[1, 0], [1, 1], [0, 0], [1, 0], [0, 1], [1, 1]]

theorem exSetup (input : List (List ℝ)) (h0 : 0 < input.length) (h : ∀ r ∈ input, r.length = 2) :
    TrainingSetup (fun _ : Unit => exNet) input :=
  ⟨h0, [(.linear 0, .linear 2 1), (.batchnorm none, .batchnorm 1), (.nonlinear 0, .pointwise),
    (.linear 2, .linear 1 1)], 2, 1, fun _ => rfl, rfl, h⟩

example : TrainingSetup (fun _ : Unit => exNet) exSix ∧ exSix.length % 4 ≠ 1 :=
  ⟨exSetup _ (by simp [exSix]) (by simp [exSix]), by simp [exSix]⟩

/-- C115 for `VAE`: training with batch normalisation raises nothing, for every number of respondents and every batch
size. -/
def VaeTrains : Prop :=
  ∀ (S : Type) (net : S → List NetLayer) (input : List (List ℝ)), TrainingSetup net input →
    ∀ (rest : ℕ → List ℕ → S → List (List ℝ) → Num) (update : ℕ → List ℕ → ℝ → S → S) (size : ℕ), 0 < size →
    ∀ (c : TrainConfig) (interval : ℕ), interval ≠ 0 → ∀ (lr : ℝ) (maxEpochs : ℕ) (perm : ℕ → List ℕ),
    (∀ e, (perm e).Perm (List.range input.length)) → ∀ start : S,
    ∃ st, normTraining .vae true net input rest update size c interval lr maxEpochs perm start = .ok st

/-- Training fails with ValueError in the first epoch as soon as the loop arrives at a batch of one respondent. -/
theorem C115_vae_single {S : Type} (norm : Bool) (net : S → List NetLayer) (input : List (List ℝ))
    (rest : ℕ → List ℕ → S → List (List ℝ) → Num) (update : ℕ → List ℕ → ℝ → S → S)
    (x : List ℝ) (hin : input = [x]) (a k : ℕ) (rows : S → List (List ℝ × ℝ)) (scale shift mean var : S → ℕ → ℝ)
    (tail : S → List NetLayer)
    (hnet : ∀ s, net s = .linear a (rows s) :: .batchNorm k (scale s) (shift s) (mean s) (var s) :: tail s)
    (hx : x.length = a) (hk : ∀ s, (rows s).length = k) (size : ℕ) (c : TrainConfig) (interval : ℕ)
    (lr : ℝ) (maxEpochs : ℕ) (hm : 0 < maxEpochs) (perm : ℕ → List ℕ)
    (hp : ∀ e, (perm e).Perm (List.range input.length)) (start : S) :
    ∃ st, normTraining .vae norm net input rest update size c interval lr maxEpochs perm start =
      .error (.valueError, st) := by
  obtain ⟨n, rfl⟩ : ∃ n, maxEpochs = n + 1 := ⟨maxEpochs - 1, by omega⟩
  subst hin
  have hperm : perm 0 = [0] := List.perm_singleton.1 (by simpa using hp 0)
  refine ⟨AEState.start lr start, ?_⟩
  unfold normTraining aeEpochs
  simp only [hperm]
  have hb : loaderBatches size [0] = [[0]] := by simp [loaderBatches, blocks]
  rw [hb]
  have hrun := C114_training_single a k (rows start) (scale start) (shift start) (mean start) (var start) (tail start) x
    hx (hk start)
  have hloss : (normTrainer net [x] rest update).loss 0 [0] start = .error .valueError := by
    simp only [normTrainer, hnet, takeRows]
    simp only [List.filterMap_cons, List.filterMap_nil, List.length_cons, List.length_nil, zero_add, Nat.lt_one_iff,
      getElem?_pos, List.getElem_cons_zero, hrun]
    rfl
  have : aeBatch (normTrainer net [x] rest update) c interval [0] (AEState.start lr start) =
      .error (.valueError, AEState.start lr start) := by
    unfold aeBatch
    rw [show (AEState.start lr start).total = 0 from rfl, show (AEState.start lr start).params = start from rfl, hloss]
  simp [aeBatches, EncoderKind.storedNorm, this, bind, Except.bind]

/-- C115 is false of the code for `VAE`: five respondents in batches of four leave a batch of one respondent, which
batch normalisation refuses. -/
theorem C115_vae_false : ¬ VaeTrains := by
  intro h
  obtain ⟨st, hst⟩ := h Unit (fun _ => exNet) [[1, 0], [1, 1], [0, 0], [1, 0], [0, 1]]
    (exSetup _ (by simp) (by simp)) (fun _ _ _ _ => some 0) (fun _ _ _ s => s) 4 (by norm_num) ⟨6 / 10, 1, 0, 3⟩ 80
    (by norm_num) 1 1 (fun _ => List.range 5) (fun _ => by simp) ()
  obtain ⟨out, ho, -, -⟩ := runNet_training exNet
    [(.linear 0, .linear 2 1), (.batchnorm none, .batchnorm 1), (.nonlinear 0, .pointwise), (.linear 2, .linear 1 1)]
    rfl (takeRows [[1, 0], [1, 1], [0, 0], [1, 0], [0, 1]] [0, 1, 2, 3]) 2 1 rfl (by simp [takeRows])
    (by simp [takeRows])
  have h1 : (runNet true exNet (takeRows [[1, 0], [1, 1], [0, 0], [1, 0], [0, 1]] [4])).1 = .error .valueError := by
    exact C114_training_single 2 1 _ _ _ _ _ _ _ rfl rfl
  have hb : loaderBatches 4 (List.range 5) = [[0, 1, 2, 3], [4]] := by
    simp [loaderBatches, blocks, List.range_succ]
  unfold normTraining aeEpochs at hst
  simp only [hb] at hst
  simp [aeBatches, aeBatch, normTrainer, ho, h1, EncoderKind.storedNorm, Except.map, AEState.start, bind,
    Except.bind] at hst

/-! ## Whether anything is trained -/

/-- C115: with batch normalisation and batches of fewer than four respondents (fewer than four respondents in the
data, or such a batch size), `AE` makes no step at all: after any number of epochs the parameters are the initial
ones and no loss is recorded, without an error. -/
theorem C115_ae_small_batches {S : Type} (net : S → List NetLayer) (input : List (List ℝ)) (hN : 0 < input.length)
    (rest : ℕ → List ℕ → S → List (List ℝ) → Num) (update : ℕ → List ℕ → ℝ → S → S) (size : ℕ) (hs : 0 < size)
    (hsmall : size < 4 ∨ input.length < 4) (c : TrainConfig) (hc : 0 < c.limit) (interval : ℕ) (lr : ℝ)
    (maxEpochs : ℕ) (perm : ℕ → List ℕ) (hp : ∀ e, (perm e).Perm (List.range input.length)) (start : S) :
    normTraining .ae true net input rest update size c interval lr maxEpochs perm start =
      .ok (AEState.start lr start) := by
  have hb : ∀ e, ∀ b ∈ loaderBatches size (perm e), b.length < 4 := by
    intro e b hb
    obtain ⟨h1, -, h2, -⟩ := C99_epoch size input.length hs (perm e) (hp e)
    rcases hsmall with h | h
    · exact lt_of_le_of_lt (h2 b hb) h
    · have := (List.sublist_flatten_of_mem hb).length_le
      rw [h1.length_eq, List.length_range] at this
      omega
  have hne : ∀ e, loaderBatches size (perm e) ≠ [] := by
    intro e h
    have := (C99_epoch size input.length hs (perm e) (hp e)).1
    rw [h] at this
    have := this.length_eq
    simp at this
    rw [← this] at hN
    simp at hN
  have hbs : ∀ (T : Trainer S) (bs : List (List ℕ)), (∀ b ∈ bs, b.length < 4) → ∀ st,
      aeBatches T c interval true bs st = .ok (st, false) := by
    intro T bs
    induction bs with
    | nil => exact fun _ st => rfl
    | cons b bs ih =>
      intro h st
      unfold aeBatches
      rw [if_pos ⟨h b (by simp), rfl⟩]
      exact ih (fun b' hb' => h b' (by simp [hb'])) st
  unfold normTraining
  generalize 0 = e
  induction maxEpochs generalizing e with
  | zero => rfl
  | succ n ih =>
    unfold aeEpochs
    rw [show EncoderKind.storedNorm .ae true = true from rfl, hbs _ _ (hb e)]
    simp only [bind, Except.bind, Bool.false_eq_true, if_false]
    rw [if_neg (hne e), if_neg (by simp only [AEState.start]; omega)]
    exact ih (e + 1)

/-- C115 for `AE`: a fit of at least one epoch that raises nothing and meets no NaN has made at least one step. -/
def AeTrains : Prop :=
  ∀ (S : Type) (net : S → List NetLayer) (input : List (List ℝ)), TrainingSetup net input →
    ∀ (rest : ℕ → List ℕ → S → List (List ℝ) → Num), (∀ i b s out, rest i b s out ≠ none) →
    ∀ (update : ℕ → List ℕ → ℝ → S → S) (size : ℕ), 0 < size →
    ∀ (c : TrainConfig), 0 < c.limit → ∀ (interval : ℕ), interval ≠ 0 → ∀ (lr : ℝ) (maxEpochs : ℕ), 0 < maxEpochs →
    ∀ perm : ℕ → List ℕ, (∀ e, (perm e).Perm (List.range input.length)) → ∀ (start : S) (st : AEState S),
    normTraining .ae true net input rest update size c interval lr maxEpochs perm start = .ok st → 0 < st.total

/-- C115 is false of the code for `AE` with batches of fewer than four respondents: nothing is trained. -/
theorem C115_ae_untrained_false : ¬ AeTrains := by
  intro h
  have hset := exSetup exSix (by simp [exSix]) (by simp [exSix])
  have := h Unit (fun _ => exNet) exSix hset (fun _ _ _ _ => some 0) (by simp) (fun _ _ _ s => s) 3 (by norm_num)
    ⟨6 / 10, 1, 0, 3⟩ (by norm_num) 80 (by norm_num) 1 1000 (by norm_num) (fun _ => List.range 6)
    (fun _ => by simp [exSix]) () _
    (C115_ae_small_batches _ exSix (by simp [exSix]) _ _ 3 (by norm_num) (.inl (by norm_num)) _ (by norm_num) _ _ _ _
      (fun _ => by simp [exSix]) _)
  simp [AEState.start] at this

theorem aeBatch_total {S : Type} (T : Trainer S) (c : TrainConfig) (E : ℕ) (b : List ℕ) (st : AEState S)
    (r : AEState S × BatchEnd) (h : aeBatch T c E b st = .ok r) (hl : T.loss st.total b st.params ≠ .ok none) :
    r.1.total = st.total + 1 := by
  unfold aeBatch at h
  split at h
  · exact absurd h (by simp)
  · exact absurd ‹_› hl
  · simp only at h
    split_ifs at h <;> (obtain rfl := Except.ok.inj h; rfl)

theorem aeBatch_total_le {S : Type} (T : Trainer S) (c : TrainConfig) (E : ℕ) (b : List ℕ) (st : AEState S)
    (r : AEState S × BatchEnd) (h : aeBatch T c E b st = .ok r) : st.total ≤ r.1.total := by
  by_cases hl : T.loss st.total b st.params = .ok none
  · unfold aeBatch at h
    rw [hl] at h
    obtain rfl := Except.ok.inj h
    exact le_rfl
  · rw [aeBatch_total T c E b st r h hl]
    omega

theorem aeBatches_total_le {S : Type} (T : Trainer S) (c : TrainConfig) (E : ℕ) (norm : Bool)
    (bs : List (List ℕ)) (st : AEState S) (r : AEState S × Bool) (h : aeBatches T c E norm bs st = .ok r) :
    st.total ≤ r.1.total := by
  induction bs generalizing st with
  | nil => obtain rfl := Except.ok.inj h; exact le_rfl
  | cons b bs ih =>
    unfold aeBatches at h
    split_ifs at h with hs
    · exact ih st h
    · obtain ⟨q, hq, h⟩ := bind_eq_ok h
      have h1 := aeBatch_total_le T c E b st q hq
      rcases q with ⟨st', e⟩
      cases e with
      | next => exact h1.trans (ih st' h)
      | nan => obtain rfl := Except.ok.inj h; exact h1
      | stop => obtain rfl := Except.ok.inj h; exact h1

theorem aeEpochs_total_le {S : Type} (T : Trainer S) (c : TrainConfig) (E : ℕ) (norm : Bool)
    (batches : ℕ → List (List ℕ)) (n e : ℕ) (st st' : AEState S) (h : aeEpochs T c E norm batches n e st = .ok st') :
    st.total ≤ st'.total := by
  induction n generalizing e st with
  | zero => obtain rfl := Except.ok.inj h; exact le_rfl
  | succ n ih =>
    unfold aeEpochs at h
    obtain ⟨r, hr, h⟩ := bind_eq_ok h
    have h1 := aeBatches_total_le T c E norm _ st r hr
    split_ifs at h with h2 h3 h4
    · obtain rfl := Except.ok.inj h; exact h1
    · obtain rfl := Except.ok.inj h; exact h1
    · exact h1.trans (ih (e + 1) r.1 h)

/-- C115 (partial: batches of at least four respondents, and at least four respondents): a fit with `AE` of at least
one epoch that meets no NaN has made at least one step. Missing: smaller batch sizes or data, where it is false. -/
theorem C115_ae_trains_partial {S : Type} (norm : Bool) (net : S → List NetLayer) (input : List (List ℝ))
    (rest : ℕ → List ℕ → S → List (List ℝ) → Num) (hrest : ∀ i b s out, rest i b s out ≠ none)
    (update : ℕ → List ℕ → ℝ → S → S) (size : ℕ) (hs : 4 ≤ size) (hN : 4 ≤ input.length)
    (c : TrainConfig) (interval : ℕ) (lr : ℝ) (maxEpochs : ℕ) (hm : 0 < maxEpochs)
    (perm : ℕ → List ℕ) (hp : ∀ e, (perm e).Perm (List.range input.length)) (start : S) (st : AEState S)
    (h : normTraining .ae norm net input rest update size c interval lr maxEpochs perm start = .ok st) :
    0 < st.total := by
  obtain ⟨n, rfl⟩ : ∃ n, maxEpochs = n + 1 := ⟨maxEpochs - 1, by omega⟩
  unfold normTraining at h
  unfold aeEpochs at h
  obtain ⟨r, hr, h⟩ := bind_eq_ok h
  have h1 : 0 < r.1.total := by
    have hl : (perm 0).length = input.length := by rw [(hp 0).length_eq, List.length_range]
    obtain ⟨x, xs, hxs⟩ : ∃ x xs, perm 0 = x :: xs := by
      cases hc : perm 0 with
      | nil => rw [hc] at hl; simp at hl; omega
      | cons x xs => exact ⟨x, xs, rfl⟩
    simp only [loaderBatches, hxs, blocks] at hr
    unfold aeBatches at hr
    have hlen : ¬ ((x :: List.take (size - 1) xs).length < 4 ∧ EncoderKind.storedNorm .ae norm = true) := by
      rintro ⟨hlt, -⟩
      rw [hxs] at hl
      simp only [List.length_cons, List.length_take] at hlt hl
      omega
    rw [if_neg hlen] at hr
    obtain ⟨q, hq, hr⟩ := bind_eq_ok hr
    have hq1 := aeBatch_total _ c interval _ _ q hq (by
      simp only [normTrainer, Except.map]
      split
      · simp
      · intro hcon
        exact hrest _ _ _ _ (Except.ok.inj hcon))
    rcases q with ⟨st', e⟩
    have hq2 : 0 < st'.total := by
      simp only at hq1
      rw [hq1]
      exact Nat.succ_pos _
    cases e with
    | next => exact hq2.trans_le (aeBatches_total_le _ c interval _ _ _ _ hr)
    | nan => obtain rfl := Except.ok.inj hr; exact hq2
    | stop => obtain rfl := Except.ok.inj hr; exact hq2
  split_ifs at h with h2 h3 h4
  · obtain rfl := Except.ok.inj h; exact h1
  · obtain rfl := Except.ok.inj h; exact h1
  · exact h1.trans_le (aeEpochs_total_le _ c interval _ _ n 1 _ _ h)

example : ∃ st, normTraining .ae true (fun _ : Unit => exNet) exSix (fun _ _ _ _ => some 0) (fun _ _ _ s => s) 4
    ⟨6 / 10, 1, 0, 3⟩ 80 1 1000 (fun _ => List.range 6) () = .ok st ∧ 0 < st.total := by
  obtain ⟨st, h⟩ := C115_ae (fun _ : Unit => exNet) exSix (exSetup exSix (by simp [exSix]) (by simp [exSix]))
    (fun _ _ _ _ => some 0) (fun _ _ _ s => s) 4 (by norm_num) ⟨6 / 10, 1, 0, 3⟩ 80 (by norm_num) 1 1000
    (fun _ => List.range 6) (fun _ => by simp [exSix]) ()
  exact ⟨st, h, C115_ae_trains_partial true _ exSix _ (by simp) _ 4 le_rfl (by simp [exSix]) _ _ _ _ (by norm_num) _
    (fun _ => by simp [exSix]) _ st h⟩

end Irt
