import Verif.Model.Joint
import Verif.Spec.Joint
import Verif.Props.Autoencoder
import Verif.Lemmas.Joint
import Verif.Props.MmlSymmetry

/-! # C111: joint maximum likelihood -/

namespace Irt

open Spec Finset

/-- C111, the objective: the loss of a batch is minus the log likelihood of the observed responses of its respondents, each at the
latent scores in their own row. Missing responses do not contribute. -/
theorem C111_objective {S : Type} {d : ℕ} (scorer : S → Scorer d) (update : ℕ → List ℕ → ℝ → S × Thetas d → S × Thetas d) (s : S)
    {cats : List ℕ} {P : (Fin d → ℝ) → ℕ → ℕ → ℝ} (hm : IsScorer (scorer s) cats P) (N : ℕ) (y : ℕ → ℕ → Cell)
    (hy : ∀ i, i < N → ValidResponses cats (y i)) (θ : ℕ → Fin d → ℝ) (width : ℕ) (mc : Option (List ℤ)) (draw : ℕ → ℕ → ℕ)
    (ds : Dataset)
    (hds : (Dataset.init width (rowsOf N cats.length fun i j => codeOf (y i j)) false (some cats) none mc draw).1 = .ok ds)
    (b : List ℕ) (hb : ∀ i ∈ b, i < N) (hpos : ∀ i ∈ b, observedLikelihood P cats.length (y i) (θ i) ≠ 0) (k : ℕ) :
    (jmlTrainer scorer update ds).loss k b (s, (List.range N).map θ)
      = .ok (some (-(b.map fun i => Real.log (observedLikelihood P cats.length (y i) (θ i))).sum)) := by
  obtain ⟨hd, hmask⟩ := dataset_keeps _ _ _ _ _ _ _ _ hds
  have hJ := hm.items
  have e1 : takeRows ds.data b = b.map fun i => (List.range cats.length).map fun j => codeOf (y i j) := by
    rw [hd]; exact takeRows_map_range N _ b hb
  have e2 : takeRows ds.mask b = b.map fun i => (List.range cats.length).map fun j => cellMissing (y i j) := by
    rw [hmask, missingMaskOf, rowsOf, List.map_map]
    refine (takeRows_map_range N _ b hb).trans (List.map_congr_left fun i _ => ?_)
    simp only [Function.comp, List.map_map]
    exact List.map_congr_left fun j _ => isMissing_codeOf _
  have e3 : takeRows ((List.range N).map θ) b = b.map θ := takeRows_map_range N _ b hb
  have hget : ∀ {α : Type} (f : ℕ → α), (List.range b.length).map (fun t => f (b.getD t 0)) = b.map f := by
    intro α f
    apply List.ext_getElem (by simp)
    intro t h1 h2
    simp only [List.length_map] at h2
    rw [List.getElem_map, List.getElem_map, List.getElem_range, List.getD_eq_getElem _ _ h2]
  have hlt : ∀ t, t < b.length → b.getD t 0 ∈ b := by
    intro t ht
    rw [List.getD_eq_getElem _ _ ht]
    exact List.getElem_mem ht
  have hflat : ∀ {α : Type} (g : ℕ → ℕ → α), (b.map fun i => (List.range cats.length).map (g i)).flatten
      = flatTensor b.length cats.length fun t j => g (b.getD t 0) j := by
    intro α g
    unfold flatTensor
    rw [List.flatMap_def, hget fun i => (List.range cats.length).map (g i)]
  have hll := hm.logLik b.length (fun t => θ (b.getD t 0)) (fun t => y (b.getD t 0)) fun t ht => hy _ (hb _ (hlt t ht))
  rw [hJ] at hll
  have hsum : Logit.sum ((flatTensor b.length cats.length fun t j => if cellMissing (y (b.getD t 0) j) then none else
        some (logE (P (θ (b.getD t 0)) j (responseOf (y (b.getD t 0) j))))).filterMap id)
      = .fin (b.map fun i => Real.log (observedLikelihood P cats.length (y i) (θ i))).sum := by
    have hexp := exp_nansum_flatMap (List.range b.length) fun t => (List.range cats.length).map fun j =>
      if cellMissing (y (b.getD t 0) j) then none else
        some (logE (P (θ (b.getD t 0)) j (responseOf (y (b.getD t 0) j))))
    have hrow : ∀ i, (nansum ((List.range cats.length).map fun j =>
        if cellMissing (y i j) then none else some (logE (P (θ i) j (responseOf (y i j)))))).exp
        = observedLikelihood P cats.length (y i) (θ i) := fun i => exp_logLikAt P hm.nonneg _ _ _
    simp only [hrow] at hexp
    rw [hget fun i => observedLikelihood P cats.length (y i) (θ i)] at hexp
    have := logit_of_exp _ _ hexp
    rw [show Logit.sum (List.filterMap id _) = nansum _ from rfl]
    unfold flatTensor
    rw [this]
    have hprod : ∀ l : List ℕ, (∀ i ∈ l, observedLikelihood P cats.length (y i) (θ i) ≠ 0) →
        (l.map fun i => observedLikelihood P cats.length (y i) (θ i)).prod ≠ 0 ∧
        Real.log (l.map fun i => observedLikelihood P cats.length (y i) (θ i)).prod
          = (l.map fun i => Real.log (observedLikelihood P cats.length (y i) (θ i))).sum := by
      intro l
      induction l with
      | nil => intro _; simp
      | cons a l ih =>
        intro h
        obtain ⟨h1, h2⟩ := ih fun i hi => h i (List.mem_cons_of_mem _ hi)
        have h0 := h a List.mem_cons_self
        rw [List.map_cons, List.map_cons, List.prod_cons, List.sum_cons, Real.log_mul h0 h1, h2]
        exact ⟨mul_ne_zero h0 h1, rfl⟩
    obtain ⟨h1, h2⟩ := hprod b hpos
    unfold logE
    rw [if_neg h1, h2]
  simp only [jmlTrainer, jmlObjective]
  rw [e1, e2, e3]
  simp only [List.map_map]
  have e4 : (b.map ((fun r => List.map numToCell r) ∘ fun i => List.map (fun j => codeOf (y i j)) (List.range cats.length)))
      = b.map fun i => (List.range cats.length).map fun j => y i j := by
    refine List.map_congr_left fun i _ => ?_
    simp only [Function.comp, List.map_map]
    exact List.map_congr_left fun j _ => numToCell_codeOf _
  have e5 : b.map ((scorer s).forward ∘ θ) = (List.range b.length).map fun t => (scorer s).forward (θ (b.getD t 0)) :=
    (hget fun i => (scorer s).forward (θ i)).symm
  rw [e4, hflat, hflat, e5, hll, bind_ok, hsum]
  rfl

/-- C111, one epoch: the batches are consecutive and contain every respondent once, so that the losses of the batches of an epoch
would add up to the joint loss if the parameters stayed the same; with the default batch size the only batch is the whole data set
and its loss is the joint loss. -/
theorem C111_epoch {d : ℕ} (P : (Fin d → ℝ) → ℕ → ℕ → ℝ) (items N : ℕ) (y : ℕ → ℕ → Cell) (θ : ℕ → Fin d → ℝ) (size : ℕ) (hs : 0 < size) :
    (loaderBatches size (List.range N)).flatten = List.range N ∧
    (∀ b ∈ loaderBatches size (List.range N), b ≠ [] ∧ b.length ≤ size) ∧
    ((loaderBatches size (List.range N)).map fun b =>
      -(b.map fun i => Real.log (observedLikelihood P items (y i) (θ i))).sum).sum = jointLoss P items N y θ ∧
    (0 < N → loaderBatches N (List.range N) = [List.range N]) := by
  have hflat : (loaderBatches size (List.range N)).flatten = List.range N := by
    unfold loaderBatches
    rw [blocks_flatten]
  refine ⟨hflat, fun b hb => ?_, ?_, fun hN => ?_⟩
  · obtain ⟨_, h2, h3, _⟩ := C99_epoch size N hs (List.range N) (List.Perm.refl _)
    exact ⟨fun h => h2 (h ▸ hb), h3 b hb⟩
  · have : ∀ l : List (List ℕ), (l.map fun b => -(b.map fun i => Real.log (observedLikelihood P items (y i) (θ i))).sum).sum
        = -(l.flatten.map fun i => Real.log (observedLikelihood P items (y i) (θ i))).sum := by
      intro l
      induction l with
      | nil => simp
      | cons a l ih => rw [List.map_cons, List.sum_cons, ih, List.flatten_cons, List.map_append, List.sum_append]; ring
    rw [this, hflat, jointLoss, Finset.sum_range, ← List.sum_ofFn, List.ofFn_eq_map, ← List.map_coe_finRange_eq_range, List.map_map]
    rfl
  · obtain ⟨h1, h2, h3, h4⟩ := C99_epoch N N hN (List.range N) (List.Perm.refl _)
    have hl : (loaderBatches N (List.range N)).length = 1 := by
      rw [h4, show N + N - 1 = N + (N - 1) by omega, Nat.add_div_left _ hN, Nat.div_eq_of_lt (by omega)]
    obtain ⟨b, hb⟩ := List.length_eq_one_iff.1 hl
    have : (loaderBatches N (List.range N)).flatten = List.range N := by
      unfold loaderBatches
      rw [blocks_flatten]
    rw [hb] at this ⊢
    simpa using this

/-- C111, a whole fit with the default batch size: every recorded loss is the joint loss at the parameters and latent scores of its
epoch, and what is returned are the parameters and scores after the update of the first epoch with the smallest joint loss. -/
theorem C111_fit {S : Type} {d : ℕ} (scorer : S → Scorer d) (update : ℕ → List ℕ → ℝ → S × Thetas d → S × Thetas d)
    {cats : List ℕ} {P : S → (Fin d → ℝ) → ℕ → ℕ → ℝ} (hm : ∀ s, IsScorer (scorer s) cats (P s)) (hpos : ∀ s, PositiveProbs (P s) cats)
    (hrows : ∀ k b lr s, (update k b lr s).2.length = s.2.length) (N : ℕ) (hN : 0 < N) (y : ℕ → ℕ → Cell)
    (hy : ∀ i, i < N → ValidResponses cats (y i)) (width : ℕ) (mc : Option (List ℤ)) (start : Thetas d) (c : TrainConfig)
    (hf : 0 < c.factor) (lr : ℝ) (hlr : 0 ≤ lr) (maxEpochs : ℕ) (s : S) (e : S × Thetas d)
    (h : jmlFit scorer update width cats mc (rowsOf N cats.length fun i j => codeOf (y i j)) start none c lr maxEpochs s = .ok e) :
    ∃ (ds : Dataset) (l : List (TrainStep (S × Thetas d))) (last : S × Thetas d), Run (jmlTrainer scorer update ds) (s, start) l last ∧
      l.length ≤ maxEpochs ∧
      (∀ u ∈ l, u.loss = some (jointLoss (P u.before.1) cats.length N y fun i => u.before.2.getD i 0)) ∧
      ((∃ t, IsFirstBest l t ∧ e = t.after) ∨ l = [] ∧ e = (s, start)) := by
  have hlen : (rowsOf N cats.length fun i j => codeOf (y i j)).length = N := by simp [rowsOf]
  unfold jmlFit at h
  rw [hlen] at h
  split at h
  · cases h
  next hst =>
    rw [not_not] at hst
    obtain ⟨ds, hds, h2⟩ := bind_eq_ok h
    rw [Option.getD_none, if_neg hN.ne', (C111_epoch (P s) cats.length N y (fun _ => 0) N hN).2.2.2 hN] at h2
    split at h2
    · cases h2
    next st hrun =>
      obtain ⟨l, hl, -, hpre, -, -, hbest⟩ := C49_jml _ c hf lr hlr _ _ _ _ hrun
      have hbatch : ∀ u ∈ l, u.batch = List.range N := by
        intro u hu
        have := hpre.subset (List.mem_map_of_mem hu)
        rw [List.mem_flatten] at this
        obtain ⟨bs, hbs, hu'⟩ := this
        rw [List.eq_of_mem_replicate hbs] at hu'
        simpa using hu'
      have key : ∀ {l : List (TrainStep (S × Thetas d))} {last}, Run (jmlTrainer scorer update ds) (s, start) l last →
          (∀ u ∈ l, u.batch = List.range N) → last.2.length = N ∧
          ∀ u ∈ l, u.loss = some (jointLoss (P u.before.1) cats.length N y fun i => u.before.2.getD i 0) := by
        intro l last hr
        induction hr with
        | nil => exact fun _ => ⟨hst, by simp⟩
        | @snoc l s' b r x hr hx ih =>
          intro hb
          obtain ⟨h1, h3⟩ := ih fun v hv => hb v (List.mem_append_left _ hv)
          have hbb : b = List.range N := hb ⟨b, r, s', x, _⟩ (List.mem_append_right _ List.mem_cons_self)
          refine ⟨(hrows _ _ _ _).trans h1, fun u hu => ?_⟩
          rcases List.mem_append.1 hu with hu | hu
          · exact h3 u hu
          · simp only [List.mem_singleton] at hu
            rw [hu]
            dsimp only
            have hθ : s'.2 = (List.range N).map fun i => s'.2.getD i 0 := by
              apply List.ext_getElem (by simp [h1])
              intro t ht _
              rw [List.getElem_map, List.getElem_range, List.getD_eq_getElem _ _ ht]
            have hloss := C111_objective scorer update s'.1 (hm s'.1) N y hy (fun i => s'.2.getD i 0) width mc _ ds hds (List.range N)
              (fun i hi => List.mem_range.1 hi) (fun i hi => (observedLikelihood_pos (hpos s'.1) (y i) (hy i (List.mem_range.1 hi)) _).ne') l.length
            rw [← hθ, ← hbb] at hloss
            rw [hloss] at hx
            rw [← Except.ok.inj hx, jointLoss, hbb, Finset.sum_range, ← List.sum_ofFn, List.ofFn_eq_map, ← List.map_coe_finRange_eq_range,
              List.map_map]
            rfl
      have hfin : e = st.final := (Except.ok.inj h2).symm
      refine ⟨ds, l, st.params, hl, ?_, (key hl hbatch).2, ?_⟩
      · have := hpre.length_le
        simpa using this
      · rcases hbest with ⟨t, ht, hte⟩ | ⟨hnone, hp⟩
        · exact Or.inl ⟨t, ht, hfin.trans hte⟩
        · right
          have hnil : l = [] := by
            cases l with
            | nil => rfl
            | cons u l =>
              have h1 := hnone u List.mem_cons_self
              rw [(key hl hbatch).2 u List.mem_cons_self] at h1
              cases h1
          subst hnil
          refine ⟨rfl, hfin.trans (hp.trans ?_)⟩
          have empty : ∀ {l : List (TrainStep (S × Thetas d))} {q}, Run (jmlTrainer scorer update ds) (s, start) l q → l = [] → q = (s, start) := by
            intro l q hr hnil
            cases hr with
            | nil => rfl
            | snoc _ _ _ _ _ => simp at hnil
          exact empty hl rfl

/-- One epoch for two respondents and two items, with gradient steps of any kind (here: none). The model is given by its intercepts. -/
example : ∃ e, jmlFit (fun b : Fin 2 → ℝ => (⟨2, List.ofFn b⟩ : OnePL).scorer) (fun _ _ _ s => s) 2 [2, 2] none
      (rowsOf 2 2 fun i j => codeOf (if i = j then some 1 else some 0)) [fun _ => 1, fun _ => 0] none mmlConfig (1 / 4) 1 0 = .ok e ∧
    (∀ b : Fin 2 → ℝ, IsScorer ((⟨2, List.ofFn b⟩ : OnePL).scorer) [2, 2] fun θ => tableProb ((⟨2, List.ofFn b⟩ : OnePL).probs (θ 0))) ∧
    ∀ b : Fin 2 → ℝ, PositiveProbs (fun θ : Fin 1 → ℝ => tableProb ((⟨2, List.ofFn b⟩ : OnePL).probs (θ 0))) [2, 2] := by
  have hsc : ∀ b : Fin 2 → ℝ, IsScorer ((⟨2, List.ofFn b⟩ : OnePL).scorer) [2, 2] fun θ => tableProb ((⟨2, List.ofFn b⟩ : OnePL).probs (θ 0)) :=
    fun b => OnePL.isScorer ⟨2, List.ofFn b⟩ (by simp [OnePL.WF]) (by norm_num)
  have hp : ∀ b : Fin 2 → ℝ, PositiveProbs (fun θ : Fin 1 → ℝ => tableProb ((⟨2, List.ofFn b⟩ : OnePL).probs (θ 0))) [2, 2] :=
    fun b => (OnePL.logitModel ⟨2, List.ofFn b⟩ (by simp [OnePL.WF])).pos
  suffices h : ∃ e, jmlFit (fun b : Fin 2 → ℝ => (⟨2, List.ofFn b⟩ : OnePL).scorer) (fun _ _ _ s => s) 2 [2, 2] none
      (rowsOf 2 2 fun i j => codeOf (if i = j then some 1 else some 0)) [fun _ => 1, fun _ => 0] none mmlConfig (1 / 4) 1 0 = .ok e by
    obtain ⟨e, he⟩ := h
    exact ⟨e, he, hsc, hp⟩
  have hy : ∀ i, i < 2 → ValidResponses [2, 2] fun j => if i = j then some 1 else some 0 := by
    intro i _ j c hc hm
    obtain ⟨_, rfl⟩ := replicate_getElem? 2 j 2 c hc
    dsimp only
    split_ifs
    · exact ⟨1, rfl, by norm_num⟩
    · exact ⟨0, rfl, by norm_num⟩
  have hloss := C111_objective (cats := [2, 2]) (fun b : Fin 2 → ℝ => (⟨2, List.ofFn b⟩ : OnePL).scorer) (fun _ _ _ s => s) 0 (hsc 0) 2
    (fun i j => if i = j then some 1 else some 0) hy (fun i _ => if i = 0 then 1 else 0) 2 none (fun _ _ => 0) _ rfl [0, 1] (by simp)
    (fun i hi => (observedLikelihood_pos (hp 0) _ (hy i (by simp at hi; omega)) _).ne') 0
  unfold jmlFit
  rw [if_neg (by simp [rowsOf])]
  rw [show (Dataset.init 2 (rowsOf 2 2 fun i j => codeOf (if i = j then some 1 else some 0)) false (some [2, 2]) none none fun _ _ => 0).1
    = .ok _ from rfl, bind_ok]
  rw [if_neg (by simp [rowsOf])]
  have hth : ([fun _ => 1, fun _ => 0] : Thetas 1) = (List.range 2).map fun i _ => if i = 0 then 1 else 0 := rfl
  have hb : loaderBatches ((none : Option ℕ).getD (rowsOf 2 2 fun i j => codeOf (if i = j then some 1 else some 0)).length)
      (List.range (rowsOf 2 2 fun i j => codeOf (if i = j then some 1 else some 0)).length) = [[0, 1]] := by
    rw [show (rowsOf 2 2 fun i j => codeOf (if i = j then some 1 else some 0)).length = 2 by simp [rowsOf]]
    exact (C111_epoch (d := 1) (fun _ _ _ => 1) 1 2 (fun _ _ => some 0) (fun _ _ => 0) 2 (by norm_num)).2.2.2 (by norm_num)
  rw [hb, hth]
  have hrun : ∀ T : Trainer ((Fin 2 → ℝ) × Thetas 1), ∀ st x, T.loss st.history.length [0, 1] st.params = .ok x →
      ∃ st', jmlEpochs T mmlConfig [[0, 1]] 1 st = .ok st' := by
    intro T st x hx
    simp only [jmlEpochs, jmlBatches, trainIteration, hx, bind_ok, pure, Except.pure, ite_self]
    exact ⟨_, rfl⟩
  obtain ⟨st', hst'⟩ := hrun _ (LoopState.start (1 / 4) (0, (List.range 2).map fun i _ => if i = 0 then 1 else 0)) _ hloss
  refine ⟨st'.final, ?_⟩
  erw [hst']

/-! ## When there are estimates -/

/-- Moving a group that is above the others further up lowers the loss. -/
theorem above_moves {N J : ℕ} {y : ℕ → ℕ → Cell} {S T : ℕ → Prop} (h : Above N J y S T) (t b : ℕ → ℝ) :
    ∃ t' b' : ℕ → ℝ, raschLoss N J y t' b' ≤ raschLoss N J y t b ∧
      (∀ i, (S i → t' i = t i + 1) ∧ (¬ S i → t' i = t i)) ∧ (∀ j, (T j → b' j = b j - 1) ∧ (¬ T j → b' j = b j)) ∧
      ∀ i, i < N → ∀ j, j < J → (S i ∧ ¬ T j ∧ y i j = some 1 ∨ ¬ S i ∧ T j ∧ y i j = some 0) → raschLoss N J y t' b' < raschLoss N J y t b := by
  classical
  refine ⟨fun i => if S i then t i + 1 else t i, fun j => if T j then b j - 1 else b j, ?_⟩
  have cell : ∀ i, i < N → ∀ j, j < J →
      answerLoss (y i j) ((if S i then t i + 1 else t i) + if T j then b j - 1 else b j) ≤ answerLoss (y i j) (t i + b j) ∧
      ((S i ∧ ¬ T j ∧ y i j = some 1 ∨ ¬ S i ∧ T j ∧ y i j = some 0) →
        answerLoss (y i j) ((if S i then t i + 1 else t i) + if T j then b j - 1 else b j) < answerLoss (y i j) (t i + b j)) := by
    intro i hi j hj
    by_cases hS : S i <;> by_cases hT : T j
    · simp only [hS, hT, if_true]
      rw [show t i + 1 + (b j - 1) = t i + b j by ring]
      exact ⟨le_rfl, by tauto⟩
    · simp only [hS, hT, if_true, if_false]
      have h0 := h.passed i hi hS j hj hT
      unfold answerLoss
      split_ifs with h1
      · have := wrongLoss_strictMono (show -(t i + 1 + b j) < -(t i + b j) by linarith)
        exact ⟨this.le, fun _ => this⟩
      · exact ⟨le_rfl, by tauto⟩
    · simp only [hS, hT, if_true, if_false]
      have h1 := h.failed i hi hS j hj hT
      unfold answerLoss
      rw [if_neg h1, if_neg h1]
      split_ifs with h0
      · have := wrongLoss_strictMono (show t i + (b j - 1) < t i + b j by linarith)
        exact ⟨this.le, fun _ => this⟩
      · exact ⟨le_rfl, by tauto⟩
    · simp only [hS, hT, if_false]
      exact ⟨le_rfl, by tauto⟩
  refine ⟨sum_le_sum fun i hi => sum_le_sum fun j hj => (cell i (mem_range.1 hi) j (mem_range.1 hj)).1, ?_, ?_, ?_⟩
  · intro i
    exact ⟨fun h => if_pos h, fun h => if_neg h⟩
  · intro j
    exact ⟨fun h => if_pos h, fun h => if_neg h⟩
  · intro i hi j hj hx
    refine sum_lt_sum (fun i hi => sum_le_sum fun j hj => (cell i (mem_range.1 hi) j (mem_range.1 hj)).1) ⟨i, mem_range.2 hi, ?_⟩
    exact sum_lt_sum (fun j hj => (cell i hi j (mem_range.1 hj)).1) ⟨j, mem_range.2 hj, (cell i hi j hj).2 hx⟩

/-- C111: if the joint loss has a minimum, everybody who answered something has a right and a wrong answer, and every item that was
answered was answered rightly by somebody and wrongly by somebody. -/
theorem C111_extreme (m : OnePL) (hwf : m.WF) (N : ℕ) (y : ℕ → ℕ → Cell)
    (hy : ∀ i, i < N → ValidResponses (List.replicate m.items 2) (y i)) (θ : ℕ → Fin 1 → ℝ) (h : IsJointMinimum m N y θ)
    (i : ℕ) (hi : i < N) (j : ℕ) (hj : j < m.items) (hobs : cellMissing (y i j) = false) :
    ((∃ k, k < m.items ∧ y i k = some 1) ∧ ∃ k, k < m.items ∧ y i k = some 0) ∧
    (∃ k, k < N ∧ y k j = some 1) ∧ ∃ k, k < N ∧ y k j = some 0 := by
  rw [isJointMinimum_iff m hwf N y hy] at h
  have hcell : y i j = some 1 ∨ y i j = some 0 := by
    rcases valid_binary (hy i hi) j hj with h | h
    · rw [h.1] at hobs; cases hobs
    · exact h
  have key : ∀ S T : ℕ → Prop, Above N m.items y S T → ¬ (S i ∧ ¬ T j ∧ y i j = some 1 ∨ ¬ S i ∧ T j ∧ y i j = some 0) := by
    intro S T hab hx
    obtain ⟨t', b', _, _, _, hlt⟩ := above_moves hab (fun i => θ i 0) fun j => m.itemParameters.getD j 0
    exact absurd (hlt i hi j hj hx) (not_lt.2 (h t' b'))
  refine ⟨⟨?_, ?_⟩, ?_, ?_⟩ <;> by_contra hcon <;> push Not at hcon
  · have h0 := hcell.resolve_left (hcon j hj)
    refine key (fun k => k ≠ i) (fun _ => True) ⟨fun _ _ _ _ _ hT => absurd trivial hT, ?_⟩ (Or.inr ⟨by simp, trivial, h0⟩)
    intro i' _ hS k hk _
    rw [not_not.1 hS]
    exact hcon k hk
  · have h1 := hcell.resolve_right (hcon j hj)
    refine key (fun k => k = i) (fun _ => False) ⟨?_, fun _ _ _ _ _ hT => hT.elim⟩ (Or.inl ⟨rfl, not_false, h1⟩)
    rintro i' _ rfl k hk _
    exact hcon k hk
  · have h0 := hcell.resolve_left (hcon i hi)
    refine key (fun _ => False) (fun k => k = j) ⟨fun _ _ hS => hS.elim, ?_⟩ (Or.inr ⟨not_false, rfl, h0⟩)
    rintro i' hi' _ k _ rfl
    exact hcon i' hi'
  · have h1 := hcell.resolve_right (hcon i hi)
    refine key (fun _ => True) (fun k => k ≠ j) ⟨?_, fun _ _ hS => absurd trivial hS⟩ (Or.inl ⟨trivial, by simp, h1⟩)
    intro i' hi' _ k _ hT
    rw [not_not.1 hT]
    exact hcon i' hi'

theorem raschLoss_cell (N J : ℕ) (y : ℕ → ℕ → Cell) (t b : ℕ → ℝ) (i j : ℕ) (hi : i < N) (hj : j < J) :
    answerLoss (y i j) (t i + b j) ≤ raschLoss N J y t b :=
  (single_le_sum (f := fun j => answerLoss (y i j) (t i + b j)) (fun _ _ => answerLoss_nonneg _ _) (mem_range.2 hj)).trans
    (single_le_sum (f := fun i => ∑ j ∈ range J, answerLoss (y i j) (t i + b j))
      (fun _ _ => sum_nonneg fun _ _ => answerLoss_nonneg _ _) (mem_range.2 hi))

/-- With well connected data a bounded loss bounds the differences between all abilities and difficulties. -/
theorem connected_bounds {N J : ℕ} {y : ℕ → ℕ → Cell} (hN : 0 < N) (h : WellConnected N J y) (C : ℝ) :
    ∃ K, ∀ t b : ℕ → ℝ, raschLoss N J y t b ≤ C → (∀ i, i < N → |t i - t 0| ≤ K) ∧ ∀ j, j < J → |b j + t 0| ≤ K := by
  have right : ∀ t b : ℕ → ℝ, raschLoss N J y t b ≤ C → ∀ i, i < N → ∀ j, j < J → y i j = some 1 → -(t i + b j) ≤ C := by
    intro t b hC i hi j hj h1
    have := raschLoss_cell N J y t b i j hi hj
    rw [h1, answerLoss, if_pos rfl] at this
    linarith [wrongLoss_lt (-(t i + b j))]
  have wrong : ∀ t b : ℕ → ℝ, raschLoss N J y t b ≤ C → ∀ i, i < N → ∀ j, j < J → y i j = some 0 → t i + b j ≤ C := by
    intro t b hC i hi j hj h0
    have := raschLoss_cell N J y t b i j hi hj
    rw [h0, answerLoss, if_neg (by simp), if_pos rfl] at this
    linarith [wrongLoss_lt (t i + b j)]
  -- below somebody not far above respondent 0 there is nobody far above respondent 0
  have hup : (∀ i, i < N → ∃ K, ∀ t b : ℕ → ℝ, raschLoss N J y t b ≤ C → t i - t 0 ≤ K) ∧
      ∀ j, j < J → ∃ K, ∀ t b : ℕ → ℝ, raschLoss N J y t b ≤ C → -(b j + t 0) ≤ K := by
    have := h (fun i => ¬ ∃ K, ∀ t b : ℕ → ℝ, raschLoss N J y t b ≤ C → t i - t 0 ≤ K)
      (fun j => ¬ ∃ K, ∀ t b : ℕ → ℝ, raschLoss N J y t b ≤ C → -(b j + t 0) ≤ K) ⟨?_, ?_⟩
    · rcases this with this | this
      · exact absurd ⟨0, fun t b _ => by simp⟩ (this.1 0 hN)
      · exact ⟨fun i hi => not_not.1 (this.1 i hi), fun j hj => not_not.1 (this.2 j hj)⟩
    · intro i hi hS j hj hT h0
      obtain ⟨K, hK⟩ := not_not.1 hT
      exact hS ⟨K + C, fun t b hC => by linarith [hK t b hC, wrong t b hC i hi j hj h0]⟩
    · intro i hi hS j hj hT h1
      obtain ⟨K, hK⟩ := not_not.1 hS
      exact hT ⟨K + C, fun t b hC => by linarith [hK t b hC, right t b hC i hi j hj h1]⟩
  have hdown : (∀ i, i < N → ∃ K, ∀ t b : ℕ → ℝ, raschLoss N J y t b ≤ C → -(t i - t 0) ≤ K) ∧
      ∀ j, j < J → ∃ K, ∀ t b : ℕ → ℝ, raschLoss N J y t b ≤ C → b j + t 0 ≤ K := by
    have := h (fun i => ∃ K, ∀ t b : ℕ → ℝ, raschLoss N J y t b ≤ C → -(t i - t 0) ≤ K)
      (fun j => ∃ K, ∀ t b : ℕ → ℝ, raschLoss N J y t b ≤ C → b j + t 0 ≤ K) ⟨?_, ?_⟩
    · rcases this with this | this
      · exact this
      · exact absurd ⟨0, fun t b _ => by simp⟩ (this.1 0 hN)
    · rintro i hi ⟨K, hK⟩ j hj hT h0
      exact hT ⟨K + C, fun t b hC => by linarith [hK t b hC, wrong t b hC i hi j hj h0]⟩
    · rintro i hi hS j hj ⟨K, hK⟩ h1
      exact hS ⟨K + C, fun t b hC => by linarith [hK t b hC, right t b hC i hi j hj h1]⟩
  have merge : ∀ (n : ℕ) (f : ℕ → (ℕ → ℝ) → (ℕ → ℝ) → ℝ), (∀ i, i < n → ∃ K, ∀ t b : ℕ → ℝ, raschLoss N J y t b ≤ C → f i t b ≤ K) →
      ∃ K, ∀ t b : ℕ → ℝ, raschLoss N J y t b ≤ C → ∀ i, i < n → f i t b ≤ K := by
    intro n f
    induction n with
    | zero => intro _; exact ⟨0, fun _ _ _ i hi => absurd hi (Nat.not_lt_zero i)⟩
    | succ n ih =>
      intro hf
      obtain ⟨K, hK⟩ := ih fun i hi => hf i (by omega)
      obtain ⟨K', hK'⟩ := hf n (by omega)
      refine ⟨max K K', fun t b hC i hi => ?_⟩
      rcases Nat.lt_succ_iff_lt_or_eq.1 hi with h | rfl
      · exact (hK t b hC i h).trans (le_max_left _ _)
      · exact (hK' t b hC).trans (le_max_right _ _)
  obtain ⟨K1, h1⟩ := merge N (fun i t _ => t i - t 0) hup.1
  obtain ⟨K2, h2⟩ := merge J (fun j t b => -(b j + t 0)) hup.2
  obtain ⟨K3, h3⟩ := merge N (fun i t _ => -(t i - t 0)) hdown.1
  obtain ⟨K4, h4⟩ := merge J (fun j t b => b j + t 0) hdown.2
  refine ⟨max (max K1 K2) (max K3 K4), fun t b hC => ⟨fun i hi => abs_le'.2 ⟨?_, ?_⟩, fun j hj => abs_le'.2 ⟨?_, ?_⟩⟩⟩
  · exact (h1 t b hC i hi).trans ((le_max_left _ _).trans (le_max_left _ _))
  · exact (h3 t b hC i hi).trans ((le_max_left _ _).trans (le_max_right _ _))
  · exact (h4 t b hC j hj).trans ((le_max_right _ _).trans (le_max_right _ _))
  · exact (h2 t b hC j hj).trans ((le_max_right _ _).trans (le_max_left _ _))

/-- Well connected data have a joint minimum. -/
theorem connected_minimum {N J : ℕ} {y : ℕ → ℕ → Cell} (hN : 0 < N) (h : WellConnected N J y) :
    ∃ t b : ℕ → ℝ, ∀ t' b', raschLoss N J y t b ≤ raschLoss N J y t' b' := by
  obtain ⟨K, hK⟩ := connected_bounds hN h (raschLoss N J y 0 0)
  -- zero outside the data, so that the parameters live in a compact box
  let box : Set (ℕ → ℝ) := Set.pi Set.univ fun _ => Set.Icc (-K) K
  have hbox : IsCompact box := isCompact_univ_pi fun _ => isCompact_Icc
  have h0 := hK 0 0 le_rfl
  have hK0 : 0 ≤ K := by simpa using h0.1 0 hN
  have zero_mem : (0 : ℕ → ℝ) ∈ box := fun _ _ => ⟨by simpa using hK0, by simpa using hK0⟩
  have hcont : Continuous fun p : (ℕ → ℝ) × (ℕ → ℝ) => raschLoss N J y p.1 p.2 := by
    unfold raschLoss
    refine continuous_finsetSum _ fun i _ => continuous_finsetSum _ fun j _ => (answerLoss_continuous _).comp ?_
    exact ((continuous_apply i).comp continuous_fst).add ((continuous_apply j).comp continuous_snd)
  obtain ⟨p, hp, hmin⟩ := (hbox.prod hbox).exists_isMinOn ⟨(0, 0), zero_mem, zero_mem⟩ hcont.continuousOn
  refine ⟨p.1, p.2, fun t b => ?_⟩
  by_cases hle : raschLoss N J y t b ≤ raschLoss N J y 0 0
  · obtain ⟨hb1, hb2⟩ := hK t b hle
    let t' : ℕ → ℝ := fun i => if i < N then t i - t 0 else 0
    let b' : ℕ → ℝ := fun j => if j < J then b j + t 0 else 0
    have hmem : (t', b') ∈ box ×ˢ box := by
      refine ⟨fun i _ => ?_, fun j _ => ?_⟩
      · show t' i ∈ _
        by_cases hi : i < N
        · simp only [t', hi, if_true]; exact abs_le.1 (hb1 i hi)
        · simp only [t', hi, if_false]; exact ⟨by linarith, hK0⟩
      · show b' j ∈ _
        by_cases hj : j < J
        · simp only [b', hj, if_true]; exact abs_le.1 (hb2 j hj)
        · simp only [b', hj, if_false]; exact ⟨by linarith, hK0⟩
    refine (hmin hmem).trans (le_of_eq (raschLoss_congr fun i hi j hj => ?_))
    simp only [t', b', hi, hj, if_true]
    ring
  · exact (hmin (show ((0, 0) : (ℕ → ℝ) × (ℕ → ℝ)) ∈ box ×ˢ box from ⟨zero_mem, zero_mem⟩)).trans (not_le.1 hle).le

/-- C111: joint estimates of a one parameter logistic model exist and are unique up to a common shift if and only if the respondents
and items do not fall into two groups, one above the other. -/
theorem C111_exists_iff (J N : ℕ) (hN : 0 < N) (y : ℕ → ℕ → Cell) (hy : ∀ i, i < N → ValidResponses (List.replicate J 2) (y i)) :
    (∃ (m : OnePL) (θ : ℕ → Fin 1 → ℝ), m.WF ∧ m.items = J ∧ IsJointMinimum m N y θ ∧
      ∀ (m' : OnePL) (θ' : ℕ → Fin 1 → ℝ), m'.WF → m'.items = J → IsJointMinimum m' N y θ' →
        ∃ s : ℝ, (∀ i, i < N → θ' i 0 = θ i 0 + s) ∧ ∀ j, j < J → m'.itemParameters.getD j 0 = m.itemParameters.getD j 0 - s) ↔
    WellConnected N J y := by
  constructor
  · rintro ⟨m, θ, hwf, rfl, hmin, huniq⟩ S T hab
    rw [isJointMinimum_iff m hwf N y hy] at hmin
    obtain ⟨t', b', hle, hS, hT, _⟩ := above_moves hab (fun i => θ i 0) fun j => m.itemParameters.getD j 0
    obtain ⟨s, hs1, hs2⟩ := huniq (OnePL.ofIntercepts m.items b') (fun i _ => t' i) (OnePL.ofIntercepts_wf _ _) rfl (by
      rw [isJointMinimum_iff _ (OnePL.ofIntercepts_wf _ _) N y hy]
      intro t b
      refine le_trans (le_of_eq (raschLoss_congr fun i _ j hj => ?_)) (hle.trans (hmin t b))
      rw [OnePL.ofIntercepts_getD m.items _ j hj])
    have e2 : ∀ j, j < m.items → b' j = m.itemParameters.getD j 0 - s := fun j hj => by
      rw [← hs2 j hj, OnePL.ofIntercepts_getD _ _ j hj]
    by_cases hs : s = 0
    · right
      refine ⟨fun i hi h => ?_, fun j hj h => ?_⟩
      · have := hs1 i hi
        rw [(hS i).1 h] at this
        linarith
      · have := e2 j hj
        rw [(hT j).1 h] at this
        linarith
    · left
      refine ⟨fun i hi => ?_, fun j hj => ?_⟩ <;> by_contra h
      · have := hs1 i hi
        rw [(hS i).2 h] at this
        exact hs (by linarith)
      · have := e2 j hj
        rw [(hT j).2 h] at this
        exact hs (by linarith)
  · intro h
    obtain ⟨t, b, hmin⟩ := connected_minimum hN h
    refine ⟨OnePL.ofIntercepts J b, fun i _ => t i, OnePL.ofIntercepts_wf _ _, rfl, ?_, ?_⟩
    · rw [isJointMinimum_iff _ (OnePL.ofIntercepts_wf _ _) N y hy]
      intro t' b'
      refine le_trans (le_of_eq (raschLoss_congr fun i _ j hj => ?_)) (hmin t' b')
      rw [OnePL.ofIntercepts_getD J _ j hj]
    · rintro m' θ' hwf' rfl hmin'
      rw [isJointMinimum_iff m' hwf' N y hy] at hmin'
      have same : ∀ i, i < N → ∀ j, j < m'.items → y i j = some 1 ∨ y i j = some 0 → t i + b j = θ' i 0 + m'.itemParameters.getD j 0 := by
        intro i hi j hj hc
        by_contra hne
        have hlt : 2 * raschLoss N m'.items y (fun i => (t i + θ' i 0) / 2) (fun j => (b j + m'.itemParameters.getD j 0) / 2)
            < raschLoss N m'.items y t b + raschLoss N m'.items y (fun i => θ' i 0) fun j => m'.itemParameters.getD j 0 := by
          unfold raschLoss
          rw [mul_sum, ← sum_add_distrib]
          have cell : ∀ i j, 2 * answerLoss (y i j) ((t i + θ' i 0) / 2 + (b j + m'.itemParameters.getD j 0) / 2)
              ≤ answerLoss (y i j) (t i + b j) + answerLoss (y i j) (θ' i 0 + m'.itemParameters.getD j 0) := by
            intro i j
            have := (answerLoss_mid (y i j) (t i + b j) (θ' i 0 + m'.itemParameters.getD j 0)).1
            rwa [show (t i + b j + (θ' i 0 + m'.itemParameters.getD j 0)) / 2
              = (t i + θ' i 0) / 2 + (b j + m'.itemParameters.getD j 0) / 2 by ring] at this
          refine sum_lt_sum (fun i _ => ?_) ⟨i, mem_range.2 hi, ?_⟩
          · rw [mul_sum, ← sum_add_distrib]
            exact sum_le_sum fun j _ => cell i j
          · rw [mul_sum, ← sum_add_distrib]
            refine sum_lt_sum (fun j _ => cell i j) ⟨j, mem_range.2 hj, ?_⟩
            have := (answerLoss_mid (y i j) (t i + b j) (θ' i 0 + m'.itemParameters.getD j 0)).2 hc hne
            rwa [show (t i + b j + (θ' i 0 + m'.itemParameters.getD j 0)) / 2
              = (t i + θ' i 0) / 2 + (b j + m'.itemParameters.getD j 0) / 2 by ring] at this
        have := hmin (fun i => (t i + θ' i 0) / 2) fun j => (b j + m'.itemParameters.getD j 0) / 2
        have := hmin' (fun i => (t i + θ' i 0) / 2) fun j => (b j + m'.itemParameters.getD j 0) / 2
        linarith
      refine ⟨θ' 0 0 - t 0, ?_⟩
      have := h (fun i => θ' i 0 = t i + (θ' 0 0 - t 0)) (fun j => m'.itemParameters.getD j 0 = b j - (θ' 0 0 - t 0)) ⟨?_, ?_⟩
      · rcases this with this | this
        · exact ⟨this.1, fun j hj => by rw [OnePL.ofIntercepts_getD _ _ j hj]; exact this.2 j hj⟩
        · exact absurd (by ring) (this.1 0 hN)
      · intro i hi hS j hj hT h0
        have := same i hi j hj (Or.inr h0)
        exact hT (by linarith)
      · intro i hi hS j hj hT h1
        have := same i hi j hj (Or.inl h1)
        exact hS (by linarith)

/-- The claim that there are joint estimates for all data. -/
def JointMinimumExists : Prop :=
  ∀ (J N : ℕ), 0 < J → 0 < N → ∀ y : ℕ → ℕ → Cell, (∀ i, i < N → ValidResponses (List.replicate J 2) (y i)) →
    ∃ (m : OnePL) (θ : ℕ → Fin 1 → ℝ), m.WF ∧ m.items = J ∧ IsJointMinimum m N y θ

/-- C111: not if somebody solved everything: whatever score training has reached for them, a higher one has a smaller loss. -/
theorem C111_exists_false : ¬ JointMinimumExists := by
  intro claim
  have hy : ∀ i, i < 1 → ValidResponses (List.replicate 1 2) fun _ => some 1 := by
    intro i _ j c hc _
    obtain ⟨_, rfl⟩ := replicate_getElem? _ _ _ _ hc
    exact ⟨1, rfl, by norm_num⟩
  obtain ⟨m, θ, hwf, hit, hmin⟩ := claim 1 1 one_pos one_pos (fun _ _ => some 1) hy
  obtain ⟨⟨_, k, _, hk⟩, _⟩ := C111_extreme m hwf 1 (fun _ _ => some 1) (by rw [hit]; exact hy) θ hmin 0 one_pos 0 (by omega) rfl
  simp at hk

/-- Each of two respondents solved one of two items. -/
def exOneEach (i j : ℕ) : Cell := if i = j then some 1 else some 0

theorem exOneEach_valid (i : ℕ) : ValidResponses (List.replicate 2 2) (exOneEach i) := by
  intro j c hc _
  obtain ⟨_, rfl⟩ := replicate_getElem? _ _ _ _ hc
  unfold exOneEach
  split_ifs
  · exact ⟨1, rfl, by norm_num⟩
  · exact ⟨0, rfl, by norm_num⟩

theorem exOneEach_connected : WellConnected 2 2 exOneEach := by
  intro S T h
  have s0 : S 0 → T 1 := fun hs => by_contra fun ht => h.passed 0 (by norm_num) hs 1 (by norm_num) ht rfl
  have s1 : S 1 → T 0 := fun hs => by_contra fun ht => h.passed 1 (by norm_num) hs 0 (by norm_num) ht rfl
  have t0 : T 0 → S 0 := fun ht => by_contra fun hs => h.failed 0 (by norm_num) hs 0 (by norm_num) ht rfl
  have t1 : T 1 → S 1 := fun ht => by_contra fun hs => h.failed 1 (by norm_num) hs 1 (by norm_num) ht rfl
  have split : ∀ p : ℕ → Prop, (∀ i, i < 2 → p i) ↔ p 0 ∧ p 1 := fun p =>
    ⟨fun h => ⟨h 0 (by norm_num), h 1 (by norm_num)⟩, fun h i hi => by interval_cases i; exacts [h.1, h.2]⟩
  rw [split, split, split (fun i => ¬ S i), split (fun i => ¬ T i)]
  tauto

/-- The claim that the data determine the joint estimates of the items. -/
def JointUnique : Prop :=
  ∀ (N : ℕ) (y : ℕ → ℕ → Cell) (m m' : OnePL) (θ θ' : ℕ → Fin 1 → ℝ), m.WF → m'.WF → m.items = m'.items →
    (∀ i, i < N → ValidResponses (List.replicate m.items 2) (y i)) → IsJointMinimum m N y θ → IsJointMinimum m' N y θ' →
    m.itemParameters = m'.itemParameters

/-- C111: they do not: all scores and all intercepts can be shifted against each other. -/
theorem C111_unique_false : ¬ JointUnique := by
  intro claim
  obtain ⟨m, θ, hwf, hit, hmin, _⟩ := (C111_exists_iff 2 2 (by norm_num) exOneEach fun i _ => exOneEach_valid i).2 exOneEach_connected
  have hv : ∀ i, i < 2 → ValidResponses (List.replicate m.items 2) (exOneEach i) := fun i _ => by rw [hit]; exact exOneEach_valid i
  have hmin' : IsJointMinimum (OnePL.ofIntercepts m.items fun j => m.itemParameters.getD j 0 + 1) 2 exOneEach fun i _ => θ i 0 - 1 := by
    rw [isJointMinimum_iff _ (OnePL.ofIntercepts_wf _ _) _ _ hv]
    rw [isJointMinimum_iff m hwf _ _ hv] at hmin
    intro t b
    refine le_trans (le_of_eq (raschLoss_congr fun i _ j hj => ?_)) (hmin t b)
    rw [OnePL.ofIntercepts_getD m.items _ j hj]
    ring
  have := claim 2 exOneEach m _ θ _ hwf (OnePL.ofIntercepts_wf _ _) rfl hv hmin hmin'
  have := congrArg (fun l => l.getD 0 (0 : ℝ)) this
  rw [OnePL.ofIntercepts_getD m.items _ 0 (by omega)] at this
  linarith

/-- C111: in the two parameter logistic model the unit of the latent variable is free as well: stretching and shifting all scores, with
the slopes and intercepts changed to match, leaves the joint loss of every data set as it is. -/
theorem C111_units (m m' : TwoPL) (hwf : m.WF) (hwf' : m'.WF) (hitems : m'.items = m.items) (c s : ℝ) (hc : c ≠ 0)
    (hpar : ∀ j, j < m.items → ∃ w b : ℝ, m.itemParameters[j]? = some ([w], b) ∧ m'.itemParameters[j]? = some ([w / c], b - w * s / c))
    (N : ℕ) (y : ℕ → ℕ → Cell) (θ : ℕ → Fin 1 → ℝ) :
    jointLoss (fun θ : Fin 1 → ℝ => tableProb (m'.probs (List.ofFn θ))) m'.items N y (fun i k => c * θ i k + s)
      = jointLoss (fun θ : Fin 1 → ℝ => tableProb (m.probs (List.ofFn θ))) m.items N y θ := by
  unfold jointLoss observedLikelihood
  rw [hitems]
  refine congrArg _ (sum_congr rfl fun i _ => congrArg _ (prod_congr rfl fun j hj => ?_))
  obtain ⟨w, b, h1, h2⟩ := hpar j (mem_range.1 hj)
  dsimp only
  rw [tableProb_row _ _ _ _ (C03_twoPL_formula m' hwf' _ j _ _ h2), tableProb_row _ _ _ _ (C03_twoPL_formula m hwf _ j _ _ h1)]
  have : dot (List.ofFn fun k : Fin 1 => c * θ i k + s) [w / c] + (b - w * s / c) = dot (List.ofFn (θ i)) [w] + b := by
    simp only [dot_ofFn, Fintype.sum_unique, Fin.default_eq_zero, Fin.val_zero, List.getD_cons_zero]
    field_simp
    ring
  rw [this]

/-- Doubling the scores of two respondents and halving the slopes of two items. -/
example (y : ℕ → ℕ → Cell) (θ : ℕ → Fin 1 → ℝ) :
    jointLoss (fun θ : Fin 1 → ℝ => tableProb ((TwoPL.free 2 1 [1 / 2, 3 / 2] [0 - 1 * 1 / 2, 1 - 3 * 1 / 2]).probs (List.ofFn θ))) 2 2 y
        (fun i k => 2 * θ i k + 1)
      = jointLoss (fun θ : Fin 1 → ℝ => tableProb ((TwoPL.free 2 1 [1, 3] [0, 1]).probs (List.ofFn θ))) 2 2 y θ := by
  refine C111_units (TwoPL.free 2 1 [1, 3] [0, 1]) (TwoPL.free 2 1 [1 / 2, 3 / 2] [0 - 1 * 1 / 2, 1 - 3 * 1 / 2])
    (TwoPL.free_wf _ _ _ _ rfl rfl) (TwoPL.free_wf _ _ _ _ rfl rfl) rfl 2 1 two_ne_zero ?_ 2 y θ
  intro j hj
  have hj' : j < 2 := hj
  simp only [TwoPL.itemParameters, TwoPL.free_weights _ _ _ _ (show ([1, 3] : List ℝ).length = 2 * 1 from rfl),
    TwoPL.free_weights _ _ _ _ (show ([1 / 2, 3 / 2] : List ℝ).length = 2 * 1 from rfl)]
  interval_cases j
  · exact ⟨1, 0, rfl, rfl⟩
  · exact ⟨3, 1, rfl, rfl⟩

/-- Two respondents, the second with a missing answer, in one batch. -/
example : ∃ ds, (Dataset.init 2 (rowsOf 2 2 fun i j => codeOf (if i = 1 ∧ j = 1 then none else some 1)) false (some [2, 2]) none none
      fun _ _ => 0).1 = .ok ds ∧
    (jmlTrainer (fun m : OnePL => m.scorer) (fun _ _ _ s => s) ds).loss 0 [0, 1] (⟨2, [0, 1]⟩, (List.range 2).map fun _ _ => 0)
      = .ok (some (-(([0, 1] : List ℕ).map fun i => Real.log (observedLikelihood (fun θ : Fin 1 → ℝ => tableProb ((⟨2, [0, 1]⟩ : OnePL).probs (θ 0)))
          2 (fun j => if i = 1 ∧ j = 1 then none else some 1) fun _ => 0)).sum)) := by
  have hy : ∀ i, i < 2 → ValidResponses [2, 2] fun j => if i = 1 ∧ j = 1 then none else some 1 := by
    intro i _ j c hc hm
    obtain ⟨_, rfl⟩ := replicate_getElem? 2 j 2 c hc
    dsimp only at hm ⊢
    split_ifs at hm ⊢
    · simp [cellMissing] at hm
    · exact ⟨1, rfl, by norm_num⟩
  refine ⟨_, rfl, ?_⟩
  refine C111_objective (cats := [2, 2]) (fun m : OnePL => m.scorer) _ ⟨2, [0, 1]⟩ (OnePL.isScorer ⟨2, [0, 1]⟩ rfl (by norm_num)) 2
    (fun i j => if i = 1 ∧ j = 1 then none else some 1) hy (fun _ _ => 0) 2 none (fun _ _ => 0) _ rfl [0, 1] (by simp) ?_ 0
  intro i hi
  have := ((OnePL.logitModel ⟨2, [0, 1]⟩ rfl).logConcave.likelihood_pos (fun j => if i = 1 ∧ j = 1 then none else some 1)
    (hy i (by simp at hi; omega)) fun _ => 0).ne'
  exact this

example : ((loaderBatches 2 (List.range 5)).flatten = List.range 5) ∧ loaderBatches 5 (List.range 5) = [List.range 5] :=
  ⟨(C111_epoch (d := 1) (fun _ _ _ => 1) 1 5 (fun _ _ => some 0) (fun _ _ => 0) 2 (by norm_num)).1,
    (C111_epoch (d := 1) (fun _ _ _ => 1) 1 5 (fun _ _ => some 0) (fun _ _ => 0) 2 (by norm_num)).2.2.2 (by norm_num)⟩

example : ∃ (m : OnePL) (θ : ℕ → Fin 1 → ℝ), m.WF ∧ m.items = 2 ∧ IsJointMinimum m 2 exOneEach θ := by
  obtain ⟨m, θ, h1, h2, h3, _⟩ := (C111_exists_iff 2 2 (by norm_num) exOneEach fun i _ => exOneEach_valid i).2 exOneEach_connected
  exact ⟨m, θ, h1, h2, h3⟩

/-- With one more respondent who solved both, the estimates are no longer determined up to a shift. -/
example : ¬ WellConnected 3 2 fun i j => if i = 2 then some 1 else exOneEach i j := by
  intro h
  have hab : Above 3 2 (fun i j => if i = 2 then some 1 else exOneEach i j) (fun i => i = 2) fun _ => False := by
    refine ⟨?_, fun _ _ _ _ _ h => h.elim⟩
    rintro i _ rfl j _ _ hcon
    simp at hcon
  rcases h _ _ hab with h | h
  · exact absurd (h.1 0 (by norm_num)) (by norm_num)
  · exact h.1 2 (by norm_num) rfl

end Irt
