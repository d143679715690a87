import Verif.Model.JointFit
import Verif.Props.Joint
import Verif.Props.FitOrder

/-! # Property C150: joint maximum likelihood and the order of the data -/

namespace Irt
open Spec

/-! ## One batch -/

/-- With one batch per epoch the loop of the joint fit is that of the marginal fit. -/
theorem jmlEpochs_one {S : Type} (T : Trainer S) (c : TrainConfig) (b : List ℕ) (n : ℕ) (st : LoopState S) :
    jmlEpochs T c [b] n st = mmlEpochs T c b n st := by
  induction n generalizing st with
  | zero => rfl
  | succ n ih =>
    simp only [jmlEpochs, mmlEpochs, jmlBatches]
    cases h : trainIteration T c b st with
    | error e => rfl
    | ok st' =>
      simp only [bind_ok, pure, Except.pure, ite_self]
      split_ifs
      · rfl
      · exact ih st'

/-- With one batch per epoch the trainer is that of a fixed loss. -/
theorem mmlEpochs_batch {A : Type} (T : Trainer (FitState A)) (loss : List ℝ → List ℝ → Except PyErr Num) (rule : ℕ → EntryRule A)
    (c : TrainConfig) (b b' : List ℕ) (hl : ∀ i s, T.loss i b s = (gradientTrainer loss rule).loss i b' s)
    (hu : ∀ i lr s, T.update i b lr s = (gradientTrainer loss rule).update i b' lr s) (n : ℕ) (st : LoopState (FitState A)) :
    mmlEpochs T c b n st = mmlEpochs (gradientTrainer loss rule) c b' n st := by
  induction n generalizing st with
  | zero => rfl
  | succ n ih =>
    have hit : trainIteration T c b st = trainIteration (gradientTrainer loss rule) c b' st := by
      unfold trainIteration
      rw [hl, hu]
    unfold mmlEpochs
    rw [hit]
    congr 1
    funext st'
    split_ifs
    · rfl
    · exact ih st'

theorem flat_get {d : ℕ} (l : Thetas d) (i k : ℕ) (hk : k < d) : (l.flatMap List.ofFn)[i * d + k]? = l[i]?.map fun t => t ⟨k, hk⟩ := by
  induction l generalizing i with
  | nil => simp
  | cons t l ih =>
    rw [List.flatMap_cons]
    cases i with
    | zero => rw [List.getElem?_append_left (by simpa using hk)]; simp [hk]
    | succ i =>
      rw [List.getElem?_append_right (by rw [List.length_ofFn, Nat.succ_mul]; omega), List.length_ofFn,
        show (i + 1) * d + k - d = i * d + k by rw [Nat.succ_mul]; omega, ih]
      simp

theorem flat_length {d : ℕ} (l : Thetas d) : (l.flatMap List.ofFn).length = l.length * d := by
  induction l with
  | nil => simp
  | cons t l ih => rw [List.flatMap_cons, List.length_append, ih, List.length_ofFn, List.length_cons, Nat.succ_mul, add_comm]

theorem flat_corresponding {d N N' : ℕ} (τ : Fin N → Fin N') (l' l : Thetas d) (hl' : l'.length = N') (hl : l.length = N)
    (h : ∀ i, l'[(τ i : ℕ)]? = l[(i : ℕ)]?) : EntriesAt (rowPositions τ d) (l'.flatMap List.ofFn) (l.flatMap List.ofFn) := by
  refine ⟨by rw [flat_length, hl'], by rw [flat_length, hl], fun t => ?_⟩
  obtain ⟨⟨i, k⟩, rfl⟩ := finProdFinEquiv.surjective t
  rw [rowPositions_apply]
  simp only [finProdFinEquiv_apply_val]
  rw [show (k : ℕ) + d * (τ i : ℕ) = τ i * d + k by ring, show (k : ℕ) + d * (i : ℕ) = i * d + k by ring, flat_get _ _ _ k.isLt,
    flat_get _ _ _ k.isLt, h i]

theorem scoreRows_corresponding {d N N' : ℕ} (τ : Fin N → Fin N') (r' r : List ℝ) (h : EntriesAt (rowPositions τ d) r' r) (i : Fin N)
    (k : Fin d) : r'.getD ((τ i : ℕ) * d + k) 0 = r.getD ((i : ℕ) * d + k) 0 := by
  have := h.2.2 (finProdFinEquiv (i, k))
  rw [rowPositions_apply] at this
  simp only [finProdFinEquiv_apply_val] at this
  rw [List.getD_eq_getElem?_getD, List.getD_eq_getElem?_getD, show (τ i : ℕ) * d + k = k + d * (τ i : ℕ) by ring, this,
    show (i : ℕ) * d + k = k + d * (i : ℕ) by ring]

/-- The loss of a batch of all respondents is the joint loss. -/
theorem jmlLoss_eq {d : ℕ} (scorer : List ℝ → Scorer d) {cats : List ℕ} {P : (Fin d → ℝ) → ℕ → ℕ → ℝ} (params : List ℝ)
    (hm : IsScorer (scorer params) cats P) (hpos : PositiveProbs P cats) (N : ℕ) (y : ℕ → ℕ → Cell)
    (hy : ∀ i, i < N → ValidResponses cats (y i)) (width : ℕ) (mc : Option (List ℤ)) (draw : ℕ → ℕ → ℕ) (ds : Dataset)
    (hds : (Dataset.init width (rowsOf N cats.length fun i j => codeOf (y i j)) false (some cats) none mc draw).1 = .ok ds)
    (scores : List ℝ) :
    jmlLoss scorer ds N (List.range N) params scores
      = .ok (some (jointLoss P cats.length N y fun i (k : Fin d) => scores.getD (i * d + k) 0)) := by
  have h := C111_objective (S := List ℝ) scorer (fun _ _ _ s => s) params hm N y hy (fun i (k : Fin d) => scores.getD (i * d + k) 0) width mc draw ds
    hds (List.range N) (fun i hi => List.mem_range.1 hi)
    (fun i hi => (observedLikelihood_pos hpos (y i) (hy i (List.mem_range.1 hi)) _).ne') 0
  unfold jmlLoss scoreRows
  refine Eq.trans h ?_
  rw [jointLoss, Finset.sum_range, ← List.sum_ofFn, List.ofFn_eq_map, ← List.map_coe_finRange_eq_range, List.map_map]
  rfl

/-- The fit with the default batch size, as gradient steps on the joint loss. -/
theorem jmlGradientFit_eq {d : ℕ} {A : Type} (scorer : List ℝ → Scorer d) (rule : ℕ → EntryRule A) (a₀ : A) (width : ℕ) (cats : List ℕ)
    (mc : Option (List ℤ)) (N : ℕ) (hN : 0 < N) (y : ℕ → ℕ → Cell) (start : Thetas d) (hs : start.length = N) (c : TrainConfig) (lr : ℝ)
    (maxEpochs : ℕ) (params w r : List ℝ) :
    ∃ ds, (Dataset.init width (rowsOf N cats.length fun i j => codeOf (y i j)) false (some cats) none mc fun _ _ => 0).1 = .ok ds ∧
      (gradientFit (jmlLoss scorer ds N (List.range N)) rule a₀ c lr N maxEpochs params (start.flatMap List.ofFn) = .ok (w, r) →
      jmlGradientFit scorer rule a₀ width cats mc (rowsOf N cats.length fun i j => codeOf (y i j)) start none c lr maxEpochs params
        = .ok (w, scoreRows N d r)) := by
  have hlen : (rowsOf N cats.length fun i j => codeOf (y i j)).length = N := by simp [rowsOf]
  refine ⟨_, rfl, fun h => ?_⟩
  unfold jmlGradientFit
  rw [hlen, if_neg (by rw [not_not]; exact hs)]
  rw [show (Dataset.init width (rowsOf N cats.length fun i j => codeOf (y i j)) false (some cats) none mc fun _ _ => 0).1 = .ok _ from rfl,
    bind_ok, Option.getD_none, if_neg hN.ne',
    (C111_epoch (d := d) (fun _ _ _ => 1) cats.length N y (fun _ => 0) N hN).2.2.2 hN, jmlEpochs_one,
    mmlEpochs_batch (jmlGradientTrainer scorer _ N rule) (jmlLoss scorer _ N (List.range N)) rule c (List.range N) (List.range N)
      (fun _ _ => rfl) (fun _ _ _ => rfl)]
  unfold gradientFit at h
  split at h
  · cases h
  next st hst =>
    rw [hst]
    have h := Except.ok.inj h
    rw [Prod.mk.injEq] at h
    dsimp only
    rw [h.1, h.2]

/-! ## Respondents and items in another order -/

/-- C150, every model: for two data sets with the same answers in another order, possibly with respondents who answered nothing or items
nobody answered in one of them, the joint fit with the default batch size gives corresponding parameters and latent scores, whatever the
number of epochs. Parameters of items nobody answered and scores of respondents who answered nothing stay where they started. -/
theorem C150_corresponding {d : ℕ} {A : Type} (rule : ℕ → EntryRule A) (a₀ : A) (scorer scorer' : List ℝ → Scorer d) (cats cats' : List ℕ)
    (P P' : List ℝ → (Fin d → ℝ) → ℕ → ℕ → ℝ) {n n' : ℕ} (e : Fin n → Fin n') (he : Function.Injective e)
    (hsc : ∀ w : List ℝ, w.length = n → IsScorer (scorer w) cats (P w)) (hpos : ∀ w : List ℝ, w.length = n → PositiveProbs (P w) cats)
    (hsc' : ∀ w : List ℝ, w.length = n' → IsScorer (scorer' w) cats' (P' w))
    (hpos' : ∀ w : List ℝ, w.length = n' → PositiveProbs (P' w) cats') (σ : Fin cats.length → Fin cats'.length)
    (hσ : Function.Injective σ) (hP : ∀ w' w, EntriesAt e w' w → ∀ θ (j : Fin cats.length), P' w' θ (σ j) = P w θ j) (N N' : ℕ) (hN : 0 < N)
    (τ : Fin N → Fin N') (hτ : Function.Injective τ) (hq : QuietRule rule a₀ ∨ (Function.Surjective e ∧ Function.Surjective τ))
    (y y' : ℕ → ℕ → Cell) (hy : ∀ i, i < N → ValidResponses cats (y i))
    (hcats : ∀ j : Fin cats.length, cats'[(σ j : ℕ)]? = cats[(j : ℕ)]?) (hyy : SameAnswers τ σ y' y) (width width' : ℕ)
    (mc mc' : Option (List ℤ)) (c : TrainConfig) (lr : ℝ) (maxEpochs : ℕ) (w₀' w₀ : List ℝ) (hw : EntriesAt e w₀' w₀)
    (start' start : Thetas d) (hs' : start'.length = N') (hs : start.length = N) (hss : ∀ i, start'[(τ i : ℕ)]? = start[(i : ℕ)]?) :
    ∃ w' w t' t, jmlGradientFit scorer rule a₀ width cats mc (rowsOf N cats.length fun i j => codeOf (y i j)) start none c lr maxEpochs w₀
        = .ok (w, t) ∧
      jmlGradientFit scorer' rule a₀ width' cats' mc' (rowsOf N' cats'.length fun i j => codeOf (y' i j)) start' none c lr maxEpochs w₀'
        = .ok (w', t') ∧
      EntriesAt e w' w ∧ t.length = N ∧ t'.length = N' ∧ (∀ i, t'[(τ i : ℕ)]? = t[(i : ℕ)]?) ∧
      (∀ i' : Fin n', (∀ i, e i ≠ i') → w'[(i' : ℕ)]? = w₀'[(i' : ℕ)]?) ∧
      ∀ i' : Fin N', (∀ i, τ i ≠ i') → t'[(i' : ℕ)]? = start'[(i' : ℕ)]? := by
  have hN' : 0 < N' := (τ ⟨0, hN⟩).pos
  obtain ⟨ds, hds, hfit⟩ : ∃ ds, (Dataset.init width (rowsOf N cats.length fun i j => codeOf (y i j)) false (some cats) none mc fun _ _ => 0).1 = .ok ds ∧
      ∀ w r, gradientFit (jmlLoss scorer ds N (List.range N)) rule a₀ c lr N maxEpochs w₀ (start.flatMap List.ofFn) = .ok (w, r) →
      jmlGradientFit scorer rule a₀ width cats mc (rowsOf N cats.length fun i j => codeOf (y i j)) start none c lr maxEpochs w₀
        = .ok (w, scoreRows N d r) :=
    ⟨_, rfl, fun w r => by
      obtain ⟨ds, h1, h2⟩ := jmlGradientFit_eq scorer rule a₀ width cats mc N hN y start hs c lr maxEpochs w₀ w r
      cases h1
      exact h2⟩
  obtain ⟨ds', hds', hfit'⟩ : ∃ ds, (Dataset.init width' (rowsOf N' cats'.length fun i j => codeOf (y' i j)) false (some cats') none mc' fun _ _ => 0).1 = .ok ds ∧
      ∀ w r, gradientFit (jmlLoss scorer' ds N' (List.range N')) rule a₀ c lr N' maxEpochs w₀' (start'.flatMap List.ofFn) = .ok (w, r) →
      jmlGradientFit scorer' rule a₀ width' cats' mc' (rowsOf N' cats'.length fun i j => codeOf (y' i j)) start' none c lr maxEpochs w₀'
        = .ok (w, scoreRows N' d r) :=
    ⟨_, rfl, fun w r => by
      obtain ⟨ds, h1, h2⟩ := jmlGradientFit_eq scorer' rule a₀ width' cats' mc' N' hN' y' start' hs' c lr maxEpochs w₀' w r
      cases h1
      exact h2⟩
  have hy' : ∀ i, i < N' → ValidResponses cats' (y' i) := hyy.valid hcats hy
  have hloss : ∀ w' w r' r, EntriesAt e w' w → EntriesAt (rowPositions τ d) r' r →
      ∃ x, jmlLoss scorer ds N (List.range N) w r = .ok x ∧ jmlLoss scorer' ds' N' (List.range N') w' r' = .ok x := by
    intro w' w r' r h1 h2
    refine ⟨_, jmlLoss_eq scorer w (hsc w h1.2.1) (hpos w h1.2.1) N y hy width mc _ ds hds r, ?_⟩
    rw [jmlLoss_eq scorer' w' (hsc' w' h1.1) (hpos' w' h1.1) N' y' hy' width' mc' _ ds' hds' r']
    congr 2
    unfold jointLoss
    rw [Finset.sum_range, Finset.sum_range]
    rw [← Finset.sum_subset (Finset.subset_univ (Finset.univ.map ⟨τ, hτ⟩)), Finset.sum_map]
    · congr 1
      refine Finset.sum_congr rfl fun i _ => ?_
      congr 1
      have hθ : (fun k : Fin d => r'.getD (((⟨τ, hτ⟩ : Fin N ↪ Fin N') i : ℕ) * d + k) 0) = fun k : Fin d => r.getD (i * d + k) 0 :=
        funext fun k => scoreRows_corresponding τ r' r h2 i k
      dsimp only
      rw [hθ]
      exact observedLikelihood_corresponding σ hσ _ _ _ _ _ (hP w' w h1 _) (hyy.same i) (hyy.items (τ i))
    · intro i' _ hi'
      have hno : ∀ i, τ i ≠ i' := fun i h => hi' (by rw [Finset.mem_map]; exact ⟨i, Finset.mem_univ _, h⟩)
      rw [observedLikelihood_empty _ _ _ fun j' hj' => hyy.respondents i' ⟨j', hj'⟩ hno, Real.log_one]
  obtain ⟨w', w, r', r, h1, h2, h3, h4, h5, h6⟩ := gradientFit_corresponding _ _ rule a₀ c lr N N' maxEpochs e (rowPositions τ d) he
    (rowPositions_injective hτ d) (hq.imp_right fun h => ⟨h.1, rowPositions_surjective h.2 d⟩) hloss w₀' w₀ _ _ hw
    (flat_corresponding τ start' start hs' hs hss)
  refine ⟨w', w, _, _, hfit w r h1, hfit' w' r' h2, h3, by simp [scoreRows], by simp [scoreRows], fun i => ?_, h5, fun i' hi' => ?_⟩
  · unfold scoreRows
    rw [List.getElem?_map, List.getElem?_map, List.getElem?_range (τ i).isLt, List.getElem?_range i.isLt]
    simp only [Option.map_some]
    exact congrArg some (funext fun k => scoreRows_corresponding τ r' r h4 i k)
  · have hi := i'.isLt
    unfold scoreRows
    rw [List.getElem?_map, List.getElem?_range hi, Option.map_some, List.getElem?_eq_getElem (by rw [hs']; exact hi)]
    refine congrArg some (funext fun k => ?_)
    have := h6 (finProdFinEquiv (i', k)) (fun t ht => by
      have ht := finProdFinEquiv.injective ht
      rw [Prod.mk.injEq] at ht
      exact hi' _ ht.1)
    simp only [finProdFinEquiv_apply_val] at this
    rw [show (k : ℕ) + d * (i' : ℕ) = i' * d + k by ring, flat_get _ _ _ k.isLt,
      List.getElem?_eq_getElem (l := start') (by rw [hs']; exact hi)] at this
    rw [List.getD_eq_getElem?_getD, this]
    rfl

/-- C150, respondents: for every model whose log likelihood is that of its response probabilities, the joint fit with the default batch size
gives the same model and the same latent score for everyone when the rows of the data (and of the starting scores) are reordered. -/
theorem C150_respondents {d : ℕ} {A : Type} (rule : ℕ → EntryRule A) (a₀ : A) (scorer : List ℝ → Scorer d) (cats : List ℕ)
    (P : List ℝ → (Fin d → ℝ) → ℕ → ℕ → ℝ) (n : ℕ) (hsc : ∀ w : List ℝ, w.length = n → IsScorer (scorer w) cats (P w))
    (hpos : ∀ w : List ℝ, w.length = n → PositiveProbs (P w) cats) (N : ℕ) (hN : 0 < N) (τ : Equiv.Perm (Fin N)) (y y' : ℕ → ℕ → Cell)
    (hy : ∀ i, i < N → ValidResponses cats (y i)) (hyy : ∀ (i : Fin N) (j : Fin cats.length), y' (τ i) j = y i j) (width : ℕ)
    (mc : Option (List ℤ)) (c : TrainConfig) (lr : ℝ) (maxEpochs : ℕ) (w₀ : List ℝ) (hw : w₀.length = n) (start' start : Thetas d)
    (hs' : start'.length = N) (hs : start.length = N) (hss : ∀ i, start'[(τ i : ℕ)]? = start[(i : ℕ)]?) :
    ∃ w t' t, jmlGradientFit scorer rule a₀ width cats mc (rowsOf N cats.length fun i j => codeOf (y i j)) start none c lr maxEpochs w₀
        = .ok (w, t) ∧
      jmlGradientFit scorer rule a₀ width cats mc (rowsOf N cats.length fun i j => codeOf (y' i j)) start' none c lr maxEpochs w₀
        = .ok (w, t') ∧
      t.length = N ∧ t'.length = N ∧ ∀ i, t'[(τ i : ℕ)]? = t[(i : ℕ)]? := by
  obtain ⟨w', w, t', t, h1, h2, h3, h4, h5, h6, _, _⟩ := C150_corresponding rule a₀ scorer scorer cats cats P P (id : Fin n → Fin n)
    Function.injective_id hsc hpos hsc hpos id Function.injective_id (fun w' w h θ j => by rw [entriesAt_id h]; rfl) N N hN τ τ.injective
    (Or.inr ⟨Function.surjective_id, τ.surjective⟩) y y' hy (fun _ => rfl)
    ⟨fun i j => hyy i j, fun i' j' h => absurd rfl (h j'), fun i' j' h => absurd (τ.apply_symm_apply i') (h _)⟩ width width mc mc c lr maxEpochs
    w₀ w₀ (entriesAt_self _ _ hw) start' start hs' hs hss
  exact ⟨w, t', t, h1, by rw [h2, entriesAt_id h3], h4, h5, h6⟩

/-- C150, equal answers: with the default batch size, two respondents with the same answers and the same starting scores have the same latent
scores afterwards. -/
theorem C150_same_answers {d : ℕ} {A : Type} (rule : ℕ → EntryRule A) (a₀ : A) (scorer : List ℝ → Scorer d) (cats : List ℕ)
    (P : List ℝ → (Fin d → ℝ) → ℕ → ℕ → ℝ) (n : ℕ) (hsc : ∀ w : List ℝ, w.length = n → IsScorer (scorer w) cats (P w))
    (hpos : ∀ w : List ℝ, w.length = n → PositiveProbs (P w) cats) (N : ℕ) (y : ℕ → ℕ → Cell)
    (hy : ∀ i, i < N → ValidResponses cats (y i)) (width : ℕ) (mc : Option (List ℤ)) (c : TrainConfig) (lr : ℝ) (maxEpochs : ℕ)
    (w₀ : List ℝ) (hw : w₀.length = n) (start : Thetas d) (hs : start.length = N) (i₁ i₂ : Fin N)
    (hsame : ∀ j : Fin cats.length, y i₁ j = y i₂ j) (hstart : start[(i₁ : ℕ)]? = start[(i₂ : ℕ)]?) :
    ∃ w t, jmlGradientFit scorer rule a₀ width cats mc (rowsOf N cats.length fun i j => codeOf (y i j)) start none c lr maxEpochs w₀
        = .ok (w, t) ∧ t.length = N ∧ t[(i₁ : ℕ)]? = t[(i₂ : ℕ)]? := by
  have hsw : ∀ (i : Fin N) (j : Fin cats.length), y (Equiv.swap i₁ i₂ i) j = y i j := by
    intro i j
    rw [Equiv.swap_apply_def]
    split_ifs with h1 h2
    · rw [h1]; exact (hsame j).symm
    · rw [h2]; exact hsame j
    · rfl
  have hst : ∀ i : Fin N, start[(Equiv.swap i₁ i₂ i : ℕ)]? = start[(i : ℕ)]? := by
    intro i
    rw [Equiv.swap_apply_def]
    split_ifs with h1 h2
    · rw [h1]; exact hstart.symm
    · rw [h2]; exact hstart
    · rfl
  obtain ⟨w, t', t, h1, h2, h3, _, h5⟩ := C150_respondents rule a₀ scorer cats P n hsc hpos N i₁.pos (Equiv.swap i₁ i₂) y y hy hsw width mc c lr
    maxEpochs w₀ hw start start hs hs hst
  rw [h1] at h2
  have ht : t = t' := (Prod.mk.inj (Except.ok.inj h2)).2
  refine ⟨w, t, h1, h3, ?_⟩
  have := h5 i₁
  rw [Equiv.swap_apply_left, ← ht] at this
  exact this.symm

theorem mapM_id_eq {α : Type} (l : List (Option α)) (v : List α) (h : l.mapM id = some v) : l = v.map some := by
  induction l generalizing v with
  | nil => simp only [List.mapM_nil, pure, Option.some.injEq] at h; rw [← h]; rfl
  | cons a l ih =>
    cases a with
    | none => simp [List.mapM_cons] at h
    | some a =>
      cases hl : l.mapM id with
      | none => simp [List.mapM_cons, hl] at h
      | some u =>
        simp [List.mapM_cons, hl] at h
        rw [← h, List.map_cons, ih u hl]

theorem standardise_length (s : List Num) : (standardise s).length = s.length := by
  unfold standardise
  cases hv : s.mapM id with
  | none => simp
  | some v =>
    rw [mapM_id_eq s v hv]
    dsimp only
    split_ifs <;> simp

theorem standardise_same (s : List Num) (i₁ i₂ : ℕ) (h : s[i₁]? = s[i₂]?) : (standardise s)[i₁]? = (standardise s)[i₂]? := by
  unfold standardise
  cases hv : s.mapM id with
  | none => simp only [List.getElem?_map, h]
  | some v =>
    have hs : s = v.map some := mapM_id_eq s v hv
    have hv' : v[i₁]? = v[i₂]? := by
      rw [hs, List.getElem?_map, List.getElem?_map] at h
      exact Option.map_injective (Option.some_injective _) h
    dsimp only
    split_ifs <;> simp only [List.getElem?_map, hv']

/-- C150, equal answers and the default starting scores: with one latent variable, the default batch size and the standardised sum scores as
starting scores, respondents with the same answers have the same latent score after the fit. -/
theorem C150_same_answers_default {A : Type} (rule : ℕ → EntryRule A) (a₀ : A) (scorer : List ℝ → Scorer 1) (cats : List ℕ)
    (P : List ℝ → (Fin 1 → ℝ) → ℕ → ℕ → ℝ) (n : ℕ) (hsc : ∀ w : List ℝ, w.length = n → IsScorer (scorer w) cats (P w))
    (hpos : ∀ w : List ℝ, w.length = n → PositiveProbs (P w) cats) (N : ℕ) (y : ℕ → ℕ → Cell)
    (hy : ∀ i, i < N → ValidResponses cats (y i)) (width : ℕ) (mc : Option (List ℤ)) (c : TrainConfig) (lr : ℝ) (maxEpochs : ℕ)
    (w₀ : List ℝ) (hw : w₀.length = n) (noise : ℕ → ℕ → ℝ) (start : Thetas 1)
    (hstart : jmlStart 1 mc (rowsOf N cats.length fun i j => codeOf (y i j)) noise none = .ok (start.map fun t => [some (t 0)]))
    (i₁ i₂ : Fin N) (hsame : ∀ j : Fin cats.length, y i₁ j = y i₂ j) :
    ∃ w t, jmlGradientFit scorer rule a₀ width cats mc (rowsOf N cats.length fun i j => codeOf (y i j)) start none c lr maxEpochs w₀
        = .ok (w, t) ∧ t.length = N ∧ t[(i₁ : ℕ)]? = t[(i₂ : ℕ)]? := by
  have hlen : (rowsOf N cats.length fun i j => codeOf (y i j)).length = N := by simp [rowsOf]
  have hrow : ∀ i : Fin N, (rowsOf N cats.length fun i j => codeOf (y i j))[(i : ℕ)]? = some ((List.range cats.length).map fun j => codeOf (y i j)) := by
    intro i
    simp [rowsOf]
  have hst := Except.ok.inj hstart
  rw [hlen] at hst
  have hz := standardise_same ((rowsOf N cats.length fun i j => codeOf (y i j)).map (sumScoreRow mc)) i₁ i₂ (by
    rw [List.getElem?_map, List.getElem?_map, hrow, hrow]
    congr 2
    exact List.map_congr_left fun j hj => by rw [hsame ⟨j, List.mem_range.1 hj⟩])
  have hsl : (standardise ((rowsOf N cats.length fun i j => codeOf (y i j)).map (sumScoreRow mc))).length = N := by
    rw [standardise_length, List.length_map, hlen]
  have hsn : start.length = N := by
    have := congrArg List.length hst
    simp only [List.length_map, List.length_zip, List.length_range, hsl, min_self] at this
    exact this.symm
  refine C150_same_answers rule a₀ scorer cats P n hsc hpos N y hy width mc c lr maxEpochs w₀ hw start hsn i₁ i₂ hsame ?_
  have key : ∀ i : Fin N, ∃ z, (standardise ((rowsOf N cats.length fun i j => codeOf (y i j)).map (sumScoreRow mc)))[(i : ℕ)]? = some z ∧
      (start[(i : ℕ)]?).map (fun t => [some (t 0)]) = some [z] := by
    intro i
    obtain ⟨z, hz⟩ := getElem?_of_lt (standardise ((rowsOf N cats.length fun i j => codeOf (y i j)).map (sumScoreRow mc))) i (by rw [hsl]; exact i.isLt)
    refine ⟨z, hz, ?_⟩
    rw [← List.getElem?_map, ← hst, List.getElem?_map, (List.getElem?_zip_eq_some (z := ((i : ℕ), z))).2 ⟨List.getElem?_range i.isLt, hz⟩]
    simp
  obtain ⟨z₁, h1, h2⟩ := key i₁
  obtain ⟨z₂, h3, h4⟩ := key i₂
  rw [h1, h3] at hz
  rw [Option.some.inj hz] at h2
  have h5 := h2.trans h4.symm
  refine Option.map_injective ?_ h5
  intro a b hab
  have : a 0 = b 0 := by simpa using hab
  funext k
  rw [Subsingleton.elim k 0, this]

/-! ## One parameter logistic -/

/-- C150, one parameter logistic: fitted to the same answers with respondents and items in another order, corresponding items get the same
intercepts and corresponding respondents the same latent scores. Items nobody answered and respondents who answered nothing may be left out
(Adam): they keep their starting values and do not change the others. -/
theorem C150_onePL {A : Type} (rule : ℕ → EntryRule A) (a₀ : A) (items items' : ℕ) (hitems : 0 < items) (σ : Fin items → Fin items')
    (hσ : Function.Injective σ) (N N' : ℕ) (hN : 0 < N) (τ : Fin N → Fin N') (hτ : Function.Injective τ)
    (hq : QuietRule rule a₀ ∨ (Function.Surjective σ ∧ Function.Surjective τ)) (y y' : ℕ → ℕ → Cell)
    (hy : ∀ i, i < N → ValidResponses (List.replicate items 2) (y i)) (hyy : SameAnswers τ σ y' y) (width width' : ℕ)
    (c : TrainConfig) (lr : ℝ) (maxEpochs : ℕ) (b₀' b₀ : List ℝ) (hb : EntriesAt σ b₀' b₀)
    (start' start : Thetas 1) (hs' : start'.length = N') (hs : start.length = N) (hss : ∀ i, start'[(τ i : ℕ)]? = start[(i : ℕ)]?) :
    ∃ b' b t' t, jmlGradientFit (fun b => (⟨items, b⟩ : OnePL).scorer) rule a₀ width (List.replicate items 2) none
        (rowsOf N items fun i j => codeOf (y i j)) start none c lr maxEpochs b₀ = .ok (b, t) ∧
      jmlGradientFit (fun b => (⟨items', b⟩ : OnePL).scorer) rule a₀ width' (List.replicate items' 2) none
        (rowsOf N' items' fun i j => codeOf (y' i j)) start' none c lr maxEpochs b₀' = .ok (b', t') ∧
      (∀ j, b'[(σ j : ℕ)]? = b[(j : ℕ)]?) ∧ (∀ i, t'[(τ i : ℕ)]? = t[(i : ℕ)]?) ∧ b.length = items ∧ t.length = N ∧
      (∀ j' : Fin items', (∀ j, σ j ≠ j') → b'[(j' : ℕ)]? = b₀'[(j' : ℕ)]?) ∧
      ∀ i' : Fin N', (∀ i, τ i ≠ i') → t'[(i' : ℕ)]? = start'[(i' : ℕ)]? := by
  have hc : ∀ n : ℕ, (List.replicate n 2).length = n := fun n => List.length_replicate
  have hitems' : 0 < items' := (σ ⟨0, hitems⟩).pos
  have hprobs : ∀ b' b, EntriesAt σ b' b → ∀ (θ : Fin 1 → ℝ) (j : Fin items),
      ((⟨items', b'⟩ : OnePL).probs (θ 0))[(σ j : ℕ)]? = ((⟨items, b⟩ : OnePL).probs (θ 0))[(j : ℕ)]? := by
    intro b' b hb θ j
    obtain ⟨v, hv⟩ := getElem?_of_lt b j (by rw [hb.2.1]; exact j.isLt)
    rw [C03_onePL_formula (⟨items, b⟩ : OnePL) hb.2.1 (θ 0) j v hv,
      C03_onePL_formula (⟨items', b'⟩ : OnePL) hb.1 (θ 0) (σ j) v ((hb.2.2 j).trans hv)]
  obtain ⟨w', w, t', t, h1, h2, h3, h4, h5, h6, h7, h8⟩ := C150_corresponding rule a₀ (fun b => (⟨items, b⟩ : OnePL).scorer)
    (fun b => (⟨items', b⟩ : OnePL).scorer) (List.replicate items 2) (List.replicate items' 2)
    (fun b θ => tableProb ((⟨items, b⟩ : OnePL).probs (θ 0))) (fun b θ => tableProb ((⟨items', b⟩ : OnePL).probs (θ 0))) σ hσ
    (fun b h => OnePL.isScorer ⟨items, b⟩ h hitems) (fun b h => (OnePL.logitModel ⟨items, b⟩ h).pos)
    (fun b h => OnePL.isScorer ⟨items', b⟩ h hitems') (fun b h => (OnePL.logitModel ⟨items', b⟩ h).pos)
    (fun j => Fin.cast (hc items').symm (σ (Fin.cast (hc items) j))) (fun a b h => Fin.cast_injective _ (hσ (Fin.cast_injective _ h)))
    (fun b' b hb θ j => by
      funext r
      have := hprobs b' b hb θ (Fin.cast (hc items) j)
      dsimp only [tableProb, Fin.val_cast] at this ⊢
      rw [this])
    N N' hN τ hτ hq y y' hy (fun j => by
      rw [List.getElem?_replicate, List.getElem?_replicate, if_pos (by simpa using (σ (Fin.cast (hc items) j)).isLt),
        if_pos (by simpa using j.isLt)])
    ⟨fun i j => hyy.same i _, fun i' j' h => hyy.items i' (Fin.cast (hc items') j') fun j hj => h (Fin.cast (hc items).symm j) (by
        apply Fin.ext
        have := congrArg Fin.val hj
        simpa using this), fun i' j' h => hyy.respondents i' (Fin.cast (hc items') j') h⟩
    width width' none none c lr maxEpochs b₀' b₀ hb start' start hs' hs hss
  simp only [List.length_replicate] at h1 h2
  exact ⟨w', w, t', t, h1, h2, h3.2.2, h6, h3.2.1, h4, h7, h8⟩

/-! ## Smaller batches -/

theorem jmlEpochs_two {S : Type} (T : Trainer S) (c : TrainConfig) (b₀ b₁ : List ℕ) (lr : ℝ) (s : S) (x₀ x₁ : ℝ)
    (h₀ : T.loss 0 b₀ s = .ok (some x₀)) (h₁ : T.loss 1 b₁ (T.update 0 b₀ lr s) = .ok (some x₁)) (hx : x₁ < x₀) :
    ∃ st, jmlEpochs T c [b₀, b₁] 1 (LoopState.start lr s) = .ok st ∧ st.final = T.update 1 b₁ lr (T.update 0 b₀ lr s) := by
  have e0 : trainIteration T c b₀ (LoopState.start lr s) = .ok
      { params := T.update 0 b₀ lr s, sched := { lr := lr, best := some x₀, bad := 0 }, prevLr := lr, lrUpdates := 0,
        bestLoss := some x₀, bestState := some (T.update 0 b₀ lr s), history := [some x₀] } := by
    unfold trainIteration
    have : T.loss (LoopState.start lr s).history.length b₀ (LoopState.start lr s).params = .ok (some x₀) := h₀
    rw [this]
    simp [LoopState.start, Plateau.step, improves]
  have e1 : ∃ st, trainIteration T c b₁
      { params := T.update 0 b₀ lr s, sched := { lr := lr, best := some x₀, bad := 0 }, prevLr := lr, lrUpdates := 0,
        bestLoss := some x₀, bestState := some (T.update 0 b₀ lr s), history := [some x₀] } = .ok st ∧
      st.bestState = some (T.update 1 b₁ lr (T.update 0 b₀ lr s)) := by
    unfold trainIteration
    dsimp only [List.length_singleton]
    rw [h₁]
    refine ⟨_, rfl, ?_⟩
    simp [improves, hx]
  obtain ⟨st, h2, h3⟩ := e1
  refine ⟨st, ?_, by rw [LoopState.final, h3]; rfl⟩
  have hprev : (LoopState.start lr s).prevLr = lr := rfl
  simp only [jmlEpochs, jmlBatches, e0, hprev, bind_ok, ne_eq, not_true_eq_false, false_and, if_false, h2, pure, Except.pure, ite_self]

theorem hasDerivAt_neg_log_logistic (a x : ℝ) : HasDerivAt (fun x => -Real.log (logistic (a + x))) (-(1 - logistic (a + x))) x := by
  have e : (fun x => -Real.log (logistic (a + x))) = fun x => Real.log (1 + Real.exp (a + x)) - (a + x) := by
    funext x
    have := Real.exp_pos (a + x)
    rw [logistic, Real.log_div this.ne' (by positivity), Real.log_exp]
    ring
  have hp : 1 + Real.exp (a + x) ≠ 0 := by have := Real.exp_pos (a + x); positivity
  rw [e]
  have h := ((((hasDerivAt_id x).const_add a).exp.const_add 1).log hp).sub ((hasDerivAt_id x).const_add a)
  refine h.congr_deriv ?_
  unfold logistic
  simp only [id, mul_one]
  ring

theorem log_logistic_lt {x x' : ℝ} (h : x < x') : -Real.log (logistic x') < -Real.log (logistic x) := by
  have h1 := (logistic_pos' x).1
  have h2 : logistic x < logistic x' := by
    unfold logistic
    have := Real.exp_lt_exp.2 h
    have := Real.exp_pos x
    rw [div_lt_div_iff₀ (by positivity) (by positivity)]
    nlinarith
  exact neg_lt_neg (Real.log_lt_log h1 h2)

/-- Two respondents who both solved the only item. -/
noncomputable def exBothRight : Dataset :=
  ⟨rowsOf 2 1 fun _ _ => codeOf (some 1), missingMaskOf (rowsOf 2 1 fun _ _ => codeOf (some 1)), rowsOf 2 1 fun _ _ => codeOf (some 1)⟩

theorem bothRight_loss (i : ℕ) (hi : i < 2) (b r : List ℝ) (hb : b.length = 1) :
    jmlLoss (fun b => (⟨1, b⟩ : OnePL).scorer) exBothRight 2 [i] b r = .ok (some (-Real.log (logistic (r.getD i 0 + b.getD 0 0)))) := by
  have hv : ∀ i, i < 2 → ValidResponses [2] (fun _ : ℕ => some 1) := by
    intro i _ j c hc _
    obtain ⟨_, rfl⟩ := replicate_getElem? 1 j 2 c hc
    exact ⟨1, rfl, by norm_num⟩
  have hpos := (OnePL.logitModel ⟨1, b⟩ hb).pos
  have h := C111_objective (S := List ℝ) (cats := [2]) (fun b => (⟨1, b⟩ : OnePL).scorer) (fun _ _ _ s => s) b
    (OnePL.isScorer ⟨1, b⟩ hb (by norm_num)) 2 (fun _ _ => some 1) hv (fun i (k : Fin 1) => r.getD (i * 1 + k) 0) 1 none (fun _ _ => 0) exBothRight rfl
    [i] (by simpa using hi) (fun i hi => (observedLikelihood_pos hpos _ (hv 0 (by norm_num)) _).ne') 0
  refine Eq.trans h ?_
  have e := (onePLProb_eq ⟨1, b⟩ hb (fun k : Fin 1 => r.getD (i * 1 + k) 0) 0 (by norm_num)).1
  unfold onePLProb at e
  simp only [List.map_cons, List.map_nil, List.sum_cons, List.sum_nil, add_zero, observedLikelihood, List.length_singleton, Finset.prod_range_one]
  rw [if_neg (by simp [cellMissing])]
  have hresp : responseOf (some 1) = 1 := rfl
  rw [hresp, e]
  simp [OnePL.itemParameters]

/-- One step of the optimiser for the two respondents, written out. -/
theorem bothRight_step (rule : ℕ → EntryRule AdamState) (it i : ℕ) (hi : i < 2) (lr b r₀ r₁ : ℝ) (a a₀ a₁ : AdamState) (g : ℝ)
    (hg : g = -(1 - logistic ((if i = 0 then r₀ else r₁) + b))) :
    (jmlGradientTrainer (fun b => (⟨1, b⟩ : OnePL).scorer) exBothRight 2 rule).update it [i] lr ⟨[(b, a)], [(r₀, a₀), (r₁, a₁)]⟩
      = ⟨[((rule it lr a b g).2, (rule it lr a b g).1)],
          [((rule it lr a₀ r₀ (if i = 0 then g else 0)).2, (rule it lr a₀ r₀ (if i = 0 then g else 0)).1),
           ((rule it lr a₁ r₁ (if i = 0 then 0 else g)).2, (rule it lr a₁ r₁ (if i = 0 then 0 else g)).1)]⟩ := by
  have hp : partialAt (fun p => jmlLoss (fun b => (⟨1, b⟩ : OnePL).scorer) exBothRight 2 [i] p [r₀, r₁]) [b] 0 = g := by
    unfold partialAt
    have : (fun x => lossValue (jmlLoss (fun b => (⟨1, b⟩ : OnePL).scorer) exBothRight 2 [i] ([b].set 0 x) [r₀, r₁]))
        = fun x => -Real.log (logistic ((if i = 0 then r₀ else r₁) + x)) := by
      funext x
      rw [bothRight_loss i hi _ _ (by simp)]
      interval_cases i <;> simp [lossValue]
    rw [this, hg]
    exact (hasDerivAt_neg_log_logistic _ _).deriv
  have hq : ∀ k, k < 2 → partialAt (fun p => jmlLoss (fun b => (⟨1, b⟩ : OnePL).scorer) exBothRight 2 [i] [b] p) [r₀, r₁] k
      = if k = i then g else 0 := by
    intro k hk
    unfold partialAt
    split_ifs with hki
    · subst hki
      have : (fun x => lossValue (jmlLoss (fun b => (⟨1, b⟩ : OnePL).scorer) exBothRight 2 [k] [b] ([r₀, r₁].set k x)))
          = fun x => -Real.log (logistic (b + x)) := by
        funext x
        rw [bothRight_loss k hi _ _ (by simp)]
        interval_cases k <;> simp [lossValue, add_comm]
      rw [this, hg]
      have h2 : [r₀, r₁].getD k 0 = if k = 0 then r₀ else r₁ := by interval_cases k <;> simp
      rw [h2, add_comm _ b]
      exact (hasDerivAt_neg_log_logistic _ _).deriv
    · have : (fun x => lossValue (jmlLoss (fun b => (⟨1, b⟩ : OnePL).scorer) exBothRight 2 [i] [b] ([r₀, r₁].set k x)))
          = fun _ => -Real.log (logistic ((if i = 0 then r₀ else r₁) + b)) := by
        funext x
        rw [bothRight_loss i hi _ _ (by simp)]
        interval_cases k <;> interval_cases i <;> simp_all [lossValue]
      rw [this]
      exact deriv_const _ _
  simp only [jmlGradientTrainer, gradientTrainer, List.map_cons, List.map_nil, List.mapIdx_cons, List.mapIdx_nil, hp, zero_add,
    hq 0 (by norm_num), hq 1 (by norm_num)]
  interval_cases i <;> simp

/-- The latent scores of two respondents with the same answers and the same starting scores are the same after a joint fit with batches of
`size` respondents. -/
def SameScoresInBatches (size : ℕ) : Prop :=
  ∀ (items N : ℕ) (y : ℕ → ℕ → Cell) (c : TrainConfig) (lr : ℝ) (maxEpochs : ℕ) (b : List ℝ) (start : Thetas 1) (i₁ i₂ : ℕ) (w : List ℝ) (t : Thetas 1),
    (∀ i, i < N → ValidResponses (List.replicate items 2) (y i)) → b.length = items → start.length = N → i₁ < N → i₂ < N →
    (∀ j, j < items → y i₁ j = y i₂ j) → start[i₁]? = start[i₂]? →
    jmlGradientFit (fun b => (⟨items, b⟩ : OnePL).scorer) (fun _ => adamRule) {} items (List.replicate items 2) none
      (rowsOf N items fun i j => codeOf (y i j)) start (some size) c lr maxEpochs b = .ok (w, t) → t[i₁]? = t[i₂]?

theorem adam_bias : Real.sqrt (1 - 0.999 ^ 2) ≤ Real.sqrt 0.001 * (10 / 7) := by
  rw [show Real.sqrt 0.001 * (10 / 7) = Real.sqrt (0.001 * (10 / 7) ^ 2) by
    rw [Real.sqrt_mul (by norm_num), Real.sqrt_sq (by norm_num)]]
  exact Real.sqrt_le_sqrt (by norm_num)

/-- C150 with smaller batches is false: two respondents who solved the only item start at 0 and are in different batches. After one epoch
with the default learning rate the first is above 0.09 and the second below 0.08. -/
theorem C150_batches_false : ¬ SameScoresInBatches 1 := by
  intro h
  set g₀ : ℝ := -(1 - logistic 0) with hg₀
  have hl0 : logistic 0 = 1 / 2 := by unfold logistic; norm_num
  have hg₀' : g₀ = -(1 / 2) := by rw [hg₀, hl0]; norm_num
  set u := adamRule (1 / 10) {} 0 g₀ with hu
  set z := adamRule (1 / 10) {} 0 0 with hz
  have hu2 : 9 / 100 < u.2 := by
    have e : Real.sqrt (max 0 (0.999 * 0 + 0.001 * g₀ ^ 2)) / Real.sqrt (1 - 0.999 ^ (0 + 1)) = 1 / 2 := by
      rw [hg₀', max_eq_right (by norm_num), ← Real.sqrt_div (by norm_num), show (0.999 * 0 + 0.001 * (-(1 / 2) : ℝ) ^ 2) / (1 - 0.999 ^ (0 + 1)) = (1 / 2) ^ 2 by norm_num,
        Real.sqrt_sq (by norm_num)]
    have : u.2 = 0 - 1 / 10 / (1 - 0.9 ^ (0 + 1)) * (0.9 * 0 + 0.1 * g₀)
        / (Real.sqrt (max 0 (0.999 * 0 + 0.001 * g₀ ^ 2)) / Real.sqrt (1 - 0.999 ^ (0 + 1)) + 1e-8) := rfl
    rw [this, e, hg₀']
    norm_num
  have hz2 : z.2 = 0 := by
    have : z.2 = 0 - 1 / 10 / (1 - 0.9 ^ (0 + 1)) * (0.9 * 0 + 0.1 * 0)
        / (Real.sqrt (max 0 (0.999 * 0 + 0.001 * 0 ^ 2)) / Real.sqrt (1 - 0.999 ^ (0 + 1)) + 1e-8) := rfl
    rw [this]; norm_num
  set g₁ : ℝ := -(1 - logistic (z.2 + u.2)) with hg₁
  have hg₁n : g₁ < 0 := by rw [hg₁]; linarith [(logistic_pos' (z.2 + u.2)).2]
  set first := adamRule (1 / 10) u.1 u.2 0 with hfirst
  set second := adamRule (1 / 10) z.1 z.2 g₁ with hsecond
  have h1 : 9 / 100 < first.2 := by
    have hd : 0 < Real.sqrt (max u.1.maxSq (0.999 * u.1.avgSq + 0.001 * 0 ^ 2)) / Real.sqrt (1 - 0.999 ^ (u.1.step + 1)) + 1e-8 := by
      have := Real.sqrt_nonneg (max u.1.maxSq (0.999 * u.1.avgSq + 0.001 * 0 ^ 2))
      have := Real.sqrt_nonneg (1 - 0.999 ^ (u.1.step + 1))
      positivity
    have : first.2 = u.2 - 1 / 10 / (1 - 0.9 ^ (u.1.step + 1)) * (0.9 * u.1.avg + 0.1 * 0)
        / (Real.sqrt (max u.1.maxSq (0.999 * u.1.avgSq + 0.001 * 0 ^ 2)) / Real.sqrt (1 - 0.999 ^ (u.1.step + 1)) + 1e-8) := rfl
    have ha : u.1.avg = 0.9 * 0 + 0.1 * g₀ := rfl
    have hs : u.1.step = 1 := rfl
    have hle : 1 / 10 / (1 - 0.9 ^ (u.1.step + 1)) * (0.9 * u.1.avg + 0.1 * 0)
        / (Real.sqrt (max u.1.maxSq (0.999 * u.1.avgSq + 0.001 * 0 ^ 2)) / Real.sqrt (1 - 0.999 ^ (u.1.step + 1)) + 1e-8) ≤ 0 := by
      refine div_nonpos_of_nonpos_of_nonneg ?_ hd.le
      rw [ha, hs, hg₀']
      norm_num
    rw [this]
    linarith
  have h2 : second.2 < 8 / 100 := by
    have hs : z.1.step = 1 := rfl
    have ha : z.1.avg = 0 := by have : z.1.avg = 0.9 * 0 + 0.1 * 0 := rfl; rw [this]; norm_num
    have hq : z.1.avgSq = 0 := by have : z.1.avgSq = 0.999 * 0 + 0.001 * 0 ^ 2 := rfl; rw [this]; norm_num
    have hm : z.1.maxSq = 0 := by
      have : z.1.maxSq = max 0 (0.999 * 0 + 0.001 * 0 ^ 2) := rfl
      rw [this]; norm_num
    have e : second.2 = z.2 - 1 / 10 / (1 - 0.9 ^ (z.1.step + 1)) * (0.9 * z.1.avg + 0.1 * g₁)
        / (Real.sqrt (max z.1.maxSq (0.999 * z.1.avgSq + 0.001 * g₁ ^ 2)) / Real.sqrt (1 - 0.999 ^ (z.1.step + 1)) + 1e-8) := rfl
    rw [e, hs, ha, hq, hm, hz2]
    have hmax : max 0 (0.999 * 0 + 0.001 * g₁ ^ 2) = 0.001 * (-g₁) ^ 2 := by
      rw [max_eq_right (by positivity)]; ring
    rw [hmax, Real.sqrt_mul (by norm_num), Real.sqrt_sq (by linarith)]
    have hb := adam_bias
    have hs1 : 0 < Real.sqrt (1 - 0.999 ^ 2) := Real.sqrt_pos.2 (by norm_num)
    have hden : (-g₁) * (7 / 10) ≤ Real.sqrt 0.001 * -g₁ / Real.sqrt (1 - 0.999 ^ (1 + 1)) := by
      rw [show (1 + 1 : ℕ) = 2 from rfl, le_div_iff₀ hs1]
      nlinarith
    have hpos : 0 < Real.sqrt 0.001 * -g₁ / Real.sqrt (1 - 0.999 ^ (1 + 1)) + 1e-8 := by
      have : 0 < -g₁ * (7 / 10) := by linarith
      have : (0 : ℝ) < 1e-8 := by norm_num
      linarith
    have hgoal : 1 / 10 / (1 - 0.9 ^ (1 + 1)) * (0.9 * 0 + 0.1 * -g₁) / (Real.sqrt 0.001 * -g₁ / Real.sqrt (1 - 0.999 ^ (1 + 1)) + 1e-8) < 8 / 100 := by
      rw [div_lt_iff₀ hpos]
      have : (0 : ℝ) < 1e-8 := by norm_num
      norm_num at hden this ⊢
      linarith
    calc 0 - 1 / 10 / (1 - 0.9 ^ (1 + 1)) * (0.9 * 0 + 0.1 * g₁) / (Real.sqrt 0.001 * -g₁ / Real.sqrt (1 - 0.999 ^ (1 + 1)) + 1e-8)
        = 1 / 10 / (1 - 0.9 ^ (1 + 1)) * (0.9 * 0 + 0.1 * -g₁) / (Real.sqrt 0.001 * -g₁ / Real.sqrt (1 - 0.999 ^ (1 + 1)) + 1e-8) := by ring
      _ < 8 / 100 := hgoal
  set T := jmlGradientTrainer (fun b => (⟨1, b⟩ : OnePL).scorer) exBothRight 2 (fun _ => adamRule) with hT
  set s₀ : FitState AdamState := ⟨[(0, {})], [(0, {}), (0, {})]⟩ with hs₀
  have hstep0 : T.update 0 [0] (1 / 10) s₀ = ⟨[(u.2, u.1)], [(u.2, u.1), (z.2, z.1)]⟩ := by
    rw [hT, hs₀, bothRight_step (fun _ => adamRule) 0 0 (by norm_num) (1 / 10) 0 0 0 {} {} {} g₀ (by simp [hg₀])]
    simp [hu, hz]
  have hstep1 : T.update 1 [1] (1 / 10) (T.update 0 [0] (1 / 10) s₀)
      = ⟨[((adamRule (1 / 10) u.1 u.2 g₁).2, (adamRule (1 / 10) u.1 u.2 g₁).1)], [(first.2, first.1), (second.2, second.1)]⟩ := by
    rw [hstep0, hT, bothRight_step (fun _ => adamRule) 1 1 (by norm_num) (1 / 10) u.2 u.2 z.2 u.1 u.1 z.1 g₁ (by simp [hg₁])]
    simp [hfirst, hsecond]
  have hloss0 : T.loss 0 [0] s₀ = .ok (some (-Real.log (logistic 0))) := by
    have := bothRight_loss 0 (by norm_num) [0] [0, 0] rfl
    simp only [List.getD_cons_zero, add_zero] at this
    exact this
  have hloss1 : T.loss 1 [1] (T.update 0 [0] (1 / 10) s₀) = .ok (some (-Real.log (logistic (z.2 + u.2)))) := by
    rw [hstep0]
    exact bothRight_loss 1 (by norm_num) [u.2] [u.2, z.2] rfl
  obtain ⟨st, hrun, hfinal⟩ := jmlEpochs_two T { factor := 1 / 2, patience := 40, threshold := 1 / 10000, limit := 3 } [0] [1] (1 / 10) s₀ _ _ hloss0 hloss1
    (log_logistic_lt (by rw [hz2]; linarith))
  have hfit : jmlGradientFit (fun b => (⟨1, b⟩ : OnePL).scorer) (fun _ => adamRule) {} 1 (List.replicate 1 2) none
      (rowsOf 2 1 fun _ _ => codeOf (some 1)) [fun _ => 0, fun _ => 0] (some 1)
      { factor := 1 / 2, patience := 40, threshold := 1 / 10000, limit := 3 } (1 / 10) 1 [0]
      = .ok (st.final.weight.map Prod.fst, scoreRows 2 1 (st.final.rest.map Prod.fst)) := by
    unfold jmlGradientFit
    rw [if_neg (by simp [rowsOf])]
    rw [show (Dataset.init 1 (rowsOf 2 1 fun _ _ => codeOf (some 1)) false (some (List.replicate 1 2)) none none fun _ _ => 0).1 = .ok exBothRight from rfl,
      bind_ok, if_neg (by simp), show (rowsOf 2 1 fun _ _ => codeOf (some 1)).length = 2 by simp [rowsOf],
      show loaderBatches ((some 1).getD 2) (List.range 2) = [[0], [1]] by simp [loaderBatches, blocks, List.range_succ]]
    have hs : (⟨([0] : List ℝ).map fun v => (v, {}), (([fun _ => 0, fun _ => 0] : Thetas 1).flatMap List.ofFn).map fun v => (v, {})⟩ : FitState AdamState) = s₀ := by
      simp [hs₀]
    rw [hs, hrun]
  have hfin := h 1 2 (fun _ _ => some 1) _ _ _ _ _ 0 1 _ _ (by
    intro i _ j c hc _
    obtain ⟨_, rfl⟩ := replicate_getElem? 1 j 2 c hc
    exact ⟨1, rfl, by norm_num⟩) rfl rfl (by norm_num) (by norm_num) (fun _ _ => rfl) rfl hfit
  rw [hfinal, hstep1] at hfin
  simp only [scoreRows, List.map_cons, List.map_nil, List.range_succ, List.range_zero, List.nil_append, List.cons_append, List.getElem?_cons_zero,
    List.getElem?_cons_succ, Option.some.injEq] at hfin
  have := congrFun hfin 0
  simp at this
  linarith

/-! ## Instances -/

/-- Six respondents and four items with the default settings and ten epochs, and the same answers in reverse order with an item nobody
answered. -/
example : ∃ b' b t' t, jmlGradientFit (fun b => (⟨4, b⟩ : OnePL).scorer) (fun _ => adamRule) {} 4 (List.replicate 4 2) none
      (rowsOf 6 4 fun i j => codeOf (exTwoClusters i j)) ((List.range 6).map fun (i : ℕ) _ => (i : ℝ)) none
      { factor := 1 / 2, patience := 40, threshold := 1 / 10000, limit := 3 } (1 / 10) 10 (List.replicate 4 0) = .ok (b, t) ∧
    jmlGradientFit (fun b => (⟨5, b⟩ : OnePL).scorer) (fun _ => adamRule) {} 5 (List.replicate 5 2) none
      (rowsOf 6 5 fun i j => codeOf (exTurnedClusters i j)) ((List.range 6).map fun i _ => ((5 - i : ℕ) : ℝ)) none
      { factor := 1 / 2, patience := 40, threshold := 1 / 10000, limit := 3 } (1 / 10) 10 (List.replicate 5 0) = .ok (b', t') ∧
    b'[4]? = b[0]? ∧ b'[0]? = some 0 ∧ t'[5]? = t[0]? ∧ t'[1]? = t[4]? := by
  obtain ⟨b', b, t', t, h1, h2, h3, h4, _, _, h5, _⟩ := C150_onePL (fun _ => adamRule) {} 4 5 (by norm_num) _ exTurnedClusters_injective 6 6
    (by norm_num) _ Fin.rev_injective (Or.inl C113_adam_quiet) exTwoClusters exTurnedClusters (fun i _ => exTwoClusters_valid i)
    exTurnedClusters_same 4 5 { factor := 1 / 2, patience := 40, threshold := 1 / 10000, limit := 3 } (1 / 10) 10 (List.replicate 5 0)
    (List.replicate 4 0) (entriesAt_replicate _ _) ((List.range 6).map fun i _ => ((5 - i : ℕ) : ℝ)) ((List.range 6).map fun (i : ℕ) _ => (i : ℝ))
    (by simp) (by simp) (fun i => by
      have hi := i.isLt
      rw [List.getElem?_map, List.getElem?_map, List.getElem?_range (by simpa using i.rev.isLt), List.getElem?_range hi]
      simp only [Option.map_some, Fin.val_rev]
      rw [show 5 - (6 - ((i : ℕ) + 1)) = i by omega])
  refine ⟨b', b, t', t, h1, h2, h3 0, ?_, h4 0, h4 4⟩
  exact (h5 0 exTurnedClusters_first).trans rfl

/-- Two parameter logistic model with two latent variables: respondents 2 and 4 have the same answers and start at the same point. -/
example : ∃ w t, jmlGradientFit (fun w => (TwoPL.free 4 2 (w.take 8) (w.drop 8)).scorer 2) (fun _ => adamRule) {} 4 (List.replicate 4 2) none
      (rowsOf 6 4 fun i j => codeOf (exTwoClusters i j)) ((List.range 6).map fun i _ => if i % 2 = 0 then 1 else 0) none
      { factor := 1 / 2, patience := 40, threshold := 1 / 10000, limit := 3 } (1 / 10) 10 (List.replicate 8 1 ++ List.replicate 4 0) = .ok (w, t) ∧
    t.length = 6 ∧ t[2]? = t[4]? := by
  have hlen : ∀ w : List ℝ, w.length = 12 → (w.take 8).length = 4 * 2 ∧ (w.drop 8).length = 4 := fun w h => by simp [h]
  exact C150_same_answers (fun _ => adamRule) {} (fun w => (TwoPL.free 4 2 (w.take 8) (w.drop 8)).scorer 2) (List.replicate 4 2)
    (fun w θ => tableProb ((TwoPL.free 4 2 (w.take 8) (w.drop 8)).probs (List.ofFn θ))) 12
    (fun w h => (TwoPL.free 4 2 (w.take 8) (w.drop 8)).isScorer (TwoPL.free_wf 4 2 _ _ (hlen w h).1 (hlen w h).2) (by norm_num [TwoPL.free]) 2)
    (fun w h => (TwoPL.free 4 2 (w.take 8) (w.drop 8)).positive (TwoPL.free_wf 4 2 _ _ (hlen w h).1 (hlen w h).2) 2) 6 exTwoClusters
    (fun i _ => exTwoClusters_valid i) 4 none { factor := 1 / 2, patience := 40, threshold := 1 / 10000, limit := 3 } (1 / 10) 10 _ (by simp) _
    (by simp) 2 4 (fun j => by simp [exTwoClusters]) (by simp [List.range_succ])

/-- The same respondents with the default starting scores. -/
example : ∃ start : Thetas 1, jmlStart 1 none (rowsOf 6 4 fun i j => codeOf (exTwoClusters i j)) (fun _ _ => 0) none
      = .ok (start.map fun t => [some (t 0)]) ∧
    ∃ w t, jmlGradientFit (fun b => (⟨4, b⟩ : OnePL).scorer) (fun _ => adamRule) {} 4 (List.replicate 4 2) none
      (rowsOf 6 4 fun i j => codeOf (exTwoClusters i j)) start none
      { factor := 1 / 2, patience := 40, threshold := 1 / 10000, limit := 3 } (1 / 10) 10 (List.replicate 4 0) = .ok (w, t) ∧
    t.length = 6 ∧ t[2]? = t[4]? := by
  have hrows : (rowsOf 6 4 fun i j => codeOf (exTwoClusters i j)) = (rowsOf 6 4 fun i j =>
      if j < 2 then (if i % 2 = 0 then (1 : ℝ) else 0) else if i % 3 = 0 then 1 else 0).map fun r => r.map some := by
    unfold rowsOf
    rw [List.map_map]
    refine List.map_congr_left fun i _ => ?_
    simp only [Function.comp, List.map_map]
    refine List.map_congr_left fun j _ => ?_
    simp only [Function.comp, exTwoClusters, codeOf]
    split_ifs <;> simp
  obtain ⟨z, hz, _, _, _, h⟩ := C73_complete_partial (rowsOf 6 4 fun i j =>
      if j < 2 then (if i % 2 = 0 then (1 : ℝ) else 0) else if i % 3 = 0 then 1 else 0)
    ⟨[1, 1, 1, 1], by simp [rowsOf, List.range_succ], [0, 0, 0, 0], by simp [rowsOf, List.range_succ], by norm_num⟩
  have hst : jmlStart 1 none (rowsOf 6 4 fun i j => codeOf (exTwoClusters i j)) (fun _ _ => 0) none
      = .ok ((z.map fun x (_ : Fin 1) => x).map fun t => [some (t 0)]) := by
    rw [hrows, h]
    congr 1
    rw [List.map_map, show ((fun t : Fin 1 → ℝ => [some (t 0)]) ∘ fun x _ => x) = fun x => [some x] from rfl]
    have : z = (List.zip (List.range (rowsOf 6 4 fun i j =>
      if j < 2 then (if i % 2 = 0 then (1 : ℝ) else 0) else if i % 3 = 0 then 1 else 0).length) z).map Prod.snd := by
      rw [List.map_snd_zip (by rw [List.length_range, hz])]
    conv_rhs => rw [this, List.map_map]
    refine List.map_congr_left fun p _ => ?_
    simp
  refine ⟨_, hst, ?_⟩
  exact C150_same_answers_default (fun _ => adamRule) {} (fun b => (⟨4, b⟩ : OnePL).scorer) (List.replicate 4 2)
    (fun b θ => tableProb ((⟨4, b⟩ : OnePL).probs (θ 0))) 4 (fun b h => OnePL.isScorer ⟨4, b⟩ h (by norm_num))
    (fun b h => (OnePL.logitModel ⟨4, b⟩ h).pos) 6 exTwoClusters (fun i _ => exTwoClusters_valid i) 4 none
    { factor := 1 / 2, patience := 40, threshold := 1 / 10000, limit := 3 } (1 / 10) 10 _ (by simp) _ _ hst 2 4
    (fun j => by simp [exTwoClusters])

end Irt
