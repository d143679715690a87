import Verif.Props.JointOrder

/-! # Property C150 for models with slopes: two parameter logistic and generalized partial credit -/

namespace Irt
open Spec

/-- Positions in two different vectors written one after the other. -/
def joinPositions {n n' k k' : ℕ} (e : Fin n → Fin n') (f : Fin k → Fin k') : Fin (n + k) → Fin (n' + k') := fun i =>
  finSumFinEquiv (Sum.map e f (finSumFinEquiv.symm i))

theorem joinPositions_apply {n n' k k' : ℕ} (e : Fin n → Fin n') (f : Fin k → Fin k') (s : Fin n ⊕ Fin k) :
    joinPositions e f (finSumFinEquiv s) = finSumFinEquiv (Sum.map e f s) := by
  unfold joinPositions
  rw [Equiv.symm_apply_apply]

theorem joinPositions_injective {n n' k k' : ℕ} {e : Fin n → Fin n'} {f : Fin k → Fin k'} (he : Function.Injective e)
    (hf : Function.Injective f) : Function.Injective (joinPositions e f) := by
  intro a b h
  exact finSumFinEquiv.symm.injective (Sum.map_injective.2 ⟨he, hf⟩ (finSumFinEquiv.injective h))

theorem joinPositions_surjective {n n' k k' : ℕ} {e : Fin n → Fin n'} {f : Fin k → Fin k'} (he : Function.Surjective e)
    (hf : Function.Surjective f) : Function.Surjective (joinPositions e f) := by
  intro b
  obtain ⟨a, ha⟩ := Sum.map_surjective.2 ⟨he, hf⟩ (finSumFinEquiv.symm b)
  exact ⟨finSumFinEquiv a, by simp only [joinPositions, Equiv.symm_apply_apply, ha, Equiv.apply_symm_apply]⟩

theorem joinPositions_first {n n' k k' : ℕ} {e : Fin n → Fin n'} {f : Fin k → Fin k'} {r' r : List ℝ}
    (h : EntriesAt (joinPositions e f) r' r) : EntriesAt e (r'.take n') (r.take n) := by
  obtain ⟨h1, h2, h3⟩ := h
  refine ⟨by rw [List.length_take]; omega, by rw [List.length_take]; omega, fun j => ?_⟩
  have := h3 (finSumFinEquiv (Sum.inl j))
  rw [joinPositions_apply] at this
  simp only [Sum.map_inl, finSumFinEquiv_apply_left, Fin.val_castAdd] at this
  rw [List.getElem?_take_of_lt (e j).isLt, List.getElem?_take_of_lt j.isLt, this]

theorem joinPositions_second {n n' k k' : ℕ} {e : Fin n → Fin n'} {f : Fin k → Fin k'} {r' r : List ℝ}
    (h : EntriesAt (joinPositions e f) r' r) : EntriesAt f (r'.drop n') (r.drop n) := by
  obtain ⟨h1, h2, h3⟩ := h
  refine ⟨by rw [List.length_drop]; omega, by rw [List.length_drop]; omega, fun j => ?_⟩
  have := h3 (finSumFinEquiv (Sum.inr j))
  rw [joinPositions_apply] at this
  simp only [Sum.map_inr, finSumFinEquiv_apply_right, Fin.val_natAdd] at this
  rw [List.getElem?_drop, List.getElem?_drop, this]

theorem joinPositions_append {n n' k k' : ℕ} {e : Fin n → Fin n'} {f : Fin k → Fin k'} {w' w r' r : List ℝ} (hw : EntriesAt e w' w)
    (hr : EntriesAt f r' r) : EntriesAt (joinPositions e f) (w' ++ r') (w ++ r) := by
  refine ⟨by rw [List.length_append, hw.1, hr.1], by rw [List.length_append, hw.2.1, hr.2.1], fun i => ?_⟩
  obtain ⟨s, rfl⟩ := finSumFinEquiv.surjective i
  rw [joinPositions_apply]
  cases s with
  | inl j =>
    simp only [Sum.map_inl, finSumFinEquiv_apply_left, Fin.val_castAdd]
    rw [List.getElem?_append_left (by rw [hw.1]; exact (e j).isLt), List.getElem?_append_left (by rw [hw.2.1]; exact j.isLt), hw.2.2 j]
  | inr j =>
    simp only [Sum.map_inr, finSumFinEquiv_apply_right, Fin.val_natAdd]
    rw [List.getElem?_append_right (by rw [hw.1]; omega), List.getElem?_append_right (by rw [hw.2.1]; omega), hw.1, hw.2.1,
      Nat.add_sub_cancel_left, Nat.add_sub_cancel_left, hr.2.2 j]

theorem joinPositions_outside {n n' k k' : ℕ} {e : Fin n → Fin n'} {f : Fin k → Fin k'} {r' r₀ : List ℝ}
    (h : ∀ i' : Fin (n' + k'), (∀ i, joinPositions e f i ≠ i') → r'[(i' : ℕ)]? = r₀[(i' : ℕ)]?) :
    (∀ i' : Fin n', (∀ i, e i ≠ i') → (r'.take n')[(i' : ℕ)]? = (r₀.take n')[(i' : ℕ)]?) ∧
      ∀ i' : Fin k', (∀ i, f i ≠ i') → (r'.drop n')[(i' : ℕ)]? = (r₀.drop n')[(i' : ℕ)]? := by
  constructor
  · intro i' hi'
    rw [List.getElem?_take_of_lt i'.isLt, List.getElem?_take_of_lt i'.isLt]
    refine h (finSumFinEquiv (Sum.inl i')) fun i hi => ?_
    have hi := finSumFinEquiv.injective hi
    cases hs : finSumFinEquiv.symm i with
    | inl a => rw [hs] at hi; exact hi' a (Sum.inl.inj hi)
    | inr a => rw [hs] at hi; cases hi
  · intro i' hi'
    rw [List.getElem?_drop, List.getElem?_drop]
    refine h (finSumFinEquiv (Sum.inr i')) fun i hi => ?_
    have hi := finSumFinEquiv.injective hi
    cases hs : finSumFinEquiv.symm i with
    | inl a => rw [hs] at hi; cases hi
    | inr a => rw [hs] at hi; exact hi' a (Sum.inr.inj hi)

/-- `C150_corresponding` for parameters in two blocks, slopes and intercepts. -/
theorem jmlFit_corresponding {d : ℕ} {A : Type} (rule : ℕ → EntryRule A) (a₀ : A) (scorer scorer' : List ℝ → List ℝ → Scorer d)
    (cats cats' : List ℕ) (P P' : List ℝ → List ℝ → (Fin d → ℝ) → ℕ → ℕ → ℝ) {n n' k k' : ℕ} (e : Fin n → Fin n') (f : Fin k → Fin k')
    (he : Function.Injective e) (hf : Function.Injective f)
    (hsc : ∀ w r : List ℝ, w.length = n → r.length = k → IsScorer (scorer w r) cats (P w r))
    (hpos : ∀ w r : List ℝ, w.length = n → r.length = k → PositiveProbs (P w r) cats)
    (hsc' : ∀ w r : List ℝ, w.length = n' → r.length = k' → IsScorer (scorer' w r) cats' (P' w r))
    (hpos' : ∀ w r : List ℝ, w.length = n' → r.length = k' → PositiveProbs (P' w r) cats')
    (σ : Fin cats.length → Fin cats'.length) (hσ : Function.Injective σ)
    (hP : ∀ w' w r' r, EntriesAt e w' w → EntriesAt f r' r → ∀ θ (j : Fin cats.length), P' w' r' θ (σ j) = P w r θ j)
    (N N' : ℕ) (hN : 0 < N) (τ : Fin N → Fin N') (hτ : Function.Injective τ)
    (hq : QuietRule rule a₀ ∨ (Function.Surjective e ∧ Function.Surjective f ∧ Function.Surjective τ))
    (y y' : ℕ → ℕ → Cell) (hy : ∀ i, i < N → ValidResponses cats (y i))
    (hcats : ∀ j : Fin cats.length, cats'[(σ j : ℕ)]? = cats[(j : ℕ)]?) (hyy : SameAnswers τ σ y' y) (width width' : ℕ)
    (mc mc' : Option (List ℤ)) (c : TrainConfig) (lr : ℝ) (maxEpochs : ℕ) (w₀' w₀ r₀' r₀ : List ℝ) (hw : EntriesAt e w₀' w₀)
    (hr : EntriesAt f r₀' r₀)
    (start' start : Thetas d) (hs' : start'.length = N') (hs : start.length = N) (hss : ∀ i, start'[(τ i : ℕ)]? = start[(i : ℕ)]?) :
    ∃ p' p t' t, jmlGradientFit (fun p => scorer (p.take n) (p.drop n)) rule a₀ width cats mc
        (rowsOf N cats.length fun i j => codeOf (y i j)) start none c lr maxEpochs (w₀ ++ r₀) = .ok (p, t) ∧
      jmlGradientFit (fun p => scorer' (p.take n') (p.drop n')) rule a₀ width' cats' mc'
        (rowsOf N' cats'.length fun i j => codeOf (y' i j)) start' none c lr maxEpochs (w₀' ++ r₀') = .ok (p', t') ∧
      EntriesAt e (p'.take n') (p.take n) ∧ EntriesAt f (p'.drop n') (p.drop n) ∧ t.length = N ∧ t'.length = N' ∧
      (∀ i, t'[(τ i : ℕ)]? = t[(i : ℕ)]?) ∧
      (∀ i' : Fin n', (∀ i, e i ≠ i') → (p'.take n')[(i' : ℕ)]? = w₀'[(i' : ℕ)]?) ∧
      (∀ i' : Fin k', (∀ i, f i ≠ i') → (p'.drop n')[(i' : ℕ)]? = r₀'[(i' : ℕ)]?) ∧
      ∀ i' : Fin N', (∀ i, τ i ≠ i') → t'[(i' : ℕ)]? = start'[(i' : ℕ)]? := by
  have htake : ∀ (p : List ℝ) (a b : ℕ), p.length = a + b → (p.take a).length = a := fun p a b h => by rw [List.length_take]; omega
  have hdrop : ∀ (p : List ℝ) (a b : ℕ), p.length = a + b → (p.drop a).length = b := fun p a b h => by rw [List.length_drop]; omega
  obtain ⟨p', p, t', t, h1, h2, h3, h4, h5, h6, h7, h8⟩ := C150_corresponding rule a₀ (fun p => scorer (p.take n) (p.drop n))
    (fun p => scorer' (p.take n') (p.drop n')) cats cats' (fun p => P (p.take n) (p.drop n)) (fun p => P' (p.take n') (p.drop n'))
    (joinPositions e f) (joinPositions_injective he hf) (fun p h => hsc _ _ (htake p n k h) (hdrop p n k h))
    (fun p h => hpos _ _ (htake p n k h) (hdrop p n k h)) (fun p h => hsc' _ _ (htake p n' k' h) (hdrop p n' k' h))
    (fun p h => hpos' _ _ (htake p n' k' h) (hdrop p n' k' h)) σ hσ
    (fun p' p h => hP _ _ _ _ (joinPositions_first h) (joinPositions_second h)) N N' hN τ hτ
    (hq.imp id fun h => ⟨joinPositions_surjective h.1 h.2.1, h.2.2⟩) y y' hy hcats hyy width width' mc mc' c lr maxEpochs
    (w₀' ++ r₀') (w₀ ++ r₀) (joinPositions_append hw hr) start' start hs' hs hss
  obtain ⟨h9, h10⟩ := joinPositions_outside h7
  refine ⟨p', p, t', t, h1, h2, joinPositions_first h3, joinPositions_second h3, h4, h5, h6, fun i' hi' => ?_, fun i' hi' => ?_, h8⟩
  · rw [h9 i' hi', List.take_append_of_le_length hw.1.ge, List.take_of_length_le hw.1.le]
  · rw [h10 i' hi', List.drop_append_of_le_length hw.1.ge, List.drop_of_length_le hw.1.le, List.nil_append]

/-- C150, two parameter logistic with any number of latent variables: fitted to the same answers with respondents and items in another
order, corresponding items get the same slopes and intercepts and corresponding respondents the same latent scores. Items nobody answered
keep slopes 1 and intercept 0, respondents who answered nothing keep their starting scores. -/
theorem C150_twoPL {d : ℕ} {A : Type} (rule : ℕ → EntryRule A) (a₀ : A) (items items' : ℕ) (hitems : 0 < items)
    (σ : Fin items → Fin items') (hσ : Function.Injective σ) (N N' : ℕ) (hN : 0 < N) (τ : Fin N → Fin N') (hτ : Function.Injective τ)
    (hq : QuietRule rule a₀ ∨ (Function.Surjective σ ∧ Function.Surjective τ)) (y y' : ℕ → ℕ → Cell)
    (hy : ∀ i, i < N → ValidResponses (List.replicate items 2) (y i)) (hyy : SameAnswers τ σ y' y) (width width' : ℕ)
    (c : TrainConfig) (lr : ℝ) (maxEpochs : ℕ)
    (start' start : Thetas d) (hs' : start'.length = N') (hs : start.length = N) (hss : ∀ i, start'[(τ i : ℕ)]? = start[(i : ℕ)]?) :
    ∃ p' p t' t, jmlGradientFit (fun p => (TwoPL.free items d (p.take (items * d)) (p.drop (items * d))).scorer d) rule a₀ width
        (List.replicate items 2) none (rowsOf N items fun i j => codeOf (y i j)) start none c lr maxEpochs
        (List.replicate (items * d) 1 ++ List.replicate items 0) = .ok (p, t) ∧
      jmlGradientFit (fun p => (TwoPL.free items' d (p.take (items' * d)) (p.drop (items' * d))).scorer d) rule a₀ width'
        (List.replicate items' 2) none (rowsOf N' items' fun i j => codeOf (y' i j)) start' none c lr maxEpochs
        (List.replicate (items' * d) 1 ++ List.replicate items' 0) = .ok (p', t') ∧
      (∀ j, (TwoPL.free items' d (p'.take (items' * d)) (p'.drop (items' * d))).itemParameters[(σ j : ℕ)]?
        = (TwoPL.free items d (p.take (items * d)) (p.drop (items * d))).itemParameters[(j : ℕ)]?) ∧
      (∀ i, t'[(τ i : ℕ)]? = t[(i : ℕ)]?) ∧ p.length = items * d + items ∧ t.length = N ∧
      (∀ j' : Fin items', (∀ j, σ j ≠ j') →
        (TwoPL.free items' d (p'.take (items' * d)) (p'.drop (items' * d))).itemParameters[(j' : ℕ)]? = some (List.replicate d 1, 0)) ∧
      ∀ i' : Fin N', (∀ i, τ i ≠ i') → t'[(i' : ℕ)]? = start'[(i' : ℕ)]? := by
  have hc : ∀ n : ℕ, (List.replicate n 2).length = n := fun n => List.length_replicate
  have hitems' : 0 < items' := (σ ⟨0, hitems⟩).pos
  have hprobs : ∀ w' w b' b, EntriesAt (rowPositions σ d) w' w → EntriesAt σ b' b → ∀ θ (j : Fin items),
      ((TwoPL.free items' d w' b').probs θ)[(σ j : ℕ)]? = ((TwoPL.free items d w b).probs θ)[(j : ℕ)]? := by
    intro w' w b' b hw hb θ j
    obtain ⟨a, c, hp⟩ := (TwoPL.free items d w b).exists_params (TwoPL.free_wf items d w b hw.2.1 hb.2.1) j j.isLt
    rw [C03_twoPL_formula _ (TwoPL.free_wf items d w b hw.2.1 hb.2.1) θ j a c hp, C03_twoPL_formula _
      (TwoPL.free_wf items' d w' b' hw.1 hb.1) θ (σ j) a c (by rw [TwoPL.free_parameters σ w' w b' b hw hb j, hp])]
  obtain ⟨p', p, t', t, h1, h2, h3, h4, h5, h6, h7, h8, h9, h10⟩ := jmlFit_corresponding rule a₀ (fun w b => (TwoPL.free items d w b).scorer d)
    (fun w b => (TwoPL.free items' d w b).scorer d) (List.replicate items 2) (List.replicate items' 2)
    (fun w b θ => tableProb ((TwoPL.free items d w b).probs (List.ofFn θ)))
    (fun w b θ => tableProb ((TwoPL.free items' d w b).probs (List.ofFn θ))) (rowPositions σ d) σ (rowPositions_injective hσ d) hσ
    (fun w b hw hb => (TwoPL.free items d w b).isScorer (TwoPL.free_wf items d w b hw hb) hitems d)
    (fun w b hw hb => (TwoPL.free items d w b).positive (TwoPL.free_wf items d w b hw hb) d)
    (fun w b hw hb => (TwoPL.free items' d w b).isScorer (TwoPL.free_wf items' d w b hw hb) hitems' d)
    (fun w b hw hb => (TwoPL.free items' d w b).positive (TwoPL.free_wf items' d w b hw hb) d)
    (fun j => Fin.cast (hc items').symm (σ (Fin.cast (hc items) j))) (fun a b h => Fin.cast_injective _ (hσ (Fin.cast_injective _ h)))
    (fun w' w b' b hw hb θ j => by
      funext r
      have := hprobs w' w b' b hw hb (List.ofFn θ) (Fin.cast (hc items) j)
      dsimp only [tableProb, Fin.val_cast] at this ⊢
      rw [this])
    N N' hN τ hτ (hq.imp id fun h => ⟨rowPositions_surjective h.1 d, h.1, h.2⟩) y y' hy (fun j => by
      rw [List.getElem?_replicate, List.getElem?_replicate, if_pos (by simpa using (σ (Fin.cast (hc items) j)).isLt),
        if_pos (by simpa using j.isLt)])
    ⟨fun i j => hyy.same i _, fun i' j' h => hyy.items i' (Fin.cast (hc items') j') fun j hj => h (Fin.cast (hc items).symm j) (by
        apply Fin.ext
        have := congrArg Fin.val hj
        simpa using this), fun i' j' h => hyy.respondents i' (Fin.cast (hc items') j') h⟩
    width width' none none c lr maxEpochs (List.replicate (items' * d) 1) (List.replicate (items * d) 1) (List.replicate items' 0)
    (List.replicate items 0) (entriesAt_replicate _ _) (entriesAt_replicate _ _) start' start hs' hs hss
  simp only [List.length_replicate] at h1 h2
  refine ⟨p', p, t', t, h1, h2, TwoPL.free_parameters σ _ _ _ _ h3 h4, h7, ?_, h5, fun j' hj' => ?_, h10⟩
  · have h11 := h3.2.1
    have h12 := h4.2.1
    rw [← List.take_append_drop (items * d) p, List.length_append, h11, h12]
  · rw [TwoPL.itemParameters, TwoPL.free_weights _ _ _ _ h3.1, List.getElem?_zip_eq_some]
    refine ⟨viewRows_outside σ _ 1 h3.1 h8 j' hj', ?_⟩
    show (p'.drop (items' * d))[(j' : ℕ)]? = some 0
    rw [h9 j' hj', List.getElem?_replicate, if_pos j'.isLt]

/-- C150, generalized partial credit with any numbers of categories: corresponding items get the same slopes, intercepts and
probabilities, and corresponding respondents the same latent scores. -/
theorem C150_gpc {d : ℕ} {A : Type} (rule : ℕ → EntryRule A) (a₀ : A) (cats cats' : List ℕ) (hne : cats ≠ []) (hpos : ∀ c ∈ cats, 0 < c)
    (hpos' : ∀ c ∈ cats', 0 < c) (σ : Fin cats.length → Fin cats'.length) (hσ : Function.Injective σ)
    (hcats : ∀ j, cats'[(σ j : ℕ)]? = cats[(j : ℕ)]?) (N N' : ℕ) (hN : 0 < N) (τ : Fin N → Fin N') (hτ : Function.Injective τ)
    (hq : QuietRule rule a₀ ∨ (Function.Surjective σ ∧ Function.Surjective τ)) (y y' : ℕ → ℕ → Cell)
    (hy : ∀ i, i < N → ValidResponses cats (y i)) (hyy : SameAnswers τ σ y' y) (width width' : ℕ)
    (c : TrainConfig) (lr : ℝ) (maxEpochs : ℕ)
    (start' start : Thetas d) (hs' : start'.length = N') (hs : start.length = N) (hss : ∀ i, start'[(τ i : ℕ)]? = start[(i : ℕ)]?) :
    ∃ p' p t' t, jmlGradientFit (fun p => (GPC.free cats d (p.take (cats.length * d)) (p.drop (cats.length * d))).scorer d) rule a₀ width
        cats none (rowsOf N cats.length fun i j => codeOf (y i j)) start none c lr maxEpochs
        (List.replicate (cats.length * d) 1 ++ List.replicate (cats.sum - cats.length) 0) = .ok (p, t) ∧
      jmlGradientFit (fun p => (GPC.free cats' d (p.take (cats'.length * d)) (p.drop (cats'.length * d))).scorer d) rule a₀ width'
        cats' none (rowsOf N' cats'.length fun i j => codeOf (y' i j)) start' none c lr maxEpochs
        (List.replicate (cats'.length * d) 1 ++ List.replicate (cats'.sum - cats'.length) 0) = .ok (p', t') ∧
      (∀ j : Fin cats.length, ∃ a b b',
        (GPC.free cats' d (p'.take (cats'.length * d)) (p'.drop (cats'.length * d))).itemParameters[(σ j : ℕ)]? = some (a, b') ∧
        (GPC.free cats d (p.take (cats.length * d)) (p.drop (cats.length * d))).itemParameters[(j : ℕ)]? = some (a, b) ∧
        ∀ k, k < cats[(j : ℕ)] → ∃ v, b'[k]? = some v ∧ b[k]? = some v) ∧
      (∀ θ (j : Fin cats.length) r,
        tableProb ((GPC.free cats' d (p'.take (cats'.length * d)) (p'.drop (cats'.length * d))).probs θ) (σ j) r
          = tableProb ((GPC.free cats d (p.take (cats.length * d)) (p.drop (cats.length * d))).probs θ) j r) ∧
      (∀ i, t'[(τ i : ℕ)]? = t[(i : ℕ)]?) ∧ t.length = N ∧
      ∀ i' : Fin N', (∀ i, τ i ≠ i') → t'[(i' : ℕ)]? = start'[(i' : ℕ)]? := by
  have hfree : ∀ j, freeIntercepts cats j = freeIntercepts cats' (σ j) := by
    intro j
    unfold freeIntercepts
    rw [List.getD_eq_getElem?_getD, List.getD_eq_getElem?_getD, hcats j]
  have hsum := freeIntercepts_sum cats hpos
  have hsum' := freeIntercepts_sum cats' hpos'
  have hwf : ∀ w b : List ℝ, w.length = cats.length * d → b.length = ∑ j, freeIntercepts cats j → (GPC.free cats d w b).WF :=
    fun w b hw hb => GPC.free_wf cats hpos d w b hw (hb.trans hsum)
  have hwf' : ∀ w b : List ℝ, w.length = cats'.length * d → b.length = ∑ j, freeIntercepts cats' j → (GPC.free cats' d w b).WF :=
    fun w b hw hb => GPC.free_wf cats' hpos' d w b hw (hb.trans hsum')
  have hne' : cats' ≠ [] := by
    intro h
    have := (σ ⟨0, List.length_pos_of_ne_nil hne⟩).isLt
    simp [h] at this
  obtain ⟨p', p, t', t, h1, h2, h3, h4, h5, h6, h7, h8, h9, h10⟩ := jmlFit_corresponding rule a₀ (fun w b => (GPC.free cats d w b).scorer d)
    (fun w b => (GPC.free cats' d w b).scorer d) cats cats'
    (fun w b θ => tableProb ((GPC.free cats d w b).probs (List.ofFn θ)))
    (fun w b θ => tableProb ((GPC.free cats' d w b).probs (List.ofFn θ)))
    (rowPositions σ d) (interceptPositions σ hfree) (rowPositions_injective hσ d) (interceptPositions_injective hσ hfree)
    (fun w b hw hb => (GPC.free cats d w b).isScorer (hwf w b hw hb) hne d)
    (fun w b hw hb => (GPC.free cats d w b).positive (hwf w b hw hb) d)
    (fun w b hw hb => (GPC.free cats' d w b).isScorer (hwf' w b hw hb) hne' d)
    (fun w b hw hb => (GPC.free cats' d w b).positive (hwf' w b hw hb) d)
    σ hσ (fun w' w b' b hw hb θ j => funext fun r =>
      GPC.free_probs_corresponding σ hpos hpos' hcats hfree w' w b' b hw hb (List.ofFn θ) j r)
    N N' hN τ hτ (hq.imp id fun h => ⟨rowPositions_surjective h.1 d, interceptPositions_surjective h.1 hfree, h.2⟩) y y' hy hcats hyy
    width width' none none c lr maxEpochs
    (List.replicate (cats'.length * d) 1) (List.replicate (cats.length * d) 1) _ _ (entriesAt_replicate _ _)
    (entriesAt_replicate _ 0) start' start hs' hs hss
  rw [hsum] at h1
  rw [hsum'] at h2
  refine ⟨p', p, t', t, h1, h2, fun j => ?_, GPC.free_probs_corresponding σ hpos hpos' hcats hfree _ _ _ _ h3 h4, h7, h5, h10⟩
  obtain ⟨a, dl, dl', hp', hp, hdl, _, hk⟩ := GPC.free_parameters σ hpos hpos' hcats hfree _ _ _ _ h3 h4 j
  refine ⟨a, dl, dl', hp', hp, fun k h => ?_⟩
  obtain ⟨v, hv⟩ := getElem?_of_lt dl k (by rw [hdl]; exact lt_of_lt_of_le h (le_maxCats _ _ (List.getElem_mem _)))
  exact ⟨v, (hk k h).trans hv, hv⟩

/-! ## The hypotheses are met -/

/-- Two parameter logistic with two latent variables, Adam: respondents and items in reverse order, and an item nobody answered added. -/
example : ∃ p' p t' t, jmlGradientFit (fun p => (TwoPL.free 4 2 (p.take 8) (p.drop 8)).scorer 2) (fun _ => adamRule) {} 4
      (List.replicate 4 2) none (rowsOf 6 4 fun i j => codeOf (exTwoClusters i j)) ((List.range 6).map fun (i : ℕ) k => (i : ℝ) + (k : ℕ)) none
      { factor := 1 / 2, patience := 40, threshold := 1 / 10000, limit := 3 } (1 / 10) 10 (List.replicate 8 1 ++ List.replicate 4 0)
        = .ok (p, t) ∧
    jmlGradientFit (fun p => (TwoPL.free 5 2 (p.take 10) (p.drop 10)).scorer 2) (fun _ => adamRule) {} 5
      (List.replicate 5 2) none (rowsOf 6 5 fun i j => codeOf (exTurnedClusters i j))
      ((List.range 6).map fun i k => ((5 - i : ℕ) : ℝ) + (k : ℕ)) none
      { factor := 1 / 2, patience := 40, threshold := 1 / 10000, limit := 3 } (1 / 10) 10 (List.replicate 10 1 ++ List.replicate 5 0)
        = .ok (p', t') ∧
    (TwoPL.free 5 2 (p'.take 10) (p'.drop 10)).itemParameters[4]? = (TwoPL.free 4 2 (p.take 8) (p.drop 8)).itemParameters[0]? ∧
    (TwoPL.free 5 2 (p'.take 10) (p'.drop 10)).itemParameters[0]? = some ([1, 1], 0) ∧ t'[5]? = t[0]? := by
  obtain ⟨p', p, t', t, h1, h2, h3, h4, _, _, h5, _⟩ := C150_twoPL (d := 2) (fun _ => adamRule) {} 4 5 (by norm_num) _
    exTurnedClusters_injective 6 6
    (by norm_num) _ Fin.rev_injective (Or.inl C113_adam_quiet) exTwoClusters exTurnedClusters (fun i _ => exTwoClusters_valid i)
    exTurnedClusters_same 4 5 { factor := 1 / 2, patience := 40, threshold := 1 / 10000, limit := 3 } (1 / 10) 10
    ((List.range 6).map fun i k => ((5 - i : ℕ) : ℝ) + (k : ℕ)) ((List.range 6).map fun (i : ℕ) k => (i : ℝ) + (k : ℕ))
    (by simp) (by simp) (fun i => by
      have hi := i.isLt
      rw [List.getElem?_map, List.getElem?_map, List.getElem?_range (by simpa using i.rev.isLt), List.getElem?_range hi]
      simp only [Option.map_some, Fin.val_rev]
      rw [show 5 - (6 - ((i : ℕ) + 1)) = i by omega])
  exact ⟨p', p, t', t, h1, h2, h3 0, h5 0 exTurnedClusters_first, h4 0⟩

/-- Items with four and two categories, and the same in reverse order after an item with three categories that nobody answered. -/
example : ∃ p' p t' t, jmlGradientFit (fun p => (GPC.free [4, 2, 2, 2] 2 (p.take 8) (p.drop 8)).scorer 2) (fun _ => adamRule) {} 4
      [4, 2, 2, 2] none (rowsOf 6 4 fun i j => codeOf (exTwoClusters i j)) ((List.range 6).map fun (i : ℕ) k => (i : ℝ) + (k : ℕ)) none
      { factor := 1 / 2, patience := 40, threshold := 1 / 10000, limit := 3 } (1 / 10) 10 (List.replicate 8 1 ++ List.replicate 6 0)
        = .ok (p, t) ∧
    jmlGradientFit (fun p => (GPC.free [3, 2, 2, 2, 4] 2 (p.take 10) (p.drop 10)).scorer 2) (fun _ => adamRule) {} 5
      [3, 2, 2, 2, 4] none (rowsOf 6 5 fun i j => codeOf (exTurnedClusters i j))
      ((List.range 6).map fun i k => ((5 - i : ℕ) : ℝ) + (k : ℕ)) none
      { factor := 1 / 2, patience := 40, threshold := 1 / 10000, limit := 3 } (1 / 10) 10 (List.replicate 10 1 ++ List.replicate 8 0)
        = .ok (p', t') ∧
    (∀ θ r, tableProb ((GPC.free [3, 2, 2, 2, 4] 2 (p'.take 10) (p'.drop 10)).probs θ) 4 r
      = tableProb ((GPC.free [4, 2, 2, 2] 2 (p.take 8) (p.drop 8)).probs θ) 0 r) ∧ t'[5]? = t[0]? := by
  obtain ⟨p', p, t', t, h1, h2, _, h3, h4, _⟩ := C150_gpc (d := 2) (fun _ => adamRule) {} [4, 2, 2, 2] [3, 2, 2, 2, 4] (by simp)
    (by simp) (by simp) (fun j : Fin 4 => (j.castSucc.rev : Fin 5)) exTurnedClusters_injective (by decide) 6 6
    (by norm_num) _ Fin.rev_injective (Or.inl C113_adam_quiet) exTwoClusters exTurnedClusters (fun i _ j c hc hobs => by
      have hj : j < 4 := lt_of_getElem?_some hc
      obtain ⟨r, hr, hlt⟩ := exTwoClusters_valid i j 2 (by rw [List.getElem?_replicate, if_pos hj]) hobs
      refine ⟨r, hr, lt_of_lt_of_le hlt ?_⟩
      interval_cases j <;> simp at hc <;> omega)
    exTurnedClusters_same 4 5 { factor := 1 / 2, patience := 40, threshold := 1 / 10000, limit := 3 } (1 / 10) 10
    ((List.range 6).map fun i k => ((5 - i : ℕ) : ℝ) + (k : ℕ)) ((List.range 6).map fun (i : ℕ) k => (i : ℝ) + (k : ℕ))
    (by simp) (by simp) (fun i => by
      have hi := i.isLt
      rw [List.getElem?_map, List.getElem?_map, List.getElem?_range (by simpa using i.rev.isLt), List.getElem?_range hi]
      simp only [Option.map_some, Fin.val_rev]
      rw [show 5 - (6 - ((i : ℕ) + 1)) = i by omega])
  exact ⟨p', p, t', t, h1, h2, fun θ r => h3 θ 0 r, h4 0⟩

end Irt
