import Verif.Lemmas.FitOrder
import Verif.Lemmas.Ordered

/-! # Property C113: marginal maximum likelihood and the order of the data -/

namespace Irt
open Spec

/-- C113: `Adam` leaves alone an entry whose partial derivative is always zero. -/
theorem C113_adam_quiet : QuietRule (fun _ => adamRule) {} := by
  refine ⟨fun a => a.avg = 0, rfl, fun i lr a v ha => ?_⟩
  simp only [adamRule, ha]
  constructor <;> simp

theorem entriesAt_id {α : Type} {n : ℕ} {w' w : List α} (h : EntriesAt (id : Fin n → Fin n) w' w) : w' = w := by
  apply List.ext_getElem?
  intro i
  by_cases hi : i < n
  · exact h.2.2 ⟨i, hi⟩
  · rw [List.getElem?_eq_none (by rw [h.1]; omega), List.getElem?_eq_none (by rw [h.2.1]; omega)]

theorem entriesAt_self {α : Type} (w : List α) (n : ℕ) (h : w.length = n) : EntriesAt (id : Fin n → Fin n) w w :=
  ⟨h, h, fun _ => rfl⟩

/-- C113: for every model whose `log_likelihood` is that of its response probabilities, whatever the optimiser, the integration method,
the number of epochs and the starting values: the fit does not depend on the order of the respondents, nor, with Gauss-Hermite
integration, on respondents who answered nothing. -/
theorem C113_respondents {d : ℕ} {A : Type} (S : MmlSettings d A) {q : ℕ}
    (hrule : MmlRule S.hermgauss S.cholesky S.method S.points q) (scorer : List ℝ → List ℝ → Scorer d) (cats : List ℕ)
    (P : List ℝ → List ℝ → (Fin d → ℝ) → ℕ → ℕ → ℝ) (n k : ℕ)
    (hsc : ∀ w r : List ℝ, w.length = n → r.length = k → IsScorer (scorer w r) cats (P w r))
    (hpos : ∀ w r : List ℝ, w.length = n → r.length = k → PositiveProbs (P w r) cats) (N N' : ℕ) (τ : Fin N → Fin N')
    (hτ : Function.Injective τ) (hu : UnitWeights S q ∨ Function.Surjective τ) (y y' : ℕ → ℕ → Cell)
    (hy : ∀ i, i < N → ValidResponses cats (y i)) (hyy : SameAnswers τ (id : Fin cats.length → Fin cats.length) y' y)
    (weight rest : List ℝ) (hw : weight.length = n) (hr : rest.length = k) :
    ∃ w r, S.fit scorer (rowsOf N cats.length y) weight rest = .ok (w, r) ∧
      S.fit scorer (rowsOf N' cats.length y') weight rest = .ok (w, r) := by
  obtain ⟨w', w, r', r, h1, h2, h3, h4, _, _⟩ := mmlFit_corresponding S hrule scorer scorer cats cats P P (id : Fin n → Fin n)
    (id : Fin k → Fin k) Function.injective_id Function.injective_id (Or.inr ⟨Function.surjective_id, Function.surjective_id⟩) hsc hpos hsc
    hpos id Function.injective_id (fun w' w r' r h3 h4 θ j => by rw [entriesAt_id h3, entriesAt_id h4]; rfl) N N' τ hτ hu y y' hy
    (fun _ => rfl) hyy weight weight rest rest (entriesAt_self _ _ hw) (entriesAt_self _ _ hr)
  exact ⟨w, r, h1, by rw [h2, entriesAt_id h3, entriesAt_id h4]⟩

/-! ## Two parameter logistic -/

theorem TwoPL.fitMml_ok {d : ℕ} {A : Type} (S : MmlSettings d A) (items : ℕ) (data : List (List Cell)) (w b : List ℝ)
    (h : S.fit (fun w b => (TwoPL.free items d w b).scorer d) data (List.replicate (items * d) 1) (List.replicate items 0) = .ok (w, b)) :
    TwoPL.fitMml S items data = .ok (TwoPL.free items d w b) := by
  unfold TwoPL.fitMml TwoPL.init
  simp only [checkRelationships, bind_ok, pure, Except.pure, countTrue_free]
  have hfit' : S.fit (fun w b => ({ items, lv := d, rel := List.replicate items (List.replicate d true), weight := w, bias := b } :
      TwoPL).scorer d) data (List.replicate (items * d) 1) (List.replicate items 0) = .ok (w, b) := h
  simp only [hfit', bind_ok]
  rfl

theorem TwoPL.free_parameters {d items items' : ℕ} (σ : Fin items → Fin items') (w' w b' b : List ℝ)
    (hw : EntriesAt (rowPositions σ d) w' w) (hb : EntriesAt σ b' b) (j : Fin items) :
    (TwoPL.free items' d w' b').itemParameters[(σ j : ℕ)]? = (TwoPL.free items d w b).itemParameters[(j : ℕ)]? := by
  rw [TwoPL.itemParameters, TwoPL.itemParameters, TwoPL.free_weights _ _ _ _ hw.1, TwoPL.free_weights _ _ _ _ hw.2.1]
  obtain ⟨a, ha⟩ := getElem?_of_lt (viewRows items d w) j (by rw [length_viewRows]; exact j.isLt)
  obtain ⟨c, hc⟩ := getElem?_of_lt b j (by rw [hb.2.1]; exact j.isLt)
  refine (List.getElem?_zip_eq_some.2 ⟨?_, ?_⟩ : _ = some (a, c)).trans (List.getElem?_zip_eq_some.2 ⟨ha, hc⟩).symm
  · rw [viewRows_rowPositions σ w' w hw j, ha]
  · exact (hb.2.2 j).trans hc

/-- C113: two parameter logistic models, fitted by MML to the same answers with the respondents and the items in another order:
corresponding items get the same slopes and intercept and have the same probabilities. Items nobody answered may be left out (if the
optimiser leaves alone entries without a gradient, as Adam does): they keep slopes 1 and intercept 0 and do not change the other items. -/
theorem C113_twoPL {d : ℕ} {A : Type} (S : MmlSettings d A) {q : ℕ} (hrule : MmlRule S.hermgauss S.cholesky S.method S.points q)
    (items items' : ℕ) (hitems : 0 < items) (σ : Fin items → Fin items') (hσ : Function.Injective σ)
    (hq : QuietRule S.rule S.start ∨ Function.Surjective σ) (N N' : ℕ) (τ : Fin N → Fin N') (hτ : Function.Injective τ)
    (hu : UnitWeights S q ∨ Function.Surjective τ) (y y' : ℕ → ℕ → Cell) (hy : ∀ i, i < N → ValidResponses (List.replicate items 2) (y i))
    (hyy : SameAnswers τ σ y' y) :
    ∃ m m', TwoPL.fitMml S items (rowsOf N items y) = .ok m ∧ TwoPL.fitMml S items' (rowsOf N' items' y') = .ok m' ∧ m.WF ∧ m'.WF ∧
      (∀ j, m'.itemParameters[(σ j : ℕ)]? = m.itemParameters[(j : ℕ)]?) ∧
      (∀ θ j, (m'.probs θ)[(σ j : ℕ)]? = (m.probs θ)[(j : ℕ)]?) ∧
      ∀ j' : Fin items', (∀ j, σ j ≠ j') → m'.itemParameters[(j' : ℕ)]? = some (List.replicate d 1, 0) := by
  have hprobs : ∀ w' w b' b, EntriesAt (rowPositions σ d) w' w → EntriesAt σ b' b → ∀ θ (j : Fin items),
      ((TwoPL.free items' d w' b').probs θ)[(σ j : ℕ)]? = ((TwoPL.free items d w b).probs θ)[(j : ℕ)]? := by
    intro w' w b' b hw hb θ j
    obtain ⟨a, c, hp⟩ := (TwoPL.free items d w b).exists_params (TwoPL.free_wf items d w b hw.2.1 hb.2.1) j j.isLt
    rw [C03_twoPL_formula _ (TwoPL.free_wf items d w b hw.2.1 hb.2.1) θ j a c hp, C03_twoPL_formula _
      (TwoPL.free_wf items' d w' b' hw.1 hb.1) θ (σ j) a c (by rw [TwoPL.free_parameters σ w' w b' b hw hb j, hp])]
  have hitems' : 0 < items' := by have := (σ ⟨0, hitems⟩).isLt; omega
  obtain ⟨w', w, b', b, h1, h2, h3, h4, h5, h6⟩ : ∃ w' w r' r, _ ∧ _ ∧ EntriesAt (rowPositions σ d) w' w ∧ EntriesAt σ r' r ∧ _ ∧ _ := by
    have hc : ∀ n : ℕ, (List.replicate n 2).length = n := fun n => List.length_replicate
    refine mmlFit_corresponding S hrule (fun w b => (TwoPL.free items d w b).scorer d) (fun w b => (TwoPL.free items' d w b).scorer d)
      (List.replicate items 2) (List.replicate items' 2) (fun w b θ => tableProb ((TwoPL.free items d w b).probs (List.ofFn θ)))
      (fun w b θ => tableProb ((TwoPL.free items' d w b).probs (List.ofFn θ))) (rowPositions σ d) σ (rowPositions_injective hσ d) hσ
      (hq.imp id fun h => ⟨rowPositions_surjective h d, h⟩)
      (fun w b hw hb => (TwoPL.free items d w b).isScorer (TwoPL.free_wf items d w b hw hb) hitems d)
      (fun w b hw hb => (TwoPL.free items d w b).positive (TwoPL.free_wf items d w b hw hb) d)
      (fun w b hw hb => (TwoPL.free items' d w b).isScorer (TwoPL.free_wf items' d w b hw hb) hitems' d)
      (fun w b hw hb => (TwoPL.free items' d w b).positive (TwoPL.free_wf items' d w b hw hb) d)
      (fun j => Fin.cast (hc items').symm (σ (Fin.cast (hc items) j))) ?_ ?_ N N' τ hτ hu y y' hy ?_ ?_
      (List.replicate (items' * d) 1) (List.replicate (items * d) 1) (List.replicate items' 0) (List.replicate items 0)
      (entriesAt_replicate _ _) (entriesAt_replicate _ _)
    · intro a b h
      exact Fin.cast_injective _ (hσ (Fin.cast_injective _ h))
    · intro w' w b' b hw hb θ j
      funext r
      have := hprobs w' w b' b hw hb (List.ofFn θ) (Fin.cast (hc items) j)
      dsimp only [tableProb, Fin.val_cast] at this ⊢
      rw [this]
    · intro j
      rw [List.getElem?_replicate, List.getElem?_replicate, if_pos (by simpa using (σ (Fin.cast (hc items) j)).isLt),
        if_pos (by simpa using j.isLt)]
    · refine ⟨fun i j => hyy.same i _, fun i' j' h => ?_, fun i' j' h => hyy.respondents i' (Fin.cast (hc items') j') h⟩
      refine hyy.items i' (Fin.cast (hc items') j') fun j hj => h (Fin.cast (hc items).symm j) ?_
      apply Fin.ext
      have := congrArg Fin.val hj
      simpa using this
  simp only [List.length_replicate] at h1 h2
  refine ⟨_, _, TwoPL.fitMml_ok S items _ w b h1, TwoPL.fitMml_ok S items' _ w' b' h2, TwoPL.free_wf items d w b h3.2.1 h4.2.1,
    TwoPL.free_wf items' d w' b' h3.1 h4.1, TwoPL.free_parameters σ w' w b' b h3 h4, hprobs w' w b' b h3 h4, fun j' hj' => ?_⟩
  rw [TwoPL.itemParameters, TwoPL.free_weights _ _ _ _ h3.1, List.getElem?_zip_eq_some]
  refine ⟨viewRows_outside σ w' 1 h3.1 h5 j' hj', ?_⟩
  show b'[(j' : ℕ)]? = some 0
  rw [h6 j' hj', List.getElem?_replicate, if_pos j'.isLt]

/-! ## Three parameter logistic -/

theorem ThreePL.fitMml_ok {d : ℕ} {A : Type} (S : MmlSettings d A) (items : ℕ) (data : List (List Cell)) (w r : List ℝ)
    (h : S.fit (fun w r => (ThreePL.free items d w (r.take items) (r.drop items)).scorer d) data (List.replicate (items * d) 1)
      (List.replicate items 0 ++ List.replicate items (-1.1)) = .ok (w, r)) :
    ThreePL.fitMml S items data = .ok (ThreePL.free items d w (r.take items) (r.drop items)) := by
  unfold ThreePL.fitMml ThreePL.init
  simp only [checkRelationships, bind_ok, pure, Except.pure, countTrue_free]
  have hfit' : S.fit (fun w r => (⟨items, d, List.replicate items (List.replicate d true), w, r.take items, r.drop items⟩ :
      ThreePL).scorer d) data (List.replicate (items * d) 1) (List.replicate items 0 ++ List.replicate items (-1.1)) = .ok (w, r) := h
  simp only [hfit', bind_ok]
  rfl

theorem ThreePL.free_parameters {d items items' : ℕ} (σ : Fin items → Fin items') (w' w b' b g' g : List ℝ)
    (hw : EntriesAt (rowPositions σ d) w' w) (hb : EntriesAt σ b' b) (hg : EntriesAt σ g' g) (j : Fin items) :
    (ThreePL.free items' d w' b' g').itemParameters[(σ j : ℕ)]? = (ThreePL.free items d w b g).itemParameters[(j : ℕ)]? := by
  rw [ThreePL.itemParameters, ThreePL.itemParameters, ThreePL.free_weights _ _ _ _ _ hw.1, ThreePL.free_weights _ _ _ _ _ hw.2.1]
  obtain ⟨a, ha⟩ := getElem?_of_lt (viewRows items d w) j (by rw [length_viewRows]; exact j.isLt)
  obtain ⟨c, hc⟩ := getElem?_of_lt b j (by rw [hb.2.1]; exact j.isLt)
  obtain ⟨v, hv⟩ := getElem?_of_lt g j (by rw [hg.2.1]; exact j.isLt)
  have e : ∀ (n : ℕ) (g : List ℝ), g[n]? = some v → (g.map sigmoid)[n]? = some (sigmoid v) := by
    intro n g h
    rw [List.getElem?_map, h]
    rfl
  refine (List.getElem?_zip_eq_some.2 ⟨?_, List.getElem?_zip_eq_some.2 ⟨?_, ?_⟩⟩ : _ = some (a, c, sigmoid v)).trans
    (List.getElem?_zip_eq_some.2 ⟨ha, List.getElem?_zip_eq_some.2 ⟨hc, e _ _ hv⟩⟩).symm
  · rw [viewRows_rowPositions σ w' w hw j, ha]
  · exact (hb.2.2 j).trans hc
  · exact e _ _ ((hg.2.2 j).trans hv)

/-- C113: the same for three parameter logistic models; items nobody answered keep the starting value `sigmoid(-1.1)` of the guessing
parameter. -/
theorem C113_threePL {d : ℕ} {A : Type} (S : MmlSettings d A) {q : ℕ} (hrule : MmlRule S.hermgauss S.cholesky S.method S.points q)
    (items items' : ℕ) (hitems : 0 < items) (σ : Fin items → Fin items') (hσ : Function.Injective σ)
    (hq : QuietRule S.rule S.start ∨ Function.Surjective σ) (N N' : ℕ) (τ : Fin N → Fin N') (hτ : Function.Injective τ)
    (hu : UnitWeights S q ∨ Function.Surjective τ) (y y' : ℕ → ℕ → Cell) (hy : ∀ i, i < N → ValidResponses (List.replicate items 2) (y i))
    (hyy : SameAnswers τ σ y' y) :
    ∃ m m', ThreePL.fitMml S items (rowsOf N items y) = .ok m ∧ ThreePL.fitMml S items' (rowsOf N' items' y') = .ok m' ∧ m.WF ∧ m'.WF ∧
      (∀ j, m'.itemParameters[(σ j : ℕ)]? = m.itemParameters[(j : ℕ)]?) ∧
      (∀ θ j, (m'.probs θ)[(σ j : ℕ)]? = (m.probs θ)[(j : ℕ)]?) ∧
      ∀ j' : Fin items', (∀ j, σ j ≠ j') → m'.itemParameters[(j' : ℕ)]? = some (List.replicate d 1, 0, sigmoid (-1.1)) := by
  have hwf : ∀ (n : ℕ) (w r : List ℝ), w.length = n * d → r.length = n + n →
      (ThreePL.free n d w (r.take n) (r.drop n)).WF := fun n w r hw hr =>
    ThreePL.free_wf n d w _ _ hw (by rw [List.length_take]; omega) (by rw [List.length_drop]; omega)
  have hprobs : ∀ w' w r' r, EntriesAt (rowPositions σ d) w' w → EntriesAt (pairPositions σ) r' r → ∀ θ (j : Fin items),
      ((ThreePL.free items' d w' (r'.take items') (r'.drop items')).probs θ)[(σ j : ℕ)]?
        = ((ThreePL.free items d w (r.take items) (r.drop items)).probs θ)[(j : ℕ)]? := by
    intro w' w r' r hw hr θ j
    obtain ⟨a, c, g, hp⟩ := (ThreePL.free items d w (r.take items) (r.drop items)).exists_params (hwf items w r hw.2.1 hr.2.1) j j.isLt
    rw [C03_threePL_formula _ θ j a c g hp, C03_threePL_formula _ θ (σ j) a c g (by
      rw [ThreePL.free_parameters σ w' w _ _ _ _ hw (pairPositions_first hr) (pairPositions_second hr) j, hp])]
  have hitems' : 0 < items' := by have := (σ ⟨0, hitems⟩).isLt; omega
  have hstart : EntriesAt (pairPositions σ) (List.replicate items' (0 : ℝ) ++ List.replicate items' (-1.1))
      (List.replicate items 0 ++ List.replicate items (-1.1)) := by
    refine ⟨by simp, by simp, fun i => ?_⟩
    obtain ⟨s, rfl⟩ := finSumFinEquiv.surjective i
    rw [pairPositions_apply]
    cases s with
    | inl j =>
      simp only [Sum.map_inl, finSumFinEquiv_apply_left, Fin.val_castAdd]
      rw [List.getElem?_append_left (by simp), List.getElem?_append_left (by simp), List.getElem?_replicate, List.getElem?_replicate,
        if_pos (σ j).isLt, if_pos j.isLt]
    | inr j =>
      simp only [Sum.map_inr, finSumFinEquiv_apply_right, Fin.val_natAdd]
      rw [List.getElem?_append_right (by simp), List.getElem?_append_right (by simp), List.length_replicate, List.length_replicate,
        Nat.add_sub_cancel_left, Nat.add_sub_cancel_left, List.getElem?_replicate, List.getElem?_replicate, if_pos (σ j).isLt,
        if_pos j.isLt]
  obtain ⟨w', w, r', r, h1, h2, h3, h4, h5, h6⟩ : ∃ w' w r' r, _ ∧ _ ∧ EntriesAt (rowPositions σ d) w' w ∧
      EntriesAt (pairPositions σ) r' r ∧ _ ∧ _ := by
    have hc : ∀ n : ℕ, (List.replicate n 2).length = n := fun n => List.length_replicate
    refine mmlFit_corresponding S hrule (fun w r => (ThreePL.free items d w (r.take items) (r.drop items)).scorer d)
      (fun w r => (ThreePL.free items' d w (r.take items') (r.drop items')).scorer d)
      (List.replicate items 2) (List.replicate items' 2)
      (fun w r θ => tableProb ((ThreePL.free items d w (r.take items) (r.drop items)).probs (List.ofFn θ)))
      (fun w r θ => tableProb ((ThreePL.free items' d w (r.take items') (r.drop items')).probs (List.ofFn θ)))
      (rowPositions σ d) (pairPositions σ) (rowPositions_injective hσ d) (pairPositions_injective hσ)
      (hq.imp id fun h => ⟨rowPositions_surjective h d, pairPositions_surjective h⟩)
      (fun w r hw hr => ThreePL.isScorer _ (hwf items w r hw hr) hitems d)
      (fun w r hw hr => ThreePL.positive _ (hwf items w r hw hr) d)
      (fun w r hw hr => ThreePL.isScorer _ (hwf items' w r hw hr) hitems' d)
      (fun w r hw hr => ThreePL.positive _ (hwf items' w r hw hr) d)
      (fun j => Fin.cast (hc items').symm (σ (Fin.cast (hc items) j))) ?_ ?_ N N' τ hτ hu y y' hy ?_ ?_
      (List.replicate (items' * d) 1) (List.replicate (items * d) 1) _ _ (entriesAt_replicate _ _) hstart
    · intro a b h
      exact Fin.cast_injective _ (hσ (Fin.cast_injective _ h))
    · intro w' w r' r hw hr θ j
      funext k
      have := hprobs w' w r' r hw hr (List.ofFn θ) (Fin.cast (hc items) j)
      dsimp only [tableProb, Fin.val_cast] at this ⊢
      rw [this]
    · intro j
      rw [List.getElem?_replicate, List.getElem?_replicate, if_pos (by simp), if_pos (by simpa using j.isLt)]
    · refine ⟨fun i j => hyy.same i _, fun i' j' h => ?_, fun i' j' h => hyy.respondents i' (Fin.cast (hc items') j') h⟩
      refine hyy.items i' (Fin.cast (hc items') j') fun j hj => h (Fin.cast (hc items).symm j) ?_
      apply Fin.ext
      have := congrArg Fin.val hj
      simpa using this
  simp only [List.length_replicate] at h1 h2
  refine ⟨_, _, ThreePL.fitMml_ok S items _ w r h1, ThreePL.fitMml_ok S items' _ w' r' h2, hwf items w r h3.2.1 h4.2.1,
    hwf items' w' r' h3.1 h4.1, ThreePL.free_parameters σ w' w _ _ _ _ h3 (pairPositions_first h4) (pairPositions_second h4),
    hprobs w' w r' r h3 h4, fun j' hj' => ?_⟩
  obtain ⟨e1, e2⟩ := pairPositions_outside h6 j' hj'
  rw [ThreePL.itemParameters, ThreePL.free_weights _ _ _ _ _ h3.1, List.getElem?_zip_eq_some, List.getElem?_zip_eq_some]
  refine ⟨viewRows_outside σ w' 1 h3.1 h5 j' hj', ?_, ?_⟩
  · show (r'.take items')[(j' : ℕ)]? = some 0
    rw [List.getElem?_take_of_lt j'.isLt, e1, List.getElem?_append_left (by simp), List.getElem?_replicate, if_pos j'.isLt]
  · show ((r'.drop items').map sigmoid)[(j' : ℕ)]? = some (sigmoid (-1.1))
    rw [List.getElem?_map, List.getElem?_drop, e2, List.getElem?_append_right (by simp), List.length_replicate, Nat.add_sub_cancel_left,
      List.getElem?_replicate, if_pos j'.isLt]
    rfl

/-! ## Generalized partial credit -/

theorem GPC.fitMml_ok {d : ℕ} {A : Type} (S : MmlSettings d A) (cats : List ℕ) (data : List (List Cell)) (w b : List ℝ)
    (h : S.fit (fun w b => (GPC.free cats d w b).scorer d) data (List.replicate (cats.length * d) 1)
      (List.replicate (cats.sum - cats.length) 0) = .ok (w, b)) :
    GPC.fitMml S cats data = .ok (GPC.free cats d w b) := by
  unfold GPC.fitMml GPC.init
  simp only [checkRelationships, bind_ok, pure, Except.pure, countTrue_free]
  have hfit' : S.fit (fun w b => ({ lv := d, cats, rel := List.replicate cats.length (List.replicate d true), weight := w, bias := b } :
      GPC).scorer d) data (List.replicate (cats.length * d) 1) (List.replicate (cats.sum - cats.length) 0) = .ok (w, b) := h
  simp only [hfit', bind_ok]
  rfl

theorem GPC.intercept_zero (m : GPC) (j c k : ℕ) (hc : m.cats[j]? = some c) (hk : k < m.M) (h : k = 0 ∨ c ≤ k) :
    m.biases[j * m.M + k]? = some 0 := by
  apply scatterMask_false
  rw [freeMask_getElem? m.M m.cats j k c hc hk]
  rcases h with h | h
  · simp [h]
  · simp [show ¬ k < c by omega]

theorem GPC.free_parameters {d : ℕ} {cats cats' : List ℕ} (σ : Fin cats.length → Fin cats'.length) (hpos : ∀ c ∈ cats, 0 < c)
    (hpos' : ∀ c ∈ cats', 0 < c) (hcats : ∀ j, cats'[(σ j : ℕ)]? = cats[(j : ℕ)]?)
    (hfree : ∀ j, freeIntercepts cats j = freeIntercepts cats' (σ j)) (w' w b' b : List ℝ) (hw : EntriesAt (rowPositions σ d) w' w)
    (hb : EntriesAt (interceptPositions σ hfree) b' b) (j : Fin cats.length) :
    ∃ a dl dl', (GPC.free cats' d w' b').itemParameters[(σ j : ℕ)]? = some (a, dl') ∧
      (GPC.free cats d w b).itemParameters[(j : ℕ)]? = some (a, dl) ∧ dl.length = maxCats cats ∧ dl'.length = maxCats cats' ∧
      ∀ k, k < cats[(j : ℕ)] → dl'[k]? = dl[k]? := by
  obtain ⟨a, dl, hp, hdl⟩ := (GPC.free cats d w b).exists_params j j.isLt
  obtain ⟨a', dl', hp', hdl'⟩ := (GPC.free cats' d w' b').exists_params (σ j) (σ j).isLt
  have hq := hp
  have hq' := hp'
  rw [GPC.itemParameters, List.getElem?_zip_eq_some, GPC.free_weights _ _ _ _ hw.2.1] at hq
  rw [GPC.itemParameters, List.getElem?_zip_eq_some, GPC.free_weights _ _ _ _ hw.1] at hq'
  have haa : a' = a := by
    have := viewRows_rowPositions σ w' w hw j
    rw [hq.1, hq'.1] at this
    exact Option.some.inj this
  subst haa
  refine ⟨a', dl, dl', hp', hp, hdl, hdl', fun k hk => ?_⟩
  have hcj : cats[(j : ℕ)]? = some cats[(j : ℕ)] := List.getElem?_eq_getElem _
  have hcj' : cats'[(σ j : ℕ)]? = some cats[(j : ℕ)] := by rw [hcats j, hcj]
  have hkM : k < (GPC.free cats d w b).M := lt_of_lt_of_le hk (le_maxCats _ _ (List.getElem_mem _))
  have hkM' : k < (GPC.free cats' d w' b').M := lt_of_lt_of_le hk (le_maxCats _ _ (List.mem_of_getElem? hcj'))
  rw [← viewRows_row_entry _ _ _ (by rw [GPC.biases, length_scatterMask, length_freeMask]) _ dl hq.2 k hkM,
    ← viewRows_row_entry _ _ _ (by rw [GPC.biases, length_scatterMask, length_freeMask]) _ dl' hq'.2 k hkM']
  by_cases hk0 : k = 0
  · rw [GPC.intercept_zero _ _ _ _ hcj hkM (Or.inl hk0), GPC.intercept_zero _ _ _ _ hcj' hkM' (Or.inl hk0)]
  · have hlt : k - 1 < freeIntercepts cats j := by
      unfold freeIntercepts
      rw [List.getD_eq_getElem?_getD, hcj, Option.getD_some]
      omega
    have e := scatter_intercept (maxCats cats) cats hpos (fun c hc => le_maxCats _ _ hc) b hb.2.1 j k (by omega) hk hlt
    have hk' : k < cats'[(σ j : ℕ)] := by
      have := List.getElem?_eq_getElem (σ j).isLt
      rw [hcj'] at this
      rw [← Option.some.inj this]
      exact hk
    have e' := scatter_intercept (maxCats cats') cats' hpos' (fun c hc => le_maxCats _ _ hc) b' hb.1 (σ j) k (by omega) hk'
      (by rw [← hfree j]; exact hlt)
    refine e'.trans (Eq.trans ?_ e.symm)
    have := hb.2.2 (finSigmaFinEquiv ⟨j, ⟨k - 1, hlt⟩⟩)
    rw [interceptPositions_apply] at this
    exact this

theorem GPC.free_probs_corresponding {d : ℕ} {cats cats' : List ℕ} (σ : Fin cats.length → Fin cats'.length) (hpos : ∀ c ∈ cats, 0 < c)
    (hpos' : ∀ c ∈ cats', 0 < c) (hcats : ∀ j, cats'[(σ j : ℕ)]? = cats[(j : ℕ)]?)
    (hfree : ∀ j, freeIntercepts cats j = freeIntercepts cats' (σ j)) (w' w b' b : List ℝ)
    (hw : EntriesAt (rowPositions σ d) w' w) (hb : EntriesAt (interceptPositions σ hfree) b' b) (θ : List ℝ) (j : Fin cats.length) (r : ℕ) :
    tableProb ((GPC.free cats' d w' b').probs θ) (σ j) r = tableProb ((GPC.free cats d w b).probs θ) j r := by
  have hwf : ∀ w b : List ℝ, w.length = cats.length * d → b.length = ∑ j, freeIntercepts cats j → (GPC.free cats d w b).WF :=
    fun w b hw hb => GPC.free_wf cats hpos d w b hw (hb.trans (freeIntercepts_sum cats hpos))
  have hwf' : ∀ w b : List ℝ, w.length = cats'.length * d → b.length = ∑ j, freeIntercepts cats' j → (GPC.free cats' d w b).WF :=
    fun w b hw hb => GPC.free_wf cats' hpos' d w b hw (hb.trans (freeIntercepts_sum cats' hpos'))
  obtain ⟨a, dl, dl', hp', hp, hdl, hdl', hk⟩ := GPC.free_parameters σ hpos hpos' hcats hfree w' w b' b hw hb j
  have hcj : cats[(j : ℕ)]? = some cats[(j : ℕ)] := List.getElem?_eq_getElem _
  have hcj' : cats'[(σ j : ℕ)]? = some cats[(j : ℕ)] := by rw [hcats j, hcj]
  have hent : ∀ l : List ℝ, ∀ k, k < l.length → l[k]? = some (l.getD k 0) := by
    intro l k hk
    rw [List.getD_eq_getElem?_getD, List.getElem?_eq_getElem hk]
    rfl
  rw [tableProb_row _ _ _ _ (GPC.probs_row _ (hwf w b hw.2.1 hb.2.1) θ j _ a dl (fun k => dl.getD k 0) hcj hp
      fun k hk => hent dl k (by rw [hdl]; exact hk)),
    tableProb_row _ _ _ _ (GPC.probs_row _ (hwf' w' b' hw.1 hb.1) θ (σ j) _ a dl' (fun k => dl'.getD k 0) hcj' hp'
      fun k hk => hent dl' k (by rw [hdl']; exact hk)),
    multinomialLogit_getD _ (GPC.free cats d w b).M (le_maxCats _ _ (List.mem_of_getElem? hcj)),
    multinomialLogit_getD _ (GPC.free cats' d w' b').M (le_maxCats _ _ (List.mem_of_getElem? hcj'))]
  have e : ∀ k, k < cats[(j : ℕ)] → dl'.getD k 0 = dl.getD k 0 := by
    intro k h
    rw [List.getD_eq_getElem?_getD, List.getD_eq_getElem?_getD, hk k h]
  by_cases hr : r < cats[(j : ℕ)]
  · rw [if_pos hr, if_pos hr, e r hr]
    congr 1
    refine Finset.sum_congr rfl fun x hx => ?_
    rw [e x (Finset.mem_range.1 hx)]
  · rw [if_neg hr, if_neg hr]

/-- C113: generalized partial credit models with any numbers of categories: corresponding items get the same slopes, the same
intercepts and the same probabilities; items nobody answered keep slopes 1 and intercepts 0. -/
theorem C113_gpc {d : ℕ} {A : Type} (S : MmlSettings d A) {q : ℕ} (hrule : MmlRule S.hermgauss S.cholesky S.method S.points q)
    (cats cats' : List ℕ) (hne : cats ≠ []) (hpos : ∀ c ∈ cats, 0 < c) (hpos' : ∀ c ∈ cats', 0 < c)
    (σ : Fin cats.length → Fin cats'.length) (hσ : Function.Injective σ) (hcats : ∀ j, cats'[(σ j : ℕ)]? = cats[(j : ℕ)]?)
    (hq : QuietRule S.rule S.start ∨ Function.Surjective σ) (N N' : ℕ) (τ : Fin N → Fin N') (hτ : Function.Injective τ)
    (hu : UnitWeights S q ∨ Function.Surjective τ) (y y' : ℕ → ℕ → Cell) (hy : ∀ i, i < N → ValidResponses cats (y i))
    (hyy : SameAnswers τ σ y' y) :
    ∃ m m', GPC.fitMml S cats (rowsOf N cats.length y) = .ok m ∧ GPC.fitMml S cats' (rowsOf N' cats'.length y') = .ok m' ∧
      m.WF ∧ m'.WF ∧ m.cats = cats ∧ m'.cats = cats' ∧
      (∀ j : Fin cats.length, ∃ a b b', m'.itemParameters[(σ j : ℕ)]? = some (a, b') ∧ m.itemParameters[(j : ℕ)]? = some (a, b) ∧
        ∀ k, k < cats[(j : ℕ)] → ∃ v, b'[k]? = some v ∧ b[k]? = some v) ∧
      (∀ θ (j : Fin cats.length) r, tableProb (m'.probs θ) (σ j) r = tableProb (m.probs θ) j r) ∧
      ∀ j' : Fin cats'.length, (∀ j, σ j ≠ j') →
        m'.itemParameters[(j' : ℕ)]? = some (List.replicate d 1, List.replicate (maxCats cats') 0) := by
  have hfree : ∀ j, freeIntercepts cats j = freeIntercepts cats' (σ j) := by
    intro j
    unfold freeIntercepts
    rw [List.getD_eq_getElem?_getD, List.getD_eq_getElem?_getD, hcats j]
  have hsum := freeIntercepts_sum cats hpos
  have hsum' := freeIntercepts_sum cats' hpos'
  have hwf : ∀ w b : List ℝ, w.length = cats.length * d → b.length = ∑ j, freeIntercepts cats j → (GPC.free cats d w b).WF :=
    fun w b hw hb => GPC.free_wf cats hpos d w b hw (hb.trans hsum)
  have hwf' : ∀ w b : List ℝ, w.length = cats'.length * d → b.length = ∑ j, freeIntercepts cats' j → (GPC.free cats' d w b).WF :=
    fun w b hw hb => GPC.free_wf cats' hpos' d w b hw (hb.trans hsum')
  have hprobs : ∀ w' w b' b, EntriesAt (rowPositions σ d) w' w → EntriesAt (interceptPositions σ hfree) b' b →
      ∀ θ (j : Fin cats.length) r, tableProb ((GPC.free cats' d w' b').probs θ) (σ j) r
        = tableProb ((GPC.free cats d w b).probs θ) j r :=
    fun w' w b' b hw hb => GPC.free_probs_corresponding σ hpos hpos' hcats hfree w' w b' b hw hb
  have hne' : cats' ≠ [] := by
    intro h
    have := (σ ⟨0, List.length_pos_of_ne_nil hne⟩).isLt
    simp [h] at this
  obtain ⟨w', w, b', b, h1, h2, h3, h4, h5, h6⟩ := mmlFit_corresponding S hrule (fun w b => (GPC.free cats d w b).scorer d)
    (fun w b => (GPC.free cats' d w b).scorer d) cats cats'
    (fun w b θ => tableProb ((GPC.free cats d w b).probs (List.ofFn θ)))
    (fun w b θ => tableProb ((GPC.free cats' d w b).probs (List.ofFn θ)))
    (rowPositions σ d) (interceptPositions σ hfree) (rowPositions_injective hσ d) (interceptPositions_injective hσ hfree)
    (hq.imp id fun h => ⟨rowPositions_surjective h d, interceptPositions_surjective h hfree⟩)
    (fun w b hw hb => (GPC.free cats d w b).isScorer (hwf w b hw hb) hne d)
    (fun w b hw hb => (GPC.free cats d w b).positive (hwf w b hw hb) d)
    (fun w b hw hb => (GPC.free cats' d w b).isScorer (hwf' w b hw hb) hne' d)
    (fun w b hw hb => (GPC.free cats' d w b).positive (hwf' w b hw hb) d)
    σ hσ (fun w' w b' b hw hb θ j => funext fun r => hprobs w' w b' b hw hb (List.ofFn θ) j r) N N' τ hτ hu y y' hy hcats hyy
    (List.replicate (cats'.length * d) 1) (List.replicate (cats.length * d) 1) _ _ (entriesAt_replicate _ _)
    (entriesAt_replicate _ 0)
  rw [hsum] at h1
  rw [hsum'] at h2
  refine ⟨_, _, GPC.fitMml_ok S cats _ w b h1, GPC.fitMml_ok S cats' _ w' b' h2, hwf w b h3.2.1 h4.2.1, hwf' w' b' h3.1 h4.1, rfl, rfl,
    fun j => ?_, hprobs w' w b' b h3 h4, fun j' hj' => ?_⟩
  · obtain ⟨a, dl, dl', hp', hp, hdl, _, hk⟩ := GPC.free_parameters σ hpos hpos' hcats hfree w' w b' b h3 h4 j
    refine ⟨a, dl, dl', hp', hp, fun k h => ?_⟩
    obtain ⟨v, hv⟩ := getElem?_of_lt dl k (by rw [hdl]; exact lt_of_lt_of_le h (le_maxCats _ _ (List.getElem_mem _)))
    exact ⟨v, (hk k h).trans hv, hv⟩
  · rw [GPC.itemParameters, GPC.free_weights _ _ _ _ h3.1, List.getElem?_zip_eq_some]
    refine ⟨viewRows_outside σ w' 1 h3.1 h5 j' hj', ?_⟩
    have hrow := viewRows_row cats'.length (maxCats cats') (GPC.free cats' d w' b').biases
      (by rw [GPC.biases, length_scatterMask, length_freeMask]; rfl) j' j'.isLt (fun _ => (0 : ℝ)) ?_
    · refine hrow.trans ?_
      simp [List.map_const']
    · intro k hk
      have hcj : cats'[(j' : ℕ)]? = some cats'[(j' : ℕ)] := List.getElem?_eq_getElem _
      by_cases hk0 : k = 0 ∨ cats'[(j' : ℕ)] ≤ k
      · exact GPC.intercept_zero (GPC.free cats' d w' b') _ _ _ hcj hk hk0
      · push Not at hk0
        have hlt : k - 1 < freeIntercepts cats' j' := by
          unfold freeIntercepts
          rw [List.getD_eq_getElem?_getD, hcj, Option.getD_some]
          omega
        refine (scatter_intercept (maxCats cats') cats' hpos' (fun c hc => le_maxCats _ _ hc) b' h4.1 j' k (by omega) hk0.2 hlt).trans ?_
        rw [h6 (finSigmaFinEquiv ⟨j', ⟨k - 1, hlt⟩⟩), List.getElem?_replicate, if_pos (Fin.isLt _)]
        intro i hi
        obtain ⟨⟨j, l⟩, rfl⟩ := finSigmaFinEquiv.surjective i
        rw [interceptPositions_apply] at hi
        have hi := finSigmaFinEquiv.injective hi
        rw [Sigma.mk.injEq] at hi
        exact hj' j hi.1

/-! ## Respondents who answered nothing -/

/-- C113: whatever the integration method, every respondent who answered nothing subtracts one and the same number from the objective,
the logarithm of the sum of the integration weights, so that the maximum is where it was. -/
theorem C113_empty_respondents {d : ℕ} {hg : ℕ → Except PyErr (List ℝ × List ℝ)}
    {ch : Matrix (Fin d) (Fin d) ℝ → Except PyErr (Matrix (Fin d) (Fin d) ℝ)} {method : String} {points : Option ℕ} {q : ℕ}
    (hrule : MmlRule hg ch method points q) {cats : List ℕ} (N n : ℕ) (y : ℕ → ℕ → Cell) (hy : ∀ i, i < N → ValidResponses cats (y i))
    (hempty : ∀ i j, N ≤ i → j < cats.length → cellMissing (y i j) = true) :
    ∃ pts lw, mmlIntegration hg ch method points none = .ok (pts, lw) ∧
      ∀ (m : Scorer d) (P : (Fin d → ℝ) → ℕ → ℕ → ℝ), IsScorer m cats P → PositiveProbs P cats →
        ∃ x, mmlLoss m (rowsOf N cats.length y) pts lw = .ok (some x) ∧
          mmlLoss m (rowsOf (N + n) cats.length y) pts lw
            = .ok (some (x - n * Real.log (weighted pts (lw.map Real.exp) fun _ => 1))) := by
  obtain ⟨pts, lw, hok, hne, hlen, _, _⟩ := mmlIntegration_symmetric hrule
  refine ⟨pts, lw, hok, fun m P hm hpos => ⟨_, mmlLoss_weighted hm hpos N y hy pts lw hlen hne, ?_⟩⟩
  rw [mmlLoss_weighted hm hpos (N + n) y ?_ pts lw hlen hne, Finset.sum_range_add]
  · congr 2
    rw [neg_add, sub_eq_add_neg]
    congr 2
    rw [Finset.sum_congr rfl fun i _ => by
      rw [observedLikelihood_empty P cats.length (y (N + i)) fun j hj => hempty (N + i) j (by omega) hj]]
    rw [Finset.sum_const, Finset.card_range, nsmul_eq_mul]
  · intro i hi
    by_cases h : i < N
    · exact hy i h
    · intro j c hc hobs
      rw [hempty i j (by omega) (lt_of_getElem?_some hc)] at hobs
      cases hobs

/-! ## Instances -/

/-- The data of `exTwoClusters` with respondents and items in reverse order and an item before them that nobody answered. -/
def exTurnedClusters (i j : ℕ) : Cell := if j = 0 then none else exTwoClusters (5 - i) (4 - j)

theorem exTurnedClusters_same : SameAnswers (Fin.rev : Fin 6 → Fin 6) (fun j : Fin 4 => (j.castSucc.rev : Fin 5)) exTurnedClusters
    exTwoClusters := by
  refine ⟨fun i j => ?_, fun i' j' h => ?_, fun i' j' h => absurd (Fin.rev_rev i') (h i'.rev)⟩
  · have h1 := i.isLt
    have h2 := j.isLt
    simp only [Fin.val_rev, Fin.val_castSucc, exTurnedClusters]
    rw [if_neg (by omega), show 5 - (6 - ((i : ℕ) + 1)) = i by omega, show 4 - (5 - ((j : ℕ) + 1)) = j by omega]
  · have h0 : j' = 0 := by
      by_contra hne
      have hpos : 0 < (j' : ℕ) := Nat.pos_of_ne_zero fun h => hne (Fin.ext h)
      have hlt := j'.isLt
      refine h ⟨4 - j', by omega⟩ (Fin.ext ?_)
      simp only [Fin.val_rev, Fin.val_castSucc]
      omega
    rw [h0]
    rfl

theorem exTurnedClusters_injective : Function.Injective fun j : Fin 4 => (j.castSucc.rev : Fin 5) := by
  intro a b h
  exact Fin.castSucc_injective _ (Fin.rev_injective h)

theorem exTurnedClusters_first : ∀ j : Fin 4, (j.castSucc.rev : Fin 5) ≠ 0 := by
  intro j h
  have := congrArg Fin.val h
  simp only [Fin.val_rev, Fin.val_castSucc, Fin.val_zero] at this
  have := j.isLt
  omega

example : ∃ m m', TwoPL.fitMml exTwoTraitFit 4 (rowsOf 6 4 exTwoClusters) = .ok m ∧
    TwoPL.fitMml exTwoTraitFit 5 (rowsOf 6 5 exTurnedClusters) = .ok m' ∧ m'.itemParameters[4]? = m.itemParameters[0]? ∧
    m'.itemParameters[0]? = some ([1, 1], 0) := by
  obtain ⟨m, m', h1, h2, _, _, h3, _, h4⟩ := C113_twoPL exTwoTraitFit exTwoTraitFit_rule 4 5 (by norm_num) _ exTurnedClusters_injective
    (Or.inl C113_adam_quiet) 6 6 _ Fin.rev_injective (Or.inr Fin.rev_surjective) exTwoClusters exTurnedClusters
    (fun i _ => exTwoClusters_valid i) exTurnedClusters_same
  exact ⟨m, m', h1, h2, h3 0, h4 0 exTurnedClusters_first⟩

example : ∃ m m', ThreePL.fitMml exTwoTraitFit 4 (rowsOf 6 4 exTwoClusters) = .ok m ∧
    ThreePL.fitMml exTwoTraitFit 5 (rowsOf 6 5 exTurnedClusters) = .ok m' ∧ m'.itemParameters[4]? = m.itemParameters[0]? ∧
    m'.itemParameters[0]? = some ([1, 1], 0, sigmoid (-1.1)) := by
  obtain ⟨m, m', h1, h2, _, _, h3, _, h4⟩ := C113_threePL exTwoTraitFit exTwoTraitFit_rule 4 5 (by norm_num) _ exTurnedClusters_injective
    (Or.inl C113_adam_quiet) 6 6 _ Fin.rev_injective (Or.inr Fin.rev_surjective) exTwoClusters exTurnedClusters
    (fun i _ => exTwoClusters_valid i) exTurnedClusters_same
  exact ⟨m, m', h1, h2, h3 0, h4 0 exTurnedClusters_first⟩

/-- Items with four and two categories, and the same after an item with three categories that nobody answered. -/
example : ∃ m m', GPC.fitMml exTwoTraitFit [4, 2, 2, 2] (rowsOf 6 4 exTwoClusters) = .ok m ∧
    GPC.fitMml exTwoTraitFit [3, 2, 2, 2, 4] (rowsOf 6 5 exTurnedClusters) = .ok m' ∧
    (∀ θ r, tableProb (m'.probs θ) 4 r = tableProb (m.probs θ) 0 r) ∧
    m'.itemParameters[0]? = some ([1, 1], [0, 0, 0, 0]) := by
  obtain ⟨m, m', h1, h2, _, _, _, _, _, h3, h4⟩ := C113_gpc exTwoTraitFit exTwoTraitFit_rule [4, 2, 2, 2] [3, 2, 2, 2, 4] (by simp)
    (by simp) (by simp) (fun j : Fin 4 => (j.castSucc.rev : Fin 5)) exTurnedClusters_injective (by decide) (Or.inl C113_adam_quiet) 6 6 _
    Fin.rev_injective (Or.inr Fin.rev_surjective) exTwoClusters exTurnedClusters (fun i _ j c hc hobs => by
      have hj : j < 4 := lt_of_getElem?_some hc
      obtain ⟨r, hr, hlt⟩ := exTwoClusters_valid i j 2 (by rw [List.getElem?_replicate, if_pos hj]) hobs
      refine ⟨r, hr, lt_of_lt_of_le hlt ?_⟩
      interval_cases j <;> simp at hc <;> omega) exTurnedClusters_same
  exact ⟨m, m', h1, h2, fun θ r => h3 θ 0 r, h4 0 exTurnedClusters_first⟩

/-- Gauss-Hermite integration with one node. -/
noncomputable def exOneNodeFit : MmlSettings 2 AdamState :=
  { exTwoTraitFit with
    hermgauss := fun _ => .ok ([0], [Real.sqrt Real.pi])
    cholesky := fun c => .ok c
    method := "gauss_hermite"
    points := some 1 }

theorem exOneNodeFit_unit : UnitWeights exOneNodeFit 1 :=
  ⟨rfl, rfl, [0], [Real.sqrt Real.pi], rfl, rfl, by simp [Real.pi_pos], by simp, rfl⟩

theorem exOneNodeFit_rule : MmlRule exOneNodeFit.hermgauss exOneNodeFit.cholesky exOneNodeFit.method exOneNodeFit.points 1 :=
  ⟨rfl, le_rfl, fun _ => ⟨[0], [Real.sqrt Real.pi], rfl, rfl, rfl, by simp [Real.pi_pos], rfl⟩⟩

theorem exWithEmpty_same : SameAnswers (Fin.castLE (by norm_num) : Fin 6 → Fin 9) (id : Fin 4 → Fin 4)
    (fun i j => if i < 6 then exTwoClusters i j else none) exTwoClusters := by
  refine ⟨fun i j => ?_, fun i' j' h => absurd rfl (h j'), fun i' j' h => ?_⟩
  · simp [i.isLt]
  · have : ¬ (i' : ℕ) < 6 := fun hlt => h ⟨i', hlt⟩ rfl
    simp [this, cellMissing]

/-- Three respondents who answered nothing. -/
example : ∃ m m', TwoPL.fitMml exOneNodeFit 4 (rowsOf 6 4 exTwoClusters) = .ok m ∧
    TwoPL.fitMml exOneNodeFit 4 (rowsOf 9 4 fun i j => if i < 6 then exTwoClusters i j else none) = .ok m' ∧
    m'.itemParameters[0]? = m.itemParameters[0]? := by
  obtain ⟨m, m', h1, h2, _, _, h3, _, _⟩ := C113_twoPL exOneNodeFit exOneNodeFit_rule 4 4 (by norm_num) id Function.injective_id
    (Or.inr Function.surjective_id) 6 9 _ (Fin.castLE_injective _) (Or.inl exOneNodeFit_unit) exTwoClusters _
    (fun i _ => exTwoClusters_valid i) exWithEmpty_same
  exact ⟨m, m', h1, h2, h3 0⟩

end Irt
