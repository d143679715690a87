import Verif.Model.GradientFit
import Verif.Lemmas.GridSymmetry
import Verif.Lemmas.LogitModel
import Verif.Lemmas.Graded
import Verif.Props.ScoreOrder

/-! # Gradient training of slopes that start out equal -/

namespace Irt
open Spec

/-- An invariant of the parameters that every update keeps and under which the loss never raises holds at the end of training. -/
theorem mmlEpochs_invariant {S : Type} (T : Trainer S) (c : TrainConfig) (b : List ℕ) (I : S → Prop)
    (hstep : ∀ i lr s, I s → I (T.update i b lr s)) (hloss : ∀ i s, I s → ∃ x, T.loss i b s = .ok x) (n : ℕ) (st : LoopState S)
    (hp : I st.params) (hb : ∀ s, st.bestState = some s → I s) :
    ∃ st', mmlEpochs T c b n st = .ok st' ∧ I st'.final := by
  induction n generalizing st with
  | zero =>
    refine ⟨st, rfl, ?_⟩
    unfold LoopState.final
    cases h : st.bestState with
    | none => exact hp
    | some s => exact hb s h
  | succ n ih =>
    obtain ⟨x, hx⟩ := hloss st.history.length st.params hp
    have hnew := hstep st.history.length st.sched.lr st.params hp
    unfold mmlEpochs
    have hit : ∃ st', trainIteration T c b st = .ok st' ∧ I st'.params ∧ ∀ s, st'.bestState = some s → I s := by
      unfold trainIteration
      rw [hx]
      refine ⟨_, rfl, hnew, ?_⟩
      intro s hs
      simp only at hs
      split at hs
      · rw [← Option.some.inj hs]; exact hnew
      · exact hb s hs
    obtain ⟨st', h1, h2, h3⟩ := hit
    rw [h1]
    simp only [bind_ok]
    split
    · refine ⟨st', rfl, ?_⟩
      unfold LoopState.final
      cases h : st'.bestState with
      | none => exact h2
      | some s => exact h3 s h
    · exact ih st' h2 h3

/-- Every item's entries for the `d` latent variables are equal, in a row-major table of `n` items. -/
def EqualColumns {α : Type} (n d : ℕ) (w : List α) : Prop :=
  ∀ j, j < n → ∀ k k', k < d → k' < d → w[j * d + k]? = w[j * d + k']?

/-- The table `w'` is `w` with its columns renamed by `σ`. -/
def ColumnsRenamed (n d : ℕ) (σ : Equiv.Perm (Fin d)) (w' w : List ℝ) : Prop :=
  ∀ j, j < n → ∀ k : Fin d, w'.getD (j * d + k) 0 = w.getD (j * d + σ k) 0

theorem index_inj {d j j' k k' : ℕ} (hk : k < d) (hk' : k' < d) (h : j * d + k = j' * d + k') : j = j' ∧ k = k' := by
  have e1 : (j * d + k) / d = j := by
    rw [Nat.add_comm, Nat.add_mul_div_right _ _ (by omega), Nat.div_eq_of_lt hk, Nat.zero_add]
  have e2 : (j' * d + k') / d = j' := by
    rw [Nat.add_comm, Nat.add_mul_div_right _ _ (by omega), Nat.div_eq_of_lt hk', Nat.zero_add]
  have : j = j' := by rw [← e1, h, e2]
  subst this
  exact ⟨rfl, by omega⟩

theorem index_lt {n d j k : ℕ} (hj : j < n) (hk : k < d) : j * d + k < n * d := by
  calc j * d + k < j * d + d := by omega
    _ = (j + 1) * d := by ring
    _ ≤ n * d := Nat.mul_le_mul_right d hj

/-- Putting `x` into one column of an item or into another one gives tables that differ by a renaming of the columns. -/
theorem set_renamed (n d : ℕ) (w : List ℝ) (hw : w.length = n * d) (heq : EqualColumns n d w) (j : ℕ) (hj : j < n) (k k' : Fin d)
    (x : ℝ) : ColumnsRenamed n d (Equiv.swap k k') (w.set (j * d + k) x) (w.set (j * d + k') x) := by
  intro i hi l
  have hσ := (Equiv.swap k k' l).isLt
  have key : ∀ (a : ℕ) (b : ℕ), b < n * d → (w.set a x).getD b 0 = if a = b then x else w.getD b 0 := by
    intro a b hb
    rw [List.getD_eq_getElem?_getD, List.getElem?_set]
    split_ifs with h1 h2
    · rfl
    · omega
    · rw [List.getD_eq_getElem?_getD]
  rw [key _ _ (index_lt hi l.isLt), key _ _ (index_lt hi hσ)]
  by_cases h : j = i ∧ l = k
  · obtain ⟨rfl, rfl⟩ := h
    rw [if_pos rfl, if_pos (by rw [Equiv.swap_apply_left])]
  · rw [if_neg, if_neg, List.getD_eq_getElem?_getD, List.getD_eq_getElem?_getD, heq i hi l _ l.isLt hσ]
    · intro h'
      obtain ⟨h1, h2⟩ := index_inj k'.isLt hσ h'
      refine h ⟨h1, ?_⟩
      have h3 : Equiv.swap k k' l = k' := Fin.ext h2.symm
      exact (Equiv.swap k k').injective (h3.trans (Equiv.swap_apply_left k k').symm)
    · intro h'
      obtain ⟨h1, h2⟩ := index_inj k.isLt l.isLt h'
      exact h ⟨h1, Fin.ext h2.symm⟩

/-- Training a loss that does not depend on the names of the latent variables keeps slopes equal that start out equal. -/
theorem gradientFit_equal {A : Type} (loss : List ℝ → List ℝ → Except PyErr Num) (rule : ℕ → EntryRule A) (a₀ : A)
    (c : TrainConfig) (lr : ℝ) (respondents maxEpochs : ℕ) (n d nr : ℕ) (weight rest : List ℝ) (hw : weight.length = n * d)
    (hr : rest.length = nr) (heq : EqualColumns n d weight)
    (hok : ∀ w r : List ℝ, w.length = n * d → r.length = nr → ∃ x, loss w r = .ok x)
    (hsym : ∀ (σ : Equiv.Perm (Fin d)) (w' w r : List ℝ), w'.length = n * d → w.length = n * d → r.length = nr →
      ColumnsRenamed n d σ w' w → loss w' r = loss w r) :
    ∃ w r, gradientFit loss rule a₀ c lr respondents maxEpochs weight rest = .ok (w, r) ∧ w.length = n * d ∧ r.length = nr ∧
      EqualColumns n d w := by
  set I : FitState A → Prop := fun s => s.weight.length = n * d ∧ s.rest.length = nr ∧ EqualColumns n d s.weight with hI
  have hmap : ∀ {α β : Type} (f : α → β) (l : List α), EqualColumns n d l → EqualColumns n d (l.map f) := by
    intro α β f l h j hj k k' hk hk'
    rw [List.getElem?_map, List.getElem?_map, h j hj k k' hk hk']
  have hstep : ∀ i lr s, I s → I ((gradientTrainer loss rule).update i (List.range respondents) lr s) := by
    rintro i lr s ⟨h1, h2, h3⟩
    refine ⟨by simp [gradientTrainer, h1], by simp [gradientTrainer, h2], ?_⟩
    intro j hj k k' hk hk'
    have hw1 : (s.weight.map Prod.fst).length = n * d := by rw [List.length_map, h1]
    have hr1 : (s.rest.map Prod.fst).length = nr := by rw [List.length_map, h2]
    have hgrad : partialAt (fun p => loss p (s.rest.map Prod.fst)) (s.weight.map Prod.fst) (j * d + k)
        = partialAt (fun p => loss p (s.rest.map Prod.fst)) (s.weight.map Prod.fst) (j * d + k') := by
      unfold partialAt
      congr 1
      · funext x
        exact congrArg lossValue (hsym (Equiv.swap ⟨k, hk⟩ ⟨k', hk'⟩) _ _ _ (by rw [List.length_set, hw1]) (by rw [List.length_set, hw1]) hr1
          (set_renamed n d _ hw1 (hmap _ _ h3) j hj ⟨k, hk⟩ ⟨k', hk'⟩ x))
      · rw [List.getD_eq_getElem?_getD, List.getD_eq_getElem?_getD, hmap Prod.fst _ h3 j hj k k' hk hk']
    simp only [gradientTrainer, List.getElem?_mapIdx, hgrad, h3 j hj k k' hk hk']
  have hloss : ∀ i s, I s → ∃ x, (gradientTrainer loss rule).loss i (List.range respondents) s = .ok x := by
    rintro i s ⟨h1, h2, _⟩
    exact hok _ _ (by rw [List.length_map, h1]) (by rw [List.length_map, h2])
  obtain ⟨st, h1, h2, h3, h4⟩ := mmlEpochs_invariant (gradientTrainer loss rule) c (List.range respondents) I hstep hloss maxEpochs
    (LoopState.start lr ⟨weight.map fun v => (v, a₀), rest.map fun v => (v, a₀)⟩)
    ⟨by simp [LoopState.start, hw], by simp [LoopState.start, hr], hmap _ _ heq⟩ (by simp [LoopState.start])
  refine ⟨st.final.weight.map Prod.fst, st.final.rest.map Prod.fst, ?_, by rw [List.length_map, h2], by rw [List.length_map, h3],
    hmap _ _ h4⟩
  unfold gradientFit
  rw [h1]

/-! ## Slope tables -/

theorem freeSlopes (n d : ℕ) (w : List ℝ) (hw : w.length = n * d) :
    scatterMask 0 (List.replicate n (List.replicate d true)).flatten w = w := by
  rw [List.flatten_replicate_replicate]
  exact scatterMask_replicate_true w _ hw

theorem countTrue_free (n d : ℕ) : countTrue (List.replicate n (List.replicate d true)).flatten = n * d := by
  rw [List.flatten_replicate_replicate, countTrue]
  simp

theorem row_entry (n d : ℕ) (w : List ℝ) (hw : w.length = n * d) (j : ℕ) (row : List ℝ) (h : (viewRows n d w)[j]? = some row)
    (k : ℕ) (hk : k < d) : row.getD k 0 = w.getD (j * d + k) 0 := by
  rw [List.getD_eq_getElem?_getD, ← viewRows_row_entry n d w hw j row h k hk, List.getD_eq_getElem?_getD]

/-- Renaming the columns of the slope table is renaming the latent variables. -/
theorem slopes_renamed (n d : ℕ) (σ : Equiv.Perm (Fin d)) (w' w : List ℝ) (hw' : w'.length = n * d) (hw : w.length = n * d)
    (h : ColumnsRenamed n d σ w' w) (θ : Fin d → ℝ) :
    (viewRows n d w').map (fun r => dot (List.ofFn θ) r) = (viewRows n d w).map (fun r => dot (List.ofFn (relabel σ.symm θ)) r) := by
  apply List.ext_getElem?
  intro j
  rw [List.getElem?_map, List.getElem?_map]
  by_cases hj : j < n
  · obtain ⟨r', hr'⟩ := getElem?_of_lt (viewRows n d w') j (by rw [length_viewRows]; exact hj)
    obtain ⟨r, hr⟩ := getElem?_of_lt (viewRows n d w) j (by rw [length_viewRows]; exact hj)
    rw [hr', hr, Option.map_some, Option.map_some, dot_ofFn, dot_ofFn]
    congr 1
    rw [← Equiv.sum_comp σ fun k => relabel σ.symm θ k * r.getD k 0]
    refine Finset.sum_congr rfl fun k _ => ?_
    rw [row_entry n d w' hw' j r' hr' k k.isLt, row_entry n d w hw j r hr _ (σ k).isLt, h j hj k]
    simp [relabel]
  · rw [List.getElem?_eq_none (by rw [length_viewRows]; omega), List.getElem?_eq_none (by rw [length_viewRows]; omega)]
    rfl

/-- With equal columns the inner products depend on the sum of the latent scores only. -/
theorem slopes_equal (n d : ℕ) (w : List ℝ) (hw : w.length = n * d) (h : EqualColumns n d w) (θ θ' : Fin d → ℝ)
    (hsum : ∑ k, θ k = ∑ k, θ' k) :
    (viewRows n d w).map (fun r => dot (List.ofFn θ) r) = (viewRows n d w).map (fun r => dot (List.ofFn θ') r) := by
  apply List.ext_getElem?
  intro j
  rw [List.getElem?_map, List.getElem?_map]
  by_cases hj : j < n
  · obtain ⟨r, hr⟩ := getElem?_of_lt (viewRows n d w) j (by rw [length_viewRows]; exact hj)
    rw [hr, Option.map_some, Option.map_some, dot_ofFn, dot_ofFn]
    congr 1
    have e : ∀ u : Fin d → ℝ, ∑ k, u k * r.getD k 0 = (∑ k, u k) * w.getD (j * d) 0 := by
      intro u
      rw [Finset.sum_mul]
      refine Finset.sum_congr rfl fun k _ => ?_
      rw [row_entry n d w hw j r hr k k.isLt, List.getD_eq_getElem?_getD, h j hj k 0 k.isLt (by have := k.isLt; omega), Nat.add_zero,
        List.getD_eq_getElem?_getD]
    rw [e, e, hsum]
  · rw [List.getElem?_eq_none (by rw [length_viewRows]; omega)]
    rfl

/-! ## Losses that depend on the model through its probabilities -/

theorem PositiveProbs.of_sameUpTo {d : ℕ} {g : (Fin d → ℝ) → Fin d → ℝ} {P' P : (Fin d → ℝ) → ℕ → ℕ → ℝ} {cats : List ℕ}
    (h : SameUpTo g P' P) (hP : PositiveProbs P cats) : PositiveProbs P' cats := by
  intro θ j c r hc hr
  rw [h θ]
  exact hP _ j c r hc hr

theorem mmlLoss_symmetric {d : ℕ} {m' m : Scorer d} {cats : List ℕ} {P' P : (Fin d → ℝ) → ℕ → ℕ → ℝ} (hm' : IsScorer m' cats P')
    (hm : IsScorer m cats P) (hpos : PositiveProbs P cats) {g : (Fin d → ℝ) → Fin d → ℝ} (hg : SameUpTo g P' P) (N : ℕ)
    (y : ℕ → ℕ → Cell) (hy : ∀ i, i < N → ValidResponses cats (y i)) (pts : Thetas d) (lw : List ℝ) (hlen : lw.length = pts.length)
    (hne : pts ≠ []) (hgrid : GridSymmetric pts lw g) :
    mmlLoss m' (rowsOf N cats.length y) pts lw = mmlLoss m (rowsOf N cats.length y) pts lw := by
  rw [mmlLoss_weighted hm' (PositiveProbs.of_sameUpTo hg hpos) N y hy pts lw hlen hne, mmlLoss_weighted hm hpos N y hy pts lw hlen hne]
  congr 3
  refine Finset.sum_congr rfl fun i _ => ?_
  rw [← hgrid (observedLikelihood P cats.length (y i))]
  congr 2
  funext θ
  unfold observedLikelihood
  rw [hg θ]

/-- Fitting a family of scorers whose probabilities change with the names of the latent variables as the slope table does. -/
theorem mmlFit_equal {d : ℕ} {A : Type} (S : MmlSettings d A) {q : ℕ} (hrule : MmlRule S.hermgauss S.cholesky S.method S.points q)
    (scorer : List ℝ → List ℝ → Scorer d) (cats : List ℕ) (P : List ℝ → List ℝ → (Fin d → ℝ) → ℕ → ℕ → ℝ) (n nr : ℕ)
    (hsc : ∀ w r : List ℝ, w.length = n * d → r.length = nr → IsScorer (scorer w r) cats (P w r))
    (hpos : ∀ w r : List ℝ, w.length = n * d → r.length = nr → PositiveProbs (P w r) cats)
    (hsym : ∀ (σ : Equiv.Perm (Fin d)) (w' w r : List ℝ), w'.length = n * d → w.length = n * d → r.length = nr →
      ColumnsRenamed n d σ w' w → SameUpTo (relabel σ.symm) (P w' r) (P w r))
    (N : ℕ) (y : ℕ → ℕ → Cell) (hy : ∀ i, i < N → ValidResponses cats (y i)) (weight rest : List ℝ) (hw : weight.length = n * d)
    (hr : rest.length = nr) (heq : EqualColumns n d weight) :
    ∃ w r, S.fit scorer (rowsOf N cats.length y) weight rest = .ok (w, r) ∧ w.length = n * d ∧ r.length = nr ∧ EqualColumns n d w := by
  obtain ⟨pts, lw, hok, hne, hlen, hperm, _⟩ := mmlIntegration_symmetric hrule
  unfold MmlSettings.fit
  rw [hok]
  simp only [bind_ok]
  refine gradientFit_equal _ S.rule S.start S.config S.lr _ S.maxEpochs n d nr weight rest hw hr heq ?_ ?_
  · intro w r hw hr
    exact ⟨_, mmlLoss_weighted (hsc w r hw hr) (hpos w r hw hr) N y hy pts lw hlen hne⟩
  · intro σ w' w r hw' hw hr hren
    exact mmlLoss_symmetric (hsc w' r hw' hr) (hsc w r hw hr) (hpos w r hw hr) (hsym σ w' w r hw' hw hr hren) N y hy pts lw hlen hne
      (hperm σ.symm)

end Irt
