import Verif.Spec.EvaluationOrder
import Verif.Model.Dependence
import Verif.Lemmas.LogLik
import Verif.Lemmas.Splits
import Mathlib.Data.List.Perm.Basic
import Mathlib.Data.List.FinRange
import Mathlib.Data.List.OfFn
import Mathlib.Algebra.BigOperators.Group.Finset.Basic
import Mathlib.Algebra.BigOperators.Fin

/-!
# Lemmas on respondents in another order
-/

namespace Irt

open Spec

theorem ofFn_perm {n : ℕ} {α : Type} (σ : Equiv.Perm (Fin n)) (a : Fin n → α) :
    (List.ofFn fun i => a (σ i)).Perm (List.ofFn a) := Equiv.Perm.ofFn_comp_perm σ a

theorem zip_ofFn {n : ℕ} {α β : Type} (a : Fin n → α) (b : Fin n → β) :
    List.zip (List.ofFn a) (List.ofFn b) = List.ofFn fun i => (a i, b i) := by
  apply List.ext_getElem
  · simp
  · intro i h1 h2
    simp

theorem zipWith_ofFn {n : ℕ} {α β γ : Type} (f : α → β → γ) (a : Fin n → α) (b : Fin n → β) :
    List.zipWith f (List.ofFn a) (List.ofFn b) = List.ofFn fun i => f (a i) (b i) := by
  apply List.ext_getElem
  · simp
  · intro i h1 h2
    simp

theorem map_ofFn' {n : ℕ} {α β : Type} (f : α → β) (a : Fin n → α) :
    (List.ofFn a).map f = List.ofFn fun i => f (a i) := by
  rw [List.map_ofFn]; rfl

theorem getElem?_ofFn' {n : ℕ} {α : Type} (a : Fin n → α) (i : Fin n) : (List.ofFn a)[(i : ℕ)]? = some (a i) := by
  rw [List.getElem?_ofFn, dif_pos i.2]

theorem mapM_ofFn {n : ℕ} {α β : Type} (f : α → Except PyErr β) (a : Fin n → α) (v : List β) :
    (List.ofFn a).mapM f = .ok v ↔ ∃ g : Fin n → β, (∀ i, f (a i) = .ok (g i)) ∧ v = List.ofFn g := by
  rw [mapM_ok_iff]
  constructor
  · rintro ⟨hl, h⟩
    rw [List.length_ofFn] at hl
    have h' : ∀ i : Fin n, ∃ y, v[(i : ℕ)]? = some y ∧ f (a i) = .ok y := fun i => h i _ (getElem?_ofFn' a i)
    choose g hg1 hg2 using h'
    refine ⟨g, hg2, ?_⟩
    apply List.ext_getElem?
    intro i
    by_cases hi : i < n
    · rw [hg1 ⟨i, hi⟩, getElem?_ofFn' g ⟨i, hi⟩]
    · rw [List.getElem?_eq_none (by omega), List.getElem?_eq_none (by simpa using hi)]
  · rintro ⟨g, hg, rfl⟩
    refine ⟨by simp, fun i x hx => ?_⟩
    have hi : i < n := by
      have := List.getElem?_eq_some_iff.1 hx
      simpa using this.1
    rw [getElem?_ofFn' a ⟨i, hi⟩] at hx
    cases hx
    exact ⟨_, getElem?_ofFn' g ⟨i, hi⟩, hg _⟩

theorem movedBy_ofFn {n : ℕ} {β : Type} (σ : Equiv.Perm (Fin n)) (g : Fin n → β) :
    MovedBy σ (List.ofFn g) (List.ofFn fun i => g (σ i)) :=
  ⟨by simp, by simp, fun i => by rw [getElem?_ofFn', getElem?_ofFn']⟩

theorem bind_ok_iff {α β : Type} (a : Except PyErr α) (g : α → Except PyErr β) (x : β) :
    a >>= g = .ok x ↔ ∃ y, a = .ok y ∧ g y = .ok x := by
  cases a with
  | error e => simp [bind, Except.bind]
  | ok y => simp [bind, Except.bind]

theorem unchanged_of_imp {n : ℕ} {α β : Type} (F : (Fin n → α) → Except PyErr β)
    (h : ∀ (σ : Equiv.Perm (Fin n)) (a : Fin n → α) x, F a = .ok x → F (fun i => a (σ i)) = .ok x)
    (σ : Equiv.Perm (Fin n)) (a : Fin n → α) : Unchanged (F a) (F fun i => a (σ i)) := by
  intro x
  refine ⟨h σ a x, fun hx => ?_⟩
  have := h σ⁻¹ _ x hx
  simpa using this

/-- A summary of what is computed for each respondent. -/
theorem unchanged_rows {n : ℕ} {α β γ : Type} (f : α → Except PyErr β) (g : List β → Except PyErr γ)
    (hg : ∀ l l', l.Perm l' → g l = g l') (σ : Equiv.Perm (Fin n)) (a : Fin n → α) :
    Unchanged ((List.ofFn a).mapM f >>= g) ((List.ofFn fun i => a (σ i)).mapM f >>= g) := by
  refine unchanged_of_imp (fun a : Fin n → α => (List.ofFn a).mapM f >>= g) ?_ σ a
  intro σ a x hx
  simp only [bind_ok_iff, mapM_ofFn] at hx ⊢
  obtain ⟨y, ⟨w, hw, rfl⟩, hx⟩ := hx
  exact ⟨_, ⟨fun i => w (σ i), fun i => hw _, rfl⟩, by rw [← hx]; exact hg _ _ (ofFn_perm σ w)⟩

/-- What is computed for each respondent. -/
theorem reordered_rows {n : ℕ} {α β γ δ : Type} (f : α → Except PyErr β) (h : β → δ) (form : List δ → γ)
    (g : List β → Except PyErr γ) (hg : ∀ l, g l = .ok (form (l.map h))) (σ : Equiv.Perm (Fin n)) (a : Fin n → α) :
    Reordered σ form ((List.ofFn a).mapM f >>= g) ((List.ofFn fun i => a (σ i)).mapM f >>= g) := by
  have key : ∀ (σ : Equiv.Perm (Fin n)) (a : Fin n → α) x, (List.ofFn a).mapM f >>= g = .ok x →
      ∃ v v', x = form v ∧ (List.ofFn fun i => a (σ i)).mapM f >>= g = .ok (form v') ∧ MovedBy σ v v' := by
    intro σ a x hx
    simp only [bind_ok_iff, mapM_ofFn, hg] at hx ⊢
    obtain ⟨y, ⟨w, hw, rfl⟩, hx⟩ := hx
    refine ⟨(List.ofFn w).map h, (List.ofFn fun i => w (σ i)).map h, (Except.ok.inj hx).symm,
      ⟨_, ⟨fun i => w (σ i), fun i => hw _, rfl⟩, rfl⟩, ?_⟩
    rw [map_ofFn', map_ofFn']
    exact movedBy_ofFn σ fun i => h (w i)
  refine ⟨⟨?_, ?_⟩, fun x hx => key σ a x hx⟩
  · rintro ⟨x, hx⟩
    obtain ⟨v, v', -, h2, -⟩ := key σ a x hx
    exact ⟨_, h2⟩
  · rintro ⟨x, hx⟩
    obtain ⟨v, v', -, h2, -⟩ := key σ⁻¹ _ x hx
    exact ⟨form v', by simpa using h2⟩

/-! ## Statistics that do not depend on the order -/

theorem nanMean_perm {xs ys : List Num} (h : xs.Perm ys) : nanMean xs = nanMean ys := by
  have e : ∀ zs : List Num, nanMean zs = if (zs.filterMap id) = [] then none
      else some ((zs.filterMap id).sum / (zs.filterMap id).length) := by
    intro zs
    unfold nanMean
    split
    · next h => rw [if_pos h]
    · next h => rw [if_neg (by rw [h]; simp), h]
  have hp := h.filterMap id
  rw [e, e, hp.sum_eq, hp.length_eq]
  by_cases h0 : xs.filterMap id = []
  · rw [if_pos h0, if_pos (by rw [h0] at hp; exact hp.nil_eq.symm)]
  · rw [if_neg h0, if_neg (fun h1 => h0 (by rw [h1] at hp; exact hp.eq_nil))]

theorem nanSum_perm {xs ys : List Num} (h : xs.Perm ys) : nanSum xs = nanSum ys := by
  unfold nanSum
  rw [(h.filterMap id).sum_eq]

theorem flatten_perm {α : Type} {xs ys : List (List α)} (h : xs.Perm ys) : xs.flatten.Perm ys.flatten := by
  have := h.flatMap_right id
  simpa [List.flatMap_id] using this

theorem reduceDim_perm {f : List Num → Num} (hf : ∀ xs ys, xs.Perm ys → f xs = f ys) (items : ℕ) {dim : Option ℕ}
    (hdim : dim = none ∨ dim = some 0) {rows rows' : List (List Num)} (h : rows.Perm rows') :
    reduceDim f items dim rows = reduceDim f items dim rows' := by
  rcases hdim with rfl | rfl
  · simp only [reduceDim]
    rw [hf _ _ (flatten_perm h)]
  · simp only [reduceDim]
    congr 1
    exact List.map_congr_left fun j _ => hf _ _ (h.map _)

theorem mapM_option_perm {α β : Type} (f : α → Option β) {l l' : List α} (h : l.Perm l') :
    ∀ v, l.mapM f = some v → ∃ v', l'.mapM f = some v' ∧ v.Perm v' := by
  induction h with
  | nil => intro v hv; exact ⟨v, hv, List.Perm.refl _⟩
  | cons a _ ih =>
    intro v hv
    rw [List.mapM_cons] at hv
    cases ha : f a with
    | none => rw [ha] at hv; cases hv
    | some y =>
      rw [ha] at hv
      simp only [Option.bind_eq_bind, Option.bind_some, Option.bind_eq_some_iff] at hv
      obtain ⟨w, hw, hv⟩ := hv
      obtain ⟨w', hw', hp⟩ := ih w hw
      cases hv
      refine ⟨y :: w', ?_, hp.cons _⟩
      rw [List.mapM_cons, ha, hw']
      rfl
  | swap a b l =>
    intro v hv
    simp only [List.mapM_cons, Option.bind_eq_bind, Option.bind_eq_some_iff] at hv
    obtain ⟨x, hx, y', ⟨y, hy, w, hw, h1⟩, h2⟩ := hv
    cases h1
    cases h2
    refine ⟨y :: x :: w, ?_, List.Perm.swap _ _ _⟩
    simp only [List.mapM_cons, hx, hy, hw]
    rfl
  | trans _ _ ih1 ih2 =>
    intro v hv
    obtain ⟨v1, h1, p1⟩ := ih1 v hv
    obtain ⟨v2, h2, p2⟩ := ih2 v1 h1
    exact ⟨v2, h2, p1.trans p2⟩

theorem infitOf_perm {xs ys : List (Option FitCell)} (h : xs.Perm ys) : infitOf xs = infitOf ys := by
  unfold infitOf
  rw [((h.filterMap id).map FitCell.mse).sum_eq, ((h.filterMap id).map FitCell.variance).sum_eq]

theorem outfitOf_perm {xs ys : List (Option FitCell)} (h : xs.Perm ys) : outfitOf xs = outfitOf ys := by
  unfold outfitOf
  cases hx : (xs.filterMap id).mapM weightedError with
  | none =>
    cases hy : (ys.filterMap id).mapM weightedError with
    | none => rfl
    | some w =>
      obtain ⟨v, hv, -⟩ := mapM_option_perm weightedError (h.filterMap id).symm w hy
      rw [hx] at hv
      cases hv
  | some w =>
    obtain ⟨v, hv, hp⟩ := mapM_option_perm weightedError (h.filterMap id) w hx
    rw [hv, Option.bind_some, Option.bind_some, hp.sum_eq, hp.length_eq]

theorem itemMetrics_perm (cats : ℕ) {p q : List (ℕ × ℤ)} (h : p.Perm q) : itemMetrics cats p = itemMetrics cats q := by
  have h1 : ∀ r, truePos r p = truePos r q := fun r => h.countP_eq _
  have h2 : ∀ r, falsePos r p = falsePos r q := fun r => h.countP_eq _
  have h3 : ∀ r, falseNeg r p = falseNeg r q := fun r => h.countP_eq _
  have h4 : ∀ r, responseWeight r p = responseWeight r q := fun r => by
    unfold responseWeight; rw [h.countP_eq, h.length_eq]
  have h5 : ∀ r, categoryPrecision r p = categoryPrecision r q := fun r => by
    unfold categoryPrecision; rw [h1, h2]
  have h6 : ∀ r, categoryRecall r p = categoryRecall r q := fun r => by
    unfold categoryRecall; rw [h1, h3]
  have h7 : ∀ r, categoryF1 r p = categoryF1 r q := fun r => by
    unfold categoryF1; rw [h5, h6]
  unfold itemMetrics weightedAverage
  simp only [h4, h5, h6, h7]

theorem finRange_filterMap_perm {n : ℕ} {β : Type} (σ : Equiv.Perm (Fin n)) (g : Fin n → Option β) :
    ((List.finRange n).filterMap fun i => g (σ i)).Perm ((List.finRange n).filterMap g) := by
  have e : ((List.finRange n).filterMap fun i => g (σ i)) = ((List.finRange n).map σ).filterMap g := by
    rw [List.filterMap_map]; rfl
  rw [e]
  exact (Equiv.Perm.map_finRange_perm σ).filterMap g

theorem colMean_perm {n : ℕ} (σ : Equiv.Perm (Fin n)) (a : Fin n → ℝ) : colMean (fun i => a (σ i)) = colMean a := by
  unfold colMean
  rw [Equiv.sum_comp σ a]

theorem covComplete_perm {n : ℕ} (σ : Equiv.Perm (Fin n)) (a b : Fin n → ℝ) :
    covComplete (fun i => a (σ i)) (fun i => b (σ i)) = covComplete a b := by
  unfold covComplete
  rw [colMean_perm, colMean_perm, Equiv.sum_comp σ fun i => (a i - colMean a) * (b i - colMean b)]

theorem pairRows_perm {n : ℕ} (σ : Equiv.Perm (Fin n)) (a b : Fin n → Num) :
    (pairRows (fun i => a (σ i)) fun i => b (σ i)).Perm (pairRows a b) :=
  finRange_filterMap_perm σ fun i => (a i).bind fun x => (b i).map fun y => (x, y)

theorem centred_perm {n : ℕ} (σ : Equiv.Perm (Fin n)) (a : Fin n → Num) (i : Fin n) :
    centred (fun i => a (σ i)) i = centred a (σ i) := by
  have e : nanColMean (fun i => a (σ i)) = nanColMean a := by
    unfold nanColMean
    have := finRange_filterMap_perm σ a
    simp only [this.sum_eq, this.length_eq]
  unfold centred
  rw [e]

theorem listStd_perm {xs ys : List ℝ} (h : xs.Perm ys) : listStd xs = listStd ys := by
  unfold listStd
  rw [h.sum_eq, h.length_eq, (h.map _).sum_eq]

theorem corrMissing_perm {n : ℕ} (σ : Equiv.Perm (Fin n)) (a b : Fin n → Num) :
    corrMissing (fun i => a (σ i)) (fun i => b (σ i)) = corrMissing a b := by
  have hp := pairRows_perm σ a b
  unfold corrMissing covMissing
  simp only [hp.length_eq, listStd_perm (hp.map _), centred_perm]
  rw [Equiv.sum_comp σ fun i => centred a i * centred b i]

theorem correlationMatrix_perm {n p : ℕ} (σ : Equiv.Perm (Fin n)) (x : Fin n → Fin p → Num) :
    correlationMatrix (fun i => x (σ i)) = correlationMatrix x := by
  unfold correlationMatrix
  have hiff : (∀ i j, x (σ i) j ≠ none) ↔ ∀ i j, x i j ≠ none :=
    ⟨fun h i j => by simpa using h (σ.symm i) j, fun h i j => h _ j⟩
  simp only [hiff]
  have hc : ∀ j k, covComplete (fun i => (x (σ i) j).getD 0) (fun i => (x (σ i) k).getD 0)
      = covComplete (fun i => (x i j).getD 0) fun i => (x i k).getD 0 := fun j k =>
    covComplete_perm σ (fun i => (x i j).getD 0) fun i => (x i k).getD 0
  have hm : ∀ j k, corrMissing (fun i => x (σ i) j) (fun i => x (σ i) k) = corrMissing (fun i => x i j) fun i => x i k :=
    fun j k => corrMissing_perm σ (fun i => x i j) fun i => x i k
  simp only [hc, hm]

/-! ## Entropies -/

theorem entropy_perm (base : ℝ) {p q : List ℝ} (h : p.Perm q) : entropy base p = entropy base q := by
  unfold entropy
  rw [h.sum_eq, (h.map _).sum_eq]

theorem uniqueCounts_perm {α : Type} [DecidableEq α] {xs ys : List α} (h : xs.Perm ys) :
    (uniqueCounts xs).Perm (uniqueCounts ys) := by
  unfold uniqueCounts
  have e : (xs.dedup.map fun r => xs.count r) = xs.dedup.map fun r => ys.count r :=
    List.map_congr_left fun r _ => h.count_eq r
  rw [e]
  exact h.dedup.map _

theorem pairProportions_perm (m : ℕ) {xs ys : List (ℤ × ℤ)} (h : xs.Perm ys) :
    (∃ e, pairProportions m xs = .error e ∧ pairProportions m ys = .error e) ∨
      ∃ v w, pairProportions m xs = .ok v ∧ pairProportions m ys = .ok w ∧ v.Perm w := by
  have hu := uniqueCounts_perm h
  unfold pairProportions
  simp only [h.length_eq, hu.length_eq, hu.sum_eq]
  split_ifs with h1 h2
  · exact Or.inl ⟨_, rfl, rfl⟩
  · exact Or.inr ⟨_, _, rfl, rfl, (hu.map _).append_right _⟩
  · exact Or.inr ⟨_, _, rfl, rfl, List.Perm.refl _⟩

/-- Both fail in the same way, or both give results that are related. -/
def SameOr {α β : Type} (R : α → β → Prop) (a : Except PyErr α) (b : Except PyErr β) : Prop :=
  (∃ e, a = .error e ∧ b = .error e) ∨ ∃ v w, a = .ok v ∧ b = .ok w ∧ R v w

theorem mapM_sameOr {α β γ : Type} (R : β → γ → Prop) (f : α → Except PyErr β) (g : α → Except PyErr γ) (l : List α)
    (h : ∀ a ∈ l, SameOr R (f a) (g a)) : SameOr (List.Forall₂ R) (l.mapM f) (l.mapM g) := by
  induction l with
  | nil => exact Or.inr ⟨[], [], rfl, rfl, List.Forall₂.nil⟩
  | cons a l ih =>
    rw [List.mapM_cons, List.mapM_cons]
    rcases h a (by simp) with ⟨e, h1, h2⟩ | ⟨v, w, h1, h2, h3⟩
    · exact Or.inl ⟨e, by rw [h1]; rfl, by rw [h2]; rfl⟩
    · rcases ih fun x hx => h x (by simp [hx]) with ⟨e, h4, h5⟩ | ⟨vs, ws, h4, h5, h6⟩
      · exact Or.inl ⟨e, by rw [h1, h4]; rfl, by rw [h2, h5]; rfl⟩
      · exact Or.inr ⟨v :: vs, w :: ws, by rw [h1, h4]; rfl, by rw [h2, h5]; rfl, List.Forall₂.cons h3 h6⟩

theorem mapM_forall₂ {α β : Type} {R : α → α → Prop} (f : α → Except PyErr β) (hf : ∀ a b, R a b → f a = f b) {l l' : List α}
    (h : List.Forall₂ R l l') : l.mapM f = l'.mapM f := by
  induction h with
  | nil => rfl
  | cons hab _ ih => rw [List.mapM_cons, List.mapM_cons, hf _ _ hab, ih]

theorem max?_perm {xs ys : List ℤ} (h : xs.Perm ys) : xs.max? = ys.max? := by
  cases hx : xs.max? with
  | none =>
    rw [List.max?_eq_none_iff] at hx
    subst hx
    rw [h.nil_eq.symm]
    rfl
  | some a =>
    symm
    rw [List.max?_eq_some_iff] at hx ⊢
    exact ⟨h.mem_iff.1 hx.1, fun b hb => hx.2 b (h.mem_iff.2 hb)⟩

theorem maxCombos_perm {xs ys : List Cell} (h : xs.Perm ys) : maxCombos xs = maxCombos ys := by
  unfold maxCombos
  rw [max?_perm (h.filterMap id)]

theorem jointEntropyMatrix_perm {n p : ℕ} (base : ℝ) (σ : Equiv.Perm (Fin n)) (x : Fin n → Fin p → Cell) :
    jointEntropyMatrix base (fun i => x (σ i)) = jointEntropyMatrix base x := by
  have hcells : ((List.finRange n).flatMap fun r => (List.finRange p).map (x (σ r))).Perm
      ((List.finRange n).flatMap fun r => (List.finRange p).map (x r)) := by
    have e : ((List.finRange n).flatMap fun r => (List.finRange p).map (x (σ r)))
        = ((List.finRange n).map σ).flatMap fun r => (List.finRange p).map (x r) := by
      rw [List.flatMap_map]
    rw [e]
    exact (Equiv.Perm.map_finRange_perm σ).flatMap_right _
  have hpair : ∀ i j : Fin p, (pairCells (fun r => x (σ r) i) fun r => x (σ r) j).Perm
      (pairCells (fun r => x r i) fun r => x r j) := fun i j =>
    finRange_filterMap_perm σ fun r => (x r i).bind fun u => (x r j).map fun v => (u, v)
  unfold jointEntropyMatrix
  simp only [maxCombos_perm hcells]
  by_cases h0 : ((List.finRange n).flatMap fun r => (List.finRange p).map (x r)) = []
  · rw [if_pos h0, if_pos (by rw [h0] at hcells; exact hcells.eq_nil)]
    rfl
  · rw [if_neg h0, if_neg (fun h1 => h0 (by rw [h1] at hcells; exact hcells.nil_eq.symm))]
    have hprops := mapM_sameOr (List.Forall₂ List.Perm)
      (fun i : Fin p => (List.finRange p).mapM fun j =>
        pairProportions (maxCombos ((List.finRange n).flatMap fun r => (List.finRange p).map (x r)))
          (if i ≤ j then pairCells (fun r => x (σ r) i) (fun r => x (σ r) j) else pairCells (fun r => x (σ r) j) fun r => x (σ r) i))
      (fun i : Fin p => (List.finRange p).mapM fun j =>
        pairProportions (maxCombos ((List.finRange n).flatMap fun r => (List.finRange p).map (x r)))
          (if i ≤ j then pairCells (fun r => x r i) (fun r => x r j) else pairCells (fun r => x r j) fun r => x r i))
      (List.finRange p) fun i _ => mapM_sameOr _ _ _ _ fun j _ => by
        refine pairProportions_perm _ ?_
        split_ifs
        · exact hpair i j
        · exact hpair j i
    rcases hprops with ⟨e, h1, h2⟩ | ⟨v, w, h1, h2, h3⟩
    · rw [h1, h2]
    · rw [h1, h2]
      have hrow : ∀ a b : List (List ℝ), List.Forall₂ List.Perm a b → a.mapM (entropy base) = b.mapM (entropy base) :=
        fun a b hab => mapM_forall₂ (entropy base) (fun c d hcd => entropy_perm base hcd) hab
      exact mapM_forall₂ (fun row : List (List ℝ) => row.mapM (entropy base)) hrow h3

theorem meanOver_perm {xs ys : List ℝ} (h : xs.Perm ys) : meanOver xs = meanOver ys := by
  unfold meanOver
  rw [h.sum_eq, h.length_eq]

theorem expectedMutualInformation_perm {p : ℕ} (base : ℝ) (M : ℕ) {tables tables' : List (List (List ℝ))}
    (h : tables.Perm tables') :
    expectedMutualInformation (p := p) base M tables = expectedMutualInformation base M tables' := by
  have h1 : ∀ i, expectedItem M tables i = expectedItem M tables' i := fun i =>
    List.map_congr_left fun k _ => meanOver_perm (h.map _)
  have h2 : ∀ i j, expectedPair M tables i j = expectedPair M tables' i j := fun i j => by
    unfold expectedPair
    simp only [fun k l => meanOver_perm (h.map fun t : List (List ℝ) => (t.getD i []).getD k 0 * (t.getD j []).getD l 0)]
  unfold expectedMutualInformation
  simp only [h1, h2]

/-! ## Sorted respondents -/

theorem takeRows_map {α β : Type} (f : α → β) (l : List α) (o : List ℕ) : takeRows (l.map f) o = (takeRows l o).map f := by
  unfold takeRows
  rw [List.map_filterMap]
  refine List.filterMap_congr fun i _ => ?_
  rw [List.getElem?_map]

/-- Respondents sorted by a key without ties come in the same order, however they were listed. -/
theorem takeRows_sorted {n : ℕ} {α : Type} (sort : List ℝ → List ℕ)
    (hsort : ∀ xs, (sort xs).Perm (List.range xs.length) ∧ (sort xs).Pairwise fun a b => xs.getD a 0 ≤ xs.getD b 0)
    (key : α → ℝ) (r : Fin n → α) (hinj : ∀ i j, key (r i) = key (r j) → i = j) (σ : Equiv.Perm (Fin n)) :
    takeRows (List.ofFn fun i => r (σ i)) (sort ((List.ofFn fun i => r (σ i)).map key))
      = takeRows (List.ofFn r) (sort ((List.ofFn r).map key)) := by
  have main : ∀ q : Fin n → α, (takeRows (List.ofFn q) (sort ((List.ofFn q).map key))).Perm (List.ofFn q) ∧
      (takeRows (List.ofFn q) (sort ((List.ofFn q).map key))).Pairwise fun a b => key a ≤ key b := by
    intro q
    obtain ⟨hp, hs⟩ := hsort ((List.ofFn q).map key)
    rw [List.length_map] at hp
    refine ⟨takeRows_perm _ _ hp, ?_⟩
    unfold takeRows
    rw [List.pairwise_filterMap]
    refine hs.imp ?_
    intro a b hab x hx y hy
    rw [List.getD_eq_getElem?_getD, List.getD_eq_getElem?_getD, List.getElem?_map, List.getElem?_map] at hab
    rw [hx, hy] at hab
    simpa using hab
  obtain ⟨p1, s1⟩ := main fun i => r (σ i)
  obtain ⟨p2, s2⟩ := main r
  have hp := p1.trans ((ofFn_perm σ r).trans p2.symm)
  refine hp.eq_of_pairwise (fun a b ha hb hab hba => ?_) s1 s2
  obtain ⟨i, rfl⟩ := (List.mem_ofFn' r a).1 ((p1.trans (ofFn_perm σ r)).mem_iff.1 ha)
  obtain ⟨j, rfl⟩ := (List.mem_ofFn' r b).1 (p2.mem_iff.1 hb)
  rw [hinj i j (le_antisymm hab hba)]

end Irt
