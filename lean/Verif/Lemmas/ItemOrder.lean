import Verif.Spec.ItemOrder
import Verif.Lemmas.FitOrder
import Verif.Lemmas.EvaluationOrder
import Verif.Props.Residuals

/-! # Items in another order: sums over items -/

namespace Irt
open Spec

theorem Logit.add_left_comm' (a b c : Logit) : Logit.add a (Logit.add b c) = Logit.add b (Logit.add a c) := by
  cases a <;> cases b <;> cases c <;> simp [Logit.add, add_left_comm]

theorem Logit.sum_perm {xs ys : List Logit} (h : xs.Perm ys) : Logit.sum xs = Logit.sum ys := by
  unfold Logit.sum
  exact h.foldr_eq' (f := Logit.add) (fun x _ y _ z => Logit.add_left_comm' y x z) _

theorem nansum_perm {xs ys : List (Option Logit)} (h : (xs.filterMap id).Perm (ys.filterMap id)) : nansum xs = nansum ys :=
  Logit.sum_perm h

/-- The values that exist, over the items of the larger test and over those of the smaller. -/
theorem filterMap_counterparts {K K' : ℕ} {α : Type} (σ : Fin K → Fin K') (hσ : Function.Injective σ) (f : ℕ → Option α) (f' : ℕ → Option α)
    (h : ∀ j : Fin K, f' (σ j) = f j) (hn : ∀ j' : Fin K', (∀ j, σ j ≠ j') → f' j' = none) :
    ((List.range K').filterMap f').Perm ((List.range K).filterMap f) := by
  have e1 : ∀ (n : ℕ) (g : ℕ → Option α), (List.range n).filterMap g = (List.finRange n).filterMap fun j : Fin n => g j := by
    intro n g
    rw [← List.map_coe_finRange_eq_range, List.filterMap_map]
    rfl
  rw [e1, e1]
  have e2 : (List.finRange K').filterMap (fun j : Fin K' => f' j)
      = ((List.finRange K').filter fun j' => decide (∃ j, σ j = j')).filterMap fun j : Fin K' => f' j := by
    rw [List.filterMap_filter]
    refine List.filterMap_congr fun j' _ => ?_
    by_cases hj : ∃ j, σ j = j'
    · simp [hj]
    · simp only [hj, decide_false, Bool.false_eq_true, if_false]
      exact hn j' fun j e => hj ⟨j, e⟩
  have e3 : (List.finRange K).filterMap (fun j : Fin K => f j) = ((List.finRange K).map σ).filterMap fun j : Fin K' => f' j := by
    rw [List.filterMap_map]
    refine List.filterMap_congr fun j _ => ?_
    rw [Function.comp_apply, h]
  rw [e2, e3]
  refine List.Perm.filterMap _ ?_
  rw [List.perm_ext_iff_of_nodup ((List.nodup_finRange K').filter _) ((List.nodup_finRange K).map hσ)]
  intro j'
  simp

variable {d K K' : ℕ} {σ : Fin K → Fin K'} {P' P : (Fin d → ℝ) → ℕ → ℕ → ℝ}

theorem logLikAt_counterparts (hσ : Function.Injective σ) (hP : CounterpartItems σ P' P) (row' row : ℕ → Cell)
    (hrow : ∀ j : Fin K, row' (σ j) = row j) (hmiss : ∀ j' : Fin K', (∀ j, σ j ≠ j') → cellMissing (row' j') = true) (θ : Fin d → ℝ) :
    logLikAt P' K' row' θ = logLikAt P K row θ := by
  unfold logLikAt
  refine nansum_perm ?_
  rw [List.filterMap_map, List.filterMap_map]
  refine filterMap_counterparts σ hσ _ _ (fun j => ?_) fun j' hj' => ?_
  · simp only [Function.comp_apply, hrow, hP θ j]
  · simp [hmiss j' hj']

/-! ## Lists with one entry per item -/

section Moved

variable {p : ℕ} {α β γ : Type} {τ : Equiv.Perm (Fin p)}

theorem movedBy_eq_ofFn {v v' : List α} (h : MovedBy τ v v') : ∃ g : Fin p → α, v = List.ofFn g ∧ v' = List.ofFn fun i => g (τ i) := by
  obtain ⟨h1, h2, h3⟩ := h
  subst h1
  refine ⟨fun i => v[i], List.ofFn_getElem.symm, ?_⟩
  apply List.ext_getElem?
  intro i
  by_cases hi : i < v.length
  · rw [h3 ⟨i, hi⟩, getElem?_ofFn' _ (⟨i, hi⟩ : Fin v.length), List.getElem?_eq_getElem (τ ⟨i, hi⟩).isLt]
    rfl
  · rw [List.getElem?_eq_none (by omega), List.getElem?_eq_none (by simpa using hi)]

theorem movedBy_perm {v v' : List α} (h : MovedBy τ v v') : v'.Perm v := by
  obtain ⟨g, rfl, rfl⟩ := movedBy_eq_ofFn h
  exact ofFn_perm τ g

theorem movedBy_map {v v' : List α} (h : MovedBy τ v v') (f : α → β) : MovedBy τ (v.map f) (v'.map f) := by
  refine ⟨by simpa using h.1, by simpa using h.2.1, fun i => ?_⟩
  rw [List.getElem?_map, List.getElem?_map, h.2.2]

theorem movedBy_zipWith {v v' : List α} {w w' : List β} (h : MovedBy τ v v') (hw : MovedBy τ w w') (f : α → β → γ) :
    MovedBy τ (List.zipWith f v w) (List.zipWith f v' w') := by
  refine ⟨by simp [h.1, hw.1], by simp [h.2.1, hw.2.1], fun i => ?_⟩
  rw [List.getElem?_zipWith, List.getElem?_zipWith, h.2.2, hw.2.2]

theorem movedBy_range {x x' : ℕ → α} (h : ItemsMoved τ x x') : MovedBy τ ((List.range p).map x) ((List.range p).map x') := by
  refine ⟨by simp, by simp, fun i => ?_⟩
  rw [List.getElem?_map, List.getElem?_map, List.getElem?_range i.isLt, List.getElem?_range (τ i).isLt]
  simp [h i]

theorem reduceDim_items {f : List Num → Num} (hf : ∀ xs ys, xs.Perm ys → f xs = f ys) (n : ℕ) {x x' : ℕ → ℕ → Num}
    (h : ∀ i, i < n → ItemsMoved τ (x i) (x' i)) :
    reduceDim f p (some 1) (rowsOf n p x') = reduceDim f p (some 1) (rowsOf n p x) ∧
    reduceDim f p none (rowsOf n p x') = reduceDim f p none (rowsOf n p x) ∧
    ∃ v v', reduceDim f p (some 0) (rowsOf n p x) = .vector v ∧ reduceDim f p (some 0) (rowsOf n p x') = .vector v' ∧ MovedBy τ v v' := by
  have hrow : ∀ i ∈ List.range n, ((List.range p).map (x' i)).Perm ((List.range p).map (x i)) :=
    fun i hi => movedBy_perm (movedBy_range (h i (List.mem_range.1 hi)))
  refine ⟨?_, ?_, _, _, rfl, rfl, movedBy_range fun j => ?_⟩
  · simp only [reduceDim, rowsOf, List.map_map]
    congr 1
    exact List.map_congr_left fun i hi => hf _ _ (hrow i hi)
  · simp only [reduceDim]
    congr 1
    refine hf _ _ ?_
    unfold rowsOf
    rw [← List.flatMap_def, ← List.flatMap_def]
    exact List.Perm.flatMap_left _ hrow
  · congr 1
    unfold column rowsOf
    rw [List.map_map, List.map_map]
    refine List.map_congr_left fun i hi => ?_
    simp only [Function.comp_apply, List.getD_eq_getElem?_getD, List.getElem?_map, List.getElem?_range j.isLt,
      List.getElem?_range (τ j).isLt, Option.map_some, Option.getD_some]
    exact h i (List.mem_range.1 hi) j

theorem keysMoved_isSome {mc mc' : Option (List ℤ)} (h : KeysMoved τ mc mc') : mc'.isSome = mc.isSome := by
  rcases h with ⟨rfl, rfl⟩ | ⟨k, k', rfl, rfl, _⟩ <;> rfl

theorem keysMoved_keyAt {mc mc' : Option (List ℤ)} (h : KeysMoved τ mc mc') (j : Fin p) : keyAt mc' j = keyAt mc (τ j) := by
  rcases h with ⟨rfl, rfl⟩ | ⟨k, k', rfl, rfl, h⟩
  · rfl
  · exact h.2.2 j

theorem keysMoved_valid {M : ℕ} {mc mc' : Option (List ℤ)} (h : KeysMoved τ mc mc') (hmc : ValidScoreKey p M mc) : ValidScoreKey p M mc' := by
  rcases h with ⟨rfl, rfl⟩ | ⟨k, k', rfl, rfl, h⟩
  · exact hmc
  · intro keys hk
    obtain rfl := Option.some.inj hk
    exact ⟨h.2.1, fun x hx => (hmc k rfl).2 x ((movedBy_perm h).mem_iff.1 hx)⟩

end Moved

/-! ## Pairs of items -/

section Pairs

variable {n p : ℕ}

theorem pairRows_turned (a b : Fin n → Num) : pairRows b a = (pairRows a b).map Prod.swap := by
  unfold pairRows
  rw [List.map_filterMap]
  refine List.filterMap_congr fun i _ => ?_
  cases a i <;> cases b i <;> rfl

theorem corrMissing_swap (a b : Fin n → Num) : corrMissing b a = corrMissing a b := by
  have hc : covMissing b a = covMissing a b := by
    unfold covMissing
    simp only [pairRows_turned a b, List.length_map, mul_comm (centred b _)]
  unfold corrMissing
  simp only [hc, pairRows_turned a b, List.length_map, List.map_map]
  have h1 : (pairRows a b).map (Prod.fst ∘ Prod.swap) = (pairRows a b).map Prod.snd := rfl
  have h2 : (pairRows a b).map (Prod.snd ∘ Prod.swap) = (pairRows a b).map Prod.fst := rfl
  rw [h1, h2, mul_comm (listStd (List.map Prod.snd _))]

theorem correlationMatrix_items (τ : Equiv.Perm (Fin p)) (x : Fin n → Fin p → Num) (i j : Fin p) :
    correlationMatrix (fun r k => x r (τ k)) i j = correlationMatrix x (τ i) (τ j) := by
  have hiff : (∀ r k, x r (τ k) ≠ none) ↔ ∀ r k, x r k ≠ none :=
    ⟨fun h r k => by simpa using h r (τ.symm k), fun h r k => h r (τ k)⟩
  unfold correlationMatrix
  by_cases h : ∀ r k, x r k ≠ none
  · rw [if_pos h, if_pos (hiff.2 h)]
  · rw [if_neg h, if_neg fun h' => h (hiff.1 h')]
    by_cases hij : i = j
    · rw [if_pos hij, if_pos (congrArg τ hij)]
    · rw [if_neg hij, if_neg fun e => hij (τ.injective e)]
      split_ifs
      · rfl
      · exact corrMissing_swap _ _
      · exact corrMissing_swap _ _
      · rfl

theorem mapM_finRange {β : Type} (f : Fin p → Except PyErr β) (v : List β) :
    (List.finRange p).mapM f = .ok v ↔ ∃ g : Fin p → β, (∀ i, f i = .ok (g i)) ∧ v = (List.finRange p).map g := by
  have h := mapM_ofFn f (fun i => i) v
  rw [List.ofFn_eq_map, List.map_id'] at h
  rw [h]
  simp only [List.ofFn_eq_map]

theorem pairCells_turned (a b : Fin n → Cell) : pairCells b a = (pairCells a b).map Prod.swap := by
  unfold pairCells
  rw [List.map_filterMap]
  refine List.filterMap_congr fun i _ => ?_
  cases a i <;> cases b i <;> rfl

theorem uniqueCounts_injective {α β : Type} [DecidableEq α] [DecidableEq β] (f : α → β) (hf : Function.Injective f) (l : List α) :
    uniqueCounts (l.map f) = uniqueCounts l := by
  unfold uniqueCounts
  rw [List.dedup_map_of_injective hf, List.map_map]
  exact List.map_congr_left fun r _ => List.count_map_of_injective _ _ hf _

theorem pairProportions_swap (m : ℕ) (l : List (ℤ × ℤ)) : pairProportions m (l.map Prod.swap) = pairProportions m l := by
  unfold pairProportions
  simp only [uniqueCounts_injective _ Prod.swap_injective, List.length_map]

/-- The joint entropy of two items, as `jointEntropyMatrix` computes it. -/
noncomputable def entropyOfPair (base : ℝ) (x : Fin n → Fin p → Cell) (i j : Fin p) : Except PyErr ℝ :=
  pairProportions (maxCombos ((List.finRange n).flatMap fun r => (List.finRange p).map (x r)))
    (pairCells (fun r => x r i) fun r => x r j) >>= entropy base

theorem jointEntropyMatrix_ok (base : ℝ) (x : Fin n → Fin p → Cell) (v : List (List ℝ)) :
    jointEntropyMatrix base x = .ok v ↔ ((List.finRange n).flatMap fun r => (List.finRange p).map (x r)) ≠ [] ∧
      ∃ e : Fin p → Fin p → ℝ, (∀ i j, entropyOfPair base x i j = .ok (e i j)) ∧ v = (List.finRange p).map fun i => (List.finRange p).map (e i) := by
  have hpair : ∀ i j : Fin p, pairProportions (maxCombos ((List.finRange n).flatMap fun r => (List.finRange p).map (x r)))
      (if i ≤ j then pairCells (fun r => x r i) (fun r => x r j) else pairCells (fun r => x r j) (fun r => x r i))
      = pairProportions (maxCombos ((List.finRange n).flatMap fun r => (List.finRange p).map (x r)))
        (pairCells (fun r => x r i) fun r => x r j) := by
    intro i j
    split_ifs
    · rfl
    · rw [pairCells_turned, pairProportions_swap]
  unfold jointEntropyMatrix
  simp only [hpair]
  by_cases h0 : ((List.finRange n).flatMap fun r => (List.finRange p).map (x r)) = []
  · rw [if_pos h0]
    constructor
    · intro h; cases h
    · exact fun h => absurd h0 h.1
  · rw [if_neg h0]
    simp only [ne_eq, h0, not_false_eq_true, true_and]
    constructor
    · intro h
      obtain ⟨props, h1, h2⟩ := bind_eq_ok h
      obtain ⟨rows, hrows, rfl⟩ := (mapM_finRange _ _).1 h1
      have hr : ∀ i, ∃ g : Fin p → List ℝ, (∀ j, pairProportions _ (pairCells (fun r => x r i) fun r => x r j) = .ok (g j)) ∧
          rows i = (List.finRange p).map g := fun i => (mapM_finRange _ _).1 (hrows i)
      choose g hg1 hg2 using hr
      rw [List.mapM_map] at h2
      obtain ⟨e, he, rfl⟩ := (mapM_finRange _ _).1 h2
      have he' : ∀ i, ∃ k : Fin p → ℝ, (∀ j, entropy base (g i j) = .ok (k j)) ∧ e i = (List.finRange p).map k := by
        intro i
        have := he i
        simp only [Function.comp_apply, hg2 i] at this
        rw [List.mapM_map] at this
        exact (mapM_finRange _ _).1 this
      choose k hk1 hk2 using he'
      refine ⟨k, fun i j => ?_, List.map_congr_left fun i _ => hk2 i⟩
      unfold entropyOfPair
      rw [hg1 i j, bind_ok, hk1]
    · rintro ⟨e, he, rfl⟩
      have hg : ∀ i j, ∃ q, pairProportions (maxCombos ((List.finRange n).flatMap fun r => (List.finRange p).map (x r)))
          (pairCells (fun r => x r i) fun r => x r j) = .ok q ∧ entropy base q = .ok (e i j) := fun i j => bind_eq_ok (he i j)
      choose g hg1 hg2 using hg
      have h1 := (mapM_finRange (fun i : Fin p => (List.finRange p).mapM fun j =>
        pairProportions (maxCombos ((List.finRange n).flatMap fun r => (List.finRange p).map (x r)))
          (pairCells (fun r => x r i) fun r => x r j)) ((List.finRange p).map fun i => (List.finRange p).map (g i))).2
        ⟨_, fun i => (mapM_finRange _ _).2 ⟨g i, hg1 i, rfl⟩, rfl⟩
      rw [h1, bind_ok, List.mapM_map]
      refine (mapM_finRange _ _).2 ⟨_, fun i => ?_, rfl⟩
      simp only [Function.comp_apply]
      rw [List.mapM_map]
      exact (mapM_finRange _ _).2 ⟨_, hg2 i, rfl⟩

theorem cells_items (τ : Equiv.Perm (Fin p)) (x : Fin n → Fin p → Cell) :
    ((List.finRange n).flatMap fun r => (List.finRange p).map fun k => x r (τ k)).Perm
      ((List.finRange n).flatMap fun r => (List.finRange p).map (x r)) := by
  refine List.Perm.flatMap_left _ fun r _ => ?_
  have h := (Equiv.Perm.map_finRange_perm τ).map (x r)
  rwa [List.map_map] at h

theorem dataMutualInformation_items (base : ℝ) (τ : Equiv.Perm (Fin p)) (x : Fin n → Fin p → Cell) (v : Fin p → Fin p → ℝ)
    (h : dataMutualInformation base x = .ok v) :
    dataMutualInformation base (fun r k => x r (τ k)) = .ok fun i j => v (τ i) (τ j) := by
  unfold dataMutualInformation at h ⊢
  obtain ⟨joint, hj, h⟩ := bind_eq_ok h
  obtain ⟨h0, e, he, rfl⟩ := (jointEntropyMatrix_ok base x joint).1 hj
  have hj' := (jointEntropyMatrix_ok base (fun r k => x r (τ k)) ((List.finRange p).map fun i => (List.finRange p).map fun j => e (τ i) (τ j))).2
    ⟨fun h1 => h0 (by have := cells_items τ x; rw [h1] at this; exact this.nil_eq.symm), fun i j => e (τ i) (τ j), fun i j => by
      have := he (τ i) (τ j)
      unfold entropyOfPair at this ⊢
      rw [maxCombos_perm (cells_items τ x)]
      exact this, rfl⟩
  have hm : ∀ (e : Fin p → Fin p → ℝ) (i j : Fin p), matrixOf ((List.finRange p).map fun i => (List.finRange p).map (e i)) i j = e i j := by
    intro e i j
    simp [matrixOf, List.getD_eq_getElem?_getD]
  rw [hj', bind_ok]
  simp only [pure, Except.pure, Except.ok.injEq] at h ⊢
  rw [← h]
  funext i j
  simp only [mutualInformationOf, hm]

theorem expectedMutualInformation_items (base : ℝ) (M : ℕ) (τ : Equiv.Perm (Fin p)) (tables tables' : List (List (List ℝ)))
    (h1 : ∀ i : Fin p, expectedItem M tables' i = expectedItem M tables (τ i))
    (h2 : ∀ i j : Fin p, expectedPair M tables' i j = expectedPair M tables (τ i) (τ j)) (v : Fin p → Fin p → ℝ)
    (h : expectedMutualInformation base M tables = .ok v) :
    expectedMutualInformation base M tables' = .ok fun i j => v (τ i) (τ j) := by
  unfold expectedMutualInformation at h ⊢
  obtain ⟨items, hi, h⟩ := bind_eq_ok h
  obtain ⟨pairs, hp, h⟩ := bind_eq_ok h
  obtain ⟨g, hg, rfl⟩ := (mapM_finRange _ _).1 hi
  obtain ⟨rows, hr, rfl⟩ := (mapM_finRange _ _).1 hp
  have hr' : ∀ i : Fin p, ∃ k : Fin p → ℝ, (∀ j : Fin p, entropy base (expectedPair M tables i j) = .ok (k j)) ∧ rows i = (List.finRange p).map k :=
    fun i => (mapM_finRange _ _).1 (hr i)
  choose k hk1 hk2 using hr'
  rw [(mapM_finRange _ ((List.finRange p).map fun i => g (τ i))).2 ⟨_, fun i => by rw [h1]; exact hg (τ i), rfl⟩, bind_ok,
    (mapM_finRange _ ((List.finRange p).map fun i => (List.finRange p).map fun j => k (τ i) (τ j))).2
      ⟨_, fun i => (mapM_finRange _ _).2 ⟨_, fun j => by rw [h2]; exact hk1 (τ i) (τ j), rfl⟩, rfl⟩, bind_ok]
  simp only [pure, Except.pure, Except.ok.injEq] at h ⊢
  rw [← h]
  funext i j
  simp [mutualInformationOf, matrixOf, List.getD_eq_getElem?_getD, hk2]

end Pairs

end Irt
