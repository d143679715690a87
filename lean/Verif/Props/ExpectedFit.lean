import Verif.Spec.DrawnData
import Verif.Lemmas.Fisher
import Verif.Props.Residuals

/-!
# C130: residuals and fit statistics where the model is true
-/

namespace Irt
open Spec

variable {n items M : ℕ} {P : ℕ → ℕ → ℕ → ℝ}

theorem average_expect (F : (Fin n × Fin items → Fin M) → ℝ) :
    averageOverData P F = expect (d := 0) (fun _ (c : Fin n × Fin items) (m : Fin M) => P c.1 c.2 m) Fin.elim0 F := rfl

theorem sums_fin (h1 : ∀ i, i < n → ∀ j, j < items → ∑ m ∈ Finset.range M, P i j m = 1) :
    ∀ (_ : Fin 0 → ℝ) (c : Fin n × Fin items), ∑ m : Fin M, P c.1 c.2 m = 1 := fun _ c => by
  rw [← h1 c.1 c.1.2 c.2 c.2.2, Finset.sum_range]

theorem average_cell (h1 : ∀ i, i < n → ∀ j, j < items → ∑ m ∈ Finset.range M, P i j m = 1) (i j : ℕ) (hi : i < n) (hj : j < items)
    (g : ℕ → ℝ) : averageOverData (n := n) (items := items) (M := M) P (fun x => g (answerAt x i j))
      = ∑ m ∈ Finset.range M, P i j m * g m := by
  have e : ∀ x : Fin n × Fin items → Fin M, answerAt x i j = x (⟨i, hi⟩, ⟨j, hj⟩) := fun x => dif_pos ⟨hi, hj⟩
  simp only [e]
  rw [average_expect, expect_single (sums_fin h1) _ (⟨i, hi⟩, ⟨j, hj⟩) fun m : Fin M => g m, Finset.sum_range]

theorem average_list (cs : List (ℕ × ℕ)) (F : ℕ × ℕ → (Fin n × Fin items → Fin M) → ℝ) :
    averageOverData P (fun x => (cs.map fun c => F c x).sum) = (cs.map fun c => averageOverData P (F c)).sum := by
  induction cs with
  | nil => simp [averageOverData]
  | cons c cs ih =>
    simp only [List.map_cons, List.sum_cons]
    rw [← ih]
    simp [averageOverData, mul_add, Finset.sum_add_distrib]

theorem average_smul (a : ℝ) (F : (Fin n × Fin items → Fin M) → ℝ) : averageOverData P (fun x => F x / a) = averageOverData P F / a := by
  unfold averageOverData
  rw [Finset.sum_div]
  exact Finset.sum_congr rfl fun x _ => by ring

/-- The mean of a statistic that is itself the mean over a list of cells. -/
theorem average_mean (h1 : ∀ i, i < n → ∀ j, j < items → ∑ m ∈ Finset.range M, P i j m = 1) (cs : List (ℕ × ℕ)) (hne : cs ≠ [])
    (hcs : ∀ c ∈ cs, c.1 < n ∧ c.2 < items) (g : ℕ → ℕ → ℕ → ℝ) (r : (Fin n × Fin items → Fin M) → ℝ)
    (hr : ∀ x, r x * cs.length = (cs.map fun c => g c.1 c.2 (answerAt x c.1 c.2)).sum) :
    averageOverData P r = (cs.map fun c => ∑ m ∈ Finset.range M, P c.1 c.2 m * g c.1 c.2 m).sum / cs.length := by
  have hl : (cs.length : ℝ) ≠ 0 := by exact_mod_cast (List.length_pos_iff.2 hne).ne'
  have e : r = fun x => (cs.map fun c => g c.1 c.2 (answerAt x c.1 c.2)).sum / cs.length := funext fun x => by
    rw [eq_div_iff hl, hr]
  rw [e, average_smul, average_list cs fun c x => g c.1 c.2 (answerAt x c.1 c.2)]
  congr 2
  exact List.map_congr_left fun c hc => average_cell h1 c.1 c.2 (hcs c hc).1 (hcs c hc).2 (g c.1 c.2)

/-! ## Residuals -/

/-- The residual of the answer `m`. -/
noncomputable def residualOf (keyed : Bool) (M : ℕ) (p : ℕ → ℝ) (m : ℕ) : ℝ := if keyed then 1 - p m else m - ∑ k ∈ Finset.range M, k * p k

theorem residualAt_drawn (keyed : Bool) (asked : ℕ → ℕ → Bool) (x : Fin n × Fin items → Fin M) (i j : ℕ) :
    residualAt keyed M (P i j) (drawnData asked x i j)
      = if asked i j then some (residualOf keyed M (P i j) (answerAt x i j)) else none := by
  unfold drawnData
  by_cases h : asked i j
  · have : IsObserved (some (answerAt x i j : ℤ)) := ⟨_, rfl, by omega⟩
    simp [h, residualAt, this, residualOf, keyedMean, scoreOf]
  · simp [h, residualAt, IsObserved]

theorem mean_residualOf (keyed : Bool) (p : ℕ → ℝ) (h1 : ∑ m ∈ Finset.range M, p m = 1) :
    ∑ m ∈ Finset.range M, p m * residualOf keyed M p m = expectedResidual keyed M p := by
  cases keyed with
  | true =>
    simp only [residualOf, expectedResidual, if_true, mul_sub, mul_one, Finset.sum_sub_distrib, h1]
    simp only [sq]
  | false =>
    simp only [residualOf, expectedResidual, Bool.false_eq_true, if_false, mul_sub, Finset.sum_sub_distrib, ← Finset.sum_mul, h1, one_mul]
    rw [sub_eq_zero]
    exact Finset.sum_congr rfl fun m _ => mul_comm _ _

theorem filterMap_ite {α : Type*} (l : List α) (b : α → Bool) (v : α → ℝ) :
    (l.map fun a => if b a then some (v a) else none).filterMap id = (l.filter b).map v := by
  induction l with
  | nil => rfl
  | cons a l ih =>
    rw [List.map_cons]
    by_cases h : b a
    · rw [if_pos h, List.filterMap_cons_some (f := id) (b := v a) rfl, ih, List.filter_cons_of_pos h, List.map_cons]
    · rw [if_neg h, List.filterMap_cons_none (f := id) rfl, ih, List.filter_cons_of_neg h]

theorem filter_sum (k : ℕ) (b : ℕ → Bool) (f : ℕ → ℝ) :
    (((List.range k).filter b).map f).sum = ∑ i ∈ (Finset.range k).filter fun i => b i, f i := by
  rw [Finset.sum_filter]
  induction k with
  | zero => simp
  | succ k ih =>
    rw [List.range_succ, List.filter_append, List.map_append, List.sum_append, ih, Finset.sum_range_succ]
    by_cases h : b k <;> simp [h]

theorem sum_range_list' (k : ℕ) (f : ℕ → ℝ) : ((List.range k).map f).sum = ∑ i ∈ Finset.range k, f i := by
  have := filter_sum k (fun _ => true) f
  simpa using this

theorem sum_flatMap' {α : Type*} (l : List α) (f : α → List ℝ) : (l.flatMap f).sum = (l.map fun a => (f a).sum).sum := by
  induction l with
  | nil => rfl
  | cons a l ih => simp [ih]

theorem filter_length (k : ℕ) (b : ℕ → Bool) : ((List.range k).filter b).length = ((Finset.range k).filter fun i => b i).card := by
  have h := filter_sum k b fun _ => 1
  simp at h
  exact_mod_cast h

theorem drawn_valid (asked : ℕ → ℕ → Bool) (x : Fin n × Fin items → Fin M) : ∀ i, i < n → ∀ j, j < items → ∀ y,
    drawnData asked x i j = some y → y ≠ -1 → 0 ≤ y ∧ y < (M : ℤ) := by
  intro i hi j hj y hy _
  unfold drawnData at hy
  split at hy
  · have e : answerAt x i j = x (⟨i, hi⟩, ⟨j, hj⟩) := dif_pos ⟨hi, hj⟩
    obtain rfl := Option.some.inj hy
    rw [e]
    exact ⟨by omega, by have := (x (⟨i, hi⟩, ⟨j, hj⟩)).2; omega⟩
  · cases hy

theorem drawn_residuals (hM : 0 < M) (mc : Option (List ℤ)) (asked : ℕ → ℕ → Bool) (x : Fin n × Fin items → Fin M) :
    residuals M items mc "none" (tablesOf n items M P) (dataOf n items (drawnData asked x))
      = .ok (.matrix ((List.range n).map fun i => (List.range items).map fun j =>
          if asked i j then some (residualOf mc.isSome M (P i j) (answerAt x i j)) else none)) := by
  rw [C58_residuals n items M hM mc P _ (drawn_valid asked x)]
  simp only [residualAt_drawn]

section Residuals

variable (h1 : ∀ i, i < n → ∀ j, j < items → ∑ m ∈ Finset.range M, P i j m = 1) (hM : 0 < M) (mc : Option (List ℤ))
  (asked : ℕ → ℕ → Bool)

include h1 hM in
/-- C130: the average residual of an item. -/
theorem C130_residuals_item (j : ℕ) (hj : j < items) (hask : ∃ i, i < n ∧ asked i j = true) :
    ∃ r : (Fin n × Fin items → Fin M) → ℝ,
      (∀ x, ∃ v, residuals M items mc "respondents" (tablesOf n items M P) (dataOf n items (drawnData asked x)) = .ok (.vector v) ∧
        v[j]? = some (some (r x))) ∧
      averageOverData P r = (∑ i ∈ (Finset.range n).filter fun i => asked i j, expectedResidual mc.isSome M (P i j))
        / ((Finset.range n).filter fun i => asked i j).card := by
  have key : ∀ x : Fin n × Fin items → Fin M, ∃ (v : List Num) (r : ℝ),
      residuals M items mc "respondents" (tablesOf n items M P) (dataOf n items (drawnData asked x)) = .ok (.vector v) ∧
      v[j]? = some (some r) ∧ r * ((List.range n).filter fun i => asked i j).length
        = (((List.range n).filter fun i => asked i j).map fun i => residualOf mc.isSome M (P i j) (answerAt x i j)).sum := by
    intro x
    obtain ⟨_, v, _, _, h2, _, _, _, _, h4, _⟩ := C58_averages n items M mc P _ _ (drawn_residuals hM mc asked x)
    obtain ⟨y, hy, hnone, hmean⟩ := h4 j hj
    cases y with
    | none =>
      obtain ⟨i, hi, ha⟩ := hask
      have := hnone.1 rfl i hi
      simp [ha] at this
    | some r =>
      refine ⟨v, r, h2, hy, ?_⟩
      have := (hmean r rfl).2
      rw [filterMap_ite _ (fun i => asked i j) fun i => residualOf mc.isSome M (P i j) (answerAt x i j), List.length_map] at this
      exact this
  choose v r hv hr hmean using key
  refine ⟨r, fun x => ⟨v x, hv x, hr x⟩, ?_⟩
  have hne : (((List.range n).filter fun i => asked i j).map fun i => (i, j)) ≠ [] := by
    obtain ⟨i, hi, ha⟩ := hask
    exact List.ne_nil_of_mem (List.mem_map.2 ⟨i, List.mem_filter.2 ⟨List.mem_range.2 hi, ha⟩, rfl⟩)
  rw [average_mean h1 _ hne (fun c hc => by
      obtain ⟨i, hi, rfl⟩ := List.mem_map.1 hc
      exact ⟨List.mem_range.1 (List.mem_filter.1 hi).1, hj⟩) (fun i j m => residualOf mc.isSome M (P i j) m) r
    (fun x => by rw [List.length_map, hmean x, List.map_map]; rfl), List.map_map, List.length_map, filter_length, ← filter_sum]
  congr 2
  exact List.map_congr_left fun i hi => mean_residualOf _ _ (h1 i (List.mem_range.1 (List.mem_filter.1 hi).1) j hj)

include h1 hM in
/-- C130: the average residual of a respondent. -/
theorem C130_residuals_respondent (i : ℕ) (hi : i < n) (hask : ∃ j, j < items ∧ asked i j = true) :
    ∃ r : (Fin n × Fin items → Fin M) → ℝ,
      (∀ x, ∃ v, residuals M items mc "items" (tablesOf n items M P) (dataOf n items (drawnData asked x)) = .ok (.vector v) ∧
        v[i]? = some (some (r x))) ∧
      averageOverData P r = (∑ j ∈ (Finset.range items).filter fun j => asked i j, expectedResidual mc.isSome M (P i j))
        / ((Finset.range items).filter fun j => asked i j).card := by
  have key : ∀ x : Fin n × Fin items → Fin M, ∃ (v : List Num) (r : ℝ),
      residuals M items mc "items" (tablesOf n items M P) (dataOf n items (drawnData asked x)) = .ok (.vector v) ∧
      v[i]? = some (some r) ∧ r * ((List.range items).filter (asked i)).length
        = (((List.range items).filter (asked i)).map fun j => residualOf mc.isSome M (P i j) (answerAt x i j)).sum := by
    intro x
    obtain ⟨v, _, _, h2, _, _, _, _, h4, _⟩ := C58_averages n items M mc P _ _ (drawn_residuals hM mc asked x)
    obtain ⟨y, hy, hnone, hmean⟩ := h4 i hi
    cases y with
    | none =>
      obtain ⟨j, hj, ha⟩ := hask
      have := hnone.1 rfl j hj
      simp [ha] at this
    | some r =>
      refine ⟨v, r, h2, hy, ?_⟩
      have := (hmean r rfl).2
      rw [filterMap_ite _ (asked i) fun j => residualOf mc.isSome M (P i j) (answerAt x i j), List.length_map] at this
      exact this
  choose v r hv hr hmean using key
  refine ⟨r, fun x => ⟨v x, hv x, hr x⟩, ?_⟩
  have hne : (((List.range items).filter (asked i)).map fun j => (i, j)) ≠ [] := by
    obtain ⟨j, hj, ha⟩ := hask
    exact List.ne_nil_of_mem (List.mem_map.2 ⟨j, List.mem_filter.2 ⟨List.mem_range.2 hj, ha⟩, rfl⟩)
  rw [average_mean h1 _ hne (fun c hc => by
      obtain ⟨j, hj, rfl⟩ := List.mem_map.1 hc
      exact ⟨hi, List.mem_range.1 (List.mem_filter.1 hj).1⟩) (fun i j m => residualOf mc.isSome M (P i j) m) r
    (fun x => by rw [List.length_map, hmean x, List.map_map]; rfl), List.map_map, List.length_map, filter_length, ← filter_sum]
  congr 2
  exact List.map_congr_left fun j hj => mean_residualOf _ _ (h1 i hi j (List.mem_range.1 (List.mem_filter.1 hj).1))

include h1 hM in
/-- C130: the average residual. -/
theorem C130_residuals_overall (hask : ∃ i, i < n ∧ ∃ j, j < items ∧ asked i j = true) :
    ∃ r : (Fin n × Fin items → Fin M) → ℝ,
      (∀ x, residuals M items mc "everything" (tablesOf n items M P) (dataOf n items (drawnData asked x)) = .ok (.scalar (some (r x)))) ∧
      averageOverData P r
        = (∑ i ∈ Finset.range n, ∑ j ∈ (Finset.range items).filter fun j => asked i j, expectedResidual mc.isSome M (P i j))
          / ∑ i ∈ Finset.range n, (((Finset.range items).filter fun j => asked i j).card : ℝ) := by
  let cs : List (ℕ × ℕ) := (List.range n).flatMap fun i => ((List.range items).filter (asked i)).map fun j => (i, j)
  have hcs : ∀ c, c ∈ cs ↔ c.1 < n ∧ c.2 < items ∧ asked c.1 c.2 = true := by
    rintro ⟨i, j⟩
    simp [cs]
  have hcells : ∀ g : ℕ → ℕ → ℝ, ((List.range n).flatMap fun i => (List.range items).map fun j => if asked i j then some (g i j) else none).filterMap id
      = cs.map fun c => g c.1 c.2 := by
    intro g
    simp only [cs, List.filterMap_flatMap, List.map_flatMap]
    refine List.flatMap_congr fun i _ => ?_
    rw [filterMap_ite _ (asked i) (g i), List.map_map]
    rfl
  have key : ∀ x : Fin n × Fin items → Fin M, ∃ r : ℝ,
      residuals M items mc "everything" (tablesOf n items M P) (dataOf n items (drawnData asked x)) = .ok (.scalar (some r)) ∧
      r * cs.length = (cs.map fun c => residualOf mc.isSome M (P c.1 c.2) (answerAt x c.1 c.2)).sum := by
    intro x
    obtain ⟨_, _, v, _, _, h2, _, _, _, _, hnone, hmean⟩ := C58_averages n items M mc P _ _ (drawn_residuals hM mc asked x)
    cases v with
    | none =>
      obtain ⟨i, hi, j, hj, ha⟩ := hask
      have := hnone.1 rfl i hi j hj
      simp [ha] at this
    | some r =>
      refine ⟨r, h2, ?_⟩
      have := (hmean r rfl).2
      rw [hcells fun i j => residualOf mc.isSome M (P i j) (answerAt x i j), List.length_map] at this
      exact this
  choose r hr hmean using key
  refine ⟨r, hr, ?_⟩
  have hne : cs ≠ [] := by
    obtain ⟨i, hi, j, hj, ha⟩ := hask
    exact List.ne_nil_of_mem ((hcs (i, j)).2 ⟨hi, hj, ha⟩)
  rw [average_mean h1 cs hne (fun c hc => ⟨((hcs c).1 hc).1, ((hcs c).1 hc).2.1⟩) (fun i j m => residualOf mc.isSome M (P i j) m) r hmean]
  have hsum : ∀ g : ℕ → ℕ → ℝ, (cs.map fun c => g c.1 c.2).sum
      = ∑ i ∈ Finset.range n, ∑ j ∈ (Finset.range items).filter fun j => asked i j, g i j := by
    intro g
    simp only [cs, List.map_flatMap, List.map_map]
    rw [← sum_range_list', sum_flatMap']
    congr 1
    refine List.map_congr_left fun i _ => ?_
    rw [← filter_sum items (asked i)]
    rfl
  have hlen : (cs.length : ℝ) = ∑ i ∈ Finset.range n, (((Finset.range items).filter fun j => asked i j).card : ℝ) := by
    have := hsum fun _ _ => 1
    simpa using this
  rw [hlen, ← hsum]
  congr 2
  exact List.map_congr_left fun c hc => mean_residualOf _ _ (h1 c.1 ((hcs c).1 hc).1 c.2 ((hcs c).1 hc).2.1)

include h1 hM in
/-- C130: without an answer key, the residuals of each item, of each respondent and of all answers are zero on average. -/
theorem C130_residuals_zero :
    (∀ j, j < items → (∃ i, i < n ∧ asked i j = true) → ∃ r : (Fin n × Fin items → Fin M) → ℝ,
      (∀ x, ∃ v, residuals M items none "respondents" (tablesOf n items M P) (dataOf n items (drawnData asked x)) = .ok (.vector v) ∧
        v[j]? = some (some (r x))) ∧ averageOverData P r = 0) ∧
    (∀ i, i < n → (∃ j, j < items ∧ asked i j = true) → ∃ r : (Fin n × Fin items → Fin M) → ℝ,
      (∀ x, ∃ v, residuals M items none "items" (tablesOf n items M P) (dataOf n items (drawnData asked x)) = .ok (.vector v) ∧
        v[i]? = some (some (r x))) ∧ averageOverData P r = 0) ∧
    ((∃ i, i < n ∧ ∃ j, j < items ∧ asked i j = true) → ∃ r : (Fin n × Fin items → Fin M) → ℝ,
      (∀ x, residuals M items none "everything" (tablesOf n items M P) (dataOf n items (drawnData asked x)) = .ok (.scalar (some (r x)))) ∧
      averageOverData P r = 0) := by
  refine ⟨fun j hj hask => ?_, fun i hi hask => ?_, fun hask => ?_⟩
  · obtain ⟨r, hr, he⟩ := C130_residuals_item h1 hM none asked j hj hask
    exact ⟨r, hr, by rw [he]; simp [expectedResidual]⟩
  · obtain ⟨r, hr, he⟩ := C130_residuals_respondent h1 hM none asked i hi hask
    exact ⟨r, hr, by rw [he]; simp [expectedResidual]⟩
  · obtain ⟨r, hr, he⟩ := C130_residuals_overall h1 hM none asked hask
    exact ⟨r, hr, by rw [he]; simp [expectedResidual]⟩

end Residuals

/-- The claim that the residuals of an item are zero on average where the model is true. -/
def ItemResidualsZero : Prop :=
  ∀ (n items M : ℕ) (P : ℕ → ℕ → ℕ → ℝ), 0 < M → (∀ i, i < n → ∀ j, j < items → ∑ m ∈ Finset.range M, P i j m = 1) →
    (∀ i j m, 0 ≤ P i j m) → ∀ (mc : Option (List ℤ)), ValidScoreKey items M mc → ∀ (asked : ℕ → ℕ → Bool) (j : ℕ), j < items →
    ∀ r : (Fin n × Fin items → Fin M) → ℝ,
      (∀ x, ∃ v, residuals M items mc "respondents" (tablesOf n items M P) (dataOf n items (drawnData asked x)) = .ok (.vector v) ∧
        v[j]? = some (some (r x))) → averageOverData P r = 0

/-- C130: the claim is false for models with an answer key: one minus the probability of the answer given is never negative. -/
theorem C130_residuals_keyed_false : ¬ ItemResidualsZero := by
  intro h
  have h1 : ∀ i, i < 1 → ∀ j, j < 1 → ∑ m ∈ Finset.range 3, exFitP i j m = 1 := fun i _ j _ => exFitP_sum i j
  obtain ⟨r, hr, he⟩ := C130_residuals_item (n := 1) (items := 1) h1 (by norm_num) (some [0]) (fun _ _ => true) 0 one_pos ⟨0, one_pos, rfl⟩
  have hz := h 1 1 3 exFitP (by norm_num) h1 (by intro i j m; unfold exFitP; split_ifs <;> norm_num) (some [0])
    (by intro keys hk; obtain rfl := Option.some.inj hk; simp) (fun _ _ => true) 0 one_pos r hr
  rw [hz] at he
  simp [expectedResidual, exFitP, Finset.sum_range_succ] at he
  norm_num at he

/-! ## Fit statistics -/

theorem average_finset (O : Finset ℕ) (F : ℕ → (Fin n × Fin items → Fin M) → ℝ) :
    averageOverData P (fun x => ∑ i ∈ O, F i x) = ∑ i ∈ O, averageOverData P (F i) := by
  unfold averageOverData
  rw [Finset.sum_comm]
  exact Finset.sum_congr rfl fun x _ => Finset.mul_sum _ _ _

theorem observed_drawn (asked : ℕ → ℕ → Bool) (x : Fin n × Fin items → Fin M) (i j : ℕ) :
    IsObserved (drawnData asked x i j) ↔ asked i j = true := by
  unfold drawnData
  by_cases h : asked i j
  · simp only [h, if_true, iff_true]
    exact ⟨_, rfl, by omega⟩
  · simp [h, IsObserved]

theorem average_squaredError (h1 : ∀ i, i < n → ∀ j, j < items → ∑ m ∈ Finset.range M, P i j m = 1) (asked : ℕ → ℕ → Bool)
    (key : Option ℤ) (i j : ℕ) (hi : i < n) (hj : j < items) (ha : asked i j = true) :
    averageOverData (n := n) (items := items) (M := M) P (fun x => squaredError key M (P i j) (drawnData asked x i j))
      = keyedVariance key M (P i j) := by
  have e : (fun x : Fin n × Fin items → Fin M => squaredError key M (P i j) (drawnData asked x i j))
      = fun x => (fun m : ℕ => (scoreOf key m - keyedMean key M (P i j)) ^ 2) (answerAt x i j) := by
    funext x
    simp [squaredError, drawnData, ha]
  rw [e]
  refine (average_cell h1 i j hi hj fun m : ℕ => (scoreOf key m - keyedMean key M (P i j)) ^ 2).trans ?_
  exact Finset.sum_congr rfl fun m _ => mul_comm _ _

/-- The mean squares are one on average: `cell` lists the cells of an item or of a respondent. -/
theorem average_fit (h1 : ∀ i, i < n → ∀ j, j < items → ∑ m ∈ Finset.range M, P i j m = 1) (asked : ℕ → ℕ → Bool)
    (cell : ℕ → ℕ × ℕ) (key : ℕ → Option ℤ) (O : Finset ℕ) (hO : ∀ i ∈ O, (cell i).1 < n ∧ (cell i).2 < items ∧ asked (cell i).1 (cell i).2 = true) :
    (∑ i ∈ O, keyedVariance (key i) M (P (cell i).1 (cell i).2) ≠ 0 →
      averageOverData (n := n) (items := items) (M := M) P (fun x =>
        (∑ i ∈ O, squaredError (key i) M (P (cell i).1 (cell i).2) (drawnData asked x (cell i).1 (cell i).2))
          / ∑ i ∈ O, keyedVariance (key i) M (P (cell i).1 (cell i).2)) = 1) ∧
    (O ≠ ∅ → (∀ i ∈ O, keyedVariance (key i) M (P (cell i).1 (cell i).2) ≠ 0) →
      averageOverData (n := n) (items := items) (M := M) P (fun x =>
        (∑ i ∈ O, squaredError (key i) M (P (cell i).1 (cell i).2) (drawnData asked x (cell i).1 (cell i).2)
          / keyedVariance (key i) M (P (cell i).1 (cell i).2)) / O.card) = 1) := by
  constructor
  · intro hv
    rw [average_smul, average_finset, div_eq_one_iff_eq hv]
    exact Finset.sum_congr rfl fun i hi => average_squaredError h1 asked _ _ _ (hO i hi).1 (hO i hi).2.1 (hO i hi).2.2
  · intro hne hv
    rw [average_smul, average_finset, div_eq_one_iff_eq (by
      exact_mod_cast (Finset.card_pos.2 (Finset.nonempty_iff_ne_empty.2 hne)).ne')]
    rw [Finset.sum_congr rfl fun i hi => by
      rw [average_smul, average_squaredError h1 asked _ _ _ (hO i hi).1 (hO i hi).2.1 (hO i hi).2.2, div_self (hv i hi)]]
    simp

section Fit

variable (h1 : ∀ i, i < n → ∀ j, j < items → ∑ m ∈ Finset.range M, P i j m = 1) (mc : Option (List ℤ))
  (hmc : ValidScoreKey items M mc) (asked : ℕ → ℕ → Bool)

include h1 hmc in
/-- C130: the infit of an item is one on average, unless the model leaves no uncertainty about any of its answers; so is its outfit if
the model leaves some uncertainty about each of its answers. -/
theorem C130_fit_items (j : ℕ) (hj : j < items) :
    (∑ i ∈ (Finset.range n).filter fun i => asked i j, keyedVariance (keyAt mc j) M (P i j) ≠ 0 →
      ∃ r : (Fin n × Fin items → Fin M) → ℝ,
        (∀ x, ∃ infit outfit, infitOutfit M items mc "item" (tablesOf n items M P) (dataOf n items (drawnData asked x)) = .ok (infit, outfit) ∧
          infit[j]? = some (some (r x))) ∧
        averageOverData P r = 1) ∧
    ((∃ i, i < n ∧ asked i j = true) → (∀ i, i < n → asked i j = true → keyedVariance (keyAt mc j) M (P i j) ≠ 0) →
      ∃ r : (Fin n × Fin items → Fin M) → ℝ,
        (∀ x, ∃ infit outfit, infitOutfit M items mc "item" (tablesOf n items M P) (dataOf n items (drawnData asked x)) = .ok (infit, outfit) ∧
          outfit[j]? = some (some (r x))) ∧
        averageOverData P r = 1) := by
  have hO : ∀ x : Fin n × Fin items → Fin M, ((Finset.range n).filter fun i => IsObserved (drawnData asked x i j))
      = (Finset.range n).filter fun i => asked i j = true := fun x => Finset.filter_congr fun i _ => observed_drawn asked x i j
  have hmem : ∀ i ∈ (Finset.range n).filter fun i => asked i j = true, i < n ∧ j < items ∧ asked i j = true := fun i hi =>
    ⟨Finset.mem_range.1 (Finset.mem_filter.1 hi).1, hj, (Finset.mem_filter.1 hi).2⟩
  have hfit := average_fit h1 asked (fun i => (i, j)) (fun _ => keyAt mc j) _ hmem
  constructor
  · intro hv
    refine ⟨_, fun x => ?_, hfit.1 hv⟩
    obtain ⟨infit, outfit, hrun, _, _, hall⟩ := (C58_fit_statistics n items M (by omega) mc hmc P h1 (drawnData asked x)).1
    obtain ⟨a, b, ha, _, hin, _⟩ := hall j hj
    refine ⟨infit, outfit, hrun, ?_⟩
    rw [hO] at hin
    rw [ha, hin.2 hv]
  · rintro ⟨i, hi, hai⟩ hv
    have hne : ((Finset.range n).filter fun i => asked i j = true) ≠ ∅ :=
      Finset.nonempty_iff_ne_empty.1 ⟨i, Finset.mem_filter.2 ⟨Finset.mem_range.2 hi, hai⟩⟩
    refine ⟨_, fun x => ?_, hfit.2 hne fun i hi => hv i (hmem i hi).1 (hmem i hi).2.2⟩
    obtain ⟨infit, outfit, hrun, _, _, hall⟩ := (C58_fit_statistics n items M (by omega) mc hmc P h1 (drawnData asked x)).1
    obtain ⟨a, b, _, hb, _, hout⟩ := hall j hj
    refine ⟨infit, outfit, hrun, ?_⟩
    rw [hO] at hout
    rw [hb, hout.2 hne fun i hi hz => absurd hz (hv i (hmem i hi).1 (hmem i hi).2.2)]

include h1 hmc in
/-- C130: the same for the infit and the outfit of a respondent. -/
theorem C130_fit_respondents (hpos : 0 < items) (i : ℕ) (hi : i < n) :
    (∑ j ∈ (Finset.range items).filter fun j => asked i j, keyedVariance (keyAt mc j) M (P i j) ≠ 0 →
      ∃ r : (Fin n × Fin items → Fin M) → ℝ,
        (∀ x, ∃ infit outfit, infitOutfit M items mc "respondent" (tablesOf n items M P) (dataOf n items (drawnData asked x))
          = .ok (infit, outfit) ∧ infit[i]? = some (some (r x))) ∧
        averageOverData P r = 1) ∧
    ((∃ j, j < items ∧ asked i j = true) → (∀ j, j < items → asked i j = true → keyedVariance (keyAt mc j) M (P i j) ≠ 0) →
      ∃ r : (Fin n × Fin items → Fin M) → ℝ,
        (∀ x, ∃ infit outfit, infitOutfit M items mc "respondent" (tablesOf n items M P) (dataOf n items (drawnData asked x))
          = .ok (infit, outfit) ∧ outfit[i]? = some (some (r x))) ∧
        averageOverData P r = 1) := by
  have hO : ∀ x : Fin n × Fin items → Fin M, ((Finset.range items).filter fun j => IsObserved (drawnData asked x i j))
      = (Finset.range items).filter fun j => asked i j = true := fun x => Finset.filter_congr fun j _ => observed_drawn asked x i j
  have hmem : ∀ j ∈ (Finset.range items).filter fun j => asked i j = true, i < n ∧ j < items ∧ asked i j = true := fun j hj =>
    ⟨hi, Finset.mem_range.1 (Finset.mem_filter.1 hj).1, (Finset.mem_filter.1 hj).2⟩
  have hfit := average_fit h1 asked (fun j => (i, j)) (keyAt mc) _ hmem
  constructor
  · intro hv
    refine ⟨_, fun x => ?_, hfit.1 hv⟩
    obtain ⟨infit, outfit, hrun, _, _, hall⟩ := (C58_fit_statistics n items M hpos mc hmc P h1 (drawnData asked x)).2
    obtain ⟨a, b, ha, _, hin, _⟩ := hall i hi
    refine ⟨infit, outfit, hrun, ?_⟩
    rw [hO] at hin
    rw [ha, hin.2 hv]
  · rintro ⟨j, hj, haj⟩ hv
    have hne : ((Finset.range items).filter fun j => asked i j = true) ≠ ∅ :=
      Finset.nonempty_iff_ne_empty.1 ⟨j, Finset.mem_filter.2 ⟨Finset.mem_range.2 hj, haj⟩⟩
    refine ⟨_, fun x => ?_, hfit.2 hne fun j hj => hv j (hmem j hj).2.1 (hmem j hj).2.2⟩
    obtain ⟨infit, outfit, hrun, _, _, hall⟩ := (C58_fit_statistics n items M hpos mc hmc P h1 (drawnData asked x)).2
    obtain ⟨a, b, _, hb, _, hout⟩ := hall i hi
    refine ⟨infit, outfit, hrun, ?_⟩
    rw [hO] at hout
    rw [hb, hout.2 hne fun j hj hz => absurd hz (hv j (hmem j hj).2.1 (hmem j hj).2.2)]

end Fit

/-! ## Non-vacuity -/

theorem exFitP_variance (i j : ℕ) : keyedVariance none 3 (exFitP i j) ≠ 0 := by
  by_cases h : j = 0 <;> simp [keyedVariance, keyedMean, scoreOf, exFitP, Finset.sum_range_succ, h] <;> norm_num

/-- The second respondent was not asked the first item. -/
def exAsked : ℕ → ℕ → Bool := fun i j => !(i == 1 && j == 0)

example : ∃ r : (Fin 2 × Fin 2 → Fin 3) → ℝ,
    (∀ x, ∃ infit outfit, infitOutfit 3 2 none "item" (tablesOf 2 2 3 exFitP) (dataOf 2 2 (drawnData exAsked x)) = .ok (infit, outfit) ∧
      outfit[0]? = some (some (r x))) ∧ averageOverData exFitP r = 1 :=
  (C130_fit_items (fun i _ j _ => exFitP_sum i j) none (by intro _ h; cases h) exAsked 0 (by norm_num)).2 ⟨0, by norm_num, rfl⟩
    fun i _ _ => exFitP_variance i 0

example : ∃ r : (Fin 2 × Fin 2 → Fin 3) → ℝ,
    (∀ x, ∃ infit outfit, infitOutfit 3 2 none "respondent" (tablesOf 2 2 3 exFitP) (dataOf 2 2 (drawnData exAsked x))
      = .ok (infit, outfit) ∧ outfit[1]? = some (some (r x))) ∧ averageOverData exFitP r = 1 :=
  (C130_fit_respondents (fun i _ j _ => exFitP_sum i j) none (by intro _ h; cases h) exAsked (by norm_num) 1 (by norm_num)).2
    ⟨1, by norm_num, rfl⟩ fun j _ _ => exFitP_variance 1 j

example : ∃ r : (Fin 2 × Fin 2 → Fin 3) → ℝ,
    (∀ x, residuals 3 2 none "everything" (tablesOf 2 2 3 exFitP) (dataOf 2 2 (drawnData exAsked x)) = .ok (.scalar (some (r x)))) ∧
    averageOverData exFitP r = 0 :=
  (C130_residuals_zero (n := 2) (items := 2) (fun i _ j _ => exFitP_sum i j) (by norm_num) exAsked).2.2 ⟨0, by norm_num, 0, by norm_num, rfl⟩

end Irt
