import Verif.Props.GroupFit
import Verif.Props.LatentScores

/-!
# C70: groups of respondents
-/

namespace Irt

open scoped BigOperators

theorem blocks_map {α β : Type} (f : α → β) (k : ℕ) (xs : List α) : blocks k (xs.map f) = (blocks k xs).map (List.map f) := by
  induction xs using blocks.induct (k := k) with
  | case1 => simp [blocks]
  | case2 x xs ih =>
    rw [List.map_cons, blocks, blocks, List.map_cons, List.map_cons, List.map_take, ← List.map_drop, ih]

theorem torchChunk_map {α β : Type} (f : α → β) (xs : List α) (g : ℤ) :
    torchChunk (xs.map f) g = (torchChunk xs g).map (List.map (List.map f)) := by
  unfold torchChunk
  by_cases h : g ≤ 0
  · rw [if_pos h, if_pos h]; rfl
  · rw [if_neg h, if_neg h]
    by_cases hx : xs = []
    · rw [if_pos hx, if_pos (by rw [hx]; rfl)]
      simp [Except.map]
    · rw [if_neg hx, if_neg (by simpa using hx), blocks_map, List.length_map]
      rfl

theorem torchChunk_ok {α : Type} (xs : List α) (g : ℕ) (hg : 0 < g) :
    ∃ gs, torchChunk xs g = .ok gs ∧ gs.flatten = xs ∧ gs.length ≤ g ∧ (xs ≠ [] → ∀ b ∈ gs, b ≠ []) := by
  unfold torchChunk
  rw [if_neg (by omega)]
  by_cases hx : xs = []
  · subst hx
    rw [if_pos rfl]
    exact ⟨_, rfl, by simp, by simp, fun h => (h rfl).elim⟩
  · rw [if_neg hx]
    refine ⟨_, rfl, blocks_flatten _ _, ?_, fun _ => blocks_ne_nil _ _⟩
    have hn : 0 < xs.length := List.length_pos_of_ne_nil hx
    rw [blocks_length, Int.toNat_natCast]
    set s := (xs.length + g - 1) / g with hs
    have h1 : 1 ≤ s := by rw [hs, Nat.le_div_iff_mul_le hg]; omega
    rw [show xs.length + (s - 1) = xs.length + s - 1 by omega, show s - 1 + 1 = s by omega]
    rw [Nat.div_le_iff_le_mul_add_pred (by omega)]
    have h2 : xs.length + g - 1 < g * (s + 1) := by
      rw [hs]; exact Nat.lt_mul_div_succ _ hg
    have : xs.length ≤ g * s := by
      have : g * (s + 1) = g * s + g := by ring
      omega
    rw [Nat.mul_comm s g] 
    omega

theorem torchChunk_lengths {α β : Type} (xs : List α) (ys : List β) (h : xs.length = ys.length) (g : ℤ)
    (as : List (List α)) (bs : List (List β)) (ha : torchChunk xs g = .ok as) (hb : torchChunk ys g = .ok bs) :
    as.map List.length = bs.map List.length := by
  have e : xs.map (fun _ => ()) = ys.map fun _ => () := by
    rw [List.map_const', List.map_const', h]
  have e1 := torchChunk_map (fun _ => ()) xs g
  have e2 := torchChunk_map (fun _ => ()) ys g
  rw [ha] at e1
  rw [hb] at e2
  rw [e, e2] at e1
  have e3 : bs.map (List.map fun _ => ()) = as.map (List.map fun _ => ()) := Except.ok.inj e1
  have e4 := congrArg (List.map List.length) e3
  simpa [List.map_map, Function.comp_def] using e4.symm

/-! ## Observed shares -/

theorem foldr_max_le (M : ℕ) (xs : List ℤ) (h : ∀ x ∈ xs, 0 ≤ x ∧ x < (M : ℤ)) :
    xs.foldr (fun x acc => max (x.toNat + 1) acc) 0 ≤ M := by
  induction xs with
  | nil => simp
  | cons a t ih =>
    rw [List.foldr_cons]
    have := h a (by simp)
    exact max_le (by omega) (ih fun x hx => h x (by simp [hx]))

theorem sum_count_range (M : ℕ) (xs : List ℤ) (h : ∀ x ∈ xs, 0 ≤ x ∧ x < (M : ℤ)) :
    ((List.range M).map fun k : ℕ => xs.count (k : ℤ)).sum = xs.length := by
  induction xs with
  | nil => simp
  | cons a t ih =>
    have ha := h a (by simp)
    rw [List.length_cons, ← ih fun x hx => h x (by simp [hx])]
    have e : ((List.range M).map fun k : ℕ => (a :: t).count (k : ℤ))
        = (List.range M).map fun k : ℕ => t.count (k : ℤ) + if a = (k : ℤ) then 1 else 0 := by
      refine List.map_congr_left fun k _ => ?_
      rw [List.count_cons]
      simp
    rw [e, List.sum_map_add]
    congr 1
    have e2 : ((List.range M).map fun k : ℕ => if a = (k : ℤ) then 1 else 0).sum
        = ∑ k ∈ Finset.range M, if a = (k : ℤ) then 1 else 0 := by
      rw [Finset.sum, Finset.range_val, Multiset.range, Multiset.map_coe, Multiset.sum_coe]
    rw [e2, Finset.sum_eq_single_of_mem a.toNat (Finset.mem_range.2 (by omega))]
    · rw [if_pos (by omega)]
    · intro k _ hk
      rw [if_neg (by omega)]

theorem filterMap_observed (Y : ℕ → ℕ → Cell) (g : List ℕ) (j : ℕ) :
    (g.map fun i => Y i j).filterMap (fun c => if cellMissing c then none else c)
      = ((g.filter fun i => IsObserved (Y i j)).map fun i => (Y i j).getD 0) := by
  rw [List.filterMap_map, ← List.filterMap_eq_map, List.filterMap_filter]
  refine List.filterMap_congr fun i _ => ?_
  by_cases h : IsObserved (Y i j)
  · obtain ⟨y, hy, -⟩ := id h
    simp only [Function.comp, (cellMissing_eq_false _).2 h, h, decide_true, if_true, Bool.false_eq_true, if_false]
    rw [hy]; rfl
  · simp [h, (cellMissing_iff _).2 h]

theorem groupProportions_eq (M : ℕ) (Y : ℕ → ℕ → Cell) (g : List ℕ) (j : ℕ)
    (hY : ∀ i ∈ g, ∀ y, Y i j = some y → y ≠ -1 → 0 ≤ y ∧ y < (M : ℤ)) :
    groupProportions M (g.map fun i => Y i j) = .ok ((List.range M).map fun c => observedShare Y g j c) := by
  set xs := (g.filter fun i => IsObserved (Y i j)).map fun i => (Y i j).getD 0 with hxs
  have hx : ∀ x ∈ xs, 0 ≤ x ∧ x < (M : ℤ) := by
    intro x hx
    obtain ⟨i, hi, rfl⟩ := List.mem_map.1 hx
    rw [List.mem_filter] at hi
    obtain ⟨y, hy, hne⟩ : IsObserved (Y i j) := by simpa using hi.2
    rw [hy]
    exact hY i hi.1 y hy hne
  have hb : bincount xs M = .ok ((List.range M).map fun k : ℕ => xs.count (k : ℤ)) := by
    unfold bincount
    rw [if_neg (by simpa using fun x hx' => (hx x hx').1), max_eq_left (foldr_max_le M xs hx)]
  unfold groupProportions
  rw [filterMap_observed, ← hxs, hb, bind_ok]
  simp only [List.length_map, List.length_range, ne_eq, not_true_eq_false, if_false, sum_count_range M xs hx, List.map_map,
    pure, Except.pure, Except.ok.injEq]
  refine List.map_congr_left fun c hc => ?_
  have hc := List.mem_range.1 hc
  have hcount : xs.count (c : ℤ) = g.countP fun i => decide (Y i j = some (c : ℤ)) := by
    rw [hxs, List.count, List.countP_map, List.countP_filter]
    refine List.countP_congr fun i _ => ?_
    simp only [Function.comp, beq_iff_eq, Bool.and_eq_true, decide_eq_true_eq]
    constructor
    · rintro ⟨h1, y, hy, -⟩
      rw [hy, Option.getD_some] at h1
      rw [hy, h1]
    · intro h
      rw [h]
      exact ⟨rfl, c, rfl, by omega⟩
  have hlen : xs.length = g.countP fun i => decide (IsObserved (Y i j)) := by
    rw [hxs, List.length_map, List.countP_eq_length_filter]
  simp only [Function.comp, observedShare, floatDiv]
  rw [hcount, hlen]
  by_cases h : (g.filter fun i => IsObserved (Y i j)) = []
  · rw [if_pos h, if_pos]
    rw [List.countP_eq_length_filter, h]; simp
  · rw [if_neg h, if_neg]
    rw [List.countP_eq_length_filter]
    simpa using h

theorem groupedData_eq (M items : ℕ) (Y : ℕ → ℕ → Cell) (gs : List (List ℕ))
    (hY : ∀ g ∈ gs, ∀ i ∈ g, ∀ j, j < items → ∀ y, Y i j = some y → y ≠ -1 → 0 ≤ y ∧ y < (M : ℤ)) :
    groupedDataProbabilities M items (gs.map fun g => g.map fun i => (List.range items).map (Y i))
      = .ok (cube gs items M (observedShare Y)) := by
  unfold groupedDataProbabilities cube
  rw [mapM_ok_iff]
  refine ⟨by simp, ?_⟩
  intro a x hx
  rw [List.getElem?_map] at hx
  obtain ⟨g, hg, rfl⟩ := Option.map_eq_some_iff.1 hx
  refine ⟨_, by rw [List.getElem?_map, hg]; rfl, ?_⟩
  rw [mapM_ok _ _ (fun j => (List.range M).map fun c => observedShare Y g j c)]
  intro j hj
  have hj := List.mem_range.1 hj
  rw [← groupProportions_eq M Y g j (fun i hi => hY g (List.mem_of_getElem? hg) i hi j hj), List.map_map]
  congr 1
  refine List.map_congr_left fun i _ => ?_
  simp only [Function.comp]
  rw [List.getD_eq_getElem _ _ (by simpa using hj)]
  simp

theorem tableProb_getD (t : List (List ℝ)) (j k : ℕ) : (t.getD j []).getD k 0 = tableProb t j k := by
  unfold tableProb
  rw [List.getD_eq_getElem?_getD, List.getD_eq_getElem?_getD]
  cases t[j]? <;> simp

theorem groupedTheta_eq {d : ℕ} (M items : ℕ) (probs : (Fin d → ℝ) → List (List ℝ)) (t : ℕ → Fin d → ℝ) (gs : List (List ℕ)) :
    groupedThetaProbabilities M items probs (gs.map fun g => g.map t)
      = cube gs items M (modelShare (fun θ => tableProb (probs θ)) t) := by
  unfold groupedThetaProbabilities cube
  rw [List.map_map]
  refine List.map_congr_left fun g _ => ?_
  simp only [Function.comp]
  refine List.map_congr_left fun j _ => List.map_congr_left fun k _ => ?_
  unfold modelShare floatDiv
  simp only [tableProb_getD, List.map_map, List.length_map, Function.comp_def]
  by_cases h : g = []
  · rw [if_pos h, if_pos (by simp [h])]
  · rw [if_neg h, if_neg (by simpa using h)]

/-! ## Mid points -/

theorem groupMedian_spec (xs : List ℝ) (h : xs ≠ []) : ∃ x, groupMedian xs = some x ∧ IsLowerMedian xs x := by
  unfold groupMedian
  set l := xs.mergeSort fun a b => decide (a ≤ b) with hl
  have hperm : l.Perm xs := List.mergeSort_perm xs _
  have hsort : l.Pairwise fun a b => a ≤ b := by
    have := List.pairwise_mergeSort (le := fun a b : ℝ => decide (a ≤ b)) (fun a b c h1 h2 => by
      simp only [decide_eq_true_eq] at *; linarith) (fun a b => by
      simp only [Bool.or_eq_true, decide_eq_true_eq]; exact le_total a b) xs
    simpa using this
  have hpos : 0 < xs.length := List.length_pos_of_ne_nil h
  have hlen : l.length = xs.length := hperm.length_eq
  set m := (xs.length - 1) / 2 with hm
  have hmlt : m < l.length := by omega
  refine ⟨l[m], List.getElem?_eq_getElem hmlt, hperm.mem_iff.1 (List.getElem_mem _), ?_, ?_⟩
  · rw [← hperm.countP_eq]
    have hsplit : l = l.take m ++ l.drop m := (List.take_append_drop _ _).symm
    have h0 : (l.drop m).countP (fun a => decide (a < l[m])) = 0 := by
      rw [List.countP_eq_zero]
      intro a ha
      obtain ⟨i, hi, rfl⟩ := List.mem_iff_getElem.1 ha
      rw [List.getElem_drop]
      simp only [decide_eq_true_eq, not_lt]
      rw [List.length_drop] at hi
      rcases Nat.eq_zero_or_pos i with rfl | hi0
      · simp
      · exact List.pairwise_iff_getElem.1 hsort m (m + i) hmlt (by omega) (by omega)
    calc l.countP (fun a => decide (a < l[m]))
        = (l.take m).countP (fun a => decide (a < l[m])) + (l.drop m).countP (fun a => decide (a < l[m])) := by
          rw [← List.countP_append, List.take_append_drop]
      _ ≤ (l.take m).length + 0 := by
          rw [h0]; exact Nat.add_le_add_right List.countP_le_length _
      _ ≤ m := by rw [List.length_take]; omega
  · rw [← hperm.countP_eq]
    have h1 : (l.take (m + 1)).countP (fun a => decide (a ≤ l[m])) = (l.take (m + 1)).length := by
      rw [List.countP_eq_length]
      intro a ha
      obtain ⟨i, hi, rfl⟩ := List.mem_iff_getElem.1 ha
      rw [List.getElem_take]
      simp only [decide_eq_true_eq]
      rw [List.length_take] at hi
      rcases Nat.lt_or_ge i m with hi0 | hi0
      · exact List.pairwise_iff_getElem.1 hsort i m (by omega) hmlt hi0
      · have : i = m := by omega
        subst this; exact le_rfl
    calc m < (l.take (m + 1)).length := by rw [List.length_take]; omega
      _ = (l.take (m + 1)).countP (fun a => decide (a ≤ l[m])) := h1.symm
      _ ≤ l.countP (fun a => decide (a ≤ l[m])) := (List.take_sublist _ _).countP_le

/-! ## C70 -/

/-- Respondents in the order of the sorted scores. -/
theorem sort_scores {n : ℕ} (sort : List ℝ → List ℕ) (hsort : IsSort sort) (score : ℕ → ℝ) :
    (sort ((List.range n).map score)).Perm (List.range n) ∧
      (sort ((List.range n).map score)).Pairwise fun a b => score a ≤ score b := by
  obtain ⟨hp, hs⟩ := hsort ((List.range n).map score)
  rw [List.length_map, List.length_range] at hp
  refine ⟨hp, hs.imp_of_mem fun {a b} ha hb hab => ?_⟩
  have ha := List.mem_range.1 (hp.mem_iff.1 ha)
  have hb := List.mem_range.1 (hp.mem_iff.1 hb)
  rw [List.getD_eq_getElem _ _ (by simpa using ha), List.getD_eq_getElem _ _ (by simpa using hb)] at hab
  simpa using hab

theorem groups_core {d : ℕ} (f : FittedModel d) (sort : List ℝ → List ℕ) (hsort : IsSort sort) (k : Fin d) (groups : ℕ)
    (hg : 0 < groups) (rescale : Bool) (hr : rescale = false ∨ f.scales = []) (n : ℕ) (hn : 0 < n) (t : ℕ → Fin d → ℝ)
    (Y : ℕ → ℕ → Cell)
    (hY : ∀ i, i < n → ∀ j, j < f.cats.length → ∀ y, Y i j = some y → y ≠ -1 → 0 ≤ y ∧ y < (maxCats f.cats : ℤ)) :
    ∃ gs mids, IsGrouping n (fun i => t i k) groups gs ∧ (∀ g ∈ gs, g ≠ []) ∧ (∃ order : List ℕ, torchChunk order groups = .ok gs) ∧
      latentGroupProbabilities f sort k groups rescale ((List.range n).map t) (dataOf n f.cats.length Y)
        = .ok ⟨cube gs f.cats.length (maxCats f.cats) (observedShare Y),
            cube gs f.cats.length (maxCats f.cats) (modelShare (fun θ => tableProb (f.probs θ)) t), mids.map some⟩ ∧
      List.Forall₂ (fun g x => IsLowerMedian (g.map fun i => t i k) x) gs mids := by
  obtain ⟨hp, hs⟩ := sort_scores (n := n) sort hsort fun i => t i k
  set order := sort ((List.range n).map fun i => t i k) with horder
  have hmem : ∀ i ∈ order, i < n := fun i hi => List.mem_range.1 (hp.mem_iff.1 hi)
  have hne : order ≠ [] := by
    intro h
    have := hp.length_eq
    rw [h] at this
    simp at this
    omega
  obtain ⟨gs, hchunk, hflat, hcount, hnonempty⟩ := torchChunk_ok order groups hg
  have hnonempty := hnonempty hne
  have hmids : ∃ mids : List ℝ, (gs.map fun g => groupMedian (g.map fun i => t i k)) = mids.map some ∧
      List.Forall₂ (fun g x => IsLowerMedian (g.map fun i => t i k) x) gs mids := by
    have : ∀ l : List (List ℕ), (∀ g ∈ l, g ≠ []) → ∃ mids : List ℝ,
        (l.map fun g => groupMedian (g.map fun i => t i k)) = mids.map some ∧
        List.Forall₂ (fun g x => IsLowerMedian (g.map fun i => t i k) x) l mids := by
      intro l
      induction l with
      | nil => exact fun _ => ⟨[], rfl, List.Forall₂.nil⟩
      | cons a l ih =>
        intro h
        obtain ⟨mids, h1, h2⟩ := ih fun g hg => h g (by simp [hg])
        obtain ⟨x, hx, hmed⟩ := groupMedian_spec (a.map fun i => t i k) (by simpa using h a (by simp))
        exact ⟨x :: mids, by rw [List.map_cons, List.map_cons, h1, hx], List.Forall₂.cons hmed h2⟩
    exact this gs hnonempty
  obtain ⟨mids, hmap, hmed⟩ := hmids
  refine ⟨gs, mids, ⟨by rw [hflat]; exact hp, by rw [hflat]; exact hs, hcount⟩, hnonempty, ⟨order, hchunk⟩, ?_, hmed⟩
  have hif : (rescale && !f.scales.isEmpty) = false := by
    rcases hr with h | h
    · rw [h]; rfl
    · rw [h]; simp
  unfold latentGroupProbabilities
  rw [hif]
  simp only [Bool.false_eq_true, if_false]
  rw [List.map_map, show sort ((List.range n).map ((fun t => t k) ∘ t)) = order from rfl,
    takeRows_map_range n t order hmem, dataOf, takeRows_map_range n _ order hmem, torchChunk_map, torchChunk_map, hchunk]
  show (groupedDataProbabilities _ _ (gs.map fun g => g.map fun i => (List.range f.cats.length).map (Y i)) >>= _) = _
  rw [groupedData_eq _ _ _ _ fun g hg i hi j hj => hY i (hmem i (by
    rw [← hflat]; exact List.mem_flatten.2 ⟨g, hg, hi⟩)) j hj, bind_ok]
  show Except.ok _ = Except.ok _
  congr 2
  · exact groupedTheta_eq _ _ _ _ _
  · rw [← hmap, List.map_map]
    refine List.map_congr_left fun g _ => ?_
    simp [Function.comp_def]

theorem groups_rescaled_core {d : ℕ} (f : FittedModel d) (sort : List ℝ → List ℕ) (hsort : IsSort sort) (k : Fin d)
    (groups : ℕ) (hg : 0 < groups) (hscale : f.scales ≠ []) (n : ℕ) (hn : 0 < n) (t u : ℕ → Fin d → ℝ)
    (hu : transformTheta f.scales ((List.range n).map t) = .ok ((List.range n).map u)) (Y : ℕ → ℕ → Cell)
    (hY : ∀ i, i < n → ∀ j, j < f.cats.length → ∀ y, Y i j = some y → y ≠ -1 → 0 ≤ y ∧ y < (maxCats f.cats : ℤ)) :
    ∃ gs, IsGrouping n (fun i => u i k) groups gs ∧ (∀ g ∈ gs, g ≠ []) ∧ (∃ order : List ℕ, torchChunk order groups = .ok gs) ∧
      latentGroupProbabilities f sort k groups true ((List.range n).map t) (dataOf n f.cats.length Y)
        = .ok ⟨cube gs f.cats.length (maxCats f.cats) (observedShare Y),
            cube gs f.cats.length (maxCats f.cats) (modelShare (fun θ => tableProb (f.probs θ)) t),
            gs.map fun g => some ((g.map fun i => u i k).sum / g.length)⟩ := by
  obtain ⟨hp, hs⟩ := sort_scores (n := n) sort hsort fun i => u i k
  set order := sort ((List.range n).map fun i => u i k) with horder
  have hmem : ∀ i ∈ order, i < n := fun i hi => List.mem_range.1 (hp.mem_iff.1 hi)
  have hne : order ≠ [] := by
    intro h
    have := hp.length_eq
    rw [h] at this
    simp at this
    omega
  obtain ⟨gs, hchunk, hflat, hcount, hnonempty⟩ := torchChunk_ok order groups hg
  have hnonempty := hnonempty hne
  refine ⟨gs, ⟨by rw [hflat]; exact hp, by rw [hflat]; exact hs, hcount⟩, hnonempty, ⟨order, hchunk⟩, ?_⟩
  have hif : (true && !f.scales.isEmpty) = true := by
    simpa using hscale
  unfold latentGroupProbabilities
  rw [hif]
  simp only [if_true]
  rw [hu, bind_ok, List.map_map, show sort ((List.range n).map ((fun t => t k) ∘ u)) = order from rfl,
    takeRows_map_range n t order hmem, takeRows_map_range n u order hmem, dataOf, takeRows_map_range n _ order hmem,
    torchChunk_map, torchChunk_map, torchChunk_map, hchunk]
  show (groupedDataProbabilities _ _ (gs.map fun g => g.map fun i => (List.range f.cats.length).map (Y i)) >>= _) = _
  rw [groupedData_eq _ _ _ _ fun g hg i hi j hj => hY i (hmem i (by
    rw [← hflat]; exact List.mem_flatten.2 ⟨g, hg, hi⟩)) j hj, bind_ok]
  show Except.ok _ = Except.ok _
  congr 2
  · exact groupedTheta_eq _ _ _ _ _
  · rw [List.map_map]
    refine List.map_congr_left fun g hg' => ?_
    have : (g.length : ℝ) ≠ 0 := by simpa using hnonempty g hg'
    simp [Function.comp_def, groupMean, floatDiv, hnonempty g hg']

/-- C70, scores on the latent scale: the respondents are divided into groups of consecutive latent scores; observed and
model proportions are those of the same groups, and the mid point of a group is the (lower) median of its scores. -/
theorem C70_groups {d : ℕ} (f : FittedModel d) (sort : List ℝ → List ℕ) (hsort : IsSort sort) (k : Fin d) (groups : ℕ)
    (hg : 0 < groups) (rescale : Bool) (hr : rescale = false ∨ f.scales = []) (n : ℕ) (hn : 0 < n) (t : ℕ → Fin d → ℝ)
    (Y : ℕ → ℕ → Cell)
    (hY : ∀ i, i < n → ∀ j, j < f.cats.length → ∀ y, Y i j = some y → y ≠ -1 → 0 ≤ y ∧ y < (maxCats f.cats : ℤ)) :
    ∃ gs mids, IsGrouping n (fun i => t i k) groups gs ∧ (∀ g ∈ gs, g ≠ []) ∧
      latentGroupProbabilities f sort k groups rescale ((List.range n).map t) (dataOf n f.cats.length Y)
        = .ok ⟨cube gs f.cats.length (maxCats f.cats) (observedShare Y),
            cube gs f.cats.length (maxCats f.cats) (modelShare (fun θ => tableProb (f.probs θ)) t), mids.map some⟩ ∧
      List.Forall₂ (fun g x => IsLowerMedian (g.map fun i => t i k) x) gs mids := by
  obtain ⟨gs, mids, h1, h2, -, h3, h4⟩ := groups_core f sort hsort k groups hg rescale hr n hn t Y hY
  exact ⟨gs, mids, h1, h2, h3, h4⟩

/-- C70, scores on the rescaled scale `u`: the groups are consecutive in the rescaled scores, and the mid point of a
group is the mean of its rescaled scores. -/
theorem C70_groups_rescaled {d : ℕ} (f : FittedModel d) (sort : List ℝ → List ℕ) (hsort : IsSort sort) (k : Fin d)
    (groups : ℕ) (hg : 0 < groups) (hscale : f.scales ≠ []) (n : ℕ) (hn : 0 < n) (t u : ℕ → Fin d → ℝ)
    (hu : transformTheta f.scales ((List.range n).map t) = .ok ((List.range n).map u)) (Y : ℕ → ℕ → Cell)
    (hY : ∀ i, i < n → ∀ j, j < f.cats.length → ∀ y, Y i j = some y → y ≠ -1 → 0 ≤ y ∧ y < (maxCats f.cats : ℤ)) :
    ∃ gs, IsGrouping n (fun i => u i k) groups gs ∧ (∀ g ∈ gs, g ≠ []) ∧
      latentGroupProbabilities f sort k groups true ((List.range n).map t) (dataOf n f.cats.length Y)
        = .ok ⟨cube gs f.cats.length (maxCats f.cats) (observedShare Y),
            cube gs f.cats.length (maxCats f.cats) (modelShare (fun θ => tableProb (f.probs θ)) t),
            gs.map fun g => some ((g.map fun i => u i k).sum / g.length)⟩ := by
  obtain ⟨gs, h1, h2, -, h3⟩ := groups_rescaled_core f sort hsort k groups hg hscale n hn t u hu Y hY
  exact ⟨gs, h1, h2, h3⟩

/-- C70: the observed proportions of a group sum to one for each item, or are all NaN if nobody in the group answered. -/
theorem C70_observed_distribution (M : ℕ) (Y : ℕ → ℕ → Cell) (g : List ℕ) (j : ℕ)
    (hY : ∀ i ∈ g, ∀ y, Y i j = some y → y ≠ -1 → 0 ≤ y ∧ y < (M : ℤ)) :
    ((∀ i ∈ g, ¬ IsObserved (Y i j)) → ∀ c, observedShare Y g j c = none) ∧
    ((∃ i ∈ g, IsObserved (Y i j)) → ∃ p : ℕ → ℝ, (∀ c, observedShare Y g j c = some (p c)) ∧ (∀ c, 0 ≤ p c) ∧
      ∑ c ∈ Finset.range M, p c = 1) := by
  constructor
  · intro h c
    rw [observedShare, if_pos]
    rw [List.filter_eq_nil_iff]
    intro i hi
    simpa using h i hi
  · rintro ⟨i, hi, hobs⟩
    have hne : (g.filter fun i => IsObserved (Y i j)) ≠ [] :=
      List.ne_nil_of_mem (List.mem_filter.2 ⟨hi, by simpa using hobs⟩)
    refine ⟨fun c => ((g.countP fun i => decide (Y i j = some (c : ℤ)) : ℕ) : ℝ)
      / (g.countP fun i => decide (IsObserved (Y i j)) : ℕ), fun c => by rw [observedShare, if_neg hne],
      fun c => by positivity, ?_⟩
    rw [← Finset.sum_div]
    have hpos : 0 < g.countP fun i => decide (IsObserved (Y i j)) := by
      rw [List.countP_eq_length_filter]; exact List.length_pos_of_ne_nil hne
    rw [div_eq_one_iff_eq (by exact_mod_cast hpos.ne')]
    rw [← Nat.cast_sum]
    congr 1
    clear hne hpos hobs hi
    induction g with
    | nil => simp
    | cons a l ih =>
      simp only [List.countP_cons]
      rw [Finset.sum_add_distrib, ih fun i hi => hY i (by simp [hi])]
      congr 1
      by_cases h : IsObserved (Y a j)
      · obtain ⟨y, hy, hne⟩ := id h
        obtain ⟨h0, h1⟩ := hY a (by simp) y hy hne
        rw [Finset.sum_eq_single_of_mem y.toNat (Finset.mem_range.2 (by omega))]
        · simp only [h, decide_true, if_true]
          rw [hy, if_pos]
          simp [h0]
        · intro c _ hc
          rw [hy, if_neg]
          simp only [Option.some.injEq, decide_eq_true_eq]
          omega
      · simp only [h, decide_false, Bool.false_eq_true, if_false]
        refine Finset.sum_eq_zero fun c _ => ?_
        rw [if_neg]
        simp only [decide_eq_true_eq]
        intro hc
        exact h ⟨c, hc, by omega⟩

/-- C70: the model proportions of a group are a distribution for each item whose probabilities are one for each
respondent. -/
theorem C70_model_distribution {d : ℕ} (M : ℕ) (P : (Fin d → ℝ) → ℕ → ℕ → ℝ) (t : ℕ → Fin d → ℝ) (g : List ℕ) (hg : g ≠ [])
    (j : ℕ) (h0 : ∀ θ c, 0 ≤ P θ j c) (h1 : ∀ θ, ∑ c ∈ Finset.range M, P θ j c = 1) :
    ∃ p : ℕ → ℝ, (∀ c, modelShare P t g j c = some (p c)) ∧ (∀ c, 0 ≤ p c) ∧ ∑ c ∈ Finset.range M, p c = 1 := by
  refine ⟨fun c => (g.map fun i => P (t i) j c).sum / g.length, fun c => by rw [modelShare, if_neg hg],
    fun c => div_nonneg (List.sum_nonneg (by
      intro x hx
      obtain ⟨i, -, rfl⟩ := List.mem_map.1 hx
      exact h0 _ _)) (by positivity), ?_⟩
  rw [← Finset.sum_div, div_eq_one_iff_eq (by simpa using hg)]
  clear hg
  induction g with
  | nil => simp
  | cons a l ih =>
    simp only [List.map_cons, List.sum_cons, List.length_cons]
    rw [Finset.sum_add_distrib, ih, h1]
    push_cast
    ring

/-! ## Residuals of groups -/

theorem zipWith_cube {α β γ : Type} (items M : ℕ) (h : List ℕ → α → β → γ) (f1 : List ℕ → ℕ → ℕ → α)
    (f2 : List ℕ → ℕ → ℕ → β) (gs : List (List ℕ)) :
    List.zipWith (fun (g : List ℕ) (om : List (List α) × List (List β)) =>
        List.zipWith (fun o m => List.zipWith (h g) o m) om.1 om.2) gs
        (List.zip (cube gs items M f1) (cube gs items M f2))
      = cube gs items M fun g j c => h g (f1 g j c) (f2 g j c) := by
  unfold cube
  induction gs with
  | nil => rfl
  | cons a l ih =>
    simp only [List.map_cons, List.zip_cons_cons, List.zipWith_cons_cons, ih, zipWith_range]

theorem standardResidual_eq (n : ℕ) (o m : Num) : standardResidual n o m = standardizedDifference n o m := by
  unfold standardResidual standardizedDifference rawResidual
  cases o with
  | none => rfl
  | some o =>
    cases m with
    | none => rfl
    | some p =>
      simp only [Option.map_some, Option.bind_some, floatDiv, Real.sqrt_eq_zero']
      by_cases h : 0 < p * (1 - p) / n
      · rw [if_pos h, if_neg (not_le.2 h)]
      · rw [if_neg h, if_pos (not_lt.1 h)]

theorem residuals_core {d : ℕ} (f : FittedModel d) (sort : List ℝ → List ℕ) (k : Fin d) (groups : ℕ) (rescale : Bool)
    (n : ℕ) (t : ℕ → Fin d → ℝ) (train : List (List Cell)) (Y : ℕ → ℕ → Cell) (gs : List (List ℕ))
    (hgs : gs.flatten.Perm (List.range n)) (hchunk : ∃ order, torchChunk order groups = .ok gs) (mids : List Num)
    (O : List ℕ → ℕ → ℕ → Num) (Q : List ℕ → ℕ → ℕ → Num)
    (hrun : latentGroupProbabilities f sort k groups rescale ((List.range n).map t) (dataOf n f.cats.length Y)
      = .ok ⟨cube gs f.cats.length (maxCats f.cats) O, cube gs f.cats.length (maxCats f.cats) Q, mids⟩) :
    groupFitResiduals f sort k groups rescale false ((List.range n).map t) train (some (dataOf n f.cats.length Y))
      = .ok (cube gs f.cats.length (maxCats f.cats) fun g j c =>
          if c < f.cats.getD j 0 then (O g j c).bind fun o => (Q g j c).map fun p => o - p else none, mids) ∧
    groupFitResiduals f sort k groups rescale true ((List.range n).map t) train (some (dataOf n f.cats.length Y))
      = .ok (cube gs f.cats.length (maxCats f.cats) fun g j c =>
          standardizedDifference g.length (O g j c) (Q g j c), mids) := by
  constructor
  · unfold groupFitResiduals
    rw [Option.getD_some, hrun, bind_ok]
    show Except.ok _ = Except.ok _
    congr 2
    unfold cube
    rw [List.zipWith_map, List.zipWith_self]
    refine List.map_congr_left fun g _ => ?_
    apply List.ext_getElem
    · simp
    · intro j h1 h2
      have hj : j < f.cats.length := by simpa using h2
      simp only [List.getElem_zipWith, List.getElem_map, List.getElem_range, List.getElem_zip, zipWith_range]
      apply List.ext_getElem
      · simp
      · intro c _ _
        simp [rawResidual, hj]
  · unfold groupFitResiduals
    rw [Option.getD_some, hrun, bind_ok]
    simp only [if_true]
    obtain ⟨order, ho⟩ := hchunk
    have hg0 : 0 < groups := by
      by_contra h
      rw [torchChunk, if_pos (by omega)] at ho
      cases ho
    obtain ⟨chunks, hc, -⟩ := torchChunk_ok (dataOf n f.cats.length Y) groups hg0
    obtain ⟨gs', hc', hflat', -⟩ := torchChunk_ok order groups hg0
    rw [ho] at hc'
    obtain rfl := Except.ok.inj hc'
    have hlen : (dataOf n f.cats.length Y).length = order.length := by
      rw [← hflat', hgs.length_eq]; simp [dataOf]
    have hl := torchChunk_lengths _ _ hlen groups chunks gs hc ho
    rw [hc, bind_ok]
    show Except.ok _ = Except.ok _
    congr 2
    rw [← zipWith_cube f.cats.length (maxCats f.cats) (fun g o p => standardizedDifference g.length o p) O Q gs]
    have e : ∀ (as : List (List (List Cell))) (bs : List (List ℕ)), as.map List.length = bs.map List.length →
        ∀ zs : List (List (List Num) × List (List Num)),
        List.zipWith (fun c (om : List (List Num) × List (List Num)) =>
          List.zipWith (fun o m => List.zipWith (standardResidual c.length) o m) om.1 om.2) as zs
        = List.zipWith (fun (g : List ℕ) (om : List (List Num) × List (List Num)) =>
          List.zipWith (fun o m => List.zipWith (fun o p => standardizedDifference g.length o p) o m) om.1 om.2) bs zs := by
      intro as
      induction as with
      | nil => intro bs h zs; cases bs with
        | nil => rfl
        | cons b bs => simp at h
      | cons a as ih =>
        intro bs h zs
        cases bs with
        | nil => simp at h
        | cons b bs =>
          cases zs with
          | nil => rfl
          | cons z zs =>
            simp only [List.map_cons, List.cons.injEq] at h
            rw [List.zipWith_cons_cons, List.zipWith_cons_cons, ih bs h.2, h.1]
            congr 4
            funext o m
            congr 1
            funext o p
            exact standardResidual_eq _ _ _
    exact e chunks gs hl _

/-- C70: the residuals of a group are the differences of its observed and model proportions, NaN for category slots that
the item does not have; standardised residuals are divided by the standard error of a proportion in a group of this
size. -/
theorem C70_residuals {d : ℕ} (f : FittedModel d) (sort : List ℝ → List ℕ) (hsort : IsSort sort) (k : Fin d) (groups : ℕ)
    (hg : 0 < groups) (rescale : Bool) (hr : rescale = false ∨ f.scales = []) (n : ℕ) (hn : 0 < n) (t : ℕ → Fin d → ℝ)
    (train : List (List Cell)) (Y : ℕ → ℕ → Cell)
    (hY : ∀ i, i < n → ∀ j, j < f.cats.length → ∀ y, Y i j = some y → y ≠ -1 → 0 ≤ y ∧ y < (maxCats f.cats : ℤ)) :
    ∃ gs mids, IsGrouping n (fun i => t i k) groups gs ∧
      groupFitResiduals f sort k groups rescale false ((List.range n).map t) train (some (dataOf n f.cats.length Y))
        = .ok (cube gs f.cats.length (maxCats f.cats) fun g j c =>
            if c < f.cats.getD j 0 then (observedShare Y g j c).bind fun o =>
              (modelShare (fun θ => tableProb (f.probs θ)) t g j c).map fun p => o - p else none, mids) ∧
      groupFitResiduals f sort k groups rescale true ((List.range n).map t) train (some (dataOf n f.cats.length Y))
        = .ok (cube gs f.cats.length (maxCats f.cats) fun g j c =>
            standardizedDifference g.length (observedShare Y g j c)
              (modelShare (fun θ => tableProb (f.probs θ)) t g j c), mids) := by
  obtain ⟨gs, mids, h1, -, h2, h3, -⟩ := groups_core f sort hsort k groups hg rescale hr n hn t Y hY
  obtain ⟨r1, r2⟩ := residuals_core f sort k groups rescale n t train Y gs h1.partition h2 _ _ _ h3
  exact ⟨gs, _, h1, r1, r2⟩

/-- C70, residuals of groups on the rescaled scale. -/
theorem C70_residuals_rescaled {d : ℕ} (f : FittedModel d) (sort : List ℝ → List ℕ) (hsort : IsSort sort) (k : Fin d)
    (groups : ℕ) (hg : 0 < groups) (hscale : f.scales ≠ []) (n : ℕ) (hn : 0 < n) (t u : ℕ → Fin d → ℝ)
    (hu : transformTheta f.scales ((List.range n).map t) = .ok ((List.range n).map u)) (train : List (List Cell))
    (Y : ℕ → ℕ → Cell)
    (hY : ∀ i, i < n → ∀ j, j < f.cats.length → ∀ y, Y i j = some y → y ≠ -1 → 0 ≤ y ∧ y < (maxCats f.cats : ℤ)) :
    ∃ gs mids, IsGrouping n (fun i => u i k) groups gs ∧
      groupFitResiduals f sort k groups true false ((List.range n).map t) train (some (dataOf n f.cats.length Y))
        = .ok (cube gs f.cats.length (maxCats f.cats) fun g j c =>
            if c < f.cats.getD j 0 then (observedShare Y g j c).bind fun o =>
              (modelShare (fun θ => tableProb (f.probs θ)) t g j c).map fun p => o - p else none, mids) ∧
      groupFitResiduals f sort k groups true true ((List.range n).map t) train (some (dataOf n f.cats.length Y))
        = .ok (cube gs f.cats.length (maxCats f.cats) fun g j c =>
            standardizedDifference g.length (observedShare Y g j c)
              (modelShare (fun θ => tableProb (f.probs θ)) t g j c), mids) := by
  obtain ⟨gs, h1, -, h2, h3⟩ := groups_rescaled_core f sort hsort k groups hg hscale n hn t u hu Y hY
  obtain ⟨r1, r2⟩ := residuals_core f sort k groups true n t train Y gs h1.partition h2 _ _ _ h3
  exact ⟨gs, _, h1, r1, r2⟩

/-- C70 does not extend to the training data: standardised residuals without an explicit data argument, for which the
training data should be used, always fail. -/
theorem C70_standardized_training_data {d : ℕ} (f : FittedModel d) (sort : List ℝ → List ℕ) (k : Fin d) (groups : ℤ)
    (rescale : Bool) (theta : Thetas d) (train : List (List Cell)) :
    ∃ e, groupFitResiduals f sort k groups rescale true theta train none = .error e := by
  unfold groupFitResiduals
  rw [Option.getD_none]
  cases latentGroupProbabilities f sort k groups rescale theta train with
  | error e => exact ⟨e, rfl⟩
  | ok r => exact ⟨.typeError, rfl⟩

/-! ## The number of groups and the mid points -/

/-- The claim that grouped evaluation makes the requested number of groups whenever there are that many respondents. -/
def RequestedNumberOfGroups : Prop :=
  ∀ (n groups : ℕ), 0 < groups → groups ≤ n → ∀ gs, torchChunk (List.range n) groups = .ok gs → gs.length = groups

/-- C70: there can be fewer groups than requested: eleven respondents in ten groups give six. -/
theorem C70_group_count_false : ¬ RequestedNumberOfGroups := by
  intro h
  have := h 11 10 (by norm_num) (by norm_num) _ rfl
  rw [blocks_length] at this
  simp at this

/-- The documentation: the mid point of a group is the average of its latent scores. -/
def MidPointIsMean : Prop := ∀ xs : List ℝ, xs ≠ [] → groupMedian xs = groupMean xs

/-- C70: without rescaling the mid point is not the average of the scores 0, 0 and 3. -/
theorem C70_mid_point_false : ¬ MidPointIsMean := by
  intro h
  have h1 := h [0, 0, 3] (by simp)
  obtain ⟨x, hx, hmed, hlow, -⟩ := groupMedian_spec [0, 0, 3] (by simp)
  rw [hx] at h1
  have h2 : groupMean [0, 0, 3] = some 1 := by
    simp [groupMean, floatDiv]
  rw [h2] at h1
  have := Option.some.inj h1
  subst this
  simp at hmed

/-! ## The hypotheses are met -/

/-- Positions in increasing order. -/
noncomputable def exSort (xs : List ℝ) : List ℕ :=
  (List.range xs.length).mergeSort fun a b => decide (xs.getD a 0 ≤ xs.getD b 0)

theorem exSort_isSort : IsSort exSort := by
  intro xs
  refine ⟨List.mergeSort_perm _ _, ?_⟩
  have := List.pairwise_mergeSort (le := fun a b : ℕ => decide (xs.getD a 0 ≤ xs.getD b 0)) (fun a b c h1 h2 => by
    simp only [decide_eq_true_eq] at *; linarith) (fun a b => by
    simp only [Bool.or_eq_true, decide_eq_true_eq]; exact le_total _ _) (List.range xs.length)
  simpa [exSort] using this

example : ∃ gs mids, IsGrouping 3 (fun i => -(i : ℝ)) 2 gs ∧
    groupFitResiduals (exAE .ae none) exSort 0 2 false false ((List.range 3).map fun i _ => -(i : ℝ)) []
      (some (dataOf 3 2 exResponses))
      = .ok (cube gs 2 2 fun g j c =>
          if c < [2, 2].getD j 0 then (observedShare exResponses g j c).bind fun o =>
            (modelShare (fun θ => tableProb ((exAE .ae none).probs θ)) (fun i _ => -(i : ℝ)) g j c).map fun p => o - p
          else none, mids) := by
  obtain ⟨gs, mids, h1, h2, -⟩ := C70_residuals (exAE .ae none) exSort exSort_isSort 0 2 (by norm_num) false (Or.inl rfl) 3
    (by norm_num) (fun i _ => -(i : ℝ)) [] exResponses (by
      intro i _ j _ y hy _
      unfold exResponses at hy
      split_ifs at hy
      obtain rfl := Option.some.inj hy
      simp [exAE, maxCats])
  exact ⟨gs, mids, h1, h2⟩

end Irt
