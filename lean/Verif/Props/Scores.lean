import Verif.Props.Categorical

/-! # Properties C17 (expected scores) and C18 (answer keys) -/

namespace Irt

theorem dist_entry_fun (c M : ℕ) (p : List ℝ) (h : IsDistribution c M p) :
    ∃ f : ℕ → ℝ, p = (List.range M).map f ∧ (∀ k, 0 ≤ f k) ∧ (∀ k, c ≤ k → f k = 0) ∧
      ∑ k ∈ Finset.range M, f k = 1 := by
  refine ⟨fun k => p.getD k 0, ?_, ?_, ?_, ?_⟩
  · conv_lhs => rw [eq_range_map p, h.length]
  · intro k
    show 0 ≤ p.getD k 0
    by_cases hk : k < p.length
    · rw [List.getD_eq_getElem?_getD, List.getElem?_eq_getElem hk]; exact h.nonneg _ (List.getElem_mem hk)
    · rw [List.getD_eq_getElem?_getD, List.getElem?_eq_none (by omega)]; exact le_refl _
  · intro k hck
    show p.getD k 0 = 0
    by_cases hk : k < M
    · rw [List.getD_eq_getElem?_getD, h.missing k hck hk]; rfl
    · rw [List.getD_eq_getElem?_getD, List.getElem?_eq_none (by rw [h.length]; omega)]; rfl
  · have := h.sum_one
    rw [eq_range_map p, h.length, list_sum_range] at this
    exact this

theorem mean_score_bounds (c M : ℕ) (p : List ℝ) (h : IsDistribution c M p) :
    0 ≤ dot p ((List.range M).map fun m : ℕ => (m : ℝ)) ∧
      dot p ((List.range M).map fun m : ℕ => (m : ℝ)) ≤ (c : ℝ) - 1 := by
  obtain ⟨f, rfl, h0, hm, hs⟩ := dist_entry_fun c M p h
  rw [dot_range]
  constructor
  · apply Finset.sum_nonneg; intro k _; exact mul_nonneg (h0 k) (Nat.cast_nonneg k)
  · calc ∑ k ∈ Finset.range M, f k * (k : ℝ) ≤ ∑ k ∈ Finset.range M, f k * ((c : ℝ) - 1) := by
          apply Finset.sum_le_sum
          intro k _
          by_cases hk : c ≤ k
          · rw [hm k hk]; simp
          · apply mul_le_mul_of_nonneg_left _ (h0 k)
            have : k + 1 ≤ c := by omega
            have : ((k + 1 : ℕ) : ℝ) ≤ c := by exact_mod_cast this
            push_cast at this
            linarith
      _ = (c : ℝ) - 1 := by rw [← Finset.sum_mul, hs, one_mul]

theorem keyed_score_bounds (c M : ℕ) (p : List ℝ) (h : IsDistribution c M p) (P : ℕ → Prop)
    [DecidablePred P] :
    0 ≤ dot p ((List.range M).map fun m : ℕ => if P m then (1:ℝ) else 0) ∧
      dot p ((List.range M).map fun m : ℕ => if P m then (1:ℝ) else 0) ≤ 1 := by
  obtain ⟨f, rfl, h0, hm, hs⟩ := dist_entry_fun c M p h
  rw [dot_range]
  constructor
  · apply Finset.sum_nonneg; intro k _; apply mul_nonneg (h0 k); split <;> norm_num
  · calc ∑ k ∈ Finset.range M, f k * (if P k then (1:ℝ) else 0) ≤ ∑ k ∈ Finset.range M, f k := by
          apply Finset.sum_le_sum
          intro k _
          split
          · simp
          · simp [h0 k]
      _ = 1 := hs

/-- C17: without an answer key the expected score of item `j` lies between 0 and its highest score. -/
theorem C17_expected_item_score (cats : List ℕ) (M : ℕ) (t : List (List ℝ)) (h : IsTable cats M t) :
    ∃ e, expectedItemScores t M none = .ok e ∧ e.length = cats.length ∧
      ∀ (j c : ℕ) x, cats[j]? = some c → e[j]? = some x → 0 ≤ x ∧ x ≤ (c : ℝ) - 1 := by
  refine ⟨_, rfl, by simp [h.1], ?_⟩
  intro j c x hc hx
  have hj := lt_of_getElem?_some hc
  obtain ⟨p, hp⟩ := getElem?_of_lt t j (by rw [h.1]; exact hj)
  rw [List.getElem?_zipWith, hp, List.getElem?_replicate, if_pos (by rw [h.1]; exact hj)] at hx
  have hx := Option.some.inj hx
  rw [← hx]
  exact mean_score_bounds c M p (h.2 j p c hp hc)

/-- C17: with an answer key (one key per item, each a category slot) the expected item score is the
probability of the keyed category, hence in [0,1]. -/
theorem C17_expected_keyed_score (cats : List ℕ) (M : ℕ) (t : List (List ℝ)) (h : IsTable cats M t)
    (keys : List ℕ) (hne : keys ≠ []) (hlen : keys.length = cats.length) (hkey : ∀ k ∈ keys, k < M) :
    ∃ e, expectedItemScores t M (some (keys.map fun k : ℕ => (k : ℤ))) = .ok e ∧ e.length = cats.length ∧
      ∀ (j k : ℕ) p x, keys[j]? = some k → t[j]? = some p → e[j]? = some x →
        p[k]? = some x ∧ 0 ≤ x ∧ x ≤ 1 := by
  obtain ⟨k0, ks, rfl⟩ := List.exists_cons_of_ne_nil hne
  have hs : itemScores t.length M (some ((k0 :: ks).map fun k : ℕ => (k : ℤ)))
      = .ok ((List.range t.length).map fun j =>
      (List.range M).map fun m : ℕ => if ((k0 :: ks).map fun k : ℕ => (k : ℤ))[j]? = some (m : ℤ) then 1 else 0) := by
    simp only [List.map_cons, itemScores]
    rw [if_neg (by simp at hlen ⊢; rw [h.1]; omega), if_neg]
    rw [not_not]
    intro key hk
    rw [← List.map_cons (f := fun k : ℕ => (k : ℤ))] at hk
    obtain ⟨k, hk', rfl⟩ := List.mem_map.1 hk
    exact ⟨by simp, by exact_mod_cast hkey k hk'⟩
  refine ⟨_, by simp only [expectedItemScores, hs]; rfl, by simp [h.1], ?_⟩
  intro j k p x hk hp hx
  have hjt := lt_of_getElem?_some hp
  obtain ⟨c, hc⟩ := getElem?_of_lt cats j (by rw [← h.1]; exact hjt)
  have hd := h.2 j p c hp hc
  rw [List.getElem?_zipWith, hp, List.getElem?_map, List.getElem?_range hjt] at hx
  have hx := Option.some.inj hx
  have hb := keyed_score_bounds c M p hd (fun m => ((k0 :: ks).map fun k : ℕ => (k : ℤ))[j]? = some (m : ℤ))
  rw [hx] at hb
  refine ⟨?_, hb⟩
  have hkM := hkey k (List.mem_of_getElem? hk)
  obtain ⟨f, rfl, _⟩ := dist_entry_fun c M p hd
  rw [dot_range, List.getElem?_map, hk] at hx
  simp only [Option.map_some, Option.some.injEq, Nat.cast_inj, mul_ite, mul_one, mul_zero] at hx
  rw [Finset.sum_ite_eq, if_pos (Finset.mem_range.2 hkM)] at hx
  rw [List.getElem?_map, List.getElem?_range hkM, Option.map_some, hx]

theorem sum_bounds (e : List ℝ) (u : List ℝ) (hlen : e.length = u.length)
    (h : ∀ (j : ℕ) x v, e[j]? = some x → u[j]? = some v → 0 ≤ x ∧ x ≤ v) : 0 ≤ e.sum ∧ e.sum ≤ u.sum := by
  induction e generalizing u with
  | nil => simp at hlen; have : u = [] := List.length_eq_zero_iff.1 hlen.symm; simp [this]
  | cons x e ih =>
    cases u with
    | nil => simp at hlen
    | cons v u =>
      have h0 := h 0 x v rfl rfl
      have := ih u (by simpa using hlen) (fun j x' v' hx hv => h (j + 1) x' v' (by simpa using hx) (by simpa using hv))
      simp only [List.sum_cons]
      constructor <;> linarith [h0.1, h0.2, this.1, this.2]

/-- C17: the expected sum score lies between 0 and the maximum sum score `Σ_j (cats_j - 1)`. -/
theorem C17_expected_sum_score (cats : List ℕ) (M : ℕ) (t : List (List ℝ)) (h : IsTable cats M t) :
    ∃ s, expectedSumScore t M none = .ok s ∧ 0 ≤ s ∧ s ≤ (cats.map fun c : ℕ => (c : ℝ) - 1).sum := by
  obtain ⟨e, he, hlen, hb⟩ := C17_expected_item_score cats M t h
  refine ⟨e.sum, by simp only [expectedSumScore, he]; rfl, ?_⟩
  apply sum_bounds e _ (by simp [hlen])
  intro j x v hx hv
  rw [List.getElem?_map] at hv
  have hj : j < cats.length := by rw [← hlen]; exact lt_of_getElem?_some hx
  obtain ⟨c, hc⟩ := getElem?_of_lt cats j hj
  rw [hc] at hv
  have hv : (c : ℝ) - 1 = v := by simpa using hv
  rw [← hv]; exact hb j c x hc hx

/-- C17: with an answer key the expected sum score lies between 0 and the number of items. -/
theorem C17_expected_keyed_sum_score (cats : List ℕ) (M : ℕ) (t : List (List ℝ)) (h : IsTable cats M t)
    (keys : List ℕ) (hne : keys ≠ []) (hlen : keys.length = cats.length) (hkey : ∀ k ∈ keys, k < M) :
    ∃ s, expectedSumScore t M (some (keys.map fun k : ℕ => (k : ℤ))) = .ok s ∧
      0 ≤ s ∧ s ≤ (cats.length : ℝ) := by
  obtain ⟨e, he, hel, hb⟩ := C17_expected_keyed_score cats M t h keys hne hlen hkey
  refine ⟨e.sum, by simp only [expectedSumScore, he]; rfl, ?_⟩
  have := sum_bounds e (List.replicate cats.length 1) (by simp [hel]) (by
    intro j x v hx hv
    have hj : j < cats.length := by rw [← hel]; exact lt_of_getElem?_some hx
    rw [List.getElem?_replicate, if_pos hj] at hv
    obtain ⟨k, hk⟩ := getElem?_of_lt keys j (by omega)
    obtain ⟨p, hp⟩ := getElem?_of_lt t j (by rw [h.1]; exact hj)
    rw [← Option.some.inj hv]
    exact (hb j k p x hk hp hx).2)
  simpa using this

theorem meanList_bounds (a b : ℝ) (xs : List ℝ) (hne : xs ≠ []) (h : ∀ x ∈ xs, a ≤ x ∧ x ≤ b) :
    a ≤ meanList xs ∧ meanList xs ≤ b := by
  have hpos : (0:ℝ) < xs.length := by
    have := List.length_pos_of_ne_nil hne; exact_mod_cast this
  have h2 : a * xs.length ≤ xs.sum ∧ xs.sum ≤ b * xs.length := by
    clear hne hpos
    induction xs with
    | nil => simp
    | cons x xs ih =>
      have h1 := h x (by simp)
      have h2 := ih (fun y hy => h y (by simp [hy]))
      simp only [List.sum_cons, List.length_cons]
      push_cast
      constructor <;> linarith [h1.1, h1.2, h2.1, h2.2]
  unfold meanList
  exact ⟨by rw [le_div_iff₀ hpos]; exact h2.1, by rw [div_le_iff₀ hpos]; exact h2.2⟩

theorem optMapM_mem {α β : Type*} (l : List α) (f : α → Option β) (ys : List β) (h : l.mapM f = some ys) :
    ∀ y ∈ ys, ∃ x ∈ l, f x = some y := by
  induction l generalizing ys with
  | nil => simp at h; simp [h]
  | cons x l ih =>
    rw [List.mapM_cons] at h
    cases hx : f x with
    | none => rw [hx] at h; simp at h
    | some y0 =>
      rw [hx] at h
      cases hl : l.mapM f with
      | none => rw [hl] at h; simp at h
      | some ys0 =>
        rw [hl] at h
        have : y0 :: ys0 = ys := by simpa using h
        subst this
        intro y hy
        rcases List.mem_cons.1 hy with rfl | hy
        · exact ⟨x, by simp, hx⟩
        · obtain ⟨x', hx', e⟩ := ih ys0 hl y hy
          exact ⟨x', by simp [hx'], e⟩

theorem excMapM_mem {α β : Type*} (l : List α) (f : α → Except PyErr β) (ys : List β)
    (h : l.mapM f = .ok ys) : ∀ y ∈ ys, ∃ x ∈ l, f x = .ok y := by
  induction l generalizing ys with
  | nil =>
    have : ys = [] := by
      have : (Except.ok [] : Except PyErr (List β)) = .ok ys := h
      simpa using this.symm
    simp [this]
  | cons x l ih =>
    rw [List.mapM_cons] at h
    cases hx : f x with
    | error e => rw [hx] at h; cases h
    | ok y0 =>
      rw [hx] at h
      cases hl : l.mapM f with
      | error e => rw [hl] at h; cases h
      | ok ys0 =>
        rw [hl] at h
        have : y0 :: ys0 = ys := by
          have h' : (Except.ok (y0 :: ys0) : Except PyErr (List β)) = .ok ys := h
          simpa using h'
        subst this
        intro y hy
        rcases List.mem_cons.1 hy with rfl | hy
        · exact ⟨x, by simp, hx⟩
        · obtain ⟨x', hx', e⟩ := ih ys0 hl y hy
          exact ⟨x', by simp [hx'], e⟩

/-- C17: `population_difficulty` of an item with at least two categories lies in [0,1]. -/
theorem C17_population_difficulty (cats : List ℕ) (M : ℕ) (tables : List (List (List ℝ)))
    (h : ∀ t ∈ tables, IsTable cats M t) (j c : ℕ) (hc : cats[j]? = some c) (h2 : 2 ≤ c) (v : ℝ)
    (hv : populationDifficulty cats tables M none j = .ok (some v)) : 0 ≤ v ∧ v ≤ 1 := by
  unfold populationDifficulty at hv
  cases hds : tables.mapM (fun t => itemDifficulties cats t M none) with
  | error e => rw [hds] at hv; cases hv
  | ok ds =>
    rw [hds] at hv
    simp only [bind, Except.bind] at hv
    cases hxs : ds.mapM (fun d => d[j]?) with
    | none => simp [hxs, pure, Except.pure] at hv
    | some xs =>
      cases xs with
      | nil => simp [hxs, pure, Except.pure] at hv
      | cons x0 xs =>
        simp only [hxs, pure, Except.pure, Except.ok.injEq, Option.some.injEq] at hv
        rw [← hv]
        apply meanList_bounds 0 1 _ (by simp)
        intro x hx
        obtain ⟨d, hd, hdj⟩ := optMapM_mem ds _ _ hxs x hx
        obtain ⟨t, ht, htd⟩ := excMapM_mem tables _ _ hds d hd
        obtain ⟨e, he, _, hb⟩ := C17_expected_item_score cats M t (h t ht)
        have htd' : d = List.zipWith (fun x (c : ℕ) => 1 - x / ((c : ℝ) - 1)) e cats := by
          simp only [itemDifficulties, he, bind, Except.bind, pure, Except.pure, Except.ok.injEq] at htd
          exact htd.symm
        rw [htd', List.getElem?_zipWith, hc] at hdj
        cases hej : e[j]? with
        | none => rw [hej] at hdj; simp at hdj
        | some s =>
          rw [hej] at hdj
          have hdj : 1 - s / ((c:ℝ) - 1) = x := by simpa using hdj
          have hs := hb j c s hc hej
          have hc1 : (0:ℝ) < (c:ℝ) - 1 := by
            have : (2:ℝ) ≤ c := by exact_mod_cast h2
            linarith
          have h3 : 0 ≤ s / ((c:ℝ) - 1) := div_nonneg hs.1 hc1.le
          have h4 : s / ((c:ℝ) - 1) ≤ 1 := by rw [div_le_one hc1]; exact hs.2
          rw [← hdj]
          constructor <;> linarith

/-- A concrete table: items with 3 and 2 categories. -/
noncomputable def exTable : List (List ℝ) := [[1/2, 1/4, 1/4], [1/3, 2/3, 0]]

theorem exTable_ok : IsTable [3, 2] 3 exTable := by
  refine ⟨rfl, ?_⟩
  intro j p c hp hc
  have hj : j < 2 := lt_of_getElem?_some hc
  interval_cases j
  · simp [exTable] at hp hc
    subst hp hc
    refine ⟨rfl, ?_, ?_, by norm_num, by intro k h1 h2; omega⟩ <;>
      · intro x hx
        simp at hx
        rcases hx with rfl | rfl | rfl <;> norm_num
  · simp [exTable] at hp hc
    subst hp hc
    refine ⟨rfl, ?_, ?_, by norm_num, by intro k h1 h2; obtain rfl : k = 2 := by omega
                                         rfl⟩ <;>
      · intro x hx
        simp at hx
        rcases hx with rfl | rfl | rfl <;> norm_num

example : IsTable [3, 2] 3 exTable ∧ ([2, 0] : List ℕ) ≠ [] ∧ ([2, 0] : List ℕ).length = [3, 2].length ∧
    ∀ k ∈ ([2, 0] : List ℕ), k < 3 := ⟨exTable_ok, by simp, rfl, by simp⟩

example : ∃ v, populationDifficulty [3, 2] [exTable, exTable] 3 none 0 = .ok (some v) := by
  exact ⟨_, rfl⟩

/-! ## C18 -/

/-- What C18 asks of an accepted answer key. -/
def ValidKey (cats : List ℕ) (keys : List ℤ) : Prop :=
  keys.length = cats.length ∧ ∀ (j c : ℕ) k, cats[j]? = some c → keys[j]? = some k → 0 ≤ k ∧ k < c

/-- C18, the part that holds: valid keys are accepted, and a key is rejected exactly when some key
exceeds the *number* of categories of its item. Missing with respect to C18: keys equal to the number of
categories, negative keys and lists of the wrong length are accepted too. -/
theorem C18_key_check_partial (cats : List ℕ) (keys : List ℤ) :
    (ValidKey cats keys → checkMcCorrect cats (some keys) = .ok ()) ∧
    (checkMcCorrect cats (some keys) = .error .valueError ↔
      ∃ (j c : ℕ) (k : ℤ), cats[j]? = some c ∧ keys[j]? = some k ∧ (c : ℤ) < k) ∧
    (checkMcCorrect cats (some keys) = .ok () ∨ checkMcCorrect cats (some keys) = .error .valueError) := by
  have hiff : ((List.zip cats keys).all (fun p => decide ((p.1 : ℤ) ≥ p.2)) = true)
      ↔ ¬ ∃ (j c : ℕ) (k : ℤ), cats[j]? = some c ∧ keys[j]? = some k ∧ (c : ℤ) < k := by
    rw [List.all_eq_true]
    constructor
    · rintro h ⟨j, c, k, hc, hk, hlt⟩
      have := h (c, k) (List.mem_of_getElem? (List.getElem?_zip_eq_some.2 ⟨hc, hk⟩ : (cats.zip keys)[j]? = _))
      simp at this
      omega
    · intro h p hp
      obtain ⟨j, hj⟩ := List.mem_iff_getElem?.1 hp
      rw [List.getElem?_zip_eq_some] at hj
      by_contra hcon
      apply h
      refine ⟨j, p.1, p.2, hj.1, hj.2, ?_⟩
      simpa using hcon
  refine ⟨?_, ?_, ?_⟩
  · intro hv
    simp only [checkMcCorrect]
    rw [if_pos]
    rw [hiff]
    rintro ⟨j, c, k, hc, hk, hlt⟩
    have := hv.2 j c k hc hk
    omega
  · simp only [checkMcCorrect]
    split
    · next h =>
      rw [hiff] at h
      exact ⟨fun h' => by simp at h', fun h' => absurd h' h⟩
    · next h =>
      rw [hiff, not_not] at h
      exact ⟨fun _ => h, fun _ => rfl⟩
  · simp only [checkMcCorrect]
    split <;> simp

/-- C18 is false of the code: a key equal to the number of categories, a negative key, a missing key and
a surplus key are all accepted. -/
theorem C18_key_check_false :
    (∀ c : ℕ, checkMcCorrect [c] (some [(c : ℤ)]) = .ok () ∧ ¬ ValidKey [c] [(c : ℤ)]) ∧
    (checkMcCorrect [3] (some [-1]) = .ok () ∧ ¬ ValidKey [3] [-1]) ∧
    (checkMcCorrect [3, 3] (some [1]) = .ok () ∧ ¬ ValidKey [3, 3] [1]) ∧
    (checkMcCorrect [3] (some [1, 7]) = .ok () ∧ ¬ ValidKey [3] [1, 7]) := by
  refine ⟨fun c => ⟨by simp [checkMcCorrect], ?_⟩, ⟨by simp [checkMcCorrect], ?_⟩,
    ⟨by simp [checkMcCorrect], ?_⟩, ⟨by simp [checkMcCorrect], ?_⟩⟩
  · intro h; have := h.2 0 c c rfl rfl; omega
  · intro h; have := h.2 0 3 (-1) rfl rfl; omega
  · intro h; have := h.1; simp at this
  · intro h; have := h.1; simp at this

/-- C18, consequence: with the accepted key `k = cats_j` on an item that has fewer categories than the
longest item, every respondent's expected score on that item is zero. -/
theorem C18_bad_key_scores_zero (cats : List ℕ) (M : ℕ) (t : List (List ℝ)) (h : IsTable cats M t)
    (keys : List ℕ) (hne : keys ≠ []) (hlen : keys.length = cats.length) (hkey : ∀ k ∈ keys, k < M)
    (j c : ℕ) (hc : cats[j]? = some c) (hk : keys[j]? = some c) :
    ∃ e, expectedItemScores t M (some (keys.map fun k : ℕ => (k : ℤ))) = .ok e ∧ e[j]? = some 0 := by
  obtain ⟨e, he, hel, hb⟩ := C17_expected_keyed_score cats M t h keys hne hlen hkey
  have hj := lt_of_getElem?_some hc
  obtain ⟨x, hx⟩ := getElem?_of_lt e j (by omega)
  obtain ⟨p, hp⟩ := getElem?_of_lt t j (by rw [h.1]; exact hj)
  have h1 := (hb j c p x hk hp hx).1
  rw [(h.2 j p c hp hc).missing c (le_refl _) (hkey c (List.mem_of_getElem? hk))] at h1
  exact ⟨e, he, by rw [hx, ← Option.some.inj h1]⟩

example : IsTable [3, 2] 3 exTable ∧ ([2, 2] : List ℕ)[1]? = some 2 ∧ ([3, 2] : List ℕ)[1]? = some 2 ∧
    checkMcCorrect [3, 2] (some [2, 2]) = .ok () :=
  ⟨exTable_ok, rfl, rfl, by simp [checkMcCorrect]⟩

end Irt
