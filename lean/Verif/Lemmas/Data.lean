import Verif.Model.Data
import Verif.Spec.Data
import Verif.Lemmas.LogLik
import Mathlib.Data.List.GetD

/-! # Lemmas about data handling -/

namespace Irt

theorem torchRound_int (n : ℤ) : torchRound (n : ℝ) = n := by
  simp [torchRound]

theorem roundedCell_nat (k : ℕ) : roundedCell (some (k : ℝ)) = k := by
  have := torchRound_int (k : ℤ)
  simpa [roundedCell] using this

theorem roundedCell_missing (x : Num) (h : Missing x) : roundedCell x = -1 := by
  rcases h with rfl | rfl
  · rfl
  · have := torchRound_int (-1)
    simpa [roundedCell] using this

theorem roundedCell_nanToNegOne (x : Num) : roundedCell (nanToNegOne x) = roundedCell x := by
  cases x with
  | none => exact roundedCell_missing _ (Or.inr rfl)
  | some v => rfl

theorem isMissing_iff (x : Num) : isMissing x = true ↔ Missing x := by
  cases x with
  | none => simp [isMissing, Missing]
  | some v => simp [isMissing, Missing]

theorem isMissing_nanToNegOne (x : Num) : isMissing (nanToNegOne x) = isMissing x := by
  cases x with
  | none => simp [isMissing, nanToNegOne]
  | some v => rfl

theorem natCast_ne_negOne (k : ℕ) : (k : ℝ) ≠ -1 := by
  have : (0 : ℝ) ≤ k := Nat.cast_nonneg k
  linarith

theorem not_missing_nat (k : ℕ) : ¬ Missing (some (k : ℝ)) := by
  rintro (h | h)
  · exact absurd h (by simp)
  · exact natCast_ne_negOne k (Option.some.inj h)

/-- Entry of a concatenation of blocks of different sizes. -/
theorem flatten_offset {α : Type*} (L : List (List α)) (j : ℕ) (b : List α) (hb : L[j]? = some b) (k : ℕ)
    (hk : k < b.length) : L.flatten[((L.take j).map List.length).sum + k]? = b[k]? := by
  induction L generalizing j with
  | nil => simp at hb
  | cons a L ih =>
    cases j with
    | zero =>
      simp only [List.getElem?_cons_zero, Option.some.injEq] at hb
      subst hb
      simp [List.getElem?_append_left hk]
    | succ j =>
      rw [List.getElem?_cons_succ] at hb
      rw [List.flatten_cons, List.take_succ_cons, List.map_cons, List.sum_cons,
        List.getElem?_append_right (by omega)]
      have : a.length + ((L.take j).map List.length).sum + k - a.length =
          ((L.take j).map List.length).sum + k := by omega
      rw [this]
      exact ih j hb

/-- The block a valid response is encoded to. -/
theorem oneHotBlock_valid (c : ℕ) (x : Num) (h : ValidResponse c x) :
    ∃ b, oneHotBlock c (roundedCell x) = .ok b ∧ b.length = c ∧
      ∀ k, k < c → ((x = some (k : ℝ) → b[k]? = some 1) ∧ (x ≠ some (k : ℝ) → b[k]? = some 0)) := by
  rcases h with h | ⟨n, hn, rfl⟩
  · rw [roundedCell_missing x h]
    refine ⟨List.replicate c 0, by simp [oneHotBlock], by simp, fun k hk => ⟨?_, ?_⟩⟩
    · rintro rfl
      exact absurd h (not_missing_nat k)
    · intro _; simp [hk]
  · rw [roundedCell_nat]
    refine ⟨(List.range c).map fun j => if j = n then 1 else 0, ?_, by simp, ?_⟩
    · have h1 : ¬ ((n : ℤ) = -1) := by omega
      simp only [oneHotBlock, h1, if_false, pyIndex]
      rw [if_pos ⟨by omega, by exact_mod_cast hn⟩]
      rfl
    · intro k hk
      refine ⟨fun h => ?_, fun h => ?_⟩
      · have : n = k := by exact_mod_cast Option.some.inj h
        simp [hk, this]
      · have : ¬ k = n := fun h2 => h (by rw [h2])
        simp [hk, this]

/-- The only error of a block is the index error. -/
theorem oneHotBlock_cases (c : ℕ) (y : ℤ) :
    oneHotBlock c y = .error .indexError ∨ ∃ b, oneHotBlock c y = .ok b := by
  unfold oneHotBlock
  split_ifs with h1
  · exact Or.inr ⟨_, rfl⟩
  · unfold pyIndex
    split_ifs
    · exact Or.inr ⟨_, rfl⟩
    · exact Or.inr ⟨_, rfl⟩
    · exact Or.inl rfl

theorem bind_ok {ε α β : Type} (a : α) (f : α → Except ε β) : (Except.ok a >>= f) = f a := rfl

theorem bind_error {ε α β : Type} (e : ε) (f : α → Except ε β) :
    ((Except.error e : Except ε α) >>= f) = .error e := rfl

theorem negOneToNaN_observed (x : Num) (h : ¬ Missing x) : negOneToNaN x = x := by
  cases x with
  | none => exact absurd (Or.inl rfl) h
  | some v =>
    have : v ≠ -1 := fun hv => h (Or.inr (by rw [hv]))
    simp [negOneToNaN, this]

theorem negOneToNaN_missing (x : Num) (h : Missing x) : negOneToNaN x = none := by
  rcases h with rfl | rfl <;> simp [negOneToNaN]

theorem negOneToNaN_eq_none_iff (x : Num) : negOneToNaN x = none ↔ Missing x := by
  by_cases h : Missing x
  · simp [negOneToNaN_missing x h, h]
  · rw [negOneToNaN_observed x h]
    refine ⟨fun h2 => Or.inl h2, fun h2 => absurd h2 h⟩

theorem fillRow_getElem? (fill : ℕ → Num) (r : List Num) (j : ℕ) :
    (fillRow fill r)[j]? = (r[j]?).map fun x => match x with | none => fill j | some v => some v := by
  simp only [fillRow, List.getElem?_mapIdx]
  cases r[j]? with
  | none => rfl
  | some x => cases x <;> rfl

theorem colMax_cons_none (l : List Num) : colMax (none :: l) = colMax l := by simp [colMax]

theorem colMax_cons_some (x : ℝ) (l : List Num) : colMax (some x :: l) = maxStep x (colMax l) := by
  simp [colMax]

/-- The column maximum bounds every entry and is attained. -/
theorem colMax_spec (xs : List Num) :
    (colMax xs = none ↔ ∀ x ∈ xs, x = none) ∧
    ∀ m, colMax xs = some m → some m ∈ xs ∧ ∀ v, some v ∈ xs → v ≤ m := by
  induction xs with
  | nil => simp [colMax]
  | cons a l ih =>
    cases a with
    | none =>
      rw [colMax_cons_none]
      simp only [List.mem_cons]
      refine ⟨?_, ?_⟩
      · rw [ih.1]; simp
      · intro m hm
        obtain ⟨h1, h2⟩ := ih.2 m hm
        exact ⟨Or.inr h1, fun v hv => h2 v (hv.resolve_left (by simp))⟩
    | some x =>
      rw [colMax_cons_some]
      simp only [List.mem_cons]
      rcases hacc : colMax l with _ | m0
      · have hnone := (ih.1.1 hacc)
        refine ⟨by simp [maxStep], ?_⟩
        intro m hm
        simp only [maxStep, Option.some.injEq] at hm
        subst hm
        refine ⟨Or.inl rfl, ?_⟩
        rintro v (hv | hv)
        · rw [Option.some.inj hv]
        · exact absurd (hnone _ hv) (by simp)
      · obtain ⟨h1, h2⟩ := ih.2 m0 hacc
        refine ⟨by simp [maxStep], ?_⟩
        intro m hm
        simp only [maxStep, Option.some.injEq] at hm
        subst hm
        refine ⟨?_, ?_⟩
        · rcases max_choice x m0 with h | h
          · rw [h]; exact Or.inl rfl
          · rw [h]; exact Or.inr h1
        · rintro v (hv | hv)
          · rw [Option.some.inj hv]; exact le_max_left _ _
          · exact (h2 v hv).trans (le_max_right _ _)

theorem truncInt_nat (k : ℕ) : truncInt (k : ℝ) = k := by
  simp [truncInt]

theorem truncInt_nat_succ (k : ℕ) : truncInt ((k : ℝ) + 1) = k + 1 := by
  have := truncInt_nat (k + 1)
  push_cast at this
  exact this

end Irt
