import Mathlib.Algebra.BigOperators.Field
import Mathlib.Algebra.Order.BigOperators.Group.Finset
import Verif.Lemmas.Torch
import Verif.Spec.Categorical
import Verif.Model.Logistic
import Verif.Model.Polytomous

/-! # Layout lemmas: flat rows of logits against items and categories -/

namespace Irt

variable {α β : Type*}

theorem list_sum_range (n : ℕ) (f : ℕ → ℝ) :
    ((List.range n).map f).sum = ∑ k ∈ Finset.range n, f k := by
  induction n with
  | zero => simp
  | succ n ih => rw [List.range_succ, List.map_append, List.sum_append, ih, Finset.sum_range_succ]; simp

theorem sum_range_ite (c M : ℕ) (h : c ≤ M) (f : ℕ → ℝ) :
    (∑ k ∈ Finset.range M, if k < c then f k else 0) = ∑ k ∈ Finset.range c, f k := by
  rw [← Finset.sum_filter]
  congr 1
  ext k; simp; omega

theorem flatMap_getElem? (k : ℕ) (f : β → List α) (L : List β) (h : ∀ l ∈ L, (f l).length = k)
    (i j : ℕ) (hj : j < k) : (L.flatMap f)[i * k + j]? = L[i]?.bind (fun l => (f l)[j]?) := by
  rw [List.flatMap_def, flatten_getElem? k _ _ i j hj]
  · rw [List.getElem?_map]; cases L[i]? <;> simp
  · intro l hl
    obtain ⟨b, hb, rfl⟩ := List.mem_map.1 hl
    exact h b hb

theorem length_flatMap_const (k : ℕ) (f : β → List α) (L : List β) (h : ∀ l ∈ L, (f l).length = k) :
    (L.flatMap f).length = L.length * k := by
  rw [List.flatMap_def, length_flatten_const k]
  · simp
  · intro l hl
    obtain ⟨b, hb, rfl⟩ := List.mem_map.1 hl
    exact h b hb

theorem repeatInterleave_getElem? (k : ℕ) (xs : List α) (i j : ℕ) (hj : j < k) :
    (repeatInterleave k xs)[i * k + j]? = xs[i]? := by
  unfold repeatInterleave
  rw [flatMap_getElem? k _ _ (by simp) i j hj]
  cases xs[i]? <;> simp [hj]

theorem tile_getElem? (n k : ℕ) (xs : List α) (hk : xs.length = k) (i j : ℕ) (hi : i < n)
    (hj : j < k) : (tile n xs)[i * k + j]? = xs[j]? := by
  unfold tile
  rw [flatten_getElem? k _ (by intro l hl; rw [List.eq_of_mem_replicate hl, hk]) i j hj]
  simp [hi]

theorem viewRows_row (n M : ℕ) (xs : List α) (hlen : xs.length = n * M) (i : ℕ) (hi : i < n)
    (f : ℕ → α) (hf : ∀ k, k < M → xs[i * M + k]? = some (f k)) :
    (viewRows n M xs)[i]? = some ((List.range M).map f) := by
  have hl : i < (viewRows n M xs).length := by rw [length_viewRows]; exact hi
  obtain ⟨l, hl'⟩ : ∃ l, (viewRows n M xs)[i]? = some l := ⟨_, List.getElem?_eq_getElem hl⟩
  rw [hl']
  congr 1
  have hll : l.length = M := mem_viewRows_length n M xs hlen l (List.mem_of_getElem? hl')
  apply List.ext_getElem?
  intro k
  by_cases hk : k < M
  · have := viewRows_getElem? n M xs hlen i k hk
    rw [hl', Option.bind_some, hf k hk] at this
    rw [this]; simp [hk]
  · rw [List.getElem?_eq_none (by omega), List.getElem?_eq_none (by simp; omega)]

/-- Entries of a row of `viewRows` are entries of the flat list. -/
theorem viewRows_row_entry (n M : ℕ) (xs : List α) (hlen : xs.length = n * M) (i : ℕ)
    (l : List α) (hl : (viewRows n M xs)[i]? = some l) (k : ℕ) (hk : k < M) :
    xs[i * M + k]? = l[k]? := by
  have := viewRows_getElem? n M xs hlen i k hk
  rw [hl, Option.bind_some] at this
  exact this.symm

theorem maskFill_getElem? (mask : List Bool) (v : α) (xs : List α) (i : ℕ) (b : Bool) (x : α)
    (hb : mask[i]? = some b) (hx : xs[i]? = some x) :
    (maskFill mask v xs)[i]? = some (if b then v else x) := by
  simp [maskFill, List.getElem?_zipWith, hb, hx]

theorem length_missingRow (M c : ℕ) : (missingRow M c).length = M := by simp [missingRow]
theorem length_firstRow (M : ℕ) : (firstRow M).length = M := by simp [firstRow]
theorem length_freeRow (M c : ℕ) : (freeRow M c).length = M := by simp [freeRow]

theorem missingMask_getElem? (M : ℕ) (cats : List ℕ) (j k c : ℕ) (hc : cats[j]? = some c)
    (hk : k < M) : (missingMask M cats)[j * M + k]? = some (decide (c ≤ k)) := by
  unfold missingMask
  rw [flatMap_getElem? M _ _ (fun l _ => length_missingRow M l) j k hk, hc]
  simp [missingRow, hk]

theorem firstMask_getElem? (M : ℕ) (cats : List ℕ) (j k c : ℕ) (hc : cats[j]? = some c)
    (hk : k < M) : (firstMask M cats)[j * M + k]? = some (decide (k = 0)) := by
  unfold firstMask
  rw [flatMap_getElem? M _ _ (fun l _ => length_firstRow M) j k hk, hc]
  simp [firstRow, hk]

theorem freeMask_getElem? (M : ℕ) (cats : List ℕ) (j k c : ℕ) (hc : cats[j]? = some c)
    (hk : k < M) :
    (freeMask M cats)[j * M + k]? = some (decide (k ≠ 0) && decide (k < c)) := by
  unfold freeMask
  rw [flatMap_getElem? M _ _ (fun l _ => length_freeRow M l) j k hk, hc]
  simp [freeRow, hk]

theorem length_missingMask (M : ℕ) (cats : List ℕ) :
    (missingMask M cats).length = cats.length * M :=
  length_flatMap_const M _ _ (fun l _ => length_missingRow M l)
theorem length_firstMask (M : ℕ) (cats : List ℕ) :
    (firstMask M cats).length = cats.length * M :=
  length_flatMap_const M _ _ (fun _ _ => length_firstRow M)
theorem length_freeMask (M : ℕ) (cats : List ℕ) :
    (freeMask M cats).length = cats.length * M :=
  length_flatMap_const M _ _ (fun l _ => length_freeRow M l)

theorem le_maxCats (cats : List ℕ) (c : ℕ) (h : c ∈ cats) : c ≤ maxCats cats := by
  induction cats with
  | nil => simp at h
  | cons a t ih =>
    simp only [maxCats, List.foldr_cons]
    rcases List.mem_cons.1 h with rfl | h
    · exact le_max_left _ _
    · exact le_trans (ih h) (le_max_right _ _)

theorem count_freeRow (M c : ℕ) (hc : 0 < c) (h : c ≤ M) : countTrue (freeRow M c) = c - 1 := by
  unfold countTrue freeRow
  induction M, h using Nat.le_induction with
  | base =>
    induction c, hc using Nat.le_induction with
    | base => simp [List.range_succ]
    | succ c hc ih =>
      rw [List.range_succ, List.map_append, List.count_append]
      have : (List.range c).map (fun k => decide (k ≠ 0) && decide (k < c + 1))
          = (List.range c).map (fun k => decide (k ≠ 0) && decide (k < c)) := by
        apply List.map_congr_left
        intro k hk
        have := List.mem_range.1 hk
        congr 1
        simp; omega
      rw [this, ih]
      have hne : c ≠ 0 := by omega
      simp [hne]; omega
  | succ M hM ih =>
    rw [List.range_succ, List.map_append, List.count_append, ih]
    have : ¬ M < c := by omega
    simp [this]

theorem count_freeMask (M : ℕ) (cats : List ℕ) (hpos : ∀ c ∈ cats, 0 < c)
    (h : ∀ c ∈ cats, c ≤ M) : countTrue (freeMask M cats) = cats.sum - cats.length := by
  induction cats with
  | nil => simp [freeMask, countTrue]
  | cons c t ih =>
    have h1 := count_freeRow M c (hpos c (by simp)) (h c (by simp))
    have h2 := ih (fun x hx => hpos x (by simp [hx])) (fun x hx => h x (by simp [hx]))
    have h3 : t.length ≤ t.sum := by
      have : ∀ l : List ℕ, (∀ c ∈ l, 0 < c) → l.length ≤ l.sum := by
        intro l
        induction l with
        | nil => simp
        | cons a l ih =>
          intro hl
          have := ih (fun x hx => hl x (by simp [hx]))
          have := hl a (by simp)
          simp; omega
      exact this t (fun x hx => hpos x (by simp [hx]))
    have h4 := hpos c (by simp)
    simp only [freeMask, countTrue, List.flatMap_cons, List.count_append] at *
    rw [h1, h2]
    simp; omega

/-- A row of logits whose first `c` entries are finite has the multinomial logit as softmax. -/
theorem softmax_row (c M : ℕ) (h : c ≤ M) (l : ℕ → ℝ) :
    softmax ((List.range M).map fun k => if k < c then Logit.fin (l k) else Logit.negInf)
      = multinomialLogit c M l := by
  unfold softmax multinomialLogit
  rw [List.map_map]
  have hs : (((List.range M).map fun k => if k < c then Logit.fin (l k) else Logit.negInf).map
      Logit.exp).sum = ∑ x ∈ Finset.range c, Real.exp (l x) := by
    rw [List.map_map, list_sum_range, ← sum_range_ite c M h]
    apply Finset.sum_congr rfl
    intro k _
    by_cases hk : k < c <;> simp [hk, Logit.exp]
  apply List.map_congr_left
  intro k _
  simp only [Function.comp]
  rw [hs]
  by_cases hk : k < c <;> simp [hk, Logit.exp]

theorem sum_exp_range_pos (c : ℕ) (hc : 0 < c) (l : ℕ → ℝ) :
    0 < ∑ x ∈ Finset.range c, Real.exp (l x) := by
  apply Finset.sum_pos
  · intro i _; exact Real.exp_pos _
  · exact ⟨0, by simp [hc]⟩

theorem multinomialLogit_isDistribution (c M : ℕ) (hc : 0 < c) (h : c ≤ M) (l : ℕ → ℝ) :
    IsDistribution c M (multinomialLogit c M l) ∧ AllPositive c (multinomialLogit c M l) := by
  have hp := sum_exp_range_pos c hc l
  refine ⟨⟨by simp [multinomialLogit], ?_, ?_, ?_, ?_⟩, ?_⟩
  · intro x hx
    obtain ⟨k, _, rfl⟩ := List.mem_map.1 hx
    split
    · exact div_nonneg (Real.exp_pos _).le hp.le
    · exact le_refl _
  · intro x hx
    obtain ⟨k, _, rfl⟩ := List.mem_map.1 hx
    split
    · rename_i hk
      rw [div_le_one hp]
      exact Finset.single_le_sum (f := fun x => Real.exp (l x)) (fun i _ => (Real.exp_pos _).le)
        (Finset.mem_range.2 hk)
    · exact zero_le_one
  · unfold multinomialLogit
    rw [list_sum_range, sum_range_ite c M h, ← Finset.sum_div, div_self hp.ne']
  · intro k hk hM
    simp only [multinomialLogit, List.getElem?_map, List.getElem?_range hM, Option.map_some]
    simp [Nat.not_lt.2 hk]
  · intro k hk
    have hM : k < M := by omega
    refine ⟨Real.exp (l k) / ∑ x ∈ Finset.range c, Real.exp (l x), by simp only [multinomialLogit, List.getElem?_map, List.getElem?_range hM,
      Option.map_some, hk, if_true], div_pos (Real.exp_pos _) hp⟩

end Irt
