import Verif.Spec.LatentFunctions

/-! # Lemmas on interpolation -/

namespace Irt

/-- Knots with distinct `x`. -/
def DistinctKnots (knots : List (ℝ × ℝ)) : Prop := (knots.map Prod.fst).Nodup

theorem sortKnots_perm (knots : List (ℝ × ℝ)) : (sortKnots knots).Perm knots := List.mergeSort_perm _ _

theorem sortKnots_strict (knots : List (ℝ × ℝ)) (h : DistinctKnots knots) :
    (sortKnots knots).Pairwise fun p q => p.1 < q.1 := by
  have h1 : (sortKnots knots).Pairwise fun p q => decide (p.1 ≤ q.1) = true :=
    List.pairwise_mergeSort (fun a b c => by simpa using le_trans) (fun a b => by simpa using le_total a.1 b.1) _
  have h2 : ((sortKnots knots).map Prod.fst).Nodup := ((sortKnots_perm knots).map _).nodup_iff.2 h
  rw [List.Nodup, List.pairwise_map] at h2
  refine (h1.and h2).imp ?_
  rintro a b ⟨h, h'⟩
  exact lt_of_le_of_ne (by simpa using h) h'

theorem searchSorted_spec (s : List (ℝ × ℝ)) (hs : s.Pairwise fun p q => p.1 < q.1) (q : ℝ) (i : ℕ) (p : ℝ × ℝ)
    (hi : s[i]? = some p) : p.1 < q ↔ i < searchSorted s q := by
  induction s generalizing i with
  | nil => simp at hi
  | cons a t ih =>
    rw [List.pairwise_cons] at hs
    unfold searchSorted
    rw [List.countP_cons]
    by_cases ha : a.1 < q
    · simp only [ha, decide_true, if_true]
      cases i with
      | zero =>
        simp only [List.getElem?_cons_zero, Option.some.injEq] at hi
        subst hi; simp [ha]
      | succ i =>
        rw [List.getElem?_cons_succ] at hi
        have := ih hs.2 i hi
        unfold searchSorted at this
        rw [this]; omega
    · have hz : t.countP (fun p => decide (p.1 < q)) = 0 := by
        rw [List.countP_eq_zero]
        intro b hb
        have := hs.1 b hb
        simp only [decide_eq_true_eq, not_lt]
        linarith [not_lt.1 ha]
      simp only [hz, ha, decide_false, Bool.false_eq_true, if_false, add_zero, Nat.not_lt_zero, iff_false]
      cases i with
      | zero =>
        simp only [List.getElem?_cons_zero, Option.some.injEq] at hi
        subst hi; exact ha
      | succ i =>
        rw [List.getElem?_cons_succ] at hi
        have := hs.1 p (List.mem_of_getElem? hi)
        intro h; exact ha (this.trans h)

/-- The segment whose line is used for a query with `c` knots to its left, among `n` knots. -/
def segment (n c : ℕ) : ℕ := min (c - 1) (n - 2)

theorem pyGet_nat {α : Type} (s : List α) (i : ℕ) (a : α) (h : s[i]? = some a) : pyGet s i = .ok a := by
  have h0 : ¬ ((i : ℤ) < 0) := by omega
  have h1 : ¬ ((i : ℤ) + s.length < 0) := by omega
  simp [pyGet, h0, h1, h]

theorem pyGet_neg {α : Type} (s : List α) (k : ℕ) (hk : 1 ≤ k) (hk' : k ≤ s.length) (a : α)
    (h : s[s.length - k]? = some a) : pyGet s (-(k : ℤ)) = .ok a := by
  have h0 : (-(k : ℤ) < 0) := by omega
  have h1 : ¬ (-(k : ℤ) + s.length < 0) := by omega
  have h2 : (-(k : ℤ) + s.length).toNat = s.length - k := by omega
  unfold pyGet
  rw [if_pos h0, h2, h]
  simp only [if_neg h1]

/-- `interp` evaluates the line of the segment of the query. -/
theorem interp_eq (knots : List (ℝ × ℝ)) (hd : DistinctKnots knots) (h2 : 2 ≤ knots.length) (q : ℝ) :
    ∃ a b, (sortKnots knots)[segment knots.length (searchSorted (sortKnots knots) q)]? = some a ∧
      (sortKnots knots)[segment knots.length (searchSorted (sortKnots knots) q) + 1]? = some b ∧
      interp knots q = .ok (some (lineThrough a b q)) := by
  set s := sortKnots knots with hs
  have hlen : s.length = knots.length := (sortKnots_perm knots).length_eq
  have hst : s.Pairwise fun p q => p.1 < q.1 := sortKnots_strict knots hd
  have hget : ∀ i, i < s.length → ∃ p, s[i]? = some p := fun i hi => ⟨s[i], List.getElem?_eq_getElem hi⟩
  have hlt : ∀ (i j : ℕ) (p r : ℝ × ℝ), s[i]? = some p → s[j]? = some r → i < j → p.1 < r.1 := by
    intro i j p r hi hj hij
    rw [List.pairwise_iff_getElem] at hst
    obtain ⟨hi', rfl⟩ := List.getElem?_eq_some_iff.1 hi
    obtain ⟨hj', rfl⟩ := List.getElem?_eq_some_iff.1 hj
    exact hst i j hi' hj' hij
  obtain ⟨f, hf⟩ := hget 0 (by omega)
  obtain ⟨g, hg⟩ := hget 1 (by omega)
  obtain ⟨e, he⟩ := hget (s.length - 1) (by omega)
  obtain ⟨d, hdd⟩ := hget (s.length - 2) (by omega)
  have i0 : pyGet s 0 = .ok f := pyGet_nat s 0 f hf
  have i1 : pyGet s 1 = .ok g := pyGet_nat s 1 g hg
  have im1 : pyGet s (-1) = .ok e := pyGet_neg s 1 le_rfl (by omega) e he
  have im2 : pyGet s (-2) = .ok d := pyGet_neg s 2 (by omega) (by omega) d hdd
  have hss := searchSorted_spec s hst q
  set c := searchSorted s q with hc
  unfold interp
  simp only [← hs, i0, im1, bind, Except.bind, pure, Except.pure]
  by_cases hin : f.1 ≤ q ∧ q ≤ e.1
  · rw [if_pos hin]
    have hcn : c ≤ s.length - 1 := by
      by_contra hcon
      have := (hss (s.length - 1) e he).2 (by omega)
      linarith [hin.2]
    by_cases hc0 : c = 0
    · -- the query is the first knot; index -1 wraps around
      have hq : q = f.1 := by
        have := (hss 0 f hf).not.2 (by omega)
        linarith [hin.1, not_lt.1 this]
      have hne : f.1 - e.1 ≠ 0 := by
        have := hlt 0 (s.length - 1) f e hf he (by omega)
        linarith
      refine ⟨f, g, ?_, ?_, ?_⟩
      · simp [segment, hc0, hf]
      · simp [segment, hc0, hg]
      · simp only [← hc, hc0, Nat.cast_zero, zero_sub, i0, im1]
        simp only [floatDiv]
        rw [hq, if_neg hne, div_self hne]
        simp [lineThrough]
    · obtain ⟨a, ha⟩ := hget (c - 1) (by omega)
      obtain ⟨b, hb⟩ := hget c (by omega)
      have e1 : pyGet s ((c : ℤ) - 1) = .ok a := by
        have : ((c : ℤ) - 1) = ((c - 1 : ℕ) : ℤ) := by omega
        rw [this]; exact pyGet_nat s _ a ha
      have hne : b.1 - a.1 ≠ 0 := by
        have := hlt (c - 1) c a b ha hb (by omega)
        linarith
      have hseg : segment knots.length c = c - 1 := by unfold segment; omega
      refine ⟨a, b, by rw [hseg]; exact ha, by rw [hseg, Nat.sub_add_cancel (by omega)]; exact hb, ?_⟩
      simp only [← hc, e1, pyGet_nat s c b hb, floatDiv, if_neg hne, Option.map_some, lineThrough]
      congr 2; ring
  · rw [if_neg hin]
    simp only [i1, im2]
    by_cases hl : q < f.1
    · rw [if_pos hl]
      have hc0 : c = 0 := by
        by_contra hcon
        have := (hss 0 f hf).2 (by omega)
        linarith
      have hne : g.1 - f.1 ≠ 0 := by
        have := hlt 0 1 f g hf hg (by omega)
        linarith
      refine ⟨f, g, by simp [segment, hc0, hf], by simp [segment, hc0, hg], ?_⟩
      simp [floatDiv, if_neg hne, lineThrough]
    · rw [if_neg hl]
      have hr : e.1 < q := by
        rcases not_and_or.1 hin with h | h
        · exact absurd (not_le.1 h) hl
        · exact not_le.1 h
      have hcn : c = s.length := by
        have := (hss (s.length - 1) e he).1 hr
        have : c ≤ s.length := List.countP_le_length
        omega
      have hne : e.1 - d.1 ≠ 0 := by
        have := hlt (s.length - 2) (s.length - 1) d e hdd he (by omega)
        linarith
      have hseg : segment knots.length c = s.length - 2 := by unfold segment; omega
      refine ⟨d, e, by rw [hseg]; exact hdd, by rw [hseg, show s.length - 2 + 1 = s.length - 1 by omega]; exact he, ?_⟩
      simp only [floatDiv, if_neg hne, Option.map_some, lineThrough]
      congr 2
      field_simp
      ring

end Irt
