import Verif.Lemmas.LatentFunctions
import Mathlib.Data.Fin.Tuple.Sort
import Mathlib.Topology.Order.IntermediateValue

/-! # C53 (interpolation) and C54 (quantile transformation) -/

namespace Irt

/-! ## C53 -/

/-- Helper: the sorted knots as a strictly increasing sequence. -/
theorem sorted_lt (knots : List (ℝ × ℝ)) (hd : (knots.map Prod.fst).Nodup) (i j : ℕ) (p r : ℝ × ℝ)
    (hi : (sortKnots knots)[i]? = some p) (hj : (sortKnots knots)[j]? = some r) : p.1 < r.1 ↔ i < j := by
  have hst := sortKnots_strict knots hd
  rw [List.pairwise_iff_getElem] at hst
  obtain ⟨hi', rfl⟩ := List.getElem?_eq_some_iff.1 hi
  obtain ⟨hj', rfl⟩ := List.getElem?_eq_some_iff.1 hj
  constructor
  · intro h
    rcases lt_trichotomy i j with h1 | h1 | h1
    · exact h1
    · subst h1; exact absurd h (lt_irrefl _)
    · exact absurd (hst j i hj' hi' h1) (not_lt.2 h.le)
  · exact hst i j hi' hj'

theorem sorted_index (knots : List (ℝ × ℝ)) (p : ℝ × ℝ) (hp : p ∈ knots) :
    ∃ i, i < knots.length ∧ (sortKnots knots)[i]? = some p := by
  obtain ⟨i, hi, rfl⟩ := List.getElem_of_mem ((sortKnots_perm knots).mem_iff.2 hp)
  exact ⟨i, by rw [← (sortKnots_perm knots).length_eq]; exact hi, List.getElem?_eq_getElem hi⟩

theorem lineThrough_left (p q : ℝ × ℝ) : lineThrough p q p.1 = p.2 := by simp [lineThrough]

theorem lineThrough_right (p q : ℝ × ℝ) (h : p.1 < q.1) : lineThrough p q q.1 = q.2 := by
  have : q.1 - p.1 ≠ 0 := by linarith
  unfold lineThrough; field_simp; ring

/-- C53: at every knot `interp` returns the knot's value (knots in any order, distinct, at least two). -/
theorem C53_knots (knots : List (ℝ × ℝ)) (hd : (knots.map Prod.fst).Nodup) (h2 : 2 ≤ knots.length)
    (p : ℝ × ℝ) (hp : p ∈ knots) : interp knots p.1 = .ok (some p.2) := by
  obtain ⟨i, hi, hpi⟩ := sorted_index knots p hp
  have hc : searchSorted (sortKnots knots) p.1 = i := by
    have h1 := searchSorted_spec _ (sortKnots_strict knots hd) p.1
    have hlen := (sortKnots_perm knots).length_eq
    rcases lt_trichotomy (searchSorted (sortKnots knots) p.1) i with h | h | h
    · obtain ⟨r, hr⟩ : ∃ r, (sortKnots knots)[searchSorted (sortKnots knots) p.1]? = some r :=
        ⟨_, List.getElem?_eq_getElem (by omega)⟩
      exact absurd ((h1 _ r hr).1 ((sorted_lt knots hd _ _ _ _ hr hpi).2 h)) (lt_irrefl _)
    · exact h
    · exact absurd ((h1 i p hpi).2 h) (lt_irrefl _)
  obtain ⟨a, b, ha, hb, he⟩ := interp_eq knots hd h2 p.1
  rw [hc] at ha hb
  rw [he]
  have hab : a.1 < b.1 := (sorted_lt knots hd _ _ _ _ ha hb).2 (by omega)
  congr 2
  by_cases h0 : i = 0
  · subst h0
    have : segment knots.length 0 = 0 := by unfold segment; omega
    rw [this, hpi, Option.some.injEq] at ha
    rw [ha]; exact lineThrough_left a b
  · have : segment knots.length i + 1 = i := by unfold segment; omega
    rw [this, hpi, Option.some.injEq] at hb
    rw [hb]; exact lineThrough_right a b hab

/-- C53: between two neighbouring knots `interp` is the straight line through them, hence between their values. -/
theorem C53_between (knots : List (ℝ × ℝ)) (hd : (knots.map Prod.fst).Nodup) (p q : ℝ × ℝ)
    (hpq : Neighbours knots p q) (t : ℝ) (h1 : p.1 ≤ t) (h2 : t ≤ q.1) :
    ∃ v, interp knots t = .ok (some v) ∧ v = lineThrough p q t ∧ min p.2 q.2 ≤ v ∧ v ≤ max p.2 q.2 := by
  obtain ⟨hp, hq, hlt, hno⟩ := hpq
  have hlen2 : 2 ≤ knots.length := by
    by_contra hcon
    have : knots.length ≤ 1 := by omega
    rcases knots with _ | ⟨a, _ | ⟨b, t⟩⟩
    · simp at hp
    · simp at hp hq; subst hp; subst hq; exact lt_irrefl _ hlt
    · simp at this
  refine ⟨lineThrough p q t, ?_, rfl, ?_, ?_⟩
  · rcases eq_or_lt_of_le h1 with rfl | h1
    · rw [C53_knots knots hd hlen2 p hp, lineThrough_left]
    · obtain ⟨i, hi, hpi⟩ := sorted_index knots p hp
      obtain ⟨j, hj, hqj⟩ := sorted_index knots q hq
      have hlen := (sortKnots_perm knots).length_eq
      have hij : i < j := (sorted_lt knots hd _ _ _ _ hpi hqj).1 hlt
      have hj1 : j = i + 1 := by
        by_contra hne
        obtain ⟨r, hr⟩ : ∃ r, (sortKnots knots)[i + 1]? = some r := ⟨_, List.getElem?_eq_getElem (by omega)⟩
        have hrm : r ∈ knots := (sortKnots_perm knots).mem_iff.1 (List.mem_of_getElem? hr)
        have a1 := (sorted_lt knots hd _ _ _ _ hpi hr).2 (by omega)
        have a2 := (sorted_lt knots hd _ _ _ _ hr hqj).2 (by omega)
        rcases hno r hrm with h | h <;> linarith
      have hs := searchSorted_spec _ (sortKnots_strict knots hd) t
      have c1 := (hs i p hpi).1 h1
      have c2 := (hs j q hqj).not.1 (not_lt.2 h2)
      have hc : searchSorted (sortKnots knots) t = i + 1 := by omega
      obtain ⟨a, b, ha, hb, he⟩ := interp_eq knots hd hlen2 t
      have hseg : segment knots.length (i + 1) = i := by unfold segment; omega
      rw [hc, hseg, hpi, Option.some.injEq] at ha
      rw [hc, hseg, ← hj1, hqj, Option.some.injEq] at hb
      rw [he, ha, hb]
  all_goals
    have hd' : 0 < q.1 - p.1 := by linarith
    set w := (t - p.1) / (q.1 - p.1) with hw
    have hw0 : 0 ≤ w := div_nonneg (by linarith) hd'.le
    have hw1 : w ≤ 1 := by rw [hw, div_le_one hd']; linarith
    have e : lineThrough p q t = (1 - w) * p.2 + w * q.2 := by
      unfold lineThrough; rw [hw]; field_simp; ring
    rw [e]
  · have := min_le_left p.2 q.2; have := min_le_right p.2 q.2; nlinarith
  · have := le_max_left p.2 q.2; have := le_max_right p.2 q.2; nlinarith

/-- C53: to the left of all knots the line through the first two knots continues, to the right the line through the
last two. -/
theorem C53_outside (knots : List (ℝ × ℝ)) (hd : (knots.map Prod.fst).Nodup) (p q : ℝ × ℝ)
    (hpq : Neighbours knots p q) (t : ℝ) :
    ((∀ r ∈ knots, p.1 ≤ r.1) → t ≤ p.1 → interp knots t = .ok (some (lineThrough p q t))) ∧
    ((∀ r ∈ knots, r.1 ≤ q.1) → q.1 ≤ t → interp knots t = .ok (some (lineThrough p q t))) := by
  obtain ⟨hp, hq, hlt, hno⟩ := hpq
  have hlen2 : 2 ≤ knots.length := by
    by_contra hcon
    have : knots.length ≤ 1 := by omega
    rcases knots with _ | ⟨a, _ | ⟨b, t⟩⟩
    · simp at hp
    · simp at hp hq; subst hp; subst hq; exact lt_irrefl _ hlt
    · simp at this
  have hlen := (sortKnots_perm knots).length_eq
  obtain ⟨i, hi, hpi⟩ := sorted_index knots p hp
  obtain ⟨j, hj, hqj⟩ := sorted_index knots q hq
  have hij : i < j := (sorted_lt knots hd _ _ _ _ hpi hqj).1 hlt
  have hj1 : j = i + 1 := by
    by_contra hne
    obtain ⟨r, hr⟩ : ∃ r, (sortKnots knots)[i + 1]? = some r := ⟨_, List.getElem?_eq_getElem (by omega)⟩
    have hrm : r ∈ knots := (sortKnots_perm knots).mem_iff.1 (List.mem_of_getElem? hr)
    have a1 := (sorted_lt knots hd _ _ _ _ hpi hr).2 (by omega)
    have a2 := (sorted_lt knots hd _ _ _ _ hr hqj).2 (by omega)
    rcases hno r hrm with h | h <;> linarith
  have hs := searchSorted_spec _ (sortKnots_strict knots hd) t
  obtain ⟨a, b, ha, hb, he⟩ := interp_eq knots hd hlen2 t
  constructor
  · intro hmin ht
    have hi0 : i = 0 := by
      by_contra hne
      obtain ⟨r, hr⟩ : ∃ r, (sortKnots knots)[0]? = some r := ⟨_, List.getElem?_eq_getElem (by omega)⟩
      have := (sorted_lt knots hd _ _ _ _ hr hpi).2 (by omega)
      linarith [hmin r ((sortKnots_perm knots).mem_iff.1 (List.mem_of_getElem? hr))]
    subst hi0
    have c1 := (hs 0 p hpi).not.1 (not_lt.2 ht)
    have hseg : segment knots.length (searchSorted (sortKnots knots) t) = 0 := by unfold segment; omega
    rw [hseg, hpi, Option.some.injEq] at ha
    rw [hseg, ← hj1, hqj, Option.some.injEq] at hb
    rw [he, ha, hb]
  · intro hmax ht
    have hjn : j = knots.length - 1 := by
      by_contra hne
      obtain ⟨r, hr⟩ : ∃ r, (sortKnots knots)[knots.length - 1]? = some r :=
        ⟨_, List.getElem?_eq_getElem (by omega)⟩
      have := (sorted_lt knots hd _ _ _ _ hqj hr).2 (by omega)
      linarith [hmax r ((sortKnots_perm knots).mem_iff.1 (List.mem_of_getElem? hr))]
    rcases eq_or_lt_of_le ht with rfl | ht
    · rw [C53_knots knots hd hlen2 q hq, lineThrough_right p q hlt]
    · have c1 := (hs j q hqj).1 ht
      have hseg : segment knots.length (searchSorted (sortKnots knots) t) = i := by unfold segment; omega
      rw [hseg, hpi, Option.some.injEq] at ha
      rw [hseg, ← hj1, hqj, Option.some.injEq] at hb
      rw [he, ha, hb]

/-- Helper: value at a query relative to the ends of its segment. -/
theorem interp_bounds (knots : List (ℝ × ℝ)) (hd : (knots.map Prod.fst).Nodup) (h2 : 2 ≤ knots.length)
    (hmono : ∀ p ∈ knots, ∀ q ∈ knots, p.1 ≤ q.1 → p.2 ≤ q.2) (t : ℝ) :
    ∃ v, interp knots t = .ok (some v) ∧ (∀ p ∈ knots, p.1 ≤ t → p.2 ≤ v) ∧ ∀ p ∈ knots, t ≤ p.1 → v ≤ p.2 := by
  obtain ⟨a, b, ha, hb, he⟩ := interp_eq knots hd h2 t
  have hlen := (sortKnots_perm knots).length_eq
  have hs := searchSorted_spec _ (sortKnots_strict knots hd) t
  have hab : a.1 < b.1 := (sorted_lt knots hd _ _ _ _ ha hb).2 (by omega)
  have ham : a ∈ knots := (sortKnots_perm knots).mem_iff.1 (List.mem_of_getElem? ha)
  have hbm : b ∈ knots := (sortKnots_perm knots).mem_iff.1 (List.mem_of_getElem? hb)
  have hk : 0 ≤ (b.2 - a.2) / (b.1 - a.1) := div_nonneg (by linarith [hmono a ham b hbm hab.le]) (by linarith)
  have el : lineThrough a b t = a.2 + (b.2 - a.2) / (b.1 - a.1) * (t - a.1) := rfl
  have er : lineThrough a b t = b.2 + (b.2 - a.2) / (b.1 - a.1) * (t - b.1) := by
    have : b.1 - a.1 ≠ 0 := by linarith
    unfold lineThrough; field_simp; ring
  set c := searchSorted (sortKnots knots) t with hc
  have hcn : c ≤ knots.length := by rw [← hlen]; exact List.countP_le_length
  refine ⟨_, he, ?_, ?_⟩
  · intro p hp hpt
    rcases eq_or_lt_of_le hpt with rfl | hpt
    · have := C53_knots knots hd h2 p hp
      rw [this] at he
      simp only [Except.ok.injEq, Option.some.injEq] at he
      exact he.le
    · obtain ⟨i, hi, hpi⟩ := sorted_index knots p hp
      have hic := (hs i p hpi).1 hpt
      by_cases hlast : c = knots.length
      · have hbt : b.1 < t := by
          refine (hs _ b hb).2 ?_
          unfold segment; omega
        have hpb : p.1 ≤ b.1 := by
          by_contra hcon
          have h3 := (sorted_lt knots hd _ _ _ _ hb hpi).1 (not_le.1 hcon)
          unfold segment at h3; omega
        rw [er]
        have := hmono p hp b hbm hpb
        nlinarith [mul_nonneg hk (by linarith : (0 : ℝ) ≤ t - b.1)]
      · have hat : a.1 < t := by
          refine (hs _ a ha).2 ?_
          unfold segment; omega
        have hpa : p.1 ≤ a.1 := by
          by_contra hcon
          have h3 := (sorted_lt knots hd _ _ _ _ ha hpi).1 (not_le.1 hcon)
          unfold segment at h3; omega
        rw [el]
        have := hmono p hp a ham hpa
        nlinarith [mul_nonneg hk (by linarith : (0 : ℝ) ≤ t - a.1)]
  · intro p hp hpt
    obtain ⟨i, hi, hpi⟩ := sorted_index knots p hp
    have hic := (hs i p hpi).not.1 (not_lt.2 hpt)
    by_cases h0 : c = 0
    · have hat : t ≤ a.1 := by
        refine not_lt.1 ((hs _ a ha).not.2 ?_)
        unfold segment; omega
      have hpa : a.1 ≤ p.1 := by
        by_contra hcon
        have h3 := (sorted_lt knots hd _ _ _ _ hpi ha).1 (not_le.1 hcon)
        unfold segment at h3; omega
      rw [el]
      have := hmono a ham p hp hpa
      nlinarith [mul_nonneg hk (by linarith : (0 : ℝ) ≤ a.1 - t)]
    · have hbt : t ≤ b.1 := by
        refine not_lt.1 ((hs _ b hb).not.2 ?_)
        unfold segment; omega
      have hpb : b.1 ≤ p.1 := by
        by_contra hcon
        have h3 := (sorted_lt knots hd _ _ _ _ hpi hb).1 (not_le.1 hcon)
        unfold segment at h3; omega
      rw [er]
      have := hmono b hbm p hp hpb
      nlinarith [mul_nonneg hk (by linarith : (0 : ℝ) ≤ b.1 - t)]

/-- C53: if the values do not decrease along the knots, `interp` does not decrease. -/
theorem C53_monotone (knots : List (ℝ × ℝ)) (hd : (knots.map Prod.fst).Nodup) (h2 : 2 ≤ knots.length)
    (hmono : ∀ p ∈ knots, ∀ q ∈ knots, p.1 ≤ q.1 → p.2 ≤ q.2) (t u : ℝ) (htu : t ≤ u) :
    ∃ v w, interp knots t = .ok (some v) ∧ interp knots u = .ok (some w) ∧ v ≤ w := by
  obtain ⟨a, b, ha, hb, he⟩ := interp_eq knots hd h2 t
  obtain ⟨a', b', ha', hb', he'⟩ := interp_eq knots hd h2 u
  obtain ⟨v, hv, hv1, hv2⟩ := interp_bounds knots hd h2 hmono t
  obtain ⟨w, hw, hw1, hw2⟩ := interp_bounds knots hd h2 hmono u
  refine ⟨v, w, hv, hw, ?_⟩
  by_cases hk : ∃ p ∈ knots, t ≤ p.1 ∧ p.1 ≤ u
  · obtain ⟨p, hp, h3, h4⟩ := hk
    exact (hv2 p hp h3).trans (hw1 p hp h4)
  · push Not at hk
    have hs : searchSorted (sortKnots knots) t = searchSorted (sortKnots knots) u := by
      apply List.countP_congr
      intro p hp
      have hpk := (sortKnots_perm knots).mem_iff.1 hp
      simp only [decide_eq_true_eq]
      constructor
      · intro h; linarith
      · intro h
        by_contra hcon
        linarith [hk p hpk (not_lt.1 hcon)]
    rw [hs, ha', Option.some.injEq] at ha
    rw [hs, hb', Option.some.injEq] at hb
    rw [he, Except.ok.injEq, Option.some.injEq] at hv
    rw [he', Except.ok.injEq, Option.some.injEq] at hw
    rw [← hv, ← hw, ← ha, ← hb]
    have hab : a'.1 < b'.1 := (sorted_lt knots hd _ _ _ _ ha' hb').2 (by omega)
    have ham : a' ∈ knots := (sortKnots_perm knots).mem_iff.1 (List.mem_of_getElem? ha')
    have hbm : b' ∈ knots := (sortKnots_perm knots).mem_iff.1 (List.mem_of_getElem? hb')
    have hk : 0 ≤ (b'.2 - a'.2) / (b'.1 - a'.1) := div_nonneg (by linarith [hmono a' ham b' hbm hab.le]) (by linarith)
    unfold lineThrough
    nlinarith [mul_nonneg hk (by linarith : (0 : ℝ) ≤ u - t)]

/-- C53: without knots, and with one knot away from it, `interp` raises `IndexError`; at a single knot the result is not
finite. -/
theorem C53_too_few_knots (p : ℝ × ℝ) (t : ℝ) :
    interp [] t = .error .indexError ∧ interp [p] p.1 = .ok none ∧
      (t ≠ p.1 → interp [p] t = .error .indexError) := by
  have hs : sortKnots [p] = [p] := by simp [sortKnots]
  refine ⟨?_, ?_, ?_⟩
  · simp [interp, sortKnots, pyGet, bind, Except.bind]
  · simp [interp, hs, pyGet, bind, Except.bind, searchSorted, floatDiv, pure, Except.pure]
  · intro h
    have : ¬ (p.1 ≤ t ∧ t ≤ p.1) := fun hh => h (le_antisymm hh.2 hh.1)
    simp [interp, hs, pyGet, bind, Except.bind, this]

example : Neighbours [(2, 5), (0, 1), (3, 4)] (0, 1) (2, 5) ∧
    ((([(2, 5), (0, 1), (3, 4)] : List (ℝ × ℝ)).map Prod.fst).Nodup) := by
  refine ⟨⟨by simp, by simp, by norm_num, ?_⟩, by norm_num⟩
  intro r hr
  simp at hr
  rcases hr with rfl | rfl | rfl <;> norm_num

example : interp [(2, 5), (0, 1), (3, 4)] 1 = .ok (some 3) := by
  obtain ⟨v, hv, hv', _⟩ := C53_between [(2, 5), (0, 1), (3, 4)] (by norm_num) (0, 1) (2, 5)
    ⟨by simp, by simp, by norm_num, by
      intro r hr; simp at hr; rcases hr with rfl | rfl | rfl <;> norm_num⟩ 1 (by norm_num) (by norm_num)
  rw [hv, hv']; norm_num [lineThrough]

/-! ## C54 -/

/-- Helper: the second sorting inverts the first. -/
theorem ranks_inverse {n : ℕ} (argsort : (Fin n → ℝ) → Fin n → Fin n) (h : IsArgsort argsort) (x : Fin n → ℝ)
    (i : Fin n) : argsort x (argsort (fun i => ((argsort x i : ℕ) : ℝ)) i) = i := by
  set σ := argsort x with hσ
  set ρ := argsort fun i => ((σ i : ℕ) : ℝ) with hρ
  obtain ⟨hb, hm⟩ := h fun i => ((σ i : ℕ) : ℝ)
  have hmono : StrictMono fun i => σ (ρ i) := by
    apply Monotone.strictMono_of_injective
    · intro i j hij
      have := hm i j hij
      exact_mod_cast this
    · exact (h x).1.1.comp hb.1
  have := hmono.orderIsoOfSurjective _ ((h x).1.2.comp hb.2)
  have e : (fun i => σ (ρ i)) = id := by
    have hsub : Subsingleton (Fin n ≃o Fin n) := inferInstance
    have := Subsingleton.elim (hmono.orderIsoOfSurjective _ ((h x).1.2.comp hb.2)) (OrderIso.refl (Fin n))
    funext i
    have := congrArg (fun f : Fin n ≃o Fin n => f i) this
    simpa using this
  exact congrFun e i

/-- C54: every transformed value is a finite normal quantile: its normal distribution function value is
`rank / (n + 1)`, where the rank is between one more than the number of smaller entries and the number of entries that
are not larger, so that it lies strictly between 0 and 1. -/
theorem C54_ranks {n : ℕ} (argsort : (Fin n → ℝ) → Fin n → Fin n) (h : IsArgsort argsort) (icdf : ℝ → ℝ)
    (hq : IsNormalQuantile icdf) (x : Fin n → ℝ) (i : Fin n) :
    ∃ r : ℕ, (Finset.univ.filter fun j => x j < x i).card + 1 ≤ r ∧ r ≤ (Finset.univ.filter fun j => x j ≤ x i).card ∧
      ProbabilityTheory.cdf (ProbabilityTheory.gaussianReal 0 1) (quantileTransform argsort icdf x i)
        = (r : ℝ) / (n + 1) ∧ 0 < (r : ℝ) / (n + 1) ∧ (r : ℝ) / (n + 1) < 1 := by
  set σ := argsort x with hσ
  set ρ := argsort fun i => ((σ i : ℕ) : ℝ) with hρ
  have hinv : ∀ i, σ (ρ i) = i := ranks_inverse argsort h x
  obtain ⟨hb, hm⟩ := h x
  have hn : (0 : ℝ) < (n : ℝ) + 1 := by positivity
  have hri : ((ρ i : ℕ) : ℝ) + 1 < (n : ℝ) + 1 := by
    have : ((ρ i : ℕ) : ℝ) < n := by exact_mod_cast (ρ i).2
    linarith
  have hp0 : 0 < (((ρ i : ℕ) + 1 : ℕ) : ℝ) / (n + 1) := by positivity
  have hp1 : (((ρ i : ℕ) + 1 : ℕ) : ℝ) / (n + 1) < 1 := by
    rw [div_lt_one hn]; push_cast; exact hri
  refine ⟨(ρ i : ℕ) + 1, ?_, ?_, ?_, hp0, hp1⟩
  · have hsub : (Finset.univ.filter fun j => x j < x i).card ≤ (Finset.univ.filter fun k : Fin n => k < ρ i).card := by
      apply Finset.card_le_card_of_injOn ρ
      · intro j hj
        simp only [Finset.coe_filter, Finset.mem_univ, true_and, Set.mem_setOf_eq] at hj ⊢
        by_contra hcon
        have := hm _ _ (not_lt.1 hcon)
        simp only [← hσ] at this
        rw [hinv, hinv] at this
        linarith
      · intro a _ b _ hab
        have := congrArg σ hab
        rwa [hinv, hinv] at this
    have hcard : (Finset.univ.filter fun k : Fin n => k < ρ i).card = ρ i := by
      have : (Finset.univ.filter fun k : Fin n => k < ρ i) = Finset.Iio (ρ i) := by ext k; simp
      rw [this, Fin.card_Iio]
    omega
  · have hsub : (Finset.univ.filter fun k : Fin n => k ≤ ρ i).card ≤ (Finset.univ.filter fun j => x j ≤ x i).card := by
      apply Finset.card_le_card_of_injOn σ
      · intro k hk
        simp only [Finset.coe_filter, Finset.mem_univ, true_and, Set.mem_setOf_eq] at hk ⊢
        have := hm _ _ hk
        simp only [← hσ] at this
        rwa [hinv] at this
      · intro a _ b _ hab
        exact hb.1 hab
    have hcard : (Finset.univ.filter fun k : Fin n => k ≤ ρ i).card = ρ i + 1 := by
      have : (Finset.univ.filter fun k : Fin n => k ≤ ρ i) = Finset.Iic (ρ i) := by ext k; simp
      rw [this, Fin.card_Iic]
    omega
  · have := hq _ hp0 hp1
    unfold quantileTransform
    simp only [← hσ, ← hρ]
    push_cast at this ⊢
    exact this

/-- C54: the transformation preserves strict order and gives pairwise distinct values within a column. -/
theorem C54_order {n : ℕ} (argsort : (Fin n → ℝ) → Fin n → Fin n) (h : IsArgsort argsort) (icdf : ℝ → ℝ)
    (hq : IsNormalQuantile icdf) (x : Fin n → ℝ) (i j : Fin n) :
    (x i < x j → quantileTransform argsort icdf x i < quantileTransform argsort icdf x j) ∧
    (i ≠ j → quantileTransform argsort icdf x i ≠ quantileTransform argsort icdf x j) := by
  set σ := argsort x with hσ
  set ρ := argsort fun i => ((σ i : ℕ) : ℝ) with hρ
  have hinv : ∀ i, σ (ρ i) = i := ranks_inverse argsort h x
  have hn : (0 : ℝ) < (n : ℝ) + 1 := by positivity
  have hstep : ∀ i j, ρ i < ρ j → quantileTransform argsort icdf x i < quantileTransform argsort icdf x j := by
    intro i j hij
    have hlt : ((ρ i : ℕ) + 1 : ℝ) / ((n : ℝ) + 1) < ((ρ j : ℕ) + 1 : ℝ) / ((n : ℝ) + 1) := by
      apply div_lt_div_of_pos_right _ hn
      have : ((ρ i : ℕ) : ℝ) < ((ρ j : ℕ) : ℝ) := by exact_mod_cast hij
      linarith
    have p1 : ∀ k : Fin n, 0 < ((k : ℕ) + 1 : ℝ) / ((n : ℝ) + 1) ∧ ((k : ℕ) + 1 : ℝ) / ((n : ℝ) + 1) < 1 := by
      intro k
      refine ⟨by positivity, ?_⟩
      rw [div_lt_one hn]
      have : ((k : ℕ) : ℝ) < n := by exact_mod_cast k.2
      linarith
    have e1 := hq _ (p1 (ρ i)).1 (p1 (ρ i)).2
    have e2 := hq _ (p1 (ρ j)).1 (p1 (ρ j)).2
    by_contra hcon
    have := ProbabilityTheory.monotone_cdf (ProbabilityTheory.gaussianReal 0 1) (not_lt.1 hcon)
    unfold quantileTransform at this
    simp only [← hσ, ← hρ] at this
    rw [e1, e2] at this
    linarith
  constructor
  · intro hx
    apply hstep
    by_contra hcon
    have := (h x).2 _ _ (not_lt.1 hcon)
    simp only [← hσ] at this
    rw [hinv, hinv] at this
    linarith
  · intro hne
    have : ρ i ≠ ρ j := fun he => hne (by rw [← hinv i, he, hinv])
    rcases lt_or_gt_of_ne this with hl | hl
    · exact (hstep i j hl).ne
    · exact (hstep j i hl).ne'

/-- The hypothesis on `argsort` is met. -/
example : IsArgsort (n := 3) fun x => Tuple.sort x := fun x =>
  ⟨(Tuple.sort x).bijective, fun _ _ hij => Tuple.monotone_sort x hij⟩

/-- The hypothesis on `icdf` is met. -/
theorem exists_normalQuantile : ∃ icdf, IsNormalQuantile icdf := by
  set μ := ProbabilityTheory.gaussianReal 0 1
  have hcont : Continuous (ProbabilityTheory.cdf μ) := by
    rw [continuous_iff_continuousAt]
    intro a
    rw [(ProbabilityTheory.monotone_cdf μ).continuousAt_iff_leftLim_eq_rightLim]
    have h1 : (ProbabilityTheory.cdf μ).measure {a} = 0 := by
      rw [ProbabilityTheory.measure_cdf]
      haveI := ProbabilityTheory.nullSingletonClass_gaussianReal (μ := 0) (v := 1) one_ne_zero
      exact MeasureTheory.measure_singleton a
    rw [StieltjesFunction.measure_singleton, ENNReal.ofReal_eq_zero] at h1
    have h2 : Function.leftLim (ProbabilityTheory.cdf μ) a ≤ ProbabilityTheory.cdf μ a :=
      (ProbabilityTheory.monotone_cdf μ).leftLim_le le_rfl
    rw [(ProbabilityTheory.cdf μ).rightLim_eq]
    linarith
  have hex : ∀ p : ℝ, 0 < p → p < 1 → ∃ x, ProbabilityTheory.cdf μ x = p := by
    intro p h0 h1
    obtain ⟨a, ha⟩ := ((ProbabilityTheory.tendsto_cdf_atBot μ).eventually (gt_mem_nhds h0)).exists
    obtain ⟨b, hb⟩ := ((ProbabilityTheory.tendsto_cdf_atTop μ).eventually (lt_mem_nhds h1)).exists
    exact mem_range_of_exists_le_of_exists_ge hcont ⟨a, ha.le⟩ ⟨b, hb.le⟩
  classical
  refine ⟨fun p => if h : 0 < p ∧ p < 1 then (hex p h.1 h.2).choose else 0, fun p h0 h1 => ?_⟩
  simp only [h0, h1, and_self, dif_pos]
  exact (hex p h0 h1).choose_spec

end Irt
