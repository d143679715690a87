import Verif.Model.RankCDF
import Verif.Spec.Ranks
import Verif.Lemmas.Data

namespace Irt

/-- Number of sample values below `x`. -/
noncomputable def cntLt (xs : List ℝ) (x : ℝ) : ℕ := xs.countP fun y => decide (y < x)
/-- Number of sample values equal to `x`. -/
noncomputable def cntEq (xs : List ℝ) (x : ℝ) : ℕ := xs.countP fun y => decide (y = x)

theorem cnt_le (xs : List ℝ) (x : ℝ) :
    (xs.countP fun y => decide (y ≤ x)) = cntLt xs x + cntEq xs x := by
  unfold cntLt cntEq
  induction xs with
  | nil => rfl
  | cons a xs ih =>
    simp only [List.countP_cons, ih]
    rcases lt_trichotomy a x with h | h | h
    · simp [h, h.le, h.ne]; ring
    · simp [h]; ring
    · simp [not_le.mpr h, not_lt.mpr h.le, h.ne']

theorem averageRank_eq (xs : List ℝ) (x : ℝ) :
    averageRank xs x = cntLt xs x + ((cntEq xs x : ℝ) + 1) / 2 := by
  unfold averageRank
  rw [cnt_le]
  change (((cntLt xs x : ℕ) : ℝ) + 1 + _) / 2 = _
  push_cast
  ring

/-- Sum of `o + i + 1` over the positions `i` holding `v`. -/
noncomputable def rankTotal : List ℝ → ℝ → ℝ → ℝ
  | [], _, _ => 0
  | a :: xs, o, v => (if a = v then o + 1 else 0) + rankTotal xs (o + 1) v

theorem rankTotal_sorted (xs : List ℝ) (h : xs.Pairwise (· ≤ ·)) (o v : ℝ) :
    rankTotal xs o v = cntEq xs v * (o + cntLt xs v) + cntEq xs v * (cntEq xs v + 1) / 2 := by
  induction xs generalizing o with
  | nil => simp [rankTotal, cntEq, cntLt]
  | cons a xs ih =>
    obtain ⟨ha, hxs⟩ := List.pairwise_cons.1 h
    rw [rankTotal, ih hxs]
    have hzero : v ≤ a → cntLt xs v = 0 := by
      intro hv
      unfold cntLt
      rw [List.countP_eq_zero]
      intro y hy
      simpa using hv.trans (ha y hy)
    rcases lt_trichotomy a v with hav | hav | hav
    · have e1 : cntEq (a :: xs) v = cntEq xs v := by simp [cntEq, List.countP_cons, hav.ne]
      have e2 : cntLt (a :: xs) v = cntLt xs v + 1 := by simp [cntLt, List.countP_cons, hav]
      rw [if_neg hav.ne, e1, e2]; push_cast; ring
    · have e1 : cntEq (a :: xs) v = cntEq xs v + 1 := by simp [cntEq, List.countP_cons, hav]
      have e2 : cntLt (a :: xs) v = 0 := by
        have := hzero hav.ge
        unfold cntLt at this ⊢
        simp [List.countP_cons, hav, this]
      rw [if_pos hav, e1, e2, hzero hav.ge]; push_cast; ring
    · have e1 : cntEq (a :: xs) v = cntEq xs v := by simp [cntEq, List.countP_cons, hav.ne']
      have e3 : cntEq xs v = 0 := by
        unfold cntEq
        rw [List.countP_eq_zero]
        intro y hy
        simpa using ((lt_of_lt_of_le hav (ha y hy)).ne')
      rw [if_neg hav.ne', e1, e3]; simp

/-! ## scatter_add -/

theorem length_scatterAdd1 (t : List ℝ) (index : List ℕ) (src : List ℝ) :
    (scatterAdd1 t index src).length = t.length := by
  unfold scatterAdd1
  induction index.zip src generalizing t with
  | nil => rfl
  | cons p ps ih => rw [List.foldl_cons, ih, List.length_modify]

theorem foldl_modify_getElem? (ps : List (ℕ × ℝ)) (t : List ℝ) (k : ℕ) (x : ℝ) (hk : t[k]? = some x) :
    (ps.foldl (fun acc p => acc.modify p.1 (· + p.2)) t)[k]?
      = some (x + (ps.map fun p => if p.1 = k then p.2 else 0).sum) := by
  induction ps generalizing t x with
  | nil => simpa using hk
  | cons p ps ih =>
    rw [List.foldl_cons, List.map_cons, List.sum_cons]
    by_cases h : p.1 = k
    · rw [ih _ (x + p.2) (by rw [List.getElem?_modify]; simp [h, hk]), if_pos h, add_assoc]
    · rw [ih _ x (by rw [List.getElem?_modify]; simp [h, hk]), if_neg h, zero_add]

theorem sum_indexed_ranks (xs : List ℝ) (f : ℝ → ℕ) (k : ℕ) (v : ℝ)
    (hf : ∀ x ∈ xs, (f x = k ↔ x = v)) (o : ℝ) :
    (((xs.map f).zip ((List.range xs.length).map fun i : ℕ => o + (i : ℝ) + 1)).map
      fun p => if p.1 = k then p.2 else 0).sum = rankTotal xs o v := by
  induction xs generalizing o with
  | nil => simp [rankTotal]
  | cons a xs ih =>
    rw [List.length_cons, List.range_succ_eq_map, List.map_cons, List.map_cons, List.zip_cons_cons,
      List.map_cons, List.sum_cons, rankTotal, ← ih (fun x hx => hf x (List.mem_cons_of_mem _ hx)) (o + 1)]
    congr 1
    · have := hf a (by simp)
      by_cases h : a = v
      · rw [if_pos h, if_pos (this.2 h)]; simp
      · rw [if_neg h, if_neg (fun e => h (this.1 e))]
    · rw [List.map_map]
      congr 4
      funext i
      simp only [Function.comp]
      push_cast; ring

theorem sum_indexed_ones (xs : List ℝ) (f : ℝ → ℕ) (k : ℕ) (v : ℝ)
    (hf : ∀ x ∈ xs, (f x = k ↔ x = v)) :
    (((xs.map f).zip (List.replicate xs.length (1 : ℝ))).map
      fun p => if p.1 = k then p.2 else 0).sum = cntEq xs v := by
  induction xs with
  | nil => simp [cntEq]
  | cons a xs ih =>
    rw [List.length_cons, List.replicate_succ, List.map_cons, List.zip_cons_cons,
      List.map_cons, List.sum_cons, ih (fun x hx => hf x (List.mem_cons_of_mem _ hx))]
    have := hf a (by simp)
    by_cases h : a = v
    · rw [if_pos (this.2 h)]; simp [cntEq, List.countP_cons, h]; ring
    · rw [if_neg (fun e => h (this.1 e))]; simp [cntEq, List.countP_cons, h]

/-! ## The unique values -/

theorem unique_props (xs : List ℝ) :
    (uniqueInverse xs).1.Pairwise (· < ·) ∧ ∀ x, x ∈ (uniqueInverse xs).1 ↔ x ∈ xs := by
  unfold uniqueInverse
  constructor
  · have h1 := List.pairwise_insertionSort (· ≤ ·) xs.dedup
    have h2 : (xs.dedup.insertionSort (· ≤ ·)).Nodup :=
      (List.perm_insertionSort (· ≤ ·) xs.dedup).nodup_iff.2 (List.nodup_dedup xs)
    exact (h1.and h2).imp fun ⟨a, b⟩ => lt_of_le_of_ne a b
  · intro x
    simp only [(List.perm_insertionSort (· ≤ ·) xs.dedup).mem_iff, List.mem_dedup]

theorem findIdx_eq_iff (u : List ℝ) (hu : u.Pairwise (· < ·)) (k : ℕ) (v : ℝ) (hk : u[k]? = some v) (x : ℝ)
    (hx : x ∈ u) : u.findIdx (· = x) = k ↔ x = v := by
  have hlt : u.findIdx (· = x) < u.length := List.findIdx_lt_length_of_exists ⟨x, hx, by simp⟩
  have hval : u[u.findIdx (· = x)] = x := by
    have := List.findIdx_getElem (w := hlt)
    simpa using this
  obtain ⟨hk1, hk2⟩ := List.getElem?_eq_some_iff.1 hk
  constructor
  · intro h
    rw [← hval, ← hk2]
    simp only [h]
  · rintro rfl
    have hnd : u.Nodup := hu.imp fun h => h.ne
    exact (List.Nodup.getElem_inj_iff hnd).1 (hval.trans hk2.symm)

theorem cnt_perm {xs ys : List ℝ} (h : xs.Perm ys) (v : ℝ) : cntLt xs v = cntLt ys v ∧ cntEq xs v = cntEq ys v :=
  ⟨h.countP_eq _, h.countP_eq _⟩

/-- The stored ranks of one latent variable are the average ranks of the stored values. -/
theorem rankFeature_spec (column : List ℝ) :
    (rankFeature column.length column).1.Pairwise (· < ·) ∧
    (∀ x, x ∈ (rankFeature column.length column).1 ↔ x ∈ column) ∧
    ∀ (k : ℕ) (v : ℝ), (rankFeature column.length column).1[k]? = some v →
      (rankFeature column.length column).2.getD k 0 = averageRank column v := by
  have hperm : (sortValues column).Perm column := List.perm_insertionSort _ _
  obtain ⟨hu1, hu2⟩ := unique_props (sortValues column)
  refine ⟨hu1, fun x => (hu2 x).trans hperm.mem_iff, fun k v hk => ?_⟩
  set s := sortValues column with hs
  have hsort : s.Pairwise (· ≤ ·) := List.pairwise_insertionSort _ _
  have hlen : s.length = column.length := hperm.length_eq
  set u := (uniqueInverse s).1 with hu
  have hk' : u[k]? = some v := hk
  have hkl : k < u.length := (List.getElem?_eq_some_iff.1 hk').1
  have hf : ∀ x ∈ s, (u.findIdx (· = x) = k ↔ x = v) :=
    fun x hx => findIdx_eq_iff u hu1 k v hk' x ((hu2 x).2 hx)
  have hrep : (List.replicate u.length (0 : ℝ))[k]? = some 0 := by
    rw [List.getElem?_replicate, if_pos hkl]
  have h1 : (scatterAdd1 (List.replicate u.length 0) (uniqueInverse s).2
      ((List.range column.length).map fun i : ℕ => (i : ℝ) + 1))[k]? = some (rankTotal s 0 v) := by
    unfold scatterAdd1
    rw [foldl_modify_getElem? _ _ k 0 hrep, zero_add]
    have := sum_indexed_ranks s (fun x => u.findIdx (· = x)) k v hf 0
    rw [hlen] at this
    simp only [zero_add] at this
    rw [← this]; rfl
  have h2 : (scatterAdd1 (List.replicate u.length 0) (uniqueInverse s).2
      (List.replicate ((List.range column.length).map fun i : ℕ => (i : ℝ) + 1).length 1))[k]?
        = some (cntEq s v : ℝ) := by
    unfold scatterAdd1
    rw [foldl_modify_getElem? _ _ k 0 hrep, zero_add]
    have := sum_indexed_ones s (fun x => u.findIdx (· = x)) k v hf
    rw [hlen] at this
    rw [← this, List.length_map, List.length_range]; rfl
  have hpos : 0 < cntEq s v := by
    unfold cntEq
    rw [List.countP_pos_iff]
    exact ⟨v, (hu2 v).1 (List.mem_of_getElem? hk'), by simp⟩
  have hpos' : (0 : ℝ) < cntEq s v := by exact_mod_cast hpos
  rw [List.getD_eq_getElem?_getD]
  have : (rankFeature column.length column).2[k]? = some (rankTotal s 0 v / cntEq s v) := by
    show (List.zipWith (· / ·) _ _)[k]? = _
    rw [List.getElem?_zipWith]
    rw [show (rankFeature column.length column).1 = u from rfl] at hk
    erw [h1, h2]
  rw [this, Option.getD_some, rankTotal_sorted s hsort, averageRank_eq, (cnt_perm hperm v).1,
    ← (cnt_perm hperm v).2, zero_add]
  field_simp

/-! ## The closest value -/

theorem argmin_spec (xs : List ℝ) (hne : xs ≠ []) :
    ∃ i x, argmin xs = .ok i ∧ xs[i]? = some x ∧ (∀ y ∈ xs, x ≤ y) ∧
      ∀ (j : ℕ) (y : ℝ), xs[j]? = some y → (∀ z ∈ xs, y ≤ z) → i ≤ j := by
  obtain ⟨m, hm, hmin⟩ : ∃ m ∈ xs, ∀ y ∈ xs, m ≤ y := by
    clear * - hne
    induction xs with
    | nil => exact absurd rfl hne
    | cons a xs ih =>
      by_cases h : xs = []
      · exact ⟨a, by simp, by simp [h]⟩
      · obtain ⟨m, hm, hmin⟩ := ih h
        rcases le_total a m with ham | ham
        · exact ⟨a, by simp, by
            intro y hy
            rcases List.mem_cons.1 hy with rfl | hy
            · exact le_rfl
            · exact ham.trans (hmin y hy)⟩
        · exact ⟨m, List.mem_cons_of_mem _ hm, by
            intro y hy
            rcases List.mem_cons.1 hy with rfl | hy
            · exact ham
            · exact hmin y hy⟩
  have hdef : argmin xs = .ok (xs.findIdx fun y => decide (∀ z ∈ xs, y ≤ z)) := by
    cases xs with
    | nil => exact absurd rfl hne
    | cons a xs => rfl
  have hlt : xs.findIdx (fun y => decide (∀ z ∈ xs, y ≤ z)) < xs.length :=
    List.findIdx_lt_length_of_exists ⟨m, hm, by simpa using hmin⟩
  refine ⟨_, xs[xs.findIdx fun y => decide (∀ z ∈ xs, y ≤ z)], hdef, List.getElem?_eq_getElem hlt, ?_, ?_⟩
  · have := List.findIdx_getElem (w := hlt)
    simpa using this
  · intro j y hj hy
    by_contra hlt'
    push Not at hlt'
    have := List.not_of_lt_findIdx hlt'
    obtain ⟨hj1, hj2⟩ := List.getElem?_eq_some_iff.1 hj
    rw [hj2] at this
    simp only [decide_eq_false_iff_not] at this
    exact this hy

theorem closest_mono {sample : List ℝ} {x y u w : ℝ} (hxy : x ≤ y) (hu : Closest sample x u)
    (hw : Closest sample y w) : u ≤ w := by
  by_contra h
  push Not at h
  have h1 := hu.2.1 w hw.1
  have h2 := hw.2.1 u hu.1
  have e1 : (u - x) ^ 2 ≤ (w - x) ^ 2 := sq_le_sq.mpr h1
  have e2 : (w - y) ^ 2 ≤ (u - y) ^ 2 := sq_le_sq.mpr h2
  have a1 : u + w ≤ 2 * x := by nlinarith
  have a2 : 2 * y ≤ u + w := by nlinarith
  have hx : 2 * x = u + w := by linarith
  have := hu.2.2 w hw.1 (by
    rw [show w - x = -(u - x) by linarith, abs_neg])
  linarith

theorem averageRank_mono {sample : List ℝ} {u w : ℝ} (huw : u ≤ w) : averageRank sample u ≤ averageRank sample w := by
  unfold averageRank
  have h1 : (sample.countP fun y => decide (y < u)) ≤ sample.countP fun y => decide (y < w) :=
    List.countP_mono_left fun y _ h => by simp at h ⊢; exact lt_of_lt_of_le h huw
  have h2 : (sample.countP fun y => decide (y ≤ u)) ≤ sample.countP fun y => decide (y ≤ w) :=
    List.countP_mono_left fun y _ h => by simp at h ⊢; exact h.trans huw
  have h1' : ((sample.countP fun y => decide (y < u) : ℕ) : ℝ) ≤ (sample.countP fun y => decide (y < w) : ℕ) := by
    exact_mod_cast h1
  have h2' : ((sample.countP fun y => decide (y ≤ u) : ℕ) : ℝ) ≤ (sample.countP fun y => decide (y ≤ w) : ℕ) := by
    exact_mod_cast h2
  linarith

theorem averageRank_lt {sample : List ℝ} {u w : ℝ} (hu : u ∈ sample) (huw : u < w) :
    averageRank sample u < averageRank sample w := by
  unfold averageRank
  have h1 : (sample.countP fun y => decide (y < u)) + 1 ≤ sample.countP fun y => decide (y < w) := by
    have : (sample.countP fun y => decide (y ≤ u)) ≤ sample.countP fun y => decide (y < w) :=
      List.countP_mono_left fun y _ h => by simp at h ⊢; exact lt_of_le_of_lt h huw
    have h3 := cnt_le sample u
    have h4 : 0 < cntEq sample u := by
      unfold cntEq
      rw [List.countP_pos_iff]
      exact ⟨u, hu, by simp⟩
    unfold cntLt at h3
    omega
  have h2 : (sample.countP fun y => decide (y ≤ u)) ≤ sample.countP fun y => decide (y ≤ w) :=
    List.countP_mono_left fun y _ h => by simp at h ⊢; exact h.trans huw.le
  have h1' : ((sample.countP fun y => decide (y < u) : ℕ) : ℝ) + 1 ≤ (sample.countP fun y => decide (y < w) : ℕ) := by
    exact_mod_cast h1
  have h2' : ((sample.countP fun y => decide (y ≤ u) : ℕ) : ℝ) ≤ (sample.countP fun y => decide (y ≤ w) : ℕ) := by
    exact_mod_cast h2
  linarith

theorem averageRank_bounds {sample : List ℝ} {v : ℝ} (hv : v ∈ sample) :
    1 ≤ averageRank sample v ∧ averageRank sample v ≤ sample.length := by
  rw [averageRank_eq]
  have h4 : 0 < cntEq sample v := by
    unfold cntEq
    rw [List.countP_pos_iff]
    exact ⟨v, hv, by simp⟩
  have h5 : cntLt sample v + cntEq sample v ≤ sample.length := by
    rw [← cnt_le]; exact List.countP_le_length
  have h4' : (1 : ℝ) ≤ cntEq sample v := by exact_mod_cast h4
  have h5' : (cntLt sample v : ℝ) + cntEq sample v ≤ sample.length := by exact_mod_cast h5
  have h6 : (0 : ℝ) ≤ cntLt sample v := Nat.cast_nonneg _
  constructor <;> linarith

/-- One entry of `transform` on a nonempty sample. -/
theorem RankCDF.entry_spec {d : ℕ} (r : RankCDF d) (column : List ℝ) (hne : column ≠ []) (k : Fin d)
    (hr : r.features k = rankFeature column.length column) (hn : r.nSamples = column.length) (x : ℝ) :
    ∃ v, Closest column x v ∧
      r.entry k x = .ok ((r.distributions.getD k id) (averageRank column v / ((column.length : ℝ) + 1))) := by
  obtain ⟨hs, hm, hrank⟩ := rankFeature_spec column
  obtain ⟨i, y, h1, h2, h3, h4⟩ := argmin_spec
    ((rankFeature column.length column).1.map fun v => |v - x|) (by
      intro h
      rw [List.map_eq_nil_iff] at h
      obtain ⟨c, hc⟩ := List.exists_mem_of_ne_nil _ hne
      have := (hm c).2 hc
      rw [h] at this
      exact absurd this (by simp))
  rw [List.getElem?_map, Option.map_eq_some_iff] at h2
  obtain ⟨v, hv, rfl⟩ := h2
  refine ⟨v, ⟨(hm v).1 (List.mem_of_getElem? hv), ?_, ?_⟩, ?_⟩
  · intro w hw
    exact h3 _ (List.mem_map_of_mem ((hm w).2 hw))
  · intro w hw he
    obtain ⟨j, hj⟩ := List.mem_iff_getElem?.1 ((hm w).2 hw)
    have hij : i ≤ j := h4 j (|w - x|) (by rw [List.getElem?_map, hj]; rfl) (by rw [he]; exact h3)
    obtain ⟨i1, i2⟩ := List.getElem?_eq_some_iff.1 hv
    obtain ⟨j1, j2⟩ := List.getElem?_eq_some_iff.1 hj
    rcases hij.eq_or_lt with h | h
    · subst h
      rw [← i2, ← j2]
    · rw [← i2, ← j2]
      exact (List.pairwise_iff_getElem.1 hs i j i1 j1 h).le
  · unfold RankCDF.entry
    rw [hr, hn]
    simp only [h1, bind_ok, hrank i v hv, pure, Except.pure]

end Irt
