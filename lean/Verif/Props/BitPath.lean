import Verif.Props.Bit
import Verif.Lemmas.Layout

/-! # C28, C29: `Bit.transform_to_1D` -/

namespace Irt

variable {d : ℕ}

/-- `|x - y|`. -/
def absDiff (x y : ℝ) : ℝ := |y - x|

theorem absDiff_pseudo : PseudoDist absDiff :=
  ⟨fun _ _ => abs_nonneg _, fun a b c => by
    unfold absDiff
    rw [abs_sub_comm c a, abs_sub_comm b a, abs_sub_comm c b]
    exact abs_sub_le a b c⟩

theorem zipWith_dropLast_sum (a : ℝ) (l : List ℝ) :
    (List.zipWith (fun x y => |x - y|) l (a :: l).dropLast).sum = varFrom absDiff a l := by
  induction l generalizing a with
  | nil => simp [varFrom]
  | cons b l ih =>
    rw [List.dropLast_cons_cons, List.zipWith_cons_cons, List.sum_cons, ih b, varFrom]
    rfl

theorem rolledVariation_eq (a : ℝ) (l : List ℝ) : rolledVariation (a :: l) = varFrom absDiff a l := by
  unfold rolledVariation
  have h1 : (a :: l).rotate ((a :: l).length - 1) = (a :: l).drop l.length ++ (a :: l).dropLast := by
    rw [List.length_cons, Nat.add_sub_cancel, List.rotate_eq_drop_append_take (by simp), List.dropLast_eq_take,
      List.length_cons, Nat.add_sub_cancel]
  obtain ⟨z, hz⟩ : ∃ z, (a :: l).drop l.length = [z] := by
    have : ((a :: l).drop l.length).length = 1 := by simp
    exact List.length_eq_one_iff.1 this
  simp only [h1, hz, List.singleton_append, List.zipWith_cons_cons, List.set_cons_zero, List.sum_cons, zero_add]
  exact zipWith_dropLast_sum a l

theorem pathColumn_length (n : ℕ) (s gs ge x : ℝ) : (pathColumn n s gs ge x).length = n := by
  simp [pathColumn, length_linspace01]

theorem pathColumn_zero (n : ℕ) (hn : 0 < n) (s gs ge x : ℝ) : (pathColumn n s gs ge x).getD 0 0 = s := by
  have h := pathColumn_length n s gs ge x
  unfold pathColumn at h ⊢
  rw [List.length_set] at h
  rw [List.getD_eq_getElem?_getD, List.getElem?_set_self (by rw [h]; exact hn)]
  rfl

theorem pathColumn_const (n : ℕ) (s gs ge : ℝ) (j : ℕ) (hj : j < n) : (pathColumn n s gs ge s).getD j 0 = s := by
  have hmem : ∀ y ∈ pathColumn n s gs ge s, y = s := by
    intro y hy
    unfold pathColumn at hy
    simp only at hy
    rcases List.mem_or_eq_of_mem_set hy with hy | hy
    · obtain ⟨i, hi⟩ := List.mem_iff_getElem?.1 hy
      rw [List.getElem?_modify, Option.map_eq_map, Option.map_eq_some_iff] at hi
      obtain ⟨z, hz, hy⟩ := hi
      rw [List.getElem?_map, Option.map_eq_some_iff] at hz
      obtain ⟨w, hw, hz⟩ := hz
      rw [List.getElem?_map, Option.map_eq_some_iff] at hw
      obtain ⟨v, hv, hw⟩ := hw
      rw [List.getElem?_map, Option.map_eq_some_iff] at hv
      obtain ⟨r, hr, hv⟩ := hv
      have hr01 : 0 ≤ r ∧ r ≤ 1 := by
        have hin := (List.getElem?_eq_some_iff.1 hr).1
        rw [length_linspace01] at hin
        rw [linspace01_getElem? _ _ hin] at hr
        have := Option.some.inj hr
        subst this
        rcases Nat.lt_or_ge n 2 with h2 | h2
        · have : i = 0 := by omega
          subst this; simp
        · have hn2 : (2 : ℝ) ≤ n := by exact_mod_cast h2
          have hi' : (i : ℝ) ≤ n - 1 := by
            have : i ≤ n - 1 := by omega
            have h3 : ((i : ℕ) : ℝ) ≤ ((n - 1 : ℕ) : ℝ) := by exact_mod_cast this
            rwa [Nat.cast_sub (by omega), Nat.cast_one] at h3
          exact ⟨div_nonneg (Nat.cast_nonneg _) (by linarith), by rw [div_le_one (by linarith)]; exact hi'⟩
      have hzs : z = s := by
        rw [← hz]
        apply max_eq_right
        rw [← hw]
        split_ifs with hlt
        · exact le_rfl
        · rw [← hv]
          have hgs : gs ≤ s := not_lt.1 hlt
          rw [max_eq_left hgs]
          have hc : min s ge ≤ s := min_le_left _ _
          nlinarith
      rw [hzs] at hy
      split_ifs at hy <;> exact hy.symm
    · exact hy
  have hlen := pathColumn_length n s gs ge s
  rw [List.getD_eq_getElem _ _ (by rw [hlen]; exact hj)]
  exact hmem _ (List.getElem_mem _)

theorem pathColumn_last (n : ℕ) (hn : 2 ≤ n) (s gs ge x : ℝ) (hs : s ≤ x) :
    (pathColumn n s gs ge x).getD (n - 1) 0 = x := by
  unfold pathColumn
  simp only
  rw [List.getD_eq_getElem?_getD, List.getElem?_set_ne (by omega), List.getElem?_modify]
  simp only [if_true]
  rw [List.getElem?_map, List.getElem?_map, List.getElem?_map, linspace01_getElem? _ _ (by omega)]
  have h2 : (2 : ℝ) ≤ n := by exact_mod_cast hn
  have h1 : ((n - 1 : ℕ) : ℝ) / ((n : ℝ) - 1) = 1 := by
    rw [Nat.cast_sub (by omega), Nat.cast_one, div_self (by linarith)]
  rw [h1]
  simp only [Option.map_some, Option.map_eq_map, Option.getD_some, one_mul, add_sub_cancel]
  split_ifs with ha hb
  · rfl
  · exact max_eq_left hs
  · have h3 : gs ≤ x := not_lt.1 hb
    have h4 : x ≤ ge := not_lt.1 ha
    rw [max_eq_left h3, min_eq_left h4]
    exact max_eq_left hs

/-- Position `j` of the path of an adjusted row. -/
noncomputable def Bit.pathPoint (b : Bit d) (gs ge : Fin d → ℝ) (t : Fin d → ℝ) (j : ℕ) : Fin d → ℝ :=
  fun k => (pathColumn b.gridPoints (b.startAdj k) (gs k) (ge k) (t k)).getD j 0 * b.multiplier k

theorem Bit.pathScores_eq (b : Bit d) (hb : b.Usable) (gs ge : Fin d → ℝ) (adjusted : Thetas d) :
    b.pathScores gs ge adjusted = .ok (adjusted.map fun t => (b.items.map fun i =>
      varFrom absDiff (b.itemEntropy i (b.pathPoint gs ge t 0))
        ((List.range (b.gridPoints - 1)).map fun j => b.itemEntropy i (b.pathPoint gs ge t (j + 1)))).sum) := by
  unfold Bit.pathScores
  set stacked : Thetas d := adjusted.flatMap fun t => (List.range b.gridPoints).map fun j (k : Fin d) =>
      (pathColumn b.gridPoints (b.startAdj k) (gs k) (ge k) (t k)).getD j 0 with hst
  have hE : stacked.mapM (fun t => b.itemEntropies fun k => t k * b.multiplier k)
      = .ok (stacked.map fun t => b.items.map fun i => b.itemEntropy i fun k => t k * b.multiplier k) :=
    mapM_ok _ _ _ fun t _ => b.itemEntropies_eq hb _
  simp only [hE, bind_ok, pure, Except.pure]
  have hflat : (stacked.map fun t => b.items.map fun i => b.itemEntropy i fun k => t k * b.multiplier k)
      = (adjusted.map fun t => (List.range b.gridPoints).map fun j =>
          b.items.map fun i => b.itemEntropy i (b.pathPoint gs ge t j)).flatten := by
    rw [hst, List.map_flatMap, List.flatMap_def]
    congr 1
    apply List.map_congr_left
    intro t _
    rw [List.map_map]
    rfl
  have hview := viewRows_flatten b.gridPoints (adjusted.map fun t => (List.range b.gridPoints).map fun j =>
          b.items.map fun i => b.itemEntropy i (b.pathPoint gs ge t j)) (by
      intro r hr
      obtain ⟨t, -, rfl⟩ := List.mem_map.1 hr
      simp)
  rw [List.length_map] at hview
  rw [hflat, hview, List.map_map]
  congr 1
  apply List.map_congr_left
  intro t _
  simp only [Function.comp]
  congr 1
  apply List.ext_getElem
  · simp
  · intro i h1 h2
    have hi : i < b.items.length := by simpa using h2
    rw [List.getElem_map, List.getElem_map, List.getElem_range, List.map_map]
    have hr : List.range b.gridPoints = List.range (b.gridPoints - 1 + 1) := by
      congr 1
      have := hb.grid
      omega
    rw [hr, List.range_succ_eq_map, List.map_cons, rolledVariation_eq, List.map_map]
    have he : ∀ j, ((fun r : List ℝ => r.getD i 0) ∘ fun j =>
        b.items.map fun i => b.itemEntropy i (b.pathPoint gs ge t j)) j
          = b.itemEntropy b.items[i] (b.pathPoint gs ge t j) := by
      intro j
      simp only [Function.comp]
      rw [List.getD_eq_getElem _ _ (by simpa using hi), List.getElem_map]
    congr 1
    · exact he 0
    · apply List.map_congr_left
      intro j _
      exact he (j + 1)

theorem Bit.multiplier_sq (b : Bit d) (k : Fin d) : b.multiplier k * b.multiplier k = 1 := by
  unfold Bit.multiplier invertMultiplier
  split_ifs <;> norm_num

/-- For a model with one latent variable `transform_to_1D` is `transform`. -/
theorem C28_to_1D_one_dimensional (b : Bit 1) (θ θ' : Thetas 1) (h : b.transform θ = .ok θ') :
    b.transformTo1D θ = .ok (θ'.map fun t => t 0) := by
  unfold Bit.transformTo1D
  rw [dif_pos rfl, h]
  rfl

/-- `transform_to_1D` of a multidimensional model treats every respondent by itself; a score is nonnegative,
zero when no latent variable is beyond the starting theta, and at least the net change of the item entropies
between the starting theta and the respondent (with at least two grid points). -/
theorem C28_to_1D (b : Bit d) (hd : d ≠ 1) (hb : b.Usable) :
    ∃ B : (Fin d → ℝ) → ℝ, (∀ θ, b.transformTo1D θ = .ok (θ.map B)) ∧ ∀ t, 0 ≤ B t ∧
      ((∀ k, t k * b.multiplier k ≤ b.startTheta k * b.multiplier k) → B t = 0) ∧
      (2 ≤ b.gridPoints → (∀ k, b.startTheta k * b.multiplier k ≤ t k * b.multiplier k) →
        (b.items.map fun i => |b.itemEntropy i t - b.itemEntropy i b.startTheta|).sum ≤ B t) := by
  obtain ⟨gs, ge, med, hset⟩ := b.gridSetup_ok hb
  refine ⟨fun t => (b.items.map fun i =>
      varFrom absDiff (b.itemEntropy i (b.pathPoint gs ge (b.adjust t) 0))
        ((List.range (b.gridPoints - 1)).map fun j =>
          b.itemEntropy i (b.pathPoint gs ge (b.adjust t) (j + 1)))).sum, ?_, ?_⟩
  · intro θ
    unfold Bit.transformTo1D
    rw [dif_neg hd, hset]
    simp only [bind_ok]
    rw [b.pathScores_eq hb, List.map_map]
    rfl
  · intro t
    have hzero : b.pathPoint gs ge (b.adjust t) 0 = b.startTheta := by
      funext k
      unfold Bit.pathPoint
      rw [pathColumn_zero _ hb.grid]
      unfold Bit.startAdj
      rw [mul_assoc, b.multiplier_sq, mul_one]
    refine ⟨?_, ?_, ?_⟩
    · apply List.sum_nonneg
      intro x hx
      obtain ⟨i, -, rfl⟩ := List.mem_map.1 hx
      exact varFrom_nonneg absDiff_pseudo _ _
    · intro hle
      have hadj : b.adjust t = b.startAdj := by
        funext k
        exact max_eq_right (hle k)
      have hall : ∀ j, j < b.gridPoints → b.pathPoint gs ge (b.adjust t) j = b.startTheta := by
        intro j hj
        funext k
        unfold Bit.pathPoint
        rw [hadj, pathColumn_const _ _ _ _ _ hj]
        unfold Bit.startAdj
        rw [mul_assoc, b.multiplier_sq, mul_one]
      apply List.sum_eq_zero
      intro x hx
      obtain ⟨i, -, rfl⟩ := List.mem_map.1 hx
      rw [hzero]
      have : (List.range (b.gridPoints - 1)).map (fun j => b.itemEntropy i (b.pathPoint gs ge (b.adjust t) (j + 1)))
          = List.replicate (b.gridPoints - 1) (b.itemEntropy i b.startTheta) := by
        rw [List.eq_replicate_iff]
        refine ⟨by simp, ?_⟩
        intro y hy
        obtain ⟨j, hj, rfl⟩ := List.mem_map.1 hy
        rw [hall (j + 1) (by have := List.mem_range.1 hj; omega)]
      rw [this]
      have hconst : ∀ (m : ℕ) (c : ℝ), varFrom absDiff c (List.replicate m c) = 0 := by
        intro m c
        induction m with
        | zero => rfl
        | succ m ih => rw [List.replicate_succ, varFrom, ih]; simp [absDiff]
      exact hconst _ _
    · intro hn hle
      have hlast : b.pathPoint gs ge (b.adjust t) (b.gridPoints - 1) = t := by
        funext k
        unfold Bit.pathPoint
        rw [pathColumn_last _ hn _ _ _ _ (show b.startAdj k ≤ b.adjust t k from le_max_right _ _)]
        unfold Bit.adjust
        rw [max_eq_left (show b.startAdj k ≤ t k * b.multiplier k from hle k), mul_assoc, b.multiplier_sq, mul_one]
      apply List.sum_le_sum
      intro i _
      rw [hzero]
      have hsub : [b.itemEntropy i t].Sublist ((List.range (b.gridPoints - 1)).map fun j =>
          b.itemEntropy i (b.pathPoint gs ge (b.adjust t) (j + 1))) := by
        rw [List.singleton_sublist, List.mem_map]
        refine ⟨b.gridPoints - 2, List.mem_range.2 (by omega), ?_⟩
        rw [show b.gridPoints - 2 + 1 = b.gridPoints - 1 by omega, hlast]
      have := varFrom_sublist absDiff_pseudo hsub (b.itemEntropy i b.startTheta)
      simpa [varFrom, absDiff] using this

/-- In a multidimensional model the one-dimensional bit scores of a respondent are the same in every batch. -/
theorem C29_to_1D_partial (b : Bit d) (hd : d ≠ 1) (hb : b.Usable) (θ : Thetas d) (i : ℕ) (t : Fin d → ℝ)
    (hi : θ[i]? = some t) :
    ∃ out r, b.transformTo1D θ = .ok out ∧ out[i]? = some r ∧ b.transformTo1D [t] = .ok [r] := by
  obtain ⟨B, hB, -⟩ := C28_to_1D b hd hb
  exact ⟨_, B t, hB θ, by rw [List.getElem?_map, hi]; rfl, hB [t]⟩

/-- An empty batch is refused by `transform` unless the grid has a single point: `bits[-0:]` is the whole
grid. -/
theorem C28_empty_batch (b : Bit d) (hd : 0 < d) (hb : b.Usable) (hg : 2 ≤ b.gridPoints) :
    b.transform [] = .error .runtimeError := by
  obtain ⟨gs, ge, med, hset⟩ := b.gridSetup_ok hb
  obtain ⟨e, rfl⟩ : ∃ e, d = e + 1 := ⟨d - 1, by omega⟩
  unfold Bit.transform
  rw [hset]
  simp only [bind_ok]
  have hc : b.columnScores med 0 (b.startAdj 0) (gs 0) (ge 0) [] = .error .runtimeError := by
    unfold Bit.columnScores
    obtain ⟨pre, hpre, -⟩ := gridColumn_props b hb.grid (b.startAdj 0) (gs 0) (ge 0) [] (by simp)
    have hlen : (b.gridColumn (b.startAdj 0) (gs 0) (ge 0) []).length = b.gridPoints := by
      unfold Bit.gridColumn
      simp [length_linspace01]
    set g := b.gridColumn (b.startAdj 0) (gs 0) (ge 0) [] with hg'
    have hmap : ((uniqueInverse ((argsort g).map fun i => g.getD i 0)).1).mapM (fun x =>
        b.itemEntropies fun k => (if k = 0 then x else med k) * b.multiplier k)
        = .ok ((gridPts g).map fun x => b.items.map fun i => b.itemEntropy i
          fun k => (if k = 0 then x else med k) * b.multiplier k) :=
      mapM_ok _ _ _ fun x _ => b.itemEntropies_eq hb _
    simp only [hmap, bind_ok]
    have hsz : ∀ (f : ℕ → ℝ), (lastSlice ([] : List ℝ).length ((argsortNat (argsort g)).map f)).length = b.gridPoints := by
      intro f
      unfold lastSlice
      rw [if_pos (List.length_nil), List.length_map, (argsortNat_perm _).length_eq, List.length_range, (argsort_perm _).length_eq,
        List.length_range, hlen]
    rw [if_neg (by rw [hsz]; simp; omega), if_neg (by rw [hsz]; omega)]
  rw [List.finRange_succ, List.mapM_cons]
  simp only [List.map_nil]
  rw [hc]
  rfl

end Irt
