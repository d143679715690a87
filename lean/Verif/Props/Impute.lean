import Verif.Lemmas.Data
import Mathlib.Tactic.NormNum
import Mathlib.Tactic.IntervalCases

/-!
# C36, C37, C38: imputation and inferred category counts
-/

namespace Irt

/-- Specification: `out` has the shape of `data`, and every observed response is kept. -/
def KeepsObserved (data out : List (List Num)) : Prop :=
  out.length = data.length ∧ ∀ (n : ℕ) r, data[n]? = some r → ∃ r', out[n]? = some r' ∧
    r'.length = r.length ∧ ∀ (i : ℕ) x, r[i]? = some x → ¬ Missing x → r'[i]? = some x

/-- Specification: the missing cells of `data` hold in `out` a number with property `P`. -/
def MissingFilledWith (data out : List (List Num)) (P : ℕ → ℝ → Prop) : Prop :=
  ∀ (n i : ℕ) r x, data[n]? = some r → r[i]? = some x → Missing x →
    ∃ r' v, out[n]? = some r' ∧ r'[i]? = some (some v) ∧ P i v

/-- Filling each column's missing cells from a per-column value. -/
theorem fill_keeps (data : List (List Num)) (fill : ℕ → Num) :
    KeepsObserved data ((data.map fun r => r.map negOneToNaN).map (fillRow fill)) := by
  refine ⟨by simp, ?_⟩
  intro n r hr
  refine ⟨fillRow fill (r.map negOneToNaN), by simp [hr], by simp [fillRow], ?_⟩
  intro i x hx hm
  rw [fillRow_getElem?, List.getElem?_map, hx]
  simp only [Option.map_some]
  rw [negOneToNaN_observed x hm]
  cases x with
  | none => exact absurd (Or.inl rfl) hm
  | some v => rfl

theorem fill_missing (data : List (List Num)) (fill : ℕ → Num) (P : ℕ → ℝ → Prop)
    (h : ∀ (n i : ℕ) r x, data[n]? = some r → r[i]? = some x → Missing x → ∃ v, fill i = some v ∧ P i v) :
    MissingFilledWith data ((data.map fun r => r.map negOneToNaN).map (fillRow fill)) P := by
  intro n i r x hr hx hm
  obtain ⟨v, hv, hP⟩ := h n i r x hr hx hm
  refine ⟨fillRow fill (r.map negOneToNaN), v, by simp [hr], ?_, hP⟩
  rw [fillRow_getElem?, List.getElem?_map, hx]
  simp only [Option.map_some]
  rw [negOneToNaN_missing x hm, hv]

/-- C36, zero imputation: observed responses are kept and every missing cell becomes 0. -/
theorem C36_zero (width : ℕ) (data : List (List Num)) (model : Option ImputeModel)
    (mc cats : Option (List ℤ)) (draw : ℕ → ℕ → ℕ) :
    ∃ out, imputeMissing width data "zero" model mc cats draw = .ok out ∧
      KeepsObserved data out ∧ MissingFilledWith data out (fun _ v => v = 0) := by
  refine ⟨_, by simp only [imputeMissing, if_true]; rfl, fill_keeps _ _, ?_⟩
  exact fill_missing _ _ _ fun _ _ _ _ _ _ _ => ⟨0, rfl, rfl⟩

/-- Observed values of column `j`, in row order. -/
noncomputable def observedValues (data : List (List Num)) (j : ℕ) : List ℝ :=
  data.filterMap fun r => match r[j]? with
    | some (some v) => if v = -1 then none else some v
    | _ => none

theorem observedValues_eq (data : List (List Num)) (j : ℕ) :
    (column (data.map fun r => r.map negOneToNaN) j).filterMap id = observedValues data j := by
  simp only [column, observedValues, List.map_map, List.filterMap_map]
  congr 1
  funext r
  simp only [Function.comp, id, List.getD_eq_getElem?_getD, List.getElem?_map]
  rcases r[j]? with _ | x
  · rfl
  · cases x with
    | none => rfl
    | some v =>
      by_cases h : v = -1 <;> simp [negOneToNaN, h]

theorem nanMean_eq (data : List (List Num)) (j : ℕ) (h : observedValues data j ≠ []) :
    nanMean (column (data.map fun r => r.map negOneToNaN) j) =
      some ((observedValues data j).sum / (observedValues data j).length) := by
  unfold nanMean
  rw [observedValues_eq]
  obtain ⟨y, ys, e⟩ := List.exists_cons_of_ne_nil h
  rw [e]

/-- C36, mean imputation: observed responses are kept; in a column with an observation every missing cell
becomes the mean of the observed values. -/
theorem C36_mean (width : ℕ) (data : List (List Num)) (model : Option ImputeModel)
    (mc cats : Option (List ℤ)) (draw : ℕ → ℕ → ℕ) :
    ∃ out, imputeMissing width data "mean" model mc cats draw = .ok out ∧
      KeepsObserved data out ∧
      ∀ (n i : ℕ) r x, data[n]? = some r → r[i]? = some x → Missing x → observedValues data i ≠ [] →
        ∃ r', out[n]? = some r' ∧
          r'[i]? = some (some ((observedValues data i).sum / (observedValues data i).length)) := by
  refine ⟨_, by simp only [imputeMissing, if_true]; rfl, fill_keeps _ _, ?_⟩
  intro n i r x hr hx hm hne
  refine ⟨_, by simp [hr]; rfl, ?_⟩
  rw [fillRow_getElem?, List.getElem?_map, hx]
  simp only [Option.map_some]
  rw [negOneToNaN_missing x hm, nanMean_eq data i hne]

theorem sum_getD_mean (xs : List Num) (m : ℝ) :
    (xs.map fun x => x.getD m).sum =
      (xs.filterMap id).sum + ((xs.length : ℝ) - ((xs.filterMap id).length : ℝ)) * m := by
  induction xs with
  | nil => simp
  | cons a l ih =>
    cases a with
    | none =>
      simp only [List.map_cons, List.sum_cons, Option.getD_none, List.filterMap_cons, id,
        List.length_cons, ih]
      push_cast; ring
    | some v =>
      simp only [List.map_cons, List.sum_cons, Option.getD_some, List.filterMap_cons, id,
        List.length_cons, ih]
      push_cast; ring

/-- C36, mean imputation keeps the column means: for a data matrix with `width` columns and a column with
an observation, the mean of the completed column equals the mean of its observed values. -/
theorem C36_mean_keeps_means (width : ℕ) (data : List (List Num)) (model : Option ImputeModel)
    (mc cats : Option (List ℤ)) (draw : ℕ → ℕ → ℕ) (hw : ∀ r ∈ data, r.length = width) (j : ℕ)
    (hj : j < width) (hne : observedValues data j ≠ []) (out : List (List Num))
    (hout : imputeMissing width data "mean" model mc cats draw = .ok out) :
    ∃ vals : List ℝ, column out j = vals.map some ∧ vals.length = data.length ∧
      vals.sum / vals.length = (observedValues data j).sum / (observedValues data j).length := by
  have hout' : out = (data.map fun r => r.map negOneToNaN).map
      (fillRow fun j => nanMean (column (data.map fun r => r.map negOneToNaN) j)) := by
    simp only [imputeMissing, if_true] at hout
    injection hout with hout
    exact hout.symm
  set m := (observedValues data j).sum / (observedValues data j).length with hm
  set xs := column (data.map fun r => r.map negOneToNaN) j with hxs
  refine ⟨xs.map fun x => x.getD m, ?_, by simp [hxs, column], ?_⟩
  · rw [hout', hxs]
    simp only [column, List.map_map]
    refine List.map_congr_left fun r hr => ?_
    simp only [Function.comp, List.getD_eq_getElem?_getD]
    rw [fillRow_getElem?]
    have hlt : j < (r.map negOneToNaN).length := by rw [List.length_map, hw r hr]; exact hj
    rw [List.getElem?_eq_getElem hlt]
    simp only [Option.map_some, Option.getD_some]
    have hmean := nanMean_eq data j hne
    rw [← hm] at hmean
    cases (r.map negOneToNaN)[j] with
    | none => simpa [column] using hmean
    | some v => rfl
  · have hlen : 0 < (observedValues data j).length := List.length_pos_of_ne_nil hne
    have hs := sum_getD_mean xs m
    have hobs : xs.filterMap id = observedValues data j := observedValues_eq data j
    rw [hobs] at hs
    have hsum : (observedValues data j).sum = (observedValues data j).length * m := by
      rw [hm]
      have : ((observedValues data j).length : ℝ) ≠ 0 := by exact_mod_cast hlen.ne'
      field_simp
    have hxl : 0 < xs.length := by
      rcases Nat.eq_zero_or_pos xs.length with h0 | h0
      · rw [List.length_eq_zero_iff] at h0
        rw [h0] at hobs
        simp only [List.filterMap_nil] at hobs
        exact absurd hobs.symm hne
      · exact h0
    rw [List.length_map, hs, hsum]
    have : (xs.length : ℝ) ≠ 0 := by exact_mod_cast hxl.ne'
    field_simp
    ring

/-- C36: the values imputed by the mean are never read as missing again when responses are nonnegative. -/
theorem C36_mean_not_missing (data : List (List Num)) (j : ℕ)
    (hnn : ∀ v ∈ observedValues data j, 0 ≤ v) :
    ¬ Missing (some ((observedValues data j).sum / (observedValues data j).length)) := by
  rintro (h | h)
  · simp at h
  · have h1 : 0 ≤ (observedValues data j).sum := List.sum_nonneg hnn
    have h2 := Option.some.inj h
    have : (0 : ℝ) ≤ (observedValues data j).sum / (observedValues data j).length := by positivity
    linarith

theorem mem_incorrectValues (c : ℕ) (key : ℤ) (k : ℕ) :
    k ∈ incorrectValues c key ↔ k < c ∧ (k : ℤ) ≠ key := by
  simp [incorrectValues]

/-- The cell the drawn index selects (helper of the proof below). -/
noncomputable def pickCell (c : ℕ) (key : ℤ) (draw : ℕ) (x : Num) : Option (ℕ ⊕ ℝ) :=
  match x with
  | none => ((incorrectValues c key)[draw]?).map .inl
  | some v => some (.inr v)

/-- C36, random incorrect imputation (either implementation, key and counts given): for two or more
respondents, one count and one key per item, an item with at least one category besides the key, and any
draws within range, observed responses are kept and every missing cell gets a category of the item other
than the key. -/
theorem C36_random_incorrect (width : ℕ) (data : List (List Num)) (mc : List ℤ) (cats : List ℕ)
    (draw : ℕ → ℕ → ℕ) (hn : data.length ≠ 1) (hw : ∀ r ∈ data, r.length = width)
    (hmc : mc.length = width) (hcats : cats.length = width)
    (hdraw : ∀ j c key i, cats[j]? = some c → mc[j]? = some key →
      draw j i < (incorrectValues c key).length) :
    ∃ out, imputeMissing width data "random incorrect" none (some mc)
        (some (cats.map fun c : ℕ => (c : ℤ))) draw = .ok out ∧
      imputeMissingInternal width data "random incorrect" (some mc)
        (some (cats.map fun c : ℕ => (c : ℤ))) draw = .ok out ∧
      KeepsObserved data out ∧
      MissingFilledWith data out (fun j v => ∃ k c : ℕ, v = k ∧ cats[j]? = some c ∧ k < c ∧
        mc[j]? ≠ some (k : ℤ)) := by
  set d := data.map fun r => r.map negOneToNaN with hd
  have hdl : d.length = data.length := by simp [hd]
  -- value put in row i, column j
  set val : ℕ → ℕ → Num → Num := fun j i x => match x with
    | none => ((incorrectValues (cats.getD j 0) (mc.getD j 0))[draw j i]?).map fun k : ℕ => (k : ℝ)
    | some v => some v with hval
  have hcol : ∀ j ∈ List.range width,
      randomColumn (((cats.map fun c : ℕ => (c : ℤ)).map some).getD j none) (mc.getD j 0) (draw j)
        (column d j) = .ok ((column d j).mapIdx fun i x =>
          pickCell (cats.getD j 0) (mc.getD j 0) (draw j i) x) := by
    intro j hj
    rw [List.mem_range] at hj
    have hjc : j < cats.length := by omega
    have hjm : j < mc.length := by omega
    have e1 : ((cats.map fun c : ℕ => (c : ℤ)).map some).getD j none = some ((cats.getD j 0 : ℕ) : ℤ) := by
      simp [List.getD_eq_getElem?_getD, List.getElem?_eq_getElem hjc]
    rw [e1]
    unfold randomColumn
    simp only
    rw [if_neg (by omega)]
    have hne : incorrectValues (((cats.getD j 0 : ℕ) : ℤ).toNat) (mc.getD j 0) ≠ [] := by
      intro h0
      have := hdraw j cats[j] mc[j] 0 (List.getElem?_eq_getElem hjc) (List.getElem?_eq_getElem hjm)
      rw [List.getD_eq_getElem _ _ hjc, List.getD_eq_getElem _ _ hjm, Int.toNat_natCast] at h0
      rw [h0] at this
      simp at this
    rw [if_neg hne, Int.toNat_natCast]
    rfl
  have hrand : randomIncorrect width ((cats.map fun c : ℕ => (c : ℤ)).map some) mc draw d =
      .ok (ofColumns d.length (((List.range width).map fun j => (column d j).mapIdx fun i x =>
        pickCell (cats.getD j 0) (mc.getD j 0) (draw j i) x).map fun c => c.map filledValue)) := by
    unfold randomIncorrect
    rw [if_neg (by rw [hdl]; tauto), if_neg (by simp [hmc, hcats]), mapM_ok _ _ _ hcol]
    rfl
  have hB := hrand
  have hA := hrand
  rw [show randomIncorrect width ((cats.map fun c : ℕ => (c : ℤ)).map some) mc draw d =
    imputeMissing width data "random incorrect" none (some mc)
      (some (cats.map fun c : ℕ => (c : ℤ))) draw by
    unfold imputeMissing; simp only [String.reduceEq, if_false, if_true]; rfl] at hA
  rw [show randomIncorrect width ((cats.map fun c : ℕ => (c : ℤ)).map some) mc draw d =
    imputeMissingInternal width data "random incorrect" (some mc)
      (some (cats.map fun c : ℕ => (c : ℤ))) draw by
    unfold imputeMissingInternal; simp only [String.reduceEq, if_false, if_true]; rfl] at hB
  have hentry : ∀ (n : ℕ) r, data[n]? = some r → ∃ r', (ofColumns d.length
      (((List.range width).map fun j => (column d j).mapIdx fun i x =>
        pickCell (cats.getD j 0) (mc.getD j 0) (draw j i) x).map fun c => c.map filledValue))[n]? = some r' ∧
      r'.length = width ∧ ∀ (i : ℕ) x, i < width → r[i]? = some x → r'[i]? = some (val i n (negOneToNaN x)) := by
    intro n r hr
    have hnlt : n < data.length := (List.getElem?_eq_some_iff.1 hr).1
    refine ⟨_, by
      simp only [ofColumns, List.getElem?_map]
      rw [List.getElem?_range (by rw [hdl]; exact hnlt)]
      rfl, by simp, ?_⟩
    intro i x hi hx
    simp only [List.getElem?_map, List.getElem?_range hi, Option.map_some]
    congr 1
    have hcn : (column d i)[n]? = some (negOneToNaN x) := by
      simp [column, hd, hr, List.getD_eq_getElem?_getD, hx]
    rw [List.getD_eq_getElem?_getD, List.getElem?_map, List.getElem?_mapIdx, hcn]
    simp only [Option.map_some, Option.getD_some, hval]
    cases negOneToNaN x with
    | none =>
      simp only [pickCell]
      cases (incorrectValues (cats.getD i 0) (mc.getD i 0))[draw i n]? <;> rfl
    | some v => rfl
  refine ⟨_, hA, hB, ?_, ?_⟩
  · refine ⟨by simp [ofColumns, hdl], ?_⟩
    intro n r hr
    obtain ⟨r', h1, h2, h3⟩ := hentry n r hr
    have hrl := hw r (List.mem_of_getElem? hr)
    refine ⟨r', h1, by rw [h2, hrl], ?_⟩
    intro i x hx hm
    have hi : i < width := by rw [← hrl]; exact (List.getElem?_eq_some_iff.1 hx).1
    rw [h3 i x hi hx, negOneToNaN_observed x hm]
    cases x with
    | none => exact absurd (Or.inl rfl) hm
    | some v => rfl
  · intro n i r x hr hx hm
    obtain ⟨r', h1, h2, h3⟩ := hentry n r hr
    have hrl := hw r (List.mem_of_getElem? hr)
    have hi : i < width := by rw [← hrl]; exact (List.getElem?_eq_some_iff.1 hx).1
    have hic : i < cats.length := by omega
    have him : i < mc.length := by omega
    have hdr := hdraw i cats[i] mc[i] n (List.getElem?_eq_getElem hic) (List.getElem?_eq_getElem him)
    have hmem := List.getElem_mem hdr
    rw [mem_incorrectValues] at hmem
    refine ⟨r', (((incorrectValues cats[i] mc[i])[draw i n] : ℕ) : ℝ), h1, ?_, ?_⟩
    · rw [h3 i x hi hx, negOneToNaN_missing x hm]
      simp only [hval]
      rw [List.getD_eq_getElem _ _ hic, List.getD_eq_getElem _ _ him, List.getElem?_eq_getElem hdr]
      rfl
    · refine ⟨_, cats[i], rfl, List.getElem?_eq_getElem hic, hmem.1, ?_⟩
      rw [List.getElem?_eq_getElem him]
      intro h
      exact hmem.2 (Option.some.inj h).symm

/-- C36: an item whose only category is the key has nothing to impute and is refused. -/
example : imputeMissing 1 [[some 0], [none]] "random incorrect" none (some [0]) (some [1]) (fun _ _ => 0) =
    .error .runtimeError := by
  simp [imputeMissing, randomIncorrect, randomColumn, incorrectValues, List.range_succ]

/-- C36, a gap of the code: with a single respondent and two or more items random incorrect imputation
fails whatever the data. -/
theorem C36_single_respondent_refused (width : ℕ) (r : List Num) (mc : List ℤ) (cats : Option (List ℤ))
    (draw : ℕ → ℕ → ℕ) (hw : 1 < width) :
    ∃ e, imputeMissing width [r] "random incorrect" none (some mc) cats draw = .error e := by
  refine ⟨.indexError, ?_⟩
  unfold imputeMissing
  simp only [String.reduceEq, if_false, if_true]
  unfold randomIncorrect
  rw [if_pos (by simp [hw])]

/-- C36, prior expected imputation: for a model without key and one expected score per item, observed
responses are kept and a missing cell gets the rounded expected score of its item. -/
theorem C36_prior_expected (width : ℕ) (data : List (List Num)) (m : ImputeModel)
    (mc cats : Option (List ℤ)) (draw : ℕ → ℕ → ℕ) (hm : m.mcCorrect = none)
    (hw : ∀ r ∈ data, r.length = width) (hp : m.priorScores.length = width) :
    ∃ out, imputeMissing width data "prior expected" (some m) mc cats draw = .ok out ∧
      KeepsObserved data out ∧
      MissingFilledWith data out (fun j v => ∃ s, m.priorScores[j]? = some s ∧ v = (torchRound s : ℝ)) := by
  refine ⟨_, by simp only [imputeMissing, String.reduceEq, if_false, if_true, hm]; rfl,
    fill_keeps _ _, ?_⟩
  refine fill_missing _ _ _ ?_
  intro n i r x hr hx _
  have hi : i < m.priorScores.length := by
    rw [hp, ← hw r (List.mem_of_getElem? hr)]; exact (List.getElem?_eq_some_iff.1 hx).1
  exact ⟨_, by rw [List.getElem?_eq_getElem hi]; rfl, _, List.getElem?_eq_getElem hi, rfl⟩

/-- C36: an unknown method is refused — including the spelling `random_incorrect` that the docstring lists
among the options. -/
theorem C36_unknown_method (width : ℕ) (data : List (List Num)) (method : String)
    (model : Option ImputeModel) (mc cats : Option (List ℤ)) (draw : ℕ → ℕ → ℕ)
    (h : method ∉ ["zero", "mean", "random incorrect", "prior expected"]) :
    imputeMissing width data method model mc cats draw = .error .valueError ∧
    imputeMissingInternal width data method mc cats draw = .error .valueError := by
  simp only [List.mem_cons, List.not_mem_nil, or_false, not_or] at h
  constructor
  · simp [imputeMissing, h]
  · simp [imputeMissingInternal, h]

example : imputeMissing 1 [[none]] "random_incorrect" none (some [0]) (some [2]) (fun _ _ => 0) =
    .error .valueError := (C36_unknown_method 1 _ _ none _ _ _ (by decide)).1

/-- C36: the internal and the public function agree on the methods they share. -/
theorem C36_implementations_agree (width : ℕ) (data : List (List Num)) (method : String)
    (mc cats : Option (List ℤ)) (draw : ℕ → ℕ → ℕ) (h : method ≠ "prior expected") :
    imputeMissing width data method none mc cats draw =
      imputeMissingInternal width data method mc cats draw := by
  simp only [imputeMissing, imputeMissingInternal, h, if_false]

example : ∃ out, imputeMissing 2 [[some 1, none], [some 2, some 4], [some (-1), some 2]] "mean" none none none
    (fun _ _ => 0) = .ok out ∧ KeepsObserved [[some 1, none], [some 2, some 4], [some (-1), some 2]] out ∧
    ∃ r', out[0]? = some r' ∧ r'[1]? = some (some 3) := by
  obtain ⟨out, h1, h2, h3⟩ := C36_mean 2 [[some 1, none], [some 2, some 4], [some (-1), some 2]] none none none
    (fun _ _ => 0)
  have ho : observedValues [[some 1, none], [some 2, some 4], [some (-1), some 2]] 1 = [4, 2] := by
    norm_num [observedValues, List.filterMap_cons]
  obtain ⟨r', h4, h5⟩ := h3 0 1 _ _ rfl rfl (Or.inl rfl) (by rw [ho]; simp)
  refine ⟨out, h1, h2, r', h4, ?_⟩
  rw [h5, ho]; norm_num

example : ∃ out, imputeMissing 2 [[some 1, none], [some 2, some 0]] "random incorrect" none (some [1, 0])
    (some [3, 2]) (fun _ _ => 0) = .ok out ∧ ∃ r', out[0]? = some r' ∧ r'[1]? = some (some 1) := by
  obtain ⟨out, h1, _, _, h4⟩ := C36_random_incorrect 2 [[some 1, none], [some 2, some 0]] [1, 0] [3, 2]
    (fun _ _ => 0) (by simp) (by simp) rfl rfl (by
      intro j c key i hc hk
      have : j < 2 := (List.getElem?_eq_some_iff.1 hc).1
      interval_cases j <;> simp at hc hk <;> subst hc hk <;> decide)
  refine ⟨out, h1, ?_⟩
  obtain ⟨r', v, hr', hv, k, c, hk, hc, hlt, hne⟩ := h4 0 1 _ _ rfl rfl (Or.inl rfl)
  refine ⟨r', hr', ?_⟩
  have hc' : 2 = c := by simpa using hc
  have hne' : k ≠ 0 := by rintro rfl; exact hne rfl
  have : k = 1 := by omega
  rw [hv, hk, this]; norm_num

/-! ## C37 -/

/-- The full property. -/
def RandomIncorrectUsableWithModel : Prop :=
  ∀ (width : ℕ) (data : List (List Num)) (m : ImputeModel) (key : List ℤ) (draw : ℕ → ℕ → ℕ),
    m.mcCorrect = some key → key.length = width → m.cats.length = width →
    ∃ out, imputeMissing width data "random incorrect" (some m) none none draw = .ok out

/-- C37 is false of the code: every model that has a key is refused (the test is inverted). -/
theorem C37_false : ¬ RandomIncorrectUsableWithModel := by
  intro h
  obtain ⟨out, hout⟩ := h 1 [[none], [some 0]] ⟨some [1], [2], [0]⟩ [1] (fun _ _ => 0) rfl rfl rfl
  simp [imputeMissing] at hout

/-- C37, what the code does instead: with a model the call never succeeds on data with an item. -/
theorem C37_never_succeeds (width : ℕ) (data : List (List Num)) (m : ImputeModel)
    (mc cats : Option (List ℤ)) (draw : ℕ → ℕ → ℕ) (hw : 0 < width) :
    ∃ e, imputeMissing width data "random incorrect" (some m) mc cats draw = .error e := by
  unfold imputeMissing
  simp only [String.reduceEq, if_false, if_true]
  rcases m.mcCorrect with _ | k
  · exact ⟨.typeError, by simp [hw.ne']⟩
  · exact ⟨.valueError, rfl⟩

/-! ## C38 -/

/-- C38, the constructors: for a column of responses with at least one observed category, the inferred
count is the largest observed response plus one: larger than every response, and not larger than
needed. (Valid cells: NaN, `-1`, or a natural number.) -/
theorem C38_constructor_counts (xs : List Num) (hv : ∀ x ∈ xs, Missing x ∨ ∃ k : ℕ, x = some (k : ℝ))
    (hobs : ∃ k : ℕ, some (k : ℝ) ∈ xs) :
    ∃ c : ℕ, inferredCategories xs = some (c : ℤ) ∧ (∀ k : ℕ, some (k : ℝ) ∈ xs → k < c) ∧
      some (((c - 1 : ℕ) : ℝ)) ∈ xs ∧ 0 < c := by
  obtain ⟨k0, hk0⟩ := hobs
  rcases hm : colMax xs with _ | m
  · have := (colMax_spec xs).1.1 hm _ hk0
    simp at this
  · obtain ⟨hmem, hle⟩ := (colMax_spec xs).2 m hm
    have hm0 : (0 : ℝ) ≤ m := (Nat.cast_nonneg k0).trans (hle _ hk0)
    obtain ⟨n, hn⟩ : ∃ n : ℕ, m = n := by
      rcases hv _ hmem with (h | h) | ⟨k, hk⟩
      · simp at h
      · have := Option.some.inj h; linarith
      · exact ⟨k, Option.some.inj hk⟩
    subst hn
    refine ⟨n + 1, ?_, ?_, ?_, by omega⟩
    · simp only [inferredCategories, hm, Option.map_some, truncInt_nat_succ]
      push_cast; rfl
    · intro k hk
      have := hle _ hk
      have : k ≤ n := by exact_mod_cast this
      omega
    · simpa using hmem

/-- The property for `get_item_categories`: the count of each item exceeds every observed response. -/
def CategoriesCoverData : Prop :=
  ∀ (cats : List ℕ) (data : List (List Num)), ValidData cats data → ∀ counts,
    getItemCategories cats.length data = .ok counts →
    ∀ (n j : ℕ) r (k : ℕ) c, data[n]? = some r → r[j]? = some (some (k : ℝ)) → counts[j]? = some c →
      (k : ℤ) < c

/-- The data behind the counterexample: the respondent with the highest response skipped another item. -/
theorem exDropped_valid : ValidData [3, 2] [[some 0, some 1], [some 2, none]] := by
  intro r hr
  simp only [List.mem_cons, List.not_mem_nil, or_false] at hr
  rcases hr with rfl | rfl
  · refine ⟨rfl, ?_⟩
    intro i c x hc hx
    have : i < 2 := (List.getElem?_eq_some_iff.1 hx).1
    interval_cases i <;> simp at hc hx <;> subst hc hx
    · exact Or.inr ⟨0, by norm_num, by norm_num⟩
    · exact Or.inr ⟨1, by norm_num, by norm_num⟩
  · refine ⟨rfl, ?_⟩
    intro i c x hc hx
    have : i < 2 := (List.getElem?_eq_some_iff.1 hx).1
    interval_cases i <;> simp at hc hx <;> subst hc hx
    · exact Or.inr ⟨2, by norm_num, by norm_num⟩
    · exact Or.inl (Or.inl rfl)

/-- C38 is false of `get_item_categories`: respondents with any NaN are dropped before the maximum. -/
theorem C38_get_item_categories_false : ¬ CategoriesCoverData := by
  intro h
  have e : getItemCategories 2 [[some 0, some 1], [some 2, none]] = .ok [1, 2] := by
    have t0 := truncInt_nat 0
    have t1 := truncInt_nat 1
    push_cast at t0 t1
    simp [getItemCategories, List.range_succ, List.mapM_cons, column, colMax, maxStep, t0, t1, bind_ok,
      pure, Except.pure]
  have := h [3, 2] _ exDropped_valid [1, 2] e 1 0 _ 2 1 rfl (by norm_num) rfl
  norm_num at this

/-- C38, the part that holds: without NaN in the data (missing coded `-1`) and with an observed response for
every item, `get_item_categories` returns the largest response plus one for each item. -/
theorem C38_get_item_categories_partial (cats : List ℕ) (data : List (List Num))
    (hv : ValidData cats data) (hn : anyNaN data = false)
    (hobs : ∀ j, j < cats.length → ∃ r ∈ data, ∃ k : ℕ, r[j]? = some (some (k : ℝ))) :
    ∃ counts : List ℕ, getItemCategories cats.length data = .ok (counts.map fun c : ℕ => (c : ℤ)) ∧
      counts.length = cats.length ∧ ∀ (j c : ℕ), counts[j]? = some c → 0 < c ∧
        (∀ r ∈ data, ∀ k : ℕ, r[j]? = some (some (k : ℝ)) → k < c) ∧
        (∃ r ∈ data, r[j]? = some (some ((c - 1 : ℕ) : ℝ))) := by
  have hfilter : data.filter (fun r => !(r.any Option.isNone)) = data := by
    rw [List.filter_eq_self]
    intro r hr
    unfold anyNaN at hn
    rw [List.any_eq_false] at hn
    simpa only [Bool.not_eq_true, Bool.not_eq_true'] using hn r hr
  have hcell : ∀ j, j < cats.length → ∃ n : ℕ, colMax (column data j) = some (n : ℝ) ∧
      (∀ r ∈ data, ∀ k : ℕ, r[j]? = some (some (k : ℝ)) → k ≤ n) ∧
      (∃ r ∈ data, r[j]? = some (some (n : ℝ))) := by
    intro j hj
    obtain ⟨r0, hr0, k0, hk0⟩ := hobs j hj
    have hin : ∀ r ∈ data, ∀ v : ℝ, r[j]? = some (some v) → some v ∈ column data j := by
      intro r hr v hx
      refine List.mem_map.2 ⟨r, hr, ?_⟩
      rw [List.getD_eq_getElem?_getD, hx]; rfl
    rcases hm : colMax (column data j) with _ | m
    · have := (colMax_spec _).1.1 hm _ (hin r0 hr0 _ hk0)
      simp at this
    · obtain ⟨hmem, hle⟩ := (colMax_spec _).2 m hm
      have hm0 : (0 : ℝ) ≤ m := (Nat.cast_nonneg k0).trans (hle _ (hin r0 hr0 _ hk0))
      obtain ⟨r1, hr1, hx1⟩ := List.mem_map.1 hmem
      have hlt : j < r1.length := by rw [(hv r1 hr1).1]; exact hj
      have hx1' : r1[j]? = some (some m) := by
        rw [List.getD_eq_getElem _ _ hlt] at hx1
        rw [List.getElem?_eq_getElem hlt, hx1]
      obtain ⟨n, hmn⟩ : ∃ n : ℕ, m = n := by
        rcases (hv r1 hr1).2 j cats[j] _ (List.getElem?_eq_getElem hj) hx1' with (h | h) | ⟨k, _, hk⟩
        · simp at h
        · have := Option.some.inj h; linarith
        · exact ⟨k, Option.some.inj hk⟩
      subst hmn
      refine ⟨n, rfl, ?_, r1, hr1, hx1'⟩
      intro r hr k hk
      exact_mod_cast hle _ (hin r hr _ hk)
  choose! g hg using hcell
  refine ⟨(List.range cats.length).map fun j => g j + 1, ?_, by simp, ?_⟩
  · unfold getItemCategories
    rw [hfilter, List.map_map]
    refine mapM_ok _ _ _ fun j hj => ?_
    rw [List.mem_range] at hj
    rw [(hg j hj).1]
    simp only [truncInt_nat, Function.comp]
    push_cast; rfl
  · intro j c hc
    have hj : j < cats.length := by
      have := (List.getElem?_eq_some_iff.1 hc).1
      simpa using this
    rw [List.getElem?_map, List.getElem?_range hj] at hc
    simp only [Option.map_some, Option.some.injEq] at hc
    subst hc
    obtain ⟨_, h2, h3⟩ := hg j hj
    refine ⟨by omega, fun r hr k hk => ?_, ?_⟩
    · have := h2 r hr k hk; omega
    · simpa using h3

example : ∃ counts : List ℕ, getItemCategories 2 [[some 0, some 1], [some 2, some (-1)]] =
    .ok (counts.map fun c : ℕ => (c : ℤ)) := by
  have hv : ValidData [3, 2] [[some 0, some 1], [some 2, some (-1)]] := by
    intro r hr
    simp only [List.mem_cons, List.not_mem_nil, or_false] at hr
    rcases hr with rfl | rfl
    · refine ⟨rfl, ?_⟩
      intro i c x hc hx
      have : i < 2 := (List.getElem?_eq_some_iff.1 hx).1
      interval_cases i <;> simp at hc hx <;> subst hc hx
      · exact Or.inr ⟨0, by norm_num, by norm_num⟩
      · exact Or.inr ⟨1, by norm_num, by norm_num⟩
    · refine ⟨rfl, ?_⟩
      intro i c x hc hx
      have : i < 2 := (List.getElem?_eq_some_iff.1 hx).1
      interval_cases i <;> simp at hc hx <;> subst hc hx
      · exact Or.inr ⟨2, by norm_num, by norm_num⟩
      · exact Or.inl (Or.inr rfl)
  obtain ⟨counts, h, _⟩ := C38_get_item_categories_partial [3, 2] _ hv (by simp [anyNaN]) (by
    intro j hj
    simp only [List.length_cons, List.length_nil, zero_add] at hj
    interval_cases j
    · exact ⟨_, by simp; exact Or.inr rfl, 2, by norm_num⟩
    · exact ⟨_, by simp; exact Or.inl rfl, 1, by norm_num⟩)
  exact ⟨counts, h⟩

example : ∃ c : ℕ, inferredCategories [some 2, none, some 0] = some (c : ℤ) := by
  obtain ⟨c, h, _⟩ := C38_constructor_counts [some 2, none, some 0] (by
    intro x hx
    simp only [List.mem_cons, List.not_mem_nil, or_false] at hx
    rcases hx with rfl | rfl | rfl
    · exact Or.inr ⟨2, by norm_num⟩
    · exact Or.inl (Or.inl rfl)
    · exact Or.inr ⟨0, by norm_num⟩) ⟨2, by norm_num⟩
  exact ⟨c, h⟩

end Irt
