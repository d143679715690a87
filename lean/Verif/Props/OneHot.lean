import Verif.Lemmas.Data
import Mathlib.Tactic.NormNum
import Mathlib.Tactic.IntervalCases

/-!
# C34, C35, C51: one-hot encoding, caller's data, stored training data
-/

namespace Irt

/-- The row-wise part of the encoder on one valid row. -/
theorem oneHotRow_valid (cats : List ℕ) (r : List Num) (hlen : r.length = cats.length)
    (hv : ∀ (i c : ℕ) (x : Num), cats[i]? = some c → r[i]? = some x → ValidResponse c x) :
    ∃ bs : List (List ℕ), (List.zip cats r).mapM (fun p => oneHotBlock p.1 (roundedCell p.2)) = .ok bs ∧
      bs.map List.length = cats ∧
      ∀ (i c : ℕ) (x : Num), cats[i]? = some c → r[i]? = some x → ∃ b, bs[i]? = some b ∧
        ∀ k, k < c → ((x = some (k : ℝ) → b[k]? = some 1) ∧ (x ≠ some (k : ℝ) → b[k]? = some 0)) := by
  induction cats generalizing r with
  | nil =>
    refine ⟨[], rfl, rfl, ?_⟩
    intro i c x hc; simp at hc
  | cons c cats ih =>
    cases r with
    | nil => simp at hlen
    | cons x r =>
      obtain ⟨b, hb, hbl, hbe⟩ := oneHotBlock_valid c x (hv 0 c x rfl rfl)
      obtain ⟨bs, h1, h2, h3⟩ := ih r (by simpa using hlen) (fun i c' x' hc hx =>
        hv (i + 1) c' x' (by simpa using hc) (by simpa using hx))
      refine ⟨b :: bs, ?_, by rw [List.map_cons, hbl, h2], ?_⟩
      · rw [List.zip_cons_cons, List.mapM_cons, hb, h1]; rfl
      · intro i c' x' hc hx
        cases i with
        | zero =>
          simp only [List.getElem?_cons_zero, Option.some.injEq] at hc hx
          subst hc hx
          exact ⟨b, rfl, hbe⟩
        | succ i =>
          simp only [List.getElem?_cons_succ] at hc hx
          obtain ⟨b', hb', he⟩ := h3 i c' x' hc hx
          exact ⟨b', by simpa using hb', he⟩

/-- Writing `-1` over NaN does not change what is encoded. -/
theorem oneHotRow_nan (cats : List ℕ) (r : List Num) :
    (List.zip cats (r.map nanToNegOne)).mapM (fun p => oneHotBlock p.1 (roundedCell p.2)) =
    (List.zip cats r).mapM (fun p => oneHotBlock p.1 (roundedCell p.2)) := by
  induction cats generalizing r with
  | nil => rfl
  | cons c cats ih =>
    cases r with
    | nil => rfl
    | cons x r =>
      rw [List.map_cons, List.zip_cons_cons, List.zip_cons_cons, List.mapM_cons, List.mapM_cons, ih,
        roundedCell_nanToNegOne]

theorem mapM_map_congr {α β : Type} (l : List α) (g : α → α) (f : α → Except PyErr β)
    (h : ∀ x, f (g x) = f x) : (l.map g).mapM f = l.mapM f := by
  induction l with
  | nil => rfl
  | cons a l ih => rw [List.map_cons, List.mapM_cons, List.mapM_cons, ih, h]

theorem oneHotEncode_fst (cats : List ℕ) (data : List (List Num)) :
    (oneHotEncode cats cats.length data).1 = data.mapM fun r => do
        let blocks ← (List.zip cats r).mapM fun p => oneHotBlock p.1 (roundedCell p.2)
        return blocks.flatten := by
  unfold oneHotEncode
  rw [if_neg (by simp)]
  by_cases h : anyNaN data = true
  · simp only [h, if_true]
    rw [mapM_map_congr]
    intro r
    rw [oneHotRow_nan]
  · simp only [h]; rfl

/-- C34: every valid data matrix is encoded; row `n` has, in the block of item `i` (which starts after the
blocks of the items before it), a one at the respondent's response and zeros elsewhere, so all zeros for
a missing response. -/
theorem C34_one_hot (cats : List ℕ) (data : List (List Num)) (hv : ValidData cats data) :
    ∃ rows, (oneHotEncode cats cats.length data).1 = .ok rows ∧ rows.length = data.length ∧
      ∀ (n : ℕ) r row, data[n]? = some r → rows[n]? = some row → row.length = cats.sum ∧
        ∀ (i c : ℕ) (x : Num) k, cats[i]? = some c → r[i]? = some x → k < c →
          (x = some (k : ℝ) → row[(cats.take i).sum + k]? = some 1) ∧
          (x ≠ some (k : ℝ) → row[(cats.take i).sum + k]? = some 0) := by
  have hrow : ∀ r ∈ data, ∃ row, (do
        let blocks ← (List.zip cats r).mapM fun p => oneHotBlock p.1 (roundedCell p.2)
        return blocks.flatten : Except PyErr (List ℕ)) = .ok row ∧ row.length = cats.sum ∧
        ∀ (i c : ℕ) (x : Num) k, cats[i]? = some c → r[i]? = some x → k < c →
          (x = some (k : ℝ) → row[(cats.take i).sum + k]? = some 1) ∧
          (x ≠ some (k : ℝ) → row[(cats.take i).sum + k]? = some 0) := by
    intro r hr
    obtain ⟨bs, h1, h2, h3⟩ := oneHotRow_valid cats r (hv r hr).1 (hv r hr).2
    refine ⟨bs.flatten, by rw [h1]; rfl, by rw [List.length_flatten, h2], ?_⟩
    intro i c x k hc hx hk
    obtain ⟨b, hb, he⟩ := h3 i c x hc hx
    have hbl : b.length = c := by
      have : (bs.map List.length)[i]? = some c := by rw [h2]; exact hc
      rw [List.getElem?_map, hb] at this
      simpa using this
    have hoff : (cats.take i).sum = ((bs.take i).map List.length).sum := by
      rw [List.map_take, h2]
    rw [hoff, flatten_offset bs i b hb k (by rw [hbl]; exact hk)]
    exact he k hk
  choose! g hg using hrow
  rw [oneHotEncode_fst]
  refine ⟨data.map g, mapM_ok data _ g (fun r hr => (hg r hr).1), by simp, ?_⟩
  intro n r row hr hrow
  have hmem := List.mem_of_getElem? hr
  rw [List.getElem?_map, hr] at hrow
  simp only [Option.map_some, Option.some.injEq] at hrow
  subst hrow
  exact (hg r hmem).2

/-- C34: the responses can be decoded: two valid matrices with the same encoding hold the same response
in every cell (a missing response may be coded NaN in one and `-1` in the other). -/
theorem C34_decodable (cats : List ℕ) (d₁ d₂ : List (List Num)) (h₁ : ValidData cats d₁)
    (h₂ : ValidData cats d₂)
    (h : (oneHotEncode cats cats.length d₁).1 = (oneHotEncode cats cats.length d₂).1) :
    d₁.length = d₂.length ∧ ∀ (n i : ℕ) r₁ r₂ x₁ x₂, d₁[n]? = some r₁ → d₂[n]? = some r₂ →
      r₁[i]? = some x₁ → r₂[i]? = some x₂ → SameResponse x₁ x₂ := by
  obtain ⟨rows₁, e₁, l₁, s₁⟩ := C34_one_hot cats d₁ h₁
  obtain ⟨rows₂, e₂, l₂, s₂⟩ := C34_one_hot cats d₂ h₂
  rw [e₁, e₂] at h
  have hrows : rows₁ = rows₂ := by injection h
  subst hrows
  refine ⟨by rw [← l₁, l₂], ?_⟩
  intro n i r₁ r₂ x₁ x₂ hr₁ hr₂ hx₁ hx₂
  obtain ⟨row, hrow⟩ : ∃ row, rows₁[n]? = some row := by
    have : n < rows₁.length := by
      rw [l₁]; exact (List.getElem?_eq_some_iff.1 hr₁).1
    exact ⟨_, List.getElem?_eq_getElem this⟩
  have hlen₁ := (h₁ r₁ (List.mem_of_getElem? hr₁)).1
  obtain ⟨c, hc⟩ : ∃ c, cats[i]? = some c := by
    have : i < cats.length := by rw [← hlen₁]; exact (List.getElem?_eq_some_iff.1 hx₁).1
    exact ⟨_, List.getElem?_eq_getElem this⟩
  have v₁ := (h₁ r₁ (List.mem_of_getElem? hr₁)).2 i c x₁ hc hx₁
  have v₂ := (h₂ r₂ (List.mem_of_getElem? hr₂)).2 i c x₂ hc hx₂
  have t₁ := (s₁ n r₁ row hr₁ hrow).2 i c x₁
  have t₂ := (s₂ n r₂ row hr₂ hrow).2 i c x₂
  have key : ∀ k, k < c → (x₁ = some (k : ℝ) ↔ x₂ = some (k : ℝ)) := by
    intro k hk
    constructor
    · intro hx
      by_contra hne
      have a := (t₁ k hc hx₁ hk).1 hx
      have b := (t₂ k hc hx₂ hk).2 hne
      rw [a] at b; simp at b
    · intro hx
      by_contra hne
      have a := (t₁ k hc hx₁ hk).2 hne
      have b := (t₂ k hc hx₂ hk).1 hx
      rw [a] at b; simp at b
  rcases v₁ with m₁ | ⟨k, hk, hxk⟩
  · rcases v₂ with m₂ | ⟨k, hk, hxk⟩
    · exact Or.inl ⟨m₁, m₂⟩
    · have := (key k hk).2 hxk
      rw [this] at m₁
      exact absurd m₁ (not_missing_nat k)
  · have := (key k hk).1 hxk
    refine Or.inr ⟨by rw [hxk, this], ?_⟩
    rw [hxk]; exact not_missing_nat k

/-- C34: a response at or above the item's category count is rejected with an index error. -/
theorem C34_too_large_rejected (cats : List ℕ) (data : List (List Num))
    (n i c k : ℕ) (r : List Num) (hr : data[n]? = some r) (hc : cats[i]? = some c)
    (hx : r[i]? = some (some (k : ℝ))) (hk : c ≤ k) :
    (oneHotEncode cats cats.length data).1 = .error .indexError := by
  rw [oneHotEncode_fst]
  have hin : ∀ r : List Num, (List.zip cats r).mapM (fun p => oneHotBlock p.1 (roundedCell p.2)) =
      .error .indexError ∨ ∃ bs, (List.zip cats r).mapM
        (fun p => oneHotBlock p.1 (roundedCell p.2)) = .ok bs := by
    intro r
    induction List.zip cats r with
    | nil => exact Or.inr ⟨_, rfl⟩
    | cons a l ih =>
      rw [List.mapM_cons]
      rcases oneHotBlock_cases a.1 (roundedCell a.2) with h | ⟨b, h⟩
      · rw [h]; exact Or.inl rfl
      · rw [h]
        rcases ih with h2 | ⟨bs, h2⟩
        · rw [h2]; exact Or.inl rfl
        · rw [h2]; exact Or.inr ⟨_, rfl⟩
  refine mapM_error _ _ _ ?_ ⟨r, List.mem_of_getElem? hr, ?_⟩
  · intro r' _
    rcases hin r' with h | ⟨bs, h⟩
    · rw [h]; exact Or.inl rfl
    · rw [h]; exact Or.inr ⟨_, rfl⟩
  · have : (List.zip cats r).mapM (fun p => oneHotBlock p.1 (roundedCell p.2)) =
        .error .indexError := by
      refine mapM_error _ _ _ (fun p _ => oneHotBlock_cases _ _) ⟨(c, some (k : ℝ)), ?_, ?_⟩
      · exact List.mem_of_getElem? (i := i) (by rw [List.getElem?_zip_eq_some]; exact ⟨hc, hx⟩)
      · simp only [roundedCell_nat, oneHotBlock, pyIndex]
        rw [if_neg (by omega), if_neg (by omega), if_neg (by omega)]
        rfl
    rw [this]
    rfl

/-- C34: a category list of the wrong length is rejected (and the data is left alone). -/
theorem C34_wrong_width_rejected (cats : List ℕ) (width : ℕ) (data : List (List Num))
    (h : width ≠ cats.length) : oneHotEncode cats width data = (.error .valueError, data) := by
  simp [oneHotEncode, h]

/-- C34, a gap: a response coded by a negative integer other than `-1` is not rejected but wraps around
to a category (`-2` becomes the second to last one). -/
theorem C34_negative_response_wraps :
    (oneHotEncode [3] 1 [[some (-2)]]).1 = .ok [[0, 1, 0]] := by
  have h : roundedCell (some (-2)) = -2 := by
    have := torchRound_int (-2)
    simpa [roundedCell] using this
  have := oneHotEncode_fst [3] [[some (-2)]]
  simp only [List.length_cons, List.length_nil, zero_add] at this
  rw [this]
  simp [h, oneHotBlock, pyIndex, bind_ok, List.mapM_cons, List.range_succ, pure, Except.pure]

/-- A valid 2×2 matrix with one missing response. -/
theorem exData_valid : ValidData [2, 3] [[some 1, none], [some (-1), some 2]] := by
  intro r hr
  simp only [List.mem_cons, List.not_mem_nil, or_false] at hr
  rcases hr with rfl | rfl
  · refine ⟨rfl, ?_⟩
    intro i c x hc hx
    have : i < 2 := (List.getElem?_eq_some_iff.1 hx).1
    interval_cases i <;> simp at hc hx <;> subst hc hx
    · exact Or.inr ⟨1, by norm_num, by norm_num⟩
    · exact Or.inl (Or.inl rfl)
  · refine ⟨rfl, ?_⟩
    intro i c x hc hx
    have : i < 2 := (List.getElem?_eq_some_iff.1 hx).1
    interval_cases i <;> simp at hc hx <;> subst hc hx
    · exact Or.inl (Or.inr rfl)
    · exact Or.inr ⟨2, by norm_num, by norm_num⟩

example : ∃ rows, (oneHotEncode [2, 3] 2 [[some 1, none], [some (-1), some 2]]).1 = .ok rows ∧
    rows.length = 2 ∧ ∀ row, rows[0]? = some row → row.length = 5 ∧ row[1]? = some 1 ∧ row[2]? = some 0 := by
  obtain ⟨rows, h1, h2, h3⟩ := C34_one_hot _ _ exData_valid
  refine ⟨rows, h1, h2, fun row hrow => ?_⟩
  have h4 := h3 0 _ row rfl hrow
  refine ⟨h4.1, ?_, ?_⟩
  · exact (h4.2 0 2 (some 1) 1 rfl rfl (by norm_num)).1 (by norm_num)
  · exact (h4.2 1 3 none 0 rfl rfl (by norm_num)).2 (by simp)

example : (oneHotEncode [2, 3] 2 [[some 1, some ((3 : ℕ) : ℝ)]]).1 = .error .indexError :=
  C34_too_large_rejected [2, 3] _ 0 1 3 3 _ rfl rfl rfl (le_refl _)

example : (oneHotEncode [2, 3] 2 [[some 1, none]]).1 = (oneHotEncode [2, 3] 2 [[some 1, some (-1)]]).1 := by
  have h1 := oneHotEncode_fst [2, 3] [[some 1, none]]
  have h2 := oneHotEncode_fst [2, 3] [[some 1, some (-1)]]
  simp only [List.length_cons, List.length_nil, zero_add] at h1 h2
  rw [h1, h2]
  have h := oneHotRow_nan [2, 3] [some 1, none]
  simp only [List.map_cons, List.map_nil, nanToNegOne] at h
  simp only [List.mapM_cons, h]

/-! ## C35 -/

/-- The full property: none of the calls changes the data tensor passed to it. -/
def CallerDataUnchanged : Prop :=
  ∀ (cats : List ℕ) (data : List (List Num)), ValidData cats data →
    (oneHotEncode cats cats.length data).2 = data ∧
    (∀ mc draw, (Dataset.init cats.length data true (some cats) none mc draw).2 = data) ∧
    (∀ draw, (latentScoresEncoderInput cats.length cats true none data draw).2 = data) ∧
    residualsCallerData data = data

/-- C35 is false of the code: NaN in the caller's tensor becomes `-1` in each of the four calls. -/
theorem C35_false : ¬ CallerDataUnchanged := by
  intro h
  have := (h [2, 3] _ exData_valid).2.2.2
  simp [residualsCallerData, nanToNegOne] at this

/-- C35, each call on its own: with any NaN in valid data, each of them changes the caller's tensor. -/
theorem C35_nan_overwritten (cats : List ℕ) (data : List (List Num)) (hn : anyNaN data = true)
    (mc : Option (List ℤ)) (draw : ℕ → ℕ → ℕ) :
    (oneHotEncode cats cats.length data).2 = data.map (fun r => r.map nanToNegOne) ∧
    (Dataset.init cats.length data true (some cats) none mc draw).2 =
      data.map (fun r => r.map nanToNegOne) ∧
    (latentScoresEncoderInput cats.length cats true none data draw).2 =
      data.map (fun r => r.map nanToNegOne) ∧
    residualsCallerData data = data.map (fun r => r.map nanToNegOne) ∧
    data.map (fun r => r.map nanToNegOne) ≠ data := by
  have h1 : (oneHotEncode cats cats.length data).2 = data.map (fun r => r.map nanToNegOne) := by
    unfold oneHotEncode
    rw [if_neg (by simp)]
    simp only [hn, if_true]
  refine ⟨h1, ?_, ?_, rfl, ?_⟩
  · simp only [Dataset.init, if_true]; exact h1
  · have hm : (data.any fun r => r.any isMissing) = true := by
      unfold anyNaN at hn
      rw [List.any_eq_true] at hn ⊢
      obtain ⟨r, hr, hx⟩ := hn
      refine ⟨r, hr, ?_⟩
      rw [List.any_eq_true] at hx ⊢
      obtain ⟨x, hx, hxn⟩ := hx
      refine ⟨x, hx, ?_⟩
      rw [Option.isNone_iff_eq_none] at hxn
      rw [hxn]; rfl
    simp only [latentScoresEncoderInput, hm, if_true]
    exact h1
  · intro h
    unfold anyNaN at hn
    rw [List.any_eq_true] at hn
    obtain ⟨r, hr, hx⟩ := hn
    rw [List.any_eq_true] at hx
    obtain ⟨x, hx, hxn⟩ := hx
    rw [Option.isNone_iff_eq_none] at hxn
    subst hxn
    rw [← h] at hr
    obtain ⟨r', _, hr'⟩ := List.mem_map.1 hr
    rw [← hr'] at hx
    obtain ⟨y, _, hy⟩ := List.mem_map.1 hx
    cases y <;> simp [nanToNegOne] at hy

/-- Data without NaN is not written to. -/
theorem map_nanToNegOne_of_noNaN (data : List (List Num)) (h : anyNaN data = false) :
    data.map (fun r => r.map nanToNegOne) = data := by
  unfold anyNaN at h
  rw [List.any_eq_false] at h
  conv_rhs => rw [← List.map_id data]
  refine List.map_congr_left fun r hr => ?_
  conv_rhs => rw [id, ← List.map_id r]
  refine List.map_congr_left fun x hx => ?_
  have h2 := h r hr
  rw [List.any_eq_true] at h2
  push Not at h2
  have := h2 x hx
  cases x with
  | none => simp at this
  | some v => rfl

/-- C35, the part that holds: data without NaN (missing responses coded `-1`) is never changed, whatever
the settings; with an imputation method nothing is changed either. -/
theorem C35_no_nan_partial (cats : List ℕ) (width : ℕ) (data : List (List Num))
    (h : anyNaN data = false) (oneHot : Bool) (cats' : Option (List ℕ)) (imp : Option String)
    (mc : Option (List ℤ)) (draw : ℕ → ℕ → ℕ) :
    (oneHotEncode cats width data).2 = data ∧
    (Dataset.init width data oneHot cats' imp mc draw).2 = data ∧
    (latentScoresEncoderInput width cats oneHot imp data draw).2 = data ∧
    residualsCallerData data = data := by
  have h1 : ∀ cats : List ℕ, (oneHotEncode cats width data).2 = data := by
    intro cats
    unfold oneHotEncode
    rw [h]
    by_cases hw : width ≠ cats.length
    · rw [if_pos hw]
    · rw [if_neg hw]; rfl
  refine ⟨h1 cats, ?_, ?_, map_nanToNegOne_of_noNaN data h⟩
  · unfold Dataset.init
    cases imp with
    | none =>
      cases oneHot with
      | false => rfl
      | true =>
        cases cats' with
        | none => rfl
        | some cs => exact h1 cs
    | some method =>
      simp only
      split
      · rfl
      · split_ifs
        · cases cats' <;> rfl
        · rfl
  · unfold latentScoresEncoderInput
    simp only
    split_ifs
    · cases imp with
      | none => exact h1 cats
      | some method =>
        simp only
        split <;> rfl
    · cases imp with
      | none => rfl
      | some method =>
        simp only
        split <;> rfl
    · exact h1 cats
    · rfl

/-- C35, the part that holds: with an imputation method the data set and `latent_scores` work on a copy. -/
theorem C35_imputed_partial (cats : List ℕ) (width : ℕ) (data : List (List Num)) (oneHot : Bool)
    (cats' : Option (List ℕ)) (method : String) (mc : Option (List ℤ)) (draw : ℕ → ℕ → ℕ) :
    (Dataset.init width data oneHot cats' (some method) mc draw).2 = data ∧
    ((data.any fun r => r.any isMissing) = true →
      (latentScoresEncoderInput width cats oneHot (some method) data draw).2 = data) := by
  constructor
  · unfold Dataset.init
    simp only
    split
    · rfl
    · split_ifs
      · cases cats' <;> rfl
      · rfl
  · intro hm
    unfold latentScoresEncoderInput
    simp only [hm, if_true]
    split <;> rfl

/-- C35, the part that holds: without one-hot coding (MML, JML, plain autoencoders) the data set object and
`latent_scores` leave the tensor alone, NaN or not. -/
theorem C35_not_one_hot_partial (cats : List ℕ) (width : ℕ) (data : List (List Num))
    (cats' : Option (List ℕ)) (imp : Option String) (mc : Option (List ℤ)) (draw : ℕ → ℕ → ℕ) :
    (Dataset.init width data false cats' imp mc draw).2 = data ∧
    (latentScoresEncoderInput width cats false imp data draw).2 = data := by
  constructor
  · unfold Dataset.init
    cases imp with
    | none => rfl
    | some method =>
      simp only
      split <;> rfl
  · unfold latentScoresEncoderInput
    by_cases hm : (data.any fun r => r.any isMissing) = true
    · simp only [hm, if_true]
      cases imp with
      | none => rfl
      | some method =>
        simp only
        split <;> rfl
    · simp only [hm]; rfl

/-- C35: even when the tensor is written to, observed responses and the missing pattern survive. -/
theorem C35_only_coding_changes (data : List (List Num)) :
    missingMaskOf (data.map fun r => r.map nanToNegOne) = missingMaskOf data ∧
    ∀ (n i : ℕ) r (v : ℝ), data[n]? = some r → r[i]? = some (some v) →
      ∃ r', (data.map fun r => r.map nanToNegOne)[n]? = some r' ∧ r'[i]? = some (some v) := by
  constructor
  · simp only [missingMaskOf, List.map_map]
    refine List.map_congr_left fun r _ => ?_
    simp only [Function.comp, List.map_map]
    refine List.map_congr_left fun x _ => ?_
    simp only [Function.comp, isMissing_nanToNegOne]
  · intro n i r v hr hx
    exact ⟨r.map nanToNegOne, by simp [hr], by simp [hx, nanToNegOne]⟩

example : anyNaN [[some 1, none], [some (-1), some 2]] = true := by simp [anyNaN]
example : anyNaN [[some 1, some (-1)], [some 0, some 2]] = false := by simp [anyNaN]

/-! ## C51 -/

/-- `train_data` after a sequence of fits, given what each fit writes to its data. -/
def trainDataAfter (after : List (List Num) → List (List Num)) (calls : List (List (List Num))) :
    Option (List (List Num)) := calls.foldl (fun s d => storeTrainData s after d) none

/-- C51: after any sequence of fits the stored data is the concatenation of the data of all calls, for
algorithms that do not write to their data (MML, JML, and the autoencoders without one-hot coding or with
an imputation method; see `C35_imputed_partial`). -/
theorem C51_concatenation (calls : List (List (List Num))) (h : calls ≠ []) :
    trainDataAfter id calls = some calls.flatten := by
  obtain ⟨d, ds, rfl⟩ := List.exists_cons_of_ne_nil h
  unfold trainDataAfter
  simp only [List.foldl_cons, List.flatten_cons, storeTrainData, id]
  clear h
  induction ds generalizing d with
  | nil => simp
  | cons e ds ih =>
    rw [List.foldl_cons, List.flatten_cons]
    rw [ih, List.append_assoc]

/-- C51, one-hot coded autoencoders: the first call's data is stored by reference and has its NaN
overwritten by `-1`; later calls are copied as they are. -/
theorem C51_one_hot (d : List (List Num)) (ds : List (List (List Num))) :
    trainDataAfter (fun d => d.map fun r => r.map nanToNegOne) (d :: ds) =
      some ((d.map fun r => r.map nanToNegOne) ++ ds.flatten) := by
  unfold trainDataAfter
  simp only [List.foldl_cons, storeTrainData]
  generalize (d.map fun r => r.map nanToNegOne) = e
  induction ds generalizing e with
  | nil => simp
  | cons f ds ih =>
    rw [List.foldl_cons, List.flatten_cons]
    rw [ih, List.append_assoc]

/-- C51: in both cases the stored missing pattern is that of the concatenated data. -/
theorem C51_missing_pattern (d : List (List Num)) (ds : List (List (List Num))) (t : List (List Num))
    (h : trainDataAfter (fun d => d.map fun r => r.map nanToNegOne) (d :: ds) = some t) :
    missingMaskOf t = missingMaskOf ((d :: ds).flatten) := by
  rw [C51_one_hot] at h
  rw [← Option.some.inj h, List.flatten_cons]
  have e := (C35_only_coding_changes d).1
  unfold missingMaskOf at e ⊢
  rw [List.map_append, List.map_append, e]

example : trainDataAfter id [[[some 1]], [[some 0], [none]]] = some [[some 1], [some 0], [none]] :=
  C51_concatenation _ (by simp)

end Irt
