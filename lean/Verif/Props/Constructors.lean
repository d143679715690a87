import Verif.Spec.Constructors
import Verif.Props.Construct
import Verif.Props.Impute
import Verif.Props.Nested
import Verif.Lemmas.LogitModel
import Mathlib.Algebra.BigOperators.Group.List.Basic

/-! # Property C109: a model built from data is a model of these data -/

namespace Irt
open Spec

/-! ## Category counts -/

theorem mem_column {d : ResponseData} (hd : TestData d) {j : ℕ} (hj : j < d.width) (k : ℕ) :
    (some (k : ℝ)) ∈ column d.rows j ↔ Observed d j k := by
  rw [column, List.mem_map]
  constructor
  · rintro ⟨row, hrow, h⟩
    have hl := hd.rect row hrow
    refine ⟨row, hrow, ?_⟩
    rw [List.getD_eq_getElem _ _ (by omega)] at h
    rw [List.getElem?_eq_getElem (by omega), h]
  · rintro ⟨row, hrow, h⟩
    exact ⟨row, hrow, by rw [List.getD_eq_getElem?_getD, h]; rfl⟩

theorem column_cells {d : ResponseData} (hd : TestData d) {j : ℕ} (hj : j < d.width) :
    ∀ x ∈ column d.rows j, Missing x ∨ ∃ k : ℕ, x = some (k : ℝ) := by
  intro x hx
  rw [column, List.mem_map] at hx
  obtain ⟨row, hrow, rfl⟩ := hx
  have hl := hd.rect row hrow
  rw [List.getD_eq_getElem _ _ (by omega)]
  exact hd.cells row hrow _ (List.getElem_mem _)

/-- With every item answered the constructors find the counts the data call for. -/
theorem chosenCategories_data {d : ResponseData} (hd : TestData d) (ha : EachItemAnswered d) :
    ∃ cats : List ℕ, chosenCategories (some d) none = .ok (cats.map fun n : ℕ => (n : ℤ)) ∧ CountsOf d cats := by
  have hc : ∀ j, j < d.width → ∃ c : ℕ, inferredCategories (column d.rows j) = some (c : ℤ) ∧ ∃ k, c = k + 1 ∧ IsGreatest {k | Observed d j k} k := by
    intro j hj
    obtain ⟨k, hk⟩ := ha j hj
    obtain ⟨c, h1, h2, h3, h4⟩ := C38_constructor_counts (column d.rows j) (column_cells hd hj) ⟨k, (mem_column hd hj k).2 hk⟩
    refine ⟨c, h1, c - 1, by omega, (mem_column hd hj _).1 h3, fun i hi => ?_⟩
    have := h2 i ((mem_column hd hj i).2 hi)
    omega
  choose! f hf using hc
  refine ⟨(List.range d.width).map f, ?_, by simp, fun j c hj => ?_⟩
  · simp only [chosenCategories, hd.respondents, if_false, List.map_map]
    congr 1
    refine List.map_congr_left fun j hj => ?_
    rw [(hf j (List.mem_range.1 hj)).1]
    rfl
  · have hlt : j < d.width := by simpa using lt_of_getElem?_some hj
    rw [List.getElem?_map, List.getElem?_range hlt, Option.map_some, Option.some_inj] at hj
    rw [← hj]
    exact (hf j hlt).2

theorem countsOf_pos {d : ResponseData} {cats : List ℕ} (h : CountsOf d cats) : ∀ c ∈ cats, 0 < c := by
  intro c hc
  obtain ⟨j, hj⟩ := List.mem_iff_getElem?.1 hc
  obtain ⟨k, rfl, -⟩ := h.2 j c hj
  omega

theorem countsOf_valid {d : ResponseData} (hd : TestData d) {cats : List ℕ} (h : CountsOf d cats) : ValidData cats d.rows := by
  intro row hrow
  refine ⟨by rw [hd.rect row hrow, h.1], fun j c x hc hx => ?_⟩
  rcases hd.cells row hrow x (List.mem_of_getElem? hx) with hm | ⟨k, rfl⟩
  · exact Or.inl hm
  · obtain ⟨k', rfl, hk'⟩ := h.2 j c hc
    exact Or.inr ⟨k, Nat.lt_succ_of_le (hk'.2 ⟨row, hrow, hx⟩), rfl⟩

theorem observed_in_range {d : ResponseData} (hd : TestData d) {cats : List ℕ} (h : CountsOf d cats) {j k : ℕ} (ho : Observed d j k) :
    ∃ c, cats[j]? = some c ∧ k < c := by
  obtain ⟨row, hrow, hx⟩ := ho
  have hj := lt_of_getElem?_some hx
  rw [hd.rect row hrow, ← h.1] at hj
  obtain ⟨c, hc⟩ := getElem?_of_lt cats j hj
  obtain ⟨k', rfl, hk'⟩ := h.2 j c hc
  exact ⟨_, hc, Nat.lt_succ_of_le (hk'.2 ⟨row, hrow, hx⟩)⟩

theorem baseInit_none {cats : List ℤ} (h : cats ≠ []) : ∃ mx, baseInit cats none = .ok mx := by
  cases cats with
  | nil => exact absurd rfl h
  | cons c t => exact ⟨_, rfl⟩

theorem foldl_max_le (l : List ℤ) (a : ℤ) : a ≤ l.foldl max a ∧ ∀ x ∈ l, x ≤ l.foldl max a := by
  induction l generalizing a with
  | nil => simp
  | cons b t ih =>
    obtain ⟨h1, h2⟩ := ih (max a b)
    simp only [List.foldl_cons, List.mem_cons, forall_eq_or_imp]
    exact ⟨le_trans (le_max_left _ _) h1, le_trans (le_max_right _ _) h1, h2⟩

theorem baseInit_ge {cats : List ℤ} {mx : ℤ} (h : baseInit cats none = .ok mx) : ∀ c ∈ cats, c ≤ mx := by
  cases cats with
  | nil => simp
  | cons c t =>
    obtain rfl := Except.ok.inj h
    obtain ⟨h1, h2⟩ := foldl_max_le t c
    simpa using ⟨h1, h2⟩

theorem checkRelationships_good {items lv : ℕ} {rel : Option (List (List Bool))} (h : GoodRelationships items lv rel) :
    ∃ r, checkRelationships items lv rel = .ok r ∧ r.length = items ∧ (∀ row ∈ r, row.length = lv) ∧ ∀ R, rel = some R → r = R := by
  cases rel with
  | none => exact ⟨_, rfl, by simp, by simp, by simp⟩
  | some R =>
    obtain ⟨h1, h2, h3⟩ := h R rfl
    exact ⟨R, (C16_relationships_checked items lv R R).2 ⟨rfl, h1, h2, h3⟩, h1, h2, fun R' e => Option.some_inj.1 e⟩

theorem castSum (cats : List ℕ) : (cats.map fun n : ℕ => (n : ℤ)).sum = (cats.sum : ℤ) := by
  induction cats with
  | nil => rfl
  | cons c t ih =>
    rw [List.map_cons, List.sum_cons, ih, List.sum_cons]
    push_cast; rfl

theorem length_le_sum {cats : List ℕ} (h : ∀ c ∈ cats, 0 < c) : cats.length ≤ cats.sum := by
  induction cats with
  | nil => simp
  | cons c t ih =>
    have := ih (fun x hx => h x (by simp [hx]))
    have := h c (by simp)
    simp only [List.length_cons, List.sum_cons]; omega

theorem toNat_cast (cats : List ℕ) : (cats.map fun n : ℕ => (n : ℤ)).map Int.toNat = cats := by
  rw [List.map_map]
  conv_rhs => rw [← List.map_id cats]
  exact List.map_congr_left fun c _ => by simp

theorem explains_of_positive {d : ResponseData} (hd : TestData d) {cats : List ℕ} (h : CountsOf d cats) {t : List (List ℝ)}
    (ht : ∀ j c : ℕ, cats[j]? = some c → ∃ p, t[j]? = some p ∧ AllPositive c p) : Explains d t := by
  intro j k ho
  obtain ⟨c, hc, hk⟩ := observed_in_range hd h ho
  obtain ⟨p, hp, hpos⟩ := ht j c hc
  obtain ⟨x, hx, h0⟩ := hpos k hk
  exact ⟨p, x, hp, hx, h0⟩

/-! ## Partial credit, nominal and graded response models -/

theorem GPC.run_wf (m : GPC) (hwf : m.WF) (θ : List ℝ) : m.run θ = .ok (m.probs θ) := by
  have h1 : m.bias.length = countTrue (freeMask m.M m.cats) := by
    rw [hwf.biasLen, count_freeMask m.M m.cats hwf.catsPos fun c hc => le_maxCats _ _ hc]
  simp only [GPC.run, fillMask, h1, hwf.weightLen, if_true, bind_ok]
  rfl

/-- C109, partial credit: from test data in which every item was answered the constructor makes a model whose categories are those of the
data; with the starting values and with any trained values the item probabilities can be computed, are distributions, and give every answer
in the data a positive probability. -/
theorem C109_gpc (d : ResponseData) (hd : TestData d) (ha : EachItemAnswered d) (lv : ℕ) (rel : Option (List (List Bool)))
    (hr : GoodRelationships d.width lv rel) :
    ∃ m, GPC.construct (some d) lv none rel = .ok m ∧ m.WF ∧ m.lv = lv ∧ (∀ R, rel = some R → m.rel = R) ∧ CountsOf d m.cats ∧
      ValidData m.cats d.rows ∧ ∀ m', GPCTrained m m' → m'.WF ∧ ∀ θ, ∃ t, m'.run θ = .ok t ∧ IsTable m.cats m.M t ∧ Explains d t := by
  obtain ⟨cats, hcats, hcount⟩ := chosenCategories_data hd ha
  have hpos := countsOf_pos hcount
  have hne : (cats.map fun n : ℕ => (n : ℤ)) ≠ [] := by
    intro h
    have := hd.items
    rw [← hcount.1, List.map_eq_nil_iff.1 h] at this
    simp at this
  obtain ⟨mx, hmx⟩ := baseInit_none hne
  obtain ⟨r, hrok, hr1, hr2, hr3⟩ := checkRelationships_good (items := cats.length) (by rw [hcount.1]; exact hr)
  have hle := length_le_sum hpos
  let m : GPC := { lv, cats, rel := r, weight := List.replicate (countTrue r.flatten) 1, bias := List.replicate (cats.sum - cats.length) 0 }
  have hm : GPC.construct (some d) lv none rel = .ok m := by
    simp only [GPC.construct, hcats, bind_ok, hmx, List.length_map, hrok, castSum, toNat_cast]
    rw [if_neg (by omega), show ((cats.sum : ℤ) - cats.length).toNat = cats.sum - cats.length by omega]
  have hwf : m.WF := ⟨hpos, hr1, hr2, by simp [m], by simp [m]⟩
  refine ⟨m, hm, hwf, rfl, hr3, hcount, countsOf_valid hd hcount, fun m' hm' => ?_⟩
  obtain ⟨e1, e2, e3, e4, e5⟩ := hm'
  have hwf' : m'.WF := ⟨by rw [e2]; exact hwf.catsPos, by rw [e3, e2]; exact hwf.relLen, by rw [e3, e1]; exact hwf.relRow,
    by rw [e4, e3]; exact hwf.weightLen, by rw [e5, e2]; exact hwf.biasLen⟩
  refine ⟨hwf', fun θ => ⟨_, m'.run_wf hwf' θ, ?_, ?_⟩⟩
  · obtain ⟨h1, h2⟩ := C01_gpc_distribution m' hwf' θ
    rw [e2] at h1 h2
    refine ⟨h1, fun j p c hp hc => ?_⟩
    obtain ⟨p', hp', hd', -⟩ := h2 j c hc
    rw [hp] at hp'
    rw [Option.some_inj.1 hp', GPC.M, ← e2]
    exact hd'
  · refine explains_of_positive hd hcount fun j c hc => ?_
    obtain ⟨p, hp, -, h⟩ := (C01_gpc_distribution m' hwf' θ).2 j c (by rw [e2]; exact hc)
    exact ⟨p, hp, h⟩

theorem NRM.WF.trained {m m' : NRM} (hwf : m.WF) (h : NRMTrained m m') : m'.WF := by
  obtain ⟨e1, e2, e3, e4, e5⟩ := h
  have hfw : m'.freeWeights = m.freeWeights := by simp only [NRM.freeWeights, NRM.M, e2, e3]
  exact ⟨by rw [e2]; exact hwf.catsPos, by rw [e3, e2]; exact hwf.relLen, by rw [e3, e1]; exact hwf.relRow,
    by rw [e4, hfw]; exact hwf.weightLen, by rw [e5, e2]; exact hwf.biasLen⟩

theorem NRM.run_wf (m : NRM) (hwf : m.WF) (θ : List ℝ) : m.run θ = .ok ((m.probs θ).map some) := by
  have h1 : m.bias.length = countTrue (freeMask m.M m.cats) := by
    rw [hwf.biasLen, count_freeMask m.M m.cats hwf.catsPos fun c hc => le_maxCats _ _ hc]
  simp only [NRM.run, fillMask, h1, hwf.weightLen, if_true, bind_ok]
  refine congrArg Except.ok ?_
  have hl := (C01_nrm_distribution m hwf θ).1
  refine List.ext_getElem? fun j => ?_
  rw [List.getElem?_zipWith, List.getElem?_map]
  by_cases hj : j < m.cats.length
  · obtain ⟨c, hc⟩ := getElem?_of_lt m.cats j hj
    obtain ⟨p, hp⟩ := getElem?_of_lt (m.probs θ) j (by omega)
    have := hwf.catsPos c (List.mem_of_getElem? hc)
    have e : ({ m with bias := m.bias, weight := m.weight } : NRM) = m := rfl
    rw [e, hc, hp]
    simp only [Option.map_some]
    rw [if_neg (by omega)]
  · rw [List.getElem?_eq_none (by omega : m.cats.length ≤ j), List.getElem?_eq_none (by omega : (m.probs θ).length ≤ j)]
    rfl

/-- C109, nominal response. -/
theorem C109_nrm (d : ResponseData) (hd : TestData d) (ha : EachItemAnswered d) (lv : ℕ) (rel : Option (List (List Bool)))
    (hr : GoodRelationships d.width lv rel) (draw : ℕ → ℝ) :
    ∃ m, NRM.construct (some d) lv none rel none draw = .ok m ∧ m.WF ∧ m.lv = lv ∧ (∀ R, rel = some R → m.rel = R) ∧ CountsOf d m.cats ∧
      ValidData m.cats d.rows ∧ ∀ m', NRMTrained m m' → m'.WF ∧ ∀ θ, ∃ t : List (List ℝ), m'.run θ = .ok (t.map some) ∧
        IsTable m.cats m.M t ∧ Explains d t := by
  obtain ⟨cats, hcats, hcount⟩ := chosenCategories_data hd ha
  have hpos := countsOf_pos hcount
  have hne : (cats.map fun n : ℕ => (n : ℤ)) ≠ [] := by
    intro h
    have := hd.items
    rw [← hcount.1, List.map_eq_nil_iff.1 h] at this
    simp at this
  obtain ⟨mx, hmx⟩ := baseInit_none hne
  obtain ⟨r, hrok, hr1, hr2, hr3⟩ := checkRelationships_good (items := cats.length) (by rw [hcount.1]; exact hr)
  have hle := length_le_sum hpos
  let m₀ : NRM := { lv, cats, rel := r, weight := [], bias := List.replicate (cats.sum - cats.length) 0 }
  let m : NRM := { m₀ with weight := (List.range (countTrue m₀.freeWeights.flatten)).map draw }
  have hm : NRM.construct (some d) lv none rel none draw = .ok m := by
    simp only [NRM.construct, hcats, bind_ok, hmx, List.length_map, hrok, castSum, toNat_cast]
    rw [if_neg (by omega), show ((cats.sum : ℤ) - cats.length).toNat = cats.sum - cats.length by omega]
  have hwf : m.WF := ⟨hpos, hr1, hr2, by simp [m]; rfl, by simp [m, m₀]⟩
  refine ⟨m, hm, hwf, rfl, hr3, hcount, countsOf_valid hd hcount, fun m' hm' => ?_⟩
  have hwf' := hwf.trained hm'
  have e2 := hm'.2.1
  refine ⟨hwf', fun θ => ⟨_, m'.run_wf hwf' θ, ?_, ?_⟩⟩
  · obtain ⟨h1, h2⟩ := C01_nrm_distribution m' hwf' θ
    rw [e2] at h1 h2
    refine ⟨h1, fun j p c hp hc => ?_⟩
    obtain ⟨p', hp', hd', -⟩ := h2 j c hc
    rw [hp] at hp'
    rw [Option.some_inj.1 hp', NRM.M, ← e2]
    exact hd'
  · refine explains_of_positive hd hcount fun j c hc => ?_
    obtain ⟨p, hp, -, h⟩ := (C01_nrm_distribution m' hwf' θ).2 j c (by rw [e2]; exact hc)
    exact ⟨p, hp, h⟩

theorem GRM.run_wf (m : GRM) (hwf : m.WF) (θ : List ℝ) : m.run θ = .ok (m.probs θ) := by
  simp only [GRM.run, fillMask, hwf.biasLen, hwf.weightLen, if_true, bind_ok]
  rfl

/-- C109, graded response, with the starting values (trained ones can give negative probabilities, see C04). -/
theorem C109_grm (d : ResponseData) (hd : TestData d) (ha : EachItemAnswered d) (lv : ℕ) (rel : Option (List (List Bool)))
    (hr : GoodRelationships d.width lv rel) (draw : ℕ → ℝ) :
    ∃ m, GRM.construct (some d) lv none rel draw = .ok m ∧ m.WF ∧ m.lv = lv ∧ (∀ R, rel = some R → m.rel = R) ∧ CountsOf d m.cats ∧
      ValidData m.cats d.rows ∧ ∀ θ, ∃ t, m.run θ = .ok t ∧ IsTable m.cats m.M t := by
  obtain ⟨cats, hcats, hcount⟩ := chosenCategories_data hd ha
  have hpos := countsOf_pos hcount
  have hne : (cats.map fun n : ℕ => (n : ℤ)) ≠ [] := by
    intro h
    have := hd.items
    rw [← hcount.1, List.map_eq_nil_iff.1 h] at this
    simp at this
  obtain ⟨mx, hmx⟩ := baseInit_none hne
  have hmx0 : 0 < mx := by
    obtain ⟨c, hc⟩ := List.exists_mem_of_ne_nil _ hne
    have h1 := baseInit_ge hmx c hc
    obtain ⟨n, hn, rfl⟩ := List.mem_map.1 hc
    have := hpos n hn
    omega
  obtain ⟨r, hrok, hr1, hr2, hr3⟩ := checkRelationships_good (items := cats.length) (by rw [hcount.1]; exact hr)
  let m₀ : GRM := { lv, cats, rel := r, weight := [], bias := [] }
  let m : GRM := m₀.reset ((List.range (countTrue r.flatten)).map draw)
  have hm : GRM.construct (some d) lv none rel draw = .ok m := by
    simp only [GRM.construct, hcats, bind_ok, hmx, List.length_map, hrok, toNat_cast]
    rw [if_neg (by omega), if_neg (by omega)]
  have hwf : m.WF := by
    refine ⟨hpos, hr1, hr2, by simp [m, m₀, GRM.reset], ?_⟩
    refine length_gatherMask _ _ ?_
    rw [length_flatMap_const m₀.M _ _ (fun l _ => by rw [length_scatterMask, length_freeRow]), length_freeMask]
  refine ⟨m, hm, hwf, rfl, hr3, hcount, countsOf_valid hd hcount, fun θ => ⟨_, m.run_wf hwf θ, ?_, fun j p c hp hc => ?_⟩⟩
  · rw [GRM.probs, List.length_map, length_viewRows]
  · obtain ⟨p', hp', hd'⟩ := C04_grm_reset_distribution m₀ _ hwf θ j c hc
    rw [show (m₀.reset _).probs θ = m.probs θ from rfl, hp] at hp'
    rw [Option.some_inj.1 hp']
    exact hd'

/-! ## Logistic models -/

theorem baseInit_binary {n : ℕ} (hn : 0 < n) : ∃ mx, baseInit (List.replicate n 2) none = .ok mx :=
  baseInit_none (by simp; omega)

/-- C109, 1PL: the data give the number of items, also when another number is given. -/
theorem C109_onePL (d : ResponseData) (hd : 0 < d.width) (items : Option ℕ) :
    ∃ m, OnePL.construct (some d) items = .ok m ∧ m.WF ∧ m.items = d.width := by
  obtain ⟨mx, hmx⟩ := baseInit_binary hd
  refine ⟨{ items := d.width, bias := List.replicate d.width 0 }, ?_, by simp [OnePL.WF], rfl⟩
  simp only [OnePL.construct, chosenItems, bind_ok, hmx]
  rfl

/-- C109, 2PL. -/
theorem C109_twoPL (d : ResponseData) (hd : 0 < d.width) (lv : ℕ) (items : Option ℕ) (rel : Option (List (List Bool)))
    (hr : GoodRelationships d.width lv rel) :
    ∃ m, TwoPL.construct (some d) lv items rel = .ok m ∧ m.WF ∧ m.items = d.width ∧ m.lv = lv ∧ (∀ R, rel = some R → m.rel = R) ∧
      ∀ m', TwoPLTrained m m' → m'.WF ∧ ∀ θ, IsTable (List.replicate d.width 2) 2 (m'.probs θ) ∧
        ((∀ j k, Observed d j k → j < d.width ∧ k < 2) → Explains d (m'.probs θ)) := by
  obtain ⟨mx, hmx⟩ := baseInit_binary hd
  obtain ⟨r, hrok, hr1, hr2, hr3⟩ := checkRelationships_good hr
  let m : TwoPL := { items := d.width, lv, rel := r, weight := List.replicate (countTrue r.flatten) 1, bias := List.replicate d.width 0 }
  have hwf : m.WF := ⟨hr1, hr2, by simp [m], by simp [m]⟩
  refine ⟨m, ?_, hwf, rfl, rfl, hr3, fun m' hm' => ?_⟩
  · simp only [TwoPL.construct, chosenItems, bind_ok, hmx, TwoPL.init, hrok]
    rfl
  · obtain ⟨e1, e2, e3, e4, e5⟩ := hm'
    have hwf' : m'.WF := ⟨by rw [e3, e1]; exact hr1, by rw [e3, e2]; exact hr2, by rw [e4, e3]; exact hwf.weightLen,
      by rw [e5, e1]; exact hwf.biasLen⟩
    refine ⟨hwf', fun θ => ?_⟩
    obtain ⟨h1, h2⟩ := C01_twoPL_distribution m' hwf' θ
    rw [e1] at h1 h2
    refine ⟨⟨by rw [h1]; simp [m], fun j p c hp hc => ?_⟩, fun hk j k ho => ?_⟩
    · obtain ⟨hj, rfl⟩ := replicate_getElem? _ _ _ _ hc
      obtain ⟨p', hp', hd', -⟩ := h2 j hj
      rw [hp] at hp'
      rw [Option.some_inj.1 hp']
      exact hd'
    · obtain ⟨hj, hk2⟩ := hk j k ho
      obtain ⟨p, hp, -, hpos⟩ := h2 j hj
      obtain ⟨x, hx, h0⟩ := hpos k hk2
      exact ⟨p, x, hp, hx, h0⟩

/-- C109, 3PL. -/
theorem C109_threePL (d : ResponseData) (hd : 0 < d.width) (lv : ℕ) (items : Option ℕ) (rel : Option (List (List Bool)))
    (hr : GoodRelationships d.width lv rel) :
    ∃ m, ThreePL.construct (some d) lv items rel = .ok m ∧ m.WF ∧ m.items = d.width ∧ m.lv = lv ∧ (∀ R, rel = some R → m.rel = R) ∧
      ∀ m', ThreePLTrained m m' → m'.WF ∧ ∀ θ, (∀ j, j < d.width → ∃ q, (m'.probs θ)[j]? = some [1 - q, q] ∧ 0 < q ∧ q < 1) ∧
        ((∀ j k, Observed d j k → j < d.width ∧ k < 2) → Explains d (m'.probs θ)) := by
  obtain ⟨mx, hmx⟩ := baseInit_binary hd
  obtain ⟨r, hrok, hr1, hr2, hr3⟩ := checkRelationships_good hr
  let m : ThreePL := ⟨d.width, lv, r, List.replicate (countTrue r.flatten) 1, List.replicate d.width 0, List.replicate d.width (-1.1)⟩
  have hwf : m.WF := ⟨hr1, hr2, by simp [m], by simp [m], by simp [m]⟩
  refine ⟨m, ?_, hwf, rfl, rfl, hr3, fun m' hm' => ?_⟩
  · simp only [ThreePL.construct, chosenItems, bind_ok, hmx, ThreePL.init, hrok]
    rfl
  · obtain ⟨e1, e2, e3, e4, e5, e6⟩ := hm'
    have hwf' : m'.WF := ⟨by rw [e3, e1]; exact hr1, by rw [e3, e2]; exact hr2, by rw [e4, e3]; exact hwf.weightLen,
      by rw [e5, e1]; exact hwf.biasLen, by rw [e6, e1]; exact hwf.guessLen⟩
    have hrow : ∀ θ, ∀ j, j < d.width → ∃ q, (m'.probs θ)[j]? = some [1 - q, q] ∧ 0 < q ∧ q < 1 := by
      intro θ j hj
      obtain ⟨a, b, c, hp⟩ := m'.exists_params hwf' j (by rw [e1]; exact hj)
      obtain ⟨h0, -, q, hq, h1, h2⟩ := C03_threePL_bounds m' θ j a b c hp
      exact ⟨q, hq, h0.trans h1, h2⟩
    refine ⟨hwf', fun θ => ⟨hrow θ, fun hk j k ho => ?_⟩⟩
    obtain ⟨hj, hk2⟩ := hk j k ho
    obtain ⟨q, hq, h0, h1⟩ := hrow θ j hj
    interval_cases k
    · exact ⟨_, 1 - q, hq, rfl, by linarith⟩
    · exact ⟨_, q, hq, rfl, h0⟩

/-- C109: without data and without the shape of the test every constructor raises a `ValueError`; with both, the logistic models follow the
data and the partial credit, graded and nominal models follow the given category counts. -/
theorem C109_arguments (d : ResponseData) (lv : ℕ) (rel : Option (List (List Bool))) (draw : ℕ → ℝ) (n : ℕ) (cats : List ℕ) :
    (OnePL.construct none none = .error .valueError ∧ TwoPL.construct none lv none rel = .error .valueError ∧
      ThreePL.construct none lv none rel = .error .valueError ∧ GPC.construct none lv none rel = .error .valueError ∧
      GRM.construct none lv none rel draw = .error .valueError ∧ NRM.construct none lv none rel none draw = .error .valueError) ∧
    OnePL.construct (some d) (some n) = OnePL.construct (some d) none ∧
    TwoPL.construct (some d) lv (some n) rel = TwoPL.construct (some d) lv none rel ∧
    ThreePL.construct (some d) lv (some n) rel = ThreePL.construct (some d) lv none rel ∧
    GPC.construct (some d) lv (some cats) rel = GPC.construct none lv (some cats) rel ∧
    GRM.construct (some d) lv (some cats) rel draw = GRM.construct none lv (some cats) rel draw ∧
    NRM.construct (some d) lv (some cats) rel none draw = NRM.construct none lv (some cats) rel none draw :=
  ⟨⟨rfl, rfl, rfl, rfl, rfl, rfl⟩, rfl, rfl, rfl, rfl, rfl, rfl⟩

/-! ## Nested logit and model mix -/

theorem nestedRelationships_good {items lv : ℕ} {rel : Option (List (List Bool))} (hlv : 0 < lv) (h : GoodRelationships items lv rel) :
    ∃ r, nestedRelationships items lv rel = .ok r ∧ GoodRelationships items lv (some r) := by
  cases rel with
  | none =>
    refine ⟨_, rfl, fun R e => ?_⟩
    obtain rfl := Option.some_inj.1 e
    refine ⟨by simp, by simp, fun row hrow => ?_⟩
    rw [List.eq_of_mem_replicate hrow]
    exact List.mem_replicate.2 ⟨by omega, rfl⟩
  | some R =>
    obtain ⟨g1, g2, g3⟩ := h R rfl
    refine ⟨R, ?_, h⟩
    simp only [nestedRelationships]
    rw [if_neg (not_not.2 ⟨g1, g2⟩), if_neg]
    rw [not_not]
    intro row hrow
    simpa [countTrue, List.count_pos_iff] using g3 row hrow

theorem NRM.construct_cats {cats : List ℕ} {lv : ℕ} {r : List (List Bool)} (draw : ℕ → ℝ) (hne : cats ≠ []) (hpos : ∀ c ∈ cats, 1 ≤ c)
    (hr : GoodRelationships cats.length lv (some r)) :
    ∃ m, NRM.construct none lv (some cats) (some r) none draw = .ok m ∧ m.WF ∧ m.cats = cats := by
  obtain ⟨mx, hmx⟩ := baseInit_none (cats := cats.map fun n : ℕ => (n : ℤ)) (by simpa using hne)
  obtain ⟨r', hrok, hr1, hr2, hr3⟩ := checkRelationships_good hr
  have hle := length_le_sum hpos
  let m₀ : NRM := { lv, cats, rel := r', weight := [], bias := List.replicate (cats.sum - cats.length) 0 }
  let m : NRM := { m₀ with weight := (List.range (countTrue m₀.freeWeights.flatten)).map draw }
  refine ⟨m, ?_, ⟨hpos, hr1, hr2, by simp [m]; rfl, by simp [m, m₀]⟩, rfl⟩
  simp only [NRM.construct, chosenCategories, bind_ok, hmx, List.length_map, hrok, castSum, toNat_cast]
  rw [if_neg (by omega), show ((cats.sum : ℤ) - cats.length).toNat = cats.sum - cats.length by omega]

/-- C109, nested logit: from multiple choice data in which every item has an answer above 0, with an answer key among the observed categories
and a correct-response model for as many items with two categories, the model can be evaluated and gives distributions. -/
theorem C109_nested_partial (d : ResponseData) (hd : TestData d) (h2 : ∀ j, j < d.width → ∃ k, 1 ≤ k ∧ Observed d j k) (keys : List ℕ)
    (hl : keys.length = d.width) (hkey : ∀ j k, keys[j]? = some k → ∃ k', k ≤ k' ∧ Observed d j k') (lv : ℕ) (hlv : 0 < lv)
    (rel : Option (List (List Bool))) (hr : GoodRelationships d.width lv rel) (draw : ℕ → ℝ)
    (correct : List ℝ → List (List ℝ))
    (hcor : ∀ θ, IsTable (List.replicate d.width 2) 2 (correct θ)) :
    ∃ m, NestedNominal.construct (keys.map fun k : ℕ => (k : ℤ)) correct (some d) lv none rel draw = .ok m ∧ m.lv = lv ∧ m.keys = keys ∧
      CountsOf d m.cats ∧ ∀ b', NRMTrained m.incorrect b' → ∀ θ, ∃ t : List (List ℝ),
        { m with incorrect := b' }.run θ = .ok (t.map some) ∧ IsTable m.cats (maxCats m.cats) t := by
  obtain ⟨cats, hcats, hcount⟩ := chosenCategories_data hd fun j hj => by obtain ⟨k, -, hk⟩ := h2 j hj; exact ⟨k, hk⟩
  have hpos := countsOf_pos hcount
  have hge2 : ∀ c ∈ cats, 2 ≤ c := by
    intro c hc
    obtain ⟨j, hj⟩ := List.mem_iff_getElem?.1 hc
    obtain ⟨k, hk1, hk⟩ := h2 j (by rw [← hcount.1]; exact lt_of_getElem?_some hj)
    obtain ⟨k', rfl, hk'⟩ := hcount.2 j c hj
    have : k ≤ k' := hk'.2 hk
    omega
  have hkeys : ∀ j k c : ℕ, keys[j]? = some k → cats[j]? = some c → k < c := by
    intro j k c hk hc
    obtain ⟨k', hkk, ho⟩ := hkey j k hk
    obtain ⟨k'', rfl, hk''⟩ := hcount.2 j c hc
    have : k' ≤ k'' := hk''.2 ho
    omega
  have hne : cats ≠ [] := by
    intro h
    have := hd.items
    rw [← hcount.1, h] at this
    simp at this
  have hbase : ∃ mx, baseInit (cats.map fun n : ℕ => (n : ℤ)) (some (keys.map fun k : ℕ => (k : ℤ))) = .ok mx := by
    have hall : ((List.zip (cats.map fun n : ℕ => (n : ℤ)) (keys.map fun k : ℕ => (k : ℤ))).all fun p => decide (p.1 ≥ p.2)) = true := by
      rw [List.all_eq_true]
      intro p hp
      obtain ⟨j, hj⟩ := List.mem_iff_getElem?.1 hp
      rw [List.getElem?_zip_eq_some, List.getElem?_map, List.getElem?_map] at hj
      obtain ⟨c, hc, hc'⟩ := Option.map_eq_some_iff.1 hj.1
      obtain ⟨k, hk, hk'⟩ := Option.map_eq_some_iff.1 hj.2
      have := hkeys j k c hk hc
      rw [decide_eq_true_eq]
      omega
    simp only [baseInit, Option.elim_some, hall, if_true]
    cases cats with
    | nil => exact absurd rfl hne
    | cons c t => exact ⟨_, rfl⟩
  obtain ⟨mx, hmx⟩ := hbase
  obtain ⟨r, hrok, hr1⟩ := nestedRelationships_good hlv hr
  rw [← hcount.1] at hrok hr1
  obtain ⟨b, hb, hbwf, hbc⟩ := NRM.construct_cats (cats := cats.map fun c => c - 1) (lv := lv) (r := r) draw (by simpa using hne)
    (by simp only [List.mem_map]; rintro - ⟨c, hc, rfl⟩; have := hge2 c hc; omega) (by simpa using hr1)
  have hk : nestedCheckKeys cats (keys.map fun k : ℕ => (k : ℤ)) = .ok keys := by
    rw [C07_key_check]
    refine ⟨by rw [hl, hcount.1], fun j c hc => ?_⟩
    obtain ⟨k, hk⟩ := getElem?_of_lt keys j (by rw [hl, ← hcount.1]; exact lt_of_getElem?_some hc)
    exact ⟨k, hkeys j k c hk hc, by rw [List.getElem?_map, hk]; rfl, hk⟩
  have hcl := hcount.1
  refine ⟨⟨lv, cats, keys, correct, b⟩, ?_, rfl, rfl, hcount, fun b' hb' θ => ?_⟩
  · simp only [NestedNominal.construct, hcats, bind_ok, hmx, List.length_map, hrok, toNat_cast, hk]
    have e : ((cats.map fun n : ℕ => (n : ℤ)).map fun x => x.toNat - 1) = cats.map fun c => c - 1 := by
      simp [List.map_map, Function.comp_def]
    rw [e, hb]
    rfl
  · have hwf' := hbwf.trained hb'
    refine ⟨nestedProbs (maxCats cats) keys (correct θ) (b'.probs θ), ?_, ?_⟩
    · have h1 := (hcor θ).1
      rw [List.length_replicate] at h1
      simp only [NestedNominal.run, b'.run_wf hwf' θ, bind_ok, h1, hcl, ne_eq, not_true_eq_false, if_false]
      refine congrArg Except.ok ?_
      simp [nestedProbs, List.zipWith_map_right, List.map_zipWith]
    · refine (C07_nested_table cats keys (maxCats cats) _ _ (fun c => le_maxCats cats c) (by rw [hl, hcl]) hkeys ?_ ?_).1
      · rw [hcl]; exact hcor θ
      · have := isTable_nrm b' hwf' θ
        rw [NRM.M, hb'.2.1, hbc, maxCats_pred] at this
        exact this

/-- C109: a mix can be built exactly from a nonempty list of models with the same number of latent variables (and some item); its items are
those of the models in order. -/
theorem C109_mix (ms : List (ℕ × List ℤ)) (lv : ℕ) (c : List ℤ) :
    mixConstruct ms = .ok (lv, c) ↔ ms ≠ [] ∧ (∀ p ∈ ms, p.1 = lv) ∧ c = ms.flatMap Prod.snd ∧ c ≠ [] := by
  cases ms with
  | nil => simp [mixConstruct]
  | cons p t =>
    obtain ⟨l, c0⟩ := p
    simp only [mixConstruct, List.all_eq_true, decide_eq_true_eq, ne_eq, reduceCtorEq, not_false_eq_true, List.mem_cons, forall_eq_or_imp,
      List.flatMap_cons, true_and]
    by_cases h : ∀ x ∈ t, l = x.1
    · rw [if_pos h]
      by_cases hc : c0 ++ t.flatMap Prod.snd = []
      · rw [hc]
        simp [baseInit]
      · obtain ⟨mx, hmx⟩ := baseInit_none hc
        rw [hmx, bind_ok]
        constructor
        · intro e
          have e := Except.ok.inj e
          rw [Prod.mk.injEq] at e
          obtain ⟨rfl, rfl⟩ := e
          exact ⟨⟨rfl, fun x hx => (h x hx).symm⟩, rfl, hc⟩
        · rintro ⟨⟨rfl, -⟩, rfl, -⟩
          rfl
    · rw [if_neg h]
      simp only [reduceCtorEq, false_iff]
      rintro ⟨⟨rfl, h'⟩, -⟩
      exact h fun x hx => (h' x hx).symm

/-! ## What the constructors do not see to -/

/-- C109 claim: test data can be used to build a model, also when nobody was given one of the items. -/
def AnyTestDataAccepted : Prop := ∀ (d : ResponseData), TestData d → ∃ m, GPC.construct (some d) 1 none none = .ok m

/-- One respondent, two items, no answer to the first. -/
noncomputable def exNoAnswer : ResponseData := ⟨2, [[none, some 1]]⟩

theorem exNoAnswer_data : TestData exNoAnswer :=
  ⟨by simp [exNoAnswer], by simp [exNoAnswer], by simp [exNoAnswer], by
    simp only [exNoAnswer, List.mem_singleton, forall_eq, List.mem_cons, List.not_mem_nil, or_false, forall_eq_or_imp]
    exact ⟨.inl (.inl rfl), .inr ⟨1, by simp⟩⟩⟩

theorem C109_any_data_false : ¬ AnyTestDataAccepted := by
  intro h
  obtain ⟨m, hm⟩ := h _ exNoAnswer_data
  have t2 := truncInt_nat_succ 1
  push_cast at t2
  have hc : chosenCategories (some exNoAnswer) none = .ok [lowestInt, 2] := by
    simp [chosenCategories, exNoAnswer, List.range_succ, inferredCategories, column, colMax, maxStep, t2]
  simp [GPC.construct, hc, bind_ok, baseInit, checkRelationships, lowestInt] at hm

/-- C109 claim: a model built from data can give two items that were answered with 1 different probabilities to everybody. -/
def ItemsHaveOwnIntercepts : Prop :=
  ∀ (d : ResponseData) (lv : ℕ) (m : GPC), TestData d → GPC.construct (some d) lv none none = .ok m → ∀ j k, j ≠ k → Observed d j 1 →
    Observed d k 1 → ∃ m' t, GPCTrained m m' ∧ m'.run (List.replicate lv 0) = .ok t ∧ t[j]? ≠ t[k]?

/-- Two respondents, three items, nobody answered the first (coded -1). -/
noncomputable def exSkipped : ResponseData := ⟨3, [[some (-1), some 1, some 1], [some (-1), some 0, some 0]]⟩

theorem exSkipped_data : TestData exSkipped :=
  ⟨by simp [exSkipped], by simp [exSkipped], by simp [exSkipped], by
    have h : ∀ x : Option ℝ, x = some (-1) ∨ x = some 0 ∨ x = some 1 → Missing x ∨ ∃ k : ℕ, x = some (k : ℝ) := by
      rintro x (rfl | rfl | rfl)
      · exact .inl (.inr rfl)
      · exact .inr ⟨0, by simp⟩
      · exact .inr ⟨1, by simp⟩
    intro row hrow x hx
    refine h x ?_
    simp only [exSkipped, List.mem_cons, List.not_mem_nil, or_false] at hrow
    rcases hrow with rfl | rfl <;> simp only [List.mem_cons, List.not_mem_nil, or_false] at hx <;> tauto⟩

theorem exSkipped_counts : chosenCategories (some exSkipped) none = .ok [0, 2, 2] := by
  have t1 := truncInt_nat 0
  have t2 := truncInt_nat_succ 1
  push_cast at t1 t2
  simp [chosenCategories, exSkipped, List.range_succ, inferredCategories, column, colMax, maxStep, t1, t2]

/-- The masked assignment broadcasts the only intercept that was allocated. -/
theorem C109_own_intercepts_false : ¬ ItemsHaveOwnIntercepts := by
  intro h
  let m : GPC := { lv := 1, cats := [0, 2, 2], rel := [[true], [true], [true]], weight := [1, 1, 1], bias := [0] }
  have hm : GPC.construct (some exSkipped) 1 none none = .ok m := by
    simp [GPC.construct, exSkipped_counts, bind_ok, baseInit, checkRelationships, m, countTrue, List.replicate_succ]
  obtain ⟨m', t, ht, hrun, hne⟩ := h _ 1 m exSkipped_data hm 1 2 (by norm_num) ⟨_, List.mem_cons_self, by simp⟩
    ⟨_, List.mem_cons_self, by simp⟩
  obtain ⟨e1, e2, e3, e4, e5⟩ := ht
  obtain ⟨lv', cats', rel', w, b⟩ := m'
  simp only [m] at e1 e2 e3 e4 e5
  subst e1 e2 e3
  obtain ⟨b, rfl⟩ := List.length_eq_one_iff.1 e5
  obtain ⟨w0, w1, w2, rfl⟩ := List.length_eq_three.1 e4
  refine hne ?_
  have e : fillMask (countTrue (freeMask (maxCats [0, 2, 2]) [0, 2, 2])) [b] = .ok [b, b] := rfl
  have e' : fillMask (countTrue ([[true], [true], [true]] : List (List Bool)).flatten) [w0, w1, w2] = .ok [w0, w1, w2] := rfl
  simp only [GPC.run, GPC.M, e, e', bind_ok] at hrun
  rw [← Except.ok.inj hrun]
  simp [GPC.probs, GPC.forwardRow, GPC.M, GPC.weights, GPC.biases, probabilitiesFromOutput, maxCats, viewRows, scatterMask, freeMask, freeRow,
    firstMask, missingMask, firstRow, missingRow, maskFill, repeatInterleave, tile, List.range_succ, List.replicate_succ, dot]

/-- C109 claim: the nominal model built from test data gives numbers. -/
def NominalGivesNumbers : Prop :=
  ∀ (d : ResponseData) (draw : ℕ → ℝ) (m : NRM), TestData d → NRM.construct (some d) 1 none none none draw = .ok m →
    ∀ θ t, m.run θ = .ok t → none ∉ t

/-- An item that nobody answered has no category, and the softmax over no category is NaN. -/
theorem C109_nominal_numbers_false : ¬ NominalGivesNumbers := by
  intro h
  let m₀ : NRM := { lv := 1, cats := [0, 2, 2], rel := [[true], [true], [true]], weight := [], bias := [0] }
  obtain ⟨m, hm, hc, hb, hw⟩ : ∃ m, NRM.construct (some exSkipped) 1 none none none (fun _ => 0) = .ok m ∧ m.cats = [0, 2, 2] ∧
      m.bias.length = 1 ∧ m.weight.length = countTrue m.freeWeights.flatten := by
    refine ⟨{ m₀ with weight := (List.range (countTrue m₀.freeWeights.flatten)).map fun _ => 0 }, ?_, rfl, rfl, ?_⟩
    · simp [NRM.construct, exSkipped_counts, bind_ok, baseInit, checkRelationships, m₀, List.replicate_succ]
    · simp
      rfl
  obtain ⟨b, hb⟩ := List.length_eq_one_iff.1 hb
  have e : fillMask (countTrue (freeMask m.M m.cats)) m.bias = .ok [b, b] := by
    rw [NRM.M, hc, hb]
    rfl
  have hp : ({ m with bias := [b, b] } : NRM).probs [0] ≠ [] := by
    rw [← List.length_pos_iff, NRM.probs, probabilitiesFromOutput]
    simp [hc, length_viewRows]
  obtain ⟨p, t, hpt⟩ := List.exists_cons_of_ne_nil hp
  refine h exSkipped (fun _ => 0) m exSkipped_data hm [0] (List.zipWith (fun c p => if c = 0 then none else some p) m.cats (p :: t)) ?_ ?_
  · have e' : fillMask (countTrue m.freeWeights.flatten) m.weight = .ok m.weight := by simp only [fillMask, hw, if_true]
    simp only [NRM.run, e, e', bind_ok]
    refine congrArg Except.ok ?_
    rw [← hpt]
  · rw [hc]
    simp

/-- C109 claim: the two-parameter model accepts only data with the answers 0 and 1. -/
def BinaryDataChecked : Prop :=
  ∀ (d : ResponseData) (m : TwoPL), TestData d → TwoPL.construct (some d) 1 none none = .ok m → ∀ j k, Observed d j k → k < 2

noncomputable def exGradedData : ResponseData := ⟨1, [[some 2]]⟩

theorem C109_binary_checked_false : ¬ BinaryDataChecked := by
  intro h
  have hd : TestData exGradedData := ⟨by simp [exGradedData], by simp [exGradedData], by simp [exGradedData], by
    simp only [exGradedData, List.mem_singleton, forall_eq]
    exact .inr ⟨2, by simp⟩⟩
  obtain ⟨m, hm, -⟩ := C109_twoPL exGradedData hd.items 1 none none (by rintro R ⟨⟩)
  have := h _ m hd hm 0 2 ⟨_, List.mem_cons_self, by simp⟩
  omega

/-- C109 claim: a nested logit model that was built over a partial credit model for correct answers gives distributions. -/
def NestedGivesDistributions : Prop :=
  ∀ (d : ResponseData) (g : GPC) (keys : List ℤ) (draw : ℕ → ℝ) (m : NestedNominal), TestData d → g.WF → g.cats.length = d.width →
    NestedNominal.construct keys g.probs (some d) 1 none none draw = .ok m → ∀ θ t (j : ℕ) (p : List ℝ), m.run θ = .ok t →
      t[j]? = some (some p) → p.sum = 1

/-- Answers 0 and 1 to one item. -/
noncomputable def exBothAnswers : ResponseData := ⟨1, [[some 0], [some 1]]⟩

theorem exBothAnswers_data : TestData exBothAnswers :=
  ⟨by simp [exBothAnswers], by simp [exBothAnswers], by simp [exBothAnswers], by
    simp only [exBothAnswers, List.mem_cons, List.not_mem_nil, or_false, forall_eq_or_imp, forall_eq]
    exact ⟨.inr ⟨0, by simp⟩, .inr ⟨1, by simp⟩⟩⟩

theorem C109_nested_distributions_false : ¬ NestedGivesDistributions := by
  intro h
  let g : GPC := { lv := 1, cats := [3], rel := [[true]], weight := [1], bias := [0, 0] }
  have hg : g.WF := ⟨by simp [g], rfl, by simp [g], rfl, rfl⟩
  have hgp : g.probs [0] = [[1 / 3, 1 / 3, 1 / 3]] := by
    simp [g, GPC.probs, GPC.forwardRow, GPC.M, GPC.weights, GPC.biases, probabilitiesFromOutput, maxCats, viewRows, scatterMask, freeMask,
      freeRow, firstMask, missingMask, firstRow, missingRow, maskFill, repeatInterleave, tile, List.range_succ, List.replicate_succ, dot,
      softmax, Logit.exp]
    norm_num
  have t2 := truncInt_nat_succ 1
  push_cast at t2
  have hc : chosenCategories (some exBothAnswers) none = .ok [2] := by
    simp [chosenCategories, exBothAnswers, List.range_succ, inferredCategories, column, colMax, maxStep, t2]
  obtain ⟨b, hb, hbwf, hbc⟩ := NRM.construct_cats (cats := [1]) (lv := 1) (r := [[true]]) (fun _ => 0) (by simp) (by simp)
    (by rintro R ⟨⟩; simp)
  have hk : nestedCheckKeys [2] [0] = .ok [0] := rfl
  have hm : NestedNominal.construct [0] g.probs (some exBothAnswers) 1 none none (fun _ => 0) = .ok ⟨1, [2], [0], g.probs, b⟩ := by
    simp only [NestedNominal.construct, hc, bind_ok, baseInit, Option.elim_some]
    simp [nestedRelationships, bind_ok, hk]
    rw [hb]
    rfl
  obtain ⟨hbl, hbt⟩ := isTable_nrm b hbwf [0]
  rw [NRM.M, hbc] at hbt
  rw [hbc] at hbl
  obtain ⟨q, hq⟩ := List.length_eq_one_iff.1 hbl
  have hd := hbt 0 q 1 (by rw [hq]; rfl) rfl
  obtain ⟨x, rfl⟩ := List.length_eq_one_iff.1 (show q.length = 1 from hd.length)
  have hx : x = 1 := by simpa using hd.sum_one
  have hrow : nestedRow 2 0 (1 / 3) (1 / 3) [x] = [1 / 3, 1 / 3] := by
    simp [nestedRow, hx, scatterSet, scatterAdd, incorrectIndices, List.range_succ, List.replicate_succ]
  have hrun : ({ lv := 1, cats := [2], keys := [0], correct := g.probs, incorrect := b } : NestedNominal).run [0] = .ok [some [1 / 3, 1 / 3]] := by
    simp only [NestedNominal.run, b.run_wf hbwf [0], bind_ok, hgp, hq]
    simp only [List.length_cons, List.length_nil, ne_eq, not_true_eq_false, if_false]
    simp [maxCats] at hrow ⊢
    exact hrow
  have := h exBothAnswers g [0] (fun _ => 0) _ exBothAnswers_data hg rfl hm [0] _ 0 [1 / 3, 1 / 3] hrun rfl
  norm_num at this

/-! ## The hypotheses are met -/

/-- Two respondents, two items: answers 0 and 2 to the first, 1 and a missing answer to the second. -/
noncomputable def exAnswered : ResponseData := ⟨2, [[some 0, some 1], [some 2, none]]⟩

theorem exAnswered_data : TestData exAnswered :=
  ⟨by simp [exAnswered], by simp [exAnswered], by simp [exAnswered], by
    intro row hrow x hx
    simp only [exAnswered, List.mem_cons, List.not_mem_nil, or_false] at hrow
    rcases hrow with rfl | rfl <;> simp only [List.mem_cons, List.not_mem_nil, or_false] at hx <;> rcases hx with rfl | rfl
    · exact .inr ⟨0, by simp⟩
    · exact .inr ⟨1, by simp⟩
    · exact .inr ⟨2, by simp⟩
    · exact .inl (.inl rfl)⟩

theorem exAnswered_each : ∀ j, j < exAnswered.width → ∃ k, 1 ≤ k ∧ Observed exAnswered j k := by
  intro j hj
  simp only [exAnswered] at hj
  interval_cases j
  · exact ⟨2, by norm_num, [some 2, none], by simp [exAnswered], by simp⟩
  · exact ⟨1, le_rfl, [some 0, some 1], by simp [exAnswered], by simp⟩

/-- The hypotheses of `C109_gpc`, `C109_nrm`, `C109_grm` and the logistic models. -/
example : TestData exAnswered ∧ EachItemAnswered exAnswered ∧ GoodRelationships exAnswered.width 2 (some [[true, false], [true, true]]) :=
  ⟨exAnswered_data, fun j hj => by obtain ⟨k, -, h⟩ := exAnswered_each j hj; exact ⟨k, h⟩, by
    rintro R ⟨⟩
    refine ⟨rfl, by simp, by simp⟩⟩

/-- The hypotheses of `C109_nested_partial`, with a 2PL for correct answers. -/
example : ∃ (keys : List ℕ) (a : TwoPL), keys.length = exAnswered.width ∧
    (∀ j k, keys[j]? = some k → ∃ k', k ≤ k' ∧ Observed exAnswered j k') ∧
    ∀ θ, IsTable (List.replicate exAnswered.width 2) 2 (a.probs θ) := by
  obtain ⟨a, -, hwf, hi, -⟩ := C109_twoPL exAnswered exAnswered_data.items 1 none none (by rintro R ⟨⟩)
  refine ⟨[1, 0], a, rfl, fun j k hk => ?_, fun θ => hi ▸ isTable_twoPL a hwf θ⟩
  match j, hk with
  | 0, hk => cases hk; exact ⟨2, by norm_num, [some 2, none], by simp [exAnswered], by simp⟩
  | 1, hk => cases hk; exact ⟨1, by norm_num, [some 0, some 1], by simp [exAnswered], by simp⟩

example : mixConstruct [(1, [2, 3]), (1, [4])] = .ok (1, [2, 3, 4]) :=
  (C109_mix _ _ _).2 ⟨by simp, by simp, rfl, by simp⟩

end Irt
