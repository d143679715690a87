import Verif.Props.Graded

/-! # Properties C16 and C63, continued: constructors and the partial credit `irt_format` -/

namespace Irt

/-- C16: a relationship matrix is accepted exactly when it has one row per item and one column per latent
variable and relates every item to some latent variable; it is then used unchanged. -/
theorem C16_relationships_checked (items lv : ℕ) (rel r : List (List Bool)) :
    checkRelationships items lv (some rel) = .ok r ↔
      r = rel ∧ rel.length = items ∧ (∀ row ∈ rel, row.length = lv) ∧ ∀ row ∈ rel, true ∈ row := by
  have hcount : ∀ row : List Bool, 0 < countTrue row ↔ true ∈ row := by
    intro row; simp [countTrue, List.count_pos_iff]
  simp only [checkRelationships]
  by_cases h1 : rel.length = items ∧ ∀ row ∈ rel, row.length = lv
  · rw [if_neg (not_not.2 h1)]
    by_cases h2 : ∀ row ∈ rel, 0 < countTrue row
    · rw [if_neg (not_not.2 h2)]
      constructor
      · intro h
        exact ⟨(Except.ok.inj h).symm, h1.1, h1.2, fun row hr => (hcount row).1 (h2 row hr)⟩
      · rintro ⟨rfl, _⟩; rfl
    · rw [if_pos h2]
      constructor
      · intro h; cases h
      · rintro ⟨_, _, _, h⟩
        exact absurd (fun row hr => (hcount row).2 (h row hr)) h2
  · rw [if_pos h1]
    constructor
    · intro h; cases h
    · rintro ⟨_, h, h', _⟩; exact absurd ⟨h, h'⟩ h1

/-- C16: without a relationship matrix every item is related to every latent variable. -/
theorem C16_relationships_default (items lv : ℕ) (r : List (List Bool))
    (h : checkRelationships items lv none = .ok r) :
    r.length = items ∧ ∀ row ∈ r, row.length = lv ∧ ∀ b ∈ row, b = true := by
  simp only [checkRelationships, Except.ok.injEq] at h
  subst h
  refine ⟨by simp, ?_⟩
  intro row hrow
  rw [List.eq_of_mem_replicate hrow]
  exact ⟨by simp, fun b hb => List.eq_of_mem_replicate hb⟩

theorem checkRelationships_shape (items lv : ℕ) (rel : Option (List (List Bool))) (r : List (List Bool))
    (h : checkRelationships items lv rel = .ok r) : r.length = items ∧ ∀ row ∈ r, row.length = lv := by
  cases rel with
  | none =>
    obtain ⟨h1, h2⟩ := C16_relationships_default items lv r h
    exact ⟨h1, fun row hr => (h2 row hr).1⟩
  | some rel =>
    obtain ⟨rfl, h1, h2, _⟩ := (C16_relationships_checked items lv rel r).1 h
    exact ⟨h1, h2⟩

/-- C16: the constructor of the partial credit model gives one free slope per relationship, so that every
model built with it is well formed. -/
theorem C16_gpc_constructor (lv : ℕ) (cats : List ℕ) (hpos : ∀ c ∈ cats, 0 < c)
    (rel : Option (List (List Bool))) (m : GPC) (h : GPC.init lv cats rel = .ok m) :
    m.WF ∧ m.cats = cats ∧ m.lv = lv ∧ ∀ R, rel = some R → m.rel = R := by
  unfold GPC.init at h
  cases hr : checkRelationships cats.length lv rel with
  | error e => rw [hr] at h; cases h
  | ok r =>
    rw [hr] at h
    obtain rfl := (Except.ok.inj h).symm
    obtain ⟨h1, h2⟩ := checkRelationships_shape _ _ _ _ hr
    refine ⟨⟨hpos, h1, h2, by simp, by simp⟩, rfl, rfl, ?_⟩
    rintro R rfl
    exact ((C16_relationships_checked _ _ _ _).1 hr).1

/-- C16: the same for the 2PL model. -/
theorem C16_twoPL_constructor (items lv : ℕ) (rel : Option (List (List Bool))) (m : TwoPL)
    (h : TwoPL.init items lv rel = .ok m) :
    m.WF ∧ m.items = items ∧ m.lv = lv ∧ ∀ R, rel = some R → m.rel = R := by
  unfold TwoPL.init at h
  cases hr : checkRelationships items lv rel with
  | error e => rw [hr] at h; cases h
  | ok r =>
    rw [hr] at h
    obtain rfl := (Except.ok.inj h).symm
    obtain ⟨h1, h2⟩ := checkRelationships_shape _ _ _ _ hr
    refine ⟨⟨h1, h2, by simp, by simp⟩, rfl, rfl, ?_⟩
    rintro R rfl
    exact ((C16_relationships_checked _ _ _ _).1 hr).1

example : ∃ m, GPC.init 2 [3, 2] (some [[true, false], [true, true]]) = .ok m :=
  ⟨_, by
    have := (C16_relationships_checked 2 2 [[true, false], [true, true]] _).2 ⟨rfl, rfl, by simp, by simp⟩
    simp only [GPC.init, List.length_cons, List.length_nil, Nat.zero_add, Nat.reduceAdd, this]; rfl⟩

/-- C63 (partial credit): with one latent variable the reported `b_k` satisfy
`P(X = k) = P(X = 0) exp(a (k θ - b_k))`. -/
theorem C63_gpc_irt_format (m : GPC) (hwf : m.WF) (hlv : m.lv = 1) (t : ℝ) (j c : ℕ) (a : ℝ) (dl : List ℝ)
    (hc : m.cats[j]? = some c) (hp : m.itemParameters[j]? = some ([a], dl)) (ha : a ≠ 0) :
    ∃ bl p p0, m.itemParametersIrt[j]? = some ([a], bl) ∧ bl.length + 1 = m.M ∧
      (m.probs [t])[j]? = some p ∧ p[0]? = some p0 ∧
      ∀ k, 0 < k → k < c → ∀ b, bl[k - 1]? = some b → p[k]? = some (p0 * Real.exp (a * (k * t - b))) := by
  have hmem := List.mem_of_getElem? hc
  have hcM : c ≤ m.M := le_maxCats _ _ hmem
  have hcpos := hwf.catsPos c hmem
  have hl : dl.length = m.M := by
    obtain ⟨w', dl', hp', hl'⟩ := m.exists_params j (lt_of_getElem?_some hc)
    rw [hp] at hp'
    have := Option.some.inj hp'
    rw [Prod.mk.injEq] at this
    rw [this.2]; exact hl'
  obtain ⟨d, hd⟩ := exists_entry_fun dl
  have hd0 : d 0 = 0 := by
    have hp' := hp
    rw [GPC.itemParameters, List.getElem?_zip_eq_some] at hp'
    have hlen : m.biases.length = m.cats.length * m.M := by
      rw [GPC.biases, length_scatterMask, length_freeMask]
    have e := viewRows_row_entry _ _ _ hlen j dl hp'.2 0 (by omega)
    rw [hd 0 (by omega), GPC.biases] at e
    have hfree := freeMask_getElem? m.M m.cats j 0 c hc (by omega)
    rw [scatterMask_false 0 _ _ _ (by rw [hfree]; simp)] at e
    exact (Option.some.inj e).symm
  have hrow := m.probs_row hwf [t] j c [a] dl d hc hp (fun k hk => hd k (by omega))
  refine ⟨(dl.map fun d => -(d / a)).tail, _,
    1 / ∑ x ∈ Finset.range c, Real.exp (x * dot [t] [a] + d x), ?_, ?_, hrow, ?_, ?_⟩
  · rw [GPC.itemParametersIrt, if_pos hlv, List.getElem?_map, hp]; rfl
  · simp [hl]; omega
  · rw [multinomialLogit, List.getElem?_map, List.getElem?_range (by omega), Option.map_some, if_pos hcpos]
    simp [hd0]
  · intro k hk hkc b hb
    rw [List.getElem?_tail, show k - 1 + 1 = k by omega, List.getElem?_map, hd k (by omega)] at hb
    have hb : -(d k / a) = b := by simpa using hb
    rw [multinomialLogit, List.getElem?_map, List.getElem?_range (by omega), Option.map_some, if_pos hkc]
    have : a * (k * t - b) = k * dot [t] [a] + d k := by
      rw [← hb]
      simp only [dot, List.zipWith_cons_cons, List.zipWith_nil_left, List.sum_cons, List.sum_nil]
      field_simp
      ring
    rw [this]
    congr 1
    ring

example : ∃ m : GPC, m.WF ∧ m.lv = 1 ∧ m.cats[0]? = some 3 ∧ m.itemParameters[0]? = some ([2], [0, 3, 4]) ∧ (2:ℝ) ≠ 0 :=
  ⟨{ lv := 1, cats := [3], rel := [[true]], weight := [2], bias := [3, 4] },
    ⟨by simp, by simp, by simp, by simp [countTrue], by simp⟩, rfl, rfl,
    by simp [GPC.itemParameters, GPC.weights, GPC.biases, GPC.M, maxCats, viewRows, scatterMask, freeMask, freeRow,
      List.range_succ], by norm_num⟩

/-- C63 (partial credit): for several latent variables the flag is not refused, it is ignored. -/
theorem C63_gpc_irt_format_not_refused (m : GPC) (hlv : 1 < m.lv) : m.itemParametersIrt = m.itemParameters := by
  have : m.lv ≠ 1 := by omega
  simp [GPC.itemParametersIrt, this]

example : 1 < exGPC.lv := by simp [exGPC]

end Irt
