import Verif.Lemmas.Categorical

/-! # Nominal response model: rows, constraints, identification -/

namespace Irt

theorem eq_range_map (l : List ℝ) : l = (List.range l.length).map (fun i => l.getD i 0) := by
  apply List.ext_getElem?
  intro i
  by_cases h : i < l.length
  · simp [h, List.getD]
  · rw [List.getElem?_eq_none (by omega), List.getElem?_eq_none (by simp; omega)]

theorem zipWith_range {α β γ : Type*} (n : ℕ) (f : ℕ → α) (g : ℕ → β) (op : α → β → γ) :
    List.zipWith op ((List.range n).map f) ((List.range n).map g)
      = (List.range n).map fun i => op (f i) (g i) := by
  apply List.ext_getElem?
  intro i
  by_cases h : i < n
  · simp [h]
  · rw [List.getElem?_eq_none (by simp; omega), List.getElem?_eq_none (by simp; omega)]

theorem dot_range (n : ℕ) (f g : ℕ → ℝ) :
    dot ((List.range n).map f) ((List.range n).map g) = ∑ i ∈ Finset.range n, f i * g i := by
  unfold dot; rw [zipWith_range, list_sum_range]

/-- Inner product of two lists of the same length as a finite sum. -/
theorem dot_eq_sum (n : ℕ) (x y : List ℝ) (hx : x.length = n) (hy : y.length = n) :
    dot x y = ∑ i ∈ Finset.range n, x.getD i 0 * y.getD i 0 := by
  conv_lhs => rw [eq_range_map x, eq_range_map y, hx, hy]
  rw [dot_range]

theorem dot_comm' (x y : List ℝ) : dot x y = dot y x := by
  unfold dot; rw [List.zipWith_comm]; simp [mul_comm]

theorem length_sumRows (n : ℕ) (rows : List (List ℝ)) (h : ∀ r ∈ rows, r.length = n) :
    (sumRows n rows).length = n := by
  induction rows with
  | nil => simp [sumRows]
  | cons r rows ih =>
    have := ih (fun r' hr' => h r' (by simp [hr']))
    simp only [sumRows, List.foldr_cons] at *
    simp [this, h r (by simp)]

theorem sumRows_getD (n : ℕ) (rows : List (List ℝ)) (h : ∀ r ∈ rows, r.length = n) (i : ℕ)
    (hi : i < n) : (sumRows n rows).getD i 0 = (rows.map fun r => r.getD i 0).sum := by
  induction rows with
  | nil => simp [sumRows, hi]
  | cons r rows ih =>
    have h1 := ih (fun r' hr' => h r' (by simp [hr']))
    have h2 := length_sumRows n rows (fun r' hr' => h r' (by simp [hr']))
    have h3 := h r (by simp)
    simp only [sumRows, List.foldr_cons, List.map_cons, List.sum_cons] at *
    rw [← h1]
    simp [List.getD, hi, h2, h3]

namespace NRM

theorem length_flatBias (m : NRM) :
    (scatterMask (0:ℝ) (freeMask m.M m.cats) m.bias).length = m.cats.length * m.M := by
  rw [length_scatterMask, length_freeMask]

/-- The intercept row of item `j` before and after the constraint. -/
theorem biases_row (m : NRM) (j : ℕ) (dl : List ℝ) (h : m.biases[j]? = some dl) (hM : 0 < m.M) :
    ∃ raw : List ℝ, (viewRows m.cats.length m.M (scatterMask 0 (freeMask m.M m.cats) m.bias))[j]?
      = some raw ∧ raw.length = m.M ∧ dl = (-raw.tail.sum) :: raw.tail := by
  unfold NRM.biases at h
  rw [List.getElem?_map] at h
  cases hr : (viewRows m.cats.length m.M (scatterMask 0 (freeMask m.M m.cats) m.bias))[j]? with
  | none => rw [hr] at h; simp at h
  | some raw =>
    rw [hr] at h
    have hl := mem_viewRows_length _ _ _ m.length_flatBias raw (List.mem_of_getElem? hr)
    refine ⟨raw, rfl, hl, ?_⟩
    cases raw with
    | nil => simp at hl; omega
    | cons a t => simpa using h.symm

theorem length_freeRows (M c lv : ℕ) (r : List Bool) (hr : r.length = lv) :
    (nrmFreeRows M c r).length = M ∧ ∀ x ∈ nrmFreeRows M c r, x.length = lv := by
  constructor
  · simp [nrmFreeRows, length_freeRow]
  · intro x hx
    obtain ⟨b, _, rfl⟩ := List.mem_map.1 hx
    cases b <;> simp [hr]

theorem freeWeights_len (m : NRM) (hwf : m.WF) :
    m.freeWeights.length = m.cats.length * m.M ∧ ∀ x ∈ m.freeWeights, x.length = m.lv := by
  have hz : (List.zipWith (nrmFreeRows m.M) m.cats m.rel).length = m.cats.length := by
    simp [hwf.relLen]
  have hrow : ∀ l ∈ List.zipWith (nrmFreeRows m.M) m.cats m.rel,
      l.length = m.M ∧ ∀ x ∈ l, x.length = m.lv := by
    intro l hl
    obtain ⟨i, hi⟩ := List.mem_iff_getElem?.1 hl
    rw [List.getElem?_zipWith] at hi
    cases h1 : m.cats[i]? with
    | none => rw [h1] at hi; simp at hi
    | some c =>
      cases h2 : m.rel[i]? with
      | none => rw [h1, h2] at hi; simp at hi
      | some r =>
        rw [h1, h2] at hi
        have : nrmFreeRows m.M c r = l := by simpa using hi
        rw [← this]
        exact length_freeRows _ _ _ r (hwf.relRow r (List.mem_of_getElem? h2))
  constructor
  · unfold freeWeights
    rw [length_flatten_const m.M _ (fun l hl => (hrow l hl).1), hz]
  · intro x hx
    unfold freeWeights at hx
    obtain ⟨l, hl, hx⟩ := List.mem_flatten.1 hx
    exact (hrow l hl).2 x hx

theorem freeWeights_getElem? (m : NRM) (hwf : m.WF) (j k c : ℕ) (r : List Bool)
    (hc : m.cats[j]? = some c) (hr : m.rel[j]? = some r) (hk : k < m.M) :
    m.freeWeights[j * m.M + k]?
      = some (if decide (k ≠ 0) && decide (k < c) then r else r.map fun _ => false) := by
  unfold freeWeights
  rw [flatten_getElem? m.M _ _ j k hk]
  · rw [List.getElem?_zipWith, hc, hr]
    simp [nrmFreeRows, freeRow, hk]
  · intro l hl
    obtain ⟨i, hi⟩ := List.mem_iff_getElem?.1 hl
    rw [List.getElem?_zipWith] at hi
    cases h1 : m.cats[i]? with
    | none => rw [h1] at hi; simp at hi
    | some c =>
      cases h2 : m.rel[i]? with
      | none => rw [h1, h2] at hi; simp at hi
      | some r =>
        rw [h1, h2] at hi
        have : nrmFreeRows m.M c r = l := by simpa using hi
        rw [← this]
        exact (length_freeRows _ _ _ r (hwf.relRow r (List.mem_of_getElem? h2))).1

/-- The slope rows (one per category slot) before the constraint. -/
noncomputable def rawRows (m : NRM) : List (List ℝ) :=
  viewRows (m.cats.length * m.M) m.lv (scatterMask 0 m.freeWeights.flatten m.weight)

theorem length_flatWeights (m : NRM) (hwf : m.WF) :
    (scatterMask (0:ℝ) m.freeWeights.flatten m.weight).length = m.cats.length * m.M * m.lv := by
  rw [length_scatterMask, length_flatten_const m.lv _ (m.freeWeights_len hwf).2,
    (m.freeWeights_len hwf).1]

theorem length_rawRows (m : NRM) : m.rawRows.length = m.cats.length * m.M := length_viewRows _ _ _

theorem rawRows_row_length (m : NRM) (hwf : m.WF) : ∀ r ∈ m.rawRows, r.length = m.lv :=
  mem_viewRows_length _ _ _ (m.length_flatWeights hwf)

theorem weights_row (m : NRM) (j : ℕ) (wl : List (List ℝ))
    (h : m.weights[j]? = some wl) (hM : 0 < m.M) :
    ∃ raw : List (List ℝ), (viewRows m.cats.length m.M m.rawRows)[j]? = some raw ∧
      raw.length = m.M ∧ wl = (sumRows m.lv raw.tail).map (fun x => -x) :: raw.tail := by
  unfold NRM.weights at h
  rw [List.getElem?_map] at h
  cases hr : (viewRows m.cats.length m.M m.rawRows)[j]? with
  | none => rw [← rawRows, hr] at h; simp at h
  | some raw =>
    rw [← rawRows, hr] at h
    have hl := mem_viewRows_length _ _ _ m.length_rawRows raw (List.mem_of_getElem? hr)
    refine ⟨raw, rfl, hl, ?_⟩
    cases raw with
    | nil => simp at hl; omega
    | cons a t => simpa using h.symm

theorem weights_rows_length (m : NRM) : ∀ l ∈ m.weights, l.length = m.M := by
  intro l hl
  unfold NRM.weights at hl
  obtain ⟨r, hr, rfl⟩ := List.mem_map.1 hl
  have := mem_viewRows_length _ _ _ m.length_rawRows r hr
  cases r with
  | nil => simpa using this
  | cons a t => simpa using this

theorem biases_rows_length (m : NRM) : ∀ l ∈ m.biases, l.length = m.M := by
  intro l hl
  unfold NRM.biases at hl
  obtain ⟨r, hr, rfl⟩ := List.mem_map.1 hl
  have := mem_viewRows_length _ _ _ m.length_flatBias r hr
  cases r with
  | nil => simpa using this
  | cons a t => simpa using this

theorem length_weights (m : NRM) : m.weights.length = m.cats.length := by
  simp [NRM.weights, length_viewRows]
theorem length_biases (m : NRM) : m.biases.length = m.cats.length := by
  simp [NRM.biases, length_viewRows]

theorem forward_row (m : NRM) (θ : List ℝ) (j c : ℕ)
    (wl : List (List ℝ)) (dl : List ℝ) (w : ℕ → List ℝ) (d : ℕ → ℝ)
    (hc : m.cats[j]? = some c) (hp : m.itemParameters[j]? = some (wl, dl))
    (hw : ∀ k, k < m.M → wl[k]? = some (w k)) (hd : ∀ k, k < m.M → dl[k]? = some (d k)) :
    (viewRows m.cats.length m.M (m.forwardRow θ))[j]?
      = some ((List.range m.M).map fun k =>
          if k < c then Logit.fin (dot θ (w k) + d k) else Logit.negInf) := by
  rw [NRM.itemParameters, List.getElem?_zip_eq_some] at hp
  obtain ⟨hwl, hdl⟩ := hp
  simp only at hwl hdl
  have hj : j < m.cats.length := lt_of_getElem?_some hc
  have h1 := length_flatten_const m.M m.weights m.weights_rows_length
  have h2 := length_flatten_const m.M m.biases m.biases_rows_length
  rw [m.length_weights] at h1
  rw [m.length_biases] at h2
  have hlen : (m.forwardRow θ).length = m.cats.length * m.M := by
    simp only [NRM.forwardRow, maskFill, List.length_zipWith, length_missingMask, List.length_map,
      h1, h2, min_self]
  apply viewRows_row _ _ _ hlen j hj
  intro k hk
  unfold NRM.forwardRow
  rw [maskFill_getElem? _ _ _ _ _ (Logit.fin (dot θ (w k) + d k))
    (missingMask_getElem? m.M _ j k c hc hk)
    (by
      rw [List.getElem?_map, List.getElem?_zipWith, List.getElem?_map,
        flatten_getElem? m.M _ m.weights_rows_length j k hk,
        flatten_getElem? m.M _ m.biases_rows_length j k hk, hwl, hdl, Option.bind_some,
        Option.bind_some, hw k hk, hd k hk]
      rfl)]
  by_cases hkc : k < c
  · have : ¬ c ≤ k := by omega
    simp [hkc, this]
  · have : c ≤ k := by omega
    simp [hkc, this]

theorem probs_row (m : NRM) (θ : List ℝ) (j c : ℕ)
    (wl : List (List ℝ)) (dl : List ℝ) (w : ℕ → List ℝ) (d : ℕ → ℝ)
    (hc : m.cats[j]? = some c) (hp : m.itemParameters[j]? = some (wl, dl))
    (hw : ∀ k, k < m.M → wl[k]? = some (w k)) (hd : ∀ k, k < m.M → dl[k]? = some (d k)) :
    (m.probs θ)[j]? = some (multinomialLogit c m.M fun k => dot θ (w k) + d k) := by
  unfold NRM.probs probabilitiesFromOutput
  rw [List.getElem?_map, m.forward_row θ j c wl dl w d hc hp hw hd, Option.map_some,
    softmax_row c m.M (le_maxCats _ _ (List.mem_of_getElem? hc))]

/-- Intercepts of the category slots an item lacks are zero. -/
theorem bias_missing (m : NRM) (j c k : ℕ) (dl : List ℝ) (hc : m.cats[j]? = some c)
    (hcpos : 0 < c) (h : m.biases[j]? = some dl) (hck : c ≤ k) (hk : k < m.M) :
    dl[k]? = some 0 := by
  obtain ⟨raw, hraw, hl, rfl⟩ := m.biases_row j dl h (by omega)
  have hk0 : k = (k - 1) + 1 := by omega
  rw [hk0, List.getElem?_cons_succ, List.getElem?_tail, ← hk0,
    ← viewRows_row_entry _ _ _ m.length_flatBias j raw hraw k hk]
  apply scatterMask_false
  rw [freeMask_getElem? m.M _ j k c hc hk]
  have : ¬ k < c := by omega
  simp [this]

theorem sum_bias (m : NRM) (j : ℕ) (dl : List ℝ) (hM : 0 < m.M) (h : m.biases[j]? = some dl) :
    dl.sum = 0 := by
  obtain ⟨raw, _, _, rfl⟩ := m.biases_row j dl h hM
  simp

/-- Slope vectors of an item: `lv` entries per category slot. -/
theorem weight_row_length (m : NRM) (hwf : m.WF) (j : ℕ) (wl : List (List ℝ)) (hM : 0 < m.M)
    (h : m.weights[j]? = some wl) : ∀ w ∈ wl, w.length = m.lv := by
  obtain ⟨raw, hraw, hl, rfl⟩ := m.weights_row j wl h hM
  have hmem : ∀ r ∈ raw, r.length = m.lv := by
    intro r hr
    apply m.rawRows_row_length hwf
    rw [← flatten_viewRows _ _ _ m.length_rawRows]
    exact List.mem_flatten.2 ⟨raw, List.mem_of_getElem? hraw, hr⟩
  have htail : ∀ r ∈ raw.tail, r.length = m.lv := fun r hr => hmem r (List.mem_of_mem_tail hr)
  intro w hw
  rcases List.mem_cons.1 hw with rfl | hw
  · rw [List.length_map, length_sumRows _ _ htail]
  · exact htail w hw

theorem sum_weight (m : NRM) (hwf : m.WF) (j : ℕ) (wl : List (List ℝ)) (hM : 0 < m.M)
    (h : m.weights[j]? = some wl) (i : ℕ) (hi : i < m.lv) :
    (wl.map fun w => w.getD i 0).sum = 0 := by
  have hlen := m.weight_row_length hwf j wl hM h
  obtain ⟨raw, hraw, hl, rfl⟩ := m.weights_row j wl h hM
  have htail : ∀ r ∈ raw.tail, r.length = m.lv := fun r hr => hlen r (by simp [hr])
  have hs := sumRows_getD m.lv raw.tail htail i hi
  have hsl := length_sumRows m.lv raw.tail htail
  rw [List.map_cons, List.sum_cons, ← hs]
  simp [List.getD, hi, hsl]

/-- A slope is zero for a missing category slot, and for a latent variable the item is unrelated to. -/
theorem raw_weight_zero (m : NRM) (hwf : m.WF) (j c k i : ℕ) (r : List Bool)
    (hc : m.cats[j]? = some c) (hr : m.rel[j]? = some r) (hk : k < m.M) (hi : i < m.lv)
    (hz : k = 0 ∨ c ≤ k ∨ r[i]? = some false) (raw : List (List ℝ))
    (hraw : (viewRows m.cats.length m.M m.rawRows)[j]? = some raw) (row : List ℝ)
    (hrow : raw[k]? = some row) : row[i]? = some 0 := by
  have e1 := viewRows_row_entry _ _ _ m.length_rawRows j raw hraw k hk
  rw [hrow] at e1
  have e2 := viewRows_row_entry _ _ _ (m.length_flatWeights hwf) (j * m.M + k) row e1 i hi
  rw [← e2]
  apply scatterMask_false
  rw [flatten_getElem? m.lv _ (m.freeWeights_len hwf).2 _ i hi,
    m.freeWeights_getElem? hwf j k c r hc hr hk, Option.bind_some]
  have hrl : r.length = m.lv := hwf.relRow r (List.mem_of_getElem? hr)
  have hri : r[i]? = some r[i] := List.getElem?_eq_getElem (by omega)
  rcases hz with rfl | h | h
  · simp [hrl, hi]
  · have : ¬ k < c := by omega
    simp [this, hrl, hi]
  · by_cases hb : decide (k ≠ 0) && decide (k < c)
    · rw [if_pos hb, h]
    · rw [if_neg hb]; simp [hrl, hi]

theorem weight_zero (m : NRM) (hwf : m.WF) (j c k i : ℕ) (r : List Bool) (wl : List (List ℝ))
    (hc : m.cats[j]? = some c) (hr : m.rel[j]? = some r) (h : m.weights[j]? = some wl)
    (hk : k < m.M) (hi : i < m.lv) (hcpos : 0 < c)
    (hz : c ≤ k ∨ r[i]? = some false) (w : List ℝ) (hw : wl[k]? = some w) : w.getD i 0 = 0 := by
  obtain ⟨raw, hraw, hl, rfl⟩ := m.weights_row j wl h (by omega)
  cases k with
  | zero =>
    have hri : r[i]? = some false := hz.resolve_left (by omega)
    have htail : ∀ r ∈ raw.tail, r.length = m.lv :=
      fun r hr => m.weight_row_length hwf j _ hk h r (by simp [hr])
    simp only [List.getElem?_cons_zero, Option.some.injEq] at hw
    have hsum : (raw.tail.map fun r => r.getD i 0).sum = 0 := by
      apply List.sum_eq_zero
      intro x hx
      obtain ⟨row, hrow, rfl⟩ := List.mem_map.1 hx
      obtain ⟨q, hq⟩ := List.mem_iff_getElem?.1 hrow
      rw [List.getElem?_tail] at hq
      have hqM : q + 1 < m.M := by rw [← hl]; exact lt_of_getElem?_some hq
      have := m.raw_weight_zero hwf j c (q + 1) i r hc hr hqM hi (Or.inr (Or.inr hri)) raw hraw row hq
      simp [List.getD, this]
    have hs := sumRows_getD m.lv raw.tail htail i hi
    have hsl := length_sumRows m.lv raw.tail htail
    rw [hsum] at hs
    subst hw
    simp only [List.getD, List.getElem?_map] at hs ⊢
    rw [List.getElem?_eq_getElem (by omega)] at hs ⊢
    simp only [Option.getD_some, Option.map_some] at hs ⊢
    rw [hs, neg_zero]
  | succ k =>
    rw [List.getElem?_cons_succ, List.getElem?_tail] at hw
    have := m.raw_weight_zero hwf j c (k + 1) i r hc hr hk hi (Or.inr hz) raw hraw w hw
    simp [List.getD, this]

/-- Two multinomial logits with logits summing to zero over the categories have equal logits when
they give equal probabilities. -/
theorem _root_.Irt.multinomialLogit_inj (c M : ℕ) (hc : 0 < c) (h : c ≤ M) (l₁ l₂ : ℕ → ℝ)
    (h₁ : ∑ k ∈ Finset.range c, l₁ k = 0) (h₂ : ∑ k ∈ Finset.range c, l₂ k = 0)
    (heq : multinomialLogit c M l₁ = multinomialLogit c M l₂) :
    ∀ k, k < c → l₁ k = l₂ k := by
  have hp1 := sum_exp_range_pos c hc l₁
  have hp2 := sum_exp_range_pos c hc l₂
  set s₁ := ∑ x ∈ Finset.range c, Real.exp (l₁ x) with hs1
  set s₂ := ∑ x ∈ Finset.range c, Real.exp (l₂ x) with hs2
  have hk : ∀ k, k < c → l₁ k - Real.log s₁ = l₂ k - Real.log s₂ := by
    intro k hkc
    have hM : k < M := by omega
    have := congrArg (fun l => l[k]?) heq
    simp only [multinomialLogit, List.getElem?_map, List.getElem?_range hM, Option.map_some, hkc,
      if_true, Option.some.injEq, ← hs1, ← hs2] at this
    have h3 := congrArg Real.log this
    rw [Real.log_div (Real.exp_pos _).ne' hp1.ne', Real.log_div (Real.exp_pos _).ne' hp2.ne',
      Real.log_exp, Real.log_exp] at h3
    exact h3
  have hsum : ∑ k ∈ Finset.range c, (l₁ k - Real.log s₁)
      = ∑ k ∈ Finset.range c, (l₂ k - Real.log s₂) :=
    Finset.sum_congr rfl (fun k hk' => hk k (Finset.mem_range.1 hk'))
  rw [Finset.sum_sub_distrib, Finset.sum_sub_distrib, h₁, h₂] at hsum
  simp only [Finset.sum_const, Finset.card_range, nsmul_eq_mul] at hsum
  have hcR : (c : ℝ) ≠ 0 := by positivity
  have hlog : Real.log s₁ = Real.log s₂ := by
    apply mul_left_cancel₀ hcR
    linarith
  intro k hkc
  have := hk k hkc
  linarith

theorem sum_list_eq_range (n : ℕ) (l : List ℝ) (f : ℕ → ℝ) (hl : l.length = n)
    (h : ∀ k, k < n → l[k]? = some (f k)) : l.sum = ∑ k ∈ Finset.range n, f k := by
  rw [← list_sum_range]
  congr 1
  apply List.ext_getElem?
  intro k
  by_cases hk : k < n
  · rw [h k hk]; simp [hk]
  · rw [List.getElem?_eq_none (by omega), List.getElem?_eq_none (by simp; omega)]

/-- The logits of the existing categories of an item sum to zero at every `θ`. -/
theorem sum_logits (m : NRM) (hwf : m.WF) (θ : List ℝ) (hθ : θ.length = m.lv) (j c : ℕ)
    (wl : List (List ℝ)) (dl : List ℝ) (w : ℕ → List ℝ) (d : ℕ → ℝ)
    (hc : m.cats[j]? = some c) (hp : m.itemParameters[j]? = some (wl, dl))
    (hw : ∀ k, k < m.M → wl[k]? = some (w k)) (hd : ∀ k, k < m.M → dl[k]? = some (d k)) :
    ∑ k ∈ Finset.range c, (dot θ (w k) + d k) = 0 := by
  rw [NRM.itemParameters, List.getElem?_zip_eq_some] at hp
  obtain ⟨hwl, hdl⟩ := hp
  simp only at hwl hdl
  have hcpos : 0 < c := hwf.catsPos c (List.mem_of_getElem? hc)
  have hcM : c ≤ m.M := le_maxCats _ _ (List.mem_of_getElem? hc)
  have hM : 0 < m.M := by omega
  have hj : j < m.cats.length := lt_of_getElem?_some hc
  obtain ⟨r, hr⟩ := getElem?_of_lt m.rel j (by rw [hwf.relLen]; exact hj)
  have hwlen : ∀ k, k < m.M → (w k).length = m.lv := fun k hk =>
    m.weight_row_length hwf j wl hM hwl _ (List.mem_of_getElem? (hw k hk))
  have hdl_len : dl.length = m.M := m.biases_rows_length dl (List.mem_of_getElem? hdl)
  have hwl_len : wl.length = m.M := m.weights_rows_length wl (List.mem_of_getElem? hwl)
  rw [Finset.sum_add_distrib]
  have hdsum : ∑ k ∈ Finset.range c, d k = 0 := by
    have h0 := m.sum_bias j dl hM hdl
    rw [sum_list_eq_range m.M dl d hdl_len hd] at h0
    refine Eq.trans ?_ h0
    rw [← sum_range_ite c m.M hcM]
    apply Finset.sum_congr rfl
    intro k hk
    have hk := Finset.mem_range.1 hk
    by_cases hkc : k < c
    · simp [hkc]
    · have h1 := m.bias_missing j c k dl hc hcpos hdl (by omega) hk
      rw [hd k hk] at h1
      have h2 : d k = 0 := by simpa using h1
      simp [hkc, h2]
  have hwsum : ∑ k ∈ Finset.range c, dot θ (w k) = 0 := by
    have e : ∀ k ∈ Finset.range c, dot θ (w k)
        = ∑ i ∈ Finset.range m.lv, θ.getD i 0 * (w k).getD i 0 := by
      intro k hk
      have hk := Finset.mem_range.1 hk
      exact dot_eq_sum m.lv θ (w k) hθ (hwlen k (by omega))
    rw [Finset.sum_congr rfl e, Finset.sum_comm]
    apply Finset.sum_eq_zero
    intro i hi
    have hi := Finset.mem_range.1 hi
    rw [← Finset.mul_sum]
    have h0 := m.sum_weight hwf j wl hM hwl i hi
    rw [sum_list_eq_range m.M (wl.map fun w => w.getD i 0) (fun k => (w k).getD i 0)
      (by simp [hwl_len]) (by intro k hk; rw [List.getElem?_map, hw k hk]; rfl)] at h0
    have : ∑ k ∈ Finset.range c, (w k).getD i 0 = 0 := by
      refine Eq.trans ?_ h0
      rw [← sum_range_ite c m.M hcM]
      apply Finset.sum_congr rfl
      intro k hk
      have hk := Finset.mem_range.1 hk
      by_cases hkc : k < c
      · simp [hkc]
      · have h2 := m.weight_zero hwf j c k i r wl hc hr hwl hk hi hcpos (Or.inl (by omega)) _ (hw k hk)
        rw [if_neg hkc, h2]
    rw [this, mul_zero]
  rw [hdsum, hwsum, add_zero]

/-- A list known entrywise. -/
theorem _root_.Irt.exists_entry_fun {α : Type*} [Inhabited α] (l : List α) :
    ∃ f : ℕ → α, ∀ k, k < l.length → l[k]? = some (f k) :=
  ⟨fun k => l.getD k default, fun k hk => by simp [List.getD, hk]⟩

theorem identified (m₁ m₂ : NRM) (h₁ : m₁.WF) (h₂ : m₂.WF) (hlv : m₁.lv = m₂.lv)
    (hcats : m₁.cats = m₂.cats) (hrel : m₁.rel = m₂.rel)
    (h : ∀ θ : List ℝ, θ.length = m₁.lv → m₁.probs θ = m₂.probs θ) :
    m₁.weight = m₂.weight ∧ m₁.bias = m₂.bias := by
  have hMM : m₁.M = m₂.M := by simp [NRM.M, hcats]
  have hfw : m₁.freeWeights = m₂.freeWeights := by simp [NRM.freeWeights, hMM, hcats, hrel]
  -- parameters of every item agree
  have item : ∀ (j c : ℕ) (wl₁ : List (List ℝ)) (dl₁ : List ℝ) (wl₂ : List (List ℝ)) (dl₂ : List ℝ), m₁.cats[j]? = some c →
      m₁.weights[j]? = some wl₁ → m₁.biases[j]? = some dl₁ →
      m₂.weights[j]? = some wl₂ → m₂.biases[j]? = some dl₂ → wl₁ = wl₂ ∧ dl₁ = dl₂ := by
    intro j c wl₁ dl₁ wl₂ dl₂ hc hw1 hd1 hw2 hd2
    have hc2 : m₂.cats[j]? = some c := hcats ▸ hc
    have hcpos : 0 < c := h₁.catsPos c (List.mem_of_getElem? hc)
    have hcM : c ≤ m₁.M := le_maxCats _ _ (List.mem_of_getElem? hc)
    have hM : 0 < m₁.M := by omega
    have hM2 : 0 < m₂.M := by omega
    have lw1 := m₁.weights_rows_length wl₁ (List.mem_of_getElem? hw1)
    have lw2 := m₂.weights_rows_length wl₂ (List.mem_of_getElem? hw2)
    have ld1 := m₁.biases_rows_length dl₁ (List.mem_of_getElem? hd1)
    have ld2 := m₂.biases_rows_length dl₂ (List.mem_of_getElem? hd2)
    obtain ⟨w1, ew1⟩ := exists_entry_fun wl₁
    obtain ⟨w2, ew2⟩ := exists_entry_fun wl₂
    obtain ⟨d1, ed1⟩ := exists_entry_fun dl₁
    obtain ⟨d2, ed2⟩ := exists_entry_fun dl₂
    rw [lw1] at ew1; rw [lw2] at ew2; rw [ld1] at ed1; rw [ld2] at ed2
    have hp1 : m₁.itemParameters[j]? = some (wl₁, dl₁) := by
      rw [NRM.itemParameters, List.getElem?_zip_eq_some]; exact ⟨hw1, hd1⟩
    have hp2 : m₂.itemParameters[j]? = some (wl₂, dl₂) := by
      rw [NRM.itemParameters, List.getElem?_zip_eq_some]; exact ⟨hw2, hd2⟩
    have hj : j < m₁.cats.length := lt_of_getElem?_some hc
    obtain ⟨r, hr⟩ := getElem?_of_lt m₁.rel j (by rw [h₁.relLen]; exact hj)
    have hr2 : m₂.rel[j]? = some r := hrel ▸ hr
    have logits : ∀ θ : List ℝ, θ.length = m₁.lv → ∀ k, k < c →
        dot θ (w1 k) + d1 k = dot θ (w2 k) + d2 k := by
      intro θ hθ
      have e := congrArg (fun l => l[j]?) (h θ hθ)
      rw [m₁.probs_row θ j c wl₁ dl₁ w1 d1 hc hp1 ew1 ed1,
        m₂.probs_row θ j c wl₂ dl₂ w2 d2 hc2 hp2 ew2 ed2, hMM] at e
      exact multinomialLogit_inj c m₂.M hcpos (by omega) _ _
        (m₁.sum_logits h₁ θ hθ j c wl₁ dl₁ w1 d1 hc hp1 ew1 ed1)
        (m₂.sum_logits h₂ θ (by omega) j c wl₂ dl₂ w2 d2 hc2 hp2 ew2 ed2) (by simpa using e)
    have hwl1 : ∀ k, k < m₁.M → (w1 k).length = m₁.lv := fun k hk =>
      m₁.weight_row_length h₁ j wl₁ hM hw1 _ (List.mem_of_getElem? (ew1 k hk))
    have hwl2 : ∀ k, k < m₁.M → (w2 k).length = m₁.lv := fun k hk => by
      rw [m₂.weight_row_length h₂ j wl₂ hM2 hw2 _ (List.mem_of_getElem? (ew2 k (by omega))), hlv]
    have dEq : ∀ k, k < m₁.M → d1 k = d2 k := by
      intro k hk
      by_cases hkc : k < c
      · have := logits ((List.range m₁.lv).map fun _ => 0) (by simp) k hkc
        rw [dot_eq_sum m₁.lv _ _ (by simp) (hwl1 k hk), dot_eq_sum m₁.lv _ _ (by simp) (hwl2 k hk)] at this
        have z : ∀ v : List ℝ, ∑ i ∈ Finset.range m₁.lv,
            ((List.range m₁.lv).map fun _ => (0:ℝ)).getD i 0 * v.getD i 0 = 0 := by
          intro v
          apply Finset.sum_eq_zero
          intro i hi
          have hi := Finset.mem_range.1 hi
          simp [hi]
        rw [z, z] at this
        linarith
      · have a1 := m₁.bias_missing j c k dl₁ hc hcpos hd1 (by omega) hk
        have a2 := m₂.bias_missing j c k dl₂ hc2 hcpos hd2 (by omega) (by omega)
        rw [ed1 k hk] at a1
        rw [ed2 k (by omega)] at a2
        have a1 : d1 k = 0 := by simpa using a1
        have a2 : d2 k = 0 := by simpa using a2
        rw [a1, a2]
    have wEq : ∀ k, k < m₁.M → w1 k = w2 k := by
      intro k hk
      rw [eq_range_map (w1 k), eq_range_map (w2 k), hwl1 k hk, hwl2 k hk]
      apply List.map_congr_left
      intro i hi
      have hi := List.mem_range.1 hi
      by_cases hkc : k < c
      · have := logits ((List.range m₁.lv).map fun q => if q = i then 1 else 0) (by simp) k hkc
        rw [dot_eq_sum m₁.lv _ _ (by simp) (hwl1 k hk), dot_eq_sum m₁.lv _ _ (by simp) (hwl2 k hk),
          dEq k hk] at this
        have z : ∀ v : List ℝ, ∑ q ∈ Finset.range m₁.lv,
            ((List.range m₁.lv).map fun q => if q = i then (1:ℝ) else 0).getD q 0 * v.getD q 0
            = v.getD i 0 := by
          intro v
          rw [Finset.sum_eq_single i]
          · simp [hi]
          · intro q hq hne
            have hq := Finset.mem_range.1 hq
            simp [List.getD, hq, hne]
          · intro hni; exact absurd (Finset.mem_range.2 hi) hni
        rw [z, z] at this
        linarith
      · rw [m₁.weight_zero h₁ j c k i r wl₁ hc hr hw1 hk hi hcpos (Or.inl (by omega)) _ (ew1 k hk),
          m₂.weight_zero h₂ j c k i r wl₂ hc2 hr2 hw2 (by omega) (by omega) hcpos (Or.inl (by omega)) _
            (ew2 k (by omega))]
    constructor
    · apply List.ext_getElem?
      intro k
      by_cases hk : k < m₁.M
      · rw [ew1 k hk, ew2 k (by omega), wEq k hk]
      · rw [List.getElem?_eq_none (by omega), List.getElem?_eq_none (by omega)]
    · apply List.ext_getElem?
      intro k
      by_cases hk : k < m₁.M
      · rw [ed1 k hk, ed2 k (by omega), dEq k hk]
      · rw [List.getElem?_eq_none (by omega), List.getElem?_eq_none (by omega)]
  have hrows : ∀ j, j < m₁.cats.length → ∃ c wl dl, m₁.cats[j]? = some c ∧
      m₁.weights[j]? = some wl ∧ m₁.biases[j]? = some dl ∧
      m₂.weights[j]? = some wl ∧ m₂.biases[j]? = some dl := by
    intro j hj
    obtain ⟨c, hc⟩ := getElem?_of_lt m₁.cats j hj
    obtain ⟨a, ha⟩ := getElem?_of_lt m₁.weights j (by rw [m₁.length_weights]; exact hj)
    obtain ⟨b, hb⟩ := getElem?_of_lt m₁.biases j (by rw [m₁.length_biases]; exact hj)
    obtain ⟨a', ha'⟩ := getElem?_of_lt m₂.weights j (by rw [m₂.length_weights, ← hcats]; exact hj)
    obtain ⟨b', hb'⟩ := getElem?_of_lt m₂.biases j (by rw [m₂.length_biases, ← hcats]; exact hj)
    obtain ⟨rfl, rfl⟩ := item j c a b a' b' hc ha hb ha' hb'
    exact ⟨c, a, b, hc, ha, hb, ha', hb'⟩
  have bl1 := h₁.biasLen
  have bl2 := h₂.biasLen
  constructor
  · -- weights
    have hflat : scatterMask (0:ℝ) m₁.freeWeights.flatten m₁.weight
        = scatterMask 0 m₂.freeWeights.flatten m₂.weight := by
      have raweq : m₁.rawRows = m₂.rawRows := by
        rw [← flatten_viewRows _ _ _ m₁.length_rawRows, ← flatten_viewRows _ _ _ m₂.length_rawRows]
        congr 1
        apply List.ext_getElem?
        intro j
        by_cases hj : j < m₁.cats.length
        · obtain ⟨c, wl, dl, hc, ha, hb, ha', hb'⟩ := hrows j hj
          have hcpos : 0 < c := h₁.catsPos c (List.mem_of_getElem? hc)
          have hcM : c ≤ m₁.M := le_maxCats _ _ (List.mem_of_getElem? hc)
          obtain ⟨raw1, hraw1, hl1, e1⟩ := m₁.weights_row j wl ha (by omega)
          obtain ⟨raw2, hraw2, hl2, e2⟩ := m₂.weights_row j wl ha' (by omega)
          rw [hraw1, hraw2]
          congr 1
          have ht : raw1.tail = raw2.tail := by
            rw [e1] at e2
            exact (List.cons.inj e2).2
          obtain ⟨r, hr⟩ := getElem?_of_lt m₁.rel j (by rw [h₁.relLen]; exact hj)
          have hr2 : m₂.rel[j]? = some r := hrel ▸ hr
          have hc2 : m₂.cats[j]? = some c := hcats ▸ hc
          cases raw1 with
          | nil => simp at hl1; omega
          | cons x1 t1 =>
            cases raw2 with
            | nil => simp at hl2; omega
            | cons x2 t2 =>
              simp only [List.tail_cons] at ht
              subst ht
              congr 1
              have mem1 : x1 ∈ m₁.rawRows := by
                rw [← flatten_viewRows _ _ _ m₁.length_rawRows]
                exact List.mem_flatten.2 ⟨_, List.mem_of_getElem? hraw1, by simp⟩
              have mem2 : x2 ∈ m₂.rawRows := by
                rw [← flatten_viewRows _ _ _ m₂.length_rawRows]
                exact List.mem_flatten.2 ⟨_, List.mem_of_getElem? hraw2, by simp⟩
              have lx1 := m₁.rawRows_row_length h₁ x1 mem1
              have lx2 := m₂.rawRows_row_length h₂ x2 mem2
              apply List.ext_getElem?
              intro i
              by_cases hi : i < m₁.lv
              · rw [m₁.raw_weight_zero h₁ j c 0 i r hc hr (by omega) hi (Or.inl rfl) _ hraw1 x1 (by simp),
                  m₂.raw_weight_zero h₂ j c 0 i r hc2 hr2 (by omega) (by omega) (Or.inl rfl) _ hraw2 x2
                    (by simp)]
              · rw [List.getElem?_eq_none (by omega), List.getElem?_eq_none (by omega)]
        · rw [List.getElem?_eq_none (by rw [length_viewRows]; omega),
            List.getElem?_eq_none (by rw [length_viewRows, ← hcats]; omega)]
      unfold rawRows at raweq
      rw [← flatten_viewRows _ _ _ (m₁.length_flatWeights h₁),
        ← flatten_viewRows _ _ _ (m₂.length_flatWeights h₂), raweq]
    rw [← gather_scatterMask 0 _ m₁.weight h₁.weightLen,
      ← gather_scatterMask 0 _ m₂.weight h₂.weightLen, hflat, hfw]
  · have hle1 : ∀ c ∈ m₁.cats, c ≤ m₁.M := fun c hc => le_maxCats _ _ hc
    have hle2 : ∀ c ∈ m₂.cats, c ≤ m₂.M := fun c hc => le_maxCats _ _ hc
    have hflat : scatterMask (0:ℝ) (freeMask m₁.M m₁.cats) m₁.bias
        = scatterMask 0 (freeMask m₂.M m₂.cats) m₂.bias := by
      rw [← flatten_viewRows _ _ _ m₁.length_flatBias, ← flatten_viewRows _ _ _ m₂.length_flatBias]
      congr 1
      apply List.ext_getElem?
      intro j
      by_cases hj : j < m₁.cats.length
      · obtain ⟨c, wl, dl, hc, ha, hb, ha', hb'⟩ := hrows j hj
        have hc2 : m₂.cats[j]? = some c := hcats ▸ hc
        have hcpos : 0 < c := h₁.catsPos c (List.mem_of_getElem? hc)
        have hcM : c ≤ m₁.M := le_maxCats _ _ (List.mem_of_getElem? hc)
        obtain ⟨raw1, hraw1, hl1, e1⟩ := m₁.biases_row j dl hb (by omega)
        obtain ⟨raw2, hraw2, hl2, e2⟩ := m₂.biases_row j dl hb' (by omega)
        rw [hraw1, hraw2]
        congr 1
        have ht : raw1.tail = raw2.tail := by
          rw [e1] at e2
          exact (List.cons.inj e2).2
        have z1 : raw1[0]? = some 0 := by
          rw [← viewRows_row_entry _ _ _ m₁.length_flatBias j raw1 hraw1 0 (by omega)]
          apply scatterMask_false
          rw [freeMask_getElem? m₁.M _ j 0 c hc (by omega)]; simp
        have z2 : raw2[0]? = some 0 := by
          rw [← viewRows_row_entry _ _ _ m₂.length_flatBias j raw2 hraw2 0 (by omega)]
          apply scatterMask_false
          rw [freeMask_getElem? m₂.M _ j 0 c hc2 (by omega)]; simp
        cases raw1 with
        | nil => simp at hl1; omega
        | cons x1 t1 =>
          cases raw2 with
          | nil => simp at hl2; omega
          | cons x2 t2 =>
            simp only [List.tail_cons] at ht
            simp at z1 z2
            rw [ht, z1, z2]
      · rw [List.getElem?_eq_none (by rw [length_viewRows]; omega),
          List.getElem?_eq_none (by rw [length_viewRows, ← hcats]; omega)]
    rw [← gather_scatterMask 0 _ m₁.bias (by rw [count_freeMask _ _ h₁.catsPos hle1]; exact bl1),
      ← gather_scatterMask 0 _ m₂.bias (by rw [count_freeMask _ _ h₂.catsPos hle2]; exact bl2), hflat,
      hMM, hcats]

end NRM

end Irt
