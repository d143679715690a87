import Verif.Props.Categorical

/-! # Property C04: graded response probabilities; C63 for 3PL, GRM and GPC -/

namespace Irt

/-- C04, first half: for every parameter vector the category values of an item sum to one and are zero
for categories the item lacks. -/
theorem C04_grm_sum_one (m : GRM) (hwf : m.WF) (θ : List ℝ) (j c : ℕ) (hc : m.cats[j]? = some c) :
    ∃ p, (m.probs θ)[j]? = some p ∧ p.length = m.M ∧ p.sum = 1 ∧
      ∀ k, c ≤ k → k < m.M → p[k]? = some 0 := by
  obtain ⟨w, dl, hp, hl⟩ := m.exists_params j (lt_of_getElem?_some hc)
  obtain ⟨d, hd⟩ := m.exists_thresholds dl hl
  have hmem := List.mem_of_getElem? hc
  have hcpos := hwf.catsPos c hmem
  have hcM : c ≤ m.M := le_maxCats _ _ hmem
  refine ⟨_, m.probs_row' θ j c w dl d hc hp hd, by simp, ?_, ?_⟩
  · rw [sum_telescope, grmGeq_last c m.M hcpos hcM]
    simp [grmGeq]
  · intro k hck hk
    rw [List.getElem?_map, List.getElem?_range hk, Option.map_some,
      grmGeq_last c k hcpos hck, grmGeq_last c (k + 1) hcpos (by omega)]
    simp

example : exGRM.WF ∧ exGRM.cats[0]? = some 3 := ⟨exGRM_wf, by simp [exGRM]⟩

/-- C04: at any latent trait vector, the category values of an item are all nonnegative exactly when the
item's reported intercepts `d_1, d_2, …` do not increase. -/
theorem C04_grm_nonneg_iff (m : GRM) (θ : List ℝ) (j c : ℕ) (w dl : List ℝ) (d : ℕ → ℝ)
    (hc : m.cats[j]? = some c) (hp : m.itemParameters[j]? = some (w, dl))
    (hd : ∀ k, k + 1 < m.M → dl[k]? = some (d (k + 1))) :
    (∀ p, (m.probs θ)[j]? = some p → ∀ x ∈ p, 0 ≤ x)
      ↔ ∀ k, 0 < k → k + 1 < c → d (k + 1) ≤ d k := by
  have hcM : c ≤ m.M := le_maxCats _ _ (List.mem_of_getElem? hc)
  have hpr := m.probs_row' θ j c w dl d hc hp hd
  constructor
  · intro h k hk hkc
    have := h _ hpr _ (List.mem_map.2 ⟨k, List.mem_range.2 (by omega), rfl⟩)
    exact (grm_step_nonneg_iff c k _ d).1 this hk hkc
  · intro h p hp' x hx
    rw [hpr] at hp'
    obtain rfl := Option.some.inj hp'
    obtain ⟨k, _, rfl⟩ := List.mem_map.1 hx
    exact (grm_step_nonneg_iff c k _ d).2 (fun h1 h2 => h k h1 h2)

/-- C04, the part that holds: with non-increasing intercepts the probabilities of an item form a
distribution. Missing with respect to C04: nothing in the code keeps the intercepts ordered, see
`C04_grm_negative_probability`. -/
theorem C04_grm_distribution_partial (m : GRM) (hwf : m.WF) (θ : List ℝ) (j c : ℕ) (w dl : List ℝ)
    (d : ℕ → ℝ) (hc : m.cats[j]? = some c) (hp : m.itemParameters[j]? = some (w, dl))
    (hd : ∀ k, k + 1 < m.M → dl[k]? = some (d (k + 1)))
    (hord : ∀ k, 0 < k → k + 1 < c → d (k + 1) ≤ d k) :
    ∃ p, (m.probs θ)[j]? = some p ∧ IsDistribution c m.M p := by
  obtain ⟨p, hpp, hlen, hsum, hmiss⟩ := C04_grm_sum_one m hwf θ j c hc
  have hnn := (C04_grm_nonneg_iff m θ j c w dl d hc hp hd).2 hord p hpp
  refine ⟨p, hpp, hlen, hnn, ?_, hsum, hmiss⟩
  intro x hx
  rw [← hsum]
  exact List.single_le_sum hnn x hx

/-- C04 is false of the code: a reachable parameter vector (three categories, intercepts `-1, 1`, as an
unconstrained optimiser can produce) gives a negative "probability" at every latent trait value. -/
theorem C04_grm_negative_probability :
    ∃ m : GRM, m.WF ∧ ∀ θ : List ℝ, ∃ p, (m.probs θ)[0]? = some p ∧ ∃ x ∈ p, x < 0 := by
  let m : GRM := { lv := 1, cats := [3], rel := [[true]], weight := [1], bias := [-1, 1] }
  have hM : m.M = 3 := by simp [m, GRM.M, maxCats]
  have hp : m.itemParameters[0]? = some (([1] : List ℝ), ([-1, 1] : List ℝ)) := by
    simp [m, GRM.itemParameters, GRM.weights, GRM.biases, viewRows, scatterMask, GRM.M, maxCats,
      freeMask, freeRow, List.range_succ]
  have hwf : m.WF := ⟨by simp [m], by simp [m], by simp [m], by simp [m, countTrue],
    by simp [m, countTrue, GRM.M, maxCats, freeMask, freeRow, List.range_succ]⟩
  refine ⟨m, hwf, ?_⟩
  intro θ
  obtain ⟨p, hpp, _⟩ := C04_grm_sum_one m hwf θ 0 3 (by simp [m])
  refine ⟨p, hpp, ?_⟩
  by_contra hcon
  push Not at hcon
  have hd : ∀ k, k + 1 < m.M → ([-1, 1] : List ℝ)[k]? = some ((fun k : ℕ => if k = 1 then (-1:ℝ) else 1) (k + 1)) := by
    intro k hk
    have hk2 : k < 2 := by omega
    interval_cases k <;> simp
  have := (C04_grm_nonneg_iff m θ 0 3 [1] [-1, 1]
    (fun k : ℕ => if k = 1 then (-1:ℝ) else 1) (by simp [m]) hp hd).1
    (by intro p' hp' x hx; rw [hpp] at hp'; obtain rfl := Option.some.inj hp'; exact hcon x hx)
  have h1 := this 1 (by norm_num) (by norm_num)
  norm_num at h1

/-- C04: a freshly created (or reset) graded response model is valid, whatever the random weights. -/
theorem C04_grm_reset_distribution (m : GRM) (ws : List ℝ) (hwf : (m.reset ws).WF) (θ : List ℝ)
    (j c : ℕ) (hc : m.cats[j]? = some c) :
    ∃ p, ((m.reset ws).probs θ)[j]? = some p ∧ IsDistribution c m.M p := by
  have hc' : (m.reset ws).cats[j]? = some c := hc
  have hmem := List.mem_of_getElem? hc
  have hcM : c ≤ (m.reset ws).M := le_maxCats _ _ hmem
  obtain ⟨w, dl, hp, hl⟩ := (m.reset ws).exists_params j (lt_of_getElem?_some hc')
  obtain ⟨d, hd⟩ := (m.reset ws).exists_thresholds dl hl
  refine C04_grm_distribution_partial (m.reset ws) hwf θ j c w dl d hc' hp hd ?_
  intro k hk hkc
  obtain ⟨k, rfl⟩ : ∃ k', k = k' + 1 := ⟨k - 1, by omega⟩
  have hpos : ∀ c ∈ m.cats, 0 < c := hwf.catsPos
  have e1 := m.reset_entry hpos ws j c w dl hc hp k (by omega)
  have e2 := m.reset_entry hpos ws j c w dl hc hp (k + 1) (by omega)
  rw [hd k (by omega)] at e1
  rw [hd (k + 1) (by omega)] at e2
  exact (grmStart_decreasing (c - 1) k (by omega) _ _ e1.symm e2.symm).le

example : (exGRM.reset [1, 2, 3]).WF ∧ exGRM.cats[0]? = some 3 := by
  refine ⟨⟨?_, ?_, ?_, ?_, ?_⟩, by simp [exGRM]⟩
  · exact exGRM_wf.catsPos
  · exact exGRM_wf.relLen
  · exact exGRM_wf.relRow
  · simp [GRM.reset, exGRM, countTrue]
  · show (gatherMask _ _).length = _
    apply length_gatherMask
    rw [length_freeMask]
    apply length_flatMap_const
    intro l _
    rw [length_scatterMask, length_freeRow]

/-! ## C63: `irt_format` of the 3PL, GRM and GPC -/

/-- C63 (3PL): `P(X=1) = c + (1-c) logistic(a (θ - b))`. -/
theorem C63_threePL_irt_format (m : ThreePL) (hlv : m.lv = 1) (t : ℝ) (j : ℕ) (a d c : ℝ)
    (hp : m.itemParameters[j]? = some ([a], d, c)) (ha : a ≠ 0) :
    ∃ ps b, m.itemParametersIrt = .ok ps ∧ ps[j]? = some ([a], [b], c) ∧
      (m.probs [t])[j]? = some [1 - (c + (1 - c) * logistic (a * (t - b))),
        c + (1 - c) * logistic (a * (t - b))] := by
  refine ⟨_, -(d / a), by simp [ThreePL.itemParametersIrt, hlv]; rfl, ?_, ?_⟩
  · rw [List.getElem?_map, hp]; rfl
  · rw [C03_threePL_formula m [t] j [a] d c hp]
    have : dot [t] [a] + d = a * (t - -(d / a)) := by
      simp only [dot, List.zipWith_cons_cons, List.zipWith_nil_left, List.sum_cons, List.sum_nil]
      field_simp
      ring
    rw [this]

/-- C63 (3PL): refused for several latent variables. -/
theorem C63_threePL_irt_format_refused (m : ThreePL) (hlv : 1 < m.lv) :
    m.itemParametersIrt = .error .valueError := by
  simp [ThreePL.itemParametersIrt, hlv]

example : ∃ m : ThreePL, m.lv = 1 ∧ m.itemParameters[0]? = some ([2], 3, sigmoid (-1)) ∧ (2:ℝ) ≠ 0 :=
  ⟨{ items := 1, lv := 1, rel := [[true]], weight := [2], bias := [3], guessing := [-1] }, rfl,
    by simp [ThreePL.itemParameters, ThreePL.weights, viewRows, scatterMask], by norm_num⟩
example : 1 < exThreePL.lv := by simp [exThreePL]

/-- C63 (GRM): with one latent variable the reported thresholds `b_k` satisfy
`P(X ≥ k) = logistic(a (θ - b_k))`: the tail of the category values from `k` on sums to it. -/
theorem C63_grm_irt_format (m : GRM) (hlv : m.lv = 1) (t : ℝ) (j c : ℕ) (a : ℝ) (dl : List ℝ)
    (hc : m.cats[j]? = some c) (hp : m.itemParameters[j]? = some ([a], dl)) (ha : a ≠ 0) :
    ∃ bl, m.itemParametersIrt[j]? = some ([a], bl) ∧ bl.length = dl.length ∧
      ∀ p, (m.probs [t])[j]? = some p → ∀ k, 0 < k → k < c → ∀ b, bl[k - 1]? = some b →
        (p.drop k).sum = logistic (a * (t - b)) := by
  have hcM : c ≤ m.M := le_maxCats _ _ (List.mem_of_getElem? hc)
  refine ⟨dl.map fun d => -(d / a), ?_, by simp, ?_⟩
  · rw [GRM.itemParametersIrt, if_pos hlv, List.getElem?_map, hp]; rfl
  · intro p hpp k hk hkc b hb
    have hl : dl.length = m.M - 1 := by
      obtain ⟨w', dl', hp', hl'⟩ := m.exists_params j (lt_of_getElem?_some hc)
      rw [hp] at hp'
      have := Option.some.inj hp'
      rw [Prod.mk.injEq] at this
      rw [this.2]; exact hl'
    obtain ⟨d, hd⟩ := m.exists_thresholds dl hl
    rw [m.probs_row' [t] j c [a] dl d hc hp hd] at hpp
    obtain rfl := Option.some.inj hpp
    rw [← List.map_drop, List.range_eq_range', List.drop_range']
    have hsum : ∀ (n s : ℕ) (G : ℕ → ℝ), ((List.range' s n).map fun k => G k - G (k + 1)).sum = G s - G (s + n) := by
      intro n
      induction n with
      | zero => intro s G; simp
      | succ n ih =>
        intro s G
        rw [List.range'_succ, List.map_cons, List.sum_cons, ih]
        have : s + 1 + n = s + (n + 1) := by omega
        rw [this]; ring
    rw [Nat.mul_one, Nat.zero_add, hsum, show k + (m.M - k) = m.M by omega,
      grmGeq_last c m.M (by omega) hcM, sub_zero]
    rw [List.getElem?_map] at hb
    have hdk := hd (k - 1) (by omega)
    rw [hdk, Option.map_some] at hb
    have hb := Option.some.inj hb
    rw [show k - 1 + 1 = k by omega] at hb
    have hk0 : k ≠ 0 := by omega
    simp only [grmGeq, hk0, hkc, if_true, if_false]
    rw [← hb, logistic_eq_sigmoid]
    congr 1
    simp only [dot, List.zipWith_cons_cons, List.zipWith_nil_left, List.sum_cons, List.sum_nil]
    field_simp
    ring

example : ∃ m : GRM, m.lv = 1 ∧ m.cats[0]? = some 3 ∧
    m.itemParameters[0]? = some (([2] : List ℝ), ([1, -1] : List ℝ)) ∧ (2:ℝ) ≠ 0 :=
  ⟨{ lv := 1, cats := [3], rel := [[true]], weight := [2], bias := [1, -1] }, rfl, by simp,
    by simp [GRM.itemParameters, GRM.weights, GRM.biases, viewRows, scatterMask, GRM.M, maxCats,
      freeMask, freeRow, List.range_succ], by norm_num⟩

/-- C63 is false for the graded response model with several latent variables: instead of refusing, the
flag is ignored and the intercepts `d` are returned. -/
theorem C63_grm_irt_format_not_refused (m : GRM) (hlv : 1 < m.lv) :
    m.itemParametersIrt = m.itemParameters := by
  have : m.lv ≠ 1 := by omega
  simp [GRM.itemParametersIrt, this]

example : 1 < exGRM.lv := by simp [exGRM]

end Irt
