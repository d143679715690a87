import Verif.Lemmas.Categorical

/-! # Graded response model: telescoping, order of thresholds, start values -/

namespace Irt

/-- `P(X ≥ k)` of one item as the code computes it. -/
noncomputable def grmGeq (c : ℕ) (η : ℝ) (d : ℕ → ℝ) (k : ℕ) : ℝ :=
  if k = 0 then 1 else if k < c then sigmoid (η + d k) else 0

theorem GRM.probs_row' (m : GRM) (θ : List ℝ) (j c : ℕ) (w dl : List ℝ) (d : ℕ → ℝ)
    (hc : m.cats[j]? = some c) (hp : m.itemParameters[j]? = some (w, dl))
    (hd : ∀ k, k + 1 < m.M → dl[k]? = some (d (k + 1))) :
    (m.probs θ)[j]? = some ((List.range m.M).map fun k =>
      grmGeq c (dot θ w) d k - grmGeq c (dot θ w) d (k + 1)) := by
  rw [m.probs_row θ j c w dl d hc hp hd]
  rfl

theorem sum_telescope (M : ℕ) (G : ℕ → ℝ) :
    ((List.range M).map fun k => G k - G (k + 1)).sum = G 0 - G M := by
  rw [list_sum_range]
  induction M with
  | zero => simp
  | succ M ih => rw [Finset.sum_range_succ, ih]; ring

theorem grmGeq_last (c M : ℕ) (hc : 0 < c) (h : c ≤ M) (η : ℝ) (d : ℕ → ℝ) : grmGeq c η d M = 0 := by
  have h1 : M ≠ 0 := by omega
  have h2 : ¬ M < c := by omega
  simp [grmGeq, h1, h2]

theorem grmGeq_nonneg (c : ℕ) (η : ℝ) (d : ℕ → ℝ) (k : ℕ) : 0 ≤ grmGeq c η d k := by
  unfold grmGeq
  split
  · exact zero_le_one
  · split
    · exact (sigmoid_pos _).le
    · exact le_refl _

theorem grmGeq_le_one (c : ℕ) (η : ℝ) (d : ℕ → ℝ) (k : ℕ) : grmGeq c η d k ≤ 1 := by
  unfold grmGeq
  split
  · exact le_refl _
  · split
    · exact (sigmoid_lt_one _).le
    · exact zero_le_one

theorem grm_step_nonneg_iff (c k : ℕ) (η : ℝ) (d : ℕ → ℝ) :
    0 ≤ grmGeq c η d k - grmGeq c η d (k + 1)
      ↔ (0 < k → k + 1 < c → d (k + 1) ≤ d k) := by
  rw [sub_nonneg]
  by_cases hk0 : k = 0
  · subst hk0
    simp only [lt_irrefl, false_implies, iff_true]
    have : grmGeq c η d 0 = 1 := by simp [grmGeq]
    rw [this]; exact grmGeq_le_one _ _ _ _
  · by_cases hkc : k + 1 < c
    · have h1 : k < c := by omega
      simp only [grmGeq, hk0, h1, hkc, if_true, if_false, Nat.succ_ne_zero, Nat.pos_of_ne_zero hk0,
        forall_true_left]
      rw [sigmoid_strictMono.le_iff_le]
      constructor <;> intro h <;> linarith
    · have h0 : grmGeq c η d (k + 1) = 0 := by simp [grmGeq, hkc]
      rw [h0]
      simp [hkc, grmGeq_nonneg]

theorem scatter_gatherMask (m : List Bool) (xs : List ℝ) (hlen : xs.length = m.length)
    (h : ∀ i : ℕ, m[i]? = some false → xs[i]? = some 0) :
    scatterMask 0 m (gatherMask m xs) = xs := by
  induction m generalizing xs with
  | nil => simp at hlen; simp [hlen, scatterMask]
  | cons b m ih =>
    cases xs with
    | nil => simp at hlen
    | cons x xs =>
      have h' := ih xs (by simpa using hlen) (fun i hi => by simpa using h (i + 1) (by simpa using hi))
      cases b
      · have := h 0 (by simp)
        simp at this
        subst this
        simp [gatherMask, scatterMask, h']
      · simp [gatherMask, scatterMask, h']

theorem scatterMask_replicate_true (p : List ℝ) (n : ℕ) (hp : p.length = n) :
    scatterMask 0 (List.replicate n true) p = p := by
  induction n generalizing p with
  | zero => simp at hp; simp [hp, scatterMask]
  | succ n ih =>
    cases p with
    | nil => simp at hp
    | cons x p => simp [List.replicate_succ, scatterMask, ih p (by simpa using hp)]

theorem freeRow_eq (M c : ℕ) (hc : 0 < c) (h : c ≤ M) :
    freeRow M c = false :: (List.replicate (c - 1) true ++ List.replicate (M - c) false) := by
  apply List.ext_getElem?
  intro k
  unfold freeRow
  by_cases hk : k < M
  · rw [List.getElem?_map, List.getElem?_range hk]
    cases k with
    | zero => simp
    | succ k =>
      simp only [Option.map_some, List.getElem?_cons_succ]
      by_cases hkc : k + 1 < c
      · rw [List.getElem?_append_left (by simp; omega)]
        have : k < c - 1 := by omega
        simp [hkc, this]
      · rw [List.getElem?_append_right (by simp; omega)]
        have : k - (c - 1) < M - c := by omega
        simp [hkc, this]
  · rw [List.getElem?_eq_none (by simp; omega), List.getElem?_eq_none (by simp; omega)]

theorem length_grmStartBias (k : ℕ) : (grmStartBias k).length = k := by simp [grmStartBias]

theorem scatter_freeRow (M c : ℕ) (hc : 0 < c) (h : c ≤ M) (p : List ℝ) (hp : p.length = c - 1)
    (k : ℕ) (hk : k + 1 < c) :
    (scatterMask 0 (freeRow M c) p)[k + 1]? = p[k]? := by
  rw [freeRow_eq M c hc h]
  simp only [scatterMask, List.getElem?_cons_succ]
  have hcount : countTrue (List.replicate (c - 1) true) = c - 1 := by simp [countTrue]
  rw [scatterMask_append _ _ _ _ (by rw [hcount, hp]), hcount,
    List.take_of_length_le (by omega), scatterMask_replicate_true p _ hp,
    List.getElem?_append_left (by omega)]

/-- Intercepts of item `j` after `reset_parameters`. -/
theorem GRM.reset_entry (m : GRM) (hpos : ∀ c ∈ m.cats, 0 < c) (ws : List ℝ) (j c : ℕ)
    (w dl : List ℝ) (hc : m.cats[j]? = some c)
    (hp : (m.reset ws).itemParameters[j]? = some (w, dl)) (k : ℕ) (hk : k + 1 < c) :
    dl[k]? = (grmStartBias (c - 1))[k]? := by
  have hcpos : 0 < c := hpos c (List.mem_of_getElem? hc)
  have hcM : c ≤ m.M := le_maxCats _ _ (List.mem_of_getElem? hc)
  set raw := m.cats.flatMap fun c =>
        scatterMask (0:ℝ) (freeRow m.M c) (grmStartBias (countTrue (freeRow m.M c))) with hraw
  have hlenf : ∀ l ∈ m.cats,
      (scatterMask (0:ℝ) (freeRow m.M l) (grmStartBias (countTrue (freeRow m.M l)))).length = m.M := by
    intro l _; rw [length_scatterMask, length_freeRow]
  have hrawlen : raw.length = m.cats.length * m.M := length_flatMap_const m.M _ _ hlenf
  have hzero : ∀ i : ℕ, (freeMask m.M m.cats)[i]? = some false → raw[i]? = some 0 := by
    intro i hi
    have hilt := lt_of_getElem?_some hi
    rw [length_freeMask] at hilt
    have hMpos : 0 < m.M := by omega
    have hdiv : i = (i / m.M) * m.M + i % m.M := by rw [Nat.mul_comm]; exact (Nat.div_add_mod i m.M).symm
    have hmod : i % m.M < m.M := Nat.mod_lt _ hMpos
    have hq : i / m.M < m.cats.length := by rwa [Nat.div_lt_iff_lt_mul hMpos]
    obtain ⟨c', hc'⟩ := getElem?_of_lt m.cats (i / m.M) hq
    rw [hdiv, freeMask_getElem? m.M _ _ _ c' hc' hmod] at hi
    rw [hdiv, hraw, flatMap_getElem? m.M _ _ hlenf _ _ hmod, hc', Option.bind_some]
    apply scatterMask_false
    unfold freeRow
    rw [List.getElem?_map, List.getElem?_range hmod]
    simpa using hi
  have hb : (m.reset ws).biases = raw := by
    show scatterMask 0 (freeMask m.M m.cats) (gatherMask (freeMask m.M m.cats) raw) = raw
    exact scatter_gatherMask _ _ (by rw [hrawlen, length_freeMask]) hzero
  rw [GRM.itemParameters, List.getElem?_zip_eq_some] at hp
  obtain ⟨_, hdl⟩ := hp
  simp only at hdl
  rw [hb, List.getElem?_map] at hdl
  have hdl : Option.map List.tail (viewRows m.cats.length m.M raw)[j]? = some dl := hdl
  cases hr : (viewRows m.cats.length m.M raw)[j]? with
  | none => rw [hr] at hdl; simp at hdl
  | some row =>
    rw [hr] at hdl
    have : row.tail = dl := by simpa using hdl
    rw [← this, List.getElem?_tail,
      ← viewRows_row_entry _ _ _ hrawlen j row hr (k + 1) (by omega), hraw,
      flatMap_getElem? m.M _ _ hlenf j (k + 1) (by omega), hc, Option.bind_some,
      count_freeRow m.M c hcpos hcM,
      scatter_freeRow m.M c hcpos hcM _ (length_grmStartBias _) k hk]

theorem grmStart_decreasing (n k : ℕ) (hk : k + 1 < n) (a b : ℝ)
    (ha : (grmStartBias n)[k]? = some a) (hb : (grmStartBias n)[k + 1]? = some b) : b < a := by
  unfold grmStartBias at ha hb
  dsimp only at ha hb
  rw [List.getElem?_map, List.getElem?_range (by omega)] at ha hb
  simp only [Option.map_some, Option.some.injEq] at ha hb
  set lo := 1 / (1 + Real.exp 4) with hlo
  set hi := 1 / (1 + Real.exp (-4)) with hhi
  have hlo0 : 0 < lo := by have := Real.exp_pos 4; positivity
  have hlohi : lo < hi := by
    apply one_div_lt_one_div_of_lt
    · have := Real.exp_pos (-4); linarith
    · have : Real.exp (-4) < Real.exp 4 := Real.exp_lt_exp.2 (by norm_num)
      linarith
  have hhi1 : hi < 1 := by
    rw [hhi, div_lt_one (by have := Real.exp_pos (-4); linarith)]
    have := Real.exp_pos (-4); linarith
  have hn : (0:ℝ) < ((n + 1 : ℕ) : ℝ) := by positivity
  have hfrac : ∀ i : ℕ, i < n → 0 < lo + (hi - lo) * ((i + 1 : ℕ) : ℝ) / ((n + 1 : ℕ) : ℝ) ∧
      lo + (hi - lo) * ((i + 1 : ℕ) : ℝ) / ((n + 1 : ℕ) : ℝ) < 1 := by
    intro i hi'
    have h1 : ((i + 1 : ℕ) : ℝ) / ((n + 1 : ℕ) : ℝ) < 1 := by
      rw [div_lt_one hn]; exact_mod_cast (by omega : i + 1 < n + 1)
    have h2 : 0 < ((i + 1 : ℕ) : ℝ) / ((n + 1 : ℕ) : ℝ) := by positivity
    rw [mul_div_assoc]
    constructor
    · nlinarith
    · nlinarith
  have hmono : lo + (hi - lo) * ((k + 1 : ℕ) : ℝ) / ((n + 1 : ℕ) : ℝ)
      < lo + (hi - lo) * ((k + 1 + 1 : ℕ) : ℝ) / ((n + 1 : ℕ) : ℝ) := by
    have : (hi - lo) * ((k + 1 : ℕ) : ℝ) / ((n + 1 : ℕ) : ℝ)
      < (hi - lo) * ((k + 1 + 1 : ℕ) : ℝ) / ((n + 1 : ℕ) : ℝ) := by
      apply div_lt_div_of_pos_right _ hn
      apply mul_lt_mul_of_pos_left _ (by linarith)
      exact_mod_cast Nat.lt_succ_self _
    linarith
  obtain ⟨p1, q1⟩ := hfrac k (by omega)
  obtain ⟨p2, q2⟩ := hfrac (k + 1) (by omega)
  rw [← ha, ← hb]
  apply Real.log_lt_log
  · have := one_lt_inv_iff₀.2 ⟨p2, q2⟩
    linarith
  · have := inv_strictAnti₀ p1 hmono
    linarith

end Irt
