import Verif.Lemmas.Layout

/-! # Rows of logits of the parametric models -/

namespace Irt

theorem getElem?_of_lt {α : Type*} (l : List α) (k : ℕ) (h : k < l.length) : ∃ x, l[k]? = some x :=
  ⟨_, List.getElem?_eq_getElem h⟩

theorem lt_of_getElem?_some {α : Type*} {l : List α} {k : ℕ} {x : α} (h : l[k]? = some x) :
    k < l.length := by
  by_contra hc
  rw [List.getElem?_eq_none (by omega)] at h
  simp at h

/-! ### 1PL and 2PL -/

theorem twoCats_getElem? (n j : ℕ) (hj : j < n) : (List.replicate n 2)[j]? = some 2 := by simp [hj]

/-- The free bias slots of binary items are the second of each pair, so scattering writes the bias of
item `j` to slot `2j+1`. -/
theorem scatter_binary (bias : List ℝ) (j : ℕ) (b : ℝ) (hb : bias[j]? = some b) :
    (scatterMask 0 (freeMask 2 (List.replicate bias.length 2)) bias)[j * 2 + 1]? = some b ∧
    (scatterMask 0 (freeMask 2 (List.replicate bias.length 2)) bias)[j * 2 + 0]? = some 0 := by
  have key : ∀ bias : List ℝ, scatterMask 0 (freeMask 2 (List.replicate bias.length 2)) bias
      = bias.flatMap fun b => [0, b] := by
    intro bias
    induction bias with
    | nil => rfl
    | cons x t ih =>
      have hfr : freeRow 2 2 = [false, true] := by decide
      simp only [freeMask] at ih
      simp only [List.length_cons, List.replicate_succ, freeMask, List.flatMap_cons, hfr,
        List.cons_append, List.nil_append, scatterMask]
      rw [ih]
  rw [key]
  rw [flatMap_getElem? 2 _ _ (by simp) j 1 (by omega), flatMap_getElem? 2 _ _ (by simp) j 0 (by omega),
    hb]
  simp

theorem OnePL.forward_row (m : OnePL) (hwf : m.WF) (θ : ℝ) (j : ℕ) (b : ℝ)
    (hb : m.bias[j]? = some b) :
    (viewRows m.items 2 (m.forwardRow θ))[j]? = some [Logit.fin 0, Logit.fin (θ + b)] := by
  have hj : j < m.items := by rw [← hwf]; exact lt_of_getElem?_some hb
  have hs := scatter_binary m.bias j b hb
  rw [hwf] at hs
  have hlen : (m.forwardRow θ).length = m.items * 2 := by
    simp [OnePL.forwardRow, maskFill, length_firstMask, length_scatterMask, length_freeMask]
  have := viewRows_row m.items 2 (m.forwardRow θ) hlen j hj
    (fun k => if k = 0 then Logit.fin 0 else Logit.fin (θ + b)) (by
      intro k hk
      unfold OnePL.forwardRow
      have hc := twoCats_getElem? m.items j hj
      have hk' : k = 0 ∨ k = 1 := by omega
      rcases hk' with rfl | rfl
      · rw [maskFill_getElem? _ _ _ _ _ _ (firstMask_getElem? 2 _ j 0 2 hc (by omega))
          (by rw [List.getElem?_map, hs.2]; rfl)]
        simp
      · rw [maskFill_getElem? _ _ _ _ _ _ (firstMask_getElem? 2 _ j 1 2 hc (by omega))
          (by rw [List.getElem?_map, hs.1]; rfl)]
        simp)
  rw [this]; simp [List.range_succ]

theorem length_weights (n lv : ℕ) (p : List ℝ) (mask : List Bool) :
    (viewRows n lv (scatterMask 0 mask p)).length = n := length_viewRows _ _ _

theorem TwoPL.forward_row (m : TwoPL) (hwf : m.WF) (θ : List ℝ) (j : ℕ) (w : List ℝ) (b : ℝ)
    (hp : m.itemParameters[j]? = some (w, b)) :
    (viewRows m.items 2 (m.forwardRow θ))[j]? = some [Logit.fin 0, Logit.fin (dot θ w + b)] := by
  rw [TwoPL.itemParameters, List.getElem?_zip_eq_some] at hp
  obtain ⟨hw, hb⟩ := hp
  have hj : j < m.items := by rw [← hwf.biasLen]; exact lt_of_getElem?_some hb
  have hs := scatter_binary m.bias j b hb
  rw [hwf.biasLen] at hs
  have hwt : ∀ k, k < 2 →
      (repeatInterleave 2 (m.weights.map fun w => dot θ w))[j * 2 + k]? = some (dot θ w) := by
    intro k hk
    rw [repeatInterleave_getElem? 2 _ j k hk, List.getElem?_map, hw]; rfl
  have hlen : (m.forwardRow θ).length = m.items * 2 := by
    simp [TwoPL.forwardRow, maskFill, length_firstMask, length_scatterMask, length_freeMask,
      length_repeatInterleave, TwoPL.weights, length_viewRows]
  have := viewRows_row m.items 2 (m.forwardRow θ) hlen j hj
    (fun k => if k = 0 then Logit.fin 0 else Logit.fin (dot θ w + b)) (by
      intro k hk
      unfold TwoPL.forwardRow
      have hc := twoCats_getElem? m.items j hj
      have hk' : k = 0 ∨ k = 1 := by omega
      rcases hk' with rfl | rfl
      · rw [maskFill_getElem? _ _ _ _ _ (Logit.fin (dot θ w + 0))
          (firstMask_getElem? 2 _ j 0 2 hc (by omega))
          (by rw [List.getElem?_map, List.getElem?_zipWith, hwt 0 (by omega), hs.2]; rfl)]
        simp
      · rw [maskFill_getElem? _ _ _ _ _ (Logit.fin (dot θ w + b))
          (firstMask_getElem? 2 _ j 1 2 hc (by omega))
          (by rw [List.getElem?_map, List.getElem?_zipWith, hwt 1 (by omega), hs.1]; rfl)]
        simp)
  rw [this]; simp [List.range_succ]

theorem softmax_pair (x : ℝ) :
    softmax [Logit.fin 0, Logit.fin x] = [1 - logistic x, logistic x] := by
  have := Real.exp_pos x
  have h : (1 : ℝ) + Real.exp x ≠ 0 := by positivity
  simp only [softmax, List.map_cons, List.map_nil, Logit.exp, Real.exp_zero, List.sum_cons,
    List.sum_nil, add_zero, logistic]
  congr 1
  field_simp
  ring

/-! ### GPC -/

theorem GPC.forward_row (m : GPC) (hwf : m.WF) (θ : List ℝ) (j c : ℕ) (w dl : List ℝ) (d : ℕ → ℝ)
    (hc : m.cats[j]? = some c) (hp : m.itemParameters[j]? = some (w, dl))
    (hd : ∀ k, k < m.M → dl[k]? = some (d k)) :
    (viewRows m.cats.length m.M (m.forwardRow θ))[j]?
      = some ((List.range m.M).map fun k =>
          if k < c then Logit.fin (k * dot θ w + d k) else Logit.negInf) := by
  rw [GPC.itemParameters, List.getElem?_zip_eq_some] at hp
  obtain ⟨hw, hb⟩ := hp
  have hj : j < m.cats.length := lt_of_getElem?_some hc
  have hcpos : 0 < c := hwf.catsPos c (List.mem_of_getElem? hc)
  have hblen : m.biases.length = m.cats.length * m.M := by
    rw [GPC.biases, length_scatterMask, length_freeMask]
  have hlen : (m.forwardRow θ).length = m.cats.length * m.M := by
    simp [GPC.forwardRow, maskFill, length_firstMask, length_missingMask, hblen,
      length_repeatInterleave, GPC.weights, length_viewRows, length_tile]
  apply viewRows_row m.cats.length m.M _ hlen j hj
  intro k hk
  unfold GPC.forwardRow
  have hwt : (repeatInterleave m.M (m.weights.map fun w => dot θ w))[j * m.M + k]?
      = some (dot θ w) := by
    rw [repeatInterleave_getElem? _ _ j k hk, List.getElem?_map, hw]; rfl
  have ht : (tile m.cats.length ((List.range m.M).map fun k : ℕ => (k : ℝ)))[j * m.M + k]?
      = some (k : ℝ) := by
    rw [tile_getElem? _ m.M _ (by simp) j k hj hk, List.getElem?_map, List.getElem?_range hk]; rfl
  have hbk : m.biases[j * m.M + k]? = some (d k) := by
    rw [viewRows_row_entry _ _ _ hblen j dl hb k hk, hd k hk]
  rw [maskFill_getElem? _ _ _ _ _ _ (firstMask_getElem? m.M _ j k c hc hk)
    (maskFill_getElem? _ _ _ _ _ (Logit.fin (dot θ w * k + d k))
      (missingMask_getElem? m.M _ j k c hc hk)
      (by rw [List.getElem?_map, List.getElem?_zipWith, List.getElem?_zipWith, hwt, ht, hbk]; rfl))]
  by_cases hk0 : k = 0
  · subst hk0
    have : m.biases[j * m.M + 0]? = some 0 := by
      unfold GPC.biases
      apply scatterMask_false
      rw [freeMask_getElem? m.M _ j 0 c hc hk]; simp
    rw [this] at hbk
    have hd0 : d 0 = 0 := by simpa using hbk.symm
    simp [hcpos, hd0]
  · by_cases hkc : k < c
    · have : ¬ c ≤ k := by omega
      simp [hk0, hkc, this, mul_comm]
    · have : c ≤ k := by omega
      simp [hk0, hkc, this]

theorem GPC.probs_row (m : GPC) (hwf : m.WF) (θ : List ℝ) (j c : ℕ) (w dl : List ℝ) (d : ℕ → ℝ)
    (hc : m.cats[j]? = some c) (hp : m.itemParameters[j]? = some (w, dl))
    (hd : ∀ k, k < m.M → dl[k]? = some (d k)) :
    (m.probs θ)[j]? = some (multinomialLogit c m.M fun k => k * dot θ w + d k) := by
  unfold GPC.probs probabilitiesFromOutput
  rw [List.getElem?_map, m.forward_row hwf θ j c w dl d hc hp hd, Option.map_some,
    softmax_row c m.M (le_maxCats _ _ (List.mem_of_getElem? hc))]

/-! ### Graded response -/

theorem GRM.forward_row (m : GRM) (θ : List ℝ) (j c : ℕ) (w dl : List ℝ) (d : ℕ → ℝ)
    (hc : m.cats[j]? = some c) (hp : m.itemParameters[j]? = some (w, dl))
    (hd : ∀ k, k + 1 < m.M → dl[k]? = some (d (k + 1))) :
    (viewRows m.cats.length m.M ((m.forwardRow θ).map sigmoidE))[j]?
      = some ((List.range m.M).map fun k =>
          if k = 0 then 1 else if k < c then sigmoid (dot θ w + d k) else 0) := by
  rw [GRM.itemParameters, List.getElem?_zip_eq_some] at hp
  obtain ⟨hw, hb⟩ := hp
  have hj : j < m.cats.length := lt_of_getElem?_some hc
  have hblen : m.biases.length = m.cats.length * m.M := by
    rw [GRM.biases, length_scatterMask, length_freeMask]
  have hlen : ((m.forwardRow θ).map sigmoidE).length = m.cats.length * m.M := by
    simp [GRM.forwardRow, maskFill, length_firstMask, length_missingMask, hblen,
      length_repeatInterleave, GRM.weights, length_viewRows]
  apply viewRows_row m.cats.length m.M _ hlen j hj
  intro k hk
  unfold GRM.forwardRow
  have hwt : (repeatInterleave m.M (m.weights.map fun w => dot θ w))[j * m.M + k]?
      = some (dot θ w) := by
    rw [repeatInterleave_getElem? _ _ j k hk, List.getElem?_map, hw]; rfl
  obtain ⟨brow, hbrow⟩ : ∃ r, (viewRows m.cats.length m.M m.biases)[j]? = some r :=
    getElem?_of_lt _ _ (by rw [length_viewRows]; exact hj)
  have hbl : brow.length = m.M :=
    mem_viewRows_length _ _ _ hblen brow (List.mem_of_getElem? hbrow)
  have htail : brow.tail = dl := by
    rw [List.getElem?_map, hbrow] at hb; simpa using hb
  obtain ⟨bk, hbk⟩ := getElem?_of_lt brow k (by omega)
  have hbk' : m.biases[j * m.M + k]? = some bk := by
    rw [viewRows_row_entry _ _ _ hblen j brow hbrow k hk, hbk]
  rw [List.getElem?_map, maskFill_getElem? _ _ _ _ _ _ (firstMask_getElem? m.M _ j k c hc hk)
    (maskFill_getElem? _ _ _ _ _ (ELogit.fin (dot θ w + bk))
      (missingMask_getElem? m.M _ j k c hc hk)
      (by rw [List.getElem?_map, List.getElem?_zipWith, hwt, hbk']; rfl))]
  cases k with
  | zero => simp [sigmoidE]
  | succ k =>
    have hdk := hd k hk
    rw [← htail, List.getElem?_tail, hbk] at hdk
    have : bk = d (k + 1) := by simpa using hdk
    subst this
    by_cases hkc : k + 1 < c
    · have : ¬ c ≤ k + 1 := by omega
      simp [hkc, this, sigmoidE]
    · have : c ≤ k + 1 := by omega
      simp [hkc, this, sigmoidE]

theorem adjacentDiff_range (M : ℕ) (f : ℕ → ℝ) :
    adjacentDiff ((List.range M).map f)
      = (List.range M).map fun k => f k - (if k + 1 < M then f (k + 1) else 0) := by
  induction M generalizing f with
  | zero => rfl
  | succ M ih =>
    cases M with
    | zero => simp [List.range_succ, adjacentDiff]
    | succ M =>
      have h1 : (List.range (M + 2)).map f
          = f 0 :: (List.range (M + 1)).map (fun k => f (k + 1)) := by
        rw [List.range_succ_eq_map, List.map_cons, List.map_map]; rfl
      have h2 : (List.range (M + 1)).map (fun k => f (k + 1))
          = f 1 :: (List.range M).map (fun k => f (k + 2)) := by
        rw [List.range_succ_eq_map, List.map_cons, List.map_map]; rfl
      rw [h1]
      have h3 : adjacentDiff (f 0 :: (List.range (M + 1)).map (fun k => f (k + 1)))
          = (f 0 - f 1) :: adjacentDiff ((List.range (M + 1)).map (fun k => f (k + 1))) := by
        rw [h2]; rfl
      rw [h3, ih (fun k => f (k + 1))]
      rw [List.range_succ_eq_map (n := M + 1), List.map_cons, List.map_map]
      congr 1
      simp

theorem GRM.probs_row (m : GRM) (θ : List ℝ) (j c : ℕ) (w dl : List ℝ) (d : ℕ → ℝ)
    (hc : m.cats[j]? = some c) (hp : m.itemParameters[j]? = some (w, dl))
    (hd : ∀ k, k + 1 < m.M → dl[k]? = some (d (k + 1))) :
    (m.probs θ)[j]? = some ((List.range m.M).map fun k =>
      (if k = 0 then 1 else if k < c then sigmoid (dot θ w + d k) else 0)
        - (if k + 1 < c then sigmoid (dot θ w + d (k + 1)) else 0)) := by
  unfold GRM.probs
  have hcM : c ≤ m.M := le_maxCats _ _ (List.mem_of_getElem? hc)
  rw [List.getElem?_map, m.forward_row θ j c w dl d hc hp hd, Option.map_some, adjacentDiff_range]
  congr 1
  apply List.map_congr_left
  intro k _
  congr 1
  by_cases h : k + 1 < c
  · have : k + 1 < m.M := by omega
    simp [h, this]
  · simp [h]

end Irt
