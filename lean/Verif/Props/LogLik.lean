import Verif.Props.Categorical

/-!
# Property C02: `log_likelihood` is the log probability of exactly the observed responses

The data, the mask and the result are `N × items` tensors given by their entries (`flatTensor`); the
model output of respondent `i` is the flat row `out i`; `output.reshape(-1, M)` is
`viewRows (N * items) M (concatenation of the rows)`.
-/

namespace Irt

/-- The model output of a batch reshaped to one row of logits per cell (base_irt_model.py 249). -/
def reshapedOutput {α : Type*} (N items M : ℕ) (out : ℕ → List α) : List (List α) :=
  viewRows (N * items) M ((List.range N).map out).flatten

/-- What an observed cell contributes: respondent `i` gave response `r` on item `j`, and the model's
probability of that response is `P i j`. -/
def ObservedProb (probs : ℕ → List (List ℝ)) (y : ℕ → ℕ → Cell) (P : ℕ → ℕ → ℝ) (i j : ℕ) : Prop :=
  ∃ (p : List ℝ) (r : ℕ), (probs i)[j]? = some p ∧ y i j = some (r : ℤ) ∧ p[r]? = some (P i j)

theorem base_rows (N items M : ℕ) (out : ℕ → List Logit)
    (hlen : ∀ i, i < N → (out i).length = items * M) :
    ∃ R : ℕ → ℕ → List Logit, reshapedOutput N items M out = flatTensor N items R ∧
      ∀ i, i < N → ∀ j, j < items → (viewRows items M (out i))[j]? = some (R i j) := by
  have hR : ∀ i, i < N → ∀ j, j < items →
      (viewRows items M (out i))[j]? = some (((viewRows items M (out i))[j]?).getD []) := by
    intro i _ j hj
    obtain ⟨x, hx⟩ := getElem?_of_lt (viewRows items M (out i)) j (by rw [length_viewRows]; exact hj)
    rw [hx]; rfl
  exact ⟨fun i j => ((viewRows items M (out i))[j]?).getD [],
    viewRows_batch_flatTensor N items M out _ hlen hR, hR⟩

theorem base_cell (N items M : ℕ) (out : ℕ → List Logit) (y : ℕ → ℕ → Cell) (μ : ℕ → ℕ → Bool)
    (P : ℕ → ℕ → ℝ)
    (hfin : ∀ i, i < N → ∀ row ∈ viewRows items M (out i), ∃ v, Logit.fin v ∈ row)
    (hobs : ∀ i, i < N → ∀ j, j < items → μ i j = false →
      ObservedProb (fun i => probabilitiesFromOutput items M (out i)) y P i j)
    (R : ℕ → ℕ → List Logit)
    (hR : ∀ i, i < N → ∀ j, j < items → (viewRows items M (out i))[j]? = some (R i j)) :
    ∀ i, i < N → ∀ j, j < items → μ i j = false →
      negCrossEntropy (R i j) (cellLong (y i j)) = .ok (logE (P i j)) := by
  intro i hi j hj hμ
  obtain ⟨p, r, hp, hy, hr⟩ := hobs i hi j hj hμ
  obtain ⟨v, hv⟩ := hfin i hi _ (List.mem_of_getElem? (hR i hi j hj))
  simp only [probabilitiesFromOutput, List.getElem?_map, hR i hi j hj, Option.map_some] at hp
  have hp := Option.some.inj hp
  rw [hy]
  exact negCrossEntropy_ok (R i j) v hv r (P i j) (by rw [hp]; exact hr)

/-- C02 (softmax models), `loss_reduction="none"`: cell `(i,j)` of the result is the log probability of
the response of cell `(i,j)`, and NaN exactly where the mask is set. -/
theorem C02_base_cells (N items M : ℕ) (out : ℕ → List Logit) (y : ℕ → ℕ → Cell) (μ : ℕ → ℕ → Bool)
    (P : ℕ → ℕ → ℝ) (hlen : ∀ i, i < N → (out i).length = items * M)
    (hfin : ∀ i, i < N → ∀ row ∈ viewRows items M (out i), ∃ v, Logit.fin v ∈ row)
    (hobs : ∀ i, i < N → ∀ j, j < items → μ i j = false →
      ObservedProb (fun i => probabilitiesFromOutput items M (out i)) y P i j) :
    baseLogLikelihood (reshapedOutput N items M out) (flatTensor N items y) (some (flatTensor N items μ))
        .none
      = .ok (.cells (flatTensor N items fun i j => if μ i j then none else some (logE (P i j)))) := by
  obtain ⟨R, hflat, hR⟩ := base_rows N items M out hlen
  have hm := maskedLL_eq negCrossEntropy N items R y μ (fun i j => logE (P i j))
    (base_cell N items M out y μ P hfin hobs R hR)
  unfold maskedLL at hm
  rw [← hflat] at hm
  simp only [baseLogLikelihood]
  rw [hm]
  simp only [bind, Except.bind]
  rw [gather_cells]

/-- C02 (softmax models), `loss_reduction="sum"`: the sum over the observed cells of the log probability
of the response. -/
theorem C02_base_sum (N items M : ℕ) (out : ℕ → List Logit) (y : ℕ → ℕ → Cell) (μ : ℕ → ℕ → Bool)
    (P : ℕ → ℕ → ℝ) (hlen : ∀ i, i < N → (out i).length = items * M)
    (hfin : ∀ i, i < N → ∀ row ∈ viewRows items M (out i), ∃ v, Logit.fin v ∈ row)
    (hobs : ∀ i, i < N → ∀ j, j < items → μ i j = false →
      ObservedProb (fun i => probabilitiesFromOutput items M (out i)) y P i j)
    (hpos : ∀ i, i < N → ∀ j, j < items → μ i j = false → P i j ≠ 0) :
    baseLogLikelihood (reshapedOutput N items M out) (flatTensor N items y) (some (flatTensor N items μ))
        .sum
      = .ok (.scalar (.fin (∑ i ∈ Finset.range N, ∑ j ∈ Finset.range items,
          if μ i j then 0 else Real.log (P i j)))) := by
  obtain ⟨R, hflat, hR⟩ := base_rows N items M out hlen
  have hm := maskedLL_eq negCrossEntropy N items R y μ (fun i j => logE (P i j))
    (base_cell N items M out y μ P hfin hobs R hR)
  unfold maskedLL at hm
  rw [← hflat] at hm
  simp only [baseLogLikelihood]
  rw [hm]
  simp only [bind, Except.bind]
  rw [gather_total N items μ _ (fun i j => Real.log (P i j))]
  intro i hi j hj hμ
  simp [logE, hpos i hi j hj hμ]

/-- C02 (softmax models), `sum`: `-inf` as soon as one observed response has probability zero. -/
theorem C02_base_sum_impossible (N items M : ℕ) (out : ℕ → List Logit) (y : ℕ → ℕ → Cell)
    (μ : ℕ → ℕ → Bool)
    (P : ℕ → ℕ → ℝ) (hlen : ∀ i, i < N → (out i).length = items * M)
    (hfin : ∀ i, i < N → ∀ row ∈ viewRows items M (out i), ∃ v, Logit.fin v ∈ row)
    (hobs : ∀ i, i < N → ∀ j, j < items → μ i j = false →
      ObservedProb (fun i => probabilitiesFromOutput items M (out i)) y P i j)
    (i j : ℕ) (hi : i < N) (hj : j < items) (hμ : μ i j = false) (h0 : P i j = 0) :
    baseLogLikelihood (reshapedOutput N items M out) (flatTensor N items y) (some (flatTensor N items μ))
        .sum = .ok (.scalar .negInf) := by
  obtain ⟨R, hflat, hR⟩ := base_rows N items M out hlen
  have hm := maskedLL_eq negCrossEntropy N items R y μ (fun i j => logE (P i j))
    (base_cell N items M out y μ P hfin hobs R hR)
  unfold maskedLL at hm
  rw [← hflat] at hm
  simp only [baseLogLikelihood]
  rw [hm]
  simp only [bind, Except.bind]
  rw [gather_negInf N items μ _ i j hi hj hμ (by simp [logE, h0])]

/-- C02: what a masked cell holds never matters, for any reduction and any output (also for the error
cases). -/
theorem C02_base_masked_irrelevant (rows : List (List Logit)) (N items : ℕ) (y y' : ℕ → ℕ → Cell)
    (μ : ℕ → ℕ → Bool) (red : Reduction)
    (h : ∀ i, i < N → ∀ j, j < items → μ i j = false → y i j = y' i j) :
    baseLogLikelihood rows (flatTensor N items y) (some (flatTensor N items μ)) red
      = baseLogLikelihood rows (flatTensor N items y') (some (flatTensor N items μ)) red := by
  have e : gatherMask ((flatTensor N items μ).map not) ((flatTensor N items y).map cellLong)
      = gatherMask ((flatTensor N items μ).map not) ((flatTensor N items y').map cellLong) := by
    apply gatherMask_congr
    · simp [length_flatTensor]
    · simp [length_flatTensor]
    · intro t h1
      have ht := lt_of_getElem?_some h1
      rw [List.length_map, length_flatTensor] at ht
      have hK : 0 < items := by
        rcases Nat.eq_zero_or_pos items with h | h
        · subst h; simp at ht
        · exact h
      rw [flatTensor_eq, List.getElem?_map, List.getElem?_map, List.getElem?_range ht] at h1
      rw [flatTensor_eq, flatTensor_eq, List.getElem?_map, List.getElem?_map, List.getElem?_map,
        List.getElem?_map, List.getElem?_range ht]
      simp only [Option.map_some, Option.some.injEq] at h1 ⊢
      rw [h _ (by rwa [Nat.div_lt_iff_lt_mul hK]) _ (Nat.mod_lt t hK) (by simpa using h1)]
  simp only [baseLogLikelihood, e]

/-- C02: an observed response that is not a category slot of the model is rejected with an error
(responses below zero other than torch's `ignore_index`, and responses `≥ M`). -/
theorem C02_base_out_of_range (N items M : ℕ) (out : ℕ → List Logit) (y : ℕ → ℕ → Cell)
    (μ : ℕ → ℕ → Bool) (red : Reduction) (hlen : ∀ i, i < N → (out i).length = items * M)
    (i j : ℕ) (hi : i < N) (hj : j < items) (hμ : μ i j = false) (r : ℤ) (hy : y i j = some r)
    (hr : r < 0 ∨ (M : ℤ) ≤ r) (hign : r ≠ -100) :
    baseLogLikelihood (reshapedOutput N items M out) (flatTensor N items y) (some (flatTensor N items μ))
        red = .error .indexError := by
  obtain ⟨R, hflat, hR⟩ := base_rows N items M out hlen
  have hrow : (R i j).length = M := mem_viewRows_length items M (out i) (hlen i hi) _
    (List.mem_of_getElem? (hR i hi j hj))
  have he : negCrossEntropy (R i j) (cellLong (y i j)) = .error .indexError := by
    rw [hy]
    show negCrossEntropy (R i j) r = _
    unfold negCrossEntropy
    rw [if_neg hign]
    rcases hr with hr | hr
    · rw [if_pos hr]
    · have : ¬ r < 0 := by omega
      rw [if_neg this, List.getElem?_eq_none]
      simp only [logSoftmax, List.length_map, hrow]
      omega
  have hm := maskedLL_error negCrossEntropy N items R y μ negCrossEntropy_cases i j hi hj hμ he
  unfold maskedLL at hm
  rw [← hflat] at hm
  simp only [baseLogLikelihood]
  rw [hm]
  rfl

/-- C02 without a mask: the same as with a mask that marks no cell. -/
theorem C02_base_no_mask (rows : List (List Logit)) (data : List Cell) (red : Reduction)
    (hlen : rows.length = data.length) (hred : red ≠ .none) :
    baseLogLikelihood rows data none red
      = baseLogLikelihood rows data (some (List.replicate data.length false)) red := by
  have h1 := gather_all rows
  have h2 := gather_all (data.map cellLong)
  rw [List.length_map] at h2
  rw [hlen] at h1
  simp only [baseLogLikelihood, h1, h2]
  cases red <;> simp_all

/-- C02 without a mask, `none`: cell values in order. -/
theorem C02_base_no_mask_cells (N items M : ℕ) (out : ℕ → List Logit) (y : ℕ → ℕ → Cell)
    (P : ℕ → ℕ → ℝ) (hlen : ∀ i, i < N → (out i).length = items * M)
    (hfin : ∀ i, i < N → ∀ row ∈ viewRows items M (out i), ∃ v, Logit.fin v ∈ row)
    (hobs : ∀ i, i < N → ∀ j, j < items →
      ObservedProb (fun i => probabilitiesFromOutput items M (out i)) y P i j) :
    baseLogLikelihood (reshapedOutput N items M out) (flatTensor N items y) none .none
      = .ok (.cells (flatTensor N items fun i j => some (logE (P i j)))) := by
  obtain ⟨R, hflat, hR⟩ := base_rows N items M out hlen
  have hc := base_cell N items M out y (fun _ _ => false) P hfin (fun i hi j hj _ => hobs i hi j hj) R hR
  simp only [baseLogLikelihood]
  rw [hflat, map_flatTensor, zip_flatTensor]
  rw [mapM_ok _ _ (fun p => match negCrossEntropy p.1 p.2 with | .ok v => v | .error _ => .negInf)]
  · simp only [bind, Except.bind]
    rw [map_flatTensor, map_flatTensor]
    congr 2
    apply flatTensor_congr
    intro i hi j hj
    simp only [hc i hi j hj rfl]
  · intro p hp
    obtain ⟨i, hi, j, hj, rfl⟩ := mem_flatTensor.1 hp
    simp only [hc i hi j hj rfl]

/-! The hypotheses on the output hold for the softmax models, e.g. the generalized partial credit
model: -/

theorem GPC.length_forwardRow (m : GPC) (θ : List ℝ) : (m.forwardRow θ).length = m.cats.length * m.M := by
  simp [GPC.forwardRow, maskFill, length_firstMask, length_missingMask, length_repeatInterleave,
    length_tile, GPC.weights, length_viewRows, GPC.biases, length_scatterMask, length_freeMask]

theorem GPC.row_finite (m : GPC) (hwf : m.WF) (θ : List ℝ) :
    ∀ row ∈ viewRows m.cats.length m.M (m.forwardRow θ), ∃ v, Logit.fin v ∈ row := by
  intro row hrow
  obtain ⟨j, hj⟩ := List.mem_iff_getElem?.1 hrow
  have hlt : j < m.cats.length := by
    have := lt_of_getElem?_some hj; rwa [length_viewRows] at this
  obtain ⟨c, hc⟩ := getElem?_of_lt m.cats j hlt
  have hmem := List.mem_of_getElem? hc
  obtain ⟨w, dl, hp, hl⟩ := m.exists_params j hlt
  obtain ⟨d, hd⟩ := exists_entry_fun dl
  rw [m.forward_row hwf θ j c w dl d hc hp (fun k hk => hd k (by omega))] at hj
  have hj := Option.some.inj hj
  refine ⟨((0:ℕ):ℝ) * dot θ w + d 0, ?_⟩
  rw [← hj]
  apply List.mem_map.2
  have h1 := hwf.catsPos c hmem
  have h2 : c ≤ m.M := le_maxCats _ _ hmem
  exact ⟨0, List.mem_range.2 (by omega), by rw [if_pos h1]⟩

/-- C02 for a generalized partial credit model at the API level: the log likelihood is the sum over the
observed cells of the log of `item_probabilities` at the response. -/
theorem C02_gpc_sum (m : GPC) (hwf : m.WF) (N : ℕ) (θ : ℕ → List ℝ) (y : ℕ → ℕ → Cell)
    (μ : ℕ → ℕ → Bool) (P : ℕ → ℕ → ℝ)
    (hobs : ∀ i, i < N → ∀ j c, m.cats[j]? = some c → μ i j = false →
      ∃ r : ℕ, y i j = some (r : ℤ) ∧ r < c ∧
        ∃ p, (m.probs (θ i))[j]? = some p ∧ p[r]? = some (P i j)) :
    baseLogLikelihood (reshapedOutput N m.cats.length m.M fun i => m.forwardRow (θ i))
        (flatTensor N m.cats.length y) (some (flatTensor N m.cats.length μ)) .sum
      = .ok (.scalar (.fin (∑ i ∈ Finset.range N, ∑ j ∈ Finset.range m.cats.length,
          if μ i j then 0 else Real.log (P i j)))) := by
  apply C02_base_sum
  · intro i _; exact m.length_forwardRow _
  · intro i _; exact m.row_finite hwf _
  · intro i hi j hj hμ
    obtain ⟨c, hc⟩ := getElem?_of_lt m.cats j hj
    obtain ⟨r, hy, _, p, hp, hr⟩ := hobs i hi j c hc hμ
    exact ⟨p, r, hp, hy, hr⟩
  · intro i hi j hj hμ
    obtain ⟨c, hc⟩ := getElem?_of_lt m.cats j hj
    obtain ⟨r, hy, hrc, p, hp, hr⟩ := hobs i hi j c hc hμ
    obtain ⟨p', hp', _, hpos⟩ := (C01_gpc_distribution m hwf (θ i)).2 j c hc
    rw [hp] at hp'
    obtain rfl := Option.some.inj hp'
    obtain ⟨x, hx, hx0⟩ := hpos r hrc
    rw [hr] at hx
    rw [Option.some.inj hx]; exact hx0.ne'

/-- A data matrix with an observed and a missing cell meeting the hypotheses of `C02_gpc_sum`: two
respondents, two items, respondent 0 skipped item 1 (and the cell holds NaN). -/
example : ∃ P : ℕ → ℕ → ℝ, ∀ i, i < 2 → ∀ j c, exGPC.cats[j]? = some c →
    (fun i j => decide (i = 0 ∧ j = 1)) i j = false →
      ∃ r : ℕ, (fun i j => if i = 0 ∧ j = 1 then none else some (1:ℤ) : ℕ → ℕ → Cell) i j = some (r : ℤ) ∧
        r < c ∧ ∃ p, (exGPC.probs ((fun i => [(i:ℝ), 1]) i))[j]? = some p ∧ p[r]? = some (P i j) := by
  refine ⟨fun i j => (((exGPC.probs [(i:ℝ), 1])[j]?).bind (fun p => p[1]?)).getD 0, ?_⟩
  intro i _ j c hc hμ
  have h2 : 2 ≤ c := by
    have := List.mem_of_getElem? hc
    simp [exGPC] at this; omega
  obtain ⟨p, hp, hd, hpos⟩ := (C01_gpc_distribution exGPC exGPC_wf [(i:ℝ), 1]).2 j c hc
  obtain ⟨x, hx, _⟩ := hpos 1 (by omega)
  have hμ' : ¬ (i = 0 ∧ j = 1) := by simpa using hμ
  refine ⟨1, by simp [hμ'], by omega, p, hp, ?_⟩
  simp [hp, hx]

/-! ## Models that look responses up in a probability table (3PL, GRM) -/

/-- C02 (3PL, GRM), `none`. `R i j` is the probability row of respondent `i` on item `j`. -/
theorem C02_table_cells (N items : ℕ) (R : ℕ → ℕ → List ℝ) (y : ℕ → ℕ → Cell) (μ : ℕ → ℕ → Bool)
    (P : ℕ → ℕ → ℝ)
    (hobs : ∀ i, i < N → ∀ j, j < items → μ i j = false →
      ∃ r : ℕ, y i j = some (r : ℤ) ∧ (R i j)[r]? = some (P i j)) :
    tableLogLikelihood (flatTensor N items R) (flatTensor N items y) (some (flatTensor N items μ)) .none
      = .ok (.cells (flatTensor N items fun i j => if μ i j then none else some (logE (P i j)))) := by
  have hm := maskedLL_eq lookupLog N items R y μ (fun i j => logE (P i j)) (by
    intro i hi j hj hμ
    obtain ⟨r, hy, hr⟩ := hobs i hi j hj hμ
    rw [hy]
    exact lookupLog_ok _ r _ hr)
  unfold maskedLL at hm
  simp only [tableLogLikelihood]
  rw [hm]
  simp only [bind, Except.bind]
  rw [gather_cells]

/-- C02 (3PL, GRM), `sum`. -/
theorem C02_table_sum (N items : ℕ) (R : ℕ → ℕ → List ℝ) (y : ℕ → ℕ → Cell) (μ : ℕ → ℕ → Bool)
    (P : ℕ → ℕ → ℝ)
    (hobs : ∀ i, i < N → ∀ j, j < items → μ i j = false →
      ∃ r : ℕ, y i j = some (r : ℤ) ∧ (R i j)[r]? = some (P i j))
    (hpos : ∀ i, i < N → ∀ j, j < items → μ i j = false → P i j ≠ 0) :
    tableLogLikelihood (flatTensor N items R) (flatTensor N items y) (some (flatTensor N items μ)) .sum
      = .ok (.scalar (.fin (∑ i ∈ Finset.range N, ∑ j ∈ Finset.range items,
          if μ i j then 0 else Real.log (P i j)))) := by
  have hm := maskedLL_eq lookupLog N items R y μ (fun i j => logE (P i j)) (by
    intro i hi j hj hμ
    obtain ⟨r, hy, hr⟩ := hobs i hi j hj hμ
    rw [hy]
    exact lookupLog_ok _ r _ hr)
  unfold maskedLL at hm
  simp only [tableLogLikelihood]
  rw [hm]
  simp only [bind, Except.bind]
  rw [gather_total N items μ _ (fun i j => Real.log (P i j))]
  intro i hi j hj hμ
  simp [logE, hpos i hi j hj hμ]

/-- Non-vacuity of the two theorems above: two respondents, two binary items, one missing cell. -/
example : ∀ i, i < 2 → ∀ j, j < 2 → (fun i j => decide (i = 0 ∧ j = 1)) i j = false →
    ∃ r : ℕ, (fun i j => if i = 0 ∧ j = 1 then none else some (1:ℤ) : ℕ → ℕ → Cell) i j = some (r : ℤ) ∧
      ((fun _ _ => [3/4, 1/4] : ℕ → ℕ → List ℝ) i j)[r]? = some ((fun _ _ => 1/4 : ℕ → ℕ → ℝ) i j) := by
  intro i _ j _ hμ
  have hμ' : ¬ (i = 0 ∧ j = 1) := by simpa using hμ
  exact ⟨1, by simp [hμ'], by simp⟩

/-- C02 (3PL, GRM): `loss_reduction="mean"` is refused whenever every observed response can be looked
up. -/
theorem C02_table_mean_refused (N items : ℕ) (R : ℕ → ℕ → List ℝ) (y : ℕ → ℕ → Cell)
    (μ : ℕ → ℕ → Bool) (P : ℕ → ℕ → ℝ)
    (hobs : ∀ i, i < N → ∀ j, j < items → μ i j = false →
      ∃ r : ℕ, y i j = some (r : ℤ) ∧ (R i j)[r]? = some (P i j)) :
    tableLogLikelihood (flatTensor N items R) (flatTensor N items y) (some (flatTensor N items μ)) .mean
      = .error .valueError := by
  have hm := maskedLL_eq lookupLog N items R y μ (fun i j => logE (P i j)) (by
    intro i hi j hj hμ
    obtain ⟨r, hy, hr⟩ := hobs i hi j hj hμ
    rw [hy]
    exact lookupLog_ok _ r _ hr)
  unfold maskedLL at hm
  simp only [tableLogLikelihood]
  rw [hm]
  rfl

end Irt
