import Verif.Props.LogLik

/-!
# C02: the mean log likelihood, and the target that torch ignores
-/

namespace Irt

theorem gather_length {α : Type*} (m : List Bool) (xs : List α) (h : xs.length = m.length) :
    ((gatherMask (m.map not) xs).length : ℝ) = (m.map fun b => if b then (0:ℝ) else 1).sum := by
  induction m generalizing xs with
  | nil => simp [gatherMask]
  | cons b m ih =>
    cases xs with
    | nil => simp at h
    | cons x xs =>
      have := ih xs (by simpa using h)
      cases b <;> simp [gatherMask] at this ⊢ <;> linarith

theorem mem_gatherMask_index {α : Type*} (m : List Bool) (xs : List α) (h : xs.length = m.length) (x : α)
    (hx : x ∈ gatherMask (m.map not) xs) : ∃ t : ℕ, m[t]? = some false ∧ xs[t]? = some x := by
  induction m generalizing xs with
  | nil => simp [gatherMask] at hx
  | cons b m ih =>
    cases xs with
    | nil => simp at h
    | cons y xs =>
      cases b with
      | true =>
        obtain ⟨t, h1, h2⟩ := ih xs (by simpa using h) (by simpa [gatherMask] using hx)
        exact ⟨t + 1, by simpa using h1, by simpa using h2⟩
      | false =>
        simp only [List.map_cons, Bool.not_false, gatherMask, List.mem_cons] at hx
        rcases hx with rfl | hx
        · exact ⟨0, rfl, rfl⟩
        · obtain ⟨t, h1, h2⟩ := ih xs (by simpa using h) hx
          exact ⟨t + 1, by simpa using h1, by simpa using h2⟩

/-- C02 (softmax models), `loss_reduction="mean"`: the sum over the observed cells of the log probability of the response, divided by the
number of observed cells. (torch gives NaN if there are none.) -/
theorem C02_base_mean (N items M : ℕ) (out : ℕ → List Logit) (y : ℕ → ℕ → Cell) (μ : ℕ → ℕ → Bool)
    (P : ℕ → ℕ → ℝ) (hlen : ∀ i, i < N → (out i).length = items * M)
    (hfin : ∀ i, i < N → ∀ row ∈ viewRows items M (out i), ∃ v, Logit.fin v ∈ row)
    (hobs : ∀ i, i < N → ∀ j, j < items → μ i j = false →
      ObservedProb (fun i => probabilitiesFromOutput items M (out i)) y P i j)
    (hpos : ∀ i, i < N → ∀ j, j < items → μ i j = false → P i j ≠ 0)
    (_hsome : ∃ i, i < N ∧ ∃ j, j < items ∧ μ i j = false) :
    baseLogLikelihood (reshapedOutput N items M out) (flatTensor N items y) (some (flatTensor N items μ)) .mean
      = .ok (.scalar (.fin ((∑ i ∈ Finset.range N, ∑ j ∈ Finset.range items, if μ i j then 0 else Real.log (P i j))
          / ∑ i ∈ Finset.range N, ∑ j ∈ Finset.range items, if μ i j then 0 else 1))) := by
  obtain ⟨R, hflat, hR⟩ := base_rows N items M out hlen
  have hm := maskedLL_eq negCrossEntropy N items R y μ (fun i j => logE (P i j))
    (base_cell N items M out y μ P hfin hobs R hR)
  unfold maskedLL at hm
  rw [← hflat] at hm
  simp only [baseLogLikelihood]
  rw [hm]
  simp only [bind, Except.bind]
  rw [gather_total N items μ _ (fun i j => Real.log (P i j))]
  · have hcount : countedTargets (gatherMask ((flatTensor N items μ).map not) ((flatTensor N items y).map cellLong))
        = (gatherMask ((flatTensor N items μ).map not) ((flatTensor N items y).map cellLong)).length := by
      unfold countedTargets
      rw [List.filter_eq_self.2]
      intro v hv
      obtain ⟨t, h1, h2⟩ := mem_gatherMask_index _ _ (by simp [length_flatTensor]) v hv
      have ht := lt_of_getElem?_some h1
      rw [length_flatTensor] at ht
      have hK : 0 < items := by
        rcases Nat.eq_zero_or_pos items with h | h
        · subst h; simp at ht
        · exact h
      rw [map_flatTensor, flatTensor_eq, List.getElem?_map, List.getElem?_range ht] at h2
      rw [flatTensor_eq, List.getElem?_map, List.getElem?_range ht] at h1
      simp only [Option.map_some, Option.some.injEq] at h1 h2
      obtain ⟨_, r, _, hy, _⟩ := hobs _ (by rwa [Nat.div_lt_iff_lt_mul hK] : t / items < N) _ (Nat.mod_lt t hK) h1
      rw [hy] at h2
      rw [← h2]
      simp [cellLong]
    have hl := gather_length (flatTensor N items μ) ((flatTensor N items y).map cellLong) (by simp [length_flatTensor])
    rw [map_flatTensor N items μ fun b => if b then (0:ℝ) else 1, sum_flatTensor] at hl
    simp only [Logit.divNat, hcount, hl]
  · intro i hi j hj hμ
    simp [logE, hpos i hi j hj hμ]

/-- What is left of the cells when those with the target -100 are masked too. -/
theorem gather_ignored {α : Type*} (rows : List α) (data : List Cell) (mask : List Bool) (h1 : rows.length = mask.length)
    (h2 : data.length = mask.length) :
    let mask' := List.zipWith (fun b c => b || decide (c = some (-100))) mask data
    List.zip (gatherMask (mask'.map not) rows) (gatherMask (mask'.map not) (data.map cellLong))
      = (List.zip (gatherMask (mask.map not) rows) (gatherMask (mask.map not) (data.map cellLong))).filter (fun p => decide (p.2 ≠ -100)) ∧
    gatherMask (mask'.map not) (data.map cellLong) = (gatherMask (mask.map not) (data.map cellLong)).filter fun y => decide (y ≠ -100) := by
  induction mask generalizing rows data with
  | nil => simp [gatherMask]
  | cons b mask ih =>
    cases rows with
    | nil => simp at h1
    | cons r rows =>
      cases data with
      | nil => simp at h2
      | cons c data =>
        obtain ⟨i1, i2⟩ := ih rows data (by simpa using h1) (by simpa using h2)
        have hc : (cellLong c = -100) ↔ c = some (-100) := by
          cases c with
          | none => simp [cellLong]
          | some v => simp [cellLong]
        cases b with
        | true => exact ⟨by simpa [gatherMask] using i1, by simpa [gatherMask] using i2⟩
        | false =>
          by_cases h : c = some (-100)
          · have h' := hc.2 h
            have hb : (false || decide (c = some (-100))) = true := by simp [h]
            simp only [List.zipWith_cons_cons, List.map_cons, hb, Bool.not_true, Bool.not_false, gatherMask, List.zip_cons_cons]
            rw [List.filter_cons_of_neg (by simp [h']), List.filter_cons_of_neg (by simp [h'])]
            exact ⟨i1, i2⟩
          · have h' : cellLong c ≠ -100 := fun e => h (hc.1 e)
            have hb : (false || decide (c = some (-100))) = false := by simp [h]
            simp only [List.zipWith_cons_cons, List.map_cons, hb, Bool.not_false, gatherMask, List.zip_cons_cons]
            rw [List.filter_cons_of_pos (by simp [h']), List.filter_cons_of_pos (by simp [h']), i1, i2]
            exact ⟨rfl, rfl⟩

theorem sum_ignored (K : List (List Logit × ℤ)) (g : Logit → Except PyErr LL) :
    (((K.filter fun p => decide (p.2 ≠ -100)).mapM fun p => negCrossEntropy p.1 p.2) >>= fun ll => g (Logit.sum ll))
      = ((K.mapM fun p => negCrossEntropy p.1 p.2) >>= fun ll => g (Logit.sum ll)) := by
  induction K generalizing g with
  | nil => rfl
  | cons p K ih =>
    by_cases h : p.2 = -100
    · have e : negCrossEntropy p.1 p.2 = .ok (.fin 0) := by simp [negCrossEntropy, h]
      have z : ∀ x : Logit, Logit.add (.fin 0) x = x := fun x => by cases x <;> simp [Logit.add]
      rw [List.filter_cons_of_neg (by simp [h]), ih]
      simp only [List.mapM_cons, e, bind_assoc, pure_bind, Logit.sum, List.foldr_cons]
      exact (congrArg (fun h => (K.mapM fun p => negCrossEntropy p.1 p.2) >>= h) (funext fun ll => congrArg g (z _))).symm
    · rw [List.filter_cons_of_pos (by simp [h])]
      simp only [List.mapM_cons, bind_assoc, pure_bind]
      congr 1
      funext v
      have := ih fun s => g (Logit.add v s)
      simpa [Logit.sum] using this

/-- C02 (softmax models): an answer coded -100, the target that torch ignores, counts as a missing answer in sums and means, whatever the
model says about the item. -/
theorem C02_base_ignored (rows : List (List Logit)) (data : List Cell) (mask : List Bool) (h1 : rows.length = mask.length)
    (h2 : data.length = mask.length) (red : Reduction) (hred : red ≠ .none) :
    baseLogLikelihood rows data (some mask) red
      = baseLogLikelihood rows data (some (List.zipWith (fun b c => b || decide (c = some (-100))) mask data)) red := by
  obtain ⟨e1, e2⟩ := gather_ignored rows data mask h1 h2
  simp only [baseLogLikelihood]
  rw [e1, e2]
  have hc : ∀ ys : List ℤ, countedTargets (ys.filter fun y => decide (y ≠ -100)) = countedTargets ys := fun ys => by
    simp [countedTargets, List.filter_filter]
  cases red with
  | sum => exact (sum_ignored _ fun s => .ok (.scalar s)).symm
  | mean =>
    simp only [hc]
    exact (sum_ignored _ fun s => .ok (.scalar (s.divNat _))).symm
  | none => exact absurd rfl hred

/-! ## The hypotheses are met: one respondent, two binary items with even odds, the second not answered, or answered -100 -/

example : baseLogLikelihood (reshapedOutput 1 2 2 fun _ => [.fin 0, .fin 0, .fin 0, .fin 0]) (flatTensor 1 2 fun _ _ => some 1)
    (some (flatTensor 1 2 fun _ j => decide (j = 1))) .mean = .ok (.scalar (.fin (Real.log (1 / 2)))) := by
  have hp : probabilitiesFromOutput 2 2 [.fin 0, .fin 0, .fin 0, .fin 0] = [[1 / 2, 1 / 2], [1 / 2, 1 / 2]] := by
    simp [probabilitiesFromOutput, viewRows, softmax, List.range_succ, Logit.exp]
    norm_num
  have h := C02_base_mean 1 2 2 (fun _ => [.fin 0, .fin 0, .fin 0, .fin 0]) (fun _ _ => some 1) (fun _ j => decide (j = 1))
    (fun _ _ => 1 / 2) (fun _ _ => rfl) (fun i _ row hrow => by
      simp [viewRows, List.range_succ] at hrow
      exact ⟨0, by rw [hrow]; simp⟩) (fun i _ j hj hμ => by
      obtain rfl : j = 0 := by
        have : j ≠ 1 := by simpa using hμ
        omega
      exact ⟨[1 / 2, 1 / 2], 1, by dsimp only; rw [hp]; rfl, rfl, rfl⟩) (fun _ _ _ _ _ => by norm_num) ⟨0, by norm_num, 0, by norm_num, by simp⟩
  rw [h]
  norm_num [Finset.sum_range_succ]

example : baseLogLikelihood [[.fin 0, .fin 0], [.fin 0, .fin 0]] [some 1, some (-100)] (some [false, false]) .mean
    = baseLogLikelihood [[.fin 0, .fin 0], [.fin 0, .fin 0]] [some 1, some (-100)] (some [false, true]) .mean :=
  C02_base_ignored _ _ [false, false] rfl rfl .mean (by simp)

end Irt
