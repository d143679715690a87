import Verif.Spec.Tensor
import Verif.Lemmas.Nominal
import Verif.Lemmas.LogLik

/-! # Flat tensors and log likelihoods of whole data matrices -/

namespace Irt

variable {α β γ : Type*}

theorem length_flatTensor (N K : ℕ) (f : ℕ → ℕ → α) : (flatTensor N K f).length = N * K := by
  unfold flatTensor
  rw [length_flatMap_const K _ _ (by simp)]; simp

theorem flatTensor_entry (N K : ℕ) (f : ℕ → ℕ → α) (i j : ℕ) (hi : i < N) (hj : j < K) :
    (flatTensor N K f)[i * K + j]? = some (f i j) := by
  unfold flatTensor
  rw [flatMap_getElem? K _ _ (by simp) i j hj, List.getElem?_range hi, Option.bind_some,
    List.getElem?_map, List.getElem?_range hj]
  rfl

theorem flatTensor_eq (N K : ℕ) (f : ℕ → ℕ → α) :
    flatTensor N K f = (List.range (N * K)).map fun t => f (t / K) (t % K) := by
  apply List.ext_getElem?
  intro t
  by_cases ht : t < N * K
  · have hK : 0 < K := by
      rcases Nat.eq_zero_or_pos K with h | h
      · subst h; simp at ht
      · exact h
    have hm : t % K < K := Nat.mod_lt _ hK
    have hd : t / K < N := by rwa [Nat.div_lt_iff_lt_mul hK]
    have e : t = t / K * K + t % K := by rw [Nat.mul_comm]; exact (Nat.div_add_mod t K).symm
    conv_lhs => rw [e]
    rw [flatTensor_entry N K f _ _ hd hm, List.getElem?_map, List.getElem?_range ht]
    rfl
  · rw [List.getElem?_eq_none (by rw [length_flatTensor]; omega),
      List.getElem?_eq_none (by simp; omega)]

theorem map_flatTensor (N K : ℕ) (f : ℕ → ℕ → α) (g : α → β) :
    (flatTensor N K f).map g = flatTensor N K fun i j => g (f i j) := by
  simp only [flatTensor_eq, List.map_map]; rfl

theorem zipWith_flatTensor (N K : ℕ) (f : ℕ → ℕ → α) (g : ℕ → ℕ → β) (op : α → β → γ) :
    List.zipWith op (flatTensor N K f) (flatTensor N K g)
      = flatTensor N K fun i j => op (f i j) (g i j) := by
  simp only [flatTensor_eq, zipWith_range]

theorem zip_flatTensor (N K : ℕ) (f : ℕ → ℕ → α) (g : ℕ → ℕ → β) :
    List.zip (flatTensor N K f) (flatTensor N K g) = flatTensor N K fun i j => (f i j, g i j) := by
  rw [List.zip, zipWith_flatTensor]

theorem flatTensor_congr (N K : ℕ) (f g : ℕ → ℕ → α)
    (h : ∀ i, i < N → ∀ j, j < K → f i j = g i j) : flatTensor N K f = flatTensor N K g := by
  rw [flatTensor_eq, flatTensor_eq]
  apply List.map_congr_left
  intro t ht
  have ht := List.mem_range.1 ht
  have hK : 0 < K := by
    rcases Nat.eq_zero_or_pos K with h | h
    · subst h; simp at ht
    · exact h
  exact h _ (by rwa [Nat.div_lt_iff_lt_mul hK]) _ (Nat.mod_lt _ hK)

theorem sum_flatTensor (N K : ℕ) (f : ℕ → ℕ → ℝ) :
    (flatTensor N K f).sum = ∑ i ∈ Finset.range N, ∑ j ∈ Finset.range K, f i j := by
  unfold flatTensor
  rw [← list_sum_range]
  induction (List.range N) with
  | nil => simp
  | cons a l ih => simp [ih, list_sum_range]

theorem mem_flatTensor {N K : ℕ} {f : ℕ → ℕ → α} {x : α} :
    x ∈ flatTensor N K f ↔ ∃ i, i < N ∧ ∃ j, j < K ∧ f i j = x := by
  simp [flatTensor]

theorem viewRows_append (a b k : ℕ) (xs ys : List α) (h : xs.length = a * k) :
    viewRows (a + b) k (xs ++ ys) = viewRows a k xs ++ viewRows b k ys := by
  induction a generalizing xs with
  | zero => simp at h; simp [h, viewRows]
  | succ a ih =>
    have hk : k ≤ xs.length := by rw [h, Nat.succ_mul]; omega
    have : a + 1 + b = (a + b) + 1 := by omega
    rw [this]
    simp only [viewRows, List.cons_append]
    rw [List.take_append_of_le_length hk, List.drop_append_of_le_length hk, ih]
    rw [List.length_drop, h, Nat.succ_mul]; omega

/-- `output.reshape(-1, M)` of a batch is the rows of each respondent one after the other. -/
theorem viewRows_batch (items M : ℕ) (outs : List (List α)) (h : ∀ o ∈ outs, o.length = items * M) :
    viewRows (outs.length * items) M outs.flatten = outs.flatMap (viewRows items M) := by
  induction outs with
  | nil => simp [viewRows]
  | cons o outs ih =>
    have : (o :: outs).length * items = items + outs.length * items := by
      simp [Nat.succ_mul]; omega
    rw [this, List.flatten_cons, viewRows_append _ _ _ _ _ (h o (by simp)),
      ih (fun o' ho' => h o' (by simp [ho']))]
    simp

theorem viewRows_batch_flatTensor (N items M : ℕ) (out : ℕ → List α) (R : ℕ → ℕ → List α)
    (h : ∀ i, i < N → (out i).length = items * M)
    (hR : ∀ i, i < N → ∀ j, j < items → (viewRows items M (out i))[j]? = some (R i j)) :
    viewRows (N * items) M ((List.range N).map out).flatten = flatTensor N items R := by
  have h' : ∀ o ∈ (List.range N).map out, o.length = items * M := by
    intro o ho
    obtain ⟨i, hi, rfl⟩ := List.mem_map.1 ho
    exact h i (List.mem_range.1 hi)
  have e := viewRows_batch items M _ h'
  rw [List.length_map, List.length_range] at e
  rw [e, List.flatMap_map]
  unfold flatTensor
  apply List.flatMap_congr
  intro i hi
  have hi := List.mem_range.1 hi
  apply List.ext_getElem?
  intro j
  by_cases hj : j < items
  · rw [hR i hi j hj, List.getElem?_map, List.getElem?_range hj]; rfl
  · rw [List.getElem?_eq_none (by rw [length_viewRows]; omega),
      List.getElem?_eq_none (by simp; omega)]

/-- Common shape of the two `log_likelihood` implementations. -/
noncomputable def maskedLL (f : α → ℤ → Except PyErr Logit) (rows : List α) (data : List Cell)
    (mask : List Bool) : Except PyErr (List Logit) :=
  (List.zip (gatherMask (mask.map not) rows) (gatherMask (mask.map not) (data.map cellLong))).mapM
    fun p => f p.1 p.2

theorem maskedLL_eq (f : α → ℤ → Except PyErr Logit) (N K : ℕ) (R : ℕ → ℕ → α) (y : ℕ → ℕ → Cell)
    (μ : ℕ → ℕ → Bool) (L : ℕ → ℕ → Logit)
    (h : ∀ i, i < N → ∀ j, j < K → μ i j = false → f (R i j) (cellLong (y i j)) = .ok (L i j)) :
    maskedLL f (flatTensor N K R) (flatTensor N K y) (flatTensor N K μ)
      = .ok (gatherMask ((flatTensor N K μ).map not) (flatTensor N K L)) := by
  classical
  unfold maskedLL
  rw [zip_gatherMask _ _ _ (by simp [length_flatTensor]) (by simp [length_flatTensor]),
    map_flatTensor, map_flatTensor, zip_flatTensor]
  let g : α × ℤ → Logit := fun p => match f p.1 p.2 with | .ok v => v | .error _ => .negInf
  have hm : ∀ p ∈ gatherMask (flatTensor N K fun i j => !μ i j)
      (flatTensor N K fun i j => (R i j, cellLong (y i j))), f p.1 p.2 = .ok (g p) := by
    intro p hp
    obtain ⟨t, h1, h2⟩ := mem_gatherMask _ _ _ hp
    have ht := lt_of_getElem?_some h1
    rw [length_flatTensor] at ht
    rw [flatTensor_eq, List.getElem?_map, List.getElem?_range ht] at h1 h2
    simp only [Option.map_some, Option.some.injEq] at h1 h2
    have hK : 0 < K := by
      rcases Nat.eq_zero_or_pos K with h | h
      · subst h; simp at ht
      · exact h
    have hx := h _ (by rwa [Nat.div_lt_iff_lt_mul hK] : t / K < N) _ (Nat.mod_lt t hK) (by simpa using h1)
    rw [← h2]
    simp only [g]
    rw [hx]
  rw [mapM_ok _ _ g hm, gatherMask_map, map_flatTensor]
  congr 1
  apply gatherMask_congr
  · simp [length_flatTensor]
  · simp [length_flatTensor]
  · intro t h1
    have ht := lt_of_getElem?_some h1
    rw [length_flatTensor] at ht
    have hK : 0 < K := by
      rcases Nat.eq_zero_or_pos K with h | h
      · subst h; simp at ht
      · exact h
    rw [flatTensor_eq, List.getElem?_map, List.getElem?_range ht] at h1 ⊢
    rw [flatTensor_eq, List.getElem?_map, List.getElem?_range ht]
    simp only [Option.map_some, Option.some.injEq] at h1 ⊢
    have hx := h _ (by rwa [Nat.div_lt_iff_lt_mul hK] : t / K < N) _ (Nat.mod_lt t hK) (by simpa using h1)
    simp only [g, hx]

theorem maskedLL_error (f : α → ℤ → Except PyErr Logit) (N K : ℕ) (R : ℕ → ℕ → α) (y : ℕ → ℕ → Cell)
    (μ : ℕ → ℕ → Bool) (hall : ∀ r z, f r z = .error .indexError ∨ ∃ v, f r z = .ok v)
    (i j : ℕ) (hi : i < N) (hj : j < K) (hμ : μ i j = false)
    (he : f (R i j) (cellLong (y i j)) = .error .indexError) :
    maskedLL f (flatTensor N K R) (flatTensor N K y) (flatTensor N K μ) = .error .indexError := by
  unfold maskedLL
  rw [zip_gatherMask _ _ _ (by simp [length_flatTensor]) (by simp [length_flatTensor]),
    map_flatTensor, map_flatTensor, zip_flatTensor]
  apply mapM_error
  · intro p _; exact hall _ _
  · refine ⟨(R i j, cellLong (y i j)), ?_, he⟩
    apply mem_gatherMask_of _ _ (i * K + j)
    · rw [flatTensor_entry _ _ _ _ _ hi hj, hμ]; rfl
    · rw [flatTensor_entry _ _ _ _ _ hi hj]

theorem gather_cells (N K : ℕ) (μ : ℕ → ℕ → Bool) (L : ℕ → ℕ → Logit) :
    scatterObserved (flatTensor N K μ) (gatherMask ((flatTensor N K μ).map not) (flatTensor N K L))
      = flatTensor N K fun i j => if μ i j then none else some (L i j) := by
  rw [scatterObserved_gather _ _ (by simp [length_flatTensor]), zipWith_flatTensor]

theorem gather_total (N K : ℕ) (μ : ℕ → ℕ → Bool) (L : ℕ → ℕ → Logit) (v : ℕ → ℕ → ℝ)
    (h : ∀ i, i < N → ∀ j, j < K → μ i j = false → L i j = .fin (v i j)) :
    Logit.sum (gatherMask ((flatTensor N K μ).map not) (flatTensor N K L))
      = .fin (∑ i ∈ Finset.range N, ∑ j ∈ Finset.range K, if μ i j then 0 else v i j) := by
  have e : gatherMask ((flatTensor N K μ).map not) (flatTensor N K L)
      = (gatherMask ((flatTensor N K μ).map not) (flatTensor N K v)).map Logit.fin := by
    rw [gatherMask_map, map_flatTensor, map_flatTensor]
    apply gatherMask_congr
    · simp [length_flatTensor]
    · simp [length_flatTensor]
    · intro t h1
      have ht := lt_of_getElem?_some h1
      rw [length_flatTensor] at ht
      have hK : 0 < K := by
        rcases Nat.eq_zero_or_pos K with h | h
        · subst h; simp at ht
        · exact h
      rw [flatTensor_eq, List.getElem?_map, List.getElem?_range ht] at h1 ⊢
      rw [flatTensor_eq, List.getElem?_map, List.getElem?_range ht]
      simp only [Option.map_some, Option.some.injEq] at h1 ⊢
      exact h _ (by rwa [Nat.div_lt_iff_lt_mul hK] : t / K < N) _ (Nat.mod_lt t hK) (by simpa using h1)
  rw [e, Logit.sum_fin, gather_sum _ _ (by simp [length_flatTensor]), zipWith_flatTensor,
    sum_flatTensor]

theorem gather_negInf (N K : ℕ) (μ : ℕ → ℕ → Bool) (L : ℕ → ℕ → Logit) (i j : ℕ) (hi : i < N)
    (hj : j < K) (hμ : μ i j = false) (h : L i j = .negInf) :
    Logit.sum (gatherMask ((flatTensor N K μ).map not) (flatTensor N K L)) = .negInf := by
  apply Logit.sum_negInf
  apply mem_gatherMask_of _ _ (i * K + j)
  · rw [map_flatTensor, flatTensor_entry _ _ _ _ _ hi hj, hμ]; rfl
  · rw [flatTensor_entry _ _ _ _ _ hi hj, h]

/-- No mask behaves as a mask without missing cells. -/
theorem gather_all (xs : List α) : gatherMask ((List.replicate xs.length false).map not) xs = xs := by
  induction xs with
  | nil => rfl
  | cons x xs ih => simp only [List.length_cons, List.replicate_succ, List.map_cons, gatherMask,
      Bool.not_false]; rw [ih]

end Irt
