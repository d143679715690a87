import Verif.Spec.LinkLoss
import Verif.Lemmas.LogLik
import Verif.Lemmas.Nominal

/-! # C82: the objective of `LinkCommonItems` -/

namespace Irt

theorem commonRows_eq (N items M : ℕ) (P : ℕ → ℕ → ℕ → ℝ) (idx : List ℕ) (h : ∀ j ∈ idx, j < items) :
    commonRows (probTensor N items M P) idx
      = .ok ((List.range N).flatMap fun i => idx.map fun j => (List.range M).map (P i j)) := by
  unfold commonRows probTensor
  rw [mapM_ok _ _ (fun t => idx.map fun j => t.getD j [])]
  · show Except.ok _ = Except.ok _
    congr 1
    rw [List.map_map, List.flatMap_def]
    congr 1
    apply List.map_congr_left
    intro i _
    apply List.map_congr_left
    intro j hj
    simp [h j hj]
  · intro t ht
    obtain ⟨i, -, rfl⟩ := List.mem_map.mp ht
    apply mapM_ok
    intro j hj
    simp [h j hj]

theorem klRow_eq (M : ℕ) (p q : ℕ → ℝ) (hq : ∀ c : ℕ, c < M → 0 ≤ q c) :
    klRow ((List.range M).map p) ((List.range M).map q) = klDivergence M p fun c => q c + 1e-10 := by
  unfold klRow klDivergence
  rw [zipWith_range]
  change ∑ c ∈ Finset.range M, (p c * Real.log (p c) - p c * Real.log (q c + 1e-10)) = _
  apply Finset.sum_congr rfl
  intro c hc
  by_cases h0 : p c = 0
  · simp [h0]
  · have := hq c (Finset.mem_range.mp hc)
    rw [Real.log_div h0 (by positivity)]
    ring

/-- C82: the loss is the average over respondents and pairs of common items of the Kullback-Leibler divergence of the linked
model's response distribution, with `1e-10` added to every probability, from the target model's. -/
theorem C82_value (N itemsFrom itemsTo M : ℕ) (P Q : ℕ → ℕ → ℕ → ℝ) (hQ : IsProbTensor N itemsTo M Q)
    (pairs : List (ℕ × ℕ)) (hpairs : ∀ p ∈ pairs, p.1 < itemsFrom ∧ p.2 < itemsTo) :
    linkLoss M M (probTensor N itemsFrom M P) (probTensor N itemsTo M Q) (pairs.map Prod.fst) (pairs.map Prod.snd)
      = .ok (averageOver N pairs fun i p => klDivergence M (P i p.1) fun c => Q i p.2 c + 1e-10) := by
  unfold linkLoss
  rw [commonRows_eq N itemsFrom M P _ (by simpa using fun a b h => (hpairs (a, b) h).1),
    commonRows_eq N itemsTo M Q _ (by simpa using fun b a h => (hpairs (a, b) h).2)]
  simp only [bind, Except.bind]
  rw [if_neg (by simp)]
  show Except.ok _ = Except.ok _
  congr 1
  unfold averageOver
  have key : ∀ is : List ℕ, (∀ i ∈ is, i < N) → (List.zipWith klRow
      (is.flatMap fun i => (pairs.map Prod.fst).map fun j => (List.range M).map (P i j))
      (is.flatMap fun i => (pairs.map Prod.snd).map fun j => (List.range M).map (Q i j))).sum
      = (is.map fun i => (pairs.map fun p => klDivergence M (P i p.1) fun c => Q i p.2 c + 1e-10).sum).sum := by
    intro is his
    induction is with
    | nil => rfl
    | cons i is ih =>
      rw [List.flatMap_cons, List.flatMap_cons, List.zipWith_append (by simp), List.sum_append,
        ih fun k hk => his k (List.mem_cons_of_mem _ hk), List.map_cons, List.sum_cons]
      congr 1
      rw [List.map_map, List.map_map, List.zipWith_map, List.zipWith_self]
      congr 1
      apply List.map_congr_left
      intro p hp
      exact klRow_eq M _ _ fun c hc => (hQ i p.2 (his i (by simp)) (hpairs p hp).2).1 c hc
  rw [key _ fun i hi => List.mem_range.mp hi]
  congr 1
  simp [List.length_flatMap]

/-! ## Divergences -/

theorem klDivergence_hellinger (M : ℕ) (p q : ℕ → ℝ) (hp : ∀ c : ℕ, c < M → 0 ≤ p c) (hq : ∀ c : ℕ, c < M → 0 < q c) :
    hellingerSq M p q ≤ klDivergence M p q + ∑ c ∈ Finset.range M, q c - ∑ c ∈ Finset.range M, p c := by
  unfold hellingerSq klDivergence
  rw [← Finset.sum_add_distrib, ← Finset.sum_sub_distrib]
  apply Finset.sum_le_sum
  intro c hc
  have h0 := hp c (Finset.mem_range.mp hc)
  have h1 := hq c (Finset.mem_range.mp hc)
  have e1 := Real.sq_sqrt h0
  have e2 := Real.sq_sqrt h1.le
  rcases h0.eq_or_lt with h | h
  · rw [← h]; simp [h1.le]
  · have hs0 := Real.sqrt_pos.mpr h
    have hs1 := Real.sqrt_pos.mpr h1
    have hl : Real.log (p c / q c) = -2 * Real.log (Real.sqrt (q c) / Real.sqrt (p c)) := by
      rw [Real.log_div hs1.ne' hs0.ne', Real.log_div h.ne' h1.ne', Real.log_sqrt h0, Real.log_sqrt h1.le]; ring
    have hle := Real.log_le_sub_one_of_pos (div_pos hs1 hs0)
    have : p c * (Real.sqrt (q c) / Real.sqrt (p c)) = Real.sqrt (p c) * Real.sqrt (q c) := by
      field_simp
      nlinarith
    rw [hl]
    nlinarith [mul_le_mul_of_nonneg_left hle h.le]

theorem averageOver_mono {N : ℕ} {pairs : List (ℕ × ℕ)} {f g : ℕ → ℕ × ℕ → ℝ}
    (h : ∀ i : ℕ, i < N → ∀ p ∈ pairs, f i p ≤ g i p) : averageOver N pairs f ≤ averageOver N pairs g := by
  unfold averageOver
  apply div_le_div_of_nonneg_right _ (by positivity)
  apply Finset.sum_le_sum
  intro i hi
  exact List.sum_le_sum fun p hp => h i (Finset.mem_range.mp hi) p hp

theorem averageOver_const {N : ℕ} (hN : 0 < N) {pairs : List (ℕ × ℕ)} (hp : pairs ≠ []) (f : ℕ → ℕ × ℕ → ℝ) (k : ℝ) :
    averageOver N pairs (fun i p => f i p + k) = averageOver N pairs f + k := by
  unfold averageOver
  have h1 : (0 : ℝ) < N := by exact_mod_cast hN
  have h2 : (0 : ℝ) < pairs.length := by exact_mod_cast List.length_pos_of_ne_nil hp
  have : ∀ i, (pairs.map fun p => f i p + k).sum = (pairs.map (f i)).sum + pairs.length * k := by
    intro i
    rw [List.sum_map_add]
    simp
  simp only [this, Finset.sum_add_distrib, Finset.sum_const, Finset.card_range, nsmul_eq_mul]
  field_simp

/-- C82: the loss bounds the distance of the two models' response distributions: the average squared Hellinger distance over
respondents and common items is at most the loss plus `M * 1e-10`. In particular the loss is never below `-M * 1e-10`. -/
theorem C82_bounds_distance (N itemsFrom itemsTo M : ℕ) (hN : 0 < N) (P Q : ℕ → ℕ → ℕ → ℝ)
    (hP : IsProbTensor N itemsFrom M P) (hQ : IsProbTensor N itemsTo M Q)
    (pairs : List (ℕ × ℕ)) (hne : pairs ≠ []) (hpairs : ∀ p ∈ pairs, p.1 < itemsFrom ∧ p.2 < itemsTo) (loss : ℝ)
    (hloss : linkLoss M M (probTensor N itemsFrom M P) (probTensor N itemsTo M Q) (pairs.map Prod.fst) (pairs.map Prod.snd)
      = .ok loss) :
    averageOver N pairs (fun i p => hellingerSq M (P i p.1) fun c => Q i p.2 c + 1e-10) ≤ loss + M * 1e-10 ∧
    -(M * 1e-10) ≤ loss := by
  rw [C82_value N itemsFrom itemsTo M P Q hQ pairs hpairs] at hloss
  obtain rfl := Except.ok.inj hloss
  have h : averageOver N pairs (fun i p => hellingerSq M (P i p.1) fun c => Q i p.2 c + 1e-10)
      ≤ averageOver N pairs (fun i p => klDivergence M (P i p.1) fun c => Q i p.2 c + 1e-10) + M * 1e-10 := by
    rw [← averageOver_const hN hne]
    apply averageOver_mono
    intro i hi p hp
    have hPi := hP i p.1 hi (hpairs p hp).1
    have hQi := hQ i p.2 hi (hpairs p hp).2
    have := klDivergence_hellinger M (P i p.1) (fun c => Q i p.2 c + 1e-10) hPi.1
      fun c hc => by have := hQi.1 c hc; positivity
    rw [hPi.2, Finset.sum_add_distrib, hQi.2] at this
    simp only [Finset.sum_const, Finset.card_range, nsmul_eq_mul] at this
    linarith
  refine ⟨h, ?_⟩
  have h0 : 0 ≤ averageOver N pairs (fun i p => hellingerSq M (P i p.1) fun c => Q i p.2 c + 1e-10) := by
    unfold averageOver
    apply div_nonneg _ (by positivity)
    refine Finset.sum_nonneg fun i _ => List.sum_nonneg fun x hx => ?_
    obtain ⟨p, -, rfl⟩ := List.mem_map.mp hx
    exact Finset.sum_nonneg fun c _ => sq_nonneg _
  linarith

/-- C82: if the linked model gives the common items the probabilities of the target model, the loss is at most zero, which by
`C82_bounds_distance` is within `M * 1e-10` of the smallest possible value. -/
theorem C82_equal (N itemsFrom itemsTo M : ℕ) (P Q : ℕ → ℕ → ℕ → ℝ)
    (hP : IsProbTensor N itemsFrom M P) (hQ : IsProbTensor N itemsTo M Q)
    (pairs : List (ℕ × ℕ)) (hpairs : ∀ p ∈ pairs, p.1 < itemsFrom ∧ p.2 < itemsTo)
    (heq : ∀ i c : ℕ, i < N → c < M → ∀ p ∈ pairs, P i p.1 c = Q i p.2 c) :
    ∃ loss, linkLoss M M (probTensor N itemsFrom M P) (probTensor N itemsTo M Q) (pairs.map Prod.fst)
      (pairs.map Prod.snd) = .ok loss ∧ loss ≤ 0 := by
  refine ⟨_, C82_value N itemsFrom itemsTo M P Q hQ pairs hpairs, ?_⟩
  unfold averageOver
  apply div_nonpos_of_nonpos_of_nonneg _ (by positivity)
  refine Finset.sum_nonpos fun i hi => ?_
  refine (List.sum_le_sum (f := _) (g := fun _ => (0 : ℝ)) fun p hp => ?_).trans (by simp)
  refine Finset.sum_nonpos fun c hc => ?_
  have hi' := Finset.mem_range.mp hi
  have hc' := Finset.mem_range.mp hc
  have h0 := (hP i p.1 hi' (hpairs p hp).1).1 c hc'
  have h1 := (hQ i p.2 hi' (hpairs p hp).2).1 c hc'
  apply mul_nonpos_of_nonneg_of_nonpos h0
  apply Real.log_nonpos (div_nonneg h0 (by positivity))
  rw [div_le_one (by positivity), heq i c hi' hc' p hp]
  norm_num

/-- C82: when the linked model gives every category of the common items a positive probability, the loss is at most the average
Kullback-Leibler divergence of the two models, and less than it by no more than `1e-10` times the average of the summed ratios
of the probabilities. -/
theorem C82_divergence (N itemsFrom itemsTo M : ℕ) (P Q : ℕ → ℕ → ℕ → ℝ)
    (hP : IsProbTensor N itemsFrom M P) (hQ : IsProbTensor N itemsTo M Q)
    (pairs : List (ℕ × ℕ)) (hpairs : ∀ p ∈ pairs, p.1 < itemsFrom ∧ p.2 < itemsTo)
    (hpos : ∀ i c : ℕ, i < N → c < M → ∀ p ∈ pairs, 0 < Q i p.2 c) :
    ∃ loss, linkLoss M M (probTensor N itemsFrom M P) (probTensor N itemsTo M Q) (pairs.map Prod.fst)
      (pairs.map Prod.snd) = .ok loss ∧
      loss ≤ averageOver N pairs (fun i p => klDivergence M (P i p.1) (Q i p.2)) ∧
      averageOver N pairs (fun i p => klDivergence M (P i p.1) (Q i p.2)
        - 1e-10 * ∑ c ∈ Finset.range M, P i p.1 c / Q i p.2 c) ≤ loss := by
  refine ⟨_, C82_value N itemsFrom itemsTo M P Q hQ pairs hpairs, ?_, ?_⟩
  · apply averageOver_mono
    intro i hi p hp
    apply Finset.sum_le_sum
    intro c hc
    have hc' := Finset.mem_range.mp hc
    have h0 := (hP i p.1 hi (hpairs p hp).1).1 c hc'
    have h1 := hpos i c hi hc' p hp
    apply mul_le_mul_of_nonneg_left _ h0
    rcases h0.eq_or_lt with h | h
    · simp [← h]
    · apply Real.log_le_log (by positivity)
      apply div_le_div_of_nonneg_left h0 h1
      norm_num
  · apply averageOver_mono
    intro i hi p hp
    unfold klDivergence
    rw [Finset.mul_sum, ← Finset.sum_sub_distrib]
    apply Finset.sum_le_sum
    intro c hc
    have hc' := Finset.mem_range.mp hc
    have h0 := (hP i p.1 hi (hpairs p hp).1).1 c hc'
    have h1 := hpos i c hi hc' p hp
    rcases h0.eq_or_lt with h | h
    · simp [← h]
    · have hl := Real.log_le_sub_one_of_pos (x := (Q i p.2 c + 1e-10) / Q i p.2 c) (by positivity)
      rw [Real.log_div (by positivity) h1.ne'] at hl
      rw [Real.log_div h.ne' h1.ne', Real.log_div h.ne' (by positivity)]
      have e : (Q i p.2 c + 1e-10) / Q i p.2 c - 1 = 1e-10 / Q i p.2 c := by field_simp; ring
      rw [e] at hl
      have := mul_le_mul_of_nonneg_left hl h0
      have e2 : P i p.1 c * (1e-10 / Q i p.2 c) = 1e-10 * (P i p.1 c / Q i p.2 c) := by ring
      rw [e2] at this
      linarith

/-- Two respondents, one common item that is the second of the target model and the first of the other. -/
example : ∃ P Q : ℕ → ℕ → ℕ → ℝ, IsProbTensor 2 2 2 P ∧ IsProbTensor 2 1 2 Q ∧
    (∀ i c : ℕ, i < 2 → c < 2 → ∀ p ∈ [(1, 0)], P i p.1 c = Q i p.2 c ∧ 0 < Q i p.2 c) ∧ P 0 0 0 ≠ P 0 1 0 ∧
    P 0 1 0 ≠ P 1 1 0 := by
  refine ⟨fun i j c => if j = 0 then 1 / 2 else if i = 0 then (if c = 0 then 1 / 4 else 3 / 4) else
    (if c = 0 then 1 / 3 else 2 / 3), fun i _ c => if i = 0 then (if c = 0 then 1 / 4 else 3 / 4) else
    (if c = 0 then 1 / 3 else 2 / 3), ?_, ?_, ?_, by norm_num, by norm_num⟩
  · intro i j _ _
    refine ⟨fun c _ => by dsimp only; split_ifs <;> norm_num, ?_⟩
    simp only [Finset.sum_range_succ, Finset.sum_range_zero]
    split_ifs <;> norm_num at *
  · intro i j _ _
    refine ⟨fun c _ => by dsimp only; split_ifs <;> norm_num, ?_⟩
    simp only [Finset.sum_range_succ, Finset.sum_range_zero]
    split_ifs <;> norm_num at *
  · intro i c _ _ p hp
    obtain rfl := List.mem_singleton.mp hp
    refine ⟨by simp, ?_⟩
    dsimp only
    split_ifs <;> norm_num

/-! ## Models of different widths -/

/-- C82 does not hold in full: models whose common items have the same categories pass every check of the constructor, but
when the largest numbers of categories of the two models differ the first evaluation of the loss stops with an error. -/
theorem C82_widths_false :
    ¬ ∀ (catsFrom catsTo : List ℕ) (idxFrom idxTo : List ℕ) (P Q : ℕ → ℕ → ℕ → ℝ),
      linkChecks 1 1 (some idxFrom) (some idxTo) true = .ok () →
      (∀ j ∈ idxFrom, j < catsFrom.length) → (∀ j ∈ idxTo, j < catsTo.length) →
      idxFrom.map (catsFrom.getD · 0) = idxTo.map (catsTo.getD · 0) →
      IsProbTensor 1 catsFrom.length (maxCats catsFrom) P → IsProbTensor 1 catsTo.length (maxCats catsTo) Q →
      ∃ loss, linkLoss (maxCats catsFrom) (maxCats catsTo) (probTensor 1 catsFrom.length (maxCats catsFrom) P)
        (probTensor 1 catsTo.length (maxCats catsTo) Q) idxFrom idxTo = .ok loss := by
  intro h
  have hu : ∀ n M : ℕ, 0 < M → IsProbTensor 1 n M fun _ _ c => if c = 0 then 1 else 0 := by
    intro n M hM i j _ _
    refine ⟨fun c _ => by dsimp only; split_ifs <;> norm_num, ?_⟩
    rw [Finset.sum_ite_eq' (Finset.range M) 0, if_pos (Finset.mem_range.mpr hM)]
  obtain ⟨loss, hl⟩ := h [2, 2] [2, 3] [0] [0] _ _ rfl (by simp) (by simp) rfl (hu _ _ (by decide)) (hu _ _ (by decide))
  unfold linkLoss at hl
  rw [commonRows_eq _ _ _ _ _ (by simp), commonRows_eq _ _ _ _ _ (by simp)] at hl
  simp only [bind, Except.bind] at hl
  rw [if_pos (by decide)] at hl
  cases hl

/-- C82: the loss is defined exactly when the widths agree, for common items inside both models. -/
theorem C82_widths (N itemsFrom itemsTo mFrom mTo : ℕ) (P Q : ℕ → ℕ → ℕ → ℝ) (idxFrom idxTo : List ℕ)
    (hF : ∀ j ∈ idxFrom, j < itemsFrom) (hT : ∀ j ∈ idxTo, j < itemsTo) :
    (∃ loss, linkLoss mFrom mTo (probTensor N itemsFrom mFrom P) (probTensor N itemsTo mTo Q) idxFrom idxTo = .ok loss)
      ↔ mFrom = mTo := by
  unfold linkLoss
  rw [commonRows_eq _ _ _ _ _ hF, commonRows_eq _ _ _ _ _ hT]
  simp only [bind, Except.bind]
  by_cases h : mFrom = mTo
  · rw [if_neg (by simpa using h)]
    exact ⟨fun _ => h, fun _ => ⟨_, rfl⟩⟩
  · rw [if_pos h]
    constructor
    · rintro ⟨_, hl⟩
      cases hl
    · exact fun hh => absurd hh h

end Irt
