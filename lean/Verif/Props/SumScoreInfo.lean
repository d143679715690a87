import Verif.Props.Merging
import Verif.Props.ScoreDist
import Verif.Props.Nesting
import Verif.Props.BitLimit

/-! # C163: the sum score tells at most what the answers tell -/

namespace Irt
open Spec

variable {d C : ℕ} {ι : Type} [Fintype ι] [DecidableEq ι] {P : (Fin d → ℝ) → ι → Fin C → ℝ}

/-- In the direction `v`, the information of the answers is the sum over the patterns of squared slope by probability. -/
theorem expectedOuter_direction (hP : SmoothTest P) (t v : Fin d → ℝ) :
    v ⬝ᵥ (expectedOuter P t).mulVec v = ∑ x, (∑ k, v k * partialD (patternProb P x) t k) ^ 2 / patternProb P x t := by
  have hterm : ∀ x, patternProb P x t * (∑ k, v k * partialD (patternLogLik P x) t k) ^ 2
      = (∑ k, v k * partialD (patternProb P x) t k) ^ 2 / patternProb P x t := by
    intro x
    by_cases hz : patternProb P x t = 0
    · rw [hz, zero_mul, div_zero]
    · have hlog : ∀ k, partialD (patternLogLik P x) t k = partialD (patternProb P x) t k / patternProb P x t := by
        intro k
        rw [score_eq hP x t k hz]
        unfold partialD
        rw [(patternProb_slope hP x t k).deriv, mul_div_cancel_left₀ _ hz]
      simp only [hlog, ← mul_div_assoc]
      rw [← Finset.sum_div]
      field_simp
  rw [← Finset.sum_congr rfl fun x _ => hterm x]
  simp only [dotProduct, Matrix.mulVec, expectedOuter, expect, Matrix.of_apply, sq, Finset.mul_sum, Finset.sum_mul]
  rw [Finset.sum_congr rfl fun x _ => Finset.sum_comm, Finset.sum_comm]
  refine Finset.sum_congr rfl fun c _ => ?_
  rw [Finset.sum_comm]
  exact Finset.sum_congr rfl fun x _ => Finset.sum_congr rfl fun y _ => by ring

section Statistic

variable {S : (ι → Fin C) → ℕ} {Q : (Fin d → ℝ) → List ℝ} {n : ℕ}

theorem statistic_slope (hP : SmoothTest P) (hQ : ∀ t s, s < n → (Q t).getD s 0 = ∑ x with S x = s, patternProb P x t) (t : Fin d → ℝ)
    (s : ℕ) (hs : s < n) (k : Fin d) : HasDerivAt (fun y => (Q (Function.update t k y)).getD s 0)
      (∑ x with S x = s, partialD (patternProb P x) t k) (t k) := by
  simp only [hQ _ s hs]
  refine HasDerivAt.fun_sum fun x _ => ?_
  exact (patternProb_slope hP x t k).differentiableAt.hasDerivAt

/-- In the direction `v`, the information of a statistic `S` of the answers that has probabilities `Q t`. -/
theorem statistic_direction (hP : SmoothTest P) (hlen : ∀ t, (Q t).length = n)
    (hQ : ∀ t s, s < n → (Q t).getD s 0 = ∑ x with S x = s, patternProb P x t) (t v : Fin d → ℝ) :
    v ⬝ᵥ (fisherInformation Q t).mulVec v = ∑ s ∈ Finset.range n,
      (∑ x with S x = s, ∑ k, v k * partialD (patternProb P x) t k) ^ 2 / ∑ x with S x = s, patternProb P x t := by
  rw [fisherInformation_direction Q t v ?_, hlen]
  · refine Finset.sum_congr rfl fun s hs => ?_
    have hs' := Finset.mem_range.1 hs
    rw [hQ t s hs']
    congr 2
    rw [Finset.sum_comm]
    refine Finset.sum_congr rfl fun k _ => ?_
    rw [← Finset.mul_sum]
    congr 1
    exact (statistic_slope hP hQ t s hs' k).deriv
  · intro s k
    by_cases hs : s < n
    · exact (statistic_slope hP hQ t s hs k).differentiableAt
    · have : ∀ y, (Q (Function.update t k y)).getD s 0 = 0 := fun y => List.getD_eq_default _ _ (by rw [hlen]; omega)
      simp only [this]
      exact differentiableAt_const _

/-- A statistic of the answers tells at most what the answers tell. -/
theorem statistic_le (hP : SmoothTest P) (hlen : ∀ t, (Q t).length = n)
    (hQ : ∀ t s, s < n → (Q t).getD s 0 = ∑ x with S x = s, patternProb P x t) (t v : Fin d → ℝ) :
    v ⬝ᵥ (fisherInformation Q t).mulVec v ≤ v ⬝ᵥ (expectedOuter P t).mulVec v := by
  rw [statistic_direction hP hlen hQ, expectedOuter_direction hP]
  refine merged_le Finset.univ n S (fun x => patternProb P x t) (fun x => ∑ k, v k * partialD (patternProb P x) t k)
    (fun x => patternProb_nonneg hP x t) ?_
  intro x hx
  exact Finset.sum_eq_zero fun k _ => by rw [zero_slope (patternProb_nonneg hP x) t k hx, mul_zero]

/-- Just as much, if the slope of the log likelihood in this direction depends on the answers through the statistic only. -/
theorem statistic_eq (hP : SmoothTest P) (hlen : ∀ t, (Q t).length = n) (hS : ∀ x, S x < n)
    (hQ : ∀ t s, s < n → (Q t).getD s 0 = ∑ x with S x = s, patternProb P x t) (t v : Fin d → ℝ)
    (g : ℕ → ℝ) (hg : ∀ x, ∑ k, v k * partialD (patternProb P x) t k = patternProb P x t * g (S x)) :
    v ⬝ᵥ (fisherInformation Q t).mulVec v = v ⬝ᵥ (expectedOuter P t).mulVec v := by
  rw [statistic_direction hP hlen hQ, expectedOuter_direction hP]
  have hsq : ∀ p c : ℝ, (p * c) ^ 2 / p = p * c ^ 2 := by
    intro p c
    by_cases hp : p = 0
    · rw [hp]; simp
    · field_simp
  simp only [hg, hsq]
  rw [← Finset.sum_fiberwise_of_maps_to (s := Finset.univ) (t := Finset.range n) (g := S) fun x _ => Finset.mem_range.2 (hS x)]
  refine Finset.sum_congr rfl fun s _ => ?_
  have e1 : ∑ x with S x = s, patternProb P x t * g (S x) = (∑ x with S x = s, patternProb P x t) * g s := by
    rw [Finset.sum_mul]
    exact Finset.sum_congr rfl fun x hx => by rw [(Finset.mem_filter.1 hx).2]
  rw [e1, hsq, Finset.sum_mul]
  exact Finset.sum_congr rfl fun x hx => by rw [(Finset.mem_filter.1 hx).2]

/-- Strictly less, if the log likelihoods of two possible patterns with the same value of the statistic have different slopes. -/
theorem statistic_lt (hP : SmoothTest P) (hlen : ∀ t, (Q t).length = n)
    (hQ : ∀ t s, s < n → (Q t).getD s 0 = ∑ x with S x = s, patternProb P x t) (t v : Fin d → ℝ) (G : (ι → Fin C) → Fin d → ℝ)
    (hG : ∀ x k, partialD (patternProb P x) t k = patternProb P x t * G x k) (x y : ι → Fin C) (hxy : S x = S y) (hn : S x < n)
    (hx : 0 < patternProb P x t) (hy : 0 < patternProb P y t) (hne : ∑ k, v k * G x k ≠ ∑ k, v k * G y k) :
    v ⬝ᵥ (fisherInformation Q t).mulVec v < v ⬝ᵥ (expectedOuter P t).mulVec v := by
  rw [statistic_direction hP hlen hQ, expectedOuter_direction hP]
  have hslope : ∀ x, ∑ k, v k * partialD (patternProb P x) t k = patternProb P x t * ∑ k, v k * G x k := by
    intro x
    rw [Finset.mul_sum]
    exact Finset.sum_congr rfl fun k _ => by rw [hG]; ring
  refine merged_lt Finset.univ n S (fun x => patternProb P x t) (fun x => ∑ k, v k * partialD (patternProb P x) t k)
    (fun x => patternProb_nonneg hP x t) ?_ x y (Finset.mem_univ x) (Finset.mem_univ y) hxy hn hx hy ?_
  · intro x hx
    exact Finset.sum_eq_zero fun k _ => by rw [zero_slope (patternProb_nonneg hP x) t k hx, mul_zero]
  · rw [hslope, hslope, mul_div_cancel_left₀ _ hx.ne', mul_div_cancel_left₀ _ hy.ne']
    exact hne

end Statistic

/-- The sum score of the answers. -/
def pointsOfPattern {n C : ℕ} (x : Fin n → Fin C) : ℕ := ∑ j, (x j : ℕ)

/-- The reported distribution of the sum score, in terms of the patterns of answers. -/
theorem scoreDistribution_patterns {cats : List ℕ} (hne : cats ≠ []) (hpos : ∀ c ∈ cats, 1 ≤ c) {probs : (Fin d → ℝ) → List (List ℝ)}
    (ht : ∀ t, IsTable cats (maxCats cats) (probs t)) : ∃ dist : (Fin d → ℝ) → List ℝ,
      (∀ t, conditionalScoreDistribution (probs t) cats = .ok (dist t)) ∧ (∀ t, (dist t).length = (cats.map (· - 1)).sum + 1) ∧
      ∀ t s, s < (cats.map (· - 1)).sum + 1 →
        (dist t).getD s 0 = ∑ x with pointsOfPattern x = s, patternProb (answersOf probs cats.length (maxCats cats)) x t := by
  have hx : ∀ t, ∃ dd, conditionalScoreDistribution (probs t) cats = .ok dd ∧ dd.length = (cats.map (· - 1)).sum + 1 ∧
      ∀ s, s < dd.length → dd[s]? = some (sumScoreMass (fun i : Fin cats.length => cats[i]) (fun i k => ((probs t).getD i []).getD k 0) s) := by
    intro t
    refine C33_conditional_score_distribution (probs t) cats ?_ (ht t).1 fun i hi => ⟨hpos _ (List.getElem_mem hi), ?_⟩
    · intro h
      have := (ht t).1
      rw [h] at this
      exact hne (List.length_eq_zero_iff.1 this.symm)
    · rw [(isTable_shape ht).row t i hi]
      exact le_maxCats _ _ (List.getElem_mem hi)
  choose dist h1 h2 h3 using hx
  refine ⟨dist, h1, h2, fun t s hs => ?_⟩
  rw [List.getD_eq_getElem?_getD, h3 t s (by rw [h2]; exact hs), Option.getD_some]
  unfold sumScoreMass
  symm
  -- patterns with a category that does not exist have probability zero
  have hzero : ∀ x : Fin cats.length → Fin (maxCats cats), (¬ ∀ j : Fin cats.length, (x j : ℕ) < cats[j]) →
      patternProb (answersOf probs cats.length (maxCats cats)) x t = 0 := by
    intro x hx
    obtain ⟨j, hj⟩ := not_forall.1 hx
    refine Finset.prod_eq_zero (Finset.mem_univ j) ?_
    rw [answersOf, tableProb_getD]
    refine isTable_zero (ht t) _ _ ?_
    rintro ⟨n, hn, hlt⟩
    rw [List.getElem?_eq_getElem j.2] at hn
    obtain rfl := Option.some.inj hn
    exact hj hlt
  rw [← Finset.sum_filter_of_ne (p := fun x : Fin cats.length → Fin (maxCats cats) => ∀ j : Fin cats.length, (x j : ℕ) < cats[j])
    fun x _ hne => by by_contra h; exact hne (hzero x h), Finset.filter_filter]
  refine Finset.sum_bij' (fun x _ j => (x j : ℕ)) (fun r hr j => ⟨r j, ?_⟩) ?_ ?_ ?_ ?_ ?_
  · have := Finset.mem_range.1 (Fintype.mem_piFinset.1 (Finset.mem_filter.1 hr).1 j)
    exact this.trans_le (le_maxCats _ _ (List.getElem_mem j.2))
  · intro x hx
    have := (Finset.mem_filter.1 hx).2
    exact Finset.mem_filter.2 ⟨Fintype.mem_piFinset.2 fun j => Finset.mem_range.2 (this.2 j), this.1⟩
  · intro r hr
    have := Finset.mem_filter.1 hr
    exact Finset.mem_filter.2 ⟨Finset.mem_univ _, this.2, fun j => Finset.mem_range.1 (Fintype.mem_piFinset.1 this.1 j)⟩
  · intro x _; rfl
  · intro r _; rfl
  · intro x _; rfl

theorem isTable_smooth {cats : List ℕ} {M : ℕ} {probs : (Fin d → ℝ) → List (List ℝ)} (ht : ∀ t, IsTable cats M (probs t))
    (hdiff : ∀ j r, Differentiable ℝ fun t => tableProb (probs t) j r) : SmoothTest (answersOf probs cats.length M) where
  nonneg t j c := by rw [answersOf, tableProb_getD]; exact isTable_nonneg (ht t) _ _
  sum t j := by
    have hrow := (isTable_shape ht).row t j j.2
    have hj : (probs t)[(j : ℕ)]? = some ((probs t).getD j []) := by
      rw [List.getD_eq_getElem _ _ (by rw [(ht t).1]; exact j.2), List.getElem?_eq_getElem]
    have hsum := ((ht t).2 j _ _ hj (List.getElem?_eq_getElem j.2)).sum_one
    rw [← hsum, ← Fin.sum_univ_getElem]
    unfold answersOf
    refine Fintype.sum_equiv (finCongr hrow.symm) _ _ fun c => ?_
    rw [List.getD_eq_getElem _ _ (by rw [hrow]; exact c.2)]
    rfl
  diff t j c k := by
    simp only [answersOf, tableProb_getD]
    exact (partialD_fderiv (hdiff j c t) k).differentiableAt

/-- C163: the information in the sum score, as distributed according to `conditional_score_distribution`, is at most the test
information, in every direction and at all scores. -/
theorem C163_sum_score {cats : List ℕ} (hne : cats ≠ []) (hpos : ∀ c ∈ cats, 1 ≤ c) {probs : (Fin d → ℝ) → List (List ℝ)}
    (ht : ∀ t, IsTable cats (maxCats cats) (probs t)) (hdiff : ∀ j r, Differentiable ℝ fun t => tableProb (probs t) j r) :
    ∃ dist : (Fin d → ℝ) → List ℝ, (∀ t, conditionalScoreDistribution (probs t) cats = .ok (dist t)) ∧
      ∀ θ : Thetas d, ∃ T, information probs cats.length (maxCats cats) [] false none false θ = .ok (.test T) ∧
        List.Forall₂ (fun t A => ∀ v : Fin d → ℝ, v ⬝ᵥ (fisherInformation dist t).mulVec v ≤ v ⬝ᵥ A.mulVec v) θ T := by
  obtain ⟨dist, h1, h2, h3⟩ := scoreDistribution_patterns hne hpos ht
  refine ⟨dist, h1, fun θ => ⟨_, C106_outer_product probs _ _ (isTable_shape ht) (isTable_smooth ht hdiff) [] false (Or.inl rfl) θ, ?_⟩⟩
  rw [List.forall₂_map_right_iff, List.forall₂_same]
  intro t _ v
  exact statistic_le (isTable_smooth ht hdiff) h2 h3 t v

/-- Items with two categories: the tables are tables of differentiable probabilities, all patterns are possible, and the slope of their
log likelihoods is the sum over the items of answer minus probability, times the slope of the item. -/
theorem binary_patterns {items : ℕ} (hitems : 0 < items) {probs : (Fin d → ℝ) → List (List ℝ)} (A : ℕ → Fin d → ℝ) (b : ℕ → ℝ)
    (hlen : ∀ t, (probs t).length = items)
    (hrow : ∀ t j, j < items → (probs t).getD j [] = [1 - logistic (∑ k, t k * A j k + b j), logistic (∑ k, t k * A j k + b j)]) :
    (∀ t, IsTable (List.replicate items 2) (maxCats (List.replicate items 2)) (probs t)) ∧
    (∀ j r, Differentiable ℝ fun t => tableProb (probs t) j r) ∧
    ∀ t (x : Fin (List.replicate items 2).length → Fin (maxCats (List.replicate items 2))),
      0 < patternProb (answersOf probs (List.replicate items 2).length (maxCats (List.replicate items 2))) x t ∧
      ∀ k, partialD (patternProb (answersOf probs (List.replicate items 2).length (maxCats (List.replicate items 2))) x) t k
        = patternProb (answersOf probs (List.replicate items 2).length (maxCats (List.replicate items 2))) x t *
          ∑ j : Fin (List.replicate items 2).length, ((x j : ℕ) - logistic (∑ k, t k * A j k + b j)) * A j k := by
  have hM : maxCats (List.replicate items 2) = 2 := maxCats_two items hitems
  have hentry : ∀ t j r, tableProb (probs t) j r = if j < items then
      if r = 0 then 1 - logistic (∑ k, t k * A j k + b j) else if r = 1 then logistic (∑ k, t k * A j k + b j) else 0 else 0 := by
    intro t j r
    rw [← tableProb_getD]
    split_ifs with hj h0 h1
    · rw [hrow t j hj, h0]; rfl
    · rw [hrow t j hj, h1]; rfl
    · rw [hrow t j hj]
      obtain ⟨r, rfl⟩ : ∃ r', r = r' + 2 := ⟨r - 2, by omega⟩
      rfl
    · rw [List.getD_eq_default (probs t) [] (by rw [hlen]; omega)]; rfl
  have ht : ∀ t, IsTable (List.replicate items 2) (maxCats (List.replicate items 2)) (probs t) := by
    intro t
    refine ⟨by rw [hlen, List.length_replicate], fun j p c hp hc => ?_⟩
    obtain ⟨hj, rfl⟩ := replicate_getElem? _ _ _ _ hc
    have : p = (probs t).getD j [] := by rw [List.getD_eq_getElem?_getD, hp, Option.getD_some]
    rw [this, hrow t j hj, hM]
    have p0 := logistic_pos (∑ k, t k * A j k + b j)
    have p1 := logistic_lt_one (∑ k, t k * A j k + b j)
    refine ⟨rfl, ?_, ?_, by simp, fun k h1 h2 => by omega⟩
    · intro x hx
      simp only [List.mem_cons, List.not_mem_nil, or_false] at hx
      rcases hx with rfl | rfl <;> linarith
    · intro x hx
      simp only [List.mem_cons, List.not_mem_nil, or_false] at hx
      rcases hx with rfl | rfl <;> linarith
  have hl : ∀ j, Differentiable ℝ fun t : Fin d → ℝ => logistic (∑ k, t k * A j k + b j) := by
    intro j
    have hs : Differentiable ℝ logistic := by
      rw [show logistic = sigmoid from funext logistic_eq_sigmoid]
      exact fun x => (sigmoid_hasDerivAt x).differentiableAt
    exact hs.comp (by fun_prop)
  have hdiff : ∀ j r, Differentiable ℝ fun t => tableProb (probs t) j r := by
    intro j r
    simp only [hentry]
    split_ifs
    · exact (hl j).const_sub 1
    · exact hl j
    · exact differentiable_const _
    · exact differentiable_const _
  have hsmooth := isTable_smooth ht hdiff
  refine ⟨ht, hdiff, fun t x => ?_⟩
  have hx : ∀ j, (x j : ℕ) = 0 ∨ (x j : ℕ) = 1 := fun j => by have := (x j).2; omega
  have hj : ∀ j : Fin (List.replicate items 2).length, (j : ℕ) < items := fun j => j.2.trans_eq List.length_replicate
  refine ⟨Finset.prod_pos fun j _ => ?_, fun k => ?_⟩
  · have p0 := logistic_pos (∑ k, t k * A j k + b j)
    have p1 := sub_pos.2 (logistic_lt_one (∑ k, t k * A j k + b j))
    simp only [answersOf, tableProb_getD, hentry, if_pos (hj j)]
    rcases hx j with h | h
    · simpa [h] using p1
    · simpa [h] using p0
  · unfold partialD
    rw [(patternProb_slope hsmooth x t k).deriv]
    congr 1
    refine Finset.sum_congr rfl fun j _ => ?_
    have hder : HasDerivAt (fun y => logistic (∑ x, Function.update t k y x * A j x + b j))
        (logistic (∑ x, t x * A j x + b j) * (1 - logistic (∑ x, t x * A j x + b j)) * A j k) (t k) := by
      have := twoPL_entry_hasDerivAt t (List.ofFn (A j)) (b j) k
      simpa [List.getD_eq_getElem?_getD] using this
    have p0 := logistic_pos (∑ x, t x * A j x + b j)
    have p1 := sub_pos.2 (logistic_lt_one (∑ x, t x * A j x + b j))
    unfold relSlope partialD
    simp only [answersOf, tableProb_getD, hentry, if_pos (hj j)]
    rcases hx j with hx | hx
    · simp only [hx, if_true]
      rw [(hder.const_sub 1).deriv]
      field_simp
      push_cast
      ring
    · simp only [hx, one_ne_zero, if_false, if_true]
      rw [hder.deriv]
      field_simp
      push_cast
      ring

/-- The information in the sum score of items with two categories, in a direction: all of the test information if the items have the same
slope in this direction, and less than the test information otherwise. -/
theorem binary_sum_score {items : ℕ} (hitems : 0 < items) {probs : (Fin d → ℝ) → List (List ℝ)} (A : ℕ → Fin d → ℝ) (b : ℕ → ℝ)
    (hlen : ∀ t, (probs t).length = items)
    (hrow : ∀ t j, j < items → (probs t).getD j [] = [1 - logistic (∑ k, t k * A j k + b j), logistic (∑ k, t k * A j k + b j)]) :
    ∃ dist : (Fin d → ℝ) → List ℝ, (∀ t, conditionalScoreDistribution (probs t) (List.replicate items 2) = .ok (dist t)) ∧
      ∀ θ : Thetas d, ∃ T, information probs items 2 [] false none false θ = .ok (.test T) ∧
        List.Forall₂ (fun t I => ∀ v : Fin d → ℝ, v ⬝ᵥ (fisherInformation dist t).mulVec v ≤ v ⬝ᵥ I.mulVec v ∧
          (v ⬝ᵥ (fisherInformation dist t).mulVec v = v ⬝ᵥ I.mulVec v ↔
            ∀ i j, i < items → j < items → ∑ k, v k * A i k = ∑ k, v k * A j k)) θ T := by
  have hM : maxCats (List.replicate items 2) = 2 := maxCats_two items hitems
  obtain ⟨ht, hdiff, hpat⟩ := binary_patterns hitems A b hlen hrow
  obtain ⟨dist, h1, h2, h3⟩ := scoreDistribution_patterns (cats := List.replicate items 2) (by simp; omega)
    (by intro c hc; rw [List.eq_of_mem_replicate hc]; norm_num) ht
  have hsmooth := isTable_smooth ht hdiff
  have hinfo : ∀ θ, information probs items 2 [] false none false θ = .ok (.test (θ.map
      (expectedOuter (answersOf probs (List.replicate items 2).length (maxCats (List.replicate items 2)))))) := by
    intro θ
    have := C106_outer_product probs _ _ (isTable_shape ht) hsmooth [] false (Or.inl rfl) θ
    rw [← this, List.length_replicate, hM]
  have hn : ∀ x : Fin (List.replicate items 2).length → Fin (maxCats (List.replicate items 2)),
      pointsOfPattern x < ((List.replicate items 2).map (· - 1)).sum + 1 := by
    intro x
    have hb : ∀ j : Fin (List.replicate items 2).length, (x j : ℕ) ≤ 1 := fun j => by have := (x j).2; omega
    have : pointsOfPattern x ≤ ∑ _j : Fin (List.replicate items 2).length, 1 := Finset.sum_le_sum fun j _ => hb j
    simp at this ⊢
    omega
  have hj' : ∀ j : Fin (List.replicate items 2).length, (j : ℕ) < items := fun j => j.2.trans_eq List.length_replicate
  refine ⟨dist, h1, fun θ => ⟨_, hinfo θ, ?_⟩⟩
  rw [List.forall₂_map_right_iff, List.forall₂_same]
  intro t _ v
  refine ⟨statistic_le hsmooth h2 h3 t v, fun heq => ?_, fun hA => ?_⟩
  · by_contra hcon
    push Not at hcon
    obtain ⟨i, j, hi, hj, hne⟩ := hcon
    -- the patterns with the one point on item `i` and on item `j`
    let one : ℕ → Fin (List.replicate items 2).length → Fin (maxCats (List.replicate items 2)) :=
      fun i l => if (l : ℕ) = i then ⟨1, by omega⟩ else ⟨0, by omega⟩
    have hone : ∀ i l, ((one i l : ℕ) : ℝ) = if (l : ℕ) = i then 1 else 0 := by
      intro i l
      dsimp only [one]
      split_ifs <;> simp
    have hsum : ∀ i, i < items → ∀ f : ℕ → ℝ, ∑ l : Fin (List.replicate items 2).length, ((one i l : ℕ) : ℝ) * f l = f i := by
      intro i hi f
      simp only [hone, ite_mul, one_mul, zero_mul]
      rw [Finset.sum_eq_single (⟨i, by rw [List.length_replicate]; exact hi⟩ : Fin (List.replicate items 2).length)]
      · simp
      · intro l _ hl
        rw [if_neg fun h => hl (Fin.ext h)]
      · intro h; exact absurd (Finset.mem_univ _) h
    have hpts : ∀ i, i < items → pointsOfPattern (one i) = 1 := by
      intro i hi
      have := hsum i hi fun _ => 1
      simp only [mul_one] at this
      unfold pointsOfPattern
      exact_mod_cast this
    refine absurd heq (ne_of_lt (statistic_lt hsmooth h2 h3 t v _ (fun x k => (hpat t x).2 k) (one i) (one j)
      (by rw [hpts i hi, hpts j hj]) (hn _) (hpat t _).1 (hpat t _).1 ?_))
    have hform : ∀ i, i < items → ∑ k, v k * ∑ l : Fin (List.replicate items 2).length, (((one i l : ℕ) : ℝ) - logistic (∑ k, t k * A l k + b l)) * A l k
        = ∑ k, v k * A i k - ∑ k, v k * ∑ l : Fin (List.replicate items 2).length, logistic (∑ k, t k * A l k + b l) * A l k := by
      intro i hi
      rw [← Finset.sum_sub_distrib]
      refine Finset.sum_congr rfl fun k _ => ?_
      rw [← mul_sub]
      congr 1
      simp only [sub_mul, Finset.sum_sub_distrib]
      rw [hsum i hi fun l => A l k]
    rw [hform i hi, hform j hj]
    intro h
    exact hne (by linarith)
  · refine statistic_eq hsmooth h2 hn h3 t v (fun s => ((s : ℝ) - ∑ j : Fin (List.replicate items 2).length,
      logistic (∑ k, t k * A j k + b j)) * ∑ k, v k * A 0 k) fun x => ?_
    simp only [(hpat t x).2, mul_left_comm (v _)]
    rw [← Finset.mul_sum]
    congr 1
    rw [pointsOfPattern, Nat.cast_sum, ← Finset.sum_sub_distrib, Finset.sum_mul]
    simp only [Finset.mul_sum]
    rw [Finset.sum_comm]
    refine Finset.sum_congr rfl fun j _ => ?_
    have := hA j 0 (hj' j) hitems
    rw [← Finset.mul_sum, ← this, Finset.mul_sum]
    exact Finset.sum_congr rfl fun k _ => by ring

/-- C163 for the 2PL model: in a direction the sum score tells just as much as the answers if all items have the same slope in this
direction, and less otherwise. -/
theorem C163_twoPL (m : TwoPL) (hwf : m.WF) (hne : 0 < m.items) :
    ∃ dist : (Fin d → ℝ) → List ℝ,
      (∀ t, conditionalScoreDistribution (m.probs (List.ofFn t)) (List.replicate m.items 2) = .ok (dist t)) ∧
      ∀ θ : Thetas d, ∃ T, information (fun t => m.probs (List.ofFn t)) m.items 2 [] false none false θ = .ok (.test T) ∧
        List.Forall₂ (fun t I => ∀ v : Fin d → ℝ, v ⬝ᵥ (fisherInformation dist t).mulVec v ≤ v ⬝ᵥ I.mulVec v ∧
          (v ⬝ᵥ (fisherInformation dist t).mulVec v = v ⬝ᵥ I.mulVec v ↔ ∀ i j, i < m.items → j < m.items →
            ∑ k : Fin d, v k * slopeOf m.itemParameters i k = ∑ k : Fin d, v k * slopeOf m.itemParameters j k)) θ T := by
  refine binary_sum_score hne (fun j k => slopeOf m.itemParameters j k) (fun j => ((m.itemParameters[j]?).map Prod.snd).getD 0)
    (fun t => twoPL_length m _) fun t j hj => ?_
  obtain ⟨⟨a, b⟩, hp⟩ := twoPL_parameters m hwf j hj
  rw [twoPL_row m hwf j a b hp, hp]
  simp only [slopeOf_eq _ _ _ _ hp, Option.map_some, Option.getD_some]

/-- C163 for the 1PL model. -/
theorem C163_onePL (m : OnePL) (hwf : m.WF) (hne : 0 < m.items) :
    ∃ dist : (Fin 1 → ℝ) → List ℝ,
      (∀ t, conditionalScoreDistribution (m.probs (t 0)) (List.replicate m.items 2) = .ok (dist t)) ∧
      ∀ θ : Thetas 1, information (fun t => m.probs (t 0)) m.items 2 [] false none false θ = .ok (.test (θ.map (fisherInformation dist))) := by
  obtain ⟨dist, h1, h2⟩ := binary_sum_score (d := 1) (probs := fun t => m.probs (t 0)) hne (fun _ _ => 1) (fun j => m.bias.getD j 0)
    (fun t => by rw [m.probs_eq hwf, List.length_map, hwf]) fun t j hj => by
      rw [m.probs_eq hwf, List.getD_eq_getElem _ _ (by rw [List.length_map, hwf]; exact hj), List.getElem_map,
        List.getD_eq_getElem _ _ (by rw [hwf]; exact hj)]
      simp
  refine ⟨dist, h1, fun θ => ?_⟩
  obtain ⟨T, hT, h⟩ := h2 θ
  rw [hT]
  congr 2
  refine (List.forall₂_eq_eq_eq ▸ (List.forall₂_map_right_iff.2 ((h.imp fun t I hv => ?_).flip)) : T = _)
  ext i j
  have := (hv fun _ => 1).2.2 fun _ _ _ _ => rfl
  obtain rfl : i = 0 := Subsingleton.elim _ _
  obtain rfl : j = 0 := Subsingleton.elim _ _
  simpa [dotProduct, Matrix.mulVec] using this.symm

/-! ## The hypotheses are met -/

/-- A graded test on two latent variables. -/
example : ∃ dist : (Fin 2 → ℝ) → List ℝ, (∀ t, conditionalScoreDistribution (exGRM.probs (List.ofFn t)) [3, 2] = .ok (dist t)) ∧
    ∀ θ : Thetas 2, ∃ T, information (fun t => exGRM.probs (List.ofFn t)) 2 3 [] false none false θ = .ok (.test T) ∧
      List.Forall₂ (fun t A => ∀ v : Fin 2 → ℝ, v ⬝ᵥ (fisherInformation dist t).mulVec v ≤ v ⬝ᵥ A.mulVec v) θ T :=
  C163_sum_score (cats := [3, 2]) (by simp) (by simp) (fun t => isTable_grm exGRM exGRM_wf exGRM_ordered (List.ofFn t))
    fun j r => exGRM.differentiable exGRM_wf exGRM_ordered j r

/-- Four items with the same slope: the sum score tells just as much as the answers. -/
example (θ : Thetas 1) : ∃ (dist : (Fin 1 → ℝ) → List ℝ) (T : List (Matrix (Fin 1) (Fin 1) ℝ)),
    (∀ t, conditionalScoreDistribution (exSkip.probs (List.ofFn t)) [2, 2, 2, 2] = .ok (dist t)) ∧
    information (fun t => exSkip.probs (List.ofFn t)) 4 2 [] false none false θ = .ok (.test T) ∧
    List.Forall₂ (fun t A => ∀ v : Fin 1 → ℝ, v ⬝ᵥ (fisherInformation dist t).mulVec v = v ⬝ᵥ A.mulVec v) θ T := by
  obtain ⟨dist, h1, h2⟩ := C163_twoPL (d := 1) exSkip exSkip_wf (by simp [exSkip])
  obtain ⟨T, hT, h⟩ := h2 θ
  refine ⟨dist, T, h1, hT, h.imp fun t A hv v => (hv v).2.2 fun i j hi hj => ?_⟩
  have hs : ∀ i, i < 4 → slopeOf exSkip.itemParameters i 0 = 1 := by
    intro i hi
    rw [exSkip_parameters]
    interval_cases i <;> rfl
  simp [hs i hi, hs j hj]

/-- Two 1PL items. -/
example : ∃ dist : (Fin 1 → ℝ) → List ℝ, (∀ t, conditionalScoreDistribution ((OnePL.mk 2 [0, 1]).probs (t 0)) [2, 2] = .ok (dist t)) ∧
    ∀ θ : Thetas 1, information (fun t => (OnePL.mk 2 [0, 1]).probs (t 0)) 2 2 [] false none false θ = .ok (.test (θ.map (fisherInformation dist))) :=
  C163_onePL ⟨2, [0, 1]⟩ rfl (by norm_num)

/-- Two items with slopes 1 and 2: the sum score tells less than the answers. -/
example (θ : Thetas 1) : ∃ (dist : (Fin 1 → ℝ) → List ℝ) (T : List (Matrix (Fin 1) (Fin 1) ℝ)),
    (∀ t, conditionalScoreDistribution ((TwoPL.mk 2 1 [[true], [true]] [1, 2] [0, 0]).probs (List.ofFn t)) [2, 2] = .ok (dist t)) ∧
    information (fun t => (TwoPL.mk 2 1 [[true], [true]] [1, 2] [0, 0]).probs (List.ofFn t)) 2 2 [] false none false θ = .ok (.test T) ∧
    List.Forall₂ (fun t A => fisherInformation dist t 0 0 < A 0 0) θ T := by
  have hp : (TwoPL.mk 2 1 [[true], [true]] [1, 2] [0, 0]).itemParameters = [([1], 0), ([2], 0)] := by
    simp [TwoPL.itemParameters, TwoPL.weights, viewRows, scatterMask]
  obtain ⟨dist, h1, h2⟩ := C163_twoPL (d := 1) ⟨2, 1, [[true], [true]], [1, 2], [0, 0]⟩
    ⟨by simp, by simp, by simp [countTrue], by simp⟩ (by norm_num)
  obtain ⟨T, hT, h⟩ := h2 θ
  refine ⟨dist, T, h1, hT, h.imp fun t A hv => ?_⟩
  have := lt_of_le_of_ne (hv fun _ => 1).1 fun e => by
    have := (hv fun _ => 1).2.1 e 0 1 (by norm_num) (by norm_num)
    rw [hp] at this
    simp [slopeOf] at this
  simpa [dotProduct, Matrix.mulVec] using this

end Irt
