import Verif.Props.Fisher
import Verif.Props.Recode
import Verif.Props.Convention
import Mathlib.Algebra.Order.Chebyshev

/-! # C162: merging categories never adds information -/

namespace Irt
open Spec

variable {d : ℕ}

/-- In the direction `v`, the Fisher information is the sum over the categories of squared slope by probability. -/
theorem fisherInformation_direction (P : (Fin d → ℝ) → List ℝ) (t v : Fin d → ℝ)
    (hdiff : ∀ c k, DifferentiableAt ℝ (fun x => (P (Function.update t k x)).getD c 0) (t k)) :
    v ⬝ᵥ (fisherInformation P t).mulVec v
      = ∑ c ∈ Finset.range (P t).length, (∑ k, v k * partialD (fun s => (P s).getD c 0) t k) ^ 2 / (P t).getD c 0 := by
  have hterm : ∀ c, (P t).getD c 0 * (∑ k, v k * partialD (fun s => Real.log ((P s).getD c 0)) t k) ^ 2
      = (∑ k, v k * partialD (fun s => (P s).getD c 0) t k) ^ 2 / (P t).getD c 0 := by
    intro c
    by_cases hz : (P t).getD c 0 = 0
    · rw [hz, zero_mul, div_zero]
    · have hlog : ∀ k, partialD (fun s => Real.log ((P s).getD c 0)) t k = partialD (fun s => (P s).getD c 0) t k / (P t).getD c 0 := by
        intro k
        unfold partialD
        have hd := (hdiff c k).hasDerivAt
        have := (hd.log (by rw [Function.update_eq_self]; exact hz)).deriv
        rw [this, Function.update_eq_self]
      simp only [hlog, ← mul_div_assoc]
      rw [← Finset.sum_div]
      field_simp
  rw [← Finset.sum_congr rfl fun c _ => hterm c]
  simp only [dotProduct, Matrix.mulVec, fisherInformation, Matrix.of_apply, sq, Finset.mul_sum, Finset.sum_mul]
  rw [Finset.sum_congr rfl fun x _ => Finset.sum_comm, Finset.sum_comm]
  refine Finset.sum_congr rfl fun c _ => ?_
  rw [Finset.sum_comm]
  exact Finset.sum_congr rfl fun x _ => Finset.sum_congr rfl fun y _ => by ring

/-- Merging categories: what is squared and divided by the sum is at most the sum of the squares divided by the parts. -/
theorem merged_le {α : Type} (X : Finset α) (C' : ℕ) (g : α → ℕ) (p a : α → ℝ) (hp : ∀ r, 0 ≤ p r) (ha : ∀ r, p r = 0 → a r = 0) :
    ∑ s ∈ Finset.range C', (∑ r ∈ X with g r = s, a r) ^ 2 / ∑ r ∈ X with g r = s, p r
      ≤ ∑ r ∈ X, a r ^ 2 / p r := by
  classical
  have hone : ∀ S : Finset α, (∑ r ∈ S, a r) ^ 2 / ∑ r ∈ S, p r ≤ ∑ r ∈ S, a r ^ 2 / p r := by
    intro S
    have e1 : ∑ r ∈ S, a r = ∑ r ∈ S with p r ≠ 0, a r := by
      rw [Finset.sum_filter]
      exact Finset.sum_congr rfl fun r _ => by
        split_ifs with h
        · rfl
        · exact ha r (not_not.1 h)
    have e2 : ∑ r ∈ S, p r = ∑ r ∈ S with p r ≠ 0, p r := (Finset.sum_filter_ne_zero S).symm
    have e3 : ∑ r ∈ S, a r ^ 2 / p r = ∑ r ∈ S with p r ≠ 0, a r ^ 2 / p r := by
      rw [Finset.sum_filter]
      exact Finset.sum_congr rfl fun r _ => by
        split_ifs with h
        · rfl
        · rw [not_not.1 h, div_zero]
    rw [e1, e2, e3]
    exact Finset.sq_sum_div_le_sum_sq_div _ _ fun r hr => lt_of_le_of_ne (hp r) (Finset.mem_filter.1 hr).2.symm
  refine (Finset.sum_le_sum fun s _ => hone _).trans ?_
  simp only [Finset.sum_filter]
  rw [Finset.sum_comm]
  refine Finset.sum_le_sum fun r _ => ?_
  rw [Finset.sum_ite_eq]
  split_ifs
  · exact le_rfl
  · exact div_nonneg (sq_nonneg _) (hp r)

/-- Strictly less, if two parts of a merged category have different slopes relative to their probabilities. -/
theorem merged_lt {α : Type} (X : Finset α) (C' : ℕ) (g : α → ℕ) (p a : α → ℝ) (hp : ∀ r, 0 ≤ p r) (ha : ∀ r, p r = 0 → a r = 0)
    (x y : α) (hx : x ∈ X) (hy : y ∈ X) (hxy : g x = g y) (hC : g x < C') (hpx : 0 < p x) (hpy : 0 < p y) (hne : a x / p x ≠ a y / p y) :
    ∑ s ∈ Finset.range C', (∑ r ∈ X with g r = s, a r) ^ 2 / ∑ r ∈ X with g r = s, p r < ∑ r ∈ X, a r ^ 2 / p r := by
  classical
  have hsingle : ∀ s : ℕ, (∑ r ∈ X with g r = s, a r) ^ 2 / ∑ r ∈ X with g r = s, p r ≤ ∑ r ∈ X with g r = s, a r ^ 2 / p r := by
    intro s
    have := merged_le (X.filter fun r => g r = s) 1 (fun _ => 0) p a hp ha
    simpa using this
  have hall : ∑ s ∈ Finset.range C', ∑ r ∈ X with g r = s, a r ^ 2 / p r ≤ ∑ r ∈ X, a r ^ 2 / p r := by
    simp only [Finset.sum_filter]
    rw [Finset.sum_comm]
    refine Finset.sum_le_sum fun r _ => ?_
    rw [Finset.sum_ite_eq]
    split_ifs
    · exact le_rfl
    · exact div_nonneg (sq_nonneg _) (hp r)
  refine lt_of_lt_of_le (Finset.sum_lt_sum (fun s _ => hsingle s) ⟨g x, Finset.mem_range.2 hC, ?_⟩) hall
  set S := X.filter fun r => g r = g x with hS
  have hxS : x ∈ S := Finset.mem_filter.2 ⟨hx, rfl⟩
  have hyS : y ∈ S := Finset.mem_filter.2 ⟨hy, hxy.symm⟩
  have hq : 0 < ∑ r ∈ S, p r := lt_of_lt_of_le hpx (Finset.single_le_sum (fun r _ => hp r) hxS)
  refine lt_of_le_of_ne (hsingle (g x)) fun heq => hne ?_
  set m := (∑ r ∈ S, a r) / ∑ r ∈ S, p r with hm
  have hterm : ∀ r ∈ S, p r * (a r / p r - m) ^ 2 = a r ^ 2 / p r - 2 * m * a r + m ^ 2 * p r := by
    intro r _
    by_cases h0 : p r = 0
    · rw [ha r h0, h0]; simp
    · field_simp
      ring
  have hzero : ∑ r ∈ S, p r * (a r / p r - m) ^ 2 = 0 := by
    rw [Finset.sum_congr rfl hterm, Finset.sum_add_distrib, Finset.sum_sub_distrib, ← Finset.mul_sum, ← Finset.mul_sum, ← heq, hm]
    field_simp
    ring
  have heach := (Finset.sum_eq_zero_iff_of_nonneg fun r _ => mul_nonneg (hp r) (sq_nonneg _)).1 hzero
  have hmean : ∀ r ∈ S, 0 < p r → a r / p r = m := by
    intro r hr hpr
    have := (mul_eq_zero.1 (heach r hr)).resolve_left hpr.ne'
    exact sub_eq_zero.1 (pow_eq_zero_iff (by norm_num) |>.1 this)
  rw [hmean x hxS hpx, hmean y hyS hpy]

/-- The shape of a table of probabilities. -/
theorem isTable_shape {cats : List ℕ} {M : ℕ} {probs : (Fin d → ℝ) → List (List ℝ)} (ht : ∀ t, IsTable cats M (probs t)) :
    TableShape cats.length M probs := by
  intro t
  refine ⟨(ht t).1, fun r hr => ?_⟩
  obtain ⟨j, hj⟩ := List.mem_iff_getElem?.1 hr
  obtain ⟨n, hn⟩ := getElem?_of_lt cats j (by rw [← (ht t).1]; exact lt_of_getElem?_some hj)
  exact ((ht t).2 j r n hj hn).length

/-- Categories that do not exist have probability zero. -/
theorem isTable_zero {cats : List ℕ} {M : ℕ} {p : List (List ℝ)} (hp : IsTable cats M p) (j r : ℕ)
    (hr : ¬ ∃ n, cats[j]? = some n ∧ r < n) : tableProb p j r = 0 := by
  unfold tableProb
  cases hj : p[j]? with
  | none => rfl
  | some row =>
    obtain ⟨n, hn⟩ := getElem?_of_lt cats j (by rw [← hp.1]; exact lt_of_getElem?_some hj)
    have hd := hp.2 j row n hj hn
    have hnr : n ≤ r := by
      by_contra hlt
      exact hr ⟨n, hn, by omega⟩
    rw [Option.bind_some]
    by_cases hrM : r < M
    · rw [hd.missing r hnr hrM]; rfl
    · rw [List.getElem?_eq_none (by rw [hd.length]; omega)]; rfl

/-- Probabilities are not negative. -/
theorem isTable_nonneg {cats : List ℕ} {M : ℕ} {p : List (List ℝ)} (hp : IsTable cats M p) (j r : ℕ) : 0 ≤ tableProb p j r := by
  unfold tableProb
  cases hj : p[j]? with
  | none => exact le_rfl
  | some row =>
    obtain ⟨n, hn⟩ := getElem?_of_lt cats j (by rw [← hp.1]; exact lt_of_getElem?_some hj)
    rw [Option.bind_some]
    cases hx : row[r]? with
    | none => exact le_rfl
    | some x => exact (hp.2 j row n hj hn).nonneg x (List.mem_of_getElem? hx)

/-- The information about one item in every direction, with the categories as they are and merged. -/
theorem C162_item {cats cats' : List ℕ} {M M' : ℕ} {f : ℕ → ℕ → ℕ} {probs probs' : (Fin d → ℝ) → List (List ℝ)}
    (ht : ∀ t, IsTable cats M (probs t)) (ht' : ∀ t, IsTable cats' M' (probs' t)) (hcM : ∀ c ∈ cats, c ≤ M)
    (hitems : cats'.length = cats.length)
    (hadd : AddsUp cats cats' f (fun t => tableProb (probs t)) fun t => tableProb (probs' t))
    (hdiff : ∀ j r, Differentiable ℝ fun t => tableProb (probs t) j r) :
    (∀ j r, Differentiable ℝ fun t => tableProb (probs' t) j r) ∧
    ∀ j, j < cats.length → ∀ t v : Fin d → ℝ,
      v ⬝ᵥ (fisherInformation (fun s => (probs' s).getD j []) t).mulVec v
        ≤ v ⬝ᵥ (fisherInformation (fun s => (probs s).getD j []) t).mulVec v := by
  have hd' : ∀ j r, Differentiable ℝ fun t => tableProb (probs' t) j r := by
    intro j s
    by_cases hs : ∃ c', cats'[j]? = some c' ∧ s < c'
    · obtain ⟨c', hc', hsc⟩ := hs
      obtain ⟨c, hc⟩ := getElem?_of_lt cats j (by rw [← hitems]; exact lt_of_getElem?_some hc')
      rw [show (fun t => tableProb (probs' t) j s) = fun t => ∑ r ∈ (Finset.range c).filter fun r => f j r = s, tableProb (probs t) j r from
        funext fun t => hadd t j c c' s hc hc' hsc]
      exact Differentiable.fun_sum fun r _ => hdiff j r
    · rw [show (fun t => tableProb (probs' t) j s) = fun _ => 0 from funext fun t => isTable_zero (ht' t) j s hs]
      exact differentiable_const 0
  refine ⟨hd', fun j hj t v => ?_⟩
  obtain ⟨c, hc⟩ := getElem?_of_lt cats j hj
  obtain ⟨c', hc'⟩ := getElem?_of_lt cats' j (by rw [hitems]; exact hj)
  have along : ∀ p : (Fin d → ℝ) → List (List ℝ), (∀ j r, Differentiable ℝ fun t => tableProb (p t) j r) → ∀ k (l : Fin d),
      DifferentiableAt ℝ (fun v => ((p (Function.update t l v)).getD j []).getD k 0) (t l) := by
    intro p hp k l
    simp only [tableProb_getD]
    exact (partialD_fderiv (hp j k t) l).differentiableAt
  rw [fisherInformation_direction (fun s => (probs s).getD j []) t v (along probs hdiff),
    fisherInformation_direction (fun s => (probs' s).getD j []) t v (along probs' hd'),
    (isTable_shape ht).row t j hj, (isTable_shape ht').row t j (by rw [hitems]; exact hj)]
  simp only [tableProb_getD]
  -- categories that do not exist belong to no merged category
  let g : ℕ → ℕ := fun r => if r < c then f j r else M'
  have hcM' : c ≤ M := hcM c (List.mem_of_getElem? hc)
  have hq : ∀ s, s < M' → ∀ t, tableProb (probs' t) j s
      = ∑ r ∈ Finset.range M with (g r = s ∧ s < c'), tableProb (probs t) j r := by
    intro s hs t
    by_cases hsc : s < c'
    · refine (hadd t j c c' s hc hc' hsc).trans ?_
      refine Finset.sum_congr (Finset.ext fun r => ?_) fun _ _ => rfl
      simp only [Finset.mem_filter, Finset.mem_range, g]
      constructor
      · rintro ⟨h1, h2⟩
        exact ⟨by omega, by rw [if_pos h1]; exact h2, hsc⟩
      · rintro ⟨h1, h2, -⟩
        by_cases h : r < c
        · rw [if_pos h] at h2
          exact ⟨h, h2⟩
        · rw [if_neg h] at h2
          omega
    · rw [isTable_zero (ht' t) j s (by rintro ⟨n, hn, hsn⟩; rw [hc'] at hn; obtain rfl := Option.some.inj hn; exact hsc hsn)]
      rw [Finset.sum_eq_zero]
      intro r hr
      exact absurd (Finset.mem_filter.1 hr).2.2 hsc
  have hslope : ∀ s, s < M' → ∀ k, partialD (fun t => tableProb (probs' t) j s) t k
      = ∑ r ∈ Finset.range M with (g r = s ∧ s < c'), partialD (fun t => tableProb (probs t) j r) t k := by
    intro s hs k
    rw [show (fun t => tableProb (probs' t) j s) = _ from funext (hq s hs)]
    unfold partialD
    rw [deriv_fun_sum]
    intro r _
    exact (partialD_fderiv (hdiff j r t) k).differentiableAt
  have hmerged := merged_le (Finset.range M) M' (fun r => if g r < c' then g r else M') (fun r => tableProb (probs t) j r)
    (fun r => ∑ k, v k * partialD (fun t => tableProb (probs t) j r) t k) (fun r => isTable_nonneg (ht t) j r) (by
      intro r hz
      refine Finset.sum_eq_zero fun k _ => ?_
      rw [zero_slope (fun t => isTable_nonneg (ht t) j r) t k hz, mul_zero])
  refine le_trans (le_of_eq ?_) hmerged
  refine Finset.sum_congr rfl fun s hs => ?_
  have hs' := Finset.mem_range.1 hs
  have hset : (Finset.range M).filter (fun r => (if g r < c' then g r else M') = s) = (Finset.range M).filter fun r => g r = s ∧ s < c' := by
    refine Finset.filter_congr fun r _ => ?_
    constructor
    · intro h
      split_ifs at h with h1
      · exact ⟨h, by omega⟩
      · omega
    · rintro ⟨h1, h2⟩
      rw [if_pos (by omega), h1]
  rw [hset, ← hq s hs' t]
  congr 2
  rw [Finset.sum_comm]
  exact Finset.sum_congr rfl fun k _ => by rw [hslope s hs' k, Finset.mul_sum]

/-- Merging categories never adds information: the information of every item, and of the test, with merged categories is at most the
information with the categories as they are, in every direction and at all scores. -/
theorem C162_merging {cats cats' : List ℕ} {M M' : ℕ} {f : ℕ → ℕ → ℕ} {probs probs' : (Fin d → ℝ) → List (List ℝ)}
    (ht : ∀ t, IsTable cats M (probs t)) (ht' : ∀ t, IsTable cats' M' (probs' t)) (hcM : ∀ c ∈ cats, c ≤ M)
    (hitems : cats'.length = cats.length)
    (hadd : AddsUp cats cats' f (fun t => tableProb (probs t)) fun t => tableProb (probs' t))
    (hdiff : ∀ j r, Differentiable ℝ fun t => tableProb (probs t) j r) (θ : Thetas d) :
    ∃ (I I' : List (List (Matrix (Fin d) (Fin d) ℝ))) (T T' : List (Matrix (Fin d) (Fin d) ℝ)),
      information probs cats.length M [] true none false θ = .ok (.items I) ∧
      information probs' cats.length M' [] true none false θ = .ok (.items I') ∧
      information probs cats.length M [] false none false θ = .ok (.test T) ∧
      information probs' cats.length M' [] false none false θ = .ok (.test T') ∧
      List.Forall₂ (List.Forall₂ fun A' A => ∀ v : Fin d → ℝ, v ⬝ᵥ A'.mulVec v ≤ v ⬝ᵥ A.mulVec v) I' I ∧
      List.Forall₂ (fun A' A => ∀ v : Fin d → ℝ, v ⬝ᵥ A'.mulVec v ≤ v ⬝ᵥ A.mulVec v) T' T := by
  obtain ⟨hd', hle⟩ := C162_item ht ht' hcM hitems hadd hdiff
  have along : ∀ p : (Fin d → ℝ) → List (List ℝ), (∀ j r, Differentiable ℝ fun t => tableProb (p t) j r) → ∀ t i k (l : Fin d),
      DifferentiableAt ℝ (fun v => ((p (Function.update t l v)).getD i []).getD k 0) (t l) := by
    intro p hp t i k l
    simp only [tableProb_getD]
    exact (partialD_fderiv (hp i k t) l).differentiableAt
  have f1 := C31_fisher probs cats.length M (isTable_shape ht) (along probs hdiff) [] false (Or.inl rfl) θ
  have f2 := C31_fisher probs' cats.length M' (by rw [← hitems]; exact isTable_shape ht') (along probs' hd') [] false (Or.inl rfl) θ
  have hI : List.Forall₂ (List.Forall₂ fun A' A => ∀ v : Fin d → ℝ, v ⬝ᵥ A'.mulVec v ≤ v ⬝ᵥ A.mulVec v)
      (θ.map fun t => (List.range cats.length).map fun i => fisherInformation (fun s => (probs' s).getD i []) t)
      (θ.map fun t => (List.range cats.length).map fun i => fisherInformation (fun s => (probs s).getD i []) t) := by
    rw [List.forall₂_map_left_iff, List.forall₂_map_right_iff, List.forall₂_same]
    intro t _
    rw [List.forall₂_map_left_iff, List.forall₂_map_right_iff, List.forall₂_same]
    intro j hj v
    exact hle j (List.mem_range.1 hj) t v
  refine ⟨_, _, _, _, f1, f2, C31_test_is_sum _ _ _ _ _ _ _ f1, C31_test_is_sum _ _ _ _ _ _ _ f2, hI, ?_⟩
  rw [List.forall₂_map_left_iff, List.forall₂_map_right_iff]
  refine hI.imp fun A' A h => ?_
  induction h with
  | nil => intro v; simp
  | cons h _ ih =>
    intro v
    rw [List.sum_cons, List.sum_cons, Matrix.add_mulVec, Matrix.add_mulVec, dotProduct_add, dotProduct_add]
    exact add_le_add (h v) (ih v)

/-- The same for information in a direction given by one angle per latent variable. -/
theorem C162_directional {cats cats' : List ℕ} {M M' : ℕ} {f : ℕ → ℕ → ℕ} {probs probs' : (Fin d → ℝ) → List (List ℝ)}
    (ht : ∀ t, IsTable cats M (probs t)) (ht' : ∀ t, IsTable cats' M' (probs' t)) (hcM : ∀ c ∈ cats, c ≤ M)
    (hitems : cats'.length = cats.length)
    (hadd : AddsUp cats cats' f (fun t => tableProb (probs t)) fun t => tableProb (probs' t))
    (hdiff : ∀ j r, Differentiable ℝ fun t => tableProb (probs t) j r) (θ : Thetas d) (l : List ℝ) (hl : l.length = d) (hd : 1 < d) :
    ∃ (I I' : List (List ℝ)) (T T' : List ℝ),
      information probs cats.length M [] true (some l) false θ = .ok (.itemsDirection I) ∧
      information probs' cats.length M' [] true (some l) false θ = .ok (.itemsDirection I') ∧
      information probs cats.length M [] false (some l) false θ = .ok (.testDirection T) ∧
      information probs' cats.length M' [] false (some l) false θ = .ok (.testDirection T') ∧
      List.Forall₂ (List.Forall₂ fun x' x => x' ≤ x) I' I ∧ List.Forall₂ (fun x' x => x' ≤ x) T' T := by
  obtain ⟨I, I', T, T', h1, h2, -, -, hI, -⟩ := C162_merging ht ht' hcM hitems hadd hdiff θ
  have nonneg : ∀ {cats : List ℕ} {M : ℕ} {p : (Fin d → ℝ) → List (List ℝ)}, (∀ t, IsTable cats M (p t)) → ∀ t, ∀ r ∈ p t, ∀ x ∈ r, 0 ≤ x := by
    intro cats M p hp t r hr
    obtain ⟨j, hj⟩ := List.mem_iff_getElem?.1 hr
    obtain ⟨n, hn⟩ := getElem?_of_lt cats j (by rw [← (hp t).1]; exact lt_of_getElem?_some hj)
    exact ((hp t).2 j r n hj hn).nonneg
  obtain ⟨v, g1, e1, -, g2⟩ := C31_directional probs (nonneg ht) _ _ _ _ θ l hl hd I h1
  obtain ⟨v', g1', e1', -, g2'⟩ := C31_directional probs' (nonneg ht') _ _ _ _ θ l hl hd I' h2
  have form : ∀ A : Matrix (Fin d) (Fin d) ℝ,
      ∑ i : Fin d, ∑ j : Fin d, Real.cos (l.getD i 0 * (Real.pi / 180)) * A i j * Real.cos (l.getD j 0 * (Real.pi / 180))
        = (fun i : Fin d => Real.cos (l.getD i 0 * (Real.pi / 180))) ⬝ᵥ A.mulVec fun i : Fin d => Real.cos (l.getD i 0 * (Real.pi / 180)) := by
    intro A
    simp only [dotProduct, Matrix.mulVec, Finset.mul_sum, mul_assoc]
  have hv : List.Forall₂ (List.Forall₂ fun x' x => x' ≤ x) v' v := by
    rw [e1, e1', List.forall₂_map_left_iff, List.forall₂_map_right_iff]
    refine hI.imp fun r' r h => ?_
    rw [List.forall₂_map_left_iff, List.forall₂_map_right_iff]
    refine h.imp fun A' A hA => ?_
    rw [form, form]
    exact hA _
  refine ⟨v, v', _, _, g1, g1', g2, g2', hv, ?_⟩
  rw [List.forall₂_map_left_iff, List.forall₂_map_right_iff]
  exact hv.imp fun r' r h => List.Forall₂.sum_le_sum h

/-- More information in every direction makes the diagonal of the inverse smaller. -/
theorem inverse_diag_le {A' A : Matrix (Fin d) (Fin d) ℝ} (hA' : A'.PosDef)
    (h : ∀ v : Fin d → ℝ, v ⬝ᵥ A'.mulVec v ≤ v ⬝ᵥ A.mulVec v) (k : Fin d) : A⁻¹ k k ≤ A'⁻¹ k k := by
  have entry : ∀ B : Matrix (Fin d) (Fin d) ℝ, Pi.single k 1 ⬝ᵥ B.mulVec (Pi.single k 1) = B k k := by
    intro B
    rw [single_one_dotProduct, Matrix.mulVec_single_one]
    rfl
  have hsym : A'.transpose = A' := by
    have := hA'.1
    rwa [Matrix.IsHermitian, Matrix.conjTranspose_eq_transpose_of_trivial] at this
  have hA : IsUnit A := by
    rw [← Matrix.mulVec_injective_iff_isUnit]
    intro u w huw
    by_contra hne
    have hpos := hA'.dotProduct_mulVec_pos (sub_ne_zero.2 hne)
    have hle := h (u - w)
    have h0 : A.mulVec (u - w) = 0 := by rw [Matrix.mulVec_sub, sub_eq_zero]; exact huw
    rw [h0, dotProduct_zero] at hle
    rw [star_trivial] at hpos
    linarith
  set e : Fin d → ℝ := Pi.single k 1 with he
  set x := A⁻¹.mulVec e with hx
  set y := A'⁻¹.mulVec e with hy
  have hAx : A.mulVec x = e := by
    rw [hx, Matrix.mulVec_mulVec, Matrix.mul_nonsing_inv _ ((Matrix.isUnit_iff_isUnit_det _).1 hA), Matrix.one_mulVec]
  have hAy : A'.mulVec y = e := by
    rw [hy, Matrix.mulVec_mulVec, Matrix.mul_nonsing_inv _ ((Matrix.isUnit_iff_isUnit_det _).1 hA'.isUnit), Matrix.one_mulVec]
  have hsq : 0 ≤ (x - y) ⬝ᵥ A'.mulVec (x - y) := by
    have := hA'.posSemidef.dotProduct_mulVec_nonneg (x - y)
    simpa using this
  have hcross : y ⬝ᵥ A'.mulVec x = e ⬝ᵥ x := by
    rw [Matrix.dotProduct_mulVec, ← Matrix.mulVec_transpose, hsym, hAy]
  rw [Matrix.mulVec_sub, hAy, sub_dotProduct, dotProduct_sub, dotProduct_sub, hcross] at hsq
  have hle := h x
  rw [hAx] at hle
  rw [← entry A⁻¹, ← entry A'⁻¹, ← hx, ← hy]
  have c1 := dotProduct_comm x e
  have c2 := dotProduct_comm y e
  linarith

/-- Merging categories never makes scores more precise: the reported standard errors of the scores are not smaller after merging, and
neither are the asymptotic ones, the square roots of the diagonal of the inverse of the test information. -/
theorem C162_standard_errors (f f' : FittedModel d) (g : ℕ → ℕ → ℕ) (ht : ∀ t, IsTable f.cats (maxCats f.cats) (f.probs t))
    (ht' : ∀ t, IsTable f'.cats (maxCats f'.cats) (f'.probs t)) (hitems : f'.cats.length = f.cats.length)
    (hadd : AddsUp f.cats f'.cats g (fun t => tableProb (f.probs t)) fun t => tableProb (f'.probs t))
    (hdiff : ∀ j r, Differentiable ℝ fun t => tableProb (f.probs t) j r) (method method' : String) (hm : method ≠ "NN") (hm' : method' ≠ "NN")
    (θ : Thetas d) (input input' : Option (List (List Num))) :
    ∃ (se se' : List (Fin d → Option ℝ)) (T T' : List (Matrix (Fin d) (Fin d) ℝ)),
      standardErrorsOf f method false θ input = .ok se ∧ standardErrorsOf f' method' false θ input' = .ok se' ∧
      List.Forall₂ (fun a' a => ∀ k y, a' k = some y → ∃ x, a k = some x ∧ x ≤ y) se' se ∧
      information f.probs f.cats.length (maxCats f.cats) [] false none false θ = .ok (.test T) ∧
      information f'.probs f'.cats.length (maxCats f'.cats) [] false none false θ = .ok (.test T') ∧
      List.Forall₂ (fun A' A => A'.PosDef → ∀ k, Real.sqrt (A⁻¹ k k) ≤ Real.sqrt (A'⁻¹ k k)) T' T := by
  obtain ⟨-, -, T, T', -, -, h1, h2, -, hT⟩ := C162_merging ht ht' (fun c hc => le_maxCats _ _ hc) hitems hadd hdiff θ
  have nonneg : ∀ {cats : List ℕ} {M : ℕ} {p : (Fin d → ℝ) → List (List ℝ)}, (∀ t, IsTable cats M (p t)) → ∀ t, ∀ r ∈ p t, ∀ x ∈ r, 0 ≤ x := by
    intro cats M p hp t r hr
    obtain ⟨j, hj⟩ := List.mem_iff_getElem?.1 hr
    obtain ⟨n, hn⟩ := getElem?_of_lt cats j (by rw [← (hp t).1]; exact lt_of_getElem?_some hj)
    exact ((hp t).2 j r n hj hn).nonneg
  have hpsd := (C31_positive_semidefinite f'.probs (nonneg ht') _ _ _ _ θ).2 T' h2
  have hscales : ∀ p : FittedModel d, information p.probs f.cats.length (maxCats p.cats) p.scales false none false θ
      = information p.probs f.cats.length (maxCats p.cats) [] false none false θ := by
    intro p
    rw [information_none, information_none, probabilityGradients_plain _ _ _ _ _ (Or.inl rfl), probabilityGradients_plain _ _ _ _ _ (Or.inl rfl)]
  refine ⟨T.map fun I k => invSqrt (I k k), T'.map fun I k => invSqrt (I k k), T, T', ?_, ?_, ?_, h1, by rw [hitems]; exact h2, ?_⟩
  · unfold standardErrorsOf
    rw [if_neg (fun h => hm h.2), hscales f, h1]
    rfl
  · unfold standardErrorsOf
    rw [if_neg (fun h => hm' h.2), hitems, hscales f', h2]
    rfl
  · rw [List.forall₂_map_left_iff, List.forall₂_map_right_iff]
    refine ((List.forall₂_and_left _ _).2 ⟨hpsd, hT⟩).imp fun A' A hA k y hy => ?_
    have entry : ∀ B : Matrix (Fin d) (Fin d) ℝ, Pi.single k 1 ⬝ᵥ B.mulVec (Pi.single k 1) = B k k := by
      intro B
      rw [single_one_dotProduct, Matrix.mulVec_single_one]
      rfl
    have hle := hA.2 (Pi.single k 1)
    rw [entry, entry] at hle
    have h0 : 0 ≤ A' k k := by
      have := hA.1.2 (Pi.single k 1)
      simpa [Pi.single_apply] using this
    dsimp only [invSqrt] at hy ⊢
    split_ifs at hy with hz
    obtain rfl := Option.some.inj hy
    have hpos : 0 < A' k k := lt_of_le_of_ne h0 (Ne.symm hz)
    refine ⟨_, if_neg (by linarith), ?_⟩
    exact one_div_le_one_div_of_le (Real.sqrt_pos.2 hpos) (Real.sqrt_le_sqrt hle)
  · exact hT.imp fun A' A h hA' k => Real.sqrt_le_sqrt (inverse_diag_le hA' h k)

/-- With ordered thresholds a graded response model gives a table of distributions. -/
theorem isTable_grm (m : GRM) (hwf : m.WF) (hord : m.Ordered) (θ : List ℝ) : IsTable m.cats m.M (m.probs θ) := by
  refine ⟨by simp [GRM.probs, length_viewRows], fun j p c hp hc => ?_⟩
  obtain ⟨w, dl, hpar, hl⟩ := m.exists_params j (lt_of_getElem?_some hc)
  obtain ⟨q, hq, hdist⟩ := C04_grm_distribution_partial m hwf θ j c w dl (fun k => dl.getD (k - 1) 0) hc hpar (by
    intro k hk
    obtain ⟨x, hx⟩ := getElem?_of_lt dl k (by omega)
    simp [List.getD_eq_getElem?_getD, hx]) (by
    intro k hk hkc
    have := hord j c w dl hc hpar (k - 1) (by omega)
    rw [show k - 1 + 1 = k by omega] at this
    simpa using this.le)
  rw [hp] at hq
  rw [Option.some.inj hq]
  exact hdist

/-- The probabilities of a graded response model are differentiable. -/
theorem GRM.differentiable (m : GRM) (hwf : m.WF) (hord : m.Ordered) (j r : ℕ) :
    Differentiable ℝ fun t : Fin d → ℝ => tableProb (m.probs (List.ofFn t)) j r := by
  by_cases hr : ∃ n, m.cats[j]? = some n ∧ r < n
  · obtain ⟨c, hc, hrc⟩ := hr
    obtain ⟨w, dl, hpar, -⟩ := m.exists_params j (lt_of_getElem?_some hc)
    have hgeq : ∀ k, Differentiable ℝ fun t : Fin d → ℝ => grmGeq c (∑ k, t k * w.getD k 0) (fun k => dl.getD (k - 1) 0) k := by
      intro k
      unfold grmGeq
      split_ifs
      · exact differentiable_const _
      · have hlin : Differentiable ℝ fun t : Fin d → ℝ => ∑ k, t k * w.getD k 0 + dl.getD (k - 1) 0 := by fun_prop
        have hs : Differentiable ℝ sigmoid := fun x => (sigmoid_hasDerivAt x).differentiableAt
        exact hs.comp hlin
      · exact differentiable_const _
    rw [show (fun t : Fin d → ℝ => tableProb (m.probs (List.ofFn t)) j r) = _ from
      funext fun t => m.row_at d j c hc w dl hpar t r (hrc.trans_le (le_maxCats _ _ (List.mem_of_getElem? hc)))]
    exact (hgeq r).sub (hgeq (r + 1))
  · rw [show (fun t : Fin d → ℝ => tableProb (m.probs (List.ofFn t)) j r) = fun _ => 0 from
      funext fun t => isTable_zero (isTable_grm m hwf hord _) j r hr]
    exact differentiable_const 0

/-- Merging neighbouring categories of a graded response model: the model of the merged answers that has the same slopes gives at most
the information of the answers as they are, about every item and from the test, in every direction and at all scores. -/
theorem C162_grm (m : GRM) (hwf : m.WF) (hord : m.Ordered) (cats' : List ℕ) (f : ℕ → ℕ → ℕ) (hf : Merging m.cats cats' f) :
    ∃ n : GRM, n.WF ∧ n.Ordered ∧ n.lv = m.lv ∧ n.cats = cats' ∧ n.rel = m.rel ∧
      AddsUp (d := m.lv) m.cats cats' f (fun θ => tableProb (m.probs (List.ofFn θ))) (fun θ => tableProb (n.probs (List.ofFn θ))) ∧
      ∀ θ : Thetas m.lv, ∃ (I I' : List (List (Matrix (Fin m.lv) (Fin m.lv) ℝ))) (T T' : List (Matrix (Fin m.lv) (Fin m.lv) ℝ)),
        information (fun t => m.probs (List.ofFn t)) m.cats.length m.M [] true none false θ = .ok (.items I) ∧
        information (fun t => n.probs (List.ofFn t)) m.cats.length n.M [] true none false θ = .ok (.items I') ∧
        information (fun t => m.probs (List.ofFn t)) m.cats.length m.M [] false none false θ = .ok (.test T) ∧
        information (fun t => n.probs (List.ofFn t)) m.cats.length n.M [] false none false θ = .ok (.test T') ∧
        List.Forall₂ (List.Forall₂ fun A' A => ∀ v : Fin m.lv → ℝ, v ⬝ᵥ A'.mulVec v ≤ v ⬝ᵥ A.mulVec v) I' I ∧
        List.Forall₂ (fun A' A => ∀ v : Fin m.lv → ℝ, v ⬝ᵥ A'.mulVec v ≤ v ⬝ᵥ A.mulVec v) T' T := by
  obtain ⟨n, hn, hlv, hc, hrel, -, ho, hadd⟩ := C123_merge_grm m hwf cats' f hf
  refine ⟨n, hn, ho hord, hlv, hc, hrel, hadd, ?_⟩
  subst hc
  exact C162_merging (fun t => isTable_grm m hwf hord _) (fun t => isTable_grm n hn (ho hord) _) (fun c hc => le_maxCats _ _ hc)
    hf.items hadd (fun j r => m.differentiable hwf hord j r)

/-! ## The hypotheses are met: the two upper of three graded categories -/

example : ∃ n : GRM, n.cats = [2] ∧ ∀ θ : Thetas 1, ∃ T T',
    information (fun t : Fin 1 → ℝ => exThreeGraded.probs (List.ofFn t)) 1 3 [] false none false θ = .ok (.test T) ∧
    information (fun t : Fin 1 → ℝ => n.probs (List.ofFn t)) 1 2 [] false none false θ = .ok (.test T') ∧
    List.Forall₂ (fun A' A => ∀ v : Fin 1 → ℝ, v ⬝ᵥ A'.mulVec v ≤ v ⬝ᵥ A.mulVec v) T' T := by
  obtain ⟨n, -, -, -, hc, -, -, hall⟩ :=
    C162_grm exThreeGraded exThreeGraded_wf exThreeGraded_ordered [2] mergeUpper mergeUpper_merging
  refine ⟨n, hc, fun θ => ?_⟩
  obtain ⟨_, _, T, T', -, -, h1, h2, -, h⟩ := hall θ
  have hM : n.M = 2 := by rw [GRM.M, hc]; rfl
  rw [hM] at h2
  exact ⟨T, T', h1, h2, h⟩

theorem exGRM_ordered : exGRM.Ordered := by
  intro j c w dl hc hp k hk
  match j, hc with
  | 0, hc =>
    obtain rfl : 3 = c := by simpa [exGRM] using hc
    obtain rfl : k = 0 := by omega
    simp [GRM.itemParameters, GRM.weights, GRM.biases, GRM.M, exGRM, maxCats, viewRows, scatterMask] at hp
    obtain ⟨-, rfl⟩ := hp
    norm_num [freeMask, freeRow, scatterMask, List.range_succ]
  | 1, hc =>
    obtain rfl : 2 = c := by simpa [exGRM] using hc
    omega
  | j + 2, hc => simp [exGRM] at hc

theorem mergeUpper_exGRM : Merging exGRM.cats [2, 2] mergeUpper := by
  refine ⟨rfl, ?_, ?_, ?_⟩
  · intro j c e r _ he _
    have : e = 2 := by
      match j, he with
      | 0, he => simpa using he.symm
      | 1, he => simpa using he.symm
      | j + 2, he => simp at he
    rw [this]
    unfold mergeUpper
    split <;> omega
  · intro j c r s _ hrs _
    unfold mergeUpper
    split <;> split <;> omega
  · intro j c e s hc he hs
    have he2 : e = 2 := by
      match j, he with
      | 0, he => simpa using he.symm
      | 1, he => simpa using he.symm
      | j + 2, he => simp at he
    have hc2 : 2 ≤ c := by
      match j, hc with
      | 0, hc => obtain rfl : 3 = c := by simpa [exGRM] using hc
                 norm_num
      | 1, hc => obtain rfl : 2 = c := by simpa [exGRM] using hc
                 norm_num
      | j + 2, hc => simp [exGRM] at hc
    rw [he2] at hs
    interval_cases s
    · exact ⟨0, by omega, rfl⟩
    · exact ⟨1, by omega, rfl⟩

/-- Two items on two latent variables, the upper categories of the first merged, in the direction of 30 and 60 degrees. -/
example (θ : Thetas 2) : ∃ (n : GRM) (T T' : List ℝ), n.cats = [2, 2] ∧
    information (fun t : Fin 2 → ℝ => exGRM.probs (List.ofFn t)) 2 3 [] false (some [30, 60]) false θ = .ok (.testDirection T) ∧
    information (fun t : Fin 2 → ℝ => n.probs (List.ofFn t)) 2 2 [] false (some [30, 60]) false θ = .ok (.testDirection T') ∧
    List.Forall₂ (fun x' x => x' ≤ x) T' T := by
  obtain ⟨n, hn, hlv, hc, hrel, -, ho, hadd⟩ := C123_merge_grm exGRM exGRM_wf [2, 2] mergeUpper mergeUpper_exGRM
  have hM : n.M = 2 := by rw [GRM.M, hc]; rfl
  obtain ⟨_, _, T, T', -, -, h1, h2, -, h⟩ := C162_directional (d := 2) (cats' := [2, 2]) (M := 3) (M' := 2)
    (fun t => isTable_grm exGRM exGRM_wf exGRM_ordered (List.ofFn t))
    (fun t => by have := isTable_grm n hn (ho exGRM_ordered) (List.ofFn t); rwa [hc, hM] at this)
    (fun c hc => le_maxCats exGRM.cats c hc) rfl hadd (fun j r => exGRM.differentiable exGRM_wf exGRM_ordered j r) θ [30, 60] rfl (by norm_num)
  exact ⟨n, T, T', hc, h1, h2, h⟩

/-- The standard errors of scores from three graded categories and from the two that are left after merging. -/
example (θ : Thetas 1) : ∃ (n : GRM) (se se' : List (Fin 1 → Option ℝ)), n.cats = [2] ∧
    standardErrorsOf { exSkipModel with cats := [3], probs := fun t => exThreeGraded.probs (List.ofFn t) } "ML" false θ none = .ok se ∧
    standardErrorsOf { exSkipModel with cats := [2], probs := fun t => n.probs (List.ofFn t) } "ML" false θ none = .ok se' ∧
    List.Forall₂ (fun a' a => ∀ k y, a' k = some y → ∃ x, a k = some x ∧ x ≤ y) se' se := by
  obtain ⟨n, hn, -, hc, -, -, ho, hadd⟩ := C123_merge_grm exThreeGraded exThreeGraded_wf [2] mergeUpper mergeUpper_merging
  have hM : n.M = 2 := by rw [GRM.M, hc]; rfl
  obtain ⟨se, se', _, _, h1, h2, h, -⟩ := C162_standard_errors
    { exSkipModel with cats := [3], probs := fun t => exThreeGraded.probs (List.ofFn t) }
    { exSkipModel with cats := [2], probs := fun t => n.probs (List.ofFn t) } mergeUpper
    (fun t => isTable_grm exThreeGraded exThreeGraded_wf exThreeGraded_ordered (List.ofFn t))
    (fun t => by have := isTable_grm n hn (ho exThreeGraded_ordered) (List.ofFn t); rwa [hc, hM] at this) rfl hadd
    (fun j r => exThreeGraded.differentiable exThreeGraded_wf exThreeGraded_ordered j r) "ML" "ML" (by decide) (by decide) θ none none
  exact ⟨n, se, se', hc, h1, h2, h⟩

end Irt
