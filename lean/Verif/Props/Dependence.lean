import Verif.Model.Dependence
import Verif.Spec.Dependence
import Verif.Props.Entropy
import Verif.Props.Correlation
import Verif.Props.Residuals
import Verif.Props.SumScores
import Mathlib.Analysis.Complex.ExponentialBounds

/-!
# C76: mutual information difference; C77: Q3
-/

namespace Irt

open scoped BigOperators

/-! ## Mutual information -/

theorem mutualInfo_eq (base : ℝ) (M : ℕ) (q : ℕ → ℕ → ℝ) (hq : ∀ k l, 0 ≤ q k l) :
    mutualInfo base M q = ((∑ k ∈ Finset.range M, Real.negMulLog (∑ l ∈ Finset.range M, q k l))
      + (∑ l ∈ Finset.range M, Real.negMulLog (∑ k ∈ Finset.range M, q k l))
      - ∑ k ∈ Finset.range M, ∑ l ∈ Finset.range M, Real.negMulLog (q k l)) / Real.log base := by
  have h1 : ∑ k ∈ Finset.range M, Real.negMulLog (∑ l ∈ Finset.range M, q k l)
      = ∑ k ∈ Finset.range M, ∑ l ∈ Finset.range M, -(q k l * Real.log (∑ l' ∈ Finset.range M, q k l')) := by
    refine Finset.sum_congr rfl fun k _ => ?_
    rw [Finset.sum_neg_distrib, ← Finset.sum_mul]
    simp [Real.negMulLog]
  have h2 : ∑ l ∈ Finset.range M, Real.negMulLog (∑ k ∈ Finset.range M, q k l)
      = ∑ k ∈ Finset.range M, ∑ l ∈ Finset.range M, -(q k l * Real.log (∑ k' ∈ Finset.range M, q k' l)) := by
    rw [Finset.sum_comm]
    refine Finset.sum_congr rfl fun l _ => ?_
    rw [Finset.sum_neg_distrib, ← Finset.sum_mul]
    simp [Real.negMulLog]
  rw [h1, h2, ← Finset.sum_add_distrib, ← Finset.sum_sub_distrib, Finset.sum_div]
  unfold mutualInfo
  refine Finset.sum_congr rfl fun k hk => ?_
  rw [← Finset.sum_add_distrib, ← Finset.sum_sub_distrib, Finset.sum_div]
  refine Finset.sum_congr rfl fun l hl => ?_
  rcases eq_or_lt_of_le (hq k l) with h0 | h0
  · rw [← h0]; simp
  · have hr : 0 < ∑ l' ∈ Finset.range M, q k l' :=
      lt_of_lt_of_le h0 (Finset.single_le_sum (f := fun l' => q k l') (fun l' _ => hq k l') hl)
    have hs : 0 < ∑ k' ∈ Finset.range M, q k' l :=
      lt_of_lt_of_le h0 (Finset.single_le_sum (f := fun k' => q k' l) (fun k' _ => hq k' l) hk)
    rw [Real.log_div h0.ne' (mul_pos hr hs).ne', Real.log_mul hr.ne' hs.ne']
    unfold Real.negMulLog
    ring

theorem mutualInfo_nonneg (base : ℝ) (hb : 1 < base) (M : ℕ) (q : ℕ → ℕ → ℝ) (hq : ∀ k l, 0 ≤ q k l)
    (h1 : ∑ k ∈ Finset.range M, ∑ l ∈ Finset.range M, q k l = 1) : 0 ≤ mutualInfo base M q := by
  have hl : 0 < Real.log base := Real.log_pos hb
  unfold mutualInfo
  simp only [← Finset.sum_div]
  refine div_nonneg ?_ hl.le
  have key : ∀ k ∈ Finset.range M, ∀ l ∈ Finset.range M,
      q k l - (∑ l' ∈ Finset.range M, q k l') * (∑ k' ∈ Finset.range M, q k' l)
        ≤ q k l * Real.log (q k l / ((∑ l' ∈ Finset.range M, q k l') * ∑ k' ∈ Finset.range M, q k' l)) := by
    intro k hk l hl
    rcases eq_or_lt_of_le (hq k l) with h0 | h0
    · rw [← h0]
      have : 0 ≤ (∑ l' ∈ Finset.range M, q k l') * (∑ k' ∈ Finset.range M, q k' l) :=
        mul_nonneg (Finset.sum_nonneg fun _ _ => hq _ _) (Finset.sum_nonneg fun _ _ => hq _ _)
      simp
      linarith
    · have hr : 0 < ∑ l' ∈ Finset.range M, q k l' :=
        lt_of_lt_of_le h0 (Finset.single_le_sum (f := fun l' => q k l') (fun l' _ => hq k l') hl)
      have hs : 0 < ∑ k' ∈ Finset.range M, q k' l :=
        lt_of_lt_of_le h0 (Finset.single_le_sum (f := fun k' => q k' l) (fun k' _ => hq k' l) hk)
      have hrs := mul_pos hr hs
      have := Real.log_le_sub_one_of_pos (div_pos hrs h0)
      rw [← inv_div, Real.log_inv]
      have e : q k l * ((∑ l' ∈ Finset.range M, q k l') * (∑ k' ∈ Finset.range M, q k' l) / q k l)
          = (∑ l' ∈ Finset.range M, q k l') * (∑ k' ∈ Finset.range M, q k' l) := by field_simp
      nlinarith
  have h2 : ∑ k ∈ Finset.range M, ∑ l ∈ Finset.range M,
      (q k l - (∑ l' ∈ Finset.range M, q k l') * (∑ k' ∈ Finset.range M, q k' l)) = 0 := by
    simp only [Finset.sum_sub_distrib, ← Finset.mul_sum]
    rw [h1, ← Finset.sum_mul, h1, Finset.sum_comm, h1]
    ring
  rw [← h2]
  exact Finset.sum_le_sum fun k hk => Finset.sum_le_sum fun l hl => key k hk l hl

theorem mutualInfo_independent (base : ℝ) (M : ℕ) (a b : ℕ → ℝ)
    (ha : ∑ k ∈ Finset.range M, a k = 1) (hb : ∑ k ∈ Finset.range M, b k = 1) :
    mutualInfo base M (fun k l => a k * b l) = 0 := by
  unfold mutualInfo
  refine Finset.sum_eq_zero fun k _ => Finset.sum_eq_zero fun l _ => ?_
  rw [← Finset.mul_sum, ← Finset.sum_mul, ha, hb, mul_one, one_mul]
  by_cases h : a k * b l = 0
  · rw [h]; simp
  · rw [div_self h]; simp

/-! ## Entropies as sums over the categories -/

theorem shannon_range (base : ℝ) (M : ℕ) (f : ℕ → ℝ) :
    shannon base ((List.range M).map f) = (∑ k ∈ Finset.range M, Real.negMulLog (f k)) / Real.log base := by
  unfold shannon
  rw [List.map_map, list_sum_range, Finset.sum_div]
  rfl

theorem shannon_flatMap (base : ℝ) (l : List ℕ) (f : ℕ → List ℝ) :
    shannon base (l.flatMap f) = (l.map fun k => shannon base (f k)).sum := by
  induction l with
  | nil => simp [shannon]
  | cons a t ih => rw [List.flatMap_cons, shannon_append, ih]; rfl

theorem sampleEntropy_range (base : ℝ) (M : ℕ) (l : List ℤ) (h : ∀ v ∈ l, 0 ≤ v ∧ v < (M : ℤ)) :
    sampleEntropy base l
      = (∑ k ∈ Finset.range M, Real.negMulLog ((l.count ((k : ℕ) : ℤ) : ℝ) / l.length)) / Real.log base := by
  unfold sampleEntropy
  rw [Finset.sum_div]
  have hsub : l.toFinset ⊆ (Finset.range M).map ⟨fun k : ℕ => (k : ℤ), Nat.cast_injective⟩ := by
    intro v hv
    obtain ⟨h0, h1⟩ := h v (List.mem_toFinset.1 hv)
    exact Finset.mem_map.2 ⟨v.toNat, Finset.mem_range.2 (by omega), by simp [Int.toNat_of_nonneg h0]⟩
  rw [Finset.sum_subset hsub, Finset.sum_map]
  · rfl
  · intro v _ hv
    rw [List.mem_toFinset] at hv
    simp [List.count_eq_zero_of_not_mem hv]

theorem sampleEntropy_countP {α : Type} [DecidableEq α] (base : ℝ) (l : List α) :
    sampleEntropy base l
      = ∑ v ∈ l.toFinset, Real.negMulLog ((l.countP (fun w => decide (w = v)) : ℝ) / l.length) / Real.log base := by
  unfold sampleEntropy
  refine Finset.sum_congr rfl fun v _ => ?_
  rw [List.count_eq_countP]
  rfl

theorem sampleEntropy_range2 (base : ℝ) (M : ℕ) (l : List (ℤ × ℤ))
    (h : ∀ v ∈ l, (0 ≤ v.1 ∧ v.1 < (M : ℤ)) ∧ 0 ≤ v.2 ∧ v.2 < (M : ℤ)) :
    sampleEntropy base l
      = (∑ k ∈ Finset.range M, ∑ m ∈ Finset.range M,
          Real.negMulLog ((l.countP (fun v => decide (v = (((k : ℕ) : ℤ), ((m : ℕ) : ℤ)))) : ℝ) / l.length)) / Real.log base := by
  rw [sampleEntropy_countP]
  have hinj : Function.Injective fun km : ℕ × ℕ => (((km.1 : ℕ) : ℤ), ((km.2 : ℕ) : ℤ)) := by
    intro a b hab
    simp only [Prod.mk.injEq, Nat.cast_inj] at hab
    exact Prod.ext hab.1 hab.2
  have hsub : l.toFinset ⊆ (Finset.range M ×ˢ Finset.range M).map ⟨_, hinj⟩ := by
    intro v hv
    obtain ⟨⟨h0, h1⟩, h2, h3⟩ := h v (List.mem_toFinset.1 hv)
    refine Finset.mem_map.2 ⟨(v.1.toNat, v.2.toNat), Finset.mem_product.2 ⟨Finset.mem_range.2 (by simp; omega), Finset.mem_range.2 (by simp; omega)⟩, ?_⟩
    refine Prod.ext ?_ ?_
    · simpa using h0
    · simpa using h2
  rw [Finset.sum_subset hsub, Finset.sum_map, ← Finset.sum_product', Finset.sum_div]
  · rfl
  · intro v _ hv
    rw [List.mem_toFinset] at hv
    rw [List.countP_eq_zero.2 (by
      intro w hw
      simp only [decide_eq_true_eq]
      rintro rfl
      exact hv hw)]
    simp

/-! ## The expected mutual information -/

section expected

variable {n p M : ℕ} (hn : 0 < n) (cats : List ℕ) (hc : cats.length = p) (T : Fin n → List (List ℝ))
  (hT : ∀ r, IsTable cats M (T r))

theorem tableProb_eq_getD (t : List (List ℝ)) (i k : ℕ) : (t.getD i []).getD k 0 = tableProb t i k := by
  unfold tableProb
  rw [List.getD_eq_getElem?_getD, List.getD_eq_getElem?_getD]
  cases t[i]? <;> simp

include hc hT in
theorem tableProb_facts (r : Fin n) (i : Fin p) :
    (∀ k, 0 ≤ tableProb (T r) i k) ∧ ∑ k ∈ Finset.range M, tableProb (T r) i k = 1 := by
  have hi : (i : ℕ) < (T r).length := by rw [(hT r).1, hc]; exact i.2
  have hd := (hT r).2 i _ _ (List.getElem?_eq_getElem hi) (List.getElem?_eq_getElem (by rw [hc]; exact i.2))
  have e : ∀ k, tableProb (T r) i k = (T r)[(i : ℕ)].getD k 0 := by
    intro k
    rw [← tableProb_eq_getD, List.getD_eq_getElem _ _ hi]
  constructor
  · intro k
    rw [e]
    by_cases hk : k < (T r)[(i : ℕ)].length
    · rw [List.getD_eq_getElem _ _ hk]; exact hd.nonneg _ (List.getElem_mem _)
    · rw [List.getD_eq_default _ _ (by omega)]
  · simp only [e]
    rw [← list_sum_range, ← hd.length]
    rw [show (List.range (T r)[(i : ℕ)].length).map (fun k => (T r)[(i : ℕ)].getD k 0) = (T r)[(i : ℕ)] from
      List.ext_getElem (by simp) fun k h1 h2 => by simp [h2]]
    exact hd.sum_one

theorem meanOver_finRange (f : Fin n → ℝ) : meanOver ((List.finRange n).map f) = (∑ r, f r) / n := by
  unfold meanOver
  rw [sum_finRange]; simp

include hn hc hT in
/-- C76, the part of the model: the expected mutual information of two items is (up to the smoothing constant of
`entropy`) that of the mixture of the respondents' distributions. -/
theorem C76_expected (base : ℝ) (hb : 1 < base) :
    ∃ E : Fin p → Fin p → ℝ, expectedMutualInformation base M ((List.finRange n).map T) = .ok E ∧
      (∀ i j, E i j = E j i) ∧
      ∀ i j : Fin p, mutualInfo base M (modelShare2 (fun r => tableProb (T r) i) fun r => tableProb (T r) j)
            - 2 * M * 1e-10 / Real.log base ≤ E i j ∧
          E i j ≤ mutualInfo base M (modelShare2 (fun r => tableProb (T r) i) fun r => tableProb (T r) j)
            + M * M * 1e-10 / Real.log base := by
  have hl : 0 < Real.log base := Real.log_pos hb
  have hn' : (n : ℝ) ≠ 0 := by positivity
  have hpos : (0 : ℝ) < n := by positivity
  set marg : Fin p → ℕ → ℝ := fun i k => (∑ r, tableProb (T r) i k) / n with hmarg
  have eI : ∀ i : Fin p, expectedItem M ((List.finRange n).map T) i = (List.range M).map (marg i) := by
    intro i
    unfold expectedItem
    refine List.map_congr_left fun k _ => ?_
    rw [List.map_map, Function.comp_def, meanOver_finRange]
    simp only [tableProb_eq_getD, hmarg]
  have eP : ∀ i j : Fin p, expectedPair M ((List.finRange n).map T) i j
      = (List.range M).flatMap fun k => (List.range M).map fun l =>
          modelShare2 (fun r => tableProb (T r) i) (fun r => tableProb (T r) j) k l := by
    intro i j
    unfold expectedPair
    congr 1
    funext k
    refine List.map_congr_left fun l _ => ?_
    rw [List.map_map, Function.comp_def, meanOver_finRange]
    simp only [tableProb_eq_getD, modelShare2]
  have hsum1 : ∀ i, ∑ k ∈ Finset.range M, marg i k = 1 := by
    intro i
    simp only [hmarg]
    rw [← Finset.sum_div, Finset.sum_comm, Finset.sum_congr rfl fun r _ => (tableProb_facts cats hc T hT r i).2]
    simp [hn']
  have hrow : ∀ (i j : Fin p) k, ∑ l ∈ Finset.range M,
      modelShare2 (fun r => tableProb (T r) i) (fun r => tableProb (T r) j) k l = marg i k := by
    intro i j k
    simp only [modelShare2, hmarg]
    rw [← Finset.sum_div, Finset.sum_comm]
    congr 1
    refine Finset.sum_congr rfl fun r _ => ?_
    rw [← Finset.mul_sum, (tableProb_facts cats hc T hT r j).2, mul_one]
  have hcol : ∀ (i j : Fin p) l, ∑ k ∈ Finset.range M,
      modelShare2 (fun r => tableProb (T r) i) (fun r => tableProb (T r) j) k l = marg j l := by
    intro i j l
    simp only [modelShare2, hmarg]
    rw [← Finset.sum_div, Finset.sum_comm]
    congr 1
    refine Finset.sum_congr rfl fun r _ => ?_
    rw [← Finset.sum_mul, (tableProb_facts cats hc T hT r i).2, one_mul]
  have hqnn : ∀ (i j : Fin p) k l, 0 ≤ modelShare2 (fun r => tableProb (T r) i) (fun r => tableProb (T r) j) k l := by
    intro i j k l
    exact div_nonneg (Finset.sum_nonneg fun r _ => mul_nonneg ((tableProb_facts cats hc T hT r i).1 k)
      ((tableProb_facts cats hc T hT r j).1 l)) hpos.le
  have hmnn : ∀ i k, 0 ≤ marg i k := fun i k =>
    div_nonneg (Finset.sum_nonneg fun r _ => (tableProb_facts cats hc T hT r i).1 k) hpos.le
  have hI : ∀ i : Fin p, ∃ h, entropy base (expectedItem M ((List.finRange n).map T) i) = .ok h ∧
      (∑ k ∈ Finset.range M, Real.negMulLog (marg i k)) / Real.log base - M * 1e-10 / Real.log base ≤ h ∧
      h ≤ (∑ k ∈ Finset.range M, Real.negMulLog (marg i k)) / Real.log base := by
    intro i
    rw [eI]
    obtain ⟨h, h1, h2, h3, -⟩ := C56_entropy base hb ((List.range M).map (marg i))
      (by intro x hx; obtain ⟨k, -, rfl⟩ := List.mem_map.1 hx; exact hmnn i k)
      (by rw [list_sum_range]; exact hsum1 i)
    rw [shannon_range] at h2 h3
    simp only [List.length_map, List.length_range] at h2
    exact ⟨h, h1, h2, h3⟩
  have hP : ∀ i j : Fin p, ∃ h, entropy base (expectedPair M ((List.finRange n).map T) i j) = .ok h ∧
      (∑ k ∈ Finset.range M, ∑ l ∈ Finset.range M, Real.negMulLog
        (modelShare2 (fun r => tableProb (T r) i) (fun r => tableProb (T r) j) k l)) / Real.log base
          - M * M * 1e-10 / Real.log base ≤ h ∧
      h ≤ (∑ k ∈ Finset.range M, ∑ l ∈ Finset.range M, Real.negMulLog
        (modelShare2 (fun r => tableProb (T r) i) (fun r => tableProb (T r) j) k l)) / Real.log base := by
    intro i j
    rw [eP]
    set Q : List ℝ := (List.range M).flatMap fun k => (List.range M).map fun l =>
          modelShare2 (fun r => tableProb (T r) i) (fun r => tableProb (T r) j) k l with hQ
    have hsh : shannon base Q = (∑ k ∈ Finset.range M, ∑ l ∈ Finset.range M, Real.negMulLog
        (modelShare2 (fun r => tableProb (T r) i) (fun r => tableProb (T r) j) k l)) / Real.log base := by
      rw [hQ, shannon_flatMap, list_sum_range, Finset.sum_div]
      refine Finset.sum_congr rfl fun k _ => ?_
      rw [shannon_range]
    have hlen : Q.length = M * M := by
      rw [hQ, List.length_flatMap]
      simp
    have hs : Q.sum = 1 := by
      have : ∀ (l : List ℕ) (f : ℕ → List ℝ), (l.flatMap f).sum = (l.map fun k => (f k).sum).sum := by
        intro l f
        induction l with
        | nil => rfl
        | cons a t ih => rw [List.flatMap_cons, List.sum_append, ih]; rfl
      rw [hQ, this, list_sum_range, ← hsum1 i]
      refine Finset.sum_congr rfl fun k _ => ?_
      rw [list_sum_range, hrow]
    obtain ⟨h, h1, h2, h3, -⟩ := C56_entropy base hb Q
      (by
        intro x hx
        obtain ⟨k, -, hx⟩ := List.mem_flatMap.1 hx
        obtain ⟨l, -, rfl⟩ := List.mem_map.1 hx
        exact hqnn i j k l) hs
    rw [hsh] at h2 h3
    rw [hlen] at h2
    push_cast at h2
    exact ⟨h, h1, h2, h3⟩
  choose hI' eI' lI uI using hI
  choose hP' eP' lP uP using hP
  have hsymm : ∀ i j, hP' i j = hP' j i := by
    intro i j
    have h1 : entropy base (expectedPair M ((List.finRange n).map T) i j) = .ok (hP' i j) := eP' i j
    have h2 := eP' j i
    have e : ((expectedPair M ((List.finRange n).map T) i j).map fun x => x * (-Real.log (x + 1e-10) / Real.log base)).sum
        = ((expectedPair M ((List.finRange n).map T) j i).map fun x => x * (-Real.log (x + 1e-10) / Real.log base)).sum := by
      have flat : ∀ (l : List ℕ) (f : ℕ → List ℝ) (g : ℝ → ℝ),
          ((l.flatMap f).map g).sum = (l.map fun k => ((f k).map g).sum).sum := by
        intro l f g
        induction l with
        | nil => rfl
        | cons a t ih => rw [List.flatMap_cons, List.map_append, List.sum_append, ih]; rfl
      rw [eP, eP, flat, flat, list_sum_range, list_sum_range]
      simp only [List.map_map, list_sum_range]
      rw [Finset.sum_comm]
      refine Finset.sum_congr rfl fun k _ => Finset.sum_congr rfl fun l _ => ?_
      have : modelShare2 (fun r => tableProb (T r) i) (fun r => tableProb (T r) j) l k
          = modelShare2 (fun r => tableProb (T r) j) (fun r => tableProb (T r) i) k l := by
        unfold modelShare2
        congr 1
        exact Finset.sum_congr rfl fun r _ => mul_comm _ _
      simp only [Function.comp, this]
    unfold entropy at h1 h2
    split at h1
    · split at h2
      · rw [← Except.ok.inj h1, ← Except.ok.inj h2, e]
      · cases h2
    · cases h1
  refine ⟨fun i j => hI' i + hI' j - hP' i j, ?_, ?_, ?_⟩
  · unfold expectedMutualInformation
    rw [mapM_ok _ _ hI' (fun i _ => eI' i), bind_ok,
      mapM_ok _ _ (fun i => (List.finRange p).map fun j => hP' i j)
        (fun i _ => mapM_ok _ _ _ fun j _ => eP' i j), bind_ok]
    simp only [pure, Except.pure, Except.ok.injEq]
    funext i j
    simp [mutualInformationOf, matrixOf, List.getD_eq_getElem?_getD]
  · intro i j
    simp only [hsymm i j]; ring
  · intro i j
    rw [mutualInfo_eq _ _ _ (hqnn i j)]
    simp only [hrow i j, hcol i j]
    have l1 := lI i; have u1 := uI i; have l2 := lI j; have u2 := uI j; have l3 := lP i j; have u3 := uP i j
    rw [sub_div, add_div]
    have e2 : 2 * (M : ℝ) * 1e-10 / Real.log base = M * 1e-10 / Real.log base + M * 1e-10 / Real.log base := by ring
    rw [e2]
    constructor <;> linarith

end expected

/-! ## The mutual information of the data -/

theorem countP_finRange {n : ℕ} (q : Fin n → Prop) [DecidablePred q] :
    (List.finRange n).countP (fun r => decide (q r)) = (Finset.univ.filter q).card := by
  rw [List.countP_eq_length_filter]
  rfl

theorem jointShare_nonneg {n : ℕ} (a b : Fin n → ℕ) (k l : ℕ) : 0 ≤ jointShare a b k l := by
  unfold jointShare; positivity

theorem jointShare_row {n M : ℕ} (a b : Fin n → ℕ) (hb : ∀ r, b r < M) (k : ℕ) :
    ∑ l ∈ Finset.range M, jointShare a b k l = ((Finset.univ.filter fun r => a r = k).card : ℝ) / n := by
  unfold jointShare
  rw [← Finset.sum_div]
  congr 1
  rw [Finset.card_eq_sum_card_fiberwise (f := b) (t := Finset.range M) (fun r _ => by simpa using hb r)]
  push_cast
  refine Finset.sum_congr rfl fun l _ => ?_
  rw [Finset.filter_filter]

theorem jointShare_swap {n : ℕ} (a b : Fin n → ℕ) (k l : ℕ) : jointShare a b k l = jointShare b a l k := by
  unfold jointShare
  congr 2
  refine congrArg _ (Finset.filter_congr fun r _ => and_comm)

theorem jointShare_total {n M : ℕ} (hn : 0 < n) (a b : Fin n → ℕ) (ha : ∀ r, a r < M) (hb : ∀ r, b r < M) :
    ∑ k ∈ Finset.range M, ∑ l ∈ Finset.range M, jointShare a b k l = 1 := by
  simp only [jointShare_row a b hb]
  rw [← Finset.sum_div]
  have : ∑ k ∈ Finset.range M, ((Finset.univ.filter fun r => a r = k).card : ℝ) = n := by
    rw [← Nat.cast_sum, ← Finset.card_eq_sum_card_fiberwise (s := Finset.univ) (f := a) (t := Finset.range M)
      (fun r _ => by simpa using ha r)]
    simp
  rw [this, div_self (by positivity)]

theorem matrixOf_map {p : ℕ} (f : Fin p → Fin p → ℝ) (i j : Fin p) :
    matrixOf ((List.finRange p).map fun i => (List.finRange p).map fun j => f i j) i j = f i j := by
  simp [matrixOf, List.getD_eq_getElem?_getD]

/-- C76, the part of the data: for complete data the observed mutual information is (up to the smoothing constant) that of
the joint frequencies of the responses. -/
theorem C76_observed {n p M : ℕ} (base : ℝ) (hb : 1 < base) (hp : 0 < p) (hn : 2 ≤ n) (y : Fin n → Fin p → ℕ)
    (hy : ∀ r i, y r i < M) :
    ∃ O : Fin p → Fin p → ℝ, dataMutualInformation base (fun r i => some (y r i : ℤ)) = .ok O ∧ (∀ i j, O i j = O j i) ∧
      ∀ i j, mutualInfo base M (jointShare (fun r => y r i) fun r => y r j) - 2 * M * 1e-10 / Real.log base ≤ O i j ∧
        O i j ≤ mutualInfo base M (jointShare (fun r => y r i) fun r => y r j) + M * M * 1e-10 / Real.log base := by
  have hl : 0 < Real.log base := Real.log_pos hb
  have hpairs : ∀ i j, pairCells (fun r => (some (y r i : ℤ) : Cell)) (fun r => some (y r j : ℤ))
      = (List.finRange n).map fun r => ((y r i : ℤ), (y r j : ℤ)) := by
    intro i j
    unfold pairCells
    rw [← List.filterMap_eq_map]
    rfl
  obtain ⟨J, hJ, hsymm, hjoint, hmarg⟩ := C56_joint base hb hp (fun r i => some (y r i : ℤ))
    (by intro r j v hv; rw [← Option.some.inj hv]; positivity)
    (by intro i j; rw [hpairs]; simp; omega)
  refine ⟨fun i j => J i i + J j j - J i j, ?_, ?_, ?_⟩
  · unfold dataMutualInformation
    rw [hJ, bind_ok]
    simp only [pure, Except.pure, Except.ok.injEq]
    funext i j
    simp only [mutualInformationOf, matrixOf_map]
  · intro i j
    simp only [hsymm i j]; ring
  · intro i j
    have hobs : ∀ i, (List.finRange n).filterMap (fun r => (some (y r i : ℤ) : Cell)) = (List.finRange n).map fun r => (y r i : ℤ) := by
      intro i
      rw [← List.filterMap_eq_map]
      rfl
    have hm : ∀ i, (∑ k ∈ Finset.range M, Real.negMulLog (((Finset.univ.filter fun r => y r i = k).card : ℝ) / n)) / Real.log base
          - M * 1e-10 / Real.log base ≤ J i i ∧
        J i i ≤ (∑ k ∈ Finset.range M, Real.negMulLog (((Finset.univ.filter fun r => y r i = k).card : ℝ) / n)) / Real.log base := by
      intro i
      have h := hmarg i
      simp only [hobs] at h
      rw [sampleEntropy_range base M _ (by
        intro v hv
        obtain ⟨r, -, rfl⟩ := List.mem_map.1 hv
        exact ⟨by positivity, by exact_mod_cast hy r i⟩)] at h
      have hc : ∀ k : ℕ, ((List.finRange n).map fun r => (y r i : ℤ)).count (k : ℤ)
          = (Finset.univ.filter fun r => y r i = k).card := by
        intro k
        rw [List.count_eq_countP, List.countP_map, ← countP_finRange]
        refine List.countP_congr fun r _ => ?_
        simp
      simp only [hc, List.length_map, List.length_finRange] at h
      refine ⟨le_trans ?_ h.1, h.2⟩
      have hcard : (((List.finRange n).map fun r => (y r i : ℤ)).toFinset.card : ℝ) ≤ M := by
        have : ((List.finRange n).map fun r => (y r i : ℤ)).toFinset ⊆ (Finset.range M).image fun k : ℕ => (k : ℤ) := by
          intro v hv
          obtain ⟨r, -, rfl⟩ := List.mem_map.1 (List.mem_toFinset.1 hv)
          exact Finset.mem_image.2 ⟨y r i, Finset.mem_range.2 (hy r i), rfl⟩
        have := (Finset.card_le_card this).trans Finset.card_image_le
        rw [Finset.card_range] at this
        exact_mod_cast this
      have := div_le_div_of_nonneg_right (mul_le_mul_of_nonneg_right hcard (show (0 : ℝ) ≤ 1e-10 by norm_num)) hl.le
      linarith
    have hj := hjoint i j
    simp only [hpairs] at hj
    rw [sampleEntropy_range2 base M _ (by
        intro v hv
        obtain ⟨r, -, rfl⟩ := List.mem_map.1 hv
        exact ⟨⟨by positivity, show ((y r i : ℕ) : ℤ) < M by exact_mod_cast hy r i⟩, by positivity,
          show ((y r j : ℕ) : ℤ) < M by exact_mod_cast hy r j⟩)] at hj
    have hc : ∀ k m : ℕ, ((((List.finRange n).map fun r => ((y r i : ℤ), (y r j : ℤ))).countP
        (fun v => decide (v = ((k : ℤ), (m : ℤ))))) : ℝ) / (((List.finRange n).map fun r => ((y r i : ℤ), (y r j : ℤ))).length : ℝ)
        = jointShare (fun r => y r i) (fun r => y r j) k m := by
      intro k m
      unfold jointShare
      rw [List.countP_map, ← countP_finRange, List.length_map, List.length_finRange]
      congr 2
      refine List.countP_congr fun r _ => ?_
      simp
    simp only [hc] at hj
    have hcard : (((List.finRange n).map fun r => ((y r i : ℤ), (y r j : ℤ))).toFinset.card : ℝ) ≤ M * M := by
      have : ((List.finRange n).map fun r => ((y r i : ℤ), (y r j : ℤ))).toFinset
          ⊆ (Finset.range M ×ˢ Finset.range M).image fun k : ℕ × ℕ => ((k.1 : ℤ), (k.2 : ℤ)) := by
        intro v hv
        obtain ⟨r, -, rfl⟩ := List.mem_map.1 (List.mem_toFinset.1 hv)
        exact Finset.mem_image.2 ⟨(y r i, y r j),
          Finset.mem_product.2 ⟨Finset.mem_range.2 (hy r i), Finset.mem_range.2 (hy r j)⟩, rfl⟩
      have := (Finset.card_le_card this).trans Finset.card_image_le
      rw [Finset.card_product, Finset.card_range] at this
      exact_mod_cast this
    have hcard' := div_le_div_of_nonneg_right (mul_le_mul_of_nonneg_right hcard (show (0 : ℝ) ≤ 1e-10 by norm_num)) hl.le
    rw [mutualInfo_eq _ _ _ (fun k l => jointShare_nonneg _ _ k l)]
    simp only [jointShare_row (fun r => y r i) (fun r => y r j) (fun r => hy r j)]
    have hcol : ∀ l, ∑ k ∈ Finset.range M, jointShare (fun r => y r i) (fun r => y r j) k l
        = ((Finset.univ.filter fun r => y r j = l).card : ℝ) / n := by
      intro l
      simp only [jointShare_swap (fun r => y r i)]
      exact jointShare_row _ _ (fun r => hy r i) l
    simp only [hcol]
    have h1 := hm i; have h2 := hm j
    rw [sub_div, add_div]
    have e2 : 2 * (M : ℝ) * 1e-10 / Real.log base = M * 1e-10 / Real.log base + M * 1e-10 / Real.log base := by ring
    rw [e2]
    constructor <;> linarith [h1.1, h1.2, h2.1, h2.2, hj.1, hj.2]

/-- C76 for complete data: the reported difference is, up to the smoothing constant, the mutual information of the observed
pairs of responses minus that of the model; it is symmetric, the second matrix holds its absolute value, and both mutual
informations are nonnegative. Missing responses are excluded here: `C76_missing_false`. -/
theorem C76_complete_partial {n p M : ℕ} (base : ℝ) (hb : 1 < base) (hp : 0 < p) (hn : 2 ≤ n) (y : Fin n → Fin p → ℕ)
    (hy : ∀ r i, y r i < M) (cats : List ℕ) (hc : cats.length = p) (T : Fin n → List (List ℝ))
    (hT : ∀ r, IsTable cats M (T r)) :
    ∃ mid amid : Fin p → Fin p → ℝ,
      mutualInformationDifference base M (fun r i => some (y r i : ℤ)) ((List.finRange n).map T) = .ok (mid, amid) ∧
      (∀ i j, mid i j = mid j i) ∧ (∀ i j, amid i j = |mid i j|) ∧
      ∀ i j : Fin p,
        let observed := mutualInfo base M (jointShare (fun r => y r i) fun r => y r j)
        let expected := mutualInfo base M (modelShare2 (fun r => tableProb (T r) i) fun r => tableProb (T r) j)
        0 ≤ observed ∧ 0 ≤ expected ∧
          |mid i j - (observed - expected)| ≤ (M * M + 2 * M) * 1e-10 / Real.log base := by
  have hl : 0 < Real.log base := Real.log_pos hb
  obtain ⟨O, hO, hOs, hOb⟩ := C76_observed base hb hp hn y hy
  obtain ⟨E, hE, hEs, hEb⟩ := C76_expected (by omega) cats hc T hT base hb
  refine ⟨fun i j => O i j - E i j, fun i j => |O i j - E i j|, ?_, ?_, fun i j => rfl, ?_⟩
  · unfold mutualInformationDifference
    rw [hO, bind_ok, hE, bind_ok]
    rfl
  · intro i j
    simp only [hOs i j, hEs i j]
  · intro i j
    refine ⟨mutualInfo_nonneg base hb M _ (fun k l => jointShare_nonneg _ _ k l)
      (jointShare_total (by omega) _ _ (fun r => hy r i) fun r => hy r j), ?_, ?_⟩
    · refine mutualInfo_nonneg base hb M _ (fun k l => ?_) ?_
      · exact div_nonneg (Finset.sum_nonneg fun r _ => mul_nonneg ((tableProb_facts cats hc T hT r i).1 k)
          ((tableProb_facts cats hc T hT r j).1 l)) (by positivity)
      · simp only [modelShare2, ← Finset.sum_div]
        rw [div_eq_one_iff_eq (by positivity)]
        have : ∀ k, ∑ l ∈ Finset.range M, ∑ r, tableProb (T r) i k * tableProb (T r) j l = ∑ r, tableProb (T r) i k := by
          intro k
          rw [Finset.sum_comm]
          refine Finset.sum_congr rfl fun r _ => ?_
          rw [← Finset.mul_sum, (tableProb_facts cats hc T hT r j).2, mul_one]
        simp only [this]
        rw [Finset.sum_comm, Finset.sum_congr rfl fun r _ => (tableProb_facts cats hc T hT r i).2]
        simp
    · have h1 := hOb i j
      have h2 := hEb i j
      have e : ((M : ℝ) * M + 2 * M) * 1e-10 / Real.log base
          = M * M * 1e-10 / Real.log base + 2 * M * 1e-10 / Real.log base := by ring
      rw [abs_le, e]
      constructor <;> linarith [h1.1, h1.2, h2.1, h2.2]

/-- C76: if the latent scores of all respondents give the same probabilities, the model implies independent responses. -/
theorem C76_local_independence {n M : ℕ} (hn : 0 < n) (base : ℝ) (a b : ℕ → ℝ)
    (ha : ∑ k ∈ Finset.range M, a k = 1) (hb : ∑ k ∈ Finset.range M, b k = 1) :
    mutualInfo base M (modelShare2 (fun _ : Fin n => a) fun _ => b) = 0 := by
  have e : modelShare2 (fun _ : Fin n => a) (fun _ => b) = fun k l => a k * b l := by
    funext k l
    unfold modelShare2
    have : (n : ℝ) ≠ 0 := by positivity
    simp
    field_simp
  rw [e]
  exact mutualInfo_independent base M a b ha hb

/-- C76: if two items have fewer than two respondents in common, the whole call fails. -/
theorem C76_few_common {n p : ℕ} (base : ℝ) (M : ℕ) (x : Fin n → Fin p → Cell) (tables : List (List (List ℝ))) (i j : Fin p)
    (hij : (pairCells (fun r => x r i) fun r => x r j).length ≤ 1) :
    mutualInformationDifference base M x tables = .error .runtimeError := by
  unfold mutualInformationDifference dataMutualInformation
  rw [C56_few_common_false base x i j hij]
  rfl

/-- C76, the test: the p-value of a pair of different items is the proportion of simulated statistics that exceed the
observed one, in [0,1]; the diagonal is NaN, and so is everything without simulations. -/
theorem C76_p_values {p : ℕ} (amid : Fin p → Fin p → ℝ) (samples : List (Fin p → Fin p → ℝ)) (i j : Fin p) :
    (i = j → amidPValues amid samples i j = none) ∧ (samples = [] → amidPValues amid samples i j = none) ∧
      (i ≠ j → samples ≠ [] → ∃ v : ℝ, amidPValues amid samples i j = some v ∧ 0 ≤ v ∧ v ≤ 1 ∧
        v * samples.length = ((samples.filter fun s => decide (amid i j < s i j)).length : ℝ)) := by
  refine ⟨fun h => by simp [amidPValues, h], fun h => by simp [amidPValues, h, floatDiv], fun hij hs => ?_⟩
  have hlen : (0 : ℝ) < samples.length := by
    have := List.length_pos_of_ne_nil hs
    positivity
  refine ⟨_, by unfold amidPValues floatDiv; rw [if_neg hij, if_neg hlen.ne'], by positivity, ?_, ?_⟩
  · rw [div_le_one hlen]
    exact_mod_cast List.countP_le_length
  · rw [div_mul_cancel₀ _ hlen.ne', List.countP_eq_length_filter]

/-! ### Missing responses -/

/-- Three respondents; the third did not answer the second item. -/
def exHalfMissing : Fin 3 → Fin 2 → Cell := fun r i =>
  match r, i with
  | 0, 0 => some 0 | 1, 0 => some 1 | 2, 0 => some 0
  | 0, 1 => some 0 | 1, 1 => some 0 | 2, 1 => none

/-- C76 is false with missing responses: the observed mutual information of two items mixes entropies of different sets of
respondents. Here the second item is constant, the responses of those who answered both items are independent, and the
reported mutual information is negative. -/
theorem C76_missing_false : ∃ O : Fin 2 → Fin 2 → ℝ, dataMutualInformation 2 exHalfMissing = .ok O ∧ O 0 1 < -1 / 20 := by
  have hfr : List.finRange 3 = [0, 1, 2] := rfl
  have p00 : pairCells (fun r => exHalfMissing r 0) (fun r => exHalfMissing r 0) = [(0, 0), (1, 1), (0, 0)] := by
    simp [pairCells, hfr, exHalfMissing]
  have p01 : pairCells (fun r => exHalfMissing r 0) (fun r => exHalfMissing r 1) = [(0, 0), (1, 0)] := by
    simp [pairCells, hfr, exHalfMissing]
  have p10 : pairCells (fun r => exHalfMissing r 1) (fun r => exHalfMissing r 0) = [(0, 0), (0, 1)] := by
    simp [pairCells, hfr, exHalfMissing]
  have p11 : pairCells (fun r => exHalfMissing r 1) (fun r => exHalfMissing r 1) = [(0, 0), (0, 0)] := by
    simp [pairCells, hfr, exHalfMissing]
  obtain ⟨J, hJ, -, hjoint, hmarg⟩ := C56_joint (n := 3) (p := 2) 2 (by norm_num) (by norm_num) exHalfMissing
    (by intro r j v h; fin_cases r <;> fin_cases j <;> simp [exHalfMissing] at h <;> omega)
    (by
      intro i j
      fin_cases i <;> fin_cases j
      · show 1 < (pairCells (fun r => exHalfMissing r 0) fun r => exHalfMissing r 0).length
        rw [p00]; simp
      · show 1 < (pairCells (fun r => exHalfMissing r 0) fun r => exHalfMissing r 1).length
        rw [p01]; simp
      · show 1 < (pairCells (fun r => exHalfMissing r 1) fun r => exHalfMissing r 0).length
        rw [p10]; simp
      · show 1 < (pairCells (fun r => exHalfMissing r 1) fun r => exHalfMissing r 1).length
        rw [p11]; simp)
  refine ⟨fun i j => J i i + J j j - J i j, ?_, ?_⟩
  · unfold dataMutualInformation
    rw [hJ, bind_ok]
    simp only [pure, Except.pure, Except.ok.injEq]
    funext i j
    simp only [mutualInformationOf, matrixOf_map]
  · have o0 : (List.finRange 3).filterMap (fun r => exHalfMissing r 0) = [0, 1, 0] := by simp [hfr, exHalfMissing]
    have o1 : (List.finRange 3).filterMap (fun r => exHalfMissing r 1) = [0, 0] := by simp [hfr, exHalfMissing]
    have h0 := (hmarg 0).2
    have h1 := (hmarg 1).2
    have h2 := (hjoint 0 1).1
    simp only [o0, o1, p01] at h0 h1 h2
    rw [sampleEntropy_range 2 2 _ (by intro v hv; simp at hv; rcases hv with rfl | rfl | rfl <;> norm_num)] at h0
    rw [sampleEntropy_range 2 2 _ (by intro v hv; simp at hv; subst hv; norm_num)] at h1
    rw [sampleEntropy_range2 2 2 _ (by intro v hv; simp at hv; rcases hv with rfl | rfl <;> norm_num)] at h2
    have hlog : 0 < Real.log 2 := Real.log_pos (by norm_num)
    have hcard : ([((0 : ℤ), (0 : ℤ)), (1, 0)] : List (ℤ × ℤ)).toFinset.card = 2 := by decide
    rw [hcard] at h2
    have e0 : J 0 0 ≤ 14 / 15 := by
      refine h0.trans ?_
      rw [div_le_iff₀ hlog]
      have c0 : ([0, 1, 0] : List ℤ).count ((0 : ℕ) : ℤ) = 2 := by decide
      have c1 : ([0, 1, 0] : List ℤ).count ((1 : ℕ) : ℤ) = 1 := by decide
      rw [Finset.sum_range_succ, Finset.sum_range_one, c0, c1]
      unfold Real.negMulLog
      have l1 : Real.log (((2 : ℕ) : ℝ) / ([0, 1, 0] : List ℤ).length) = Real.log 2 - Real.log 3 := by
        rw [show ((([0, 1, 0] : List ℤ).length : ℕ) : ℝ) = 3 by norm_num, Real.log_div (by norm_num) (by norm_num)]
        norm_num
      have l2 : Real.log (((1 : ℕ) : ℝ) / ([0, 1, 0] : List ℤ).length) = - Real.log 3 := by
        rw [show ((([0, 1, 0] : List ℤ).length : ℕ) : ℝ) = 3 by norm_num, Real.log_div (by norm_num) (by norm_num)]
        norm_num
      rw [l1, l2]
      have h35 : 5 * Real.log 3 ≤ 8 * Real.log 2 := by
        have : Real.log ((3 : ℝ) ^ 5) ≤ Real.log ((2 : ℝ) ^ 8) := Real.log_le_log (by norm_num) (by norm_num)
        rwa [Real.log_pow, Real.log_pow] at this
      norm_num
      linarith
    have e1 : J 1 1 ≤ 0 := by
      refine h1.trans ?_
      have c0 : ([0, 0] : List ℤ).count ((0 : ℕ) : ℤ) = 2 := by decide
      have c1 : ([0, 0] : List ℤ).count ((1 : ℕ) : ℤ) = 0 := by decide
      rw [Finset.sum_range_succ, Finset.sum_range_one, c0, c1]
      norm_num [Real.negMulLog]
    have e2 : 999 / 1000 ≤ J 0 1 := by
      refine le_trans ?_ h2
      have k00 : (([((0 : ℤ), (0 : ℤ)), (1, 0)] : List (ℤ × ℤ)).countP fun v => decide (v = (((0 : ℕ) : ℤ), ((0 : ℕ) : ℤ)))) = 1 := by decide
      have k01 : (([((0 : ℤ), (0 : ℤ)), (1, 0)] : List (ℤ × ℤ)).countP fun v => decide (v = (((0 : ℕ) : ℤ), ((1 : ℕ) : ℤ)))) = 0 := by decide
      have k10 : (([((0 : ℤ), (0 : ℤ)), (1, 0)] : List (ℤ × ℤ)).countP fun v => decide (v = (((1 : ℕ) : ℤ), ((0 : ℕ) : ℤ)))) = 1 := by decide
      have k11 : (([((0 : ℤ), (0 : ℤ)), (1, 0)] : List (ℤ × ℤ)).countP fun v => decide (v = (((1 : ℕ) : ℤ), ((1 : ℕ) : ℤ)))) = 0 := by decide
      simp only [Finset.sum_range_succ, Finset.sum_range_zero, zero_add, k00, k01, k10, k11]
      rw [le_sub_iff_add_le, ← le_sub_iff_add_le', ← sub_nonneg]
      have l2 := Real.log_two_gt_d9
      have : Real.negMulLog (((1 : ℕ) : ℝ) / (([((0 : ℤ), (0 : ℤ)), (1, 0)] : List (ℤ × ℤ)).length : ℕ)) = Real.log 2 / 2 := by
        unfold Real.negMulLog
        rw [show (((1 : ℕ) : ℝ) / (([((0 : ℤ), (0 : ℤ)), (1, 0)] : List (ℤ × ℤ)).length : ℕ)) = 2⁻¹ by norm_num, Real.log_inv]
        ring
      rw [this]
      have z : Real.negMulLog (((0 : ℕ) : ℝ) / (([((0 : ℤ), (0 : ℤ)), (1, 0)] : List (ℤ × ℤ)).length : ℕ)) = 0 := by
        norm_num [Real.negMulLog]
      rw [z]
      have e : (Real.log 2 / 2 + 0 + (Real.log 2 / 2 + 0)) / Real.log 2 = 1 := by field_simp; ring
      rw [e]
      have : ((2 : ℕ) : ℝ) * 1e-10 / Real.log 2 ≤ 1 / 1000 := by
        rw [div_le_iff₀ hlog]
        norm_num
        linarith
      linarith
    show J 0 0 + J 1 1 - J 0 1 < -1 / 20
    linarith

/-! ## Examples for C76 -/

/-- Two items with responses 0 and 1 and two respondents with different probabilities. -/
noncomputable def exTables2 : Fin 2 → List (List ℝ) := fun r => if r = 0 then [[1 / 2, 1 / 2], [1 / 4, 3 / 4]] else [[1 / 4, 3 / 4], [1, 0]]

theorem two_isDistribution (x y : ℝ) (hx : 0 ≤ x) (hy : 0 ≤ y) (h : x + y = 1) : IsDistribution 2 2 [x, y] := by
  refine ⟨rfl, ?_, ?_, by simpa using h, by intro k h1 h2; omega⟩
  · intro v hv; simp at hv; rcases hv with rfl | rfl <;> assumption
  · intro v hv; simp at hv; rcases hv with rfl | rfl <;> linarith

theorem exTables2_isTable (r : Fin 2) : IsTable [2, 2] 2 (exTables2 r) := by
  have key : ∀ p q : List ℝ, IsDistribution 2 2 p → IsDistribution 2 2 q → IsTable [2, 2] 2 [p, q] := by
    intro p q hp hq
    refine ⟨rfl, ?_⟩
    intro j v c hv hc
    match j with
    | 0 =>
      obtain rfl : v = p := by simpa using hv.symm
      obtain rfl : c = 2 := by simpa using hc.symm
      exact hp
    | 1 =>
      obtain rfl : v = q := by simpa using hv.symm
      obtain rfl : c = 2 := by simpa using hc.symm
      exact hq
    | j + 2 => simp at hv
  unfold exTables2
  split <;> refine key _ _ (two_isDistribution _ _ ?_ ?_ ?_) (two_isDistribution _ _ ?_ ?_ ?_) <;> norm_num

example : ∃ mid amid : Fin 2 → Fin 2 → ℝ,
    mutualInformationDifference 2 2 (fun r i => some (((fun r _ => (r : ℕ)) : Fin 2 → Fin 2 → ℕ) r i : ℤ))
      ((List.finRange 2).map exTables2) = .ok (mid, amid) := by
  obtain ⟨mid, amid, h, -⟩ := C76_complete_partial (n := 2) (p := 2) (M := 2) 2 (by norm_num) (by norm_num) le_rfl
    (fun r _ => (r : ℕ)) (fun r _ => r.2) [2, 2] rfl exTables2 exTables2_isTable
  exact ⟨mid, amid, h⟩

example : amidPValues (p := 2) (fun _ _ => 1) [fun _ _ => 2, fun _ _ => 0] 0 1 = some (1 / 2) := by
  norm_num [amidPValues, floatDiv, List.countP_cons]

/-! ## Q3 -/

/-- The residual of a response: observed minus expected score, and for models of the options of multiple choice items one
minus the probability of the response. -/
noncomputable def responseResidual (keyed : Bool) (M : ℕ) (p : ℕ → ℝ) (y : ℕ) : ℝ :=
  if keyed then 1 - p y else y - ∑ k ∈ Finset.range M, (k : ℝ) * p k

theorem q3_eq (n p M : ℕ) (hM : 0 < M) (mc : Option (List ℤ)) (P : ℕ → ℕ → ℕ → ℝ) (Y : ℕ → ℕ → Cell)
    (hY : ∀ i, i < n → ∀ j, j < p → ∀ y, Y i j = some y → y ≠ -1 → 0 ≤ y ∧ y < (M : ℤ)) :
    q3 n p M mc (tablesOf n p M P) (dataOf n p Y) = .ok fun i j => if i = j then none else
      correlationMatrix (fun (r : Fin n) (i : Fin p) => residualAt mc.isSome M (P r i) (Y r i)) i j := by
  unfold q3
  rw [C58_residuals n p M hM mc P Y hY, bind_ok]
  have e : numMatrix (n := n) (p := p) ((List.range n).map fun i => (List.range p).map fun j => residualAt mc.isSome M (P i j) (Y i j))
      = fun (r : Fin n) (i : Fin p) => residualAt mc.isSome M (P r i) (Y r i) := by
    funext r i
    simp [numMatrix, List.getD_eq_getElem?_getD]
  simp only [e]
  rfl

theorem residualAt_some (keyed : Bool) (M : ℕ) (p : ℕ → ℝ) (y : ℕ) :
    residualAt keyed M p (some (y : ℤ)) = some (responseResidual keyed M p y) := by
  unfold residualAt responseResidual
  have h : IsObserved (some (y : ℤ)) := ⟨y, rfl, by omega⟩
  rw [if_pos h]
  simp [keyedMean, scoreOf]

/-- C77 for complete data: Q3 of two items whose residuals vary is the Pearson correlation of the residuals over the
respondents, the same in both orders and in [-1,1]; the diagonal is NaN. Missing responses are excluded here, see
`C77_missing_partial` and `C77_missing_false`. -/
theorem C77_complete_partial (n p M : ℕ) (hM : 0 < M) (mc : Option (List ℤ)) (P : ℕ → ℕ → ℕ → ℝ) (y : ℕ → ℕ → ℕ)
    (hy : ∀ r, r < n → ∀ i, i < p → y r i < M) :
    ∃ Q : Fin p → Fin p → Num, q3 n p M mc (tablesOf n p M P) (dataOf n p fun r i => some (y r i : ℤ)) = .ok Q ∧
      (∀ i, Q i i = none) ∧
      ∀ i j : Fin p, i ≠ j →
        let e := fun (r : Fin n) (i : Fin p) => responseResidual mc.isSome M (P r i) (y r i)
        Varies ((List.finRange n).map fun r => e r i) → Varies ((List.finRange n).map fun r => e r j) →
        ∃ ρ : ℝ, Q i j = some ρ ∧ Q j i = some ρ ∧ ρ = pearson ((List.finRange n).map fun r => (e r i, e r j)) ∧
          -1 ≤ ρ ∧ ρ ≤ 1 := by
  refine ⟨_, q3_eq n p M hM mc P _ ?_, fun i => if_pos rfl, ?_⟩
  · intro r hr i hi v hv _
    rw [← Option.some.inj hv]
    exact ⟨by positivity, by exact_mod_cast hy r hr i hi⟩
  · intro i j hij e hi hj
    obtain ⟨ρ, h1, h2, h3, h4, h5, -⟩ := C55_complete e i j hi hj
    refine ⟨ρ, ?_, ?_, h3, h4, h5⟩
    · simp only [if_neg hij, residualAt_some]; exact h1
    · simp only [if_neg hij.symm, residualAt_some]; exact h2

/-- C77: if the residuals of one of two items are the same for all respondents, their Q3 is NaN. -/
theorem C77_constant (n p M : ℕ) (hM : 0 < M) (mc : Option (List ℤ)) (P : ℕ → ℕ → ℕ → ℝ) (y : ℕ → ℕ → ℕ)
    (hy : ∀ r, r < n → ∀ i, i < p → y r i < M) (i j : Fin p)
    (h : ¬ Varies ((List.finRange n).map fun r : Fin n => responseResidual mc.isSome M (P r i) (y r i))) :
    ∃ Q : Fin p → Fin p → Num, q3 n p M mc (tablesOf n p M P) (dataOf n p fun r i => some (y r i : ℤ)) = .ok Q ∧
      Q i j = none := by
  refine ⟨_, q3_eq n p M hM mc P _ ?_, ?_⟩
  · intro r hr i hi v hv _
    rw [← Option.some.inj hv]
    exact ⟨by positivity, by exact_mod_cast hy r hr i hi⟩
  · simp only [residualAt_some]
    split
    · rfl
    · exact C55_constant_false _ i j (Or.inl h)

/-- C77 with missing responses, as far as it holds: if everyone who answered one of the two items answered the other one
as well, Q3 is the Pearson correlation over those who answered both. -/
theorem C77_missing_partial (n p M : ℕ) (hM : 0 < M) (mc : Option (List ℤ)) (P : ℕ → ℕ → ℕ → ℝ) (Y : ℕ → ℕ → Cell)
    (hY : ∀ r, r < n → ∀ i, i < p → ∀ y, Y r i = some y → y ≠ -1 → 0 ≤ y ∧ y < (M : ℤ)) :
    ∃ Q : Fin p → Fin p → Num, q3 n p M mc (tablesOf n p M P) (dataOf n p Y) = .ok Q ∧ (∀ i, Q i i = none) ∧
      (∀ (r : Fin n) (k : Fin p), ¬ IsObserved (Y r k) → ∀ i j : Fin p, i ≠ j →
        let e := fun (i : Fin p) (r : Fin n) => residualAt mc.isSome M (P r i) (Y r i)
        Q i j = Q j i ∧
        (((∀ r : Fin n, IsObserved (Y r j) → IsObserved (Y r i)) ∨ ∀ r : Fin n, IsObserved (Y r i) → IsObserved (Y r j)) →
          Varies ((pairRows (e i) (e j)).map Prod.fst) → Varies ((pairRows (e i) (e j)).map Prod.snd) →
          ∃ ρ : ℝ, Q i j = some ρ ∧ ρ = pearson (pairRows (e i) (e j)) ∧ -1 ≤ ρ ∧ ρ ≤ 1)) := by
  refine ⟨_, q3_eq n p M hM mc P Y hY, fun i => if_pos rfl, ?_⟩
  intro r k hrk i j hij e
  have hnone : ∀ (r : Fin n) (i : Fin p), residualAt mc.isSome M (P r i) (Y r i) ≠ none ↔ IsObserved (Y r i) := by
    intro r i
    unfold residualAt
    split <;> simp_all
  have hx : ∃ (r : Fin n) (i : Fin p), residualAt mc.isSome M (P r i) (Y r i) = none :=
    ⟨r, k, by unfold residualAt; rw [if_neg hrk]⟩
  refine ⟨?_, ?_⟩
  · simp only [if_neg hij, if_neg hij.symm]
    exact (C55_missing_symmetric _ hx i j).1
  · intro hnest hi hj
    obtain ⟨ρ, h1, -, h2, h3, h4⟩ := C55_missing_partial
      (fun (r : Fin n) (i : Fin p) => residualAt mc.isSome M (P r i) (Y r i)) hx i j hij
      (by
        unfold Nested
        simpa only [hnone] using hnest) hi hj
    exact ⟨ρ, by simp only [if_neg hij]; exact h1, h4, h2, h3⟩

/-- Four respondents and two items; the third did not answer the second item and the fourth not the first. -/
def exGaps : ℕ → ℕ → Cell := fun r i =>
  if (r = 2 ∧ i = 1) ∨ (r = 3 ∧ i = 0) then none else if r = 0 then some 0 else some 1

/-- C77 is false with missing responses: the reported Q3 is greater than one. -/
theorem C77_missing_false : ∃ (Q : Fin 2 → Fin 2 → Num) (ρ : ℝ),
    q3 4 2 2 none (tablesOf 4 2 2 fun _ _ _ => 1 / 2) (dataOf 4 2 exGaps) = .ok Q ∧ Q 0 1 = some ρ ∧ 1 < ρ := by
  have hQ := q3_eq 4 2 2 (by norm_num) none (fun _ _ _ => (1 / 2 : ℝ)) exGaps (by
    intro r _ i _ v hv _
    unfold exGaps at hv
    split at hv
    · simp at hv
    · split at hv <;> (rw [← Option.some.inj hv]; norm_num))
  refine ⟨_, 10 / 9, hQ, ?_, by norm_num⟩
  let x : Fin 4 → Fin 2 → Num := fun r i => residualAt false 2 (fun _ => (1 / 2 : ℝ)) (exGaps r i)
  show (if (0 : Fin 2) = 1 then none else correlationMatrix x 0 1) = some (10 / 9)
  have r0 : residualAt false 2 (fun _ => (1 / 2 : ℝ)) (some 0) = some (-1 / 2) := by
    have := residualAt_some false 2 (fun _ => (1 / 2 : ℝ)) 0
    norm_num [responseResidual, Finset.sum_range_succ] at this ⊢
    exact this
  have r1 : residualAt false 2 (fun _ => (1 / 2 : ℝ)) (some 1) = some (1 / 2) := by
    have := residualAt_some false 2 (fun _ => (1 / 2 : ℝ)) 1
    norm_num [responseResidual, Finset.sum_range_succ] at this ⊢
    exact this
  have rn : residualAt false 2 (fun _ => (1 / 2 : ℝ)) none = none := by
    unfold residualAt; rw [if_neg]; rintro ⟨y, hy, -⟩; simp at hy
  have a0 : x 0 0 = some (-1 / 2) := r0
  have a1 : x 1 0 = some (1 / 2) := r1
  have a2 : x 2 0 = some (1 / 2) := r1
  have a3 : x 3 0 = none := rn
  have b0 : x 0 1 = some (-1 / 2) := r0
  have b1 : x 1 1 = some (1 / 2) := r1
  have b2 : x 2 1 = none := rn
  have b3 : x 3 1 = some (1 / 2) := r1
  have h : ¬ ∀ i j, x i j ≠ none := by push Not; exact ⟨2, 1, b2⟩
  have hfr : List.finRange 4 = [0, 1, 2, 3] := rfl
  have hp : pairRows (fun i => x i 0) (fun i => x i 1) = [(-1 / 2, -1 / 2), (1 / 2, 1 / 2)] := by
    simp [pairRows, hfr, a0, a1, a2, a3, b0, b1, b2, b3]
  have ha : nanColMean (fun i => x i 0) = some (1 / 6) := by
    have : (List.finRange 4).filterMap (fun i => x i 0) = [-1 / 2, 1 / 2, 1 / 2] := by simp [hfr, a0, a1, a2, a3]
    unfold nanColMean; rw [this]; norm_num [floatDiv]
  have hb : nanColMean (fun i => x i 1) = some (1 / 6) := by
    have : (List.finRange 4).filterMap (fun i => x i 1) = [-1 / 2, 1 / 2, 1 / 2] := by simp [hfr, b0, b1, b2, b3]
    unfold nanColMean; rw [this]; norm_num [floatDiv]
  have hs : listStd [-1 / 2, 1 / 2] * listStd [-1 / 2, 1 / 2] = 1 / 2 := by
    unfold listStd
    rw [Real.mul_self_sqrt] <;> norm_num
  unfold correlationMatrix
  rw [if_neg h]
  simp only [Fin.isValue, zero_ne_one, if_false, Fin.zero_lt_one, if_true]
  unfold corrMissing
  rw [hp]
  simp only [List.map_cons, List.map_nil, hs, List.length_cons, List.length_nil]
  rw [if_pos (by norm_num), floatDiv, if_neg (by norm_num)]
  congr 1
  unfold covMissing
  rw [hp]
  simp only [centred, ha, hb, a0, a1, a2, a3, b0, b1, b2, b3, Fin.sum_univ_four]
  norm_num

/-! ### The test for Q3 -/

/-- C77, the test, as far as it holds: for a Q3 and simulated values that are numbers, the p-value is twice the smaller of
the proportions of simulated values below the observed one and of the others, hence in [0,1]. -/
theorem C77_p_values (q : ℝ) (samples : List ℝ) (hs : samples ≠ []) :
    ∃ v : ℝ, q3PValue false (some q) (samples.map some) = some v ∧ 0 ≤ v ∧ v ≤ 1 ∧
      v = 2 * min (((samples.filter fun s => decide (s < q)).length : ℝ) / samples.length)
        (((samples.filter fun s => decide (q ≤ s)).length : ℝ) / samples.length) := by
  have hlen : (0 : ℝ) < samples.length := by
    have := List.length_pos_of_ne_nil hs
    positivity
  have e1 : (samples.map some).countP (fun s => numLt s (some q)) = (samples.filter fun s => decide (s < q)).length := by
    rw [List.countP_map, List.countP_eq_length_filter]; rfl
  have e2 : (samples.map some).countP (fun s => numGe s (some q)) = (samples.filter fun s => decide (q ≤ s)).length := by
    rw [List.countP_map, List.countP_eq_length_filter]; rfl
  have hsum : (samples.filter fun s => decide (s < q)).length + (samples.filter fun s => decide (q ≤ s)).length
      = samples.length := by
    clear hs hlen e1 e2
    induction samples with
    | nil => rfl
    | cons a l ih =>
      by_cases h : a < q
      · rw [List.filter_cons_of_pos (by simpa using h), List.filter_cons_of_neg (by simpa using h)]
        simp only [List.length_cons]; omega
      · rw [List.filter_cons_of_neg (by simpa using h), List.filter_cons_of_pos (by simpa using h)]
        simp only [List.length_cons]; omega
  unfold q3PValue
  rw [if_neg (by simp), e1, e2, List.length_map, floatDiv, if_neg hlen.ne']
  refine ⟨_, rfl, by positivity, ?_, ?_⟩
  · rw [div_le_one hlen]
    have : min (samples.filter fun s => decide (s < q)).length (samples.filter fun s => decide (q ≤ s)).length * 2
        ≤ samples.length := by omega
    exact_mod_cast this
  · rw [Nat.cast_min, min_div_div_right hlen.le]
    ring

/-- C77: the diagonal has no p-value. -/
theorem C77_diagonal (observed : Num) (samples : List Num) : q3PValue true observed samples = none := rfl

/-- C77 is false for undefined statistics: a pair without a Q3 gets the p-value zero. -/
theorem C77_undefined_false (samples : List Num) (hs : samples ≠ []) : q3PValue false none samples = some 0 := by
  have hlen : (samples.length : ℝ) ≠ 0 := by
    have := List.length_pos_of_ne_nil hs
    positivity
  have h : ∀ s, numLt s none = false := by intro s; cases s <;> rfl
  have e : samples.countP (fun s => numLt s none) = 0 := by
    rw [List.countP_eq_zero]; intro s _; simp [h]
  unfold q3PValue
  rw [if_neg (by simp), e, floatDiv, if_neg hlen]
  simp

/-- C77 is false with ties: if all simulated values equal the observed one, the p-value is zero instead of one. -/
theorem C77_ties_false (q : ℝ) (m : ℕ) (hm : 0 < m) : q3PValue false (some q) (List.replicate m (some q)) = some 0 := by
  have hlen : ((List.replicate m (some q)).length : ℝ) ≠ 0 := by
    rw [List.length_replicate]; positivity
  have e : (List.replicate m (some q)).countP (fun s => numLt s (some q)) = 0 := by
    rw [List.countP_eq_zero]
    intro s hs
    rw [(List.mem_replicate.1 hs).2]
    simp [numLt]
  unfold q3PValue
  rw [if_neg (by simp), e, floatDiv, if_neg hlen]
  simp

/-! ## Examples for C77 -/

example : ∃ (Q : Fin 2 → Fin 2 → Num) (ρ : ℝ),
    q3 3 2 2 none (tablesOf 3 2 2 fun _ _ _ => 1 / 2) (dataOf 3 2 fun r i => some (((fun r i => if r = i then 1 else 0) : ℕ → ℕ → ℕ) r i : ℤ))
      = .ok Q ∧ Q 0 1 = some ρ ∧ ρ ≤ 1 := by
  obtain ⟨Q, hQ, -, h⟩ := C77_complete_partial 3 2 2 (by norm_num) none (fun _ _ _ => 1 / 2)
    (fun r i => if r = i then 1 else 0) (by intro r _ i _; split <;> norm_num)
  have hfr : List.finRange 3 = [0, 1, 2] := rfl
  obtain ⟨ρ, h1, -, -, -, h2⟩ := h 0 1 (by decide)
    ⟨_, List.mem_map.2 ⟨0, by simp, rfl⟩, _, List.mem_map.2 ⟨1, by simp, rfl⟩, by
      norm_num [responseResidual, Finset.sum_range_succ]⟩
    ⟨_, List.mem_map.2 ⟨0, by simp, rfl⟩, _, List.mem_map.2 ⟨1, by simp, rfl⟩, by
      norm_num [responseResidual, Finset.sum_range_succ]⟩
  exact ⟨Q, ρ, hQ, h1, h2⟩

/-- Three respondents; the third did not answer the second item. -/
def exOneGap : ℕ → ℕ → Cell := fun r i => if r = 2 ∧ i = 1 then none else if r = 0 then some 0 else some 1

example : ∃ (Q : Fin 2 → Fin 2 → Num) (ρ : ℝ),
    q3 3 2 2 none (tablesOf 3 2 2 fun _ _ _ => 1 / 2) (dataOf 3 2 exOneGap) = .ok Q ∧ Q 0 1 = some ρ ∧ ρ ≤ 1 := by
  obtain ⟨Q, hQ, -, h⟩ := C77_missing_partial 3 2 2 (by norm_num) none (fun _ _ _ => 1 / 2) exOneGap (by
    intro r _ i _ v hv _
    unfold exOneGap at hv
    split at hv
    · simp at hv
    · split at hv <;> (rw [← Option.some.inj hv]; norm_num))
  have hobs : ∀ r : Fin 3, IsObserved (exOneGap r 0) := by
    intro r
    unfold exOneGap
    rw [if_neg (by simp)]
    split <;> exact ⟨_, rfl, by norm_num⟩
  have hno : ¬ IsObserved (exOneGap (2 : Fin 3) (1 : Fin 2)) := by
    rintro ⟨y, hy, -⟩
    simp [exOneGap] at hy
  have r0 : residualAt false 2 (fun _ => (1 / 2 : ℝ)) (some 0) = some (-1 / 2) := by
    have := residualAt_some false 2 (fun _ => (1 / 2 : ℝ)) 0
    norm_num [responseResidual, Finset.sum_range_succ] at this ⊢
    exact this
  have r1 : residualAt false 2 (fun _ => (1 / 2 : ℝ)) (some 1) = some (1 / 2) := by
    have := residualAt_some false 2 (fun _ => (1 / 2 : ℝ)) 1
    norm_num [responseResidual, Finset.sum_range_succ] at this ⊢
    exact this
  have rn : residualAt false 2 (fun _ => (1 / 2 : ℝ)) none = none := by
    unfold residualAt; rw [if_neg]; rintro ⟨y, hy, -⟩; simp at hy
  let e : Fin 2 → Fin 3 → Num := fun i r => residualAt false 2 (fun _ => (1 / 2 : ℝ)) (exOneGap r i)
  have a0 : e 0 0 = some (-1 / 2) := r0
  have a1 : e 0 1 = some (1 / 2) := r1
  have a2 : e 0 2 = some (1 / 2) := r1
  have b0 : e 1 0 = some (-1 / 2) := r0
  have b1 : e 1 1 = some (1 / 2) := r1
  have b2 : e 1 2 = none := rn
  have hfr : List.finRange 3 = [0, 1, 2] := rfl
  have hp : pairRows (e 0) (e 1) = [(-1 / 2, -1 / 2), (1 / 2, 1 / 2)] := by
    simp [pairRows, hfr, a0, a1, a2, b0, b1, b2]
  have hv : Varies [(-1 / 2 : ℝ), 1 / 2] := ⟨-1 / 2, by simp, 1 / 2, by simp, by norm_num⟩
  obtain ⟨ρ, h1, -, -, h2⟩ := (h 2 1 hno 0 1 (by decide)).2 (Or.inl fun r _ => hobs r)
    (show Varies ((pairRows (e 0) (e 1)).map Prod.fst) by rw [hp]; exact hv)
    (show Varies ((pairRows (e 0) (e 1)).map Prod.snd) by rw [hp]; exact hv)
  exact ⟨Q, ρ, hQ, h1, h2⟩

example : q3PValue false (some (1 / 2)) [some 0, some 1, some (1 / 4), some (3 / 4)] = some 1 := by
  norm_num [q3PValue, numLt, numGe, floatDiv, List.countP_cons]

end Irt
