import Verif.Model.Composite
import Verif.Lemmas.Tensor
import Verif.Lemmas.Graded

/-! # Lemmas for nested logit, surprisal splines and model mix -/

namespace Irt

variable {α : Type*}

theorem length_scatterAdd (xs : List ℝ) (idx : List ℕ) (src : List ℝ) :
    (scatterAdd xs idx src).length = xs.length := by
  induction idx generalizing xs src with
  | nil => simp [scatterAdd]
  | cons i idx ih => cases src <;> simp [scatterAdd, ih]

theorem scatterAdd_not_mem (xs : List ℝ) (idx : List ℕ) (src : List ℝ) (k : ℕ) (h : k ∉ idx) :
    (scatterAdd xs idx src)[k]? = xs[k]? := by
  induction idx generalizing xs src with
  | nil => simp [scatterAdd]
  | cons i idx ih =>
    cases src with
    | nil => simp [scatterAdd]
    | cons v src =>
      simp only [List.mem_cons, not_or] at h
      rw [scatterAdd, ih _ _ h.2, List.getElem?_set_ne (Ne.symm h.1)]

theorem scatterAdd_mem (xs : List ℝ) (idx : List ℕ) (src : List ℝ) (hnd : idx.Nodup) (t k : ℕ) (v x : ℝ)
    (hi : idx[t]? = some k) (hs : src[t]? = some v) (hx : xs[k]? = some x) :
    (scatterAdd xs idx src)[k]? = some (x + v) := by
  induction idx generalizing xs src t with
  | nil => simp at hi
  | cons i idx ih =>
    cases src with
    | nil => simp at hs
    | cons w src =>
      rw [List.nodup_cons] at hnd
      rw [scatterAdd]
      cases t with
      | zero =>
        simp at hi hs
        subst hi hs
        rw [scatterAdd_not_mem _ _ _ _ hnd.1]
        have := lt_of_getElem?_some hx
        rw [List.getElem?_set_self this, List.getD_eq_getElem?_getD, hx]
        rfl
      | succ t =>
        have hi' : idx[t]? = some k := by simpa using hi
        have hne : i ≠ k := fun e => hnd.1 (e ▸ List.mem_of_getElem? hi')
        exact ih _ src hnd.2 t hi' (by simpa using hs) (by rw [List.getElem?_set_ne hne]; exact hx)

theorem incorrectIndices_eq (M key : ℕ) (h : key < M) :
    incorrectIndices M key = (List.range (M - 1)).map fun t => if t < key then t else t + 1 := by
  obtain ⟨r, rfl⟩ : ∃ r, M = key + (1 + r) := ⟨M - key - 1, by omega⟩
  have e : key + (1 + r) - 1 = key + r := by omega
  unfold incorrectIndices
  rw [e, List.range_add, List.range_add, List.range_add, List.filter_append, List.map_append,
    List.map_append, List.filter_append]
  congr 1
  · rw [List.filter_eq_self.2]
    · conv_lhs => rw [← List.map_id (List.range key)]
      apply List.map_congr_left
      intro t ht
      have := List.mem_range.1 ht
      simp [this]
    · intro t ht
      have := List.mem_range.1 ht
      simp; omega
  · have h1 : List.filter (fun k => decide (k ≠ key)) (List.map (fun x => key + x) (List.range 1)) = [] := by
      simp
    rw [h1, List.nil_append, List.filter_eq_self.2]
    · rw [List.map_map, List.map_map]
      apply List.map_congr_left
      intro t _
      have : ¬ key + t < key := by omega
      simp [this]; omega
    · intro t ht
      simp only [List.map_map, List.mem_map] at ht
      obtain ⟨a, _, rfl⟩ := ht
      simp

theorem nodup_incorrectIndices (M key : ℕ) : (incorrectIndices M key).Nodup :=
  List.Nodup.filter _ List.nodup_range

/-- The row of a nested logit item, entry by entry. -/
theorem nestedRow_entry (M key : ℕ) (pc pi : ℝ) (q : List ℝ) (hkey : key < M) (hq : q.length = M - 1) :
    nestedRow M key pc pi q
      = (List.range M).map fun k => if k = key then pc else q.getD (if k < key then k else k - 1) 0 * pi := by
  apply List.ext_getElem?
  intro k
  have hlen : (scatterSet (List.replicate M (0:ℝ)) key pc).length = M := by simp [scatterSet]
  by_cases hk : k < M
  · rw [List.getElem?_map, List.getElem?_range hk, Option.map_some, nestedRow]
    by_cases hkk : k = key
    · subst hkk
      rw [scatterAdd_not_mem]
      · simp [scatterSet, hkey]
      · simp [incorrectIndices]
    · simp only [hkk, if_false]
      have hbase : (scatterSet (List.replicate M (0:ℝ)) key pc)[k]? = some 0 := by
        rw [scatterSet, List.getElem?_set_ne (Ne.symm hkk), List.getElem?_replicate, if_pos hk]
      set t := if k < key then k else k - 1 with ht
      have htM : t < M - 1 := by rw [ht]; split <;> omega
      have hidx : (incorrectIndices M key)[t]? = some k := by
        rw [incorrectIndices_eq M key hkey, List.getElem?_map, List.getElem?_range htM, Option.map_some,
          Option.some_inj, ht]
        by_cases hlt : k < key
        · simp [hlt]
        · have : ¬ k - 1 < key := by omega
          simp only [hlt, if_false, this]
          omega
      obtain ⟨x, hx⟩ := getElem?_of_lt q t (by omega)
      have := scatterAdd_mem _ _ (q.map fun x => x * pi) (nodup_incorrectIndices M key) t k (x * pi) 0 hidx
        (by rw [List.getElem?_map, hx]; rfl) hbase
      rw [this, zero_add, List.getD_eq_getElem?_getD, hx]
      rfl
  · rw [List.getElem?_eq_none (by rw [nestedRow, length_scatterAdd, hlen]; omega),
      List.getElem?_eq_none (by simp; omega)]

theorem nestedRow_sum (M key : ℕ) (pc pi : ℝ) (q : List ℝ) (hkey : key < M) (hq : q.length = M - 1) :
    (nestedRow M key pc pi q).sum = pc + q.sum * pi := by
  rw [nestedRow_entry M key pc pi q hkey hq, list_sum_range]
  obtain ⟨r, rfl⟩ : ∃ r, M = key + (r + 1) := ⟨M - key - 1, by omega⟩
  have hq' : q.sum = ∑ k ∈ Finset.range (key + r), q.getD k 0 := by
    conv_lhs => rw [eq_range_map q, list_sum_range]
    rw [hq]; congr 1
  rw [Finset.sum_range_add, Finset.sum_range_succ', hq', Finset.sum_range_add, add_mul, Finset.sum_mul,
    Finset.sum_mul]
  have h1 : ∑ x ∈ Finset.range key, (if x = key then pc else q.getD (if x < key then x else x - 1) 0 * pi)
      = ∑ x ∈ Finset.range key, q.getD x 0 * pi := by
    apply Finset.sum_congr rfl
    intro x hx
    have := Finset.mem_range.1 hx
    rw [if_neg (by omega), if_pos this]
  have h2 : ∑ x ∈ Finset.range r, (if key + (x + 1) = key then pc
        else q.getD (if key + (x + 1) < key then key + (x + 1) else key + (x + 1) - 1) 0 * pi)
      = ∑ x ∈ Finset.range r, q.getD (key + x) 0 * pi := by
    apply Finset.sum_congr rfl
    intro x _
    rw [if_neg (by omega), if_neg (by omega)]
    rfl
  rw [h1, h2]
  simp
  ring

/-! ## Surprisals -/

/-- Unflipped probability `t` of a surprisal item. -/
noncomputable def surpTerm (n : ℕ) (s : ℕ → ℝ) (t : ℕ) : ℝ :=
  Real.exp (-∑ i ∈ Finset.range t, s i) - (if t < n then Real.exp (-∑ i ∈ Finset.range (t + 1), s i) else 0)

theorem cumsum_getElem? (xs : List ℝ) (i : ℕ) (hi : i < xs.length) :
    (cumsum xs)[i]? = some (xs.take (i + 1)).sum := by
  have h : i + 1 < xs.inits.length := by simp; omega
  unfold cumsum
  rw [List.getElem?_map, List.getElem?_tail, List.getElem?_eq_getElem h, List.getElem_inits]
  rfl

theorem length_cumsum (xs : List ℝ) : (cumsum xs).length = xs.length := by
  simp [cumsum]

theorem surprisalProbs_entry (n : ℕ) (s : ℕ → ℝ) :
    surprisalProbs ((List.range n).map s) = ((List.range (n + 1)).map (surpTerm n s)).reverse := by
  unfold surprisalProbs
  dsimp only
  congr 1
  apply List.ext_getElem?
  intro t
  by_cases ht : t < n + 1
  · rw [List.getElem?_map, List.getElem?_range ht, Option.map_some, List.getElem?_zipWith]
    have ha : (1 :: (cumsum ((List.range n).map s)).map fun x => 1 / Real.exp x)[t]?
        = some (Real.exp (-∑ i ∈ Finset.range t, s i)) := by
      cases t with
      | zero => simp
      | succ t =>
        rw [List.getElem?_cons_succ, List.getElem?_map, cumsum_getElem? _ _ (by simp; omega), Option.map_some,
          ← List.map_take, List.take_range, Nat.min_eq_left (by omega), list_sum_range, Real.exp_neg, one_div]
    rw [ha]
    by_cases htn : t < n
    · rw [List.getElem?_append_left (by simp; omega), List.getElem?_map, List.getElem?_map,
        List.getElem?_range htn]
      simp only [Option.map_some, surpTerm, htn, if_true, Option.some_inj]
      rw [Finset.sum_range_succ, neg_add, Real.exp_add, one_div, ← Real.exp_neg]
      ring
    · obtain rfl : t = n := by omega
      rw [List.getElem?_append_right (by simp)]
      simp [surpTerm]
  · rw [List.getElem?_eq_none (by simp [length_cumsum]; omega), List.getElem?_eq_none (by simp; omega)]

theorem surpTerm_tail (n : ℕ) (s : ℕ → ℝ) (k : ℕ) (hk : k ≤ n) :
    ((List.range' k (n + 1 - k)).map (surpTerm n s)).sum = Real.exp (-∑ i ∈ Finset.range k, s i) := by
  obtain ⟨r, rfl⟩ : ∃ r, n = k + r := ⟨n - k, by omega⟩
  have e : k + r + 1 - k = r + 1 := by omega
  rw [e]
  suffices h : ∀ (r' m : ℕ), m + r' = k + r →
      ((List.range' m (r' + 1)).map (surpTerm (k + r) s)).sum = Real.exp (-∑ i ∈ Finset.range m, s i) from
    h r k rfl
  intro r'
  induction r' with
  | zero => intro m hm; simp at hm; subst hm; simp [surpTerm]
  | succ r' ih =>
    intro m hm
    rw [List.range'_succ, List.map_cons, List.sum_cons, ih (m + 1) (by omega)]
    have : m < k + r := by omega
    simp [surpTerm, this]

theorem surpTerm_nonneg (n : ℕ) (s : ℕ → ℝ) (hs : ∀ i, i < n → 0 ≤ s i) (t : ℕ) : 0 ≤ surpTerm n s t := by
  unfold surpTerm
  split
  · next h =>
    rw [sub_nonneg, Real.exp_le_exp, Finset.sum_range_succ]
    linarith [hs t h]
  · rw [sub_zero]; exact (Real.exp_pos _).le

/-- The spline mask at flat position `(l, b, item, k)`. -/
theorem Surprisal.mask_entry (m : Surprisal) (l b i k : ℕ) (hl : l < m.lv) (hb : b < m.nb)
    (hi : i < m.cats.length) (hk : k < m.M - 1) :
    m.mask[((l * m.nb + b) * m.cats.length + i) * (m.M - 1) + k]? = some (m.maskAt l i k) := by
  have h3 : ∀ i' ∈ List.range m.cats.length,
      ((List.range (m.M - 1)).map fun k => m.maskAt l i' k).length = m.M - 1 := by simp
  have e : ((l * m.nb + b) * m.cats.length + i) * (m.M - 1) + k
      = l * (m.nb * (m.cats.length * (m.M - 1)))
        + (b * (m.cats.length * (m.M - 1)) + (i * (m.M - 1) + k)) := by ring
  have hik : i * (m.M - 1) + k < m.cats.length * (m.M - 1) := by
    calc i * (m.M - 1) + k < i * (m.M - 1) + (m.M - 1) := by omega
      _ = (i + 1) * (m.M - 1) := by ring
      _ ≤ _ := Nat.mul_le_mul_right _ (by omega)
  have hbik : b * (m.cats.length * (m.M - 1)) + (i * (m.M - 1) + k) < m.nb * (m.cats.length * (m.M - 1)) := by
    calc b * (m.cats.length * (m.M - 1)) + (i * (m.M - 1) + k)
        < b * (m.cats.length * (m.M - 1)) + (m.cats.length * (m.M - 1)) := by omega
      _ = (b + 1) * (m.cats.length * (m.M - 1)) := by ring
      _ ≤ _ := Nat.mul_le_mul_right _ (by omega)
  have len1 : ∀ l', ((List.range m.cats.length).flatMap fun i => (List.range (m.M - 1)).map fun k =>
      m.maskAt l' i k).length = m.cats.length * (m.M - 1) := by
    intro l'
    rw [length_flatMap_const (m.M - 1) _ _ (by simp)]; simp
  have len2 : ∀ l', ((List.range m.nb).flatMap fun _ => (List.range m.cats.length).flatMap fun i =>
      (List.range (m.M - 1)).map fun k => m.maskAt l' i k).length = m.nb * (m.cats.length * (m.M - 1)) := by
    intro l'
    rw [length_flatMap_const _ _ _ (fun _ _ => len1 l')]; simp
  unfold Surprisal.mask
  rw [e, flatMap_getElem? _ _ _ (fun l' _ => len2 l') _ _ hbik, List.getElem?_range hl, Option.bind_some,
    flatMap_getElem? _ _ _ (fun _ _ => len1 l) _ _ hik, List.getElem?_range hb, Option.bind_some,
    flatMap_getElem? _ _ _ h3 _ _ hk, List.getElem?_range hi, Option.bind_some, List.getElem?_map,
    List.getElem?_range hk]
  rfl

theorem scatterMask_mem (z : α) (m : List Bool) (p : List α) (i : ℕ) (hp : p.length = countTrue m)
    (h : m[i]? = some true) : ∃ v ∈ p, (scatterMask z m p)[i]? = some v := by
  unfold countTrue at hp
  induction m generalizing p i with
  | nil => simp at h
  | cons b m ih =>
    cases b with
    | false =>
      cases i with
      | zero => simp at h
      | succ i => simpa [scatterMask] using ih p i (by simpa using hp) (by simpa using h)
    | true =>
      cases p with
      | nil => simp at hp
      | cons x p =>
        cases i with
        | zero => exact ⟨x, by simp, by simp [scatterMask]⟩
        | succ i =>
          obtain ⟨v, hv, hv'⟩ := ih p i (by simpa using hp) (by simpa using h)
          exact ⟨v, by simp [hv], by simpa [scatterMask] using hv'⟩

/-- Shapes created by the constructor. -/
structure Surprisal.WF (m : Surprisal) : Prop where
  catsPos : ∀ c ∈ m.cats, 0 < c
  relLen : m.rel.length = m.cats.length
  coefLen : m.coef.length = countTrue m.mask

theorem Surprisal.coefAt_zero (m : Surprisal) (l b i k : ℕ) (hl : l < m.lv) (hb : b < m.nb)
    (hi : i < m.cats.length) (hk : k < m.M - 1) (h : m.maskAt l i k = false) : m.coefAt l b i k = 0 := by
  unfold Surprisal.coefAt
  rw [List.getD_eq_getElem?_getD, scatterMask_false _ _ _ _ (by rw [m.mask_entry l b i k hl hb hi hk, h])]
  rfl

theorem Surprisal.coefAt_pos (m : Surprisal) (hwf : m.WF) (l b i k : ℕ) (hl : l < m.lv) (hb : b < m.nb)
    (hi : i < m.cats.length) (hk : k < m.M - 1) (h : m.maskAt l i k = true) : 0 < m.coefAt l b i k := by
  unfold Surprisal.coefAt
  obtain ⟨v, hv, hv'⟩ := scatterMask_mem 0 m.mask (m.coef.map softplus) _ (by simp [hwf.coefLen])
    (by rw [m.mask_entry l b i k hl hb hi hk, h])
  rw [List.getD_eq_getElem?_getD, hv']
  obtain ⟨x, _, rfl⟩ := List.mem_map.1 hv
  exact softplus_pos x

theorem Surprisal.coefAt_nonneg (m : Surprisal) (hwf : m.WF) (l b i k : ℕ) (hl : l < m.lv) (hb : b < m.nb)
    (hi : i < m.cats.length) (hk : k < m.M - 1) : 0 ≤ m.coefAt l b i k := by
  cases h : m.maskAt l i k with
  | false => rw [m.coefAt_zero l b i k hl hb hi hk h]
  | true => exact (m.coefAt_pos hwf l b i k hl hb hi hk h).le

/-- Surprisal of step `k` of item `i` as a double sum. -/
noncomputable def Surprisal.step (m : Surprisal) (basis : ℕ → ℕ → ℝ) (i k : ℕ) : ℝ :=
  ∑ l ∈ Finset.range m.lv, ∑ b ∈ Finset.range m.nb, basis l b * ∑ b' ∈ Finset.range (b + 1), m.coefAt l b' i k

theorem Surprisal.surprisal_eq (m : Surprisal) (basis : ℕ → ℕ → ℝ) (i : ℕ) :
    m.surprisal basis i = (List.range (m.M - 1)).map (m.step basis i) := by
  unfold Surprisal.surprisal Surprisal.step
  apply List.map_congr_left
  intro k _
  rw [list_sum_range]
  apply Finset.sum_congr rfl
  intro l _
  rw [list_sum_range]
  apply Finset.sum_congr rfl
  intro b _
  rw [Surprisal.cumCoef, list_sum_range]

theorem Surprisal.step_nonneg (m : Surprisal) (hwf : m.WF) (basis : ℕ → ℕ → ℝ)
    (hB : ∀ l, l < m.lv → ∀ b, b < m.nb → 0 ≤ basis l b) (i k : ℕ) (hi : i < m.cats.length)
    (hk : k < m.M - 1) : 0 ≤ m.step basis i k := by
  apply Finset.sum_nonneg; intro l hl
  apply Finset.sum_nonneg; intro b hb
  have hl := Finset.mem_range.1 hl
  have hb := Finset.mem_range.1 hb
  apply mul_nonneg (hB l hl b hb)
  apply Finset.sum_nonneg; intro b' hb'
  have := Finset.mem_range.1 hb'
  exact m.coefAt_nonneg hwf l b' i k hl (by omega) hi hk

theorem Surprisal.step_zero (m : Surprisal) (basis : ℕ → ℕ → ℝ) (i k c : ℕ) (hc : m.cats[i]? = some c)
    (hk : k < m.M - 1) (h : k < m.M - c) : m.step basis i k = 0 := by
  apply Finset.sum_eq_zero; intro l hl
  apply Finset.sum_eq_zero; intro b hb
  have hl := Finset.mem_range.1 hl
  have hb := Finset.mem_range.1 hb
  rw [Finset.sum_eq_zero, mul_zero]
  intro b' hb'
  have := Finset.mem_range.1 hb'
  apply m.coefAt_zero l b' i k hl (by omega) (lt_of_getElem?_some hc) hk
  unfold Surprisal.maskAt
  rw [hc]
  cases m.rel[i]? with
  | none => rfl
  | some r =>
    simp only [Bool.and_eq_false_iff, decide_eq_false_iff_not]
    right; omega

theorem Surprisal.step_pos (m : Surprisal) (hwf : m.WF) (basis : ℕ → ℕ → ℝ)
    (hB : ∀ l, l < m.lv → ∀ b, b < m.nb → 0 ≤ basis l b) (i k c l b : ℕ) (r : List Bool)
    (hc : m.cats[i]? = some c) (hk : k < m.M - 1) (hck : m.M - c ≤ k) (hr : m.rel[i]? = some r)
    (hl : l < m.lv) (hb : b < m.nb) (hrl : r.getD l false = true) (hpos : 0 < basis l b) :
    0 < m.step basis i k := by
  have hi := lt_of_getElem?_some hc
  have hcum : ∀ l', l' < m.lv → ∀ b', b' < m.nb → 0 ≤ ∑ b'' ∈ Finset.range (b' + 1), m.coefAt l' b'' i k := by
    intro l' hl' b' hb'
    apply Finset.sum_nonneg; intro b'' hb''
    have := Finset.mem_range.1 hb''
    exact m.coefAt_nonneg hwf l' b'' i k hl' (by omega) hi hk
  have hmask : m.maskAt l i k = true := by
    unfold Surprisal.maskAt
    rw [hr, hc]
    simp only [hrl, Bool.true_and, decide_eq_true_eq]; exact hck
  apply Finset.sum_pos'
  · intro l' hl'
    apply Finset.sum_nonneg; intro b' hb'
    exact mul_nonneg (hB l' (Finset.mem_range.1 hl') b' (Finset.mem_range.1 hb'))
      (hcum l' (Finset.mem_range.1 hl') b' (Finset.mem_range.1 hb'))
  · refine ⟨l, Finset.mem_range.2 hl, ?_⟩
    apply Finset.sum_pos'
    · intro b' hb'
      exact mul_nonneg (hB l hl b' (Finset.mem_range.1 hb')) (hcum l hl b' (Finset.mem_range.1 hb'))
    · refine ⟨b, Finset.mem_range.2 hb, mul_pos hpos ?_⟩
      apply Finset.sum_pos
      · intro b' hb'
        have := Finset.mem_range.1 hb'
        exact m.coefAt_pos hwf l b' i k hl (by omega) hi hk hmask
      · exact ⟨0, by simp⟩

/-- Abel summation: cumulated coefficients against a basis are coefficients against tail sums. -/
theorem abel_tail (n : ℕ) (B c : ℕ → ℝ) :
    ∑ b ∈ Finset.range n, B b * ∑ b' ∈ Finset.range (b + 1), c b'
      = ∑ b' ∈ Finset.range n, c b' * ∑ b ∈ Finset.Ico b' n, B b := by
  simp only [Finset.mul_sum]
  rw [Finset.sum_sigma', Finset.sum_sigma']
  apply Finset.sum_nbij' (fun p => ⟨p.2, p.1⟩) (fun p => ⟨p.2, p.1⟩)
  · rintro ⟨a, b⟩; simp; omega
  · rintro ⟨a, b⟩; simp; omega
  · rintro ⟨a, b⟩ _; rfl
  · rintro ⟨a, b⟩ _; rfl
  · rintro ⟨a, b⟩ _; simp [mul_comm]

theorem Surprisal.step_mono (m : Surprisal) (hwf : m.WF) (B B' : ℕ → ℕ → ℝ)
    (hB : ∀ l, l < m.lv → ∀ b, b < m.nb →
      ∑ x ∈ Finset.Ico b m.nb, B l x ≤ ∑ x ∈ Finset.Ico b m.nb, B' l x)
    (i k : ℕ) (hi : i < m.cats.length) (hk : k < m.M - 1) : m.step B i k ≤ m.step B' i k := by
  unfold Surprisal.step
  apply Finset.sum_le_sum; intro l hl
  have hl := Finset.mem_range.1 hl
  rw [abel_tail, abel_tail]
  apply Finset.sum_le_sum; intro b hb
  have hb := Finset.mem_range.1 hb
  exact mul_le_mul_of_nonneg_left (hB l hl b hb) (m.coefAt_nonneg hwf l b i k hl hb hi hk)

/-! ## Model mix -/

theorem splitCols_flatten (N : ℕ) {β : Type} (ps : List β) (size : β → ℕ) (row : β → ℕ → List α)
    (h : ∀ p ∈ ps, ∀ i, i < N → (row p i).length = size p) :
    splitCols (ps.map size) ((List.range N).map fun i => (ps.map fun p => row p i).flatten)
      = ps.map fun p => (List.range N).map (row p) := by
  induction ps with
  | nil => simp [splitCols]
  | cons p ps ih =>
    have hp := h p (by simp)
    simp only [List.map_cons, splitCols, List.map_map]
    congr 1
    · apply List.map_congr_left
      intro i hi
      have := hp i (List.mem_range.1 hi)
      simp only [Function.comp, List.flatten_cons]
      rw [List.take_append_of_le_length (by omega), List.take_of_length_le (by omega)]
    · rw [← ih (fun p' hp' => h p' (by simp [hp']))]
      congr 1
      apply List.map_congr_left
      intro i hi
      have := hp i (List.mem_range.1 hi)
      simp only [Function.comp, List.flatten_cons]
      rw [List.drop_append_of_le_length (by omega), List.drop_of_length_le (by omega), List.nil_append]

theorem splitChecked_flatten (N : ℕ) {β : Type} (ps : List β) (size : β → ℕ) (row : β → ℕ → List α)
    (h : ∀ p ∈ ps, ∀ i, i < N → (row p i).length = size p) :
    splitChecked (ps.map size) ((List.range N).map fun i => (ps.map fun p => row p i).flatten)
      = .ok (ps.map fun p => (List.range N).map (row p)) := by
  unfold splitChecked
  rw [if_pos, splitCols_flatten N ps size row h]
  intro r hr
  obtain ⟨i, hi, rfl⟩ := List.mem_map.1 hr
  have hi := List.mem_range.1 hi
  rw [List.length_flatten, List.map_map]
  congr 1
  apply List.map_congr_left
  intro p hp
  exact h p hp i hi

theorem zip_map_same {β γ δ : Type*} (l : List β) (f : β → γ) (g : β → δ) :
    List.zip (l.map f) (l.map g) = l.map fun x => (f x, g x) := by
  induction l with
  | nil => rfl
  | cons x l ih => simp [ih]

theorem zip_map_right_self {β γ : Type*} (l : List β) (g : β → γ) :
    List.zip l (l.map g) = l.map fun x => (x, g x) := by
  induction l with
  | nil => rfl
  | cons x l ih => simp [ih]

theorem mapM_map {ε β γ δ : Type} (l : List β) (f : β → γ) (g : γ → Except ε δ) :
    (l.map f).mapM g = l.mapM fun x => g (f x) := by
  induction l with
  | nil => rfl
  | cons x l ih => simp [ih]

end Irt
