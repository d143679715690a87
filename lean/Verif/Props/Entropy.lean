import Verif.Model.Utils
import Verif.Spec.Utils
import Verif.Lemmas.LogLik
import Mathlib.Tactic.Positivity
import Mathlib.Tactic.FieldSimp

/-!
# C56: entropies
-/

namespace Irt

/-! ## Entropy of a table -/

/-- The smoothed term of `entropy`. -/
theorem smoothed_bounds (x : ℝ) (hx : 0 ≤ x) :
    x * -Real.log (x + 1e-10) ≤ Real.negMulLog x ∧ Real.negMulLog x - 1e-10 ≤ x * -Real.log (x + 1e-10) := by
  rcases eq_or_lt_of_le hx with rfl | hx
  · norm_num
  · constructor
    · have : Real.log x ≤ Real.log (x + 1e-10) := Real.log_le_log hx (by norm_num)
      unfold Real.negMulLog
      nlinarith
    · have h1 : Real.log (x + 1e-10) - Real.log x ≤ 1e-10 / x := by
        rw [← Real.log_div (by positivity) hx.ne']
        have := Real.log_le_sub_one_of_pos (show (0 : ℝ) < (x + 1e-10) / x by positivity)
        have e : (x + 1e-10) / x - 1 = 1e-10 / x := by field_simp; ring
        linarith
      have h2 : x * (Real.log (x + 1e-10) - Real.log x) ≤ 1e-10 := by
        calc x * (Real.log (x + 1e-10) - Real.log x) ≤ x * (1e-10 / x) := mul_le_mul_of_nonneg_left h1 hx.le
          _ = 1e-10 := by field_simp
      unfold Real.negMulLog
      nlinarith

/-- The number of positive entries. -/
noncomputable def support (p : List ℝ) : ℕ := (p.filter fun x => decide (x ≠ 0)).length

theorem smoothed_sum (base : ℝ) (hb : 1 < base) (p : List ℝ) (hp : ∀ x ∈ p, 0 ≤ x) :
    (p.map fun x => x * (-Real.log (x + 1e-10) / Real.log base)).sum ≤ shannon base p ∧
    shannon base p - (support p : ℝ) * 1e-10 / Real.log base
      ≤ (p.map fun x => x * (-Real.log (x + 1e-10) / Real.log base)).sum := by
  have hl : 0 < Real.log base := Real.log_pos hb
  induction p with
  | nil => simp [shannon, support]
  | cons a t ih =>
    obtain ⟨ih1, ih2⟩ := ih fun x hx => hp x (List.mem_cons_of_mem _ hx)
    obtain ⟨h1, h2⟩ := smoothed_bounds a (hp a (List.mem_cons_self ..))
    have e : shannon base (a :: t) = Real.negMulLog a / Real.log base + shannon base t := rfl
    rw [e, List.map_cons, List.sum_cons]
    have e2 : a * (-Real.log (a + 1e-10) / Real.log base) = (a * -Real.log (a + 1e-10)) / Real.log base := by ring
    rw [e2]
    have h1' := div_le_div_of_nonneg_right h1 hl.le
    refine ⟨by linarith, ?_⟩
    by_cases ha : a = 0
    · have es : support (a :: t) = support t := by simp [support, ha]
      rw [es]
      subst ha
      simp
      linarith
    · have es : support (a :: t) = support t + 1 := by simp [support, ha]
      rw [es]
      have h2' := div_le_div_of_nonneg_right h2 hl.le
      have e3 : ((support t + 1 : ℕ) : ℝ) * 1e-10 / Real.log base
          = (support t : ℝ) * 1e-10 / Real.log base + 1e-10 / Real.log base := by push_cast; ring
      rw [e3]
      rw [sub_div] at h2'
      linarith

/-- C56: `entropy` accepts exactly the tables whose sum is one up to the tolerance. -/
theorem C56_rejects (base : ℝ) (p : List ℝ) :
    ((∃ h, entropy base p = .ok h) ↔ |p.sum - 1| ≤ 0.00001001) ∧
    (¬ |p.sum - 1| ≤ 0.00001001 → entropy base p = .error .runtimeError) := by
  have e : (1e-8 + 1e-5 * |1| : ℝ) = 0.00001001 := by norm_num
  unfold entropy
  rw [e]
  split
  · rename_i h; exact ⟨⟨fun _ => h, fun _ => ⟨_, rfl⟩⟩, fun h' => absurd h h'⟩
  · rename_i h; exact ⟨⟨fun ⟨_, h'⟩ => by simp at h', fun h' => absurd h' h⟩, fun _ => rfl⟩

theorem shannon_bounds (base : ℝ) (hb : 1 < base) (p : List ℝ) (hp : ∀ x ∈ p, 0 ≤ x) (hs : p.sum = 1) :
    0 ≤ shannon base p ∧ shannon base p ≤ Real.log p.length / Real.log base := by
  have hl : 0 < Real.log base := Real.log_pos hb
  have hne : p ≠ [] := by rintro rfl; simp at hs
  have hK : (0 : ℝ) < p.length := by
    have := List.length_pos_of_ne_nil hne
    positivity
  constructor
  · apply List.sum_nonneg
    intro y hy
    obtain ⟨x, hx, rfl⟩ := List.mem_map.1 hy
    have hx1 : x ≤ 1 := hs ▸ List.single_le_sum (fun z hz => hp z hz) x hx
    exact div_nonneg (Real.negMulLog_nonneg (hp x hx) hx1) hl.le
  · have hterm : ∀ x, 0 ≤ x → Real.negMulLog x ≤ x * Real.log p.length + (1 / p.length - x) := by
      intro x hx
      rcases eq_or_lt_of_le hx with rfl | hx
      · simp
      · have h := Real.log_le_sub_one_of_pos (show (0 : ℝ) < 1 / (p.length * x) by positivity)
        rw [Real.log_div one_ne_zero (by positivity), Real.log_one, Real.log_mul hK.ne' hx.ne'] at h
        have h2 := mul_le_mul_of_nonneg_left h hx.le
        have e : x * (1 / (p.length * x) - 1) = 1 / p.length - x := by field_simp
        rw [e] at h2
        unfold Real.negMulLog
        nlinarith
    have hsum : ∀ l : List ℝ, (∀ x ∈ l, 0 ≤ x) → shannon base l
        ≤ (l.sum * Real.log p.length + ((l.length : ℝ) / p.length - l.sum)) / Real.log base := by
      intro l hl'
      induction l with
      | nil => simp [shannon]
      | cons a t ih =>
        have e : shannon base (a :: t) = Real.negMulLog a / Real.log base + shannon base t := rfl
        rw [e]
        have h1 := div_le_div_of_nonneg_right (hterm a (hl' a (List.mem_cons_self ..))) hl.le
        have h2 := ih fun x hx => hl' x (List.mem_cons_of_mem _ hx)
        calc _ ≤ _ := add_le_add h1 h2
          _ = _ := by rw [← add_div, List.sum_cons, List.length_cons]; congr 1; push_cast; field_simp; ring
    have := hsum p hp
    rw [hs, div_self hK.ne'] at this
    simpa using this

/-- C56: for a probability distribution on `K` categories, `entropy` returns the entropy up to `K · 1e-10 / log(base)`,
and the entropy is between 0 and `log K` (to the base). -/
theorem C56_entropy (base : ℝ) (hb : 1 < base) (p : List ℝ) (hp : ∀ x ∈ p, 0 ≤ x) (hs : p.sum = 1) :
    ∃ h, entropy base p = .ok h ∧ shannon base p - p.length * 1e-10 / Real.log base ≤ h ∧ h ≤ shannon base p ∧
      0 ≤ shannon base p ∧ shannon base p ≤ Real.log p.length / Real.log base := by
  have hl : 0 < Real.log base := Real.log_pos hb
  obtain ⟨h1, h2⟩ := smoothed_sum base hb p hp
  obtain ⟨h3, h4⟩ := shannon_bounds base hb p hp hs
  refine ⟨_, by unfold entropy; rw [if_pos (by rw [hs]; norm_num)], ?_, h1, h3, h4⟩
  refine le_trans ?_ h2
  have : (support p : ℝ) ≤ p.length := by exact_mod_cast List.length_filter_le _ _
  have := div_le_div_of_nonneg_right (mul_le_mul_of_nonneg_right this (show (0 : ℝ) ≤ 1e-10 by norm_num)) hl.le
  linarith

example : ∃ h, entropy 2 [0.25, 0.75] = .ok h ∧ h ≤ 1 := by
  obtain ⟨h, h1, -, h2, -, h3⟩ := C56_entropy 2 (by norm_num) [0.25, 0.75] (by norm_num) (by norm_num)
  refine ⟨h, h1, h2.trans (h3.trans ?_)⟩
  have : Real.log 2 ≠ 0 := (Real.log_pos (by norm_num)).ne'
  norm_num [div_self this]

/-! ## Joint entropies -/

theorem sum_map_dedup {α β : Type} [DecidableEq α] [AddCommMonoid β] (l : List α) (f : α → β) :
    (l.dedup.map f).sum = ∑ v ∈ l.toFinset, f v := by
  rw [← List.sum_toFinset f (List.nodup_dedup l)]
  congr 1
  ext v; simp

theorem sum_uniqueCounts {α : Type} [DecidableEq α] (rows : List α) : (uniqueCounts rows).sum = rows.length := by
  unfold uniqueCounts
  rw [sum_map_dedup, List.sum_toFinset_count_eq_length]

theorem uniqueCounts_pos {α : Type} [DecidableEq α] (rows : List α) (c : ℕ) (hc : c ∈ uniqueCounts rows) : 0 < c := by
  obtain ⟨v, hv, rfl⟩ := List.mem_map.1 hc
  exact List.count_pos_iff.2 (List.mem_dedup.1 hv)

theorem sampleEntropy_map {α β : Type} [DecidableEq α] [DecidableEq β] (base : ℝ) (l : List α) (f : α → β)
    (hf : Function.Injective f) : sampleEntropy base (l.map f) = sampleEntropy base l := by
  unfold sampleEntropy
  have : (l.map f).toFinset = l.toFinset.map ⟨f, hf⟩ := by ext v; simp
  rw [this, Finset.sum_map]
  refine Finset.sum_congr rfl fun v _ => ?_
  simp only [Function.Embedding.coeFn_mk, List.length_map, List.count_map_of_injective _ _ hf]

theorem card_map {α β : Type} [DecidableEq α] [DecidableEq β] (l : List α) (f : α → β)
    (hf : Function.Injective f) : (l.map f).toFinset.card = l.toFinset.card := by
  have : (l.map f).toFinset = l.toFinset.map ⟨f, hf⟩ := by ext v; simp
  rw [this, Finset.card_map]

theorem shannon_append (base : ℝ) (p q : List ℝ) : shannon base (p ++ q) = shannon base p + shannon base q := by
  simp [shannon]

theorem shannon_zeros (base : ℝ) (k : ℕ) : shannon base (List.replicate k 0) = 0 := by
  simp [shannon, Real.negMulLog]

theorem support_append (p q : List ℝ) : support (p ++ q) = support p + support q := by
  simp [support]

theorem support_zeros (k : ℕ) : support (List.replicate k 0) = 0 := by
  simp [support, List.filter_replicate]

/-- The value computed for one pair of items. -/
noncomputable def pairEntropy (base : ℝ) (rows : List (ℤ × ℤ)) : ℝ :=
  ((uniqueCounts rows).map fun c : ℕ => (c : ℝ) / rows.length *
    (-Real.log ((c : ℝ) / rows.length + 1e-10) / Real.log base)).sum

theorem pair_entropy (base : ℝ) (hb : 1 < base) (m : ℕ) (rows : List (ℤ × ℤ)) (hN : 1 < rows.length)
    (hm : rows.toFinset.card ≤ m) :
    ∃ q, pairProportions m rows = .ok q ∧ entropy base q = .ok (pairEntropy base rows) ∧
      pairEntropy base rows ≤ sampleEntropy base rows ∧
      sampleEntropy base rows - rows.toFinset.card * 1e-10 / Real.log base ≤ pairEntropy base rows := by
  have hlen : (uniqueCounts rows).length = rows.toFinset.card := by
    simp [uniqueCounts, List.card_toFinset]
  have hN' : (0 : ℝ) < rows.length := by
    have : 0 < rows.length := by omega
    positivity
  set q := (uniqueCounts rows).map (fun c : ℕ => (c : ℝ) / rows.length) with hq
  have hcp : ∀ x ∈ q, 0 < x := by
    intro x hx
    obtain ⟨c, hc, rfl⟩ := List.mem_map.1 hx
    exact div_pos (Nat.cast_pos.2 (uniqueCounts_pos rows c hc)) hN'
  have hsh : shannon base q = sampleEntropy base rows := by
    unfold shannon sampleEntropy
    rw [hq, uniqueCounts, List.map_map, List.map_map, sum_map_dedup]
    rfl
  have hsup : support q = rows.toFinset.card := by
    unfold support
    rw [List.filter_eq_self.2, hq, List.length_map, hlen]
    intro x hx
    simpa using (hcp x hx).ne'
  have hsum : q.sum = 1 := by
    have h1 : q.sum = ((uniqueCounts rows).sum : ℝ) / rows.length := by
      rw [hq]
      generalize uniqueCounts rows = l
      induction l with
      | nil => simp
      | cons a t ih => rw [List.map_cons, List.sum_cons, ih, List.sum_cons]; push_cast; ring
    rw [h1, sum_uniqueCounts, div_self hN'.ne']
  obtain ⟨h1, h2⟩ := smoothed_sum base hb q fun x hx => (hcp x hx).le
  have hval : (q.map fun x => x * (-Real.log (x + 1e-10) / Real.log base)).sum = pairEntropy base rows := by
    rw [hq, List.map_map]; rfl
  rw [hval, hsh] at h1
  rw [hval, hsh, hsup] at h2
  refine ⟨q ++ List.replicate (m - (uniqueCounts rows).length) 0, ?_, ?_, h1, h2⟩
  · unfold pairProportions
    dsimp only
    rw [if_pos hN, if_neg (by omega), sum_uniqueCounts]
  · unfold entropy
    rw [if_pos]
    · rw [List.map_append, List.sum_append, hval]
      simp
    · rw [List.sum_append, hsum]; norm_num

theorem pairCells_swap {n : ℕ} (a b : Fin n → Cell) : pairCells b a = (pairCells a b).map Prod.swap := by
  unfold pairCells
  induction List.finRange n with
  | nil => rfl
  | cons i t ih => cases ha : a i <;> cases hb : b i <;> simp [ha, hb, ih]

theorem pairCells_self {n : ℕ} (a : Fin n → Cell) :
    pairCells a a = ((List.finRange n).filterMap a).map fun v => (v, v) := by
  unfold pairCells
  induction List.finRange n with
  | nil => rfl
  | cons i t ih => cases ha : a i <;> simp [ha, ih]

theorem mem_pairCells {n : ℕ} (a b : Fin n → Cell) (v : ℤ × ℤ) (h : v ∈ pairCells a b) :
    ∃ i, a i = some v.1 ∧ b i = some v.2 := by
  obtain ⟨i, -, hi⟩ := List.mem_filterMap.1 h
  refine ⟨i, ?_⟩
  cases ha : a i <;> cases hb : b i <;> simp [ha, hb] at hi
  rw [← hi]; simp

/-- The rows used for the pair `(i, j)`. -/
def entropyRows {n p : ℕ} (x : Fin n → Fin p → Cell) (i j : Fin p) : List (ℤ × ℤ) :=
  if i ≤ j then pairCells (fun r => x r i) (fun r => x r j) else pairCells (fun r => x r j) (fun r => x r i)

theorem entropyRows_eq {n p : ℕ} (x : Fin n → Fin p → Cell) (i j : Fin p) :
    entropyRows x i j = pairCells (fun r => x r i) (fun r => x r j) ∨
    entropyRows x i j = (pairCells (fun r => x r i) (fun r => x r j)).map Prod.swap := by
  unfold entropyRows
  split
  · left; rfl
  · right; exact pairCells_swap _ _

theorem entropyRows_comm {n p : ℕ} (x : Fin n → Fin p → Cell) (i j : Fin p) : entropyRows x i j = entropyRows x j i := by
  unfold entropyRows
  rcases lt_trichotomy i j with h | rfl | h
  · rw [if_pos h.le, if_neg (not_le.2 h)]
  · rfl
  · rw [if_neg (not_le.2 h), if_pos h.le]

/-- All responses of the data. -/
def allCells {n p : ℕ} (x : Fin n → Fin p → Cell) : List Cell :=
  (List.finRange n).flatMap fun r => (List.finRange p).map (x r)

theorem card_le_maxCombos {n p : ℕ} (x : Fin n → Fin p → Cell) (hx : ∀ r j v, x r j = some v → 0 ≤ v) (i j : Fin p)
    (hne : entropyRows x i j ≠ []) : (entropyRows x i j).toFinset.card ≤ maxCombos (allCells x) := by
  have hmem : ∀ r j v, x r j = some v → v ∈ (allCells x).filterMap id := by
    intro r j v h
    refine List.mem_filterMap.2 ⟨some v, ?_, rfl⟩
    exact List.mem_flatMap.2 ⟨r, List.mem_finRange r, List.mem_map.2 ⟨j, List.mem_finRange j, h⟩⟩
  have hrow : ∀ v ∈ entropyRows x i j, ∃ r a b, x r a = some v.1 ∧ x r b = some v.2 := by
    intro v hv
    unfold entropyRows at hv
    split at hv
    · obtain ⟨r, h1, h2⟩ := mem_pairCells _ _ v hv; exact ⟨r, i, j, h1, h2⟩
    · obtain ⟨r, h1, h2⟩ := mem_pairCells _ _ v hv; exact ⟨r, j, i, h1, h2⟩
  obtain ⟨v, hv⟩ := List.exists_mem_of_ne_nil _ hne
  obtain ⟨r, a, b, h1, -⟩ := hrow v hv
  cases hmax : ((allCells x).filterMap id).max? with
  | none =>
    have := List.max?_eq_none_iff.1 hmax
    have h := hmem r a _ h1
    rw [this] at h; simp at h
  | some top =>
    have hle : ∀ w ∈ (allCells x).filterMap id, w ≤ top := (List.max?_eq_some_iff.1 hmax).2
    have htop : 0 ≤ top := (hx r a _ h1).trans (hle _ (hmem r a _ h1))
    unfold maxCombos
    rw [hmax]
    have hsub : (entropyRows x i j).toFinset ⊆ Finset.Icc 0 top ×ˢ Finset.Icc 0 top := by
      intro w hw
      obtain ⟨r, a, b, h1, h2⟩ := hrow w (List.mem_toFinset.1 hw)
      rw [Finset.mem_product, Finset.mem_Icc, Finset.mem_Icc]
      exact ⟨⟨hx _ _ _ h1, hle _ (hmem _ _ _ h1)⟩, ⟨hx _ _ _ h2, hle _ (hmem _ _ _ h2)⟩⟩
    refine (Finset.card_le_card hsub).trans ?_
    rw [Finset.card_product, Int.card_Icc]
    dsimp only
    have : ((top + 1) ^ 2).toNat = (top + 1 - 0).toNat * (top + 1 - 0).toNat := by
      rw [← Int.toNat_mul (by omega) (by omega)]; congr 1; ring
    rw [this]

/-- C56: for data with responses coded from 0 and missing ones coded NaN, in which every two items have at least two
respondents in common, `joint_entropy_matrix` is symmetric, its entries are (up to the smoothing constant) the entropies
of the pairs of responses of the respondents who answered both items, and its diagonal entries are those of the observed
responses to the items. -/
theorem C56_joint {n p : ℕ} (base : ℝ) (hb : 1 < base) (hp : 0 < p) (x : Fin n → Fin p → Cell)
    (hx : ∀ r j v, x r j = some v → 0 ≤ v)
    (hcommon : ∀ i j, 1 < (pairCells (fun r => x r i) fun r => x r j).length) :
    ∃ M : Fin p → Fin p → ℝ,
      jointEntropyMatrix base x = .ok ((List.finRange p).map fun i => (List.finRange p).map fun j => M i j) ∧
      (∀ i j, M i j = M j i) ∧
      (∀ i j, let rows := pairCells (fun r => x r i) fun r => x r j
        sampleEntropy base rows - rows.toFinset.card * 1e-10 / Real.log base ≤ M i j ∧
          M i j ≤ sampleEntropy base rows) ∧
      (∀ i, let obs := (List.finRange n).filterMap fun r => x r i
        sampleEntropy base obs - obs.toFinset.card * 1e-10 / Real.log base ≤ M i i ∧
          M i i ≤ sampleEntropy base obs) := by
  have hlen : ∀ i j, 1 < (entropyRows x i j).length := by
    intro i j
    unfold entropyRows
    split
    · exact hcommon i j
    · exact hcommon j i
  have key := fun i j => pair_entropy base hb (maxCombos (allCells x)) (entropyRows x i j) (hlen i j)
    (card_le_maxCombos x hx i j (by intro e; have := hlen i j; rw [e] at this; simp at this))
  choose q hq using key
  have hbound : ∀ i j, let rows := pairCells (fun r => x r i) fun r => x r j
      sampleEntropy base rows - rows.toFinset.card * 1e-10 / Real.log base ≤ pairEntropy base (entropyRows x i j) ∧
        pairEntropy base (entropyRows x i j) ≤ sampleEntropy base rows := by
    intro i j
    have h := (hq i j).2.2
    rcases entropyRows_eq x i j with e | e
    · rw [e] at h ⊢; exact ⟨h.2, h.1⟩
    · rw [e, sampleEntropy_map _ _ _ Prod.swap_injective, card_map _ _ Prod.swap_injective, ← e] at h
      exact ⟨h.2, h.1⟩
  refine ⟨fun i j => pairEntropy base (entropyRows x i j), ?_, ?_, hbound, ?_⟩
  · unfold jointEntropyMatrix
    dsimp only
    have hcell : allCells x ≠ [] := by
      intro e
      have h := hcommon ⟨0, hp⟩ ⟨0, hp⟩
      have : n ≠ 0 := by rintro rfl; simp [pairCells] at h
      have hm : x ⟨0, by omega⟩ ⟨0, hp⟩ ∈ allCells x :=
        List.mem_flatMap.2 ⟨_, List.mem_finRange _, List.mem_map.2 ⟨_, List.mem_finRange _, rfl⟩⟩
      rw [e] at hm; simp at hm
    rw [if_neg (show ¬ (List.finRange n).flatMap (fun r => (List.finRange p).map (x r)) = [] from hcell)]
    have hprops : ((List.finRange p).mapM fun i => (List.finRange p).mapM fun j =>
        pairProportions (maxCombos (allCells x)) (entropyRows x i j))
          = .ok ((List.finRange p).map fun i => (List.finRange p).map fun j => q i j) := by
      apply mapM_ok
      intro i _
      apply mapM_ok
      intro j _
      exact (hq i j).1
    show (((List.finRange p).mapM fun i => (List.finRange p).mapM fun j =>
        pairProportions (maxCombos (allCells x)) (entropyRows x i j)) >>= fun props =>
          props.mapM fun row => row.mapM (entropy base)) = _
    rw [hprops]
    show (List.mapM (fun row => List.mapM (entropy base) row) _) = _
    rw [List.mapM_map]
    apply mapM_ok
    intro i _
    show List.mapM (entropy base) _ = _
    rw [List.mapM_map]
    apply mapM_ok
    intro j _
    exact (hq i j).2.1
  · intro i j; show pairEntropy base _ = pairEntropy base _; rw [entropyRows_comm]
  · intro i
    have h := hbound i i
    dsimp only at h ⊢
    have hinj : Function.Injective fun v : ℤ => (v, v) := fun a b h => (Prod.mk.inj h).1
    rw [pairCells_self, sampleEntropy_map _ _ _ hinj, card_map _ _ hinj] at h
    exact h

/-- C56 is false of the code for incomplete data in general: if two items have fewer than two respondents in common, the
whole matrix is refused. -/
theorem C56_few_common_false {n p : ℕ} (base : ℝ) (x : Fin n → Fin p → Cell) (i j : Fin p)
    (hij : (pairCells (fun r => x r i) fun r => x r j).length ≤ 1) :
    jointEntropyMatrix base x = .error .runtimeError := by
  unfold jointEntropyMatrix
  dsimp only
  by_cases hcell : (List.finRange n).flatMap (fun r => (List.finRange p).map (x r)) = []
  · rw [if_pos hcell]; rfl
  rw [if_neg hcell]
  show (((List.finRange p).mapM fun i => (List.finRange p).mapM fun j =>
        pairProportions (maxCombos (allCells x)) (entropyRows x i j)) >>= fun props =>
          props.mapM fun row => row.mapM (entropy base)) = _
  have hpp : ∀ m rows, pairProportions m rows = .error .runtimeError ∨ ∃ q, pairProportions m rows = .ok q := by
    intro m rows
    unfold pairProportions
    dsimp only
    split
    · split
      · left; rfl
      · right; exact ⟨_, rfl⟩
    · right; exact ⟨_, rfl⟩
  have hrow : ∀ i : Fin p, ((List.finRange p).mapM fun j => pairProportions (maxCombos (allCells x)) (entropyRows x i j))
      = .error .runtimeError ∨ ∃ q, ((List.finRange p).mapM fun j =>
        pairProportions (maxCombos (allCells x)) (entropyRows x i j)) = .ok q := by
    intro i
    by_cases h : ∃ j ∈ List.finRange p, pairProportions (maxCombos (allCells x)) (entropyRows x i j) = .error .runtimeError
    · left; exact mapM_error _ _ _ (fun j _ => hpp _ _) h
    · right
      push Not at h
      have : ∀ j, ∃ q, pairProportions (maxCombos (allCells x)) (entropyRows x i j) = .ok q := by
        intro j
        rcases hpp (maxCombos (allCells x)) (entropyRows x i j) with h' | h'
        · exact absurd h' (h j (List.mem_finRange j))
        · exact h'
      choose q hq using this
      exact ⟨_, mapM_ok _ _ q fun j _ => hq j⟩
  by_cases hbad : ∃ i ∈ List.finRange p, ((List.finRange p).mapM fun j =>
      pairProportions (maxCombos (allCells x)) (entropyRows x i j)) = .error .runtimeError
  · rw [mapM_error _ _ _ (fun i _ => hrow i) hbad]; rfl
  · push Not at hbad
    have : ∀ i j, ∃ q, pairProportions (maxCombos (allCells x)) (entropyRows x i j) = .ok q := by
      intro i j
      rcases hpp (maxCombos (allCells x)) (entropyRows x i j) with h' | h'
      · exact absurd (mapM_error _ _ _ (fun j _ => hpp _ _) ⟨j, List.mem_finRange j, h'⟩) (hbad i (List.mem_finRange i))
      · exact h'
    choose q hq using this
    rw [mapM_ok _ _ (fun i => (List.finRange p).map (q i)) fun i _ => mapM_ok _ _ (q i) fun j _ => hq i j]
    show List.mapM (fun row => List.mapM (entropy base) row) _ = _
    rw [List.mapM_map]
    have hent : ∀ r : List ℝ, entropy base r = .error .runtimeError ∨ ∃ h, entropy base r = .ok h := by
      intro r
      unfold entropy
      split
      · right; exact ⟨_, rfl⟩
      · left; rfl
    have hents : ∀ l : List (List ℝ), l.mapM (entropy base) = .error .runtimeError ∨ ∃ h, l.mapM (entropy base) = .ok h := by
      intro l
      by_cases h : ∃ r ∈ l, entropy base r = .error .runtimeError
      · left; exact mapM_error _ _ _ (fun r _ => hent r) h
      · right
        push Not at h
        have : ∀ r, ∃ v, r ∈ l → entropy base r = .ok v := by
          intro r
          rcases hent r with h' | ⟨v, h'⟩
          · exact ⟨0, fun hr => absurd h' (h r hr)⟩
          · exact ⟨v, fun _ => h'⟩
        choose g hg using this
        exact ⟨_, mapM_ok _ _ g hg⟩
    apply mapM_error _ _ _ (fun i _ => hents _)
    refine ⟨i, List.mem_finRange i, ?_⟩
    show List.mapM (entropy base) ((List.finRange p).map (q i)) = _
    apply mapM_error _ _ _ (fun r _ => hent r)
    refine ⟨q i j, List.mem_map.2 ⟨j, List.mem_finRange j, rfl⟩, ?_⟩
    have hl : (entropyRows x i j).length ≤ 1 := by
      rcases entropyRows_eq x i j with e | e <;> rw [e]
      · exact hij
      · rw [List.length_map]; exact hij
    have hz := hq i j
    unfold pairProportions at hz
    dsimp only at hz
    rw [if_neg (by omega)] at hz
    injection hz with hz
    rw [← hz]
    unfold entropy
    rw [if_neg]
    simp
    norm_num

/-- Two respondents with different responses and two whose response is missing, coded -1. -/
def exCoded : Fin 4 → Fin 1 → Cell := ![![some (-1)], ![some (-1)], ![some 1], ![some 1]]

/-- C56 is false of the code for missing responses coded -1: they count as a category. Here all observed responses are
equal, but the entropy exceeds one half. -/
theorem C56_coded_false : ∃ h : ℝ, jointEntropyMatrix 2 exCoded = .ok [[h]] ∧ 1 / 2 < h := by
  have hfr : List.finRange 4 = [0, 1, 2, 3] := rfl
  have hf1 : List.finRange 1 = [0] := rfl
  have e0 : exCoded 0 0 = some (-1) := rfl
  have e1 : exCoded 1 0 = some (-1) := rfl
  have e2 : exCoded 2 0 = some 1 := rfl
  have e3 : exCoded 3 0 = some 1 := rfl
  have hall : (List.finRange 4).flatMap (fun r => (List.finRange 1).map (exCoded r)) = [some (-1), some (-1), some 1, some 1] := by
    simp [hfr, hf1, e0, e1, e2, e3]
  have hm : maxCombos [some (-1), some (-1), some 1, some 1] = 4 := by decide
  have hrows : pairCells (fun r => exCoded r 0) (fun r => exCoded r 0) = [(-1, -1), (-1, -1), (1, 1), (1, 1)] := by
    simp [pairCells, hfr, e0, e1, e2, e3]
  have hcard : ([(-1, -1), (-1, -1), (1, 1), (1, 1)] : List (ℤ × ℤ)).toFinset.card ≤ 4 := by decide
  obtain ⟨q, h1, h2, -⟩ := pair_entropy 2 (by norm_num) 4 [(-1, -1), (-1, -1), (1, 1), (1, 1)] (by simp) hcard
  refine ⟨pairEntropy 2 [(-1, -1), (-1, -1), (1, 1), (1, 1)], ?_, ?_⟩
  · unfold jointEntropyMatrix
    rw [hall]
    dsimp only
    rw [if_neg (by simp)]
    simp only [hf1, List.mapM_cons, List.mapM_nil, le_refl, if_true, hrows, hm, h1, bind, Except.bind, pure, Except.pure, h2]
  · have hu : uniqueCounts [(-1, -1), (-1, -1), (1, 1), (1, 1)] = [2, 2] := by decide
    unfold pairEntropy
    rw [hu]
    have hl : 0 < Real.log 2 := Real.log_pos (by norm_num)
    have h3 : Real.log (1 / 2 + 1e-10) < -(Real.log 2 / 2) := by
      have h4 : Real.log ((1 / 2 + 1e-10) ^ 2) < Real.log (1 / 2) := Real.log_lt_log (by norm_num) (by norm_num)
      rw [Real.log_pow, one_div, Real.log_inv] at h4
      norm_num at h4 ⊢
      linarith
    have h5 : (1 : ℝ) / 2 < -Real.log (1 / 2 + 1e-10) / Real.log 2 := by
      rw [lt_div_iff₀ hl]; linarith
    norm_num at h5 ⊢
    linarith

/-- Data meeting the hypotheses of `C56_joint`: two respondents, two items. -/
example : ∃ M : Fin 2 → Fin 2 → ℝ, jointEntropyMatrix 2 (fun (r : Fin 2) (j : Fin 2) => some ((r : ℤ) * j))
    = .ok ((List.finRange 2).map fun i => (List.finRange 2).map fun j => M i j) := by
  obtain ⟨M, h, -⟩ := C56_joint (n := 2) (p := 2) 2 (by norm_num) (by norm_num) (fun r j => some ((r : ℤ) * j))
    (by intro r j v h; simp at h; rw [← h]; positivity) (by intro i j; simp [pairCells])
  exact ⟨M, h⟩

end Irt
