import Verif.Lemmas.Composite
import Verif.Props.Scores

/-! # Property C07: nested logit -/

namespace Irt

/-- Position of the `t`-th incorrect category of an item whose correct category is `key`: categories are
numbered from zero and the key is skipped. -/
def incorrectCategory (key t : ℕ) : ℕ := if t < key then t else t + 1

/-- C07 for one item with `c` of `M` categories: the key gets the probability of a correct answer, the
`t`-th incorrect category gets its share `q t` of the rest, and the whole is a distribution on the `c`
categories of the item. -/
theorem C07_nested_item (M c key : ℕ) (hkey : key < c) (hc : c ≤ M) (p : ℝ) (h0 : 0 ≤ p) (h1 : p ≤ 1)
    (q : List ℝ) (hq : IsDistribution (c - 1) (M - 1) q) :
    IsDistribution c M (nestedRow M key p (1 - p) q) ∧
    (nestedRow M key p (1 - p) q)[key]? = some p ∧
    ∀ t, t < M - 1 → (nestedRow M key p (1 - p) q)[incorrectCategory key t]? = q[t]?.map (· * (1 - p)) := by
  have he := nestedRow_entry M key p (1 - p) q (by omega) hq.length
  have hnn : ∀ t, 0 ≤ q.getD t 0 := by
    intro t
    by_cases ht : t < q.length
    · rw [List.getD_eq_getElem?_getD, List.getElem?_eq_getElem ht]; exact hq.nonneg _ (List.getElem_mem ht)
    · rw [List.getD_eq_getElem?_getD, List.getElem?_eq_none (by omega)]; exact le_refl _
  have hle : ∀ t, q.getD t 0 ≤ 1 := by
    intro t
    by_cases ht : t < q.length
    · rw [List.getD_eq_getElem?_getD, List.getElem?_eq_getElem ht]; exact hq.le_one _ (List.getElem_mem ht)
    · rw [List.getD_eq_getElem?_getD, List.getElem?_eq_none (by omega)]; exact zero_le_one
  refine ⟨⟨?_, ?_, ?_, ?_, ?_⟩, ?_, ?_⟩
  · rw [he]; simp
  · intro x hx
    rw [he] at hx
    obtain ⟨k, _, rfl⟩ := List.mem_map.1 hx
    split
    · exact h0
    · exact mul_nonneg (hnn _) (by linarith)
  · intro x hx
    rw [he] at hx
    obtain ⟨k, _, rfl⟩ := List.mem_map.1 hx
    split
    · exact h1
    · exact mul_le_one₀ (hle _) (by linarith) (by linarith)
  · rw [nestedRow_sum M key p (1 - p) q (by omega) hq.length, hq.sum_one]; ring
  · intro k hck hkM
    rw [he, List.getElem?_map, List.getElem?_range hkM, Option.map_some, if_neg (by omega), if_neg (by omega),
      List.getD_eq_getElem?_getD, hq.missing (k - 1) (by omega) (by omega)]
    simp
  · rw [he, List.getElem?_map, List.getElem?_range (by omega)]; simp
  · intro t ht
    obtain ⟨x, hx⟩ := getElem?_of_lt q t (by rw [hq.length]; exact ht)
    rw [he, hx, List.getElem?_map]
    unfold incorrectCategory
    by_cases htk : t < key
    · rw [if_pos htk, List.getElem?_range (by omega)]
      simp only [Option.map_some, Option.some_inj]
      rw [if_neg (by omega), if_pos htk, List.getD_eq_getElem?_getD, hx]; rfl
    · rw [if_neg htk, List.getElem?_range (by omega)]
      simp only [Option.map_some, Option.some_inj]
      rw [if_neg (by omega), if_neg (by omega), List.getD_eq_getElem?_getD, Nat.add_sub_cancel, hx]; rfl

example : IsDistribution (3 - 1) (4 - 1) [1/4, 3/4, 0] ∧ (1:ℕ) < 3 ∧ (3:ℕ) ≤ 4 := by
  refine ⟨⟨rfl, ?_, ?_, ?_, ?_⟩, by norm_num, by norm_num⟩
  · intro x hx
    simp only [List.mem_cons, List.not_mem_nil, or_false] at hx
    rcases hx with rfl | rfl | rfl <;> norm_num
  · intro x hx
    simp only [List.mem_cons, List.not_mem_nil, or_false] at hx
    rcases hx with rfl | rfl | rfl <;> norm_num
  · norm_num
  · intro k h2 h3
    obtain rfl : k = 2 := by omega
    rfl

/-- C07 for a whole test: `correct` is the table of a binary model, `incorrect` the table of the
incorrect-response model, which has one category less per item. -/
theorem C07_nested_table (cats keys : List ℕ) (M : ℕ) (correct incorrect : List (List ℝ))
    (hM : ∀ c ∈ cats, c ≤ M)
    (hlen : keys.length = cats.length)
    (hkeys : ∀ j k c : ℕ, keys[j]? = some k → cats[j]? = some c → k < c)
    (hcor : IsTable (List.replicate cats.length 2) 2 correct)
    (hinc : IsTable (cats.map fun c => c - 1) (M - 1) incorrect) :
    IsTable cats M (nestedProbs M keys correct incorrect) ∧
    ∀ (j key : ℕ) (pc q row : List ℝ) (p : ℝ), keys[j]? = some key → correct[j]? = some pc →
      incorrect[j]? = some q → (nestedProbs M keys correct incorrect)[j]? = some row → pc[1]? = some p →
      row[key]? = some p ∧
      ∀ t, t < M - 1 → row[incorrectCategory key t]? = q[t]?.map (· * (1 - p)) := by
  have hl1 : correct.length = cats.length := by rw [hcor.1]; simp
  have hl2 : incorrect.length = cats.length := by rw [hinc.1]; simp
  have main : ∀ (j c key : ℕ) (pc q : List ℝ), cats[j]? = some c → keys[j]? = some key →
      correct[j]? = some pc → incorrect[j]? = some q →
      ∃ p, pc[1]? = some p ∧
      (nestedProbs M keys correct incorrect)[j]? = some (nestedRow M key p (1 - p) q) ∧
      0 ≤ p ∧ p ≤ 1 ∧ key < c ∧ c ≤ M ∧ IsDistribution (c - 1) (M - 1) q := by
    intro j c key pc q hc hk hp hq
    have hj := lt_of_getElem?_some hc
    have hd := hcor.2 j pc 2 hp (by simp [hj])
    obtain ⟨a, b, rfl⟩ : ∃ a b, pc = [a, b] := by
      have := hd.length
      match pc, this with
      | [a, b], _ => exact ⟨a, b, rfl⟩
    have hs := hd.sum_one
    simp at hs
    refine ⟨b, rfl, ?_, hd.nonneg b (by simp), hd.le_one b (by simp), hkeys j key c hk hc,
      hM c (List.mem_of_getElem? hc), hinc.2 j q (c - 1) hq (by simp [hc])⟩
    simp only [nestedProbs]
    have hz : (List.zip keys correct)[j]? = some (key, [a, b]) := by
      rw [List.getElem?_zip_eq_some]; exact ⟨hk, hp⟩
    rw [List.getElem?_zipWith, hz, hq]
    have : a = 1 - b := by linarith
    subst this
    rfl
  constructor
  · refine ⟨?_, ?_⟩
    · simp [nestedProbs, hl1, hl2, hlen]
    · intro j row c hrow hc
      have hj := lt_of_getElem?_some hc
      obtain ⟨key, hk⟩ := getElem?_of_lt keys j (by omega)
      obtain ⟨pc, hp⟩ := getElem?_of_lt correct j (by omega)
      obtain ⟨q, hq⟩ := getElem?_of_lt incorrect j (by omega)
      obtain ⟨p, _, hr, h0, h1, hkc, hcM, hd⟩ := main j c key pc q hc hk hp hq
      rw [hrow] at hr
      rw [Option.some.inj hr]
      exact (C07_nested_item M c key hkc hcM p h0 h1 q hd).1
  · intro j key pc q row p hk hp hq hrow hp1
    have hj := lt_of_getElem?_some hk
    obtain ⟨c, hc⟩ := getElem?_of_lt cats j (by omega)
    obtain ⟨p', hp', hr, h0, h1, hkc, hcM, hd⟩ := main j c key pc q hc hk hp hq
    rw [hp1] at hp'
    obtain rfl := Option.some.inj hp'
    rw [hrow] at hr
    rw [Option.some.inj hr]
    exact (C07_nested_item M c key hkc hcM p h0 h1 q hd).2

theorem isTable_twoPL (m : TwoPL) (hwf : m.WF) (θ : List ℝ) : IsTable (List.replicate m.items 2) 2 (m.probs θ) := by
  obtain ⟨h1, h2⟩ := C01_twoPL_distribution m hwf θ
  refine ⟨by simp [h1], ?_⟩
  intro j p c hp hc
  have hj : j < m.items := by have := lt_of_getElem?_some hp; omega
  obtain ⟨p', hp', hd, _⟩ := h2 j hj
  rw [hp] at hp'
  rw [Option.some.inj hp']
  have : c = 2 := by have := List.mem_of_getElem? hc; exact List.eq_of_mem_replicate this
  rw [this]; exact hd

theorem isTable_nrm (m : NRM) (hwf : m.WF) (θ : List ℝ) : IsTable m.cats m.M (m.probs θ) := by
  obtain ⟨h1, h2⟩ := C01_nrm_distribution m hwf θ
  refine ⟨h1, ?_⟩
  intro j p c hp hc
  obtain ⟨p', hp', hd, _⟩ := h2 j c hc
  rw [hp] at hp'
  rw [Option.some.inj hp']; exact hd

theorem isTable_gpc (m : GPC) (hwf : m.WF) (θ : List ℝ) : IsTable m.cats m.M (m.probs θ) := by
  obtain ⟨h1, h2⟩ := C01_gpc_distribution m hwf θ
  refine ⟨h1, ?_⟩
  intro j p c hp hc
  obtain ⟨p', hp', hd, _⟩ := h2 j c hc
  rw [hp] at hp'
  rw [Option.some.inj hp']; exact hd

theorem maxCats_pred (cats : List ℕ) : maxCats (cats.map fun c => c - 1) = maxCats cats - 1 := by
  induction cats with
  | nil => rfl
  | cons c t ih =>
    simp only [maxCats, List.map_cons, List.foldr_cons] at *
    rw [ih]; omega

/-- C07: the constructor accepts a key list exactly when every item has a key among its own categories,
and keeps those keys. -/
theorem C07_key_check (cats : List ℕ) (keysIn : List ℤ) (keys : List ℕ) :
    nestedCheckKeys cats keysIn = .ok keys ↔
      keys.length = cats.length ∧
      ∀ j c : ℕ, cats[j]? = some c →
        ∃ k : ℕ, k < c ∧ keysIn[j]? = some (k : ℤ) ∧ keys[j]? = some k := by
  unfold nestedCheckKeys
  rw [mapM_ok_iff, List.length_range]
  refine and_congr Iff.rfl ?_
  constructor
  · intro h j c hc
    have hj := lt_of_getElem?_some hc
    obtain ⟨y, hy, hf⟩ := h j j (List.getElem?_range hj)
    rw [hc] at hf
    cases hk : keysIn[j]? with
    | none => rw [hk] at hf; cases hf
    | some k =>
      rw [hk] at hf
      by_cases hb : 0 > k ∨ k ≥ (c : ℤ)
      · simp only [hb, if_true] at hf; cases hf
      · simp only [hb, if_false, Except.ok.injEq] at hf
        push Not at hb
        refine ⟨y, by omega, ?_, hy⟩
        rw [← hf, Int.toNat_of_nonneg hb.1]
  · intro h j x hx
    have hj := lt_of_getElem?_some hx
    rw [List.length_range] at hj
    rw [List.getElem?_range hj] at hx
    obtain rfl := Option.some.inj hx
    obtain ⟨c, hc⟩ := getElem?_of_lt cats j hj
    obtain ⟨k, hkc, hk, hk'⟩ := h j c hc
    refine ⟨k, hk', ?_⟩
    rw [hk, hc]
    simp [hkc]

/-- C07: a key outside its item's categories (or a missing one) is an error. -/
theorem C07_bad_key_refused (cats : List ℕ) (keysIn : List ℤ) (j c : ℕ) (hc : cats[j]? = some c)
    (h : ∀ k : ℕ, k < c → keysIn[j]? ≠ some (k : ℤ)) : ∃ e, nestedCheckKeys cats keysIn = .error e := by
  cases hr : nestedCheckKeys cats keysIn with
  | error e => exact ⟨e, rfl⟩
  | ok keys =>
    obtain ⟨k, hk, hk', _⟩ := ((C07_key_check cats keysIn keys).1 hr).2 j c hc
    exact absurd hk' (h k hk)

example : ∃ keys, nestedCheckKeys [3, 4] [2, 0] = .ok keys := ⟨[2, 0], by
  rw [C07_key_check]
  refine ⟨rfl, ?_⟩
  intro j c hc
  match j, hc with
  | 0, hc => simp at hc; subst hc; exact ⟨2, by norm_num, rfl, rfl⟩
  | 1, hc => simp at hc; subst hc; exact ⟨0, by norm_num, rfl, rfl⟩⟩

/-- C07 for the B-spline incorrect-response model: for every basis, coefficient and category count the
shares are a distribution on the incorrect categories. -/
theorem C07_bspline_incorrect (M c : ℕ) (hc : 2 ≤ c) (hM : c ≤ M) (logits : ℕ → ℝ) :
    IsDistribution (c - 1) (M - 1) (nestedBsplineRow M c logits) := by
  unfold nestedBsplineRow
  rw [softmax_row _ _ (by omega)]
  exact (multinomialLogit_isDistribution _ _ (by omega) (by omega) _).1

/-- C07 for the model a user builds by default: a 2PL for correct answers and a nominal model for
incorrect ones, keys accepted by the constructor. -/
theorem C07_nested_twoPL_nominal (cats : List ℕ) (keysIn : List ℤ) (keys : List ℕ) (a : TwoPL) (b : NRM)
    (ha : a.WF) (hb : b.WF) (hai : a.items = cats.length) (hbc : b.cats = cats.map fun c => c - 1)
    (hkeys : nestedCheckKeys cats keysIn = .ok keys) (θ : List ℝ) :
    IsTable cats (maxCats cats) (nestedProbs (maxCats cats) keys (a.probs θ) (b.probs θ)) := by
  have hk : keys.length = cats.length ∧ ∀ j k c : ℕ, keys[j]? = some k → cats[j]? = some c → k < c := by
    obtain ⟨h1, h2⟩ := (C07_key_check cats keysIn keys).1 hkeys
    refine ⟨h1, ?_⟩
    intro j k c hk hc
    obtain ⟨k', hk', _, hk''⟩ := h2 j c hc
    rw [hk] at hk''
    rw [Option.some.inj hk'']; exact hk'
  refine (C07_nested_table cats keys (maxCats cats) _ _ (fun c => le_maxCats cats c) hk.1 hk.2 ?_ ?_).1
  · rw [← hai]; exact isTable_twoPL a ha θ
  · have := isTable_nrm b hb θ
    rw [NRM.M, hbc, maxCats_pred] at this
    exact this

/-- Two items with four and three options, keys 2 and 0, a 2PL and a nominal model. -/
example : ∃ (keys : List ℕ) (a : TwoPL) (b : NRM), a.WF ∧ b.WF ∧ a.items = [4, 3].length ∧
    b.cats = [4, 3].map (fun c => c - 1) ∧ nestedCheckKeys [4, 3] [2, 0] = .ok keys :=
  ⟨[2, 0], exTwoPL, exNRM, exTwoPL_wf, exNRM_wf, rfl, rfl, by
    rw [C07_key_check]
    refine ⟨rfl, ?_⟩
    intro j c hc
    match j, hc with
    | 0, hc => simp at hc; subst hc; exact ⟨2, by norm_num, rfl, rfl⟩
    | 1, hc => simp at hc; subst hc; exact ⟨0, by norm_num, rfl, rfl⟩⟩

end Irt
