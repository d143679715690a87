import Verif.Lemmas.MonoModels
import Verif.Props.Scores

/-!
# C01, C13, C16, C71 for the monotone models

`theta`, `theta'` are latent trait vectors of one respondent, `theta d` being latent variable `d`.
`ScoresHigher p p'` (Spec/Ordered) says that `p'` puts at least as much probability on every score `≥ x` and
has at least the same expected score. For the network, `m0` is what the constructor returned and `m` the same
model after any training.
-/

namespace Irt

open Finset

/-- C13: the expected item scores the models report without an answer key are the `meanScore`s of the item
distributions. -/
theorem C13_mean_score (t : List (List ℝ)) (M : ℕ) (h : ∀ p ∈ t, p.length = M) :
    expectedItemScores t M none = .ok (t.map meanScore) := by
  unfold expectedItemScores itemScores
  show Except.ok _ = Except.ok _
  congr 1
  refine List.ext_getElem? fun i => ?_
  rw [List.getElem?_zipWith, List.getElem?_map, List.getElem?_replicate]
  by_cases hi : i < t.length
  · rw [if_pos hi, List.getElem?_eq_getElem hi]
    simp only [Option.map_some, Option.some.injEq]
    have hl := h t[i] (List.getElem_mem hi)
    conv_lhs => rw [eq_range_map t[i], hl]
    rw [dot_range, meanScore, hl]
    exact sum_congr rfl fun k _ => mul_comm _ _
  · rw [List.getElem?_eq_none (by omega)]; rfl

example : ∀ p ∈ ([[1/2, 1/2], [1, 0]] : List (List ℝ)), p.length = 2 := by simp

/-! ## Monotone polynomial -/

theorem MonoPolyModel.probs_slots (m : MonoPolyModel) (theta : ℕ → ℝ) :
    m.probs theta = probabilitiesFromOutput m.cats.length m.M
      (addBiasAndMask m.M m.cats m.bias (cumCategories m.cats.length m.M (m.slots theta))) := rfl

/-- C01 (monotone polynomial): every item has a probability distribution over exactly its own categories. -/
theorem C01_monotone_polynomial (m : MonoPolyModel) (hwf : m.WF) (theta : ℕ → ℝ) :
    (m.probs theta).length = m.cats.length ∧ ∀ j c : ℕ, m.cats[j]? = some c →
      ∃ p, (m.probs theta)[j]? = some p ∧ IsDistribution c m.M p ∧ AllPositive c p := by
  refine ⟨by simp [MonoPolyModel.probs, probabilitiesFromOutput, length_viewRows], fun j c hc => ?_⟩
  rw [m.probs_slots, finish_probs m.M m.cats m.bias _ (fun c hc => le_maxCats _ _ hc)
    (length_cumCategories _ _ _ (m.length_slots theta)) j c hc]
  exact ⟨_, rfl, multinomialLogit_isDistribution c m.M (hwf.catsPos c (List.mem_of_getElem? hc))
    (le_maxCats _ _ (List.mem_of_getElem? hc)) _⟩

/-- C71 (monotone polynomial): moving every latent variable in the direction reported for item `j` (and any
latent variable with reported direction 0 arbitrarily) never lowers the scores of the item. -/
theorem C71_polynomial_direction (m : MonoPolyModel) (hwf : m.WF) (theta theta' : ℕ → ℝ) (j : ℕ) (p p' : List ℝ)
    (hp : (m.probs theta)[j]? = some p) (hp' : (m.probs theta')[j]? = some p')
    (hdir : ∀ i, i < m.lv → 0 ≤ (m.reportedDirection j i : ℝ) * (theta' i - theta i)) : ScoresHigher p p' := by
  have hj : j < m.cats.length := by
    have := lt_of_getElem?_some hp
    simpa [MonoPolyModel.probs, probabilitiesFromOutput, length_viewRows] using this
  refine ordered_of_slots m.M m.cats m.bias (m.slots theta) (m.slots theta') (fun c hc => le_maxCats _ _ hc)
    hwf.catsPos (m.length_slots _) (m.length_slots _) j p p' hp hp' fun k hk => ?_
  rw [m.slots_getD _ j k hj hk, m.slots_getD _ j k hj hk, MonoPoly.forward_eq, MonoPoly.forward_eq]
  refine add_le_add (sum_le_sum fun i hi => ?_) le_rfl
  have hi' : i < m.lv := mem_range.1 hi
  have hg := m.gain_eq i j k hk
  have hd := hdir i hi'
  cases hdm : m.directions with
  | none =>
    have h0 : 0 ≤ m.gain i j := by
      unfold MonoPolyModel.gain; rw [hdm]; split_ifs <;> norm_num
    refine m.poly.term_monotone i _ (by rw [hg]; exact h0) ?_
    simp only [MonoPolyModel.reportedDirection, hdm, Int.cast_one, one_mul] at hd
    linarith
  | some d =>
    rw [m.reported_eq i j d hdm] at hd
    rcases lt_trichotomy (m.gain i j) 0 with hneg | hz | hpos
    · rw [sign_neg hneg] at hd
      simp only [SignType.coe_neg_one, Int.cast_neg, Int.cast_one, neg_mul, one_mul] at hd
      exact (m.poly.term_strictAnti i _ (by rw [hg]; exact hneg)).antitone (by linarith)
    · rw [m.poly.term_zero_gain i _ (by rw [hg]; exact hz), m.poly.term_zero_gain i _ (by rw [hg]; exact hz)]
    · rw [sign_pos hpos] at hd
      simp only [SignType.coe_one, Int.cast_one, one_mul] at hd
      exact m.poly.term_monotone i _ (by rw [hg]; exact hpos.le) (by linarith)

/-- C13 (monotone polynomial without negative relationships): raising latent variables never lowers
`P(X ≥ x)` nor the expected score of an item. -/
theorem C13_polynomial (m : MonoPolyModel) (hwf : m.WF) (hpos : m.directions = none) (theta theta' : ℕ → ℝ)
    (hle : ∀ i, i < m.lv → theta i ≤ theta' i) (j : ℕ) (p p' : List ℝ) (hp : (m.probs theta)[j]? = some p)
    (hp' : (m.probs theta')[j]? = some p') : ScoresHigher p p' := by
  refine C71_polynomial_direction m hwf theta theta' j p p' hp hp' fun i hi => ?_
  have := hle i hi
  simp only [MonoPolyModel.reportedDirection, hpos, Int.cast_one, one_mul]
  linarith

/-- C16 (monotone polynomial): an item that is not related to latent variable `i` ignores it. -/
theorem C16_polynomial_unrelated (m : MonoPolyModel) (theta : ℕ → ℝ) (t : ℝ) (j i : ℕ) (r : List Bool)
    (hi : i < m.lv) (hr : m.rel[j]? = some r) (hri : r[i]? = some false) :
    (m.probs (Function.update theta i t))[j]? = (m.probs theta)[j]? := by
  by_cases hj : j < m.cats.length
  · rw [m.probs_slots, m.probs_slots]
    refine same_of_slots_cum m.M m.cats m.bias _ _ (fun c hc => le_maxCats _ _ hc) (m.length_slots _)
      (m.length_slots _) j hj fun k hk => ?_
    have hg : m.poly.gain i (m.sep.unit m.M j k) = 0 := by
      rw [m.gain_eq i j k hk, MonoPolyModel.gain, List.getD_eq_getElem?_getD, List.getD_eq_getElem?_getD, hr,
        Option.getD_some, hri]
      simp
    rw [m.slots_getD _ j k hj hk, m.slots_getD _ j k hj hk, m.poly.forward_update theta _ i hi t,
      m.poly.term_zero_gain i _ hg, m.poly.term_zero_gain i _ hg]
    ring
  · rw [List.getElem?_eq_none (by simp [MonoPolyModel.probs, probabilitiesFromOutput, length_viewRows]; omega),
      List.getElem?_eq_none (by simp [MonoPolyModel.probs, probabilitiesFromOutput, length_viewRows]; omega)]

/-- C71 (monotone polynomial): with negative relationships allowed, direction 0 is reported for unrelated
pairs. -/
theorem C71_polynomial_unrelated (m : MonoPolyModel) (d : ℕ → ℕ → ℝ) (hd : m.directions = some d) (j i : ℕ)
    (r : List Bool) (hr : m.rel[j]? = some r) (hri : r[i]? = some false) : m.reportedDirection j i = 0 := by
  rw [m.reported_eq i j d hd, MonoPolyModel.gain, List.getD_eq_getElem?_getD, List.getD_eq_getElem?_getD, hr,
    Option.getD_some, hri]
  simp

/-- Item 0 has 3 categories and relates to latent variable 0 only, item 1 has 2 categories. -/
noncomputable def exMonoPoly (neg : Bool) : MonoPolyModel where
  k := 1
  lv := 2
  cats := [3, 2]
  sep := .categories
  rel := [[true, false], [true, true]]
  omega := fun i o => i + o
  alpha := fun _ _ o => o
  tau := fun _ i _ => -i
  directions := if neg then some fun i j => if i = j then 1 else -1 else none
  bias := [0, 1, 2, 0, 1]

theorem exMonoPoly_wf (neg : Bool) : (exMonoPoly neg).WF where
  catsPos := by simp [exMonoPoly]
  relLen := by simp [exMonoPoly]
  relRow := by simp [exMonoPoly]
  biasLen := by simp [exMonoPoly]

/-- What the constructor returns satisfies the shape conditions. -/
theorem MonoPolyModel.init_wf {lv : ℕ} {cats : List ℕ} {degree : ℕ} {rel : Option (List (List Bool))}
    {sep : Separate} {negative : Bool} {dirs : ℕ → ℕ → ℝ} {m : MonoPolyModel} (hc : ∀ c ∈ cats, 0 < c)
    (h : MonoPolyModel.init lv cats degree rel sep negative dirs = .ok m) :
    m.WF ∧ m.lv = lv ∧ m.cats = cats ∧ (negative = false → m.directions = none) ∧
      (negative = true → m.directions = some dirs) := by
  unfold MonoPolyModel.init at h
  obtain ⟨r, hr, h⟩ := bind_eq_ok h
  obtain ⟨k, -, h⟩ := bind_eq_ok h
  cases h
  obtain ⟨h1, h2⟩ := checkRelationships_length hr
  exact ⟨⟨hc, h1, h2, by simp⟩, rfl, rfl, fun hn => by simp [hn], fun hn => by simp [hn]⟩

example : ∃ m, MonoPolyModel.init 2 [3, 2] 3 (some [[true, false], [true, true]]) .categories true (fun _ _ => 1) =
    .ok m := by
  refine ⟨_, rfl⟩

example : ∀ i, i < (exMonoPoly false).lv → (fun _ => 0 : ℕ → ℝ) i ≤ (fun _ => 1 : ℕ → ℝ) i := by simp

/-- Hypotheses of `C71_polynomial_direction`: item 1 has directions -1 and 1. -/
example : ∀ i, i < (exMonoPoly true).lv → 0 ≤ ((exMonoPoly true).reportedDirection 1 i : ℝ) *
    ((fun i => if i = 0 then 0 else 1 : ℕ → ℝ) i - (fun i => if i = 0 then 1 else 0 : ℕ → ℝ) i) := by
  intro i hi
  have : i = 0 ∨ i = 1 := by simp [exMonoPoly] at hi; omega
  rcases this with rfl | rfl
  · simp [MonoPolyModel.reportedDirection, exMonoPoly]
  · simp [MonoPolyModel.reportedDirection, exMonoPoly]

/-- C71 fails when negative relationships are not allowed: direction 1 is reported for every pair, also for
an item that does not depend on the latent variable. -/
theorem C71_false : ∃ m : MonoPolyModel, m.WF ∧ ∃ j i : ℕ, j < m.cats.length ∧ i < m.lv ∧
    m.reportedDirection j i = 1 ∧
    ∀ (theta : ℕ → ℝ) (t : ℝ), (m.probs (Function.update theta i t))[j]? = (m.probs theta)[j]? := by
  refine ⟨exMonoPoly false, exMonoPoly_wf false, 0, 1, by simp [exMonoPoly], by simp [exMonoPoly], rfl,
    fun theta t => ?_⟩
  exact C16_polynomial_unrelated (exMonoPoly false) theta t 0 1 [true, false] (by simp [exMonoPoly]) rfl rfl

/-! ## Monotone neural network -/

section
variable {lv : ℕ} {cats : List ℕ} {hidden : Option (List ℕ)} {mc : Option (List ℕ)}
  {rel : Option (List (List Bool))} {sep : Separate} {negative bounded : Bool} {m0 m : MonoNN}

theorem MonoNN.probs_none (m : MonoNN) (ov : ℝ) (theta : ℕ → ℝ) (h : m.mc = none) :
    m.probs ov theta = probabilitiesFromOutput m.cats.length m.M
      (addBiasAndMask m.M m.cats m.bias (cumCategories m.cats.length m.M (m.slots ov theta))) := by
  unfold MonoNN.probs MonoNN.forwardRow
  rw [h]; rfl

theorem MonoNN.probs_some (m : MonoNN) (ov : ℝ) (theta : ℕ → ℝ) (keys : List ℕ) (h : m.mc = some keys) :
    m.probs ov theta = probabilitiesFromOutput m.cats.length m.M (addBiasAndMask m.M m.cats m.bias
      (assignMask (mcMask m.cats.length m.M keys)
        ((viewRows m.cats.length m.M (m.slots ov theta)).map List.sum) (m.slots ov theta))) := by
  unfold MonoNN.probs MonoNN.forwardRow
  rw [h]; rfl

/-- The key of every item is one of the category slots. -/
def KeysFit (cats : List ℕ) (mc : Option (List ℕ)) : Prop :=
  ∀ keys, mc = some keys → keys.length = cats.length ∧ ∀ k ∈ keys, k < maxCats cats

/-- C01 (monotone network): every item has a probability distribution over exactly its own categories. -/
theorem C01_monotone_nn (h : MonoNN.init lv cats hidden mc rel sep negative bounded = .ok m0)
    (ht : m0.Trained m) (hcats : ∀ c ∈ cats, 0 < c) (hkeys : KeysFit cats mc) (ov : ℝ) (hov : 0 ≤ ov)
    (theta : ℕ → ℝ) :
    (m.probs ov theta).length = cats.length ∧ ∀ j c : ℕ, cats[j]? = some c →
      ∃ p, (m.probs ov theta)[j]? = some p ∧ IsDistribution c (maxCats cats) p ∧ AllPositive c p := by
  obtain ⟨hlv, hc, hmc, r, -, hf⟩ := MonoNN.facts h ht
  have hM : m.M = maxCats cats := by rw [MonoNN.M, hc]
  refine ⟨by simp [MonoNN.probs, probabilitiesFromOutput, length_viewRows, hc], fun j c hj => ?_⟩
  have hsl := (m.slots_spec negative r hf ov hov).1 theta
  have hfin : ∃ out : List ℝ, out.length = m.cats.length * m.M ∧
      m.probs ov theta = probabilitiesFromOutput m.cats.length m.M (addBiasAndMask m.M m.cats m.bias out) := by
    cases hmc' : m.mc with
    | none => exact ⟨_, length_cumCategories _ _ _ hsl, m.probs_none ov theta hmc'⟩
    | some keys =>
      obtain ⟨h1, h2⟩ := hkeys keys (by rw [← hmc, hmc'])
      exact ⟨_, (mc_getD _ _ keys (by rw [hc, h1]) (by rw [hM]; exact h2) _ hsl).1, m.probs_some ov theta keys hmc'⟩
  obtain ⟨out, hl, he⟩ := hfin
  rw [he, finish_probs m.M m.cats m.bias out (fun c hc => le_maxCats _ _ hc) hl j c (by rw [hc]; exact hj), hM]
  exact ⟨_, rfl, multinomialLogit_isDistribution c _ (hcats c (List.mem_of_getElem? hj))
    (le_maxCats _ _ (List.mem_of_getElem? hj)) _⟩

/-- Slots never decrease when latent variables move in the reported directions. -/
theorem MonoNN.slots_le (m : MonoNN) (r : List (List Bool)) (hf : m.Facts negative r) (ov : ℝ) (hov : 0 ≤ ov)
    (theta theta' : ℕ → ℝ) (j k : ℕ) (hj : j < m.cats.length) (hk : k < m.M)
    (hdir : ∀ d, d < m.lv → 0 ≤ (m.reportedDirection j d : ℝ) * (theta' d - theta d)) :
    (m.slots ov theta).getD (j * m.M + k) 0 ≤ (m.slots ov theta').getD (j * m.M + k) 0 := by
  obtain ⟨f, hmono, -, hs⟩ := (m.slots_spec negative r hf ov hov).2 j k hj hk
  rw [hs, hs]
  refine sum_le_sum fun d hd => ?_
  have hd' := mem_range.1 hd
  have hdd := hdir d hd'
  cases hn : m.negs with
  | none =>
    have hg : m.gain d j = 1 := by unfold MonoNN.gain; rw [hn]
    have hr : m.reportedDirection j d = 1 := by unfold MonoNN.reportedDirection; rw [hn]
    rw [hr] at hdd
    simp only [Int.cast_one, one_mul] at hdd
    rw [hg, mul_one, mul_one]
    exact hmono d hd' (by linarith)
  | some ns =>
    rw [m.reported_eq d j ns hn] at hdd
    rcases lt_trichotomy (m.gain d j) 0 with hneg | hz | hpos
    · rw [sign_neg hneg] at hdd
      simp only [SignType.coe_neg_one, Int.cast_neg, Int.cast_one, neg_mul, one_mul] at hdd
      exact mul_le_mul_of_nonpos_right (hmono d hd' (by linarith)) hneg.le
    · rw [hz, mul_zero, mul_zero]
    · rw [sign_pos hpos] at hdd
      simp only [SignType.coe_one, Int.cast_one, one_mul] at hdd
      exact mul_le_mul_of_nonneg_right (hmono d hd' (by linarith)) hpos.le

/-- C71 (monotone network, ordered items): moving every latent variable in the direction reported for item
`j` never lowers the scores of the item. -/
theorem C71_nn_direction (h : MonoNN.init lv cats hidden none rel sep negative bounded = .ok m0)
    (ht : m0.Trained m) (hcats : ∀ c ∈ cats, 0 < c) (ov : ℝ) (hov : 0 ≤ ov) (theta theta' : ℕ → ℝ) (j : ℕ)
    (p p' : List ℝ) (hp : (m.probs ov theta)[j]? = some p) (hp' : (m.probs ov theta')[j]? = some p')
    (hdir : ∀ d, d < lv → 0 ≤ (m.reportedDirection j d : ℝ) * (theta' d - theta d)) : ScoresHigher p p' := by
  obtain ⟨hlv, hc, hmc, r, -, hf⟩ := MonoNN.facts h ht
  have hj : j < m.cats.length := by
    have := lt_of_getElem?_some hp
    simpa [MonoNN.probs, probabilitiesFromOutput, length_viewRows] using this
  have hsl := (m.slots_spec negative r hf ov hov).1
  rw [m.probs_none ov _ hmc] at hp hp'
  exact ordered_of_slots m.M m.cats m.bias _ _ (fun c hc => le_maxCats _ _ hc) (by rw [hc]; exact hcats)
    (hsl _) (hsl _) j p p' hp hp' fun k hk => m.slots_le r hf ov hov theta theta' j k hj hk (by rw [hlv]; exact hdir)

/-- C71 (monotone network, multiple choice): moving every latent variable in the direction reported for item
`j` never lowers the probability of the correct category. -/
theorem C71_nn_direction_key {keys : List ℕ}
    (h : MonoNN.init lv cats hidden (some keys) rel sep negative bounded = .ok m0)
    (ht : m0.Trained m) (hlen : keys.length = cats.length)
    (hin : ∀ k ∈ keys, k < maxCats cats) (ov : ℝ) (hov : 0 ≤ ov) (theta theta' : ℕ → ℝ)
    (j key c : ℕ) (hkey : keys[j]? = some key) (hc : cats[j]? = some c) (hkc : key < c)
    (p p' : List ℝ) (hp : (m.probs ov theta)[j]? = some p) (hp' : (m.probs ov theta')[j]? = some p')
    (hdir : ∀ d, d < lv → 0 ≤ (m.reportedDirection j d : ℝ) * (theta' d - theta d)) :
    p.getD key 0 ≤ p'.getD key 0 := by
  obtain ⟨hlv, hcc, hmc, r, -, hf⟩ := MonoNN.facts h ht
  have hj : j < m.cats.length := by rw [hcc]; exact lt_of_getElem?_some hc
  have hM : m.M = maxCats cats := by rw [MonoNN.M, hcc]
  have hcM : c ≤ m.M := by rw [hM]; exact le_maxCats _ _ (List.mem_of_getElem? hc)
  have hsl := (m.slots_spec negative r hf ov hov).1
  have hmcd := fun th : ℕ → ℝ => mc_getD m.cats.length m.M keys (by rw [hcc, hlen]) (by rw [hM]; exact hin)
    (m.slots ov th) (hsl th)
  rw [m.probs_some ov _ keys hmc, finish_probs m.M m.cats m.bias _ (fun c hc => le_maxCats _ _ hc) (hmcd _).1 j c
    (by rw [hcc]; exact hc), Option.some.injEq] at hp hp'
  rw [← hp, ← hp']
  refine multinomialLogit_key c m.M hcM _ _ key hkc fun x hx => ?_
  have hle : ∀ k, k < m.M → _ := fun k hk =>
    m.slots_le r hf ov hov theta theta' j k hj hk (by rw [hlv]; exact hdir)
  have hkeyM : key < m.M := by omega
  have hxM : x < m.M := by omega
  rw [(hmcd theta).2 j x key hj hxM hkey, (hmcd theta').2 j x key hj hxM hkey,
    (hmcd theta).2 j key key hj hkeyM hkey, (hmcd theta').2 j key key hj hkeyM hkey, if_pos rfl, if_pos rfl]
  have hsum : ∑ y ∈ range m.M, ((m.slots ov theta').getD (j * m.M + y) 0 - (m.slots ov theta).getD (j * m.M + y) 0) =
      ∑ y ∈ range m.M, (m.slots ov theta').getD (j * m.M + y) 0 -
        ∑ y ∈ range m.M, (m.slots ov theta).getD (j * m.M + y) 0 := sum_sub_distrib _ _
  have hnn : ∀ y ∈ range m.M,
      0 ≤ (m.slots ov theta').getD (j * m.M + y) 0 - (m.slots ov theta).getD (j * m.M + y) 0 :=
    fun y hy => sub_nonneg.2 (hle y (mem_range.1 hy))
  have h1 := single_le_sum hnn (mem_range.2 hxM)
  have h0 := sum_nonneg hnn
  split_ifs
  · linarith
  · linarith

/-- C13 (monotone network without negative relationships, ordered items). -/
theorem C13_nn (h : MonoNN.init lv cats hidden none rel sep false bounded = .ok m0)
    (ht : m0.Trained m) (hcats : ∀ c ∈ cats, 0 < c) (ov : ℝ) (hov : 0 ≤ ov) (theta theta' : ℕ → ℝ)
    (hle : ∀ d, d < lv → theta d ≤ theta' d) (j : ℕ)
    (p p' : List ℝ) (hp : (m.probs ov theta)[j]? = some p) (hp' : (m.probs ov theta')[j]? = some p') :
    ScoresHigher p p' := by
  obtain ⟨hlv, hc, hmc, r, -, hf⟩ := MonoNN.facts h ht
  refine C71_nn_direction h ht hcats ov hov theta theta' j p p' hp hp' fun d hd => ?_
  have hr : m.reportedDirection j d = 1 := by unfold MonoNN.reportedDirection; rw [hf.negNone rfl]
  have := hle d hd
  rw [hr]; simp only [Int.cast_one, one_mul]; linarith

/-- C13 (monotone network without negative relationships, multiple choice): the probability of the correct
category never decreases. -/
theorem C13_nn_key {keys : List ℕ} (h : MonoNN.init lv cats hidden (some keys) rel sep false bounded = .ok m0)
    (ht : m0.Trained m) (hlen : keys.length = cats.length)
    (hin : ∀ k ∈ keys, k < maxCats cats) (ov : ℝ) (hov : 0 ≤ ov) (theta theta' : ℕ → ℝ)
    (hle : ∀ d, d < lv → theta d ≤ theta' d) (j key c : ℕ) (hkey : keys[j]? = some key) (hc : cats[j]? = some c)
    (hkc : key < c) (p p' : List ℝ) (hp : (m.probs ov theta)[j]? = some p)
    (hp' : (m.probs ov theta')[j]? = some p') : p.getD key 0 ≤ p'.getD key 0 := by
  obtain ⟨hlv, hcc, hmc, r, -, hf⟩ := MonoNN.facts h ht
  refine C71_nn_direction_key h ht hlen hin ov hov theta theta' j key c hkey hc hkc p p' hp hp' fun d hd => ?_
  have hr : m.reportedDirection j d = 1 := by unfold MonoNN.reportedDirection; rw [hf.negNone rfl]
  have := hle d hd
  rw [hr]; simp only [Int.cast_one, one_mul]; linarith

/-- C16 (monotone network): an item that is not related to latent variable `d` ignores it. -/
theorem C16_nn_unrelated {rl : List (List Bool)}
    (h : MonoNN.init lv cats hidden mc (some rl) sep negative bounded = .ok m0)
    (ht : m0.Trained m) (hkeys : KeysFit cats mc) (ov : ℝ) (hov : 0 ≤ ov) (theta : ℕ → ℝ) (t : ℝ) (j d : ℕ)
    (hd : d < lv) (q : List Bool) (hq : rl[j]? = some q) (hqd : q[d]? = some false) :
    (m.probs ov (Function.update theta d t))[j]? = (m.probs ov theta)[j]? := by
  obtain ⟨hlv, hc, hmc, r, hr, hf⟩ := MonoNN.facts h ht
  have hM : m.M = maxCats cats := by rw [MonoNN.M, hc]
  have hrr : r = rl := by
    unfold checkRelationships at hr
    simp only at hr
    split_ifs at hr
    exact (Except.ok.inj hr).symm
  subst hrr
  have hj : j < m.cats.length := by rw [← hf.relLen]; exact lt_of_getElem?_some hq
  have hcol : (relColumn r d)[j]? = some false := by
    rw [relColumn, List.getElem?_map, hq, Option.map_some, List.getD_eq_getElem?_getD, hqd]; rfl
  have hsl := (m.slots_spec negative r hf ov hov).1
  have hslot : ∀ k, k < m.M → (m.slots ov (Function.update theta d t)).getD (j * m.M + k) 0 =
      (m.slots ov theta).getD (j * m.M + k) 0 := by
    intro k hk
    obtain ⟨f, -, hz, hs⟩ := (m.slots_spec negative r hf ov hov).2 j k hj hk
    rw [hs, hs]
    refine sum_congr rfl fun e he => ?_
    by_cases hed : e = d
    · subst hed
      rw [hz e (mem_range.1 he) hcol, hz e (mem_range.1 he) hcol]
    · rw [Function.update_of_ne hed]
  cases hmc' : m.mc with
  | none =>
    rw [m.probs_none ov _ hmc', m.probs_none ov _ hmc']
    exact same_of_slots_cum m.M m.cats m.bias _ _ (fun c hc => le_maxCats _ _ hc) (hsl _) (hsl _) j hj hslot
  | some keys =>
    obtain ⟨h1, h2⟩ := hkeys keys (by rw [← hmc, hmc'])
    have hmcd := fun th : ℕ → ℝ => mc_getD m.cats.length m.M keys (by rw [hc, h1]) (by rw [hM]; exact h2)
      (m.slots ov th) (hsl th)
    rw [m.probs_some ov _ keys hmc', m.probs_some ov _ keys hmc']
    obtain ⟨key, hkey⟩ := getElem?_of_lt keys j (by rw [h1, ← hc]; exact hj)
    refine same_of_slots m.M m.cats m.bias _ _ (fun c hc => le_maxCats _ _ hc) (hmcd _).1 (hmcd _).1 j hj
      fun k hk => ?_
    rw [(hmcd _).2 j k key hj hk hkey, (hmcd _).2 j k key hj hk hkey, hslot k hk]
    rw [sum_congr rfl fun x hx => hslot x (mem_range.1 hx)]

/-- C71 (monotone network): with negative relationships allowed, direction 0 is reported for unrelated
pairs. -/
theorem C71_nn_unrelated {rl : List (List Bool)}
    (h : MonoNN.init lv cats hidden mc (some rl) sep true bounded = .ok m0)
    (ht : m0.Trained m) (j d : ℕ) (hd : d < lv) (q : List Bool) (hq : rl[j]? = some q)
    (hqd : q[d]? = some false) : m.reportedDirection j d = 0 := by
  obtain ⟨hlv, hc, hmc, r, hr, hf⟩ := MonoNN.facts h ht
  have hrr : r = rl := by
    unfold checkRelationships at hr
    simp only at hr
    split_ifs at hr
    exact (Except.ok.inj hr).symm
  subst hrr
  obtain ⟨ns, hns, hall⟩ := hf.negSome rfl
  obtain ⟨n, hnd, -, hrel, -, -⟩ := hall d (by rw [hlv]; exact hd)
  unfold MonoNN.reportedDirection
  rw [hns]
  simp only [hnd]
  have hcol : n.rel[j]? = some false := by
    rw [hrel, relColumn, List.getElem?_map, hq, Option.map_some, List.getD_eq_getElem?_getD, hqd]; rfl
  rw [Negation.allItemWeights, List.getD_eq_getElem?_getD, scatterMask_false _ _ _ _ hcol]
  simp

end

theorem SoftplusLinear.trained_refl (l : SoftplusLinear) : l.Trained l := ⟨rfl, rfl, rfl, rfl, rfl, rfl, rfl⟩

theorem MonoNN.trained_refl (m : MonoNN) : m.Trained m where
  lv := rfl
  cats := rfl
  mc := rfl
  sep := rfl
  hidden := rfl
  bounded := rfl
  layers := List.forall₂_same.2 fun _ _ => List.forall₂_same.2 fun l _ => l.trained_refl
  negNone := id
  negSome := fun ns h => ⟨ns, h, List.forall₂_same.2 fun _ _ => ⟨rfl, rfl, rfl, rfl⟩⟩
  biasLen := rfl

/-- The constructor succeeds for two items with 3 and 2 categories, two latent variables, two hidden layers of
widths 2 and 4, one missing relationship, an answer key and negative relationships. -/
example : ∃ m0, MonoNN.init 2 [3, 2] (some [2, 4]) (some [1, 0]) (some [[true, false], [true, true]]) .categories
    true false = .ok m0 ∧ m0.Trained m0 := by
  refine ⟨_, rfl, MonoNN.trained_refl _⟩

example : ∃ m0, MonoNN.init 2 [3, 2] (some [6]) none (some [[true, false], [true, true]]) .items
    false true = .ok m0 ∧ m0.Trained m0 := by
  refine ⟨_, rfl, MonoNN.trained_refl _⟩

example : KeysFit [3, 2] (some [1, 0]) := by
  intro keys h; cases h; simp [maxCats]

/-! ## Monotone B-spline -/

/-- C01 (monotone B-spline): whenever the model returns probabilities, every item has a distribution over
exactly its own categories. `basis` is any table of basis values. -/
theorem C01_monotone_bspline (m : MonoBSpline) (hwf : m.WF) (basis : ℕ → ℕ → ℝ) (t : List (List ℝ))
    (ht : m.probs basis = .ok t) :
    t.length = m.cats.length ∧ ∀ j c : ℕ, m.cats[j]? = some c →
      ∃ p, t[j]? = some p ∧ IsDistribution c m.M p ∧ AllPositive c p := by
  obtain ⟨-, hl, hrow⟩ := m.probs_row basis t ht
  exact ⟨hl, fun j c hc => ⟨_, hrow j c hc, multinomialLogit_isDistribution c m.M
    (hwf.catsPos c (List.mem_of_getElem? hc)) (le_maxCats _ _ (List.mem_of_getElem? hc)) _⟩⟩

/-- C13 (monotone B-spline): when the basis values at the new latent trait have larger tail sums (raising
a latent trait moves weight towards later basis functions), no item scores lower. -/
theorem C13_bspline_basis (m : MonoBSpline) (hwf : m.WF) (B B' : ℕ → ℕ → ℝ)
    (hB : ∀ l, l < m.lv → ∀ b, b < m.nb → ∑ x ∈ Ico b m.nb, B l x ≤ ∑ x ∈ Ico b m.nb, B' l x)
    (t t' : List (List ℝ)) (ht : m.probs B = .ok t) (ht' : m.probs B' = .ok t') (j : ℕ) (p p' : List ℝ)
    (hp : t[j]? = some p) (hp' : t'[j]? = some p') : ScoresHigher p p' := by
  obtain ⟨hcat, hl, hrow⟩ := m.probs_row B t ht
  obtain ⟨-, -, hrow'⟩ := m.probs_row B' t' ht'
  have hj : j < m.cats.length := by rw [← hl]; exact lt_of_getElem?_some hp
  obtain ⟨c, hc⟩ := getElem?_of_lt m.cats j hj
  have hcm := List.mem_of_getElem? hc
  have hcM : c ≤ m.M := le_maxCats _ _ hcm
  rw [hrow j c hc, Option.some.injEq] at hp
  rw [hrow' j c hc, Option.some.injEq] at hp'
  rw [← hp, ← hp']
  refine multinomialLogit_ordered c m.M (hwf.catsPos c hcm) hcM _ _ fun a b hab hb => ?_
  rw [if_pos (by omega), if_pos (by omega), if_pos (by omega), if_pos (by omega)]
  suffices hmain : m.logit B' j a - m.logit B j a ≤ m.logit B' j b - m.logit B j b by linarith
  unfold MonoBSpline.logit
  cases hs : m.sep with
  | items =>
    simp only
    rw [← sum_sub_distrib, ← sum_sub_distrib]
    refine sum_le_sum fun l hl => ?_
    rw [← sub_mul, ← sub_mul]
    refine mul_le_mul_of_nonneg_left (by exact_mod_cast hab) (sub_nonneg.2 (sum_le_sum fun x hx => ?_))
    exact mul_le_mul_of_nonneg_left (hB l (mem_range.1 hl) x (mem_range.1 hx)) (softplus_pos _).le
  | categories =>
    simp only
    rw [← sum_sub_distrib, ← sum_sub_distrib]
    refine sum_le_sum_of_subset_of_nonneg (range_mono (by omega)) fun c' _ _ =>
      sub_nonneg.2 (sum_le_sum fun x hx => ?_)
    exact mul_le_mul_of_nonneg_left (hB 0 (by rw [hcat hs]; exact one_pos) x (mem_range.1 hx))
      (m.catCoef_nonneg hwf _ _ _)

/-- The B-spline model with `separate="categories"` cannot be evaluated with several latent variables. -/
theorem C13_bspline_categories_refused (m : MonoBSpline) (hs : m.sep = .categories) (hl : m.lv ≠ 1)
    (basis : ℕ → ℕ → ℝ) : m.probs basis = .error .indexError := by
  unfold MonoBSpline.probs MonoBSpline.forwardRow
  rw [if_pos ⟨hs, hl⟩]; rfl

/-- Two items with 3 and 2 categories, three basis functions. -/
noncomputable def exMonoBSpline : MonoBSpline where
  lv := 1
  nb := 3
  cats := [3, 2]
  sep := .categories
  coefItems := fun _ _ _ => 0
  coefCats := [1, 2, 3, 4, 5, 6, 7, 8, 9]
  bias := [1, 2, 3]

theorem exMonoBSpline_wf : exMonoBSpline.WF where
  catsPos := by simp [exMonoBSpline]
  coefLen := by
    simp [exMonoBSpline, MonoBSpline.splineMask, MonoBSpline.M, maxCats, countTrue, List.range_succ, freeMask, freeRow]
  biasLen := by
    simp [exMonoBSpline, MonoBSpline.M, maxCats, countTrue, List.range_succ, freeMask, freeRow]

example : (∃ t, exMonoBSpline.probs (fun _ _ => 1 / 3) = .ok t) := by
  unfold MonoBSpline.probs MonoBSpline.forwardRow
  rw [if_neg (by simp [exMonoBSpline])]
  exact ⟨_, rfl⟩

end Irt
