import Verif.Model.Monotone
import Verif.Lemmas.Ordered
import Verif.Lemmas.Linear
import Verif.Lemmas.Poly
import Verif.Lemmas.Activation

/-! # Facts shared by the monotone models -/

namespace Irt

open Finset

theorem slot_lt {items M j k : ℕ} (hj : j < items) (hk : k < M) : j * M + k < items * M := by
  calc j * M + k < j * M + M := by omega
    _ = (j + 1) * M := by ring
    _ ≤ items * M := Nat.mul_le_mul_right _ hj

theorem getElem?_getD {l : List ℝ} {i : ℕ} (h : i < l.length) : l[i]? = some (l.getD i 0) := by
  rw [List.getD_eq_getElem?_getD, List.getElem?_eq_getElem h]; rfl

theorem multinomialLogit_congr (c M : ℕ) (l l' : ℕ → ℝ) (h : ∀ k, k < c → l k = l' k) :
    multinomialLogit c M l = multinomialLogit c M l' := by
  unfold multinomialLogit
  have hs : ∑ x ∈ range c, Real.exp (l x) = ∑ x ∈ range c, Real.exp (l' x) :=
    sum_congr rfl fun x hx => by rw [h x (mem_range.1 hx)]
  refine List.map_congr_left fun k _ => ?_
  by_cases hk : k < c
  · rw [if_pos hk, if_pos hk, h k hk, hs]
  · rw [if_neg hk, if_neg hk]

/-- The intercept vector. -/
noncomputable def slotBias (M : ℕ) (cats : List ℕ) (bias : List ℝ) : List ℝ :=
  scatterMask 0 ((missingMask M cats).map not) bias

/-- Intercepts, mask and softmax. -/
theorem finish_probs_gen (M : ℕ) (cats : List ℕ) (b out : List ℝ) (hM : ∀ c ∈ cats, c ≤ M)
    (hb : b.length = cats.length * M) (hout : out.length = cats.length * M) (j c : ℕ) (hc : cats[j]? = some c) :
    (probabilitiesFromOutput cats.length M
      (maskFill (missingMask M cats) .negInf ((List.zipWith (· + ·) out b).map Logit.fin)))[j]? =
      some (multinomialLogit c M fun k => out.getD (j * M + k) 0 + b.getD (j * M + k) 0) := by
  have hj : j < cats.length := lt_of_getElem?_some hc
  unfold probabilitiesFromOutput
  rw [List.getElem?_map, viewRows_row cats.length M _ _ j hj
    (fun k => if k < c then Logit.fin (out.getD (j * M + k) 0 + b.getD (j * M + k) 0)
      else Logit.negInf), Option.map_some, softmax_row c M (hM c (List.mem_of_getElem? hc))]
  · intro k hk
    have h1 := slot_lt hj hk
    rw [maskFill_getElem? _ _ _ _ _ (Logit.fin (out.getD (j * M + k) 0 + b.getD (j * M + k) 0))
      (missingMask_getElem? M cats j k c hc hk)]
    · by_cases hk' : k < c
      · simp [hk', not_le.2 hk']
      · simp [hk', not_lt.1 hk']
    · rw [List.getElem?_map, List.getElem?_zipWith, getElem?_getD (by rw [hout]; exact h1),
        getElem?_getD (by rw [hb]; exact h1)]
      rfl
  · simp only [maskFill, List.length_zipWith, List.length_map, length_missingMask, hout, hb]
    simp

theorem finish_probs (M : ℕ) (cats : List ℕ) (bias out : List ℝ) (hM : ∀ c ∈ cats, c ≤ M)
    (hout : out.length = cats.length * M) (j c : ℕ) (hc : cats[j]? = some c) :
    (probabilitiesFromOutput cats.length M (addBiasAndMask M cats bias out))[j]? =
      some (multinomialLogit c M fun k => out.getD (j * M + k) 0 + (slotBias M cats bias).getD (j * M + k) 0) := by
  have hbl : (slotBias M cats bias).length = cats.length * M := by
    rw [slotBias, length_scatterMask, List.length_map, length_missingMask]
  exact finish_probs_gen M cats _ out hM hbl hout j c hc

theorem length_cumCategories (items M : ℕ) (out : List ℝ) (h : out.length = items * M) :
    (cumCategories items M out).length = items * M := by
  unfold cumCategories
  rw [length_flatten_const M, List.length_map, length_viewRows]
  intro l hl
  obtain ⟨r, hr, rfl⟩ := List.mem_map.1 hl
  rw [length_cumsum]
  exact mem_viewRows_length items M out h r hr

theorem take_sum_range (l : List ℝ) (k : ℕ) (h : k ≤ l.length) :
    (l.take k).sum = ∑ x ∈ range k, l.getD x 0 := by
  induction k with
  | zero => simp
  | succ k ih =>
    rw [List.take_add_one, List.sum_append, ih (by omega), sum_range_succ, getElem?_getD (by omega)]
    simp

theorem cumCategories_getD (items M : ℕ) (out : List ℝ) (h : out.length = items * M) (j k : ℕ) (hj : j < items)
    (hk : k < M) : (cumCategories items M out).getD (j * M + k) 0 =
      ∑ x ∈ range (k + 1), out.getD (j * M + x) 0 := by
  have hrows := mem_viewRows_length items M out h
  obtain ⟨r, hr⟩ : ∃ r, (viewRows items M out)[j]? = some r :=
    ⟨_, List.getElem?_eq_getElem (by rw [length_viewRows]; exact hj)⟩
  have hrl := hrows r (List.mem_of_getElem? hr)
  unfold cumCategories
  rw [List.getD_eq_getElem?_getD, flatten_getElem? M _ _ j k hk, List.getElem?_map, hr]
  · simp only [Option.map_some, Option.bind_some]
    rw [cumsum_getElem? r k (by omega), Option.getD_some, take_sum_range r (k + 1) (by omega)]
    refine sum_congr rfl fun x hx => ?_
    have hx' := mem_range.1 hx
    rw [List.getD_eq_getElem?_getD, List.getD_eq_getElem?_getD,
      viewRows_row_entry items M out h j r hr x (by omega)]
  · intro l hl
    obtain ⟨q, hq, rfl⟩ := List.mem_map.1 hl
    rw [length_cumsum]; exact hrows q hq

/-- The function number used by a slot. -/
def Separate.unit (s : Separate) (M j k : ℕ) : ℕ := match s with | .items => j | .categories => j * M + k

theorem length_expand (s : Separate) (items M : ℕ) (out : List ℝ) (h : out.length = s.count items M) :
    (s.expand M out).length = items * M := by
  cases s with
  | items =>
    simp only [Separate.count] at h
    simp only [Separate.expand, length_repeatInterleave, h]
    try ring
  | categories => exact h

theorem expand_getD (s : Separate) (M : ℕ) (out : List ℝ) (j k : ℕ) (hk : k < M) :
    (s.expand M out).getD (j * M + k) 0 = out.getD (s.unit M j k) 0 := by
  cases s with
  | items =>
    simp only [Separate.expand, Separate.unit]
    rw [List.getD_eq_getElem?_getD, repeatInterleave_getElem? M out j k hk, List.getD_eq_getElem?_getD]
  | categories => rfl

theorem unit_lt (s : Separate) (items M j k : ℕ) (hj : j < items) (hk : k < M) :
    s.unit M j k < s.count items M := by
  cases s with
  | items => exact hj
  | categories => exact slot_lt hj hk

/-- When no slot of an item decreases, the scores of the item move up. -/
theorem ordered_of_slots (M : ℕ) (cats : List ℕ) (bias out out' : List ℝ) (hM : ∀ c ∈ cats, c ≤ M)
    (hpos : ∀ c ∈ cats, 0 < c) (hout : out.length = cats.length * M) (hout' : out'.length = cats.length * M)
    (j : ℕ) (p p' : List ℝ)
    (hp : (probabilitiesFromOutput cats.length M
      (addBiasAndMask M cats bias (cumCategories cats.length M out)))[j]? = some p)
    (hp' : (probabilitiesFromOutput cats.length M
      (addBiasAndMask M cats bias (cumCategories cats.length M out')))[j]? = some p')
    (hD : ∀ k, k < M → out.getD (j * M + k) 0 ≤ out'.getD (j * M + k) 0) : ScoresHigher p p' := by
  have hj : j < cats.length := by
    have := lt_of_getElem?_some hp
    simpa [probabilitiesFromOutput, length_viewRows] using this
  obtain ⟨c, hc⟩ := getElem?_of_lt cats j hj
  have hcm := List.mem_of_getElem? hc
  rw [finish_probs M cats bias _ hM (length_cumCategories _ _ _ hout) j c hc, Option.some.injEq] at hp
  rw [finish_probs M cats bias _ hM (length_cumCategories _ _ _ hout') j c hc, Option.some.injEq] at hp'
  subst hp hp'
  refine multinomialLogit_ordered c M (hpos c hcm) (hM c hcm) _ _ fun a b hab hb => ?_
  have hcM := hM c hcm
  rw [cumCategories_getD _ _ _ hout j a hj (by omega), cumCategories_getD _ _ _ hout j b hj (by omega),
    cumCategories_getD _ _ _ hout' j a hj (by omega), cumCategories_getD _ _ _ hout' j b hj (by omega)]
  have hs : ∀ f : ℕ → ℝ, ∑ x ∈ range (b + 1), f x = ∑ x ∈ range (a + 1), f x + ∑ x ∈ Ico (a + 1) (b + 1), f x :=
    fun f => (sum_range_add_sum_Ico f (by omega)).symm
  rw [hs fun x => out.getD (j * M + x) 0, hs fun x => out'.getD (j * M + x) 0]
  have : ∑ x ∈ Ico (a + 1) (b + 1), out.getD (j * M + x) 0 ≤ ∑ x ∈ Ico (a + 1) (b + 1), out'.getD (j * M + x) 0 :=
    sum_le_sum fun x hx => hD x (by have := mem_Ico.1 hx; omega)
  linarith

/-- When the slots of an item do not change, its probabilities do not change. -/
theorem same_of_slots (M : ℕ) (cats : List ℕ) (bias out out' : List ℝ) (hM : ∀ c ∈ cats, c ≤ M)
    (hout : out.length = cats.length * M) (hout' : out'.length = cats.length * M) (j : ℕ)
    (hj : j < cats.length) (hD : ∀ k, k < M → out.getD (j * M + k) 0 = out'.getD (j * M + k) 0) :
    (probabilitiesFromOutput cats.length M (addBiasAndMask M cats bias out))[j]? =
    (probabilitiesFromOutput cats.length M (addBiasAndMask M cats bias out'))[j]? := by
  obtain ⟨c, hc⟩ := getElem?_of_lt cats j hj
  rw [finish_probs M cats bias _ hM hout j c hc, finish_probs M cats bias _ hM hout' j c hc]
  congr 1
  refine multinomialLogit_congr c M _ _ fun k hk => ?_
  rw [hD k (lt_of_lt_of_le hk (hM c (List.mem_of_getElem? hc)))]

theorem same_of_slots_cum (M : ℕ) (cats : List ℕ) (bias out out' : List ℝ) (hM : ∀ c ∈ cats, c ≤ M)
    (hout : out.length = cats.length * M) (hout' : out'.length = cats.length * M) (j : ℕ)
    (hj : j < cats.length) (hD : ∀ k, k < M → out.getD (j * M + k) 0 = out'.getD (j * M + k) 0) :
    (probabilitiesFromOutput cats.length M (addBiasAndMask M cats bias (cumCategories cats.length M out)))[j]? =
    (probabilitiesFromOutput cats.length M (addBiasAndMask M cats bias (cumCategories cats.length M out')))[j]? := by
  refine same_of_slots M cats bias _ _ hM (length_cumCategories _ _ _ hout) (length_cumCategories _ _ _ hout') j hj
    fun k hk => ?_
  rw [cumCategories_getD _ _ _ hout j k hj hk, cumCategories_getD _ _ _ hout' j k hj hk]
  exact sum_congr rfl fun x hx => hD x (by have := mem_range.1 hx; omega)

/-! ## Answer keys -/

/-- Mask of one item: its key. -/
def keyRow (M key : ℕ) : List Bool := (List.range M).map fun k => decide (k = key)

theorem mcMask_eq (items M : ℕ) (keys : List ℕ) (hl : keys.length = items) (hk : ∀ k ∈ keys, k < M) :
    mcMask items M keys = keys.flatMap (keyRow M) := by
  have hlen : (keys.flatMap (keyRow M)).length = items * M := by
    rw [length_flatMap_const M _ _ (fun _ _ => by simp [keyRow]), hl]
  refine List.ext_getElem? fun s => ?_
  by_cases hs : s < items * M
  · have hM : 0 < M := Nat.pos_of_ne_zero fun h => by simp [h] at hs
    obtain ⟨hk1, hk2⟩ : s / M < items ∧ s % M < M :=
      ⟨Nat.div_lt_of_lt_mul (by rw [Nat.mul_comm]; exact hs), Nat.mod_lt _ hM⟩
    have hse : s = s / M * M + s % M := (Nat.div_add_mod' s M).symm
    obtain ⟨key, hkey⟩ : ∃ key, keys[s / M]? = some key := ⟨_, List.getElem?_eq_getElem (by omega)⟩
    have hkl := hk key (List.mem_of_getElem? hkey)
    have h1 : (keys.flatMap (keyRow M))[s]? = some (decide (s % M = key)) := by
      conv_lhs => rw [hse]
      rw [flatMap_getElem? M _ _ (fun _ _ => by simp [keyRow]) _ _ hk2, hkey]
      simp [keyRow, hk2]
    rw [h1]
    unfold mcMask
    rw [List.getElem?_map, List.getElem?_range hs, Option.map_some]
    congr 1
    rw [decide_eq_decide, List.mem_iff_getElem?]
    constructor
    · rintro ⟨i, hi⟩
      rw [List.getElem?_zipWith] at hi
      by_cases hi' : i < items
      · rw [List.getElem?_range hi', List.getElem?_eq_getElem (by omega)] at hi
        simp only [Option.some.injEq] at hi
        have hki := hk keys[i] (List.getElem_mem _)
        have e1 : s / M = i := by
          rw [← hi, Nat.mul_comm, Nat.mul_add_div hM, Nat.div_eq_of_lt hki, Nat.add_zero]
        have e2 : s % M = keys[i] := by
          rw [← hi, Nat.mul_comm, Nat.mul_add_mod, Nat.mod_eq_of_lt hki]
        rw [e1, List.getElem?_eq_getElem (by omega)] at hkey
        rw [e2]; exact Option.some.inj hkey
      · rw [List.getElem?_eq_none (by simpa using hi')] at hi
        simp at hi
    · intro h
      refine ⟨s / M, ?_⟩
      rw [List.getElem?_zipWith, List.getElem?_range hk1, hkey]
      simp only [Option.some.injEq]
      rw [← h]; exact hse.symm
  · rw [List.getElem?_eq_none (by simp [mcMask]; omega), List.getElem?_eq_none (by omega)]

theorem assignMask_false {α : Type*} (n : ℕ) (m : List Bool) (vs xs ys : List α) (h : xs.length = n) :
    assignMask (List.replicate n false ++ m) vs (xs ++ ys) = xs ++ assignMask m vs ys := by
  induction n generalizing xs with
  | zero => simp at h; simp [h]
  | succ n ih =>
    cases xs with
    | nil => simp at h
    | cons x xs =>
      rw [List.replicate_succ, List.cons_append, List.cons_append, assignMask, ih xs (by simpa using h)]
      rfl

theorem keyRow_split (M key : ℕ) (h : key < M) :
    keyRow M key = List.replicate key false ++ (true :: List.replicate (M - key - 1) false) := by
  refine List.ext_getElem? fun i => ?_
  by_cases hi : i < M
  · rw [keyRow, List.getElem?_map, List.getElem?_range hi, Option.map_some]
    rcases lt_trichotomy i key with hlt | heq | hgt
    · rw [List.getElem?_append_left (by simpa using hlt), List.getElem?_replicate, if_pos hlt]
      simp; omega
    · subst heq
      rw [List.getElem?_append_right (by simp)]; simp
    · rw [List.getElem?_append_right (by simp; omega), List.length_replicate,
        show i - key = (i - key - 1) + 1 by omega, List.getElem?_cons_succ, List.getElem?_replicate,
        if_pos (by omega)]
      simp; omega
  · rw [List.getElem?_eq_none (by simp [keyRow]; omega), List.getElem?_eq_none (by simp; omega)]

theorem assignMask_keyRow {α : Type*} (M key : ℕ) (hk : key < M) (m : List Bool) (v : α) (vs r ys : List α)
    (hr : r.length = M) :
    assignMask (keyRow M key ++ m) (v :: vs) (r ++ ys) = r.set key v ++ assignMask m vs ys := by
  rw [keyRow_split M key hk, List.append_assoc]
  have hsplit : r = r.take key ++ r.drop key := (List.take_append_drop key r).symm
  obtain ⟨x, rest, hx⟩ : ∃ x rest, r.drop key = x :: rest := by
    cases h : r.drop key with
    | nil => exact absurd (List.drop_eq_nil_iff.1 h) (by omega)
    | cons x rest => exact ⟨x, rest, rfl⟩
  have hrest : rest.length = M - key - 1 := by
    have := congrArg List.length hx
    simp only [List.length_drop, List.length_cons] at this
    omega
  have htake : (r.take key).length = key := by rw [List.length_take]; omega
  conv_lhs => rw [hsplit, hx, List.append_assoc]
  rw [assignMask_false key _ _ _ _ htake, List.cons_append, List.cons_append, assignMask,
    assignMask_false _ _ _ _ _ hrest]
  conv_rhs => rw [hsplit, hx]
  rw [List.set_append_right _ _ (by omega), htake, Nat.sub_self, List.set_cons_zero]
  simp

theorem assignMask_keys {α : Type*} (M : ℕ) (keys : List ℕ) (hk : ∀ k ∈ keys, k < M) (vs : List α)
    (rows : List (List α)) (hv : vs.length = keys.length) (hr : rows.length = keys.length)
    (hrow : ∀ r ∈ rows, r.length = M) :
    assignMask (keys.flatMap (keyRow M)) vs rows.flatten =
      (List.zipWith (fun r kv => List.set r kv.1 kv.2) rows (List.zip keys vs)).flatten := by
  induction keys generalizing vs rows with
  | nil =>
    have h1 : rows = [] := by simpa using hr
    subst h1; simp [assignMask]
  | cons key keys ih =>
    cases vs with
    | nil => simp at hv
    | cons v vs =>
      cases rows with
      | nil => simp at hr
      | cons r rows =>
        rw [List.flatMap_cons, List.flatten_cons,
          assignMask_keyRow M key (hk key (by simp)) _ v vs r _ (hrow r (by simp)),
          ih (fun k h => hk k (by simp [h])) vs rows (by simpa using hv) (by simpa using hr)
            (fun q h => hrow q (by simp [h]))]
        simp

/-- Slots after the assignment of line 220: the key receives the sum of all slots of the item. -/
theorem mc_getD (items M : ℕ) (keys : List ℕ) (hl : keys.length = items) (hk : ∀ k ∈ keys, k < M)
    (out : List ℝ) (h : out.length = items * M) :
    (assignMask (mcMask items M keys) ((viewRows items M out).map List.sum) out).length = items * M ∧
    ∀ j k key, j < items → k < M → keys[j]? = some key →
      (assignMask (mcMask items M keys) ((viewRows items M out).map List.sum) out).getD (j * M + k) 0 =
        if k = key then ∑ x ∈ range M, out.getD (j * M + x) 0 else out.getD (j * M + k) 0 := by
  have hrows := mem_viewRows_length items M out h
  have hflat := flatten_viewRows items M out h
  have e : assignMask (mcMask items M keys) ((viewRows items M out).map List.sum) out =
      (List.zipWith (fun r kv => List.set r kv.1 kv.2) (viewRows items M out)
        (List.zip keys ((viewRows items M out).map List.sum))).flatten := by
    rw [mcMask_eq items M keys hl hk]
    have := assignMask_keys M keys hk ((viewRows items M out).map List.sum) (viewRows items M out) ?_ ?_ hrows
    · rw [hflat] at this; exact this
    · rw [List.length_map, length_viewRows, hl]
    · rw [length_viewRows, hl]
  have hw : ∀ l ∈ List.zipWith (fun r kv => List.set r kv.1 kv.2) (viewRows items M out)
      (List.zip keys ((viewRows items M out).map List.sum)), l.length = M := by
    intro l hl'
    obtain ⟨i, hi⟩ := List.mem_iff_getElem?.1 hl'
    rw [List.getElem?_zipWith] at hi
    cases hv : (viewRows items M out)[i]? with
    | none => rw [hv] at hi; simp at hi
    | some r =>
      rw [hv] at hi
      cases hz : (List.zip keys ((viewRows items M out).map List.sum))[i]? with
      | none => rw [hz] at hi; simp at hi
      | some kv =>
        rw [hz] at hi
        have := Option.some.inj hi
        rw [← this, List.length_set]
        exact hrows r (List.mem_of_getElem? hv)
  rw [e]
  constructor
  · rw [length_flatten_const M _ hw]
    simp [length_viewRows, hl]
  · intro j k key hj hkM hkey
    obtain ⟨r, hr⟩ : ∃ r, (viewRows items M out)[j]? = some r :=
      ⟨_, List.getElem?_eq_getElem (by rw [length_viewRows]; exact hj)⟩
    have hrl := hrows r (List.mem_of_getElem? hr)
    rw [List.getD_eq_getElem?_getD, flatten_getElem? M _ hw j k hkM, List.getElem?_zipWith, hr]
    have hz : (List.zip keys ((viewRows items M out).map List.sum))[j]? = some (key, r.sum) := by
      rw [List.getElem?_zip_eq_some, List.getElem?_map, hr]; exact ⟨hkey, rfl⟩
    rw [hz]
    simp only [Option.bind_some]
    by_cases hkk : k = key
    · subst hkk
      rw [List.getElem?_set_self (by omega), Option.getD_some, if_pos rfl]
      have := take_sum_range r M (by omega)
      rw [← hrl, List.take_length] at this
      rw [hrl] at this
      rw [this]
      refine sum_congr rfl fun x hx => ?_
      rw [List.getD_eq_getElem?_getD, List.getD_eq_getElem?_getD,
        viewRows_row_entry items M out h j r hr x (mem_range.1 hx)]
    · rw [List.getElem?_set_ne (fun e => hkk e.symm), if_neg hkk, List.getD_eq_getElem?_getD,
        viewRows_row_entry items M out h j r hr k hkM]

end Irt
