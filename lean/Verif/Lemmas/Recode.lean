import Verif.Spec.Recode
import Verif.Props.Nesting
import Verif.Props.MmlSymmetry

/-! # Models with given slopes and intercepts, and likelihoods of recoded data -/

namespace Irt
open Spec Finset

/-! ## Filling in masked parameters -/

theorem exists_masked (n K : ℕ) (mask : List Bool) (hm : mask.length = n * K) (F : ℕ → ℕ → ℝ)
    (h0 : ∀ j k, j < n → k < K → mask[j * K + k]? = some false → F j k = 0) :
    ∃ p : List ℝ, p.length = countTrue mask ∧ viewRows n K (scatterMask 0 mask p) = rowsOf n K F := by
  have hlen : (flatTensor n K F).length = mask.length := by rw [length_flatTensor, hm]
  refine ⟨gatherMask mask (flatTensor n K F), length_gatherMask _ _ hlen, ?_⟩
  rw [scatter_gatherMask mask _ hlen, viewRows_flatTensor]
  intro i hi
  have hlt : i < n * K := by have := lt_of_getElem?_some hi; rwa [hm] at this
  have hK : 0 < K := by
    rcases Nat.eq_zero_or_pos K with h | h
    · subst h; simp at hlt
    · exact h
  have hdm : i / K * K + i % K = i := by rw [mul_comm]; exact Nat.div_add_mod i K
  have hj : i / K < n := Nat.div_lt_of_lt_mul (by rwa [mul_comm] at hlt)
  have hk : i % K < K := Nat.mod_lt _ hK
  rw [← hdm, flatTensor_entry _ _ _ _ _ hj hk, h0 _ _ hj hk (by rw [hdm]; exact hi)]

/-- Slopes that respect the relationships between items and latent variables. -/
theorem exists_slopes (n lv : ℕ) (rel : List (List Bool)) (hlen : rel.length = n) (hrow : ∀ r ∈ rel, r.length = lv) (A : ℕ → ℕ → ℝ)
    (hA : ∀ (j k : ℕ) r, rel[j]? = some r → r[k]? = some false → A j k = 0) :
    ∃ p : List ℝ, p.length = countTrue rel.flatten ∧ viewRows n lv (scatterMask 0 rel.flatten p) = rowsOf n lv A := by
  refine exists_masked n lv rel.flatten (by rw [length_flatten_const lv _ hrow, hlen]) A ?_
  intro j k hj hk h
  obtain ⟨r, hr⟩ := getElem?_of_lt rel j (by omega)
  rw [flatten_getElem? lv _ hrow j k hk, hr, Option.bind_some] at h
  exact hA j k r hr h

/-- Intercepts of the categories after the first. -/
theorem exists_intercepts (M : ℕ) (cats : List ℕ) (B : ℕ → ℕ → ℝ)
    (hB : ∀ j c k : ℕ, cats[j]? = some c → k = 0 ∨ c ≤ k → B j k = 0) :
    ∃ p : List ℝ, p.length = countTrue (freeMask M cats) ∧
      viewRows cats.length M (scatterMask 0 (freeMask M cats) p) = rowsOf cats.length M B := by
  refine exists_masked cats.length M (freeMask M cats) (by rw [length_freeMask]) B ?_
  intro j k hj hk h
  obtain ⟨c, hc⟩ := getElem?_of_lt cats j hj
  rw [freeMask_getElem? M cats j k c hc hk] at h
  refine hB j c k hc ?_
  simp only [Option.some.injEq, Bool.and_eq_false_iff, decide_eq_false_iff_not, not_not, not_lt] at h
  exact h

theorem rowsOf_getElem? {α : Type*} (N K : ℕ) (f : ℕ → ℕ → α) (i : ℕ) (hi : i < N) :
    (rowsOf N K f)[i]? = some ((List.range K).map (f i)) := by
  simp [rowsOf, hi]

theorem ofRange_getD (K : ℕ) (f : ℕ → ℝ) (k : ℕ) (hk : k < K) : ((List.range K).map f).getD k 0 = f k := by
  simp [List.getD_eq_getElem?_getD, hk]

theorem twoPL_exists (items lv : ℕ) (rel : List (List Bool)) (hlen : rel.length = items) (hrow : ∀ r ∈ rel, r.length = lv)
    (A : ℕ → ℕ → ℝ) (B : ℕ → ℝ) (hA : ∀ (j k : ℕ) r, rel[j]? = some r → r[k]? = some false → A j k = 0) :
    ∃ m : TwoPL, m.WF ∧ m.items = items ∧ m.lv = lv ∧ m.rel = rel ∧
      ∀ j, j < items → m.itemParameters[j]? = some ((List.range lv).map (A j), B j) := by
  obtain ⟨p, hp, hv⟩ := exists_slopes items lv rel hlen hrow A hA
  refine ⟨⟨items, lv, rel, p, (List.range items).map B⟩, ⟨hlen, hrow, hp, by simp⟩, rfl, rfl, rfl, fun j hj => ?_⟩
  rw [TwoPL.itemParameters, TwoPL.weights, List.getElem?_zip_eq_some]
  exact ⟨by rw [hv, rowsOf_getElem? _ _ _ _ hj], by simp [hj]⟩

theorem gpc_exists (lv : ℕ) (cats : List ℕ) (rel : List (List Bool)) (hpos : ∀ c ∈ cats, 0 < c) (hlen : rel.length = cats.length)
    (hrow : ∀ r ∈ rel, r.length = lv) (A : ℕ → ℕ → ℝ) (B : ℕ → ℕ → ℝ)
    (hA : ∀ (j k : ℕ) r, rel[j]? = some r → r[k]? = some false → A j k = 0)
    (hB : ∀ j c k : ℕ, cats[j]? = some c → k = 0 ∨ c ≤ k → B j k = 0) :
    ∃ m : GPC, m.WF ∧ m.lv = lv ∧ m.cats = cats ∧ m.rel = rel ∧
      ∀ j, j < cats.length → m.itemParameters[j]? = some ((List.range lv).map (A j), (List.range (maxCats cats)).map (B j)) := by
  obtain ⟨p, hp, hv⟩ := exists_slopes cats.length lv rel hlen hrow A hA
  obtain ⟨q, hq, hv'⟩ := exists_intercepts (maxCats cats) cats B hB
  refine ⟨⟨lv, cats, rel, p, q⟩, ⟨hpos, hlen, hrow, hp, ?_⟩, rfl, rfl, rfl, fun j hj => ?_⟩
  · show q.length = _
    rw [hq, count_freeMask _ cats hpos fun c hc => le_maxCats _ _ hc]
  · rw [GPC.itemParameters, GPC.weights, GPC.biases, List.getElem?_zip_eq_some]
    exact ⟨by rw [hv, rowsOf_getElem? _ _ _ _ hj], by
      show (viewRows cats.length (maxCats cats) (scatterMask 0 (freeMask (maxCats cats) cats) q))[j]? = _
      rw [hv', rowsOf_getElem? _ _ _ _ hj]⟩

theorem grm_exists (lv : ℕ) (cats : List ℕ) (rel : List (List Bool)) (hpos : ∀ c ∈ cats, 0 < c) (hlen : rel.length = cats.length)
    (hrow : ∀ r ∈ rel, r.length = lv) (A : ℕ → ℕ → ℝ) (B : ℕ → ℕ → ℝ)
    (hA : ∀ (j k : ℕ) r, rel[j]? = some r → r[k]? = some false → A j k = 0)
    (hB : ∀ j c k : ℕ, cats[j]? = some c → k = 0 ∨ c ≤ k → B j k = 0) :
    ∃ m : GRM, m.WF ∧ m.lv = lv ∧ m.cats = cats ∧ m.rel = rel ∧
      ∀ j, j < cats.length →
        m.itemParameters[j]? = some ((List.range lv).map (A j), ((List.range (maxCats cats)).map (B j)).tail) := by
  obtain ⟨p, hp, hv⟩ := exists_slopes cats.length lv rel hlen hrow A hA
  obtain ⟨q, hq, hv'⟩ := exists_intercepts (maxCats cats) cats B hB
  refine ⟨⟨lv, cats, rel, p, q⟩, ⟨hpos, hlen, hrow, hp, hq⟩, rfl, rfl, rfl, fun j hj => ?_⟩
  rw [GRM.itemParameters, GRM.weights, GRM.biases, List.getElem?_zip_eq_some]
  refine ⟨by rw [hv, rowsOf_getElem? _ _ _ _ hj], ?_⟩
  show ((viewRows cats.length (maxCats cats) (scatterMask 0 (freeMask (maxCats cats) cats) q)).map List.tail)[j]? = _
  rw [List.getElem?_map, hv', rowsOf_getElem? _ _ _ _ hj, Option.map_some]

/-- Every nominal response model with free slopes and intercepts: the first category's parameters are minus the sums of the others,
which changes no probability. -/
theorem nrm_exists (lv : ℕ) (cats : List ℕ) (rel : List (List Bool)) (hpos : ∀ c ∈ cats, 0 < c) (hrl : rel.length = cats.length)
    (hrow : ∀ r ∈ rel, r.length = lv) (A : ℕ → ℕ → ℕ → ℝ) (B : ℕ → ℕ → ℝ)
    (hA : ∀ (j k i : ℕ) r, rel[j]? = some r → r[i]? = some false → A j k i = 0) :
    ∃ n : NRM, n.WF ∧ n.lv = lv ∧ n.cats = cats ∧ n.rel = rel ∧ ∀ (θ : List ℝ), θ.length = lv → ∀ j c : ℕ, cats[j]? = some c →
      (n.probs θ)[j]? = some (multinomialLogit c (maxCats cats) fun k => dot θ ((List.range lv).map (A j k)) + B j k) := by
  let cat : ℕ → ℕ := fun j => cats.getD j 0
  let M := maxCats cats
  let S : ℕ → ℕ → ℝ := fun j i => (∑ k ∈ range (cat j), A j k i) / cat j
  let D : ℕ → ℝ := fun j => (∑ k ∈ range (cat j), B j k) / cat j
  let ws : List ℝ := (List.range (cats.length * M)).flatMap fun q => (List.range lv).map fun i => A (q / M) (q % M) i - S (q / M) i
  let bs : List ℝ := (List.range (cats.length * M)).map fun q => B (q / M) (q % M) - D (q / M)
  let n₀ : NRM := ⟨lv, cats, rel, [], []⟩
  let n : NRM := ⟨lv, cats, rel, gatherMask n₀.freeWeights.flatten ws, gatherMask (freeMask M cats) bs⟩
  have hfree : n.freeWeights = n₀.freeWeights := rfl
  have hMn : n.M = M := rfl
  have hlenFree : n₀.freeWeights.length = cats.length * M ∧ ∀ x ∈ n₀.freeWeights, x.length = lv :=
    NRM.freeWeights_len ⟨lv, cats, rel, List.replicate (countTrue n₀.freeWeights.flatten) 0,
      List.replicate (cats.sum - cats.length) 0⟩ ⟨hpos, hrl, hrow, by simp; rfl, by simp⟩
  have hlw : ws.length = n₀.freeWeights.flatten.length := by
    rw [length_flatten_const lv _ hlenFree.2, hlenFree.1, length_flatMap_const lv _ _ (by simp), List.length_range]
  have hlb : bs.length = (freeMask M cats).length := by rw [length_freeMask]; simp [bs]
  have hn : n.WF := ⟨hpos, hrl, hrow, by
    show (gatherMask n₀.freeWeights.flatten ws).length = _; rw [length_gatherMask _ _ hlw]; rfl, by
    show (gatherMask (freeMask M cats) bs).length = _
    rw [length_gatherMask _ _ hlb, count_freeMask M cats hpos fun c hc => le_maxCats _ _ hc]⟩
  refine ⟨n, hn, rfl, rfl, rfl, fun θ hθ j c hc => ?_⟩
  have hj := lt_of_getElem?_some hc
  obtain ⟨r, hr⟩ := getElem?_of_lt rel j (by omega)
  have hcpos := hpos c (List.mem_of_getElem? hc)
  have hcM : c ≤ M := le_maxCats _ _ (List.mem_of_getElem? hc)
  have hcat : cat j = c := by simp [cat, List.getD_eq_getElem?_getD, hc]
  obtain ⟨wl, dn, hpn, hwl, hdn⟩ := n.exists_params j hj
  obtain ⟨w, hw⟩ := exists_entry_fun wl
  obtain ⟨e, he⟩ := exists_entry_fun dn
  have hw' : ∀ k, k < n.M → wl[k]? = some (w k) := fun k hk => hw k (by omega)
  have he' : ∀ k, k < n.M → dn[k]? = some (e k) := fun k hk => he k (by omega)
  have hpn' := hpn
  rw [NRM.itemParameters, List.getElem?_zip_eq_some] at hpn'
  have hdiv : ∀ k, k < M → (j * M + k) / M = j ∧ (j * M + k) % M = k := by
    intro k hk
    constructor
    · rw [mul_comm, Nat.mul_add_div (by omega), Nat.div_eq_of_lt hk, add_zero]
    · rw [mul_comm, Nat.mul_add_mod, Nat.mod_eq_of_lt hk]
  have hlt : ∀ k, k < M → j * M + k < cats.length * M := by
    intro k hk
    calc j * M + k < j * M + M := by omega
      _ = (j + 1) * M := by ring
      _ ≤ _ := Nat.mul_le_mul_right _ (by omega)
  have hee : ∀ k, 0 < k → k < c → e k = B j k - D j := by
    intro k hk hkc
    obtain ⟨raw, hraw, hrl, hdneq⟩ := n.biases_row j dn hpn'.2 (by omega)
    have h1 := he' k (by omega)
    rw [hdneq, show k = (k - 1) + 1 by omega, List.getElem?_cons_succ, List.getElem?_tail, ← show k = (k - 1) + 1 by omega,
      ← viewRows_row_entry _ _ _ n.length_flatBias j raw hraw k (by omega)] at h1
    rw [show n.bias = gatherMask (freeMask M cats) bs from rfl, hMn, show n.cats = cats from rfl,
      scatter_gather _ _ hlb _ (by rw [freeMask_getElem? M cats j k c hc (by omega)]; simp; omega)] at h1
    rw [List.getElem?_map, List.getElem?_range (hlt k (by omega)), Option.map_some, (hdiv k (by omega)).1, (hdiv k (by omega)).2,
      Option.some_inj] at h1
    exact h1.symm
  have hww : ∀ k, 0 < k → k < c → w k = (List.range lv).map fun i => A j k i - S j i := by
    intro k hk hkc
    obtain ⟨raw, hraw, hrl, hwleq⟩ := n.weights_row j wl hpn'.1 (by omega)
    have h1 := hw' k (by omega)
    rw [hwleq, show k = (k - 1) + 1 by omega, List.getElem?_cons_succ, List.getElem?_tail, ← show k = (k - 1) + 1 by omega] at h1
    have e1 := viewRows_row_entry _ _ _ n.length_rawRows j raw hraw k (by omega)
    rw [h1] at e1
    have hlen : (w k).length = lv := n.rawRows_row_length hn _ (List.mem_of_getElem? e1)
    refine List.ext_getElem? fun i => ?_
    by_cases hi : i < lv
    · rw [List.getElem?_map, List.getElem?_range hi, Option.map_some]
      have e2 := viewRows_row_entry _ _ _ (n.length_flatWeights hn) (j * n.M + k) (w k) e1 i hi
      rw [← e2]
      have hmask : n₀.freeWeights.flatten[(j * M + k) * lv + i]? = r[i]? := by
        rw [flatten_getElem? lv _ hlenFree.2 _ i hi]
        have := n.freeWeights_getElem? hn j k c r hc hr (by omega)
        rw [hfree, hMn] at this
        rw [this, Option.bind_some, if_pos (by simp; omega)]
      have hwsi : ws[(j * M + k) * lv + i]? = some (A j k i - S j i) := by
        rw [flatMap_getElem? lv _ _ (by simp) _ i hi, List.getElem?_range (hlt k (by omega)), Option.bind_some,
          List.getElem?_map, List.getElem?_range hi, Option.map_some, (hdiv k (by omega)).1, (hdiv k (by omega)).2]
      have hrl' : r.length = lv := hrow r (List.mem_of_getElem? hr)
      obtain ⟨b, hb⟩ := getElem?_of_lt r i (by omega)
      cases b
      · have hz : A j k i - S j i = 0 := by
          simp only [S, hA j _ i r hr hb, sum_const_zero, zero_div, sub_zero]
        rw [hz]
        exact scatterMask_false _ _ _ _ (hmask.trans hb)
      · exact (scatter_gather _ _ hlw _ (hmask.trans hb)).trans hwsi
    · rw [List.getElem?_eq_none (by omega), List.getElem?_eq_none (by simp; omega)]
  have hsum := n.sum_logits hn θ hθ j c wl dn w e hc hpn hw' he'
  rw [n.probs_row θ j c wl dn w e hc hpn hw' he', hMn]
  have dots : ∀ f : ℕ → ℝ, dot θ ((List.range lv).map f) = ∑ i ∈ range lv, θ.getD i 0 * f i := by
    intro f
    rw [dot_eq_sum lv θ _ hθ (by simp)]
    exact sum_congr rfl fun i hi => by rw [ofRange_getD _ _ _ (mem_range.1 hi)]
  congr 1
  refine multinomialLogit_shift c M _ _ (-(∑ i ∈ range lv, θ.getD i 0 * S j i) - D j) fun k hk => ?_
  have hposi : ∀ k, 0 < k → k < c → dot θ (w k) + e k
      = dot θ ((List.range lv).map (A j k)) + B j k + (-(∑ i ∈ range lv, θ.getD i 0 * S j i) - D j) := by
    intro k h0 hk
    rw [hww k h0 hk, hee k h0 hk, dots, dots]
    simp only [mul_sub, sum_sub_distrib]
    ring
  by_cases h0 : k = 0
  · subst h0
    have hc0 : (c : ℝ) ≠ 0 := by positivity
    have tot : ∑ k ∈ range c, (dot θ ((List.range lv).map (A j k)) + B j k + (-(∑ i ∈ range lv, θ.getD i 0 * S j i) - D j)) = 0 := by
      have h1 : ∑ k ∈ range c, dot θ ((List.range lv).map (A j k)) = c * ∑ i ∈ range lv, θ.getD i 0 * S j i := by
        simp only [dots]
        rw [sum_comm, mul_sum]
        refine sum_congr rfl fun i _ => ?_
        simp only [S, hcat]
        rw [← mul_sum]
        field_simp
      have h2 : ∑ k ∈ range c, B j k = c * D j := by
        simp only [D, hcat]; field_simp
      rw [sum_add_distrib, sum_add_distrib, h1, h2, sum_const, card_range, nsmul_eq_mul]
      ring
    obtain ⟨c, rfl⟩ : ∃ c', c = c' + 1 := ⟨c - 1, by omega⟩
    rw [sum_range_succ', sum_congr rfl fun k hk => hposi (k + 1) (by omega) (by have := mem_range.1 hk; omega)] at hsum
    rw [sum_range_succ'] at tot
    linarith
  · exact hposi k (by omega) hk

/-! ## Renamed answers -/

variable {d : ℕ} {cats : List ℕ} {σ : ℕ → ℕ → ℕ} {P P' : (Fin d → ℝ) → ℕ → ℕ → ℝ}

theorem renameCell_missing (f : ℕ → ℕ) (x : Cell) : cellMissing (renameCell f x) = cellMissing x := by
  unfold renameCell
  split
  · rfl
  · rename_i h
    rw [Bool.not_eq_true] at h
    rw [h]
    simp [cellMissing]

theorem renameCell_response (f : ℕ → ℕ) (x : Cell) (h : cellMissing x = false) : responseOf (renameCell f x) = f (responseOf x) := by
  simp [renameCell, h, responseOf]

theorem reverseCoding_renaming (cats : List ℕ) (chosen : ℕ → Bool) : Renaming cats (reverseCoding cats chosen) := by
  constructor
  · intro j c r hc hr
    unfold reverseCoding
    have : cats.getD j 0 = c := by simp [List.getD_eq_getElem?_getD, hc]
    split <;> omega
  · intro j c r s hc hr hs h
    unfold reverseCoding at h
    have : cats.getD j 0 = c := by simp [List.getD_eq_getElem?_getD, hc]
    split at h <;> omega

theorem reverseCoding_twice (cats : List ℕ) (chosen : ℕ → Bool) (j c r : ℕ) (hc : cats[j]? = some c) (hr : r < c) :
    reverseCoding cats chosen j (reverseCoding cats chosen j r) = r := by
  have : cats.getD j 0 = c := by simp [List.getD_eq_getElem?_getD, hc]
  unfold reverseCoding
  split <;> omega

/-- A renaming can be undone. -/
theorem renaming_inverse (h : Renaming cats σ) : ∃ τ, Renaming cats τ ∧
    ∀ j c r, cats[j]? = some c → r < c → τ j (σ j r) = r ∧ σ j (τ j r) = r := by
  classical
  have key : ∀ j, ∃ f : ℕ → ℕ, ∀ c r, cats[j]? = some c → r < c → f r < c ∧ σ j (f r) = r := by
    intro j
    by_cases hj : j < cats.length
    · obtain ⟨c, hc⟩ := getElem?_of_lt cats j hj
      have hs : ∀ r, r < c → ∃ s, s < c ∧ σ j s = r := by
        have hinj : Function.Injective fun r : Fin c => (⟨σ j r, h.valid j c r hc r.2⟩ : Fin c) := by
          intro a b hab
          exact Fin.ext (h.inj j c a b hc a.2 b.2 (by simpa using congrArg Fin.val hab))
        have hsurj := Finite.injective_iff_surjective.1 hinj
        intro r hr
        obtain ⟨s, hs⟩ := hsurj ⟨r, hr⟩
        exact ⟨s, s.2, by simpa using congrArg Fin.val hs⟩
      choose! g hg using hs
      refine ⟨g, fun c' r hc' hr => ?_⟩
      rw [hc] at hc'
      obtain rfl := Option.some.inj hc'
      exact hg r hr
    · exact ⟨id, fun c r hc => absurd (lt_of_getElem?_some hc) hj⟩
  choose τ hτ using key
  refine ⟨τ, ⟨fun j c r hc hr => (hτ j c r hc hr).1, fun j c r s hc hr hs he => ?_⟩, fun j c r hc hr => ⟨?_, (hτ j c r hc hr).2⟩⟩
  · rw [← (hτ j c r hc hr).2, he, (hτ j c s hc hs).2]
  · have hv := h.valid j c r hc hr
    exact h.inj j c _ _ hc (hτ j c _ hc hv).1 hr (hτ j c _ hc hv).2

theorem renamed_valid (h : Renaming cats σ) (y : ℕ → ℕ → Cell) (i : ℕ) (hy : ValidResponses cats (y i)) :
    ValidResponses cats (renamed σ y i) := by
  intro j c hc hm
  unfold renamed at *
  rw [renameCell_missing] at hm
  obtain ⟨r, hr, hrc⟩ := hy j c hc hm
  refine ⟨σ j r, ?_, h.valid j c r hc hrc⟩
  rw [renameCell, if_neg (by simp [hm]), hr]
  simp [responseOf]

theorem renamed_likelihood (h : Follows cats σ P P') (y : ℕ → ℕ → Cell) (i : ℕ) (hy : ValidResponses cats (y i)) (θ : Fin d → ℝ) :
    observedLikelihood P' cats.length (renamed σ y i) θ = observedLikelihood P cats.length (y i) θ := by
  unfold observedLikelihood
  refine prod_congr rfl fun j hj => ?_
  rw [renamed, renameCell_missing]
  split
  · rfl
  · rename_i hm
    rw [Bool.not_eq_true] at hm
    obtain ⟨c, hc⟩ := getElem?_of_lt cats j (mem_range.1 hj)
    obtain ⟨r, hr, hrc⟩ := hy j c hc hm
    rw [renameCell_response _ _ hm, hr]
    exact h θ j c r hc hrc

theorem follows_positive (hσ : Renaming cats σ) (h : Follows cats σ P P') (hP : PositiveProbs P cats) : PositiveProbs P' cats := by
  intro θ j c r hc hr
  obtain ⟨τ, hτ, hinv⟩ := renaming_inverse hσ
  rw [← (hinv j c r hc hr).2, h θ j c _ hc (hτ.valid j c r hc hr)]
  exact hP θ j c _ hc (hτ.valid j c r hc hr)

/-- Renaming there and back gives the data again. -/
theorem renamed_back {τ : ℕ → ℕ → ℕ} (hinv : ∀ j c r, cats[j]? = some c → r < c → τ j (σ j r) = r) (N : ℕ) (y : ℕ → ℕ → Cell)
    (hy : ∀ i, i < N → ValidResponses cats (y i)) :
    rowsOf N cats.length (renamed τ (renamed σ y)) = rowsOf N cats.length y := by
  unfold rowsOf
  refine List.map_congr_left fun i hi => List.map_congr_left fun j hj => ?_
  obtain ⟨c, hc⟩ := getElem?_of_lt cats j (List.mem_range.1 hj)
  cases hm : cellMissing (y i j) with
  | true => simp [renamed, renameCell, hm]
  | false =>
    obtain ⟨r, hr, hrc⟩ := hy i (List.mem_range.1 hi) j c hc hm
    unfold renamed
    have h1 := renameCell_missing (σ j) (y i j)
    rw [hm] at h1
    rw [renameCell, if_neg (by simp [h1]), renameCell_response _ _ hm, hr]
    simp only [responseOf, Int.toNat_natCast]
    rw [hinv j c r hc hrc]

end Irt
