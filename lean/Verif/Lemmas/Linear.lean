import Verif.Model.Modules
import Verif.Spec.Modules
import Verif.Lemmas.Composite
import Verif.Lemmas.Nominal
import Verif.Lemmas.Categorical

/-! # Facts about `SoftplusLinear` and `NegationLayer` -/

namespace Irt

open Finset

theorem lengthFlat {α : Type*} (k : ℕ) (L : List (List α)) (h : ∀ r ∈ L, r.length = k) :
    L.flatten.length = L.length * k := by
  induction L with
  | nil => simp
  | cons r L ih =>
    simp only [List.flatten_cons, List.length_append, List.length_cons]
    rw [h r (by simp), ih fun q hq => h q (by simp [hq])]
    ring

/-- The layer as a matrix and a vector: the weight is zero where it is not free, positive where it is free
in a softplus layer; the bias is zero where it is not free. -/
theorem SoftplusLinear.matrix (l : SoftplusLinear) (h : l.WF) : ∃ (W : ℕ → ℕ → ℝ) (b : ℕ → ℝ),
    (∀ x : ℕ → ℝ, l.forward ((List.range l.inF).map x) =
      (List.range l.outF).map fun o => ∑ i ∈ range l.inF, x i * W o i + b o) ∧
    (∀ o, o < l.outF → ∀ i, i < l.inF → ∀ r, l.freeWeight[o]? = some r →
      (r[i]? = some false → W o i = 0) ∧ (r[i]? = some true → l.positive = true → 0 < W o i)) ∧
    (∀ o, l.freeBias[o]? = some false → b o = 0) := by
  have hfl : l.freeWeight.flatten.length = l.outF * l.inF := by rw [lengthFlat _ _ h.cols, h.rows]
  set raw : List ℝ := (if l.positive then l.rawWeight.map softplus else l.rawWeight) with hraw
  set flat := scatterMask (0 : ℝ) l.freeWeight.flatten raw with hflat
  have hlen : flat.length = l.outF * l.inF := by rw [hflat, length_scatterMask, hfl]
  have hrawlen : raw.length = countTrue l.freeWeight.flatten := by
    rw [hraw, ← h.weightLen]; split_ifs <;> simp
  have hbl : l.biases.length = l.outF := by
    unfold SoftplusLinear.biases; rw [length_scatterMask, h.biasRow]
  refine ⟨fun o i => flat.getD (o * l.inF + i) 0, fun o => l.biases.getD o 0, ?_, ?_, ?_⟩
  · intro x
    unfold SoftplusLinear.forward
    have hw : l.weight = (List.range l.outF).map fun o => (List.range l.inF).map fun i =>
        flat.getD (o * l.inF + i) 0 := by
      refine List.ext_getElem? fun o => ?_
      by_cases ho : o < l.outF
      · rw [List.getElem?_map, List.getElem?_range ho]
        refine viewRows_row l.outF l.inF flat hlen o ho _ fun i hi => ?_
        have : o * l.inF + i < flat.length := by
          rw [hlen]
          calc o * l.inF + i < o * l.inF + l.inF := by omega
            _ = (o + 1) * l.inF := by ring
            _ ≤ l.outF * l.inF := Nat.mul_le_mul_right _ ho
        rw [List.getD_eq_getElem?_getD, List.getElem?_eq_getElem this]; simp
      · have h1 : l.weight.length ≤ o := by
          unfold SoftplusLinear.weight
          rw [length_viewRows]; omega
        rw [List.getElem?_eq_none h1, List.getElem?_eq_none (by simpa using ho)]
    have hb : l.biases = (List.range l.outF).map fun o => l.biases.getD o 0 := by
      rw [← hbl]
      refine List.ext_getElem? fun o => ?_
      by_cases ho : o < l.biases.length
      · rw [List.getElem?_map, List.getElem?_range ho, List.getElem?_eq_getElem ho]
        simp [List.getD_eq_getElem?_getD, List.getElem?_eq_getElem ho]
      · rw [List.getElem?_eq_none (by omega), List.getElem?_eq_none (by simp; omega)]
    rw [hw]
    conv_lhs => rw [hb]
    rw [List.zipWith_map, List.zipWith_self]
    refine List.map_congr_left fun o _ => ?_
    congr 1
    unfold dot
    rw [List.zipWith_map, List.zipWith_self, list_sum_range]
  · intro o ho i hi r hr
    have hidx : l.freeWeight.flatten[o * l.inF + i]? = r[i]? := by
      have := flatten_getElem? l.inF l.freeWeight h.cols o i hi
      rw [this, hr]; rfl
    constructor
    · intro hf
      show flat.getD (o * l.inF + i) 0 = 0
      rw [List.getD_eq_getElem?_getD, hflat, scatterMask_false _ _ _ _ (by rw [hidx]; exact hf)]
      rfl
    · intro hf hp
      obtain ⟨v, hv, he⟩ := scatterMask_mem (0 : ℝ) l.freeWeight.flatten raw (o * l.inF + i) hrawlen
        (by rw [hidx]; exact hf)
      show 0 < flat.getD (o * l.inF + i) 0
      rw [List.getD_eq_getElem?_getD, hflat, he]
      rw [hraw, if_pos hp] at hv
      obtain ⟨u, -, rfl⟩ := List.mem_map.1 hv
      exact softplus_pos u
  · intro o ho
    show l.biases.getD o 0 = 0
    rw [List.getD_eq_getElem?_getD]
    unfold SoftplusLinear.biases
    rw [scatterMask_false _ _ _ _ ho]; rfl

/-- Two groups with the same number are the same block. -/
theorem sameBlock_iff (gi go : List ℕ) (si so o i : ℕ) : sameBlock gi go si so o i = true ↔
    ∃ g, g < gi.length ∧ g < go.length ∧ so + (go.take g).sum ≤ o ∧ o < so + (go.take (g + 1)).sum ∧
      si + (gi.take g).sum ≤ i ∧ i < si + (gi.take (g + 1)).sum := by
  induction gi generalizing go si so with
  | nil => simp [sameBlock]
  | cons a gi ih =>
    cases go with
    | nil => simp [sameBlock]
    | cons b go =>
      rw [sameBlock, Bool.or_eq_true, ih]
      constructor
      · rintro (h | ⟨g, h1, h2, h3, h4, h5, h6⟩)
        · simp only [Bool.and_eq_true, decide_eq_true_eq] at h
          exact ⟨0, by simp, by simp, by simpa using h.1.1, by simpa using h.1.2, by simpa using h.2.1,
            by simpa using h.2.2⟩
        · refine ⟨g + 1, by simpa using h1, by simpa using h2, ?_, ?_, ?_, ?_⟩ <;>
            simp only [List.take_succ_cons, List.sum_cons] at * <;> omega
      · rintro ⟨g, h1, h2, h3, h4, h5, h6⟩
        cases g with
        | zero =>
          left
          simp at h3 h4 h5 h6
          simp [h3, h4, h5, h6]
        | succ g =>
          right
          refine ⟨g, by simpa using h1, by simpa using h2, ?_, ?_, ?_, ?_⟩ <;>
            simp only [List.take_succ_cons, List.sum_cons] at * <;> omega

theorem length_evenGroups (outF groups : ℕ) (h : 0 < groups) : (evenGroups outF groups).length = groups := by
  unfold evenGroups
  have := Nat.mod_lt outF h
  simp; omega

theorem sum_evenGroups (outF groups : ℕ) (h : 0 < groups) : (evenGroups outF groups).sum = outF := by
  unfold evenGroups
  have h1 := Nat.mod_lt outF h
  have h2 := Nat.div_add_mod outF groups
  simp only [List.sum_append, List.sum_replicate, smul_eq_mul]
  generalize outF % groups = r at *
  obtain ⟨d, rfl⟩ : ∃ d, groups = r + d := ⟨groups - r, by omega⟩
  rw [Nat.add_sub_cancel_left]
  generalize outF / (r + d) = q at *
  rw [← h2]; ring

theorem take_sum_mono (l : List ℕ) {a b : ℕ} (h : a ≤ b) : (l.take a).sum ≤ (l.take b).sum := by
  obtain ⟨d, rfl⟩ := Nat.exists_eq_add_of_le h
  rw [List.take_add, List.sum_append]
  omega

theorem InGroup.unique {sizes : List ℕ} {g g' n : ℕ} (h : InGroup sizes g n) (h' : InGroup sizes g' n) :
    g = g' := by
  obtain ⟨-, h1, h2⟩ := h
  obtain ⟨-, h3, h4⟩ := h'
  rcases lt_trichotomy g g' with hlt | heq | hlt
  · have := take_sum_mono sizes (show g + 1 ≤ g' from hlt)
    omega
  · exact heq
  · have := take_sum_mono sizes (show g' + 1 ≤ g from hlt)
    omega

/-- `l` is the layer `l0` after training: same buffers, parameters of the same shapes with any values. -/
structure SoftplusLinear.Trained (l0 l : SoftplusLinear) : Prop where
  inF : l.inF = l0.inF
  outF : l.outF = l0.outF
  positive : l.positive = l0.positive
  freeWeight : l.freeWeight = l0.freeWeight
  freeBias : l.freeBias = l0.freeBias
  weightLen : l.rawWeight.length = l0.rawWeight.length
  biasLen : l.bias.length = l0.bias.length

/-- What a successful construction says about the masks. -/
theorem SoftplusLinear.init_ok {inF outF : ℕ} {sepIn sepOut : Option (List ℕ)}
    {zeroIn zeroOut : Option (List Bool)} {positive : Bool} {l0 : SoftplusLinear}
    (h : SoftplusLinear.init inF outF sepIn sepOut zeroIn zeroOut positive = .ok l0) :
    ∃ block : ℕ → ℕ → Bool,
      (∀ gi, sepIn = some gi → gi.sum = inF ∧ (sepOut.getD (evenGroups outF gi.length)).sum = outF ∧
        block = fun o i => sameBlock gi (sepOut.getD (evenGroups outF gi.length)) 0 0 o i) ∧
      (sepIn = none → sepOut = none ∧ block = fun _ _ => true) ∧
      (zeroOut.getD (List.replicate outF false)).length = outF ∧
      (zeroIn.getD (List.replicate inF false)).length = inF ∧
      l0.inF = inF ∧ l0.outF = outF ∧ l0.positive = positive ∧
      (l0.freeWeight = (List.range outF).map fun o => (List.range inF).map fun i =>
        block o i && !((zeroOut.getD (List.replicate outF false)).getD o false) &&
          !((zeroIn.getD (List.replicate inF false)).getD i false)) ∧
      l0.freeBias = (zeroOut.getD (List.replicate outF false)).map not ∧
      l0.rawWeight.length = countTrue l0.freeWeight.flatten ∧ l0.bias.length = countTrue l0.freeBias := by
  unfold SoftplusLinear.init at h
  cases sepIn with
  | some gi =>
    simp only at h
    split_ifs at h with h1 h2 h3 h4
    cases h
    refine ⟨fun o i => sameBlock gi (sepOut.getD (evenGroups outF gi.length)) 0 0 o i, ?_, ?_,
      not_not.1 h3, not_not.1 h4, rfl, rfl, rfl, rfl, rfl, by simp, by simp⟩
    · rintro _ ⟨⟩
      exact ⟨not_not.1 h1, not_not.1 h2, rfl⟩
    · intro h; cases h
  | none =>
    cases sepOut with
    | some go => cases h
    | none =>
      simp only at h
      split_ifs at h with h3 h4
      cases h
      exact ⟨fun _ _ => true, by simp, by simp, not_not.1 h3, not_not.1 h4, rfl, rfl, rfl, rfl, rfl, by simp,
        by simp⟩

theorem SoftplusLinear.Trained.wf {inF outF : ℕ} {sepIn sepOut : Option (List ℕ)}
    {zeroIn zeroOut : Option (List Bool)} {positive : Bool} {l0 l : SoftplusLinear}
    (h : SoftplusLinear.init inF outF sepIn sepOut zeroIn zeroOut positive = .ok l0) (ht : l0.Trained l) :
    l.WF := by
  obtain ⟨block, -, -, hzo, hzi, h1, h2, h3, h4, h5, h6, h7⟩ := SoftplusLinear.init_ok h
  refine ⟨?_, ?_, ?_, ?_, ?_⟩
  · rw [ht.freeWeight, h4, ht.outF, h2]; simp
  · intro r hr
    rw [ht.freeWeight, h4] at hr
    obtain ⟨o, -, rfl⟩ := List.mem_map.1 hr
    rw [ht.inF, h1]; simp
  · rw [ht.freeBias, h5, List.length_map, hzo, ht.outF, h2]
  · rw [ht.weightLen, h6, ht.freeWeight]
  · rw [ht.biasLen, h7, ht.freeBias]

end Irt
