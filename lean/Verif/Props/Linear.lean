import Verif.Lemmas.Linear

/-!
# C15: `SoftplusLinear`

`l0` is what the constructor returned, `l` the same layer after any training (`Trained`: same masks, any
parameter values). The input row is `(List.range inF).map x`, i.e. `x 0, ..., x (inF - 1)`.
-/

namespace Irt

open Finset

section
variable {inF outF : ℕ} {sepIn sepOut : Option (List ℕ)} {zeroIn zeroOut : Option (List Bool)}
  {positive : Bool} {l0 l : SoftplusLinear}

/-- C15: the layer returns one number per output. -/
theorem C15_output_count
    (h : SoftplusLinear.init inF outF sepIn sepOut zeroIn zeroOut positive = .ok l0) (ht : l0.Trained l)
    (x : ℕ → ℝ) : (l.forward ((List.range inF).map x)).length = outF := by
  obtain ⟨block, -, -, -, -, h1, h2, -⟩ := SoftplusLinear.init_ok h
  obtain ⟨W, b, hf, -, -⟩ := l.matrix (ht.wf h)
  rw [ht.inF, h1] at hf
  rw [hf x, ht.outF, h2]; simp

/-- C15: an output of group `g` depends only on the inputs of group `g`. -/
theorem C15_groups_separate {gi go : List ℕ}
    (h : SoftplusLinear.init inF outF (some gi) (some go) zeroIn zeroOut positive = .ok l0)
    (ht : l0.Trained l) (g o : ℕ) (ho : InGroup go g o) (x x' : ℕ → ℝ)
    (hx : ∀ i, InGroup gi g i → x i = x' i) :
    (l.forward ((List.range inF).map x))[o]? = (l.forward ((List.range inF).map x'))[o]? := by
  obtain ⟨block, hb, -, -, -, h1, h2, -, h4, -⟩ := SoftplusLinear.init_ok h
  obtain ⟨W, b, hf, hW, -⟩ := l.matrix (ht.wf h)
  obtain ⟨-, -, rfl⟩ := hb gi rfl
  simp only [Option.getD_some] at h4
  rw [ht.inF, h1, ht.outF, h2] at hf
  rw [ht.inF, h1, ht.outF, h2, ht.freeWeight, h4] at hW
  rw [hf x, hf x', List.getElem?_map, List.getElem?_map]
  by_cases hoF : o < outF
  · rw [List.getElem?_range hoF]
    simp only [Option.map_some, Option.some.injEq]
    congr 1
    refine sum_congr rfl fun i hi => ?_
    have hiF := mem_range.1 hi
    by_cases hg : InGroup gi g i
    · rw [hx i hg]
    · have hnb : sameBlock gi go 0 0 o i = false := by
        rw [Bool.eq_false_iff]
        intro hs
        obtain ⟨g', q1, q2, q3, q4, q5, q6⟩ := (sameBlock_iff gi go 0 0 o i).1 hs
        have e : g = g' := ho.unique ⟨q2, by omega, by omega⟩
        subst e
        exact hg ⟨q1, by omega, by omega⟩
      rw [(hW o hoF i hiF _ (by rw [List.getElem?_map, List.getElem?_range hoF]; rfl)).1]
      · ring
      · rw [List.getElem?_map, List.getElem?_range hiF]
        simp [hnb]
  · rw [List.getElem?_eq_none (by simpa using hoF)]; rfl

/-- C15: when only the input groups are given, the outputs are divided over them as evenly as possible,
and the layer is the one with those output groups. -/
theorem C15_default_groups (gi : List ℕ) (hg : gi ≠ []) :
    SoftplusLinear.init inF outF (some gi) none zeroIn zeroOut positive =
      SoftplusLinear.init inF outF (some gi) (some (evenGroups outF gi.length)) zeroIn zeroOut positive ∧
    (evenGroups outF gi.length).length = gi.length ∧ (evenGroups outF gi.length).sum = outF ∧
    (∀ a ∈ evenGroups outF gi.length, ∀ b ∈ evenGroups outF gi.length, a ≤ b + 1) := by
  have hpos : 0 < gi.length := List.length_pos_of_ne_nil hg
  refine ⟨rfl, length_evenGroups _ _ hpos, sum_evenGroups _ _ hpos, ?_⟩
  intro a ha b hb
  unfold evenGroups at ha hb
  simp only [List.mem_append, List.mem_replicate] at ha hb
  omega

/-- C15: the outputs are nondecreasing in every input. -/
theorem C15_nondecreasing
    (h : SoftplusLinear.init inF outF sepIn sepOut zeroIn zeroOut true = .ok l0) (ht : l0.Trained l)
    (x x' : ℕ → ℝ) (hx : ∀ i, i < inF → x i ≤ x' i) :
    List.Forall₂ (· ≤ ·) (l.forward ((List.range inF).map x)) (l.forward ((List.range inF).map x')) := by
  obtain ⟨block, -, -, -, -, h1, h2, h3, h4, -⟩ := SoftplusLinear.init_ok h
  obtain ⟨W, b, hf, hW, -⟩ := l.matrix (ht.wf h)
  rw [ht.inF, h1, ht.outF, h2] at hf
  rw [ht.inF, h1, ht.outF, h2, ht.freeWeight, h4] at hW
  rw [hf x, hf x', List.forall₂_map_left_iff, List.forall₂_map_right_iff, List.forall₂_same]
  intro o ho
  have hoF := List.mem_range.1 ho
  refine add_le_add_left (sum_le_sum fun i hi => ?_) _
  have hiF := mem_range.1 hi
  have hW' := hW o hoF i hiF _ (by rw [List.getElem?_map, List.getElem?_range hoF]; rfl)
  refine mul_le_mul_of_nonneg_right (hx i hiF) ?_
  rw [List.getElem?_map, List.getElem?_range hiF, Option.map_some] at hW'
  rcases Bool.eq_false_or_eq_true (block o i && !((zeroOut.getD (List.replicate outF false)).getD o false) &&
      !((zeroIn.getD (List.replicate inF false)).getD i false)) with hb | hb
  · exact (hW'.2 (by rw [hb]) (by rw [ht.positive, h3])).le
  · exact (hW'.1 (by rw [hb])).ge

/-- C15: within a group, and outside zeroed inputs and outputs, the output is strictly increasing in the
input, so the layer never ignores an input it should use. -/
theorem C15_strictly_increasing {gi go : List ℕ}
    (h : SoftplusLinear.init inF outF (some gi) (some go) none none true = .ok l0) (ht : l0.Trained l)
    (g o i : ℕ) (ho : InGroup go g o) (hi : InGroup gi g i) (x : ℕ → ℝ) (t t' : ℝ) (htt : t < t') :
    ∃ y y', (l.forward ((List.range inF).map (Function.update x i t)))[o]? = some y ∧
      (l.forward ((List.range inF).map (Function.update x i t')))[o]? = some y' ∧ y < y' := by
  obtain ⟨block, hb, -, -, -, h1, h2, h3, h4, -⟩ := SoftplusLinear.init_ok h
  obtain ⟨W, b, hf, hW, -⟩ := l.matrix (ht.wf h)
  obtain ⟨hsi, hso, rfl⟩ := hb gi rfl
  simp only [Option.getD_some, Option.getD_none] at h4 hso
  rw [ht.inF, h1, ht.outF, h2] at hf
  rw [ht.inF, h1, ht.outF, h2, ht.freeWeight, h4] at hW
  have hoF : o < outF := by
    have := take_sum_mono go (show g + 1 ≤ go.length from ho.1)
    rw [List.take_length] at this
    have := ho.2.2
    omega
  have hiF : i < inF := by
    have := take_sum_mono gi (show g + 1 ≤ gi.length from hi.1)
    rw [List.take_length] at this
    have := hi.2.2
    omega
  have hW' := (hW o hoF i hiF _ (by rw [List.getElem?_map, List.getElem?_range hoF]; rfl)).2
    (by
      rw [List.getElem?_map, List.getElem?_range hiF]
      have hs : sameBlock gi go 0 0 o i = true := (sameBlock_iff gi go 0 0 o i).2
        ⟨g, hi.1, ho.1, by have := ho.2.1; omega, by have := ho.2.2; omega, by have := hi.2.1; omega,
          by have := hi.2.2; omega⟩
      simp [hs, List.getElem?_replicate, hoF, hiF])
    (by rw [ht.positive, h3])
  refine ⟨∑ j ∈ range inF, Function.update x i t j * W o j + b o,
    ∑ j ∈ range inF, Function.update x i t' j * W o j + b o, ?_, ?_, ?_⟩
  · rw [hf, List.getElem?_map, List.getElem?_range hoF]; rfl
  · rw [hf, List.getElem?_map, List.getElem?_range hoF]; rfl
  · refine add_lt_add_left (sum_lt_sum (fun j _ => ?_) ⟨i, mem_range.2 hiF, ?_⟩) _
    · by_cases hj : j = i
      · subst hj
        simp only [Function.update_self]
        exact mul_le_mul_of_nonneg_right htt.le hW'.le
      · simp only [Function.update_of_ne hj]; exact le_rfl
    · simp only [Function.update_self]
      exact mul_lt_mul_of_pos_right htt hW'

/-- C15: a zeroed output is exactly zero, for every input and every parameter value. -/
theorem C15_zero_output {z : List Bool}
    (h : SoftplusLinear.init inF outF sepIn sepOut zeroIn (some z) positive = .ok l0) (ht : l0.Trained l)
    (x : ℕ → ℝ) (o : ℕ) (hz : z[o]? = some true) : (l.forward ((List.range inF).map x))[o]? = some 0 := by
  obtain ⟨block, -, -, hzo, -, h1, h2, -, h4, h5, -⟩ := SoftplusLinear.init_ok h
  obtain ⟨W, b, hf, hW, hb⟩ := l.matrix (ht.wf h)
  rw [ht.inF, h1, ht.outF, h2] at hf
  rw [ht.inF, h1, ht.outF, h2, ht.freeWeight, h4] at hW
  simp only [Option.getD_some] at hzo h5 hW
  have hoF : o < outF := by rw [← hzo]; exact (List.getElem?_eq_some_iff.1 hz).1
  rw [hf, List.getElem?_map, List.getElem?_range hoF, Option.map_some]
  rw [hb o (by rw [ht.freeBias, h5, List.getElem?_map, hz]; rfl), sum_eq_zero, add_zero]
  intro i hi
  have hiF := mem_range.1 hi
  rw [(hW o hoF i hiF _ (by rw [List.getElem?_map, List.getElem?_range hoF]; rfl)).1, mul_zero]
  rw [List.getElem?_map, List.getElem?_range hiF]
  simp [List.getD_eq_getElem?_getD, hz]

/-- C15: a zeroed input has no influence on any output. -/
theorem C15_zero_input {z : List Bool}
    (h : SoftplusLinear.init inF outF sepIn sepOut (some z) zeroOut positive = .ok l0) (ht : l0.Trained l)
    (x x' : ℕ → ℝ) (hx : ∀ i, z[i]? = some false → x i = x' i) :
    l.forward ((List.range inF).map x) = l.forward ((List.range inF).map x') := by
  obtain ⟨block, -, -, -, hzi, h1, h2, -, h4, h5, -⟩ := SoftplusLinear.init_ok h
  obtain ⟨W, b, hf, hW, hb⟩ := l.matrix (ht.wf h)
  rw [ht.inF, h1, ht.outF, h2] at hf
  rw [ht.inF, h1, ht.outF, h2, ht.freeWeight, h4] at hW
  simp only [Option.getD_some] at hzi hW
  rw [hf, hf]
  refine List.map_congr_left fun o ho => ?_
  have hoF := List.mem_range.1 ho
  congr 1
  refine sum_congr rfl fun i hi => ?_
  have hiF := mem_range.1 hi
  have hzlt : i < z.length := by omega
  rcases hzv : z[i] with _ | _
  · rw [hx i (by rw [List.getElem?_eq_getElem hzlt, hzv])]
  · rw [(hW o hoF i hiF _ (by rw [List.getElem?_map, List.getElem?_range hoF]; rfl)).1, mul_zero, mul_zero]
    rw [List.getElem?_map, List.getElem?_range hiF]
    simp [List.getD_eq_getElem?_getD, List.getElem?_eq_getElem hzlt, hzv]

/-- C15: group sizes that do not add up, or output groups without input groups, are refused. -/
theorem C15_bad_groups_refused (gi go : List ℕ) :
    (gi.sum ≠ inF → SoftplusLinear.init inF outF (some gi) sepOut zeroIn zeroOut positive = .error .valueError) ∧
    (go.sum ≠ outF →
      SoftplusLinear.init inF outF sepIn (some go) zeroIn zeroOut positive = .error .valueError) ∧
    SoftplusLinear.init inF outF none (some go) zeroIn zeroOut positive = .error .valueError := by
  refine ⟨fun h => by simp [SoftplusLinear.init, h], fun h => ?_, rfl⟩
  cases sepIn with
  | none => rfl
  | some g =>
    simp only [SoftplusLinear.init, Option.getD_some, h]
    split_ifs <;> rfl

end

/-! Concrete layers: groups of 1 and 2 inputs feeding groups of 2 and 1 outputs, one output zeroed. -/

example : ∃ l0, SoftplusLinear.init 3 3 (some [1, 2]) (some [2, 1]) none (some [false, true, false]) true =
    .ok l0 := by simp [SoftplusLinear.init]

example : InGroup [2, 1] 0 1 ∧ InGroup [1, 2] 0 0 ∧ ¬ InGroup [1, 2] 0 1 := by simp [InGroup]

example : ∃ l0, SoftplusLinear.init 3 3 (some [1, 2]) (some [2, 1]) none none true = .ok l0 ∧ l0.Trained l0 := by
  simp only [SoftplusLinear.init]
  exact ⟨_, by simp; rfl, ⟨rfl, rfl, rfl, rfl, rfl, rfl, rfl⟩⟩

example : ∃ l0, SoftplusLinear.init 3 5 (some [1, 2]) none (some [false, true, false]) none true = .ok l0 := by
  simp [SoftplusLinear.init, evenGroups]

end Irt
