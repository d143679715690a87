import Verif.Lemmas.ScoreDist
import Mathlib.Data.List.GetD
import Mathlib.Tactic.NormNum
import Mathlib.Tactic.IntervalCases

/-!
# C33: `conditional_score_distribution` is the distribution of the sum score
-/

namespace Irt

/-- C33. For at least one item, one category count per item, counts that are positive and not larger
than the probability row: the result has one entry per possible score `0 .. Σ (cᵢ - 1)` and entry `s` is
the total probability of the response patterns with sum `s`. -/
theorem C33_conditional_score_distribution (probs : List (List ℝ)) (cats : List ℕ)
    (hne : probs ≠ []) (hlen : probs.length = cats.length)
    (hv : ∀ i (h : i < cats.length), 1 ≤ cats[i] ∧ cats[i] ≤ (probs.getD i []).length) :
    ∃ d, conditionalScoreDistribution probs cats = .ok d ∧
      d.length = (cats.map (· - 1)).sum + 1 ∧
      ∀ s, s < d.length → d[s]? = some
        (sumScoreMass (fun i : Fin cats.length => cats[i]) (fun i k => (probs.getD i []).getD k 0) s) := by
  obtain ⟨p, ps, rfl⟩ := List.exists_cons_of_ne_nil hne
  cases cats with
  | nil => simp at hlen
  | cons c cs =>
    have hl : ps.length = cs.length := by simpa using hlen
    have h0 := hv 0 (by simp)
    simp only [List.getElem_cons_zero, List.getD_cons_zero] at h0
    have hvr : ∀ i (h : i < cs.length), 1 ≤ cs[i] ∧ cs[i] ≤ (ps.getD i []).length := by
      intro i h
      have := hv (i + 1) (by simpa using h)
      simpa using this
    have hzip : ∀ x ∈ List.zip ps cs, 1 ≤ x.2 ∧ x.2 ≤ x.1.length := by
      intro x hx
      obtain ⟨i, hi, rfl⟩ := List.getElem_of_mem hx
      have hi' : i < cs.length := by simp at hi; omega
      have hi2 : i < ps.length := by omega
      have := hvr i hi'
      simpa [List.getD_eq_getElem?_getD, List.getElem?_eq_getElem hi2] using this
    have hcs : (cs.map (· - 1)).sum + cs.length = cs.sum := by
      have : ∀ x ∈ cs, 1 ≤ x := by
        intro x hx
        obtain ⟨i, hi, rfl⟩ := List.getElem_of_mem hx
        exact (hvr i hi).1
      clear hvr hzip hv hlen hl
      induction cs with
      | nil => rfl
      | cons a l ih =>
        have h1 := this a (by simp)
        have := ih (fun x hx => this x (by simp [hx]))
        simp only [List.map_cons, List.sum_cons, List.length_cons]
        omega
    have hmax : ((((c :: cs).sum : ℕ) : ℤ) - ((p :: ps).length : ℤ) + 1).toNat =
        c - 1 + (cs.map (· - 1)).sum + 1 := by
      simp only [List.sum_cons, List.length_cons, hl]; omega
    have hnn : ¬ (((c :: cs).sum : ℕ) : ℤ) - ((p :: ps).length : ℤ) + 1 < 0 := by
      simp only [List.sum_cons, List.length_cons, hl]; omega
    have hdef : conditionalScoreDistribution (p :: ps) (c :: cs) = .ok (scoreLoop
      (List.zipWith (fun (k : ℕ) z => if k < c then p.getD k 0 else z)
        (List.range (c - 1 + (cs.map (· - 1)).sum + 1))
        (List.replicate (c - 1 + (cs.map (· - 1)).sum + 1) 0)) [c] ps cs) := by
      unfold conditionalScoreDistribution
      simp only [hnn, if_false, hmax]
      rw [if_neg (by omega)]
    rw [hdef]
    refine ⟨_, rfl, ?_⟩
    generalize hL : c - 1 + (cs.map (· - 1)).sum + 1 = L
    have hacc : (List.zipWith (fun (k : ℕ) z => if k < c then p.getD k 0 else z)
        (List.range L) (List.replicate L 0)).length = L := by simp
    obtain ⟨h1, h2⟩ := scoreLoop_coeff ps cs (List.zipWith
        (fun (k : ℕ) z => if k < c then p.getD k 0 else z) (List.range L) (List.replicate L 0)) [c]
      (rowPoly (fun k => p.getD k 0) c) hl hzip (by simpa using h0.1)
      (by rw [hacc]; simp only [List.sum_cons, List.sum_nil, List.length_cons, List.length_nil]; omega)
      (by
        intro k hk
        refine rowPoly_natDegree_le _ _ _ ?_
        simp only [List.sum_cons, List.sum_nil, List.length_cons, List.length_nil] at hk; omega)
      (by
        intro k hk
        rw [hacc] at hk
        rw [rowPoly_coeff]
        simp [List.getD_eq_getElem?_getD, hk])
    rw [hacc] at h1 h2
    refine ⟨by rw [h1]; simp only [List.map_cons, List.sum_cons]; omega, ?_⟩
    intro s hs
    rw [h1] at hs
    rw [List.getElem?_eq_getElem (by rw [h1]; exact hs)]
    have h3 := h2 s hs
    rw [List.getD_eq_getElem?_getD, List.getElem?_eq_getElem (by rw [h1]; exact hs)] at h3
    rw [Option.getD_some] at h3
    rw [h3, ← genPoly_coeff (p :: ps) (c :: cs) hlen s]
    simp [genPoly]

/-- The specification itself has total mass `∏ᵢ Σₖ P i k`; with proper item distributions, one. -/
theorem C33_total_mass {n : ℕ} (cats : Fin n → ℕ) (P : Fin n → ℕ → ℝ) (h1 : ∀ i, 1 ≤ cats i) :
    ∑ s ∈ Finset.range (∑ i, (cats i - 1) + 1), sumScoreMass cats P s =
      ∏ i, ∑ k ∈ Finset.range (cats i), P i k := by
  unfold sumScoreMass
  rw [Finset.prod_univ_sum]
  refine Finset.sum_fiberwise_of_maps_to (fun r hr => ?_) _
  rw [Fintype.mem_piFinset] at hr
  rw [Finset.mem_range, Nat.lt_succ_iff]
  refine Finset.sum_le_sum fun i _ => ?_
  have := hr i
  rw [Finset.mem_range] at this
  have := h1 i
  omega

/-- C33: if every item row is a probability distribution over its categories, the returned score
distribution is one: nonnegative entries that sum to one. -/
theorem C33_is_distribution (probs : List (List ℝ)) (cats : List ℕ)
    (hne : probs ≠ []) (hlen : probs.length = cats.length)
    (hv : ∀ i (h : i < cats.length), 1 ≤ cats[i] ∧ cats[i] ≤ (probs.getD i []).length)
    (hnn : ∀ p ∈ probs, ∀ x ∈ p, 0 ≤ x)
    (hsum : ∀ i (h : i < cats.length), ((probs.getD i []).take cats[i]).sum = 1) :
    ∃ d, conditionalScoreDistribution probs cats = .ok d ∧ d.sum = 1 ∧ ∀ x ∈ d, 0 ≤ x := by
  obtain ⟨d, hd, hl, he⟩ := C33_conditional_score_distribution probs cats hne hlen hv
  refine ⟨d, hd, ?_, ?_⟩
  · have e : d.sum = ∑ s ∈ Finset.range d.length, sumScoreMass (fun i : Fin cats.length => cats[i])
        (fun i k => (probs.getD i []).getD k 0) s := by
      rw [← Fin.sum_univ_getElem, Finset.sum_range]
      refine Finset.sum_congr rfl fun i _ => ?_
      have := he i i.2
      rw [List.getElem?_eq_getElem i.2] at this
      exact Option.some.inj this
    have hl2 : d.length = ∑ i : Fin cats.length, (cats[i] - 1) + 1 := by
      rw [hl]
      congr 1
      rw [← Fin.sum_univ_getElem]
      refine Fintype.sum_equiv (finCongr (by simp)) _ _ (fun i => by simp)
    rw [e, hl2, C33_total_mass (fun i : Fin cats.length => cats[i]) _ (fun i => (hv i i.2).1)]
    refine Finset.prod_eq_one fun i _ => ?_
    rw [← hsum i i.2, ← Fin.sum_univ_getElem, Finset.sum_range]
    refine Fintype.sum_equiv (finCongr (by rw [List.length_take]; exact (min_eq_left (hv i i.2).2).symm)) _ _ (fun k => ?_)
    have hk : (k : ℕ) < (probs.getD i []).length := lt_of_lt_of_le k.2 (hv i i.2).2
    rw [List.getD_eq_getElem _ _ hk]
    simp
  · intro x hx
    obtain ⟨s, hs, rfl⟩ := List.getElem_of_mem hx
    have := he s hs
    rw [List.getElem?_eq_getElem hs] at this
    rw [Option.some.inj this]
    refine Finset.sum_nonneg fun r _ => Finset.prod_nonneg fun i _ => ?_
    change 0 ≤ (probs.getD i []).getD (r i) 0
    rw [List.getD_eq_getElem?_getD]
    rcases h : (probs.getD i [])[r i]? with _ | x
    · simp
    · have hp : probs.getD i [] ∈ probs := by
        rw [List.getD_eq_getElem _ _ (by omega)]; exact List.getElem_mem _
      exact hnn _ hp x (List.mem_of_getElem? h)

/-- Two items with two and three categories. -/
example : ∃ d, conditionalScoreDistribution [[1/2, 1/2, 0], [1/4, 1/4, 1/2]] [2, 3] = .ok d ∧
    d.sum = 1 ∧ ∀ x ∈ d, 0 ≤ x := by
  refine C33_is_distribution _ _ (by simp) rfl ?_ ?_ ?_
  · intro i h; simp at h; interval_cases i <;> simp
  · intro p hp x hx; simp at hp; rcases hp with rfl | rfl <;> (simp at hx; rcases hx with rfl | rfl) <;> norm_num
  · intro i h; simp at h; interval_cases i <;> norm_num [List.take]

/-- The recursion on the two items above, evaluated. -/
example : conditionalScoreDistribution [[1/2, 1/2, 0], [1/4, 1/4, 1/2]] [2, 3] =
    .ok [1/8, 1/4, 3/8, 1/4] := by
  simp [conditionalScoreDistribution, scoreLoop, scoreStep, addSlice, List.range_succ]
  norm_num

/-- C33/C60 for multiple choice: collapsing to wrong/right keeps each item's total and puts the key's
probability in the second column. -/
theorem C33_sum_incorrect (probs : List (List ℝ)) (mc : List ℕ) (i : ℕ) (p : List ℝ) (k : ℕ)
    (hp : probs[i]? = some p) (hk : mc[i]? = some k) (hkl : k < p.length) :
    ∃ w, (sumIncorrectProbabilities probs mc)[i]? = some [w, p[k]] ∧ w + p[k] = p.sum ∧
      w = ∑ j ∈ (Finset.range p.length).erase k, p.getD j 0 := by
  refine ⟨(p.take k ++ p.drop (k + 1)).sum, ?_, ?_, ?_⟩
  · simp [sumIncorrectProbabilities, List.getElem?_zipWith, hp, hk,
      List.getElem?_eq_getElem hkl]
  · conv_rhs => rw [← List.take_append_drop k p, List.drop_eq_getElem_cons hkl]
    simp only [List.sum_append, List.sum_cons]; ring
  · have e : p.sum = ∑ j ∈ Finset.range p.length, p.getD j 0 := by
      rw [← Fin.sum_univ_getElem, Finset.sum_range]
      refine Finset.sum_congr rfl fun j _ => ?_
      rw [List.getD_eq_getElem _ _ j.2]
    have h2 : (p.take k ++ p.drop (k + 1)).sum + p[k] = p.sum := by
      conv_rhs => rw [← List.take_append_drop k p, List.drop_eq_getElem_cons hkl]
      simp only [List.sum_append, List.sum_cons]; ring
    rw [← Finset.add_sum_erase _ _ (Finset.mem_range.2 hkl), List.getD_eq_getElem _ _ hkl] at e
    linarith

example : sumIncorrectProbabilities [[1/2, 1/4, 1/4]] [1] = [[3/4, 1/4]] := by
  norm_num [sumIncorrectProbabilities]

end Irt
