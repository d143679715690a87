import Verif.Props.LargeSample
import Verif.Spec.ModelChoice

/-! # C142: a wrong model rarely does better on new respondents -/

namespace Irt
open Spec Finset

/-! ## Likelihood ratios -/

section Ratio

variable {N : ℕ} {cats : List ℕ} (p q : Fin N → (Fin cats.length → ℕ) → ℝ) (hp : ∀ i, ∀ x ∈ fullAnswers cats, 0 < p i x)
  (hq : ∀ i, ∀ x ∈ fullAnswers cats, 0 < q i x)

theorem answersProb_sum : ∑ s ∈ samples N cats, answersProb q s = ∏ i, ∑ x ∈ fullAnswers cats, q i x := by
  unfold samples answersProb
  rw [Finset.prod_univ_sum]

include hp hq in
theorem overlap_sum : ∑ s ∈ samples N cats, √(answersProb p s * answersProb q s) = ∏ i, overlap cats (p i) (q i) := by
  have e : ∀ s ∈ samples N cats, √(answersProb p s * answersProb q s) = ∏ i, √(p i (s i) * q i (s i)) := fun s hs => by
    have hmem := Fintype.mem_piFinset.1 hs
    unfold answersProb
    rw [← prod_mul_distrib, Real.sqrt_prod _ fun i _ => (mul_pos (hp i _ (hmem i)) (hq i _ (hmem i))).le]
  rw [sum_congr rfl e]
  unfold samples overlap
  rw [Finset.prod_univ_sum]

include hp hq in
theorem ratio_event (a : ℝ) (bad : Finset (Fin N → Fin cats.length → ℕ)) (hbad : bad ⊆ samples N cats)
    (h : ∀ s ∈ bad, ∑ i, Real.log (p i (s i)) + a ≤ ∑ i, Real.log (q i (s i))) :
    ∀ s ∈ bad, 0 < answersProb p s ∧ 0 < answersProb q s ∧ answersProb p s * Real.exp a ≤ answersProb q s := by
  intro s hs
  have hmem := Fintype.mem_piFinset.1 (hbad hs)
  have h1 : 0 < answersProb p s := prod_pos fun i _ => hp i _ (hmem i)
  have h2 : 0 < answersProb q s := prod_pos fun i _ => hq i _ (hmem i)
  refine ⟨h1, h2, ?_⟩
  have := h s hs
  rw [← Real.log_prod fun i _ => (hp i _ (hmem i)).ne', ← Real.log_prod fun i _ => (hq i _ (hmem i)).ne'] at this
  have := Real.exp_le_exp.2 this
  rwa [Real.exp_add, Real.exp_log (show 0 < ∏ i, p i (s i) from h1), Real.exp_log (show 0 < ∏ i, q i (s i) from h2)] at this

include hp hq in
/-- Samples whose likelihood ratio is at least `exp a` are rare. -/
theorem ratio_markov (hsum : ∀ i, ∑ x ∈ fullAnswers cats, q i x = 1) (a : ℝ) (bad : Finset (Fin N → Fin cats.length → ℕ)) (hbad : bad ⊆ samples N cats)
    (h : ∀ s ∈ bad, ∑ i, Real.log (p i (s i)) + a ≤ ∑ i, Real.log (q i (s i))) : ∑ s ∈ bad, answersProb p s ≤ Real.exp (-a) := by
  have hev := ratio_event p q hp hq a bad hbad h
  have h1 : ∑ s ∈ bad, answersProb p s ≤ ∑ s ∈ bad, answersProb q s * Real.exp (-a) := sum_le_sum fun s hs => by
    obtain ⟨_, _, h3⟩ := hev s hs
    rw [Real.exp_neg, ← div_eq_mul_inv, le_div_iff₀ (Real.exp_pos _)]
    exact h3
  refine h1.trans ?_
  rw [← sum_mul]
  have h2 : ∑ s ∈ bad, answersProb q s ≤ 1 := by
    refine (sum_le_sum_of_subset_of_nonneg hbad fun s hs _ => (show 0 ≤ answersProb q s from
      prod_nonneg fun i _ => (hq i _ (Fintype.mem_piFinset.1 hs i)).le)).trans ?_
    rw [answersProb_sum, prod_congr rfl fun i _ => hsum i]
    simp
  nlinarith [Real.exp_pos (-a)]

include hp hq in
theorem ratio_overlap (a : ℝ) (bad : Finset (Fin N → Fin cats.length → ℕ)) (hbad : bad ⊆ samples N cats)
    (h : ∀ s ∈ bad, ∑ i, Real.log (p i (s i)) + a ≤ ∑ i, Real.log (q i (s i))) :
    ∑ s ∈ bad, answersProb p s ≤ Real.exp (-a / 2) * ∏ i, overlap cats (p i) (q i) := by
  have hev := ratio_event p q hp hq a bad hbad h
  have h1 : ∑ s ∈ bad, answersProb p s ≤ ∑ s ∈ bad, √(answersProb p s * answersProb q s) * Real.exp (-a / 2) := sum_le_sum fun s hs => by
    obtain ⟨h1, h2, h3⟩ := hev s hs
    have e : answersProb p s = √(answersProb p s * (answersProb p s * Real.exp a)) * Real.exp (-a / 2) := by
      rw [← mul_assoc, Real.sqrt_mul (by positivity), Real.sqrt_mul_self h1.le, ← Real.exp_half, mul_assoc, ← Real.exp_add]
      ring_nf
      simp
    calc answersProb p s = √(answersProb p s * (answersProb p s * Real.exp a)) * Real.exp (-a / 2) := e
      _ ≤ _ := mul_le_mul_of_nonneg_right (Real.sqrt_le_sqrt (mul_le_mul_of_nonneg_left h3 h1.le)) (Real.exp_pos _).le
  refine h1.trans ?_
  rw [← sum_mul, mul_comm, ← overlap_sum p q hp hq]
  exact mul_le_mul_of_nonneg_left (sum_le_sum_of_subset_of_nonneg hbad fun s _ _ => Real.sqrt_nonneg _) (Real.exp_pos _).le

end Ratio

theorem overlap_le {cats : List ℕ} (p q : (Fin cats.length → ℕ) → ℝ) (hp : ∀ x ∈ fullAnswers cats, 0 ≤ p x)
    (hq : ∀ x ∈ fullAnswers cats, 0 ≤ q x) (hp1 : ∑ x ∈ fullAnswers cats, p x = 1) (hq1 : ∑ x ∈ fullAnswers cats, q x = 1) :
    0 ≤ overlap cats p q ∧ overlap cats p q ≤ Real.exp (-(patternDistance cats q p) ^ 2 / 8) := by
  have h0 : 0 ≤ overlap cats p q := sum_nonneg fun x _ => Real.sqrt_nonneg _
  refine ⟨h0, ?_⟩
  have hcs : (patternDistance cats q p) ^ 2 ≤ (∑ x ∈ fullAnswers cats, (√(q x) - √(p x)) ^ 2) * ∑ x ∈ fullAnswers cats, (√(q x) + √(p x)) ^ 2 := by
    have e : patternDistance cats q p = ∑ x ∈ fullAnswers cats, |√(q x) - √(p x)| * (√(q x) + √(p x)) := by
      refine sum_congr rfl fun x hx => ?_
      rw [← abs_of_nonneg (add_nonneg (Real.sqrt_nonneg (q x)) (Real.sqrt_nonneg (p x))), ← abs_mul]
      congr 1
      linear_combination Real.sq_sqrt (hp x hx) - Real.sq_sqrt (hq x hx)
    rw [e]
    refine (Finset.sum_mul_sq_le_sq_mul_sq _ _ _).trans (le_of_eq ?_)
    simp only [sq_abs]
  have e1 : ∑ x ∈ fullAnswers cats, (√(q x) - √(p x)) ^ 2 = 2 - 2 * overlap cats p q := by
    have : ∀ x ∈ fullAnswers cats, (√(q x) - √(p x)) ^ 2 = q x + p x - 2 * √(p x * q x) := fun x hx => by
      rw [Real.sqrt_mul (hp x hx)]
      linear_combination Real.sq_sqrt (hp x hx) + Real.sq_sqrt (hq x hx)
    rw [sum_congr rfl this, sum_sub_distrib, sum_add_distrib, hp1, hq1, ← mul_sum, overlap]
    ring
  have e2 : ∑ x ∈ fullAnswers cats, (√(q x) + √(p x)) ^ 2 = 2 + 2 * overlap cats p q := by
    have : ∀ x ∈ fullAnswers cats, (√(q x) + √(p x)) ^ 2 = q x + p x + 2 * √(p x * q x) := fun x hx => by
      rw [Real.sqrt_mul (hp x hx)]
      linear_combination Real.sq_sqrt (hp x hx) + Real.sq_sqrt (hq x hx)
    rw [sum_congr rfl this, sum_add_distrib, sum_add_distrib, hp1, hq1, ← mul_sum, overlap]
    ring
  rw [e1, e2] at hcs
  set D := patternDistance cats q p
  have hA : overlap cats p q ^ 2 ≤ Real.exp (-D ^ 2 / 8) ^ 2 := by
    rw [← Real.exp_nat_mul]
    have := Real.add_one_le_exp (((2 : ℕ) : ℝ) * (-D ^ 2 / 8))
    push_cast at this ⊢
    nlinarith
  exact le_of_sq_le_sq hA (Real.exp_pos _).le

/-! ## The evaluator's log likelihood of new respondents -/

theorem answerProb_pos {d : ℕ} {cats : List ℕ} {P : (Fin d → ℝ) → ℕ → ℕ → ℝ} (hpos : PositiveProbs P cats) (θ : Fin d → ℝ)
    {x : Fin cats.length → ℕ} (hx : x ∈ fullAnswers cats) : 0 < answerProb P θ x :=
  prod_pos fun j _ => hpos θ j cats[j] (x j) (by simp) (mem_range.1 (Fintype.mem_piFinset.1 hx j))

theorem evaluator_sample {d : ℕ} {m : Scorer d} {cats : List ℕ} {P : (Fin d → ℝ) → ℕ → ℕ → ℝ} (hm : IsScorer m cats P)
    (hpos : PositiveProbs P cats) {N : ℕ} (t : ℕ → Fin d → ℝ) {s : Fin N → Fin cats.length → ℕ} (hs : s ∈ samples N cats) :
    evaluatorLogLikelihood m "sum" "all" ((List.range N).map t) (dataOf N cats.length (sampleCells s))
      = .ok (.scalar (some (∑ i : Fin N, Real.log (answerProb P (t i) (s i))))) := by
  have h := (C59_sums hm N t (sampleCells s) (sampleCells_valid hs)).2.2
  rw [hm.items] at h
  rw [h]
  congr 3
  rw [sum_range]
  refine sum_congr rfl fun i _ => ?_
  have hx := Fintype.mem_piFinset.1 hs i
  have hobs : ∀ j : Fin cats.length, IsObserved (answersToAll (s i) j) := fun j => ⟨s i j, answersToAll_at (s i) j, by omega⟩
  have hp : ∀ j : Fin cats.length, 0 < P (t i) j (s i j) := fun j =>
    hpos (t i) j cats[j] (s i j) (by simp) (mem_range.1 (Fintype.mem_piFinset.1 hx j))
  rw [sampleCells, dif_pos i.2, sum_filter, sum_range, answerProb, Real.log_prod fun j _ => (hp j).ne']
  refine sum_congr rfl fun j _ => ?_
  rw [if_pos (hobs j), answersToAll_at]
  simp [responseOf, flooredLog, (hp j).ne']

section LogLik

variable {d d' : ℕ} {m : Scorer d} {m' : Scorer d'} {cats : List ℕ} {P : (Fin d → ℝ) → ℕ → ℕ → ℝ}
    {P' : (Fin d' → ℝ) → ℕ → ℕ → ℝ} (hm : IsScorer m cats P) (hpos : PositiveProbs P cats) (hP : ProperProbs P cats)
    (hm' : IsScorer m' cats P') (hpos' : PositiveProbs P' cats) (hP' : ProperProbs P' cats)

include hm hpos hP hm' hpos' hP' in
/-- C142: the answers of `N` respondents with latent scores `t i` follow the model `m`. The probability that the evaluator's log
likelihood of another model, at any other scores chosen without these answers, is larger by `a` or more. -/
theorem C142_log_likelihood {N : ℕ} (t : ℕ → Fin d → ℝ) (t' : ℕ → Fin d' → ℝ) (a : ℝ) (bad : Finset (Fin N → Fin cats.length → ℕ))
    (hbad : bad ⊆ samples N cats)
    (h : ∀ s ∈ bad, ∃ L L', evaluatorLogLikelihood m "sum" "all" ((List.range N).map t) (dataOf N cats.length (sampleCells s)) = .ok (.scalar (some L)) ∧
      evaluatorLogLikelihood m' "sum" "all" ((List.range N).map t') (dataOf N cats.length (sampleCells s)) = .ok (.scalar (some L')) ∧ L + a ≤ L') :
    ∑ s ∈ bad, answersProb (fun i => answerProb P (t i)) s ≤ Real.exp (-a) ∧
    ∑ s ∈ bad, answersProb (fun i => answerProb P (t i)) s
      ≤ Real.exp (-a / 2 - ∑ i : Fin N, patternDistance cats (answerProb P' (t' i)) (answerProb P (t i)) ^ 2 / 8) := by
  have h' : ∀ s ∈ bad, ∑ i : Fin N, Real.log (answerProb P (t i) (s i)) + a ≤ ∑ i : Fin N, Real.log (answerProb P' (t' i) (s i)) := by
    intro s hs
    obtain ⟨L, L', h1, h2, h3⟩ := h s hs
    rw [evaluator_sample hm hpos t (hbad hs)] at h1
    rw [evaluator_sample hm' hpos' t' (hbad hs)] at h2
    simp only [Except.ok.injEq, Reduced.scalar.injEq, Option.some.injEq] at h1 h2
    rw [h1, h2]
    exact h3
  have hp : ∀ i : Fin N, ∀ x ∈ fullAnswers cats, 0 < answerProb P (t i) x := fun i x hx => answerProb_pos hpos _ hx
  have hq : ∀ i : Fin N, ∀ x ∈ fullAnswers cats, 0 < answerProb P' (t' i) x := fun i x hx => answerProb_pos hpos' _ hx
  refine ⟨ratio_markov _ _ hp hq (fun i => answerProb_sum hP' (t' i)) a bad hbad h', (ratio_overlap _ _ hp hq a bad hbad h').trans ?_⟩
  rw [sub_eq_add_neg, Real.exp_add, ← sum_neg_distrib, Real.exp_sum]
  refine mul_le_mul_of_nonneg_left (prod_le_prod (fun i _ => ?_) fun i _ => ?_) (Real.exp_pos _).le
  · exact sum_nonneg fun x _ => Real.sqrt_nonneg _
  · rw [← neg_div]
    exact (overlap_le _ _ (fun x hx => (hp i x hx).le) (fun x hx => (hq i x hx).le) (answerProb_sum hP (t i)) (answerProb_sum hP' (t' i))).2

end LogLik

/-! ## The marginal likelihood of new respondents -/

/-- A sample of respondents drawn from one population. -/
theorem answersProb_same {N K : ℕ} (p : (Fin K → ℕ) → ℝ) (s : Fin N → Fin K → ℕ) : answersProb (fun _ => p) s = sampleProb p s := rfl

section Marginal

variable {d : ℕ} {m : Scorer d} {cats : List ℕ} {P : (Fin d → ℝ) → ℕ → ℕ → ℝ} (hm : IsScorer m cats P) (hpos : PositiveProbs P cats)
    (hP : ProperProbs P cats) (pts : Thetas d) (lw : List ℝ) (hlen : lw.length = pts.length) (hne : pts ≠ [])

include hm hpos hP hlen hne in
/-- C142: respondents are drawn from the population of `m`. The probability that the loss of another model is smaller by `a` or more. -/
theorem C142_marginal {d' : ℕ} {m' : Scorer d'} {P' : (Fin d' → ℝ) → ℕ → ℕ → ℝ} (hm' : IsScorer m' cats P') (hpos' : PositiveProbs P' cats)
    (hP' : ProperProbs P' cats) (pts' : Thetas d') (lw' : List ℝ) (hlen' : lw'.length = pts'.length) (hne' : pts' ≠ [])
    (hw : (lw'.map Real.exp).sum = (lw.map Real.exp).sum) {N : ℕ} (a : ℝ) (bad : Finset (Fin N → Fin cats.length → ℕ))
    (hbad : bad ⊆ samples N cats)
    (h : ∀ s ∈ bad, ∃ L L', mmlLoss m (rowsOf N cats.length (sampleCells s)) pts lw = .ok (some L) ∧
      mmlLoss m' (rowsOf N cats.length (sampleCells s)) pts' lw' = .ok (some L') ∧ L' ≤ L - a) :
    ∑ s ∈ bad, sampleProb (populationProb P pts (lw.map Real.exp)) s ≤ Real.exp (-a) ∧
    ∑ s ∈ bad, sampleProb (populationProb P pts (lw.map Real.exp)) s
      ≤ Real.exp (-a / 2 - N * patternDistance cats (populationProb P' pts' (lw'.map Real.exp)) (populationProb P pts (lw.map Real.exp)) ^ 2 / 8) := by
  have h' : ∀ s ∈ bad, ∑ i : Fin N, Real.log (populationProb P pts (lw.map Real.exp) (s i)) + a
      ≤ ∑ i : Fin N, Real.log (populationProb P' pts' (lw'.map Real.exp) (s i)) := by
    intro s hs
    obtain ⟨L, L', h1, h2, h3⟩ := h s hs
    rw [sample_loss hm hpos pts lw hlen hne (hbad hs)] at h1
    rw [sample_loss hm' hpos' pts' lw' hlen' hne' (hbad hs), hw] at h2
    have h1 := Option.some.inj (Except.ok.inj h1)
    have h2 := Option.some.inj (Except.ok.inj h2)
    linarith
  have hp : ∀ x ∈ fullAnswers cats, 0 < populationProb P pts (lw.map Real.exp) x := fun x hx => populationProb_pos hm hpos pts lw hlen hne hx
  have hq : ∀ x ∈ fullAnswers cats, 0 < populationProb P' pts' (lw'.map Real.exp) x := fun x hx => populationProb_pos hm' hpos' pts' lw' hlen' hne' hx
  have hq1 := populationProb_sum pts' lw' hlen' hne' hP'
  refine ⟨ratio_markov (fun _ => _) (fun _ => _) (fun _ => hp) (fun _ => hq) (fun _ => hq1) a bad hbad h',
    (ratio_overlap (fun _ => _) (fun _ => _) (fun _ => hp) (fun _ => hq) a bad hbad h').trans ?_⟩
  obtain ⟨h1, h2⟩ := overlap_le _ _ (fun x hx => (hp x hx).le) (fun x hx => (hq x hx).le) (populationProb_sum pts lw hlen hne hP) hq1
  rw [sub_eq_add_neg, Real.exp_add, prod_const, card_univ, Fintype.card_fin]
  refine mul_le_mul_of_nonneg_left ((pow_le_pow_left₀ h1 h2 N).trans (le_of_eq ?_)) (Real.exp_pos _).le
  rw [← Real.exp_nat_mul]
  congr 1
  ring

include hm hpos hP hlen hne in
/-- C142: the choice between finitely many models by their loss on new respondents. The probability that the loss of a model whose
distribution of answers is `ε` or more from the truth is not larger than that of the true model. -/
theorem C142_choice {ι : Type} (models : Finset ι) {d' : ι → ℕ} (m' : ∀ k, Scorer (d' k)) (P' : ∀ k, (Fin (d' k) → ℝ) → ℕ → ℕ → ℝ)
    (hm' : ∀ k ∈ models, IsScorer (m' k) cats (P' k)) (hpos' : ∀ k ∈ models, PositiveProbs (P' k) cats)
    (hP' : ∀ k ∈ models, ProperProbs (P' k) cats) (pts' : ∀ k, Thetas (d' k)) (lw' : ι → List ℝ)
    (hlen' : ∀ k ∈ models, (lw' k).length = (pts' k).length) (hne' : ∀ k ∈ models, pts' k ≠ [])
    (hw : ∀ k ∈ models, ((lw' k).map Real.exp).sum = (lw.map Real.exp).sum) {N : ℕ} (ε : ℝ) (hε : 0 ≤ ε)
    (bad : Finset (Fin N → Fin cats.length → ℕ)) (hbad : bad ⊆ samples N cats)
    (h : ∀ s ∈ bad, ∃ k ∈ models,
      ε ≤ patternDistance cats (populationProb (P' k) (pts' k) ((lw' k).map Real.exp)) (populationProb P pts (lw.map Real.exp)) ∧
      ∃ L L', mmlLoss m (rowsOf N cats.length (sampleCells s)) pts lw = .ok (some L) ∧
        mmlLoss (m' k) (rowsOf N cats.length (sampleCells s)) (pts' k) (lw' k) = .ok (some L') ∧ L' ≤ L) :
    ∑ s ∈ bad, sampleProb (populationProb P pts (lw.map Real.exp)) s ≤ models.card * Real.exp (-(N * ε ^ 2 / 8)) := by
  classical
  set p := populationProb (K := cats.length) P pts (lw.map Real.exp) with hpdef
  have hp : ∀ x ∈ fullAnswers cats, 0 < p x := fun x hx => populationProb_pos hm hpos pts lw hlen hne hx
  let far : ι → (Fin N → Fin cats.length → ℕ) → Prop := fun k s =>
    ε ≤ patternDistance cats (populationProb (P' k) (pts' k) ((lw' k).map Real.exp)) p ∧
      ∃ L L', mmlLoss m (rowsOf N cats.length (sampleCells s)) pts lw = .ok (some L) ∧
        mmlLoss (m' k) (rowsOf N cats.length (sampleCells s)) (pts' k) (lw' k) = .ok (some L') ∧ L' ≤ L
  have hnn : ∀ s ∈ bad, 0 ≤ sampleProb p s := fun s hs => prod_nonneg fun i _ => (hp _ (Fintype.mem_piFinset.1 (hbad hs) i)).le
  have hunion : ∑ s ∈ bad, sampleProb p s ≤ ∑ k ∈ models, ∑ s ∈ bad.filter (far k), sampleProb p s := by
    simp only [sum_filter]
    rw [sum_comm]
    refine sum_le_sum fun s hs => ?_
    obtain ⟨k, hk, hfar⟩ := h s hs
    refine le_trans (le_of_eq (if_pos hfar).symm) (single_le_sum (f := fun k => if far k s then sampleProb p s else 0) (fun k _ => ?_) hk)
    split_ifs
    exacts [hnn s hs, le_rfl]
  refine hunion.trans ?_
  rw [← nsmul_eq_mul]
  refine sum_le_card_nsmul _ _ _ fun k hk => ?_
  by_cases hfar : ε ≤ patternDistance cats (populationProb (P' k) (pts' k) ((lw' k).map Real.exp)) p
  · refine (C142_marginal hm hpos hP pts lw hlen hne (hm' k hk) (hpos' k hk) (hP' k hk) (pts' k) (lw' k) (hlen' k hk) (hne' k hk) (hw k hk) 0 _
      ((filter_subset _ _).trans hbad) fun s hs => ?_).2.trans ?_
    · obtain ⟨_, L, L', h1, h2, h3⟩ := (mem_filter.1 hs).2
      exact ⟨L, L', h1, h2, by linarith⟩
    · refine Real.exp_le_exp.2 ?_
      have h1 : ε ^ 2 ≤ patternDistance cats (populationProb (P' k) (pts' k) ((lw' k).map Real.exp)) p ^ 2 := pow_le_pow_left₀ hε hfar 2
      have h2 : (N:ℝ) * ε ^ 2 ≤ N * patternDistance cats (populationProb (P' k) (pts' k) ((lw' k).map Real.exp)) p ^ 2 :=
        mul_le_mul_of_nonneg_left h1 (Nat.cast_nonneg N)
      linarith
  · have : bad.filter (far k) = ∅ := filter_eq_empty_iff.2 fun s _ hs => hfar hs.1
    rw [this, sum_empty]
    exact (Real.exp_pos _).le

include hm hpos hP hlen hne in
/-- C142: with enough new respondents the risk of preferring a model that is `ε` or more from the truth is as small as one likes. -/
theorem C142_enough (K : ℕ) (ε risk : ℝ) (hε : 0 < ε) (hrisk : 0 < risk) : ∃ N₀ : ℕ, ∀ N, N₀ ≤ N →
    ∀ {ι : Type} (models : Finset ι) {d' : ι → ℕ} (m' : ∀ k, Scorer (d' k)) (P' : ∀ k, (Fin (d' k) → ℝ) → ℕ → ℕ → ℝ)
    (pts' : ∀ k, Thetas (d' k)) (lw' : ι → List ℝ), models.card ≤ K →
    (∀ k ∈ models, IsScorer (m' k) cats (P' k) ∧ PositiveProbs (P' k) cats ∧ ProperProbs (P' k) cats ∧ (lw' k).length = (pts' k).length ∧
      pts' k ≠ [] ∧ ((lw' k).map Real.exp).sum = (lw.map Real.exp).sum) →
    ∀ bad : Finset (Fin N → Fin cats.length → ℕ), bad ⊆ samples N cats →
    (∀ s ∈ bad, ∃ k ∈ models,
      ε ≤ patternDistance cats (populationProb (P' k) (pts' k) ((lw' k).map Real.exp)) (populationProb P pts (lw.map Real.exp)) ∧
      ∃ L L', mmlLoss m (rowsOf N cats.length (sampleCells s)) pts lw = .ok (some L) ∧
        mmlLoss (m' k) (rowsOf N cats.length (sampleCells s)) (pts' k) (lw' k) = .ok (some L') ∧ L' ≤ L) →
    ∑ s ∈ bad, sampleProb (populationProb P pts (lw.map Real.exp)) s ≤ risk := by
  obtain ⟨n, hn⟩ := exists_nat_gt (8 * (K / risk) / ε ^ 2)
  refine ⟨n, fun N hN ι models d' m' P' pts' lw' hK hmod bad hbad h => ?_⟩
  refine (C142_choice hm hpos hP pts lw hlen hne models m' P' (fun k hk => (hmod k hk).1) (fun k hk => (hmod k hk).2.1)
    (fun k hk => (hmod k hk).2.2.1) pts' lw' (fun k hk => (hmod k hk).2.2.2.1) (fun k hk => (hmod k hk).2.2.2.2.1)
    (fun k hk => (hmod k hk).2.2.2.2.2) ε hε.le bad hbad h).trans ?_
  have h1 : (n:ℝ) ≤ N := by exact_mod_cast hN
  have h2 : (K:ℝ) / risk ≤ N * ε ^ 2 / 8 := by
    rw [div_lt_iff₀ (by positivity)] at hn
    nlinarith [sq_nonneg ε]
  have h3 : (models.card : ℝ) ≤ K := by exact_mod_cast hK
  rw [Real.exp_neg, ← div_eq_mul_inv, div_le_iff₀ (Real.exp_pos _)]
  have h4 := Real.add_one_le_exp (N * ε ^ 2 / 8)
  have h5 : (K:ℝ) ≤ risk * (N * ε ^ 2 / 8) := by rwa [div_le_iff₀' hrisk] at h2
  nlinarith

end Marginal

/-! ## Scores estimated from the same answers -/

/-- The claim for scores that are computed from the answers that enter the log likelihood. -/
def TruthRarelyLosesWithOwnScores : Prop := ∀ (d d' : ℕ) (m : Scorer d) (m' : Scorer d') (cats : List ℕ) (P : (Fin d → ℝ) → ℕ → ℕ → ℝ)
    (P' : (Fin d' → ℝ) → ℕ → ℕ → ℝ), IsScorer m cats P → PositiveProbs P cats → ProperProbs P cats →
    IsScorer m' cats P' → PositiveProbs P' cats → ProperProbs P' cats → ∀ (N : ℕ) (t : ℕ → Fin d → ℝ)
    (t' : (Fin cats.length → ℕ) → Fin d' → ℝ) (a : ℝ) (bad : Finset (Fin N → Fin cats.length → ℕ)), bad ⊆ samples N cats →
    (∀ s ∈ bad, ∃ L L', evaluatorLogLikelihood m "sum" "all" ((List.range N).map t) (dataOf N cats.length (sampleCells s)) = .ok (.scalar (some L)) ∧
      evaluatorLogLikelihood m' "sum" "all" ((List.range N).map fun i => if h : i < N then t' (s ⟨i, h⟩) else 0) (dataOf N cats.length (sampleCells s))
        = .ok (.scalar (some L')) ∧ L + a ≤ L') →
    ∑ s ∈ bad, answersProb (fun i => answerProb P (t i)) s ≤ Real.exp (-a)

def onlyItem : Fin (List.replicate 1 2).length := ⟨0, by simp⟩

theorem one_item {x : Fin (List.replicate 1 2).length → ℕ} (hx : x ∈ fullAnswers (List.replicate 1 2)) (b : ℝ) (θ : Fin 1 → ℝ) :
    (x onlyItem = 0 ∨ x onlyItem = 1) ∧ answerProb (fun θ : Fin 1 → ℝ => tableProb ((onePLWith fun _ : Fin 1 => b).probs (θ 0))) θ x
      = if x onlyItem = 0 then 1 - logistic (θ 0 + b) else logistic (θ 0 + b) := by
  have h := mem_range.1 (Fintype.mem_piFinset.1 hx onlyItem)
  have h' : x onlyItem = 0 ∨ x onlyItem = 1 := by
    have : (List.replicate 1 2)[onlyItem] = 2 := rfl
    omega
  refine ⟨h', ?_⟩
  rw [show answerProb (fun θ : Fin 1 → ℝ => tableProb ((onePLWith fun _ : Fin 1 => b).probs (θ 0))) θ x
    = ∏ j : Fin 1, tableProb ((onePLWith fun _ : Fin 1 => b).probs (θ 0)) j (x j) from rfl, Fin.prod_univ_one, onePLWith_prob]
  rcases h' with h0 | h0
  · rw [show x (0 : Fin 1) = 0 from h0]
    simp [h0]
  · rw [show x (0 : Fin 1) = 1 from h0]
    simp [h0]

/-- C142 is false for scores estimated from the same answers: with one item, the 1PL model with the wrong difficulty is better than the true
model with the true score whatever the answer. -/
theorem C142_own_scores_false : ¬ TruthRarelyLosesWithOwnScores := by
  intro h
  have hb : ∀ b : ℝ, IsScorer (onePLWith fun _ : Fin 1 => b).scorer (List.replicate 1 2)
      fun θ : Fin 1 → ℝ => tableProb ((onePLWith fun _ : Fin 1 => b).probs (θ 0)) := fun b =>
    (onePLWith fun _ : Fin 1 => b).isScorer (onePLWith_wf _) one_pos
  have hp : ∀ b : ℝ, PositiveProbs (fun θ : Fin 1 → ℝ => tableProb ((onePLWith fun _ : Fin 1 => b).probs (θ 0))) (List.replicate 1 2) := fun b =>
    (onePLWith fun _ : Fin 1 => b).positive (onePLWith_wf _)
  have hl0 : logistic 0 = 1 / 2 := by unfold logistic; norm_num
  have hl1 : 1 / 2 < logistic 1 := by
    rw [← hl0]
    exact logistic_strictMono one_pos
  have hlm : 1 - logistic (-1) = logistic 1 := by
    unfold logistic
    have := Real.exp_pos 1
    rw [Real.exp_neg]
    field_simp
    ring
  have key := h 1 1 _ _ _ _ _ (hb 0) (hp 0) (onePLWith_proper _) (hb 1) (hp 1) (onePLWith_proper _) 1 (fun _ _ => 0)
    (fun x _ => if x onlyItem = 0 then -2 else 0) (Real.log (logistic 1) - Real.log (1 / 2)) (samples 1 (List.replicate 1 2)) subset_rfl ?_
  · rw [answersProb_sum, Fin.prod_univ_one, answerProb_sum (onePLWith_proper _)] at key
    have h1 : Real.log (1 / 2) < Real.log (logistic 1) := Real.log_lt_log (by norm_num) hl1
    have h2 : Real.exp (-(Real.log (logistic 1) - Real.log (1 / 2))) < 1 := Real.exp_lt_one_iff.2 (by linarith)
    linarith
  · intro s hs
    refine ⟨_, _, evaluator_sample (hb 0) (hp 0) _ hs, evaluator_sample (hb 1) (hp 1) _ hs, ?_⟩
    have hx := Fintype.mem_piFinset.1 hs 0
    rw [Fin.sum_univ_one, Fin.sum_univ_one, (one_item hx 0 _).2, (one_item hx 1 _).2]
    rcases (one_item hx 0 fun _ => 0).1 with h0 | h0
    · simp [h0, hl0]
      norm_num
      rw [hlm, one_div, Real.log_inv]
      linarith
    · simp [h0, hl0]

/-! ## The hypotheses are met: one item, two difficulties -/

theorem exAllRight_mem : (fun (_ : Fin 1) (_ : Fin (List.replicate 1 2).length) => 1) ∈ samples 1 (List.replicate 1 2) :=
  Fintype.mem_piFinset.2 fun _ => Fintype.mem_piFinset.2 fun j => by
    have : (List.replicate 1 2)[j] = 2 := List.getElem_replicate _
    rw [mem_range, this]
    norm_num

/-- A right answer is more likely in the model with the easier item; it happens with probability one half. -/
example : (1 / 2 : ℝ) ≤ Real.exp (-(Real.log (logistic 1) - Real.log (logistic 0))) := by
  have hb : ∀ b : ℝ, IsScorer (onePLWith fun _ : Fin 1 => b).scorer (List.replicate 1 2)
      fun θ : Fin 1 → ℝ => tableProb ((onePLWith fun _ : Fin 1 => b).probs (θ 0)) := fun b =>
    (onePLWith fun _ : Fin 1 => b).isScorer (onePLWith_wf _) one_pos
  have hp : ∀ b : ℝ, PositiveProbs (fun θ : Fin 1 → ℝ => tableProb ((onePLWith fun _ : Fin 1 => b).probs (θ 0))) (List.replicate 1 2) := fun b =>
    (onePLWith fun _ : Fin 1 => b).positive (onePLWith_wf _)
  have hx := Fintype.mem_piFinset.1 exAllRight_mem 0
  have h := C142_log_likelihood (hb 0) (hp 0) (onePLWith_proper _) (hb 1) (hp 1) (onePLWith_proper _)
    (N := 1) (fun _ _ => 0) (fun _ _ => 0) (Real.log (logistic 1) - Real.log (logistic 0)) {fun _ _ => 1} (by simpa using exAllRight_mem) ?_
  · have h1 := h.1
    rw [sum_singleton, answersProb, Fin.prod_univ_one, (one_item hx 0 _).2] at h1
    refine le_trans (le_of_eq ?_) h1
    simp [logistic]
    norm_num
  · intro s hs
    obtain rfl := mem_singleton.1 hs
    refine ⟨_, _, evaluator_sample (hb 0) (hp 0) _ exAllRight_mem, evaluator_sample (hb 1) (hp 1) _ exAllRight_mem, ?_⟩
    rw [Fin.sum_univ_one, Fin.sum_univ_one, (one_item hx 0 _).2, (one_item hx 1 _).2]
    simp

/-- The same for the marginal likelihood with the two models as candidates: a case in which the wrong model is preferred. -/
example : ∃ bad ⊆ samples 1 (List.replicate 1 2), bad.Nonempty ∧
    ∑ s ∈ bad, sampleProb (populationProb (fun θ : Fin 1 → ℝ => tableProb ((onePLWith fun _ : Fin 1 => (0 : ℝ)).probs (θ 0))) [fun _ => 0] ([0].map Real.exp)) s
      ≤ 2 * Real.exp (-((1 : ℕ) * patternDistance (List.replicate 1 2)
        (populationProb (fun θ : Fin 1 → ℝ => tableProb ((onePLWith fun _ : Fin 1 => (1 : ℝ)).probs (θ 0))) [fun _ => 0] ([0].map Real.exp))
        (populationProb (fun θ : Fin 1 → ℝ => tableProb ((onePLWith fun _ : Fin 1 => (0 : ℝ)).probs (θ 0))) [fun _ => 0] ([0].map Real.exp)) ^ 2 / 8)) := by
  have hb : ∀ b : ℝ, IsScorer (onePLWith fun _ : Fin 1 => b).scorer (List.replicate 1 2)
      fun θ : Fin 1 → ℝ => tableProb ((onePLWith fun _ : Fin 1 => b).probs (θ 0)) := fun b =>
    (onePLWith fun _ : Fin 1 => b).isScorer (onePLWith_wf _) one_pos
  have hp : ∀ b : ℝ, PositiveProbs (fun θ : Fin 1 → ℝ => tableProb ((onePLWith fun _ : Fin 1 => b).probs (θ 0))) (List.replicate 1 2) := fun b =>
    (onePLWith fun _ : Fin 1 => b).positive (onePLWith_wf _)
  refine ⟨{fun _ _ => 1}, by simpa using exAllRight_mem, singleton_nonempty _, ?_⟩
  have h := C142_choice (hb 0) (hp 0) (onePLWith_proper _) [fun _ => 0] [0] rfl (by simp) ({0, 1} : Finset ℝ) (d' := fun _ => 1)
    (fun b => (onePLWith fun _ : Fin 1 => b).scorer) (fun b θ => tableProb ((onePLWith fun _ : Fin 1 => b).probs (θ 0))) (fun b _ => hb b) (fun b _ => hp b)
    (fun b _ => onePLWith_proper _) (fun _ => [fun _ => 0]) (fun _ => [0]) (fun _ _ => rfl) (fun _ _ => by simp) (fun _ _ => rfl) (N := 1)
    (patternDistance (List.replicate 1 2)
        (populationProb (fun θ : Fin 1 → ℝ => tableProb ((onePLWith fun _ : Fin 1 => (1 : ℝ)).probs (θ 0))) [fun _ => 0] ([0].map Real.exp))
        (populationProb (fun θ : Fin 1 → ℝ => tableProb ((onePLWith fun _ : Fin 1 => (0 : ℝ)).probs (θ 0))) [fun _ => 0] ([0].map Real.exp)))
    (sum_nonneg fun _ _ => abs_nonneg _) {fun _ _ => 1} (by simpa using exAllRight_mem) ?_
  · refine h.trans (le_of_eq ?_)
    congr 1
    rw [card_insert_of_notMem (by simp)]
    simp
  · intro s hs
    obtain rfl := mem_singleton.1 hs
    refine ⟨1, by simp, le_rfl, _, _, sample_loss (hb 0) (hp 0) _ _ rfl (by simp) exAllRight_mem,
      sample_loss (hb 1) (hp 1) _ _ rfl (by simp) exAllRight_mem, ?_⟩
    have h0 := (one_item (Fintype.mem_piFinset.1 exAllRight_mem 0) 0 fun _ => 0).2
    have h1 := (one_item (Fintype.mem_piFinset.1 exAllRight_mem 0) 1 fun _ => 0).2
    have := Real.log_le_log (logistic_pos 0) (logistic_strictMono one_pos).le
    rw [Fin.sum_univ_one, Fin.sum_univ_one]
    simp only [populationProb, weighted, List.map_cons, List.map_nil, List.zipWith_cons_cons, List.zipWith_nil_left, List.sum_cons, List.sum_nil,
      h0, h1, Real.exp_zero]
    simpa using this

end Irt
