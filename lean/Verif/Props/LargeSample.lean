import Verif.Props.TrueModel
import Verif.Lemmas.LargeSample
import Verif.Spec.LargeSample
import Verif.Lemmas.ScoreEquationModels

/-! # C133: with many respondents marginal maximum likelihood finds the truth -/

namespace Irt
open Spec Finset

/-! ## The loss of a sample -/

section Sample

variable {d : ℕ} {m : Scorer d} {cats : List ℕ} {P : (Fin d → ℝ) → ℕ → ℕ → ℝ} (hm : IsScorer m cats P) (hpos : PositiveProbs P cats)
  (pts : Thetas d) (lw : List ℝ) (hlen : lw.length = pts.length) (hne : pts ≠ [])

include hlen hne in
theorem weights_sum_pos : 0 < (lw.map Real.exp).sum := by
  refine List.sum_pos _ (fun v hv => ?_) ?_
  · obtain ⟨l, _, rfl⟩ := List.mem_map.1 hv
    exact Real.exp_pos _
  · rw [Ne, List.map_eq_nil_iff]
    exact fun h => hne (List.length_eq_zero_iff.1 (by rw [← hlen, h]; rfl))

include hm hpos hlen hne in
theorem weighted_answer_pos {x : Fin cats.length → ℕ} (hx : x ∈ fullAnswers cats) :
    0 < weighted pts (lw.map Real.exp) fun θ => answerProb P θ x := by
  obtain ⟨L, hL⟩ := mmlLossOf_exists hm hpos pts lw hlen hne
  rw [← mmlLossOf_eq hm hpos pts lw hlen hne hL hx]
  exact Real.exp_pos _

include hm hpos hlen hne in
theorem populationProb_pos {x : Fin cats.length → ℕ} (hx : x ∈ fullAnswers cats) : 0 < populationProb P pts (lw.map Real.exp) x :=
  div_pos (weighted_answer_pos hm hpos pts lw hlen hne hx) (weights_sum_pos pts lw hlen hne)

include hlen hne in
/-- The probabilities of all ways to answer the test add up to one. -/
theorem populationProb_sum (hP : ProperProbs P cats) : ∑ x ∈ fullAnswers cats, populationProb P pts (lw.map Real.exp) x = 1 := by
  unfold populationProb
  rw [← sum_div, ← weighted_sum]
  simp only [answerProb_sum hP]
  rw [weighted_const_one pts _ (by simpa using hlen), div_self (weights_sum_pos pts lw hlen hne).ne']

theorem sampleCells_valid {N : ℕ} {s : Fin N → Fin cats.length → ℕ} (hs : s ∈ samples N cats) :
    ∀ i, i < N → ValidResponses cats (sampleCells s i) := by
  intro i hi
  rw [sampleCells, dif_pos hi]
  exact answersToAll_valid (Fintype.mem_piFinset.1 hs ⟨i, hi⟩)

include hm hpos hlen hne in
/-- The loss of a sample is minus the logarithm of its probability, up to a number that only depends on the weights. -/
theorem sample_loss {N : ℕ} {s : Fin N → Fin cats.length → ℕ} (hs : s ∈ samples N cats) :
    mmlLoss m (rowsOf N cats.length (sampleCells s)) pts lw
      = .ok (some (-(∑ i, Real.log (populationProb P pts (lw.map Real.exp) (s i)) + N * Real.log (lw.map Real.exp).sum))) := by
  rw [mmlLoss_weighted hm hpos N (sampleCells s) (sampleCells_valid hs) pts lw hlen hne, sum_range]
  congr 3
  have e : ∀ i : Fin N, Real.log (weighted pts (lw.map Real.exp) (observedLikelihood P cats.length (sampleCells s i)))
      = Real.log (populationProb P pts (lw.map Real.exp) (s i)) + Real.log (lw.map Real.exp).sum := by
    intro i
    have hx := Fintype.mem_piFinset.1 hs i
    rw [sampleCells, dif_pos i.2, populationProb, Real.log_div (weighted_answer_pos hm hpos pts lw hlen hne hx).ne'
      (weights_sum_pos pts lw hlen hne).ne', sub_add_cancel]
    congr 2
    funext θ
    exact observedLikelihood_all (s i) θ
  rw [sum_congr rfl fun i _ => e i, sum_add_distrib]
  simp

end Sample

/-! ## Frequencies -/

theorem sampleShare_sum {N : ℕ} (hN : 0 < N) {cats : List ℕ} {s : Fin N → Fin cats.length → ℕ} (hs : s ∈ samples N cats)
    (g : (Fin cats.length → ℕ) → ℝ) : ∑ x ∈ fullAnswers cats, sampleShare s x * g x = (∑ i, g (s i)) / N := by
  have e : ∀ x, sampleShare s x * g x = (∑ i : Fin N, if s i = x then g x else 0) / N := by
    intro x
    rw [sampleShare, card_filter, Nat.cast_sum, div_mul_eq_mul_div, sum_mul]
    congr 1
    refine sum_congr rfl fun i _ => ?_
    split_ifs <;> simp
  rw [sum_congr rfl fun x _ => e x, ← sum_div, sum_comm]
  congr 1
  refine sum_congr rfl fun i _ => ?_
  rw [sum_ite_eq, if_pos (Fintype.mem_piFinset.1 hs i)]

/-- C133: a model that fits a sample at least as well as the true model is not further from the truth than the frequencies of the sample. -/
theorem C133_sample {d d' : ℕ} {m : Scorer d} {m' : Scorer d'} {cats : List ℕ} {P : (Fin d → ℝ) → ℕ → ℕ → ℝ}
    {P' : (Fin d' → ℝ) → ℕ → ℕ → ℝ} (hm : IsScorer m cats P) (hpos : PositiveProbs P cats) (hP : ProperProbs P cats)
    (hm' : IsScorer m' cats P') (hpos' : PositiveProbs P' cats) (hP' : ProperProbs P' cats)
    (pts : Thetas d) (lw : List ℝ) (hlen : lw.length = pts.length) (hne : pts ≠ [])
    (pts' : Thetas d') (lw' : List ℝ) (hlen' : lw'.length = pts'.length) (hne' : pts' ≠ [])
    (hw : (lw'.map Real.exp).sum = (lw.map Real.exp).sum)
    {N : ℕ} (hN : 0 < N) {s : Fin N → Fin cats.length → ℕ} (hs : s ∈ samples N cats) {L L' : ℝ}
    (hL : mmlLoss m (rowsOf N cats.length (sampleCells s)) pts lw = .ok (some L))
    (hL' : mmlLoss m' (rowsOf N cats.length (sampleCells s)) pts' lw' = .ok (some L')) (hbetter : L' ≤ L) :
    let p := populationProb (K := cats.length) P pts (lw.map Real.exp)
    patternDistance cats (populationProb P' pts' (lw'.map Real.exp)) p ^ 2 ≤ 16 * ∑ x ∈ fullAnswers cats, (sampleShare s x - p x) ^ 2 / p x := by
  intro p
  have hN' : (0:ℝ) < N := by exact_mod_cast hN
  refine distance_of_better (fullAnswers cats) (sampleShare s) p (populationProb P' pts' (lw'.map Real.exp)) (fun x _ => by unfold sampleShare; positivity)
    (fun x hx => populationProb_pos hm hpos pts lw hlen hne hx) (fun x hx => populationProb_pos hm' hpos' pts' lw' hlen' hne' hx) ?_
    (populationProb_sum pts lw hlen hne hP) (populationProb_sum pts' lw' hlen' hne' hP') ?_
  · have := sampleShare_sum hN hs fun _ => 1
    simp only [mul_one] at this
    rw [this]
    simp [hN'.ne']
  · rw [sample_loss hm hpos pts lw hlen hne hs] at hL
    rw [sample_loss hm' hpos' pts' lw' hlen' hne' hs, hw] at hL'
    have h1 := Option.some.inj (Except.ok.inj hL)
    have h2 := Option.some.inj (Except.ok.inj hL')
    rw [sampleShare_sum hN hs fun x => Real.log (p x), sampleShare_sum hN hs fun x => Real.log (populationProb P' pts' (lw'.map Real.exp) x)]
    refine div_le_div_of_nonneg_right ?_ hN'.le
    linarith

/-! ## Samples drawn from the truth -/

/-- The expected distance of Pearson between the frequencies and the truth. -/
theorem average_chi {N : ℕ} (hN : 0 < N) {cats : List ℕ} {p : (Fin cats.length → ℕ) → ℝ} (hp : ∀ x ∈ fullAnswers cats, 0 < p x)
    (hsum : ∑ x ∈ fullAnswers cats, p x = 1) :
    averageOverSamples N cats p (fun s => ∑ x ∈ fullAnswers cats, (sampleShare s x - p x) ^ 2 / p x)
      = ((fullAnswers cats).card - 1) / N := by
  have hN' : (N:ℝ) ≠ 0 := by exact_mod_cast hN.ne'
  unfold averageOverSamples samples sampleProb
  simp only [mul_sum]
  rw [sum_comm]
  have key : ∀ x ∈ fullAnswers cats, ∑ s ∈ Fintype.piFinset (fun _ : Fin N => fullAnswers cats),
      (∏ i, p (s i)) * ((sampleShare s x - p x) ^ 2 / p x) = (1 - p x) / N := by
    intro x hx
    have hv := draws_variance (N := N) (fullAnswers cats) p hsum (fun y => (if y = x then 1 else 0) - p x) (by
      simp only [mul_sub, sum_sub_distrib, mul_ite, mul_one, mul_zero, sum_ite_eq', hx, if_true, ← sum_mul, hsum]
      ring)
    have e1 : ∀ s : Fin N → Fin cats.length → ℕ, ∑ i, ((if s i = x then (1:ℝ) else 0) - p x) = N * (sampleShare s x - p x) := by
      intro s
      rw [sum_sub_distrib, sampleShare, card_filter, Nat.cast_sum]
      simp only [Nat.cast_ite, Nat.cast_one, Nat.cast_zero, sum_const, card_univ, Fintype.card_fin, nsmul_eq_mul]
      field_simp
    have e2 : ∑ y ∈ fullAnswers cats, p y * ((if y = x then (1:ℝ) else 0) - p x) ^ 2 = p x * (1 - p x) := by
      have : ∀ y, p y * ((if y = x then (1:ℝ) else 0) - p x) ^ 2 = (if y = x then p y * (1 - 2 * p x) else 0) + p y * p x ^ 2 := by
        intro y; split_ifs <;> ring
      simp only [this, sum_add_distrib, sum_ite_eq', hx, if_true, ← sum_mul, hsum]
      ring
    simp only [e1] at hv
    rw [e2] at hv
    have hpx := (hp x hx).ne'
    have e3 : ∀ s : Fin N → Fin cats.length → ℕ, (∏ i, p (s i)) * ((sampleShare s x - p x) ^ 2 / p x)
        = (∏ i, p (s i)) * (N * (sampleShare s x - p x)) ^ 2 * (1 / (N ^ 2 * p x)) := by
      intro s; field_simp
    rw [sum_congr rfl fun s _ => e3 s, ← sum_mul, hv]
    field_simp
  rw [sum_congr rfl key, ← sum_div, sum_sub_distrib, hsum]
  simp

section Truth

variable {d d' : ℕ} {m : Scorer d} {cats : List ℕ} {P : (Fin d → ℝ) → ℕ → ℕ → ℝ} (hm : IsScorer m cats P) (hpos : PositiveProbs P cats)
  (hP : ProperProbs P cats) (pts : Thetas d) (lw : List ℝ) (hlen : lw.length = pts.length) (hne : pts ≠ [])
  (pts' : Thetas d') (lw' : List ℝ) (hlen' : lw'.length = pts'.length) (hne' : pts' ≠ []) (hw : (lw'.map Real.exp).sum = (lw.map Real.exp).sum)
  {N : ℕ} (hN : 0 < N) {fit : (Fin N → Fin cats.length → ℕ) → Scorer d'} {P' : (Fin N → Fin cats.length → ℕ) → (Fin d' → ℝ) → ℕ → ℕ → ℝ}
  (hfit : ∀ s ∈ samples N cats, IsScorer (fit s) cats (P' s) ∧ PositiveProbs (P' s) cats ∧ ProperProbs (P' s) cats ∧
    ∃ L L' : ℝ, mmlLoss m (rowsOf N cats.length (sampleCells s)) pts lw = .ok (some L) ∧
      mmlLoss (fit s) (rowsOf N cats.length (sampleCells s)) pts' lw' = .ok (some L') ∧ L' ≤ L)

include hm hpos hP hlen hne hlen' hne' hw hN hfit in
/-- C133: if every sample of `N` respondents is fitted at least as well as the true model fits it, the fits are near the truth: the mean
square of the distance of the distributions of answers is at most sixteen times the number of ways to answer the test, less one, over the
number of respondents. -/
theorem C133_expected_distance :
    averageOverSamples N cats (populationProb P pts (lw.map Real.exp)) (fun s =>
      patternDistance cats (populationProb (P' s) pts' (lw'.map Real.exp)) (populationProb P pts (lw.map Real.exp)) ^ 2)
      ≤ 16 * ((fullAnswers cats).card - 1) / N := by
  have hp : ∀ x ∈ fullAnswers cats, 0 < populationProb P pts (lw.map Real.exp) x := fun x hx => populationProb_pos hm hpos pts lw hlen hne hx
  rw [mul_div_assoc, ← average_chi hN hp (populationProb_sum pts lw hlen hne hP)]
  unfold averageOverSamples
  rw [mul_sum]
  refine sum_le_sum fun s hs => ?_
  obtain ⟨h1, h2, h3, L, L', hL, hL', hb⟩ := hfit s hs
  rw [mul_left_comm]
  exact mul_le_mul_of_nonneg_left (C133_sample hm hpos hP h1 h2 h3 pts lw hlen hne pts' lw' hlen' hne' hw hN hs hL hL' hb)
    (prod_nonneg fun i _ => (hp _ (Fintype.mem_piFinset.1 hs i)).le)

include hm hpos hP hlen hne hlen' hne' hw hN hfit in
/-- C133: the probability of a sample whose fit is further than `ε` from the truth. -/
theorem C133_probability (ε : ℝ) (hε : 0 < ε) [DecidablePred fun s : Fin N → Fin cats.length → ℕ =>
      ε ≤ patternDistance cats (populationProb (P' s) pts' (lw'.map Real.exp)) (populationProb P pts (lw.map Real.exp))] :
    ∑ s ∈ samples N cats with ε ≤ patternDistance cats (populationProb (P' s) pts' (lw'.map Real.exp)) (populationProb P pts (lw.map Real.exp)),
      sampleProb (populationProb P pts (lw.map Real.exp)) s ≤ 16 * ((fullAnswers cats).card - 1) / N / ε ^ 2 := by
  have hp : ∀ x ∈ fullAnswers cats, 0 < populationProb P pts (lw.map Real.exp) x := fun x hx => populationProb_pos hm hpos pts lw hlen hne hx
  rw [le_div_iff₀ (by positivity), sum_mul]
  refine le_trans ?_ (C133_expected_distance hm hpos hP pts lw hlen hne pts' lw' hlen' hne' hw hN hfit)
  unfold averageOverSamples
  have hnn : ∀ s ∈ samples N cats, 0 ≤ sampleProb (populationProb P pts (lw.map Real.exp)) s := fun s hs =>
    prod_nonneg fun i _ => (hp _ (Fintype.mem_piFinset.1 hs i)).le
  refine (sum_le_sum fun s hs => ?_).trans (sum_le_sum_of_subset_of_nonneg (filter_subset _ _) fun s hs _ => mul_nonneg (hnn s hs) (sq_nonneg _))
  obtain ⟨h1, h2⟩ := mem_filter.1 hs
  exact mul_le_mul_of_nonneg_left (pow_le_pow_left₀ hε.le h2 2) (hnn s h1)

end Truth

/-- C133: consistency. For every distance and every risk there is a number of respondents from which on the fits are further than that from
the truth with at most that risk. -/
theorem C133_consistent {d d' : ℕ} {m : Scorer d} {cats : List ℕ} {P : (Fin d → ℝ) → ℕ → ℕ → ℝ} (hm : IsScorer m cats P)
    (hpos : PositiveProbs P cats) (hP : ProperProbs P cats) (pts : Thetas d) (lw : List ℝ) (hlen : lw.length = pts.length) (hne : pts ≠ [])
    (pts' : Thetas d') (lw' : List ℝ) (hlen' : lw'.length = pts'.length) (hne' : pts' ≠ [])
    (hw : (lw'.map Real.exp).sum = (lw.map Real.exp).sum) (ε risk : ℝ) (hε : 0 < ε) (hrisk : 0 < risk) :
    ∃ N₀ : ℕ, ∀ N, N₀ ≤ N → ∀ (fit : (Fin N → Fin cats.length → ℕ) → Scorer d') (P' : (Fin N → Fin cats.length → ℕ) → (Fin d' → ℝ) → ℕ → ℕ → ℝ),
      (∀ s ∈ samples N cats, IsScorer (fit s) cats (P' s) ∧ PositiveProbs (P' s) cats ∧ ProperProbs (P' s) cats ∧
        ∃ L L' : ℝ, mmlLoss m (rowsOf N cats.length (sampleCells s)) pts lw = .ok (some L) ∧
          mmlLoss (fit s) (rowsOf N cats.length (sampleCells s)) pts' lw' = .ok (some L') ∧ L' ≤ L) →
      ∀ far : Finset (Fin N → Fin cats.length → ℕ), far ⊆ samples N cats →
        (∀ s ∈ far, ε ≤ patternDistance cats (populationProb (P' s) pts' (lw'.map Real.exp)) (populationProb P pts (lw.map Real.exp))) →
        ∑ s ∈ far, sampleProb (populationProb P pts (lw.map Real.exp)) s ≤ risk := by
  obtain ⟨n, hn⟩ := exists_nat_gt (16 * ((fullAnswers cats).card - 1) / ε ^ 2 / risk)
  refine ⟨n + 1, fun N hN fit P' hfit far hfar hdist => ?_⟩
  classical
  have hNpos : 0 < N := by omega
  have hN' : (0:ℝ) < N := by exact_mod_cast hNpos
  have hp : ∀ x ∈ fullAnswers cats, 0 < populationProb P pts (lw.map Real.exp) x := fun x hx => populationProb_pos hm hpos pts lw hlen hne hx
  refine (sum_le_sum_of_subset_of_nonneg (fun s hs => mem_filter.2 ⟨hfar hs, hdist s hs⟩) fun s hs _ =>
    prod_nonneg fun i _ => (hp _ (Fintype.mem_piFinset.1 (mem_filter.1 hs).1 i)).le).trans
    ((C133_probability hm hpos hP pts lw hlen hne pts' lw' hlen' hne' hw hNpos hfit ε hε).trans ?_)
  have h1 : (n:ℝ) ≤ N := by exact_mod_cast (by omega : n ≤ N)
  rw [div_div, mul_comm (N:ℝ), ← div_div, div_le_iff₀ hN']
  rw [div_lt_iff₀ hrisk] at hn
  nlinarith

theorem continuousOn_populationProb {E : Type*} [TopologicalSpace E] {d K : ℕ} (P : E → (Fin d → ℝ) → ℕ → ℕ → ℝ) (S : Set E)
    (hcont : ∀ θ j r, ContinuousOn (fun η => P η θ j r) S) (pts : Thetas d) (w : List ℝ) (x : Fin K → ℕ) :
    ContinuousOn (fun η => populationProb (P η) pts w x) S := by
  unfold populationProb weighted
  refine ContinuousOn.div_const ?_ _
  induction pts generalizing w with
  | nil => simpa using continuousOn_const
  | cons q ps ih =>
    cases w with
    | nil => simpa using continuousOn_const
    | cons a w =>
      simp only [List.zipWith_cons_cons, List.sum_cons]
      exact ContinuousOn.add (ContinuousOn.mul continuousOn_const (continuousOn_finset_prod _ fun j _ => hcont _ _ _)) (ih w)

/-- C133: consistency of the parameters. In a family of models with continuous probabilities, parameters `η` in a compact set and a truth that
is identified, the estimates are outside a given neighbourhood of the truth with a probability that tends to zero. -/
theorem C133_parameters {E : Type*} [TopologicalSpace E] {d : ℕ} {cats : List ℕ} (fam : E → Scorer d) (P : E → (Fin d → ℝ) → ℕ → ℕ → ℝ)
    (K : Set E) (hK : IsCompact K) (hfam : ∀ η ∈ K, IsScorer (fam η) cats (P η) ∧ PositiveProbs (P η) cats ∧ ProperProbs (P η) cats)
    (hcont : ∀ θ j r, ContinuousOn (fun η => P η θ j r) K) (pts : Thetas d) (lw : List ℝ) (hlen : lw.length = pts.length) (hne : pts ≠ [])
    (η₀ : E) (h₀ : η₀ ∈ K)
    (hident : ∀ η ∈ K, (∀ x ∈ fullAnswers cats, populationProb (P η) pts (lw.map Real.exp) x = populationProb (P η₀) pts (lw.map Real.exp) x) → η = η₀)
    (estimate : (N : ℕ) → (Fin N → Fin cats.length → ℕ) → E)
    (hest : ∀ N, ∀ s ∈ samples N cats, estimate N s ∈ K ∧
      ∃ L L' : ℝ, mmlLoss (fam η₀) (rowsOf N cats.length (sampleCells s)) pts lw = .ok (some L) ∧
        mmlLoss (fam (estimate N s)) (rowsOf N cats.length (sampleCells s)) pts lw = .ok (some L') ∧ L' ≤ L)
    (U : Set E) (hU : IsOpen U) (hU₀ : η₀ ∈ U) (risk : ℝ) (hrisk : 0 < risk) :
    ∃ N₀ : ℕ, ∀ N, N₀ ≤ N → ∀ far : Finset (Fin N → Fin cats.length → ℕ), far ⊆ samples N cats → (∀ s ∈ far, estimate N s ∉ U) →
      ∑ s ∈ far, sampleProb (populationProb (P η₀) pts (lw.map Real.exp)) s ≤ risk := by
  have hc : ContinuousOn (fun η => patternDistance cats (populationProb (P η) pts (lw.map Real.exp)) (populationProb (P η₀) pts (lw.map Real.exp))) K := by
    unfold patternDistance
    exact continuousOn_finset_sum _ fun x _ => ContinuousOn.abs (ContinuousOn.sub (continuousOn_populationProb P K hcont pts _ x) continuousOn_const)
  obtain ⟨ε, hε, hfar⟩ : ∃ ε > 0, ∀ η ∈ K, η ∉ U →
      ε ≤ patternDistance cats (populationProb (P η) pts (lw.map Real.exp)) (populationProb (P η₀) pts (lw.map Real.exp)) := by
    rcases (K \ U).eq_empty_or_nonempty with he | hn
    · refine ⟨1, one_pos, fun η h1 h2 => (Set.eq_empty_iff_forall_notMem.1 he η ⟨h1, h2⟩).elim⟩
    · obtain ⟨η, hη, hmin⟩ := (hK.diff hU).exists_isMinOn hn (hc.mono Set.diff_subset)
      refine ⟨_, lt_of_le_of_ne (sum_nonneg fun _ _ => abs_nonneg _) fun h => ?_, fun η' h1 h2 => hmin ⟨h1, h2⟩⟩
      refine hη.2 ?_
      rw [hident η hη.1 fun x hx => ?_]
      · exact hU₀
      · have := (sum_eq_zero_iff_of_nonneg fun _ _ => abs_nonneg _).1 h.symm x hx
        linarith [abs_eq_zero.1 this]
  obtain ⟨g1, g2, g3⟩ := hfam η₀ h₀
  obtain ⟨N₀, h⟩ := C133_consistent g1 g2 g3 pts lw hlen hne pts lw hlen hne rfl ε risk hε hrisk
  refine ⟨N₀, fun N hN far h1 h2 => h N hN (fun s => fam (estimate N s)) (fun s => P (estimate N s)) (fun s hs => ?_) far h1 fun s hs =>
    hfar _ (hest N s (h1 hs)).1 (h2 s hs)⟩
  obtain ⟨e1, e2⟩ := hest N s hs
  obtain ⟨f1, f2, f3⟩ := hfam _ e1
  exact ⟨f1, f2, f3, e2⟩

/-! ## The 1PL model -/

/-- The 1PL model with given intercepts. -/
noncomputable def onePLWith {items : ℕ} (b : Fin items → ℝ) : OnePL := { items := items, bias := List.ofFn b }

theorem onePLWith_wf {items : ℕ} (b : Fin items → ℝ) : (onePLWith b).WF := by simp [OnePL.WF, onePLWith]

theorem onePLWith_row {items : ℕ} (b : Fin items → ℝ) (x : ℝ) (j : ℕ) (hj : j < items) :
    ((onePLWith b).probs x)[j]? = some [1 - logistic (x + b ⟨j, hj⟩), logistic (x + b ⟨j, hj⟩)] :=
  C03_onePL_formula _ (onePLWith_wf b) x j _ (by simp [OnePL.itemParameters, onePLWith, hj])

theorem onePLWith_prob {items : ℕ} (b : Fin items → ℝ) (x : ℝ) (j r : ℕ) :
    tableProb ((onePLWith b).probs x) j r = if hj : j < items then
      if r = 0 then 1 - logistic (x + b ⟨j, hj⟩) else if r = 1 then logistic (x + b ⟨j, hj⟩) else 0 else 0 := by
  by_cases hj : j < items
  · rw [dif_pos hj, tableProb_row _ _ _ _ (onePLWith_row b x j hj)]
    rcases r with _ | _ | r <;> simp
  · rw [dif_neg hj]
    have : ((onePLWith b).probs x)[j]? = none :=
      List.getElem?_eq_none (by rw [(C01_onePL_distribution _ (onePLWith_wf b) x).1]; simp [onePLWith]; omega)
    simp [tableProb, this]

theorem onePLWith_proper {items : ℕ} (b : Fin items → ℝ) :
    ProperProbs (d := 1) (fun θ => tableProb ((onePLWith b).probs (θ 0))) (List.replicate items 2) := by
  intro θ j c hc
  obtain ⟨hj, rfl⟩ := replicate_getElem? _ _ _ _ hc
  simp [sum_range_succ, onePLWith_prob, hj]

theorem onePLWith_continuous {items : ℕ} (θ : Fin 1 → ℝ) (j r : ℕ) :
    Continuous fun b : Fin items → ℝ => tableProb ((onePLWith b).probs (θ 0)) j r := by
  simp only [onePLWith_prob]
  have hl : Continuous logistic := by
    unfold logistic
    exact Continuous.div (by fun_prop) (by fun_prop) fun x => by positivity
  split_ifs with hj
  · fun_prop
  · fun_prop
  · fun_prop
  · fun_prop

theorem weighted_strict {d : ℕ} (pts : Thetas d) (w : List ℝ) (hlen : w.length = pts.length) (hne : pts ≠ []) (hw : ∀ a ∈ w, 0 < a)
    (F G : (Fin d → ℝ) → ℝ) (h : ∀ θ, F θ < G θ) : weighted pts w F < weighted pts w G := by
  have h1 := weighted_lik_positive pts w hlen hne hw (fun θ => G θ - F θ) fun θ => sub_pos.2 (h θ)
  have e : weighted pts w (fun θ => G θ - F θ) = weighted pts w G - weighted pts w F := by
    unfold weighted
    clear hlen hne hw h1
    induction pts generalizing w with
    | nil => simp
    | cons q ps ih =>
      cases w with
      | nil => simp
      | cons a w =>
        simp only [List.zipWith_cons_cons, List.sum_cons]
        rw [ih w]
        ring
  linarith

/-- The distribution of the answers determines the intercepts. -/
theorem onePLWith_identified {items : ℕ} (pts : Thetas 1) (lw : List ℝ) (hlen : lw.length = pts.length) (hne : pts ≠ []) (b b' : Fin items → ℝ)
    (h : ∀ x ∈ fullAnswers (List.replicate items 2), populationProb (fun θ => tableProb ((onePLWith b).probs (θ 0))) pts (lw.map Real.exp) x
      = populationProb (fun θ => tableProb ((onePLWith b').probs (θ 0))) pts (lw.map Real.exp) x) : b = b' := by
  have hl' : (lw.map Real.exp).length = pts.length := by simpa using hlen
  have hwpos : ∀ a ∈ lw.map Real.exp, 0 < a := fun a ha => by
    obtain ⟨l, _, rfl⟩ := List.mem_map.1 ha
    exact Real.exp_pos l
  have hW := (weights_sum_pos pts lw hlen hne).ne'
  funext j
  have key : ∀ c : Fin items → ℝ, ∑ x ∈ fullAnswers (List.replicate items 2),
      populationProb (fun θ => tableProb ((onePLWith c).probs (θ 0))) pts (lw.map Real.exp) x * (if x ⟨j, by simp⟩ = 1 then 1 else 0)
        = weighted pts (lw.map Real.exp) (fun θ => logistic (θ 0 + c j)) / (lw.map Real.exp).sum := by
    intro c
    have e : ∀ x : Fin (List.replicate items 2).length → ℕ,
        populationProb (fun θ => tableProb ((onePLWith c).probs (θ 0))) pts (lw.map Real.exp) x * (if x ⟨j, by simp⟩ = 1 then 1 else 0)
          = weighted pts (lw.map Real.exp) (fun θ => (if x ⟨j, by simp⟩ = 1 then 1 else 0) *
              answerProb (fun θ : Fin 1 → ℝ => tableProb ((onePLWith c).probs (θ 0))) θ x) / (lw.map Real.exp).sum := by
      intro x
      rw [weighted_smul, populationProb]
      ring
    rw [sum_congr rfl fun x _ => e x, ← sum_div, ← weighted_sum]
    congr 2
    funext θ
    have h1 := answerProb_item (onePLWith_proper c) θ ⟨j, by simp⟩ fun r => if r = 1 then 1 else 0
    simp only [mul_comm] at h1 ⊢
    rw [h1]
    simp [sum_range_succ, onePLWith_prob]
  have heq := key b
  rw [sum_congr rfl fun x hx => by rw [h x hx], key b', div_left_inj' hW] at heq
  by_contra hb
  rcases lt_or_gt_of_ne hb with hlt | hlt
  · exact absurd heq (weighted_strict pts _ hl' hne hwpos _ _ fun θ => logistic_strictMono (by linarith)).ne'
  · exact absurd heq (weighted_strict pts _ hl' hne hwpos _ _ fun θ => logistic_strictMono (by linarith)).ne

section OnePLSamples

variable {items : ℕ} (hitems : 0 < items) (pts : Thetas 1) (lw : List ℝ) (hlen : lw.length = pts.length) (hne : pts ≠ []) (β : ℝ)

include hitems hlen hne in
/-- C133: among intercepts within bounds there are, for every sample, some with the smallest loss. -/
theorem C133_onePL_exists (hβ : 0 ≤ β) (N : ℕ) (s : Fin N → Fin (List.replicate items 2).length → ℕ) (hs : s ∈ samples N (List.replicate items 2)) :
    ∃ b : Fin items → ℝ, (∀ j, |b j| ≤ β) ∧ ∃ L', mmlLoss (onePLWith b).scorer (rowsOf N (List.replicate items 2).length (sampleCells s)) pts lw = .ok (some L') ∧
      ∀ b' : Fin items → ℝ, (∀ j, |b' j| ≤ β) →
        ∃ L, mmlLoss (onePLWith b').scorer (rowsOf N (List.replicate items 2).length (sampleCells s)) pts lw = .ok (some L) ∧ L' ≤ L := by
  have hloss : ∀ b : Fin items → ℝ, _ := fun b => sample_loss ((onePLWith b).isScorer (onePLWith_wf b) hitems)
    ((onePLWith b).positive (onePLWith_wf b)) pts lw hlen hne hs
  have hc : Continuous fun b : Fin items → ℝ =>
      -(∑ i, Real.log (populationProb (fun θ => tableProb ((onePLWith b).probs (θ 0))) pts (lw.map Real.exp) (s i)) + N * Real.log (lw.map Real.exp).sum) := by
    refine Continuous.neg (Continuous.add (continuous_finsetSum _ fun i _ => Continuous.log ?_ fun b => ?_) continuous_const)
    · exact continuousOn_univ.1 (continuousOn_populationProb (fun (b : Fin items → ℝ) θ => tableProb ((onePLWith b).probs (θ 0))) Set.univ
        (fun θ j r => (onePLWith_continuous θ j r).continuousOn) pts _ _)
    · exact (populationProb_pos ((onePLWith b).isScorer (onePLWith_wf b) hitems) ((onePLWith b).positive (onePLWith_wf b)) pts lw hlen hne
        (Fintype.mem_piFinset.1 hs i)).ne'
  obtain ⟨b, hb, hmin⟩ := (isCompact_univ_pi fun _ : Fin items => isCompact_Icc (a := -β) (b := β)).exists_isMinOn
    ⟨fun _ => 0, fun _ _ => ⟨by linarith, hβ⟩⟩ hc.continuousOn
  exact ⟨b, fun j => abs_le.2 (hb j (Set.mem_univ j)), _, hloss b, fun b' hb' => ⟨_, hloss b', hmin fun j _ => abs_le.1 (hb' j)⟩⟩

include hitems hlen hne in
/-- C133 for the 1PL model: with enough respondents the intercepts with the smallest loss (among those within bounds) are near the true ones. -/
theorem C133_onePL (b₀ : Fin items → ℝ) (h₀ : ∀ j, |b₀ j| ≤ β)
    (estimate : (N : ℕ) → (Fin N → Fin (List.replicate items 2).length → ℕ) → Fin items → ℝ)
    (hest : ∀ N, ∀ s ∈ samples N (List.replicate items 2), (∀ j, |estimate N s j| ≤ β) ∧
      ∃ L L' : ℝ, mmlLoss (onePLWith b₀).scorer (rowsOf N (List.replicate items 2).length (sampleCells s)) pts lw = .ok (some L) ∧
        mmlLoss (onePLWith (estimate N s)).scorer (rowsOf N (List.replicate items 2).length (sampleCells s)) pts lw = .ok (some L') ∧ L' ≤ L)
    (ε risk : ℝ) (hε : 0 < ε) (hrisk : 0 < risk) :
    ∃ N₀ : ℕ, ∀ N, N₀ ≤ N → ∀ far : Finset (Fin N → Fin (List.replicate items 2).length → ℕ), far ⊆ samples N (List.replicate items 2) →
      (∀ s ∈ far, ∃ j, ε ≤ |estimate N s j - b₀ j|) →
      ∑ s ∈ far, sampleProb (populationProb (fun θ => tableProb ((onePLWith b₀).probs (θ 0))) pts (lw.map Real.exp)) s ≤ risk := by
  obtain ⟨N₀, h⟩ := C133_parameters (cats := List.replicate items 2) (fun b : Fin items → ℝ => (onePLWith b).scorer)
    (fun b θ => tableProb ((onePLWith b).probs (θ 0))) (Set.univ.pi fun _ => Set.Icc (-β) β) (isCompact_univ_pi fun _ => isCompact_Icc)
    (fun b _ => ⟨(onePLWith b).isScorer (onePLWith_wf b) hitems, (onePLWith b).positive (onePLWith_wf b), onePLWith_proper b⟩)
    (fun θ j r => (onePLWith_continuous θ j r).continuousOn) pts lw hlen hne b₀ (fun j _ => abs_le.1 (h₀ j))
    (fun b _ hb => onePLWith_identified pts lw hlen hne b b₀ hb) estimate
    (fun N s hs => ⟨fun j _ => abs_le.1 ((hest N s hs).1 j), (hest N s hs).2⟩) (Metric.ball b₀ ε) Metric.isOpen_ball (Metric.mem_ball_self hε) risk hrisk
  refine ⟨N₀, fun N hN far hfar hs => h N hN far hfar fun s hs' hball => ?_⟩
  obtain ⟨j, hj⟩ := hs s hs'
  have := (dist_pi_lt_iff hε).1 (Metric.mem_ball.1 hball) j
  rw [Real.dist_eq] at this
  linarith

end OnePLSamples

/-- Two items of difficulty 0 and 1, latent scores -1 and 1 with equal weights: the best intercepts of size at most 2 are within 1/10 of the truth
with probability at least 99/100 if there are enough respondents. -/
example : ∃ (estimate : (N : ℕ) → (Fin N → Fin (List.replicate 2 2).length → ℕ) → Fin 2 → ℝ) (N₀ : ℕ), ∀ N, N₀ ≤ N →
    ∀ far : Finset (Fin N → Fin (List.replicate 2 2).length → ℕ), far ⊆ samples N (List.replicate 2 2) →
      (∀ s ∈ far, ∃ j, 1 / 10 ≤ |estimate N s j - (![0, -1] : Fin 2 → ℝ) j|) →
      ∑ s ∈ far, sampleProb (populationProb (fun θ : Fin 1 → ℝ => tableProb ((onePLWith ![0, -1]).probs (θ 0))) [fun _ => -1, fun _ => 1]
        (([0, 0] : List ℝ).map Real.exp)) s ≤ 1 / 100 := by
  classical
  have hex := fun N s hs => C133_onePL_exists (items := 2) (by norm_num) [fun _ => -1, fun _ => 1] [0, 0] rfl (by simp) 2 (by norm_num) N s hs
  choose! est h1 L' h2 h3 using hex
  have h₀ : ∀ j, |(![0, -1] : Fin 2 → ℝ) j| ≤ 2 := by intro j; fin_cases j <;> norm_num
  refine ⟨est, C133_onePL (items := 2) (by norm_num) [fun _ => -1, fun _ => 1] [0, 0] rfl (by simp) 2 ![0, -1] h₀ est (fun N s hs => ⟨h1 N s hs, ?_⟩)
    (1 / 10) (1 / 100) (by norm_num) (by norm_num)⟩
  obtain ⟨L, hL, hle⟩ := h3 N s hs ![0, -1] h₀
  exact ⟨L, _, hL, h2 N s hs, hle⟩

end Irt
