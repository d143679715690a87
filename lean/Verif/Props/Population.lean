import Verif.Lemmas.Population
import Verif.Lemmas.GridSymmetry
import Verif.Lemmas.ScoreEquations
import Verif.Props.Scoring
import Verif.Props.Marginal
import Verif.Props.Nested

/-!
# C127: an unanswered item is an item whose answer is not known; C128: EAP scores where the model is true
-/

namespace Irt
open Spec

variable {d : ℕ} {m : Scorer d} {cats : List ℕ} {P : (Fin d → ℝ) → ℕ → ℕ → ℝ}

/-! ## C127 -/

theorem answersToAll_valid {x : Fin cats.length → ℕ} (hx : x ∈ fullAnswers cats) : ValidResponses cats (answersToAll x) :=
  answersTo_valid _ hx

/-- C127: the marginal likelihood of a respondent with unanswered items, as minimised by MML, is the sum of the marginal likelihoods of
all the ways in which the respondent could have answered them. -/
theorem C127_mml (hm : IsScorer m cats P) (hpos : PositiveProbs P cats) (hP : ProperProbs P cats) (row : ℕ → Cell)
    (hrow : ValidResponses cats row) (pts : Thetas d) (lw : List ℝ) (hlen : lw.length = pts.length) (hne : pts ≠ []) :
    ∃ (L : ℝ) (Lx : (Fin cats.length → ℕ) → ℝ), mmlLoss m (rowsOf 1 cats.length fun _ => row) pts lw = .ok (some L) ∧
      (∀ x ∈ completions cats row, mmlLoss m (rowsOf 1 cats.length fun _ => answersToAll x) pts lw = .ok (some (Lx x))) ∧
      Real.exp (-L) = ∑ x ∈ completions cats row, Real.exp (-Lx x) := by
  have key : ∀ r, ValidResponses cats r → 0 < weighted pts (lw.map Real.exp) (observedLikelihood P cats.length r) := by
    intro r hr
    refine weighted_lik_positive pts _ (by simpa using hlen) hne (fun w hw => ?_) _ fun θ => observedLikelihood_pos hpos _ hr θ
    obtain ⟨l, _, rfl⟩ := List.mem_map.1 hw
    exact Real.exp_pos _
  refine ⟨_, fun x => -∑ i ∈ Finset.range 1, Real.log (weighted pts (lw.map Real.exp) (observedLikelihood P cats.length (answersToAll x))),
    mmlLoss_weighted hm hpos 1 (fun _ => row) (fun _ _ => hrow) pts lw hlen hne, fun x hx =>
    mmlLoss_weighted hm hpos 1 (fun _ => answersToAll x) (fun _ _ => answersToAll_valid (completions_valid hrow hx)) pts lw hlen hne, ?_⟩
  simp only [Finset.sum_range_one, neg_neg]
  rw [Real.exp_log (key row hrow)]
  rw [Finset.sum_congr rfl fun x hx => Real.exp_log (key _ (answersToAll_valid (completions_valid hrow hx)))]
  rw [← weighted_sum]
  congr 1
  funext θ
  rw [observedLikelihood_completions hP]
  exact Finset.sum_congr rfl fun x _ => (observedLikelihood_all x θ).symm

/-- C127: the EAP score of a respondent with unanswered items is the mean of the EAP scores for all the ways in which they could have
answered them, weighted with the probabilities of these answers given the others. -/
theorem C127_eap (hm : IsScorer m cats P) (hpos : PositiveProbs P cats) (hP : ProperProbs P cats) (a : AlgAttrs d) (hd : d ≤ 4)
    (points : Option ℕ) (grid : Thetas d) (hg : grid ≠ []) (cov : Matrix (Fin d) (Fin d) ℝ) (hcov : cov.PosDef)
    (hgrid : eapGrid a (points.getD (eapDefaultPoints d)) = .ok (grid, cov)) (row : ℕ → Cell) (hrow : ValidResponses cats row) :
    ∃ (s : Fin d → ℝ) (sx : (Fin cats.length → ℕ) → Fin d → ℝ),
      eapScores m a (rowsOf 1 cats.length fun _ => row) points = .ok [some s] ∧
      (∀ x ∈ completions cats row, eapScores m a (rowsOf 1 cats.length fun _ => answersToAll x) points = .ok [some (sx x)]) ∧
      let given := (grid.map fun θ => Real.exp (mvnLogDensity 0 cov θ) * observedLikelihood P cats.length row θ).sum
      let weight := fun x => (grid.map fun θ => Real.exp (mvnLogDensity 0 cov θ) * answerProb P θ x).sum / given
      (∀ x ∈ completions cats row, 0 < weight x) ∧ ∑ x ∈ completions cats row, weight x = 1 ∧
      ∀ k, s k = ∑ x ∈ completions cats row, weight x * sx x k := by
  have key : ∀ r, ValidResponses cats r →
      0 < (grid.map fun θ => Real.exp (mvnLogDensity 0 cov θ) * observedLikelihood P cats.length r θ).sum := by
    intro r hr
    obtain ⟨θ, hθ⟩ := List.exists_mem_of_ne_nil grid hg
    have hl := fun θ => mul_pos (Real.exp_pos (mvnLogDensity 0 cov θ)) (observedLikelihood_pos hpos _ hr θ)
    exact list_sum_pos_of_mem grid _ (fun θ _ => (hl θ).le) θ hθ (hl θ)
  have run : ∀ r, ValidResponses cats r → eapScores m a (rowsOf 1 cats.length fun _ => r) points = .ok [some fun k =>
      (grid.map fun θ => Real.exp (mvnLogDensity 0 cov θ) * observedLikelihood P cats.length r θ * θ k).sum
        / (grid.map fun θ => Real.exp (mvnLogDensity 0 cov θ) * observedLikelihood P cats.length r θ).sum] := by
    intro r hr
    rw [C45_posterior_mean hm a hd points 1 (fun _ => r) (fun _ _ => hr) grid hg cov hcov hgrid]
    simp [List.range_succ, if_neg (key r hr).ne']
  have hx := fun x hx => key (answersToAll x) (answersToAll_valid (completions_valid hrow hx))
  simp only [observedLikelihood_all] at hx
  have hsum : (grid.map fun θ => Real.exp (mvnLogDensity 0 cov θ) * observedLikelihood P cats.length row θ).sum
      = ∑ x ∈ completions cats row, (grid.map fun θ => Real.exp (mvnLogDensity 0 cov θ) * answerProb P θ x).sum := by
    rw [← list_sum_finset]
    simp only [observedLikelihood_completions hP, Finset.mul_sum]
  refine ⟨_, _, run row hrow, fun x hx => run _ (answersToAll_valid (completions_valid hrow hx)), fun x h => ?_, ?_, fun k => ?_⟩
  · exact div_pos (hx x h) (key row hrow)
  · rw [← Finset.sum_div, ← hsum, div_self (key row hrow).ne']
  · simp only [observedLikelihood_all]
    rw [div_eq_iff (key row hrow).ne', Finset.sum_mul]
    have e : (grid.map fun θ => Real.exp (mvnLogDensity 0 cov θ) * observedLikelihood P cats.length row θ * θ k).sum
        = ∑ x ∈ completions cats row, (grid.map fun θ => Real.exp (mvnLogDensity 0 cov θ) * answerProb P θ x * θ k).sum := by
      rw [← list_sum_finset]
      simp only [observedLikelihood_completions hP, Finset.mul_sum, Finset.sum_mul]
    rw [e]
    refine Finset.sum_congr rfl fun x h => ?_
    have h1 := (hx x h).ne'
    have h2 := (key row hrow).ne'
    field_simp

/-- C127: so the score of a respondent who left items unanswered lies between the scores they could have got with answers. -/
theorem C127_eap_between (hm : IsScorer m cats P) (hpos : PositiveProbs P cats) (hP : ProperProbs P cats) (a : AlgAttrs d) (hd : d ≤ 4)
    (points : Option ℕ) (grid : Thetas d) (hg : grid ≠ []) (cov : Matrix (Fin d) (Fin d) ℝ) (hcov : cov.PosDef)
    (hgrid : eapGrid a (points.getD (eapDefaultPoints d)) = .ok (grid, cov)) (row : ℕ → Cell) (hrow : ValidResponses cats row)
    (s : Fin d → ℝ) (hs : eapScores m a (rowsOf 1 cats.length fun _ => row) points = .ok [some s]) (k : Fin d) (lo hi : ℝ)
    (hb : ∀ x ∈ completions cats row, ∀ t, eapScores m a (rowsOf 1 cats.length fun _ => answersToAll x) points = .ok [some t] →
      lo ≤ t k ∧ t k ≤ hi) : lo ≤ s k ∧ s k ≤ hi := by
  obtain ⟨s', sx, h1, h2, h3, h4, h5⟩ := C127_eap hm hpos hP a hd points grid hg cov hcov hgrid row hrow
  obtain rfl : s = s' := by simpa using hs.symm.trans h1
  rw [h5 k]
  constructor
  · rw [← one_mul lo, ← h4, Finset.sum_mul]
    exact Finset.sum_le_sum fun x hx => mul_le_mul_of_nonneg_left (hb x hx _ (h2 x hx)).1 (h3 x hx).le
  · rw [← one_mul hi, ← h4, Finset.sum_mul]
    exact Finset.sum_le_sum fun x hx => mul_le_mul_of_nonneg_left (hb x hx _ (h2 x hx)).2 (h3 x hx).le

/-! ## C128 -/

/-- `e x` are the EAP scores of a respondent who was asked the items in `T`, and whose answers are those in `x`. -/
def EapOf (m : Scorer d) (a : AlgAttrs d) (points : Option ℕ) (cats : List ℕ) (T : Finset (Fin cats.length))
    (e : (Fin cats.length → ℕ) → Fin d → ℝ) : Prop :=
  ∀ x ∈ fullAnswers cats, eapScores m a (rowsOf 1 cats.length fun _ => answersTo T x) points = .ok [some (e x)]

section Scores

variable (hm : IsScorer m cats P) (hpos : PositiveProbs P cats) (hP : ProperProbs P cats) (a : AlgAttrs d) (hd : d ≤ 4)
  (points : Option ℕ) (grid : Thetas d) (hg : grid ≠ []) (cov : Matrix (Fin d) (Fin d) ℝ) (hcov : cov.PosDef)
  (hgrid : eapGrid a (points.getD (eapDefaultPoints d)) = .ok (grid, cov))

include hm hpos hd hg hcov hgrid in
theorem eapOf_run (row : ℕ → Cell) (hrow : ValidResponses cats row) :
    0 < (grid.map fun θ => Real.exp (mvnLogDensity 0 cov θ) * observedLikelihood P cats.length row θ).sum ∧
    eapScores m a (rowsOf 1 cats.length fun _ => row) points = .ok [some fun k =>
      (grid.map fun θ => Real.exp (mvnLogDensity 0 cov θ) * observedLikelihood P cats.length row θ * θ k).sum
        / (grid.map fun θ => Real.exp (mvnLogDensity 0 cov θ) * observedLikelihood P cats.length row θ).sum] := by
  have key : 0 < (grid.map fun θ => Real.exp (mvnLogDensity 0 cov θ) * observedLikelihood P cats.length row θ).sum := by
    obtain ⟨θ, hθ⟩ := List.exists_mem_of_ne_nil grid hg
    have hl := fun θ => mul_pos (Real.exp_pos (mvnLogDensity 0 cov θ)) (observedLikelihood_pos hpos _ hrow θ)
    exact list_sum_pos_of_mem grid _ (fun θ _ => (hl θ).le) θ hθ (hl θ)
  refine ⟨key, ?_⟩
  rw [C45_posterior_mean hm a hd points 1 (fun _ => row) (fun _ _ => hrow) grid hg cov hcov hgrid]
  simp [List.range_succ, if_neg key.ne']

include hm hpos hd hg hcov hgrid in
/-- Every respondent of the population gets a score. -/
theorem C128_scores_exist (T : Finset (Fin cats.length)) : ∃ e, EapOf m a points cats T e :=
  ⟨_, fun x hx => (eapOf_run hm hpos a hd points grid hg cov hcov hgrid _ (answersTo_valid T hx)).2⟩

include hm hpos hd hg hcov hgrid in
theorem eapOf_dependsOn {T : Finset (Fin cats.length)} {e : (Fin cats.length → ℕ) → Fin d → ℝ} (he : EapOf m a points cats T e)
    {x x' : Fin cats.length → ℕ} (hx : x ∈ fullAnswers cats) (hx' : x' ∈ fullAnswers cats) (h : ∀ j ∈ T, x j = x' j) : e x = e x' := by
  have h1 := he x hx
  have h2 := he x' hx'
  rw [answersTo_congr T h, h2] at h1
  simpa using h1.symm

include hm hpos hP hd hg hcov hgrid in
/-- C128: the error of the EAP score is uncorrelated with every function of the answers it is based on. -/
theorem C128_errors {T : Finset (Fin cats.length)} {e : (Fin cats.length → ℕ) → Fin d → ℝ} (he : EapOf m a points cats T e) (k : Fin d)
    (δ : (Fin cats.length → ℕ) → ℝ) (hδ : DependsOn cats T δ) :
    expectation P cats (fun θ => Real.exp (mvnLogDensity 0 cov θ)) grid (fun θ x => (θ k - e x k) * δ x) = 0 := by
  rw [expectation_swap, div_eq_zero_iff]
  left
  refine sum_full_eq_zero T _ fun u hu => ?_
  obtain ⟨hz, hrun⟩ := eapOf_run hm hpos a hd points grid hg cov hcov hgrid _ (answersTo_valid T hu)
  rw [he u hu] at hrun
  have hk := congrArg (fun f => f k) (Option.some.inj (List.cons.inj (Except.ok.inj hrun)).1)
  dsimp only at hk
  rw [eq_div_iff hz.ne'] at hk
  have e1 : ∀ x ∈ completions cats (answersTo T u),
      (grid.map fun θ => Real.exp (mvnLogDensity 0 cov θ) * (answerProb P θ x * ((θ k - e x k) * δ x))).sum
        = (grid.map fun θ => δ u * (Real.exp (mvnLogDensity 0 cov θ) * answerProb P θ x * (θ k - e u k))).sum := by
    intro x hx
    obtain ⟨h1, h2⟩ := (mem_completions_answersTo T u x hu).1 hx
    rw [hδ x h1 u hu h2, eapOf_dependsOn hm hpos a hd points grid hg cov hcov hgrid he h1 hu h2]
    congr 2
    funext θ
    ring
  rw [Finset.sum_congr rfl e1, ← list_sum_finset]
  have e2 : (fun θ : Fin d → ℝ => ∑ x ∈ completions cats (answersTo T u),
      δ u * (Real.exp (mvnLogDensity 0 cov θ) * answerProb P θ x * (θ k - e u k)))
      = fun θ => δ u * ((Real.exp (mvnLogDensity 0 cov θ) * observedLikelihood P cats.length (answersTo T u) θ * θ k)
          + (-(e u k)) * (Real.exp (mvnLogDensity 0 cov θ) * observedLikelihood P cats.length (answersTo T u) θ)) := by
    funext θ
    rw [observedLikelihood_completions hP, ← Finset.mul_sum, ← Finset.sum_mul, ← Finset.mul_sum]
    ring
  rw [e2, list_sum_mul_left, List.sum_map_add, list_sum_mul_left, ← hk]
  ring

include hg in
theorem prior_sum_pos : 0 < (grid.map fun θ => Real.exp (mvnLogDensity 0 cov θ)).sum := by
  obtain ⟨θ, hθ⟩ := List.exists_mem_of_ne_nil grid hg
  exact list_sum_pos_of_mem grid _ (fun θ _ => (Real.exp_pos _).le) θ hθ (Real.exp_pos _)

include hm hpos hP hd hg hcov hgrid in
/-- C128: EAP scores are calibrated. Whatever group of respondents is picked by their scores, the mean of their scores is the mean of their
latent variables (both times the share of the group). -/
theorem C128_calibrated {T : Finset (Fin cats.length)} {e : (Fin cats.length → ℕ) → Fin d → ℝ} (he : EapOf m a points cats T e) (k : Fin d)
    (group : (Fin d → ℝ) → Prop) [DecidablePred group] :
    expectation P cats (fun θ => Real.exp (mvnLogDensity 0 cov θ)) grid (fun _ x => if group (e x) then e x k else 0)
      = expectation P cats (fun θ => Real.exp (mvnLogDensity 0 cov θ)) grid fun θ x => if group (e x) then θ k else 0 := by
  have h := C128_errors hm hpos hP a hd points grid hg cov hcov hgrid he k (fun x => if group (e x) then 1 else 0) fun x hx x' hx' hj => by
    dsimp only
    rw [eapOf_dependsOn hm hpos a hd points grid hg cov hcov hgrid he hx hx' hj]
  have e1 : (fun (θ : Fin d → ℝ) (x : Fin cats.length → ℕ) => (θ k - e x k) * if group (e x) then (1 : ℝ) else 0)
      = fun θ x => (if group (e x) then θ k else 0) - if group (e x) then e x k else 0 := by
    funext θ x
    split_ifs <;> ring
  rw [e1, expectation_sub, sub_eq_zero] at h
  exact h.symm

include hm hpos hP hd hg hcov hgrid in
/-- C128: the mean EAP score of the population is the mean of its latent variable. -/
theorem C128_mean {T : Finset (Fin cats.length)} {e : (Fin cats.length → ℕ) → Fin d → ℝ} (he : EapOf m a points cats T e) (k : Fin d) :
    expectation P cats (fun θ => Real.exp (mvnLogDensity 0 cov θ)) grid (fun _ x => e x k)
      = (grid.map fun θ => Real.exp (mvnLogDensity 0 cov θ) * θ k).sum / (grid.map fun θ => Real.exp (mvnLogDensity 0 cov θ)).sum := by
  have h := C128_calibrated hm hpos hP a hd points grid hg cov hcov hgrid he k fun _ => True
  simp only [if_true] at h
  rw [h, expectation_latent hP fun θ => θ k]

include hm hpos hP hd hg hcov hgrid in
/-- The mean squared error of a score based on the same answers is that of the EAP score and the mean square of the difference. -/
theorem C128_pythagoras {T : Finset (Fin cats.length)} {e : (Fin cats.length → ℕ) → Fin d → ℝ} (he : EapOf m a points cats T e) (k : Fin d)
    (δ : (Fin cats.length → ℕ) → ℝ) (hδ : DependsOn cats T δ) :
    expectation P cats (fun θ => Real.exp (mvnLogDensity 0 cov θ)) grid (fun θ x => (θ k - δ x) ^ 2)
      = expectation P cats (fun θ => Real.exp (mvnLogDensity 0 cov θ)) grid (fun θ x => (θ k - e x k) ^ 2)
        + expectation P cats (fun θ => Real.exp (mvnLogDensity 0 cov θ)) grid fun _ x => (e x k - δ x) ^ 2 := by
  have h := C128_errors hm hpos hP a hd points grid hg cov hcov hgrid he k (fun x => e x k - δ x) fun x hx x' hx' hj => by
    dsimp only
    rw [eapOf_dependsOn hm hpos a hd points grid hg cov hcov hgrid he hx hx' hj, hδ x hx x' hx' hj]
  have e1 : (fun (θ : Fin d → ℝ) (x : Fin cats.length → ℕ) => (θ k - δ x) ^ 2)
      = fun θ x => ((θ k - e x k) ^ 2 + (e x k - δ x) ^ 2) + 2 * ((θ k - e x k) * (e x k - δ x)) := by
    funext θ x
    ring
  rw [e1, expectation_add, expectation_add, expectation_mul, h]
  ring

include hm hpos hP hd hg hcov hgrid in
/-- C128: no other score of the same answers has a smaller mean squared error than the EAP score, and only the EAP score has its mean
squared error. -/
theorem C128_best {T : Finset (Fin cats.length)} {e : (Fin cats.length → ℕ) → Fin d → ℝ} (he : EapOf m a points cats T e) (k : Fin d)
    (δ : (Fin cats.length → ℕ) → ℝ) (hδ : DependsOn cats T δ) :
    let error := fun s : (Fin cats.length → ℕ) → ℝ =>
      expectation P cats (fun θ => Real.exp (mvnLogDensity 0 cov θ)) grid fun θ x => (θ k - s x) ^ 2
    error (fun x => e x k) ≤ error δ ∧ (error δ = error (fun x => e x k) ↔ ∀ x ∈ fullAnswers cats, δ x = e x k) := by
  intro error
  have h : error δ = error (fun x => e x k) + _ := C128_pythagoras hm hpos hP a hd points grid hg cov hcov hgrid he k δ hδ
  have h0 : 0 ≤ expectation P cats (fun θ => Real.exp (mvnLogDensity 0 cov θ)) grid fun _ x => (e x k - δ x) ^ 2 :=
    expectation_nonneg hm.nonneg (fun _ => (Real.exp_pos _).le) fun _ _ => sq_nonneg _
  refine ⟨by linarith, fun heq x hx => ?_, fun heq => ?_⟩
  · have hz : expectation P cats (fun θ => Real.exp (mvnLogDensity 0 cov θ)) grid (fun _ x => (e x k - δ x) ^ 2) = 0 := by linarith
    rw [expectation_swap, div_eq_zero_iff] at hz
    rcases hz with hz | hz
    · rw [Finset.sum_eq_zero_iff_of_nonneg fun x _ => List.sum_nonneg fun v hv => by
        obtain ⟨θ, _, rfl⟩ := List.mem_map.1 hv
        exact mul_nonneg (Real.exp_pos _).le (mul_nonneg (Finset.prod_nonneg fun j _ => hm.nonneg θ j (x j)) (sq_nonneg _))] at hz
      by_contra hne
      have hsq : 0 < (e x k - δ x) ^ 2 := by
        have : e x k - δ x ≠ 0 := fun h => hne (sub_eq_zero.1 h).symm
        positivity
      obtain ⟨θ, hθ⟩ := List.exists_mem_of_ne_nil grid hg
      have hp : ∀ θ, 0 < answerProb P θ x := fun θ => by
        rw [← observedLikelihood_all]
        exact observedLikelihood_pos hpos _ (answersToAll_valid hx) θ
      exact absurd (hz x hx) (list_sum_pos_of_mem grid _ (fun θ _ => (mul_pos (Real.exp_pos _) (mul_pos (hp θ) hsq)).le) θ hθ
        (mul_pos (Real.exp_pos _) (mul_pos (hp θ) hsq))).ne'
    · exact absurd hz (prior_sum_pos grid hg cov).ne'
  · have e1 : expectation P cats (fun θ => Real.exp (mvnLogDensity 0 cov θ)) grid (fun _ x => (e x k - δ x) ^ 2) = 0 := by
      rw [expectation_swap]
      rw [Finset.sum_eq_zero fun x hx => by rw [heq x hx]; simp, zero_div]
    linarith

include hm hpos hP hd hg hcov hgrid in
/-- C128: asking more items never makes the mean squared error larger. -/
theorem C128_more_items {S T : Finset (Fin cats.length)} (hST : S ⊆ T) {e e' : (Fin cats.length → ℕ) → Fin d → ℝ}
    (he : EapOf m a points cats S e) (he' : EapOf m a points cats T e') (k : Fin d) :
    expectation P cats (fun θ => Real.exp (mvnLogDensity 0 cov θ)) grid (fun θ x => (θ k - e' x k) ^ 2)
      ≤ expectation P cats (fun θ => Real.exp (mvnLogDensity 0 cov θ)) grid fun θ x => (θ k - e x k) ^ 2 :=
  (C128_best hm hpos hP a hd points grid hg cov hcov hgrid he' k (fun x => e x k) fun x hx x' hx' h => by
    dsimp only
    rw [eapOf_dependsOn hm hpos a hd points grid hg cov hcov hgrid he hx hx' fun j hj => h j (hST hj)]).1

include hm hpos hP hd hg hcov hgrid in
/-- C128: EAP scores vary less than the latent variable. The variance of the latent variable is the variance of the scores and their mean
squared error. -/
theorem C128_spread {T : Finset (Fin cats.length)} {e : (Fin cats.length → ℕ) → Fin d → ℝ} (he : EapOf m a points cats T e) (k : Fin d) :
    let mean := fun F => expectation P cats (fun θ => Real.exp (mvnLogDensity 0 cov θ)) grid F
    let μ := mean fun θ _ => θ k
    mean (fun θ _ => (θ k - μ) ^ 2) = mean (fun _ x => (e x k - mean fun _ x => e x k) ^ 2) + mean fun θ x => (θ k - e x k) ^ 2 := by
  intro mean μ
  have hμ : mean (fun _ x => e x k) = μ := by
    have h1 := C128_mean hm hpos hP a hd points grid hg cov hcov hgrid he k
    rw [← expectation_latent hP fun θ => θ k] at h1
    exact h1
  rw [hμ]
  have h := C128_pythagoras hm hpos hP a hd points grid hg cov hcov hgrid he k (fun _ => μ) fun _ _ _ _ _ => rfl
  rw [add_comm] at h
  exact h

end Scores

/-! ## The hypotheses are met: two items, training scores 0 and 2 -/

theorem exScore_positive : PositiveProbs (fun θ : Fin 1 → ℝ => tableProb (exScore.probs (List.ofFn θ))) exScore.cats :=
  fun θ j c r hc hr => exScore.tableProb_pos exScore_wf _ j c r hc hr

theorem exScore_proper : ProperProbs (fun θ : Fin 1 → ℝ => tableProb (exScore.probs (List.ofFn θ))) exScore.cats :=
  properProbs_of_isTable fun θ => isTable_gpc exScore exScore_wf (List.ofFn θ)

noncomputable def exTrained : AlgAttrs 1 := Algorithm.jml.afterFit [fun _ => 0, fun _ => 2] 1 false none

theorem exTrained_grid : ∃ grid, grid ≠ [] ∧
    eapGrid exTrained ((none : Option ℕ).getD (eapDefaultPoints 1)) = .ok (grid, sampleCov [fun _ : Fin 1 => (0:ℝ), fun _ => 2]) := by
  obtain ⟨grid, cov, h1, h2, _, h4⟩ := C45_grid exTrained _ (by simp) rfl ((none : Option ℕ).getD (eapDefaultPoints 1)) (fun _ => 0) (fun _ => 2)
    (fun k => ⟨by simp, by rintro x ⟨t, ht, rfl⟩; simp at ht; rcases ht with rfl | rfl <;> norm_num⟩)
    (fun k => ⟨by simp, by rintro x ⟨t, ht, rfl⟩; simp at ht; rcases ht with rfl | rfl <;> norm_num⟩)
  refine ⟨grid, fun h => ?_, ?_⟩
  · rw [h] at h2
    norm_num [eapDefaultPoints] at h2
  · have : cov = sampleCov [fun _ : Fin 1 => (0:ℝ), fun _ => 2] := Matrix.ext h4
    rw [← this]
    exact h1

/-- One item solved, one not answered. -/
example : ∃ (L : ℝ) (Lx : (Fin exScore.cats.length → ℕ) → ℝ),
    mmlLoss (exScore.scorer 1) (rowsOf 1 exScore.cats.length fun _ => exResponses 1) [fun _ => 0, fun _ => 1] [-1, -2] = .ok (some L) ∧
      (∀ x ∈ completions exScore.cats (exResponses 1),
        mmlLoss (exScore.scorer 1) (rowsOf 1 exScore.cats.length fun _ => answersToAll x) [fun _ => 0, fun _ => 1] [-1, -2]
          = .ok (some (Lx x))) ∧
      Real.exp (-L) = ∑ x ∈ completions exScore.cats (exResponses 1), Real.exp (-Lx x) :=
  C127_mml exScore_isScorer exScore_positive exScore_proper _ (exResponses_valid 1) _ _ rfl (by simp)

example : ∃ (s : Fin 1 → ℝ) (sx : (Fin exScore.cats.length → ℕ) → Fin 1 → ℝ), eapScores (exScore.scorer 1) exTrained (rowsOf 1 exScore.cats.length fun _ => exResponses 1) none = .ok [some s] ∧
    (∀ x ∈ completions exScore.cats (exResponses 1),
      eapScores (exScore.scorer 1) exTrained (rowsOf 1 exScore.cats.length fun _ => answersToAll x) none = .ok [some (sx x)]) ∧
    ∀ lo hi, (∀ x ∈ completions exScore.cats (exResponses 1), lo ≤ sx x 0 ∧ sx x 0 ≤ hi) → lo ≤ s 0 ∧ s 0 ≤ hi := by
  obtain ⟨grid, hg, hgrid⟩ := exTrained_grid
  obtain ⟨s, sx, h1, h2, _⟩ := C127_eap exScore_isScorer exScore_positive exScore_proper exTrained (by norm_num) none grid hg _
    exTraining_cov hgrid _ (exResponses_valid 1)
  refine ⟨s, sx, h1, h2, fun lo hi hb => C127_eap_between exScore_isScorer exScore_positive exScore_proper exTrained (by norm_num) none grid
    hg _ exTraining_cov hgrid _ (exResponses_valid 1) s h1 0 lo hi fun x hx t ht => ?_⟩
  obtain rfl : t = sx x := by simpa using ht.symm.trans (h2 x hx)
  exact hb x hx

/-- Scores based on the first item and on both items. -/
example : ∃ (grid : Thetas 1) (e e' : (Fin exScore.cats.length → ℕ) → Fin 1 → ℝ),
    EapOf (exScore.scorer 1) exTrained none exScore.cats {⟨0, by simp [exScore]⟩} e ∧
    EapOf (exScore.scorer 1) exTrained none exScore.cats Finset.univ e' ∧
    let mean := fun F => expectation (fun θ : Fin 1 → ℝ => tableProb (exScore.probs (List.ofFn θ))) exScore.cats
      (fun θ => Real.exp (mvnLogDensity 0 (sampleCov [fun _ : Fin 1 => (0:ℝ), fun _ => 2]) θ)) grid F
    mean (fun θ x => (θ 0 - e' x 0) ^ 2) ≤ mean (fun θ x => (θ 0 - e x 0) ^ 2) ∧
    mean (fun θ x => (θ 0 - e' x 0) ^ 2) ≤ mean (fun θ x => (θ 0 - (x ⟨0, by simp [exScore]⟩ : ℝ)) ^ 2) ∧
    mean (fun _ x => if 1 < e' x 0 then e' x 0 else 0) = mean (fun θ x => if 1 < e' x 0 then θ 0 else 0) := by
  obtain ⟨grid, hg, hgrid⟩ := exTrained_grid
  obtain ⟨e, he⟩ := C128_scores_exist exScore_isScorer exScore_positive exTrained (by norm_num) none grid hg _ exTraining_cov hgrid
    {⟨0, by simp [exScore]⟩}
  obtain ⟨e', he'⟩ := C128_scores_exist exScore_isScorer exScore_positive exTrained (by norm_num) none grid hg _ exTraining_cov hgrid
    Finset.univ
  refine ⟨grid, e, e', he, he', ?_, ?_, ?_⟩
  · exact C128_more_items exScore_isScorer exScore_positive exScore_proper exTrained (by norm_num) none grid hg _ exTraining_cov hgrid
      (Finset.subset_univ _) he he' 0
  · exact (C128_best exScore_isScorer exScore_positive exScore_proper exTrained (by norm_num) none grid hg _ exTraining_cov hgrid
      he' 0 _ fun x _ x' _ h => by rw [h _ (Finset.mem_univ _)]).1
  · exact C128_calibrated exScore_isScorer exScore_positive exScore_proper exTrained (by norm_num) none grid hg _ exTraining_cov hgrid
      he' 0 fun s => 1 < s 0

end Irt
