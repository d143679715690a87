import Verif.Props.Population
import Verif.Props.GroupFit
import Verif.Props.ScoreOrder

/-!
# C129: a model is not beaten on data that follow it
-/

namespace Irt
open Spec

/-! ## The inequality of Gibbs -/

theorem gibbs_term {p q : ℝ} (hp : 0 < p) (hq : 0 < q) : p * Real.log q ≤ p * Real.log p + (q - p) := by
  have h := Real.log_le_sub_one_of_pos (div_pos hq hp)
  rw [Real.log_div hq.ne' hp.ne'] at h
  have h2 := mul_le_mul_of_nonneg_left h hp.le
  have e : p * (q / p - 1) = q - p := by field_simp
  rw [e] at h2
  linarith

theorem gibbs_term_strict {p q : ℝ} (hp : 0 < p) (hq : 0 < q) (hne : q ≠ p) : p * Real.log q < p * Real.log p + (q - p) := by
  have h := Real.log_lt_sub_one_of_pos (div_pos hq hp) (fun h => hne (by rwa [div_eq_one_iff_eq hp.ne'] at h))
  rw [Real.log_div hq.ne' hp.ne'] at h
  have h2 := mul_lt_mul_of_pos_left h hp
  have e : p * (q / p - 1) = q - p := by field_simp
  rw [e] at h2
  linarith

theorem gibbs {ι : Type} (s : Finset ι) (p q : ι → ℝ) (hp : ∀ x ∈ s, 0 < p x) (hq : ∀ x ∈ s, 0 < q x)
    (hsum : ∑ x ∈ s, q x ≤ ∑ x ∈ s, p x) :
    ∑ x ∈ s, p x * Real.log (q x) ≤ ∑ x ∈ s, p x * Real.log (p x) ∧
      (∑ x ∈ s, p x * Real.log (q x) = ∑ x ∈ s, p x * Real.log (p x) → ∀ x ∈ s, q x = p x) := by
  have h1 : ∑ x ∈ s, p x * Real.log (q x) ≤ ∑ x ∈ s, (p x * Real.log (p x) + (q x - p x)) :=
    Finset.sum_le_sum fun x hx => gibbs_term (hp x hx) (hq x hx)
  have e : ∑ x ∈ s, (p x * Real.log (p x) + (q x - p x)) = ∑ x ∈ s, p x * Real.log (p x) + (∑ x ∈ s, q x - ∑ x ∈ s, p x) := by
    rw [Finset.sum_add_distrib, Finset.sum_sub_distrib]
  refine ⟨by linarith, fun heq x hx => ?_⟩
  by_contra hne
  have h2 : ∑ x ∈ s, p x * Real.log (q x) < ∑ x ∈ s, (p x * Real.log (p x) + (q x - p x)) :=
    Finset.sum_lt_sum (fun x hx => gibbs_term (hp x hx) (hq x hx)) ⟨x, hx, gibbs_term_strict (hp x hx) (hq x hx) hne⟩
  linarith

/-! ## The loss of marginal maximum likelihood -/

/-- `L x` is the loss of marginal maximum likelihood for one respondent with the answers `x`. -/
def MmlLossOf {d : ℕ} (m : Scorer d) (cats : List ℕ) (pts : Thetas d) (lw : List ℝ) (L : (Fin cats.length → ℕ) → ℝ) : Prop :=
  ∀ x ∈ fullAnswers cats, mmlLoss m (rowsOf 1 cats.length fun _ => answersToAll x) pts lw = .ok (some (L x))

section Loss

variable {d : ℕ} {m : Scorer d} {cats : List ℕ} {P : (Fin d → ℝ) → ℕ → ℕ → ℝ} (hm : IsScorer m cats P) (hpos : PositiveProbs P cats)
  (pts : Thetas d) (lw : List ℝ) (hlen : lw.length = pts.length) (hne : pts ≠ [])

include hm hpos hlen hne in
theorem mmlLossOf_exists : ∃ L, MmlLossOf m cats pts lw L :=
  ⟨_, fun x hx => mmlLoss_weighted hm hpos 1 (fun _ => answersToAll x) (fun _ _ => answersToAll_valid hx) pts lw hlen hne⟩

include hm hpos hlen hne in
theorem mmlLossOf_eq {L : (Fin cats.length → ℕ) → ℝ} (hL : MmlLossOf m cats pts lw L) {x : Fin cats.length → ℕ} (hx : x ∈ fullAnswers cats) :
    Real.exp (-L x) = weighted pts (lw.map Real.exp) fun θ => answerProb P θ x := by
  have h := mmlLoss_weighted hm hpos 1 (fun _ => answersToAll x) (fun _ _ => answersToAll_valid hx) pts lw hlen hne
  rw [hL x hx] at h
  have h2 := Option.some.inj (Except.ok.inj h)
  rw [h2, Finset.sum_range_one, neg_neg, Real.exp_log]
  · congr 1
    funext θ
    exact observedLikelihood_all x θ
  · refine weighted_lik_positive pts _ (by simpa using hlen) hne (fun w hw => ?_) _ fun θ =>
      observedLikelihood_pos hpos _ (answersToAll_valid hx) θ
    obtain ⟨l, _, rfl⟩ := List.mem_map.1 hw
    exact Real.exp_pos _

theorem weighted_const_one (pts : Thetas d) (w : List ℝ) (h : w.length = pts.length) : weighted pts w (fun _ => 1) = w.sum := by
  unfold weighted
  induction pts generalizing w with
  | nil =>
    have : w = [] := List.length_eq_zero_iff.1 h
    simp [this]
  | cons p pts ih =>
    cases w with
    | nil => simp at h
    | cons a w =>
      have := ih w (by simpa using h)
      simp at this ⊢
      exact this

include hm hpos hlen hne in
/-- C129: the marginal likelihoods of all ways to answer the test add up to the sum of the weights of the integration rule. -/
theorem C129_mml_total (hP : ProperProbs P cats) {L : (Fin cats.length → ℕ) → ℝ} (hL : MmlLossOf m cats pts lw L) :
    ∑ x ∈ fullAnswers cats, Real.exp (-L x) = (lw.map Real.exp).sum := by
  rw [Finset.sum_congr rfl fun x hx => mmlLossOf_eq hm hpos pts lw hlen hne hL hx, ← weighted_sum]
  simp only [answerProb_sum hP]
  exact weighted_const_one pts _ (by simpa using hlen)

include hm hpos hlen hne in
/-- C129: on respondents whose answers follow a model, no other model has a smaller expected loss of marginal maximum likelihood, whatever
its item type and number of latent variables, if the weights of its integration rule have the same sum; and one with the same
expected loss gives the same probability to every way to answer the test. -/
theorem C129_mml_truth (hP : ProperProbs P cats) {L : (Fin cats.length → ℕ) → ℝ} (hL : MmlLossOf m cats pts lw L)
    {m' : Scorer d'} {P' : (Fin d' → ℝ) → ℕ → ℕ → ℝ} (hm' : IsScorer m' cats P') (hpos' : PositiveProbs P' cats)
    (hP' : ProperProbs P' cats) (pts' : Thetas d') (lw' : List ℝ) (hlen' : lw'.length = pts'.length) (hne' : pts' ≠ [])
    (hw : (lw'.map Real.exp).sum = (lw.map Real.exp).sum) {L' : (Fin cats.length → ℕ) → ℝ} (hL' : MmlLossOf m' cats pts' lw' L') :
    let expected := fun loss : (Fin cats.length → ℕ) → ℝ =>
      ∑ x ∈ fullAnswers cats, weighted pts (lw.map Real.exp) (fun θ => answerProb P θ x) * loss x
    expected L ≤ expected L' ∧ (expected L' = expected L → ∀ x ∈ fullAnswers cats, L' x = L x) := by
  intro expected
  have e : ∀ loss, expected loss = ∑ x ∈ fullAnswers cats, Real.exp (-L x) * loss x := fun loss =>
    Finset.sum_congr rfl fun x hx => by rw [mmlLossOf_eq hm hpos pts lw hlen hne hL hx]
  have h := gibbs (fullAnswers cats) (fun x => Real.exp (-L x)) (fun x => Real.exp (-L' x)) (fun x _ => Real.exp_pos _)
    (fun x _ => Real.exp_pos _) (by
      rw [C129_mml_total hm hpos pts lw hlen hne hP hL, C129_mml_total hm' hpos' pts' lw' hlen' hne' hP' hL', hw])
  simp only [Real.log_exp, mul_neg, Finset.sum_neg_distrib] at h
  rw [e, e]
  refine ⟨by linarith [h.1], fun heq x hx => ?_⟩
  have := Real.exp_injective (h.2 (by rw [heq]) x hx)
  linarith

end Loss

/-- The claim for quasi Monte Carlo integration, whose weights do not add up to one: on respondents whose answers follow a model no fit has
a smaller expected loss, whatever its number of integration points. -/
def TruthWinsAnyPoints : Prop := ∀ (m : Scorer 1) (cats : List ℕ) (P : (Fin 1 → ℝ) → ℕ → ℕ → ℝ), IsScorer m cats P → PositiveProbs P cats →
  ProperProbs P cats → ∀ (n n' : ℕ) (pts pts' : Thetas 1) (lw lw' : List ℝ), 0 < n → 0 < n' → quasiMc n 1 = .ok (pts, lw) →
    quasiMc n' 1 = .ok (pts', lw') → ∀ L L' : (Fin cats.length → ℕ) → ℝ, MmlLossOf m cats pts lw L → MmlLossOf m cats pts' lw' L' →
    ∑ x ∈ fullAnswers cats, weighted pts (lw.map Real.exp) (fun θ => answerProb P θ x) * L x
      ≤ ∑ x ∈ fullAnswers cats, weighted pts (lw.map Real.exp) (fun θ => answerProb P θ x) * L' x

/-- An item that says nothing about the latent variable. -/
noncomputable def exFlat : TwoPL := { items := 1, lv := 1, rel := [[true]], weight := [0], bias := [0] }

theorem exFlat_wf : exFlat.WF := ⟨by simp [exFlat], by simp [exFlat], by simp [exFlat, countTrue], by simp [exFlat]⟩

theorem exFlat_probs (θ : Fin 1 → ℝ) : exFlat.probs (List.ofFn θ) = exFlat.probs [0] := by
  simp [TwoPL.probs, TwoPL.forwardRow, TwoPL.weights, exFlat, viewRows, scatterMask, dot]

/-- With quasi Monte Carlo integration the loss gets smaller with the number of points, so losses of fits with different numbers of points
cannot be compared. -/
theorem C129_mml_points_false : ¬ TruthWinsAnyPoints := by
  intro h
  have hm := exFlat.isScorer exFlat_wf (by simp [exFlat]) 1
  have hpos := exFlat.positive exFlat_wf 1
  have hP := properProbs_of_isTable fun θ : Fin 1 → ℝ => isTable_twoPL exFlat exFlat_wf (List.ofFn θ)
  have hd : (1 : Matrix (Fin 1) (Fin 1) ℝ).PosDef := Matrix.PosDef.one
  have cons : ∀ a : ℝ, (Fin.cons a Fin.elim0 : Fin 1 → ℝ) = fun _ => a := fun a => funext fun i => by fin_cases i; rfl
  have q1 : quasiMc 1 (1 : Matrix (Fin 1) (Fin 1) ℝ) = .ok ([fun _ => -3], [mvnLogDensity 0 1 fun _ : Fin 1 => -3]) := by
    have e : cartesianProd (fun _ : Fin 1 => linspace (-3) 3 1) = [fun _ => -3] := by
      simp [cartesianProd, linspace, cons]
    simp [quasiMc, e, mvnLogProbs, hd, pure, Except.pure, bind, Except.bind]
  have q2 : quasiMc 2 (1 : Matrix (Fin 1) (Fin 1) ℝ)
      = .ok ([fun _ => -3, fun _ => 3], [mvnLogDensity 0 1 fun _ : Fin 1 => -3, mvnLogDensity 0 1 fun _ : Fin 1 => -3]) := by
    have e : cartesianProd (fun _ : Fin 1 => linspace (-3) 3 2) = [fun _ => -3, fun _ => 3] := by
      simp [cartesianProd, linspace, List.range_succ, cons]
      norm_num
    have e2 : mvnLogDensity 0 1 (fun _ : Fin 1 => (3 : ℝ)) = mvnLogDensity 0 1 fun _ : Fin 1 => -3 := by
      simp [mvnLogDensity, dotProduct]
    simp [quasiMc, e, e2, mvnLogProbs, hd, pure, Except.pure, bind, Except.bind]
  obtain ⟨L, hL⟩ := mmlLossOf_exists hm hpos [fun _ => -3] [mvnLogDensity 0 1 fun _ : Fin 1 => -3] rfl (by simp)
  obtain ⟨L', hL'⟩ := mmlLossOf_exists hm hpos [fun _ => -3, fun _ => 3] [mvnLogDensity 0 1 fun _ : Fin 1 => -3, mvnLogDensity 0 1 fun _ : Fin 1 => -3] rfl
    (by simp)
  have key := h _ _ _ hm hpos hP 1 2 _ _ _ _ (by norm_num) (by norm_num) q1 q2 L L' hL hL'
  have hlt : ∀ x ∈ fullAnswers (List.replicate exFlat.items 2), L' x < L x := by
    intro x hx
    have h1 := mmlLossOf_eq hm hpos _ _ rfl (by simp) hL hx
    have h2 := mmlLossOf_eq hm hpos _ _ rfl (by simp) hL' hx
    have hp : ∀ θ, answerProb (fun θ : Fin 1 → ℝ => tableProb (exFlat.probs (List.ofFn θ))) θ x
        = answerProb (fun θ : Fin 1 → ℝ => tableProb (exFlat.probs (List.ofFn θ))) (fun _ => -3) x := by
      intro θ
      simp only [answerProb, exFlat_probs]
    have he := Real.exp_pos (mvnLogDensity 0 1 fun _ : Fin 1 => -3)
    have h0 := Real.exp_pos (-L x)
    simp only [weighted, List.map_cons, List.map_nil, List.zipWith_cons_cons, List.zipWith_nil_left, List.sum_cons, List.sum_nil,
      hp] at h1 h2
    have : Real.exp (-L x) < Real.exp (-L' x) := by rw [h2]; linarith
    have := Real.exp_lt_exp.1 this
    linarith
  refine absurd key (not_le.2 (Finset.sum_lt_sum_of_nonempty ?_ fun x hx => ?_))
  · exact ⟨fun _ => 0, Fintype.mem_piFinset.2 fun j => by simp⟩
  · refine mul_lt_mul_of_pos_left (hlt x hx) ?_
    rw [← mmlLossOf_eq hm hpos _ _ rfl (by simp) hL hx]
    exact Real.exp_pos _

/-! ## The log likelihood of the evaluator -/

/-- `L x` is the log likelihood that the evaluator reports for one respondent with latent scores `θ` and the answers `x`. -/
def LogLikOf {d : ℕ} (m : Scorer d) (cats : List ℕ) (θ : Fin d → ℝ) (L : (Fin cats.length → ℕ) → ℝ) : Prop :=
  ∀ x ∈ fullAnswers cats, evaluatorLogLikelihood m "sum" "all" [θ] (dataOf 1 cats.length fun _ => answersToAll x) = .ok (.scalar (some (L x)))

theorem answersToAll_at {K : ℕ} (x : Fin K → ℕ) (j : Fin K) : answersToAll x j = some (x j : ℤ) := by
  simp [answersToAll, answersTo]

theorem logLikOf_run {d : ℕ} {m : Scorer d} {cats : List ℕ} {P : (Fin d → ℝ) → ℕ → ℕ → ℝ} (hm : IsScorer m cats P) (θ : Fin d → ℝ)
    {x : Fin cats.length → ℕ} (hx : x ∈ fullAnswers cats) :
    evaluatorLogLikelihood m "sum" "all" [θ] (dataOf 1 cats.length fun _ => answersToAll x)
      = .ok (.scalar (some (∑ j : Fin cats.length, flooredLog (P θ j (x j))))) := by
  have h := (C59_sums hm 1 (fun _ => θ) (fun _ => answersToAll x) fun _ _ => answersToAll_valid hx).2.2
  rw [hm.items] at h
  have e : (List.range 1).map (fun _ => θ) = [θ] := by simp [List.range_succ]
  rw [e] at h
  rw [h]
  congr 3
  have hobs : ∀ j : Fin cats.length, IsObserved (answersToAll x j) := fun j => ⟨x j, answersToAll_at x j, by omega⟩
  rw [Finset.sum_range_one, Finset.sum_filter, Finset.sum_range]
  refine Finset.sum_congr rfl fun j _ => ?_
  rw [if_pos (hobs j), answersToAll_at]
  simp [responseOf]

theorem logLikOf_exists {d : ℕ} {m : Scorer d} {cats : List ℕ} {P : (Fin d → ℝ) → ℕ → ℕ → ℝ} (hm : IsScorer m cats P) (θ : Fin d → ℝ) :
    ∃ L, LogLikOf m cats θ L := ⟨_, fun _ hx => logLikOf_run hm θ hx⟩

theorem logLikOf_positive {d : ℕ} {m : Scorer d} {cats : List ℕ} {P : (Fin d → ℝ) → ℕ → ℕ → ℝ} (hm : IsScorer m cats P)
    (hpos : PositiveProbs P cats) (θ : Fin d → ℝ) {L : (Fin cats.length → ℕ) → ℝ} (hL : LogLikOf m cats θ L) {x : Fin cats.length → ℕ}
    (hx : x ∈ fullAnswers cats) : 0 < answerProb P θ x ∧ L x = Real.log (answerProb P θ x) := by
  have hp : ∀ j : Fin cats.length, 0 < P θ j (x j) := fun j => by
    have h := Finset.mem_range.1 (Fintype.mem_piFinset.1 hx j)
    exact hpos θ j cats[j] (x j) (by simp) h
  refine ⟨Finset.prod_pos fun j _ => hp j, ?_⟩
  have h := logLikOf_run hm θ hx
  rw [hL x hx] at h
  have h2 : L x = ∑ j : Fin cats.length, flooredLog (P θ j (x j)) := by simpa using h
  rw [h2]
  unfold answerProb
  rw [Real.log_prod fun j _ => (hp j).ne']
  exact Finset.sum_congr rfl fun j _ => by rw [flooredLog, if_neg (hp j).ne']

/-- The claim for the evaluator: on answers of a respondent with latent scores `θ` that follow a model, no other model, and no other latent
scores, have a larger expected log likelihood. -/
def TruthWinsLogLik : Prop := ∀ (d d' : ℕ) (m : Scorer d) (m' : Scorer d') (cats : List ℕ) (P : (Fin d → ℝ) → ℕ → ℕ → ℝ)
  (P' : (Fin d' → ℝ) → ℕ → ℕ → ℝ), IsScorer m cats P → IsScorer m' cats P' → PositiveProbs P cats → ProperProbs P cats → ProperProbs P' cats →
  ∀ (θ : Fin d → ℝ) (θ' : Fin d' → ℝ) (L L' : (Fin cats.length → ℕ) → ℝ), LogLikOf m cats θ L → LogLikOf m' cats θ' L' →
    ∑ x ∈ fullAnswers cats, answerProb P θ x * L' x ≤ ∑ x ∈ fullAnswers cats, answerProb P θ x * L x

/-- C129 for the log likelihood of the evaluator, for models that give every answer a positive probability. Missing: models with impossible
answers, see `C129_log_likelihood_false`. -/
theorem C129_log_likelihood_partial {d d' : ℕ} {m : Scorer d} {m' : Scorer d'} {cats : List ℕ} {P : (Fin d → ℝ) → ℕ → ℕ → ℝ}
    {P' : (Fin d' → ℝ) → ℕ → ℕ → ℝ} (hm : IsScorer m cats P) (hm' : IsScorer m' cats P') (hpos : PositiveProbs P cats)
    (hpos' : PositiveProbs P' cats) (hP : ProperProbs P cats) (hP' : ProperProbs P' cats) (θ : Fin d → ℝ) (θ' : Fin d' → ℝ)
    {L L' : (Fin cats.length → ℕ) → ℝ} (hL : LogLikOf m cats θ L) (hL' : LogLikOf m' cats θ' L') :
    ∑ x ∈ fullAnswers cats, answerProb P θ x * L' x ≤ ∑ x ∈ fullAnswers cats, answerProb P θ x * L x ∧
      (∑ x ∈ fullAnswers cats, answerProb P θ x * L' x = ∑ x ∈ fullAnswers cats, answerProb P θ x * L x →
        ∀ x ∈ fullAnswers cats, answerProb P' θ' x = answerProb P θ x) := by
  have h := gibbs (fullAnswers cats) (answerProb P θ) (answerProb P' θ') (fun x hx => (logLikOf_positive hm hpos θ hL hx).1)
    (fun x hx => (logLikOf_positive hm' hpos' θ' hL' hx).1) (by rw [answerProb_sum hP, answerProb_sum hP'])
  have e : ∑ x ∈ fullAnswers cats, answerProb P θ x * L x = ∑ x ∈ fullAnswers cats, answerProb P θ x * Real.log (answerProb P θ x) :=
    Finset.sum_congr rfl fun x hx => by rw [(logLikOf_positive hm hpos θ hL hx).2]
  have e' : ∑ x ∈ fullAnswers cats, answerProb P θ x * L' x = ∑ x ∈ fullAnswers cats, answerProb P θ x * Real.log (answerProb P' θ' x) :=
    Finset.sum_congr rfl fun x hx => by rw [(logLikOf_positive hm' hpos' θ' hL' hx).2]
  rw [e, e']
  exact h

/-- A graded item with three categories and slope one. -/
noncomputable def gradedThree (b c : ℝ) : GRM := { lv := 1, cats := [3], rel := [[true]], weight := [1], bias := [b, c] }

theorem gradedThree_probs (b c : ℝ) (θ : Fin 1 → ℝ) : (gradedThree b c).probs (List.ofFn θ)
    = [[1 - sigmoid (θ 0 + b), sigmoid (θ 0 + b) - sigmoid (θ 0 + c), sigmoid (θ 0 + c)]] := by
  simp [gradedThree, GRM.probs, GRM.forwardRow, GRM.M, maxCats, GRM.weights, GRM.biases, viewRows, missingMask, firstMask, maskFill,
    repeatInterleave, scatterMask, freeMask, freeRow, firstRow, missingRow, List.range_succ, adjacentDiff, sigmoidE, dot]

theorem gradedThree_scorer (b c : ℝ) (h : c ≤ b) :
    IsScorer ((gradedThree b c).scorer 1) [3] fun θ => tableProb ((gradedThree b c).probs (List.ofFn θ)) := by
  refine tableScorer_isScorer [3] (by simp) (fun θ => (gradedThree b c).probs (List.ofFn θ)) (fun θ => by rw [gradedThree_probs]; rfl) ?_ ?_
  · intro θ j c' p hc hp
    rw [gradedThree_probs] at hp
    have hj : j < 1 := lt_of_getElem?_some hc
    interval_cases j
    simp at hc hp
    rw [← hp, ← hc]
    simp
  · intro θ p hp x hx
    rw [gradedThree_probs] at hp
    simp at hp
    subst hp
    have h1 := sigmoid_strictMono.monotone (add_le_add_right h (θ 0))
    have h2 := sigmoid_lt_one (θ 0 + b)
    have h3 := sigmoid_pos (θ 0 + c)
    simp at hx
    rcases hx with rfl | rfl | rfl <;> linarith

theorem gradedThree_proper (b c : ℝ) : ProperProbs (fun θ : Fin 1 → ℝ => tableProb ((gradedThree b c).probs (List.ofFn θ))) [3] := by
  intro θ j c' hc
  have hj : j < 1 := lt_of_getElem?_some hc
  interval_cases j
  obtain rfl : c' = 3 := by simpa using hc.symm
  dsimp only
  rw [gradedThree_probs]
  simp [Finset.sum_range_succ, tableProb]

/-- C129 is false of the evaluator's log likelihood: an impossible answer counts as -30 there, a possible one that is less likely than
`exp (-30)` counts less. A model that rules it out gets the larger expected log likelihood. -/
theorem C129_log_likelihood_false : ¬ TruthWinsLogLik := by
  intro h
  have hδ : 0 < Real.exp (-31) := Real.exp_pos _
  have hδ1 : Real.exp (-31) < 1 := by rw [Real.exp_lt_one_iff]; norm_num
  generalize hd : Real.exp (-31) = δ at hδ hδ1
  have hs0 : sigmoid 0 = 1 / 2 := by simp [sigmoid]; norm_num
  have hup : sigmoid δ - 1 / 2 ≤ δ := by
    have h1 : 2 - δ ≤ 1 + Real.exp (-δ) := by have := Real.add_one_le_exp (-δ); linarith
    have h2 : sigmoid δ ≤ 1 / (2 - δ) := by
      unfold sigmoid
      exact one_div_le_one_div_of_le (by linarith) h1
    have h3 : 1 / (2 - δ) ≤ 1 / 2 + δ := by
      rw [div_le_iff₀ (by linarith)]
      nlinarith
    linarith
  have hlow : 1 / 2 < sigmoid δ := by rw [← hs0]; exact sigmoid_strictMono hδ
  have hone := sigmoid_lt_one δ
  have hm := gradedThree_scorer δ 0 hδ.le
  have hm' := gradedThree_scorer 0 0 le_rfl
  have hpos : PositiveProbs (fun θ : Fin 1 → ℝ => tableProb ((gradedThree δ 0).probs (List.ofFn θ))) [3] := by
    intro θ j c' r hc hr
    have hj : j < 1 := lt_of_getElem?_some hc
    interval_cases j
    obtain rfl : c' = 3 := by simpa using hc.symm
    dsimp only
    rw [gradedThree_probs]
    have h1 := sigmoid_strictMono (show θ 0 + 0 < θ 0 + δ by linarith)
    have h2 := sigmoid_lt_one (θ 0 + δ)
    have h3 := sigmoid_pos (θ 0 + 0)
    interval_cases r <;> simp [tableProb] at * <;> linarith
  have key := h 1 1 _ _ [3] _ _ hm hm' hpos (gradedThree_proper δ 0) (gradedThree_proper 0 0) (fun _ => 0) (fun _ => 0) _ _
    (fun _ hx => logLikOf_run hm _ hx) (fun _ hx => logLikOf_run hm' _ hx)
  have one : ∀ F : ℕ → ℝ, ∑ x ∈ fullAnswers [3], F (x 0) = F 0 + F 1 + F 2 := by
    intro F
    rw [show F 0 + F 1 + F 2 = ∑ c ∈ Finset.range 3, F c by simp [Finset.sum_range_succ]]
    refine Finset.sum_nbij' (fun x => x 0) (fun c _ => c) ?_ ?_ ?_ ?_ fun _ _ => rfl
    · intro x hx
      exact Fintype.mem_piFinset.1 hx 0
    · intro c hc
      exact Fintype.mem_piFinset.2 fun j => by
        obtain rfl : j = 0 := Subsingleton.elim (α := Fin 1) _ _
        exact hc
    · intro x _
      funext j
      obtain rfl : j = 0 := Subsingleton.elim (α := Fin 1) _ _
      rfl
    · intro c _
      rfl
  have hsum : ∀ f : Fin [3].length → ℝ, ∑ j, f j = f 0 := fun f => Fin.sum_univ_one f
  have hprod : ∀ f : Fin [3].length → ℝ, ∏ j, f j = f 0 := fun f => Fin.prod_univ_one f
  simp only [answerProb, hsum, hprod, gradedThree_probs] at key
  simp only [show ((0 : Fin [3].length) : ℕ) = 0 from rfl] at key
  rw [one (fun c => tableProb [[1 - sigmoid (0 + δ), sigmoid (0 + δ) - sigmoid (0 + 0), sigmoid (0 + 0)]] 0 c
      * flooredLog (tableProb [[1 - sigmoid (0 + 0), sigmoid (0 + 0) - sigmoid (0 + 0), sigmoid (0 + 0)]] 0 c)),
    one (fun c => tableProb [[1 - sigmoid (0 + δ), sigmoid (0 + δ) - sigmoid (0 + 0), sigmoid (0 + 0)]] 0 c
      * flooredLog (tableProb [[1 - sigmoid (0 + δ), sigmoid (0 + δ) - sigmoid (0 + 0), sigmoid (0 + 0)]] 0 c))] at key
  simp only [tableProb, zero_add, sub_self, hs0, List.getElem?_cons_zero, List.getElem?_cons_succ, Option.bind_some, Option.getD_some, flooredLog] at key
  rw [if_neg (by norm_num), if_pos trivial, if_neg (by norm_num), if_neg (by linarith), if_neg (by linarith)] at key
  have h1 : Real.log (1 - sigmoid δ) < Real.log (1 - 1 / 2) := Real.log_lt_log (by linarith) (by linarith)
  have h2 : Real.log (sigmoid δ - 1 / 2) ≤ -31 := by
    rw [← Real.log_exp (-31), hd]
    exact Real.log_le_log (by linarith) hup
  have h3 := mul_lt_mul_of_pos_left h1 (show 0 < 1 - sigmoid δ by linarith)
  have h4 := mul_le_mul_of_nonneg_left h2 (show 0 ≤ sigmoid δ - 1 / 2 by linarith)
  nlinarith

/-! ## Accuracy -/

/-- `A x` is the accuracy that the evaluator reports for one respondent with the table of probabilities `t` and the answers `x`. -/
def AccuracyOf (argmax : List ℝ → ℕ) (cats : List ℕ) (t : List (List ℝ)) (A : (Fin cats.length → ℕ) → ℝ) : Prop :=
  ∀ x ∈ fullAnswers cats, accuracy argmax cats.length "all" [t] (dataOf 1 cats.length fun _ => answersToAll x) = .scalar (some (A x))

theorem accuracy_run (argmax : List ℝ → ℕ) (cats : List ℕ) (hne : cats ≠ []) (t : List (List ℝ)) (ht : t.length = cats.length)
    (x : Fin cats.length → ℕ) :
    accuracy argmax cats.length "all" [t] (dataOf 1 cats.length fun _ => answersToAll x)
      = .scalar (some ((∑ j : Fin cats.length, if x j = argmax (t.getD j []) then (1 : ℝ) else 0) / cats.length)) := by
  have e : List.zipWith (fun p c => accuracyCell (argmax p) c) t ((List.range cats.length).map (answersToAll x))
      = List.ofFn fun j : Fin cats.length => (some (if x j = argmax (t.getD j []) then (1 : ℝ) else 0) : Num) := by
    refine List.ext_getElem (by simp [ht]) fun j h1 h2 => ?_
    have hj : j < cats.length := by simpa using h2
    have hx := answersToAll_at x ⟨j, hj⟩
    have hg : t.getD j [] = t[j]'(by omega) := by simp [List.getD, List.getElem?_eq_getElem (show j < t.length by omega)]
    rw [List.getElem_zipWith, List.getElem_map, List.getElem_range, List.getElem_ofFn, hx, hg]
    simp only [accuracyCell, cellMissing_nat, Option.some.injEq, Nat.cast_inj]
    simp
  have hl : 0 < cats.length := List.length_pos_iff.2 hne
  simp only [accuracy, dataOf, List.range_one, List.map_cons, List.map_nil, List.zipWith_cons_cons, List.zipWith_nil_left, levelDim,
    reduceDim, List.flatten_cons, List.flatten_nil, List.append_nil, e]
  rw [if_neg (by decide), if_neg (by decide), nanMean_num, floatDiv]
  have f : (List.ofFn fun j : Fin cats.length => (some (if x j = argmax (t.getD j []) then (1 : ℝ) else 0) : Num)).filterMap id
      = List.ofFn fun j : Fin cats.length => if x j = argmax (t.getD j []) then (1 : ℝ) else 0 := by
    rw [List.ofFn_eq_map, List.filterMap_map, List.ofFn_eq_map]
    exact congrFun List.filterMap_eq_map' _
  rw [f, List.length_ofFn, if_neg (by exact_mod_cast hl.ne'), List.sum_ofFn]

/-- C129 for accuracy: on answers that follow a model, no other model, and no other latent scores, have a larger expected accuracy. -/
theorem C129_accuracy {d : ℕ} {cats : List ℕ} (hne : cats ≠ []) {M : ℕ} {t : (Fin d → ℝ) → List (List ℝ)} (θ : Fin d → ℝ)
    (ht : ∀ θ, IsTable cats M (t θ)) (argmax : List ℝ → ℕ) (ham : ∀ row ∈ t θ, IsArgmax row (argmax row)) {t' : List (List ℝ)}
    (ht' : t'.length = cats.length) :
    ∃ A A', AccuracyOf argmax cats (t θ) A ∧ AccuracyOf argmax cats t' A' ∧
      ∑ x ∈ fullAnswers cats, answerProb (fun θ => tableProb (t θ)) θ x * A' x
        ≤ ∑ x ∈ fullAnswers cats, answerProb (fun θ => tableProb (t θ)) θ x * A x := by
  refine ⟨_, _, fun x _ => accuracy_run argmax cats hne (t θ) (ht θ).1 x, fun x _ => accuracy_run argmax cats hne t' ht' x, ?_⟩
  have hP := properProbs_of_isTable ht
  have hl : (0 : ℝ) < cats.length := by exact_mod_cast List.length_pos_iff.2 hne
  have swap : ∀ u : ℕ → ℕ, ∑ x ∈ fullAnswers cats, answerProb (fun θ => tableProb (t θ)) θ x
      * ((∑ j : Fin cats.length, if x j = u j then (1 : ℝ) else 0) / cats.length)
      = (∑ j : Fin cats.length, if u j < cats[j] then tableProb (t θ) j (u j) else 0) / cats.length := by
    intro u
    simp only [mul_div_assoc', Finset.mul_sum]
    rw [← Finset.sum_div, Finset.sum_comm]
    congr 1
    refine Finset.sum_congr rfl fun j _ => ?_
    rw [answerProb_item hP θ j fun r => if r = u j then (1 : ℝ) else 0]
    simp [Finset.sum_ite_eq']
  rw [swap fun j => argmax ((t θ).getD j []), swap fun j => argmax (t'.getD j [])]
  refine div_le_div_of_nonneg_right (Finset.sum_le_sum fun j _ => ?_) hl.le
  have hj : (j : ℕ) < (t θ).length := by rw [(ht θ).1]; exact j.2
  have hp : (t θ)[(j : ℕ)]? = some (t θ)[(j : ℕ)] := List.getElem?_eq_getElem hj
  have D := (ht θ).2 j _ cats[j] hp (by simp)
  obtain ⟨hk, hmax⟩ := ham _ (List.getElem_mem hj)
  have hget : (t θ).getD j [] = (t θ)[(j : ℕ)] := by rw [List.getD, hp]; rfl
  have hle : ∀ r, tableProb (t θ) j r ≤ tableProb (t θ) j (argmax ((t θ).getD j [])) := by
    intro r
    rw [hget]
    by_cases hr : r < ((t θ)[(j : ℕ)]).length
    · simpa [tableProb, hj, hk, hr] using hmax _ (List.getElem_mem hr)
    · simpa [tableProb, hj, hk, hr] using D.nonneg _ (List.getElem_mem hk)
  have hin : argmax ((t θ).getD j []) < cats[j] := by
    by_contra hcon
    have h0 : tableProb (t θ) j (argmax ((t θ).getD j [])) = 0 := by
      rw [hget] at hcon ⊢
      have := D.missing _ (not_lt.1 hcon) (by rw [← D.length]; exact hk)
      simp [tableProb, hp, this]
    have h1 := hP θ j cats[j] (by simp)
    have h2 : ∑ r ∈ Finset.range cats[j], tableProb (t θ) j r ≤ 0 := Finset.sum_nonpos fun r _ => by rw [← h0]; exact hle r
    dsimp only at h1
    linarith
  rw [if_pos hin]
  split
  · exact hle _
  · have := hle cats[j]
    refine le_trans ?_ this
    unfold tableProb
    rw [hp]
    simp only [Option.bind_some]
    cases hc : ((t θ)[(j : ℕ)])[cats[j]]? with
    | none => simp
    | some v => exact D.nonneg v (List.mem_of_getElem? hc)

/-! ## The hypotheses are met: the two items of `exScore`, and items of different difficulty -/

noncomputable def exOther : GPC := { lv := 1, cats := [2, 2], rel := [[true], [true]], weight := [1, 2], bias := [0, 1] }

theorem exOther_wf : exOther.WF where
  catsPos := by simp [exOther]
  relLen := by simp [exOther]
  relRow := by simp [exOther]
  weightLen := by simp [exOther, countTrue]
  biasLen := by simp [exOther]

example : ∃ L L', MmlLossOf (exScore.scorer 1) exScore.cats [fun _ => 0, fun _ => 1] [-1, -2] L ∧
    MmlLossOf (exOther.scorer 1) exScore.cats [fun _ => 0, fun _ => 1] [-1, -2] L' ∧
    ∑ x ∈ fullAnswers exScore.cats, Real.exp (-L x) = Real.exp (-1) + Real.exp (-2) ∧
    ∑ x ∈ fullAnswers exScore.cats, weighted [fun _ => 0, fun _ => 1] [Real.exp (-1), Real.exp (-2)]
        (fun θ : Fin 1 → ℝ => answerProb (fun θ => tableProb (exScore.probs (List.ofFn θ))) θ x) * L x
      ≤ ∑ x ∈ fullAnswers exScore.cats, weighted [fun _ => 0, fun _ => 1] [Real.exp (-1), Real.exp (-2)]
        (fun θ : Fin 1 → ℝ => answerProb (fun θ => tableProb (exScore.probs (List.ofFn θ))) θ x) * L' x := by
  have hm' : IsScorer (exOther.scorer 1) exScore.cats fun θ => tableProb (exOther.probs (List.ofFn θ)) :=
    exOther.isScorer exOther_wf (by simp [exOther]) 1
  have hpos' : PositiveProbs (fun θ : Fin 1 → ℝ => tableProb (exOther.probs (List.ofFn θ))) exScore.cats := exOther.positive exOther_wf 1
  have hP' : ProperProbs (fun θ : Fin 1 → ℝ => tableProb (exOther.probs (List.ofFn θ))) exScore.cats :=
    properProbs_of_isTable fun θ => isTable_gpc exOther exOther_wf (List.ofFn θ)
  obtain ⟨L, hL⟩ := mmlLossOf_exists exScore_isScorer exScore_positive [fun _ => 0, fun _ => 1] [-1, -2] rfl (by simp)
  obtain ⟨L', hL'⟩ := mmlLossOf_exists hm' hpos' [fun _ => 0, fun _ => 1] [-1, -2] rfl (by simp)
  refine ⟨L, L', hL, hL', ?_, ?_⟩
  · rw [C129_mml_total exScore_isScorer exScore_positive _ _ rfl (by simp) exScore_proper hL]
    simp
  · exact (C129_mml_truth exScore_isScorer exScore_positive _ _ rfl (by simp) exScore_proper hL hm' hpos' hP' _ _ rfl (by simp) rfl hL').1

example : ∃ L L', LogLikOf (exScore.scorer 1) exScore.cats (fun _ => 1) L ∧ LogLikOf (exOther.scorer 1) exScore.cats (fun _ => 0) L' ∧
    ∑ x ∈ fullAnswers exScore.cats, answerProb (fun θ => tableProb (exScore.probs (List.ofFn θ))) (fun _ : Fin 1 => 1) x * L' x
      ≤ ∑ x ∈ fullAnswers exScore.cats, answerProb (fun θ => tableProb (exScore.probs (List.ofFn θ))) (fun _ : Fin 1 => 1) x * L x := by
  have hm' : IsScorer (exOther.scorer 1) exScore.cats fun θ => tableProb (exOther.probs (List.ofFn θ)) :=
    exOther.isScorer exOther_wf (by simp [exOther]) 1
  obtain ⟨L, hL⟩ := logLikOf_exists exScore_isScorer fun _ => 1
  obtain ⟨L', hL'⟩ := logLikOf_exists hm' fun _ => 0
  exact ⟨L, L', hL, hL', (C129_log_likelihood_partial exScore_isScorer hm' exScore_positive (exOther.positive exOther_wf 1) exScore_proper
    (properProbs_of_isTable fun θ => isTable_gpc exOther exOther_wf (List.ofFn θ)) _ _ hL hL').1⟩

example : ∃ (argmax : List ℝ → ℕ) (A A' : (Fin exScore.cats.length → ℕ) → ℝ),
    AccuracyOf argmax exScore.cats (exScore.probs [1]) A ∧ AccuracyOf argmax exScore.cats (exOther.probs [0]) A' := by
  choose am ham using exists_argmax
  have ht := fun θ : Fin 1 → ℝ => isTable_gpc exScore exScore_wf (List.ofFn θ)
  obtain ⟨A, A', h1, h2, _⟩ := C129_accuracy (cats := exScore.cats) (by simp [exScore]) (fun _ : Fin 1 => (1 : ℝ)) ht
    (fun row => if h : row ≠ [] then am row h else 0) (fun row hrow => by
      obtain ⟨j, hj, e⟩ := List.getElem_of_mem hrow
      have D := (ht fun _ => 1).2 j row 2 (by rw [← e]; simp) (by
        have : j < 2 := by have := (ht fun _ => 1).1; rw [this] at hj; simpa [exScore] using hj
        interval_cases j <;> rfl)
      have hne : row ≠ [] := fun h0 => by have := D.sum_one; rw [h0] at this; norm_num at this
      rw [dif_pos hne]
      exact ham row hne) (t' := exOther.probs [0]) (by rw [(isTable_gpc exOther exOther_wf [0]).1]; rfl)
  exact ⟨_, A, A', by simpa using h1, h2⟩

end Irt
