import Verif.Props.ModelChoice
import Verif.Spec.LeftOut

/-! # C144: questions left out for reasons that can be seen in the answers do no harm -/

namespace Irt
open Spec Finset

/-! ## What is seen -/

section Seen

variable {cats : List ℕ}

theorem seenRow_seenOf {K : ℕ} (T : Finset (Fin K)) (x : Fin K → ℕ) : seenRow (seenOf T x) = answersTo T x := by
  funext j
  unfold seenRow seenOf answersTo
  split_ifs <;> rfl

theorem seenOf_mem (T : Finset (Fin cats.length)) {x : Fin cats.length → ℕ} (hx : x ∈ fullAnswers cats) : seenOf T x ∈ seenAnswers cats := by
  refine Fintype.mem_piFinset.2 fun j => ?_
  unfold seenOf
  split_ifs
  · exact Finset.some_mem_insertNone.2 (Fintype.mem_piFinset.1 hx j)
  · exact Finset.none_mem_insertNone

theorem seenOf_injective {K : ℕ} (x : Fin K → ℕ) : Function.Injective fun T : Finset (Fin K) => seenOf T x := by
  intro T T' h
  ext j
  have := congrFun h j
  simp only [seenOf] at this
  split_ifs at this <;> simp_all

theorem seenRow_valid {z : Fin cats.length → Option ℕ} (hz : z ∈ seenAnswers cats) : ValidResponses cats (seenRow z) := by
  intro j c hc hobs
  have hj := lt_of_getElem?_some hc
  unfold seenRow at hobs ⊢
  rw [dif_pos hj] at hobs ⊢
  have h := Fintype.mem_piFinset.1 hz ⟨j, hj⟩
  cases hzj : z ⟨j, hj⟩ with
  | none => rw [hzj] at hobs; cases hobs
  | some r =>
    rw [hzj] at h
    refine ⟨r, rfl, ?_⟩
    rw [List.getElem?_eq_getElem hj] at hc
    have := Finset.mem_range.1 (Finset.some_mem_insertNone.1 h)
    simpa [← Option.some.inj hc] using this

theorem mem_completions_seenRow {z : Fin cats.length → Option ℕ} (hz : z ∈ seenAnswers cats) (x : Fin cats.length → ℕ) :
    x ∈ completions cats (seenRow z) ↔ x ∈ fullAnswers cats ∧ ∃ T, seenOf T x = z := by
  have e : ∀ j : Fin cats.length, seenRow z j = (z j).map fun r : ℕ => (r : ℤ) := fun j => by simp [seenRow]
  have key : x ∈ completions cats (seenRow z) ↔ x ∈ fullAnswers cats ∧ ∀ j r, z j = some r → x j = r := by
    unfold completions fullAnswers
    rw [Fintype.mem_piFinset, Fintype.mem_piFinset]
    constructor
    · intro h
      have h2 : ∀ j r, z j = some r → x j = r := by
        intro j r hr
        have := h j
        rw [e j, hr, Option.map_some, cellMissing_nat] at this
        simpa [responseOf] using this
      refine ⟨fun j => ?_, h2⟩
      cases hr : z j with
      | none =>
        have := h j
        rw [e j, hr] at this
        simpa [cellMissing] using this
      | some r =>
        rw [h2 j r hr]
        have := Fintype.mem_piFinset.1 hz j
        rw [hr] at this
        exact Finset.some_mem_insertNone.1 this
    · rintro ⟨h1, h2⟩ j
      rw [e j]
      cases hr : z j with
      | none => simpa [cellMissing] using h1 j
      | some r =>
        rw [Option.map_some, cellMissing_nat]
        simp [responseOf, h2 j r hr]
  rw [key]
  refine and_congr_right fun _ => ⟨fun h => ⟨univ.filter fun j => (z j).isSome, ?_⟩, ?_⟩
  · funext j
    unfold seenOf
    cases hr : z j with
    | none => simp [hr]
    | some r => simp [hr, h j r hr]
  · rintro ⟨T, rfl⟩ j r hr
    unfold seenOf at hr
    split_ifs at hr
    exact Option.some.inj hr

/-- Sums over all answers and all sets of answered items are sums over all that can be seen. -/
theorem averageSeen_eq (h : (Fin cats.length → Option ℕ) → ℝ) (p : (Fin cats.length → ℕ) → ℝ) (F : (Fin cats.length → Option ℕ) → ℝ) :
    averageSeen cats h p (fun T x => F (seenOf T x)) = ∑ z ∈ seenAnswers cats, h z * (∑ x ∈ completions cats (seenRow z), p x) * F z := by
  classical
  unfold averageSeen
  have e : ∀ x ∈ fullAnswers cats, p x * ∑ T : Finset (Fin cats.length), h (seenOf T x) * F (seenOf T x)
      = ∑ z ∈ seenAnswers cats with x ∈ completions cats (seenRow z), h z * p x * F z := by
    intro x hx
    rw [mul_sum]
    refine sum_bij (fun T _ => seenOf T x) (fun T _ => ?_) (fun T _ T' _ hT => seenOf_injective x hT) (fun z hz => ?_) fun T _ => by ring
    · rw [mem_filter]
      exact ⟨seenOf_mem T hx, (mem_completions_seenRow (seenOf_mem T hx) x).2 ⟨hx, T, rfl⟩⟩
    · obtain ⟨h1, h2⟩ := mem_filter.1 hz
      obtain ⟨_, T, hT⟩ := (mem_completions_seenRow h1 x).1 h2
      exact ⟨T, mem_univ _, hT⟩
  rw [sum_congr rfl e, sum_comm' (t' := seenAnswers cats) (s' := fun z => completions cats (seenRow z))]
  · refine sum_congr rfl fun z _ => ?_
    rw [mul_sum, sum_mul]
  · intro x z
    rw [mem_filter]
    constructor
    · rintro ⟨_, h2, h3⟩
      exact ⟨h3, h2⟩
    · rintro ⟨h1, h2⟩
      exact ⟨((mem_completions_seenRow h2 x).1 h1).1, h2, h1⟩

end Seen

/-! ## The loss of marginal maximum likelihood -/

section Loss

variable {d : ℕ} {m : Scorer d} {cats : List ℕ} {P : (Fin d → ℝ) → ℕ → ℕ → ℝ} (hm : IsScorer m cats P) (hpos : PositiveProbs P cats)
  (pts : Thetas d) (lw : List ℝ) (hlen : lw.length = pts.length) (hne : pts ≠ [])
  {h : (Fin cats.length → Option ℕ) → ℝ}

theorem seenProb_eq (hP : ProperProbs P cats) (w : List ℝ) {z : Fin cats.length → Option ℕ} (hz : z ∈ seenAnswers cats) :
    seenProb cats h P pts w z = h z * (weighted pts w (observedLikelihood P cats.length (seenRow z)) / w.sum) := by
  have e1 : weighted pts w (observedLikelihood P cats.length (seenRow z))
      = ∑ x ∈ completions cats (seenRow z), weighted pts w fun θ => answerProb P θ x := by
    rw [← weighted_sum]
    congr 1
    funext θ
    exact observedLikelihood_completions hP _ θ
  have e2 := averageSeen_eq h (populationProb P pts w) fun z' => if z' = z then 1 else 0
  have e3 : averageSeen cats h (populationProb P pts w) (fun T x => if seenOf T x = z then 1 else 0) = seenProb cats h P pts w z := by
    unfold averageSeen seenProb
    refine sum_congr rfl fun x _ => ?_
    congr 1
    refine sum_congr rfl fun T _ => ?_
    dsimp only
    split_ifs with hT
    · rw [hT, mul_one]
    · rw [mul_zero]
  rw [← e3, e2]
  simp only [mul_ite, mul_one, mul_zero, sum_ite_eq', if_pos hz]
  rw [e1, sum_div]
  rfl

theorem averageSeen_prob (hP : ProperProbs P cats) (w : List ℝ) (F : (Fin cats.length → Option ℕ) → ℝ) :
    averageSeen cats h (populationProb P pts w) (fun T x => F (seenOf T x)) = ∑ z ∈ seenAnswers cats, seenProb cats h P pts w z * F z := by
  rw [averageSeen_eq]
  refine sum_congr rfl fun z hz => ?_
  rw [seenProb_eq pts hP w hz]
  congr 2
  unfold populationProb
  rw [← sum_div, ← weighted_sum]
  congr 2
  funext θ
  exact (observedLikelihood_completions hP _ θ).symm

/-- Only what has a positive probability to be seen counts. -/
theorem sum_possiblySeen (hask : Asking cats h) (hP : ProperProbs P cats) (w : List ℝ) (F : (Fin cats.length → Option ℕ) → ℝ) :
    ∑ z ∈ possiblySeen cats h, seenProb cats h P pts w z * F z = ∑ z ∈ seenAnswers cats, seenProb cats h P pts w z * F z := by
  classical
  unfold possiblySeen
  refine sum_subset (filter_subset _ _) fun z hz hn => ?_
  have : h z = 0 := le_antisymm (not_lt.1 fun hp => hn (mem_filter.2 ⟨hz, hp⟩)) (hask.nonneg z)
  rw [seenProb_eq pts hP w hz, this, zero_mul, zero_mul]

include hlen hne in
/-- The probabilities of all that can be seen add up to one. -/
theorem seenProb_sum (hask : Asking cats h) (hP : ProperProbs P cats) :
    ∑ z ∈ possiblySeen cats h, seenProb cats h P pts (lw.map Real.exp) z = 1 := by
  have h1 := sum_possiblySeen pts hask hP (lw.map Real.exp) fun _ => 1
  rw [← averageSeen_prob pts hP] at h1
  simp only [mul_one] at h1
  rw [h1, averageSeen]
  simp only [mul_one]
  rw [sum_congr rfl fun x hx => by rw [hask.total x hx, mul_one]]
  exact populationProb_sum pts lw hlen hne hP

include hpos hlen hne in
theorem weighted_seen_pos {z : Fin cats.length → Option ℕ} (hz : z ∈ seenAnswers cats) :
    0 < weighted pts (lw.map Real.exp) (observedLikelihood P cats.length (seenRow z)) := by
  refine weighted_lik_positive pts _ (by simpa using hlen) hne (fun w hw => ?_) _ fun θ => observedLikelihood_pos hpos _ (seenRow_valid hz) θ
  obtain ⟨l, _, rfl⟩ := List.mem_map.1 hw
  exact Real.exp_pos _

include hpos hlen hne in
theorem seenProb_pos (hP : ProperProbs P cats) {z : Fin cats.length → Option ℕ} (hz : z ∈ possiblySeen cats h) :
    0 < seenProb cats h P pts (lw.map Real.exp) z := by
  classical
  unfold possiblySeen at hz
  obtain ⟨h1, h2⟩ := mem_filter.1 hz
  rw [seenProb_eq pts hP _ h1]
  exact mul_pos h2 (div_pos (weighted_seen_pos hpos pts lw hlen hne h1) (weights_sum_pos pts lw hlen hne))

include hm hpos hlen hne in
/-- The loss of one respondent. -/
theorem seen_loss (hP : ProperProbs P cats) {z : Fin cats.length → Option ℕ} (hz : z ∈ possiblySeen cats h) :
    mmlLoss m (rowsOf 1 cats.length fun _ => seenRow z) pts lw
      = .ok (some (-(Real.log (seenProb cats h P pts (lw.map Real.exp) z) - Real.log (h z) + Real.log (lw.map Real.exp).sum))) := by
  classical
  unfold possiblySeen at hz
  obtain ⟨h1, h2⟩ := mem_filter.1 hz
  rw [mmlLoss_weighted hm hpos 1 (fun _ => seenRow z) (fun _ _ => seenRow_valid h1) pts lw hlen hne, sum_range_one,
    seenProb_eq pts hP _ h1, Real.log_mul h2.ne' (div_pos (weighted_seen_pos hpos pts lw hlen hne h1) (weights_sum_pos pts lw hlen hne)).ne',
    Real.log_div (weighted_seen_pos hpos pts lw hlen hne h1).ne' (weights_sum_pos pts lw hlen hne).ne']
  congr 3
  ring

/-- `L T x` is the loss of marginal maximum likelihood for one respondent who would answer `x` and of whom the answers to `T` are known. -/
def SeenLossOf {d : ℕ} (m : Scorer d) (cats : List ℕ) (pts : Thetas d) (lw : List ℝ)
    (L : Finset (Fin cats.length) → (Fin cats.length → ℕ) → ℝ) : Prop :=
  ∀ T, ∀ x ∈ fullAnswers cats, mmlLoss m (rowsOf 1 cats.length fun _ => answersTo T x) pts lw = .ok (some (L T x))

include hm hpos hlen hne in
theorem seenLossOf_exists : ∃ L, SeenLossOf m cats pts lw L :=
  ⟨_, fun T x hx => mmlLoss_weighted hm hpos 1 (fun _ => answersTo T x) (fun _ _ => answersTo_valid T hx) pts lw hlen hne⟩

include hm hpos hlen hne in
theorem averageSeen_loss (hask : Asking cats h) (hP : ProperProbs P cats) {L : Finset (Fin cats.length) → (Fin cats.length → ℕ) → ℝ}
    (hL : SeenLossOf m cats pts lw L) {d₀ : ℕ} {P₀ : (Fin d₀ → ℝ) → ℕ → ℕ → ℝ} (hP₀ : ProperProbs P₀ cats) (pts₀ : Thetas d₀) (w₀ : List ℝ) :
    averageSeen cats h (populationProb P₀ pts₀ w₀) L
      = ∑ z ∈ possiblySeen cats h, seenProb cats h P₀ pts₀ w₀ z
          * -(Real.log (seenProb cats h P pts (lw.map Real.exp) z) - Real.log (h z) + Real.log (lw.map Real.exp).sum) := by
  classical
  rw [sum_possiblySeen pts₀ hask hP₀, ← averageSeen_prob pts₀ hP₀]
  unfold averageSeen
  refine sum_congr rfl fun x hx => ?_
  congr 1
  refine sum_congr rfl fun T _ => ?_
  rcases (hask.nonneg (seenOf T x)).eq_or_lt with h0 | h0
  · rw [← h0, zero_mul, zero_mul]
  · have hz : seenOf T x ∈ possiblySeen cats h := by
      unfold possiblySeen
      exact mem_filter.2 ⟨seenOf_mem T hx, h0⟩
    have h1 := seen_loss hm hpos pts lw hlen hne hP hz
    rw [seenRow_seenOf, hL T x hx] at h1
    rw [Option.some.inj (Except.ok.inj h1)]

include hm hpos hlen hne in
/-- C144: on respondents whose answers follow a model, and whose unanswered questions were left out for reasons that can be seen in their
answers, no other model has a smaller expected loss of marginal maximum likelihood; one with the same expected loss gives the same
probability to everything that can be seen. -/
theorem C144_mml (hask : Asking cats h) (hP : ProperProbs P cats) {L : Finset (Fin cats.length) → (Fin cats.length → ℕ) → ℝ}
    (hL : SeenLossOf m cats pts lw L)
    {m' : Scorer d'} {P' : (Fin d' → ℝ) → ℕ → ℕ → ℝ} (hm' : IsScorer m' cats P') (hpos' : PositiveProbs P' cats)
    (hP' : ProperProbs P' cats) (pts' : Thetas d') (lw' : List ℝ) (hlen' : lw'.length = pts'.length) (hne' : pts' ≠ [])
    (hw : (lw'.map Real.exp).sum = (lw.map Real.exp).sum) {L' : Finset (Fin cats.length) → (Fin cats.length → ℕ) → ℝ}
    (hL' : SeenLossOf m' cats pts' lw' L') :
    let expected := averageSeen cats h (populationProb P pts (lw.map Real.exp))
    expected L ≤ expected L' ∧ (expected L' = expected L → ∀ T, ∀ x ∈ fullAnswers cats, 0 < h (seenOf T x) → L' T x = L T x) := by
  classical
  intro expected
  have e1 : expected L = _ := averageSeen_loss hm hpos pts lw hlen hne hask hP hL hP pts (lw.map Real.exp)
  have e2 : expected L' = _ := averageSeen_loss hm' hpos' pts' lw' hlen' hne' hask hP' hL' hP pts (lw.map Real.exp)
  rw [hw] at e2
  have hg := gibbs (possiblySeen cats h) (seenProb cats h P pts (lw.map Real.exp)) (seenProb cats h P' pts' (lw'.map Real.exp))
    (fun z hz => seenProb_pos hpos pts lw hlen hne hP hz) (fun z hz => seenProb_pos hpos' pts' lw' hlen' hne' hP' hz)
    (by rw [seenProb_sum pts lw hlen hne hask hP, seenProb_sum pts' lw' hlen' hne' hask hP'])
  have e3 : expected L' - expected L = ∑ z ∈ possiblySeen cats h, seenProb cats h P pts (lw.map Real.exp) z
        * Real.log (seenProb cats h P pts (lw.map Real.exp) z)
      - ∑ z ∈ possiblySeen cats h, seenProb cats h P pts (lw.map Real.exp) z * Real.log (seenProb cats h P' pts' (lw'.map Real.exp) z) := by
    rw [e1, e2, ← sum_sub_distrib, ← sum_sub_distrib]
    exact sum_congr rfl fun z _ => by ring
  refine ⟨by linarith [hg.1], fun heq T x hx h0 => ?_⟩
  have hz : seenOf T x ∈ possiblySeen cats h := by
    unfold possiblySeen
    exact mem_filter.2 ⟨seenOf_mem T hx, h0⟩
  have h1 := seen_loss hm hpos pts lw hlen hne hP hz
  have h2 := seen_loss hm' hpos' pts' lw' hlen' hne' hP' hz
  rw [seenRow_seenOf, hL T x hx] at h1
  rw [seenRow_seenOf, hL' T x hx] at h2
  rw [Option.some.inj (Except.ok.inj h1), Option.some.inj (Except.ok.inj h2), hw, hg.2 (by linarith) _ hz]

end Loss

/-! ## Samples of respondents -/

/-- The probability of a sample. -/
noncomputable def seenSampleProb {N K : ℕ} (p : (Fin K → Option ℕ) → ℝ) (s : Fin N → Fin K → Option ℕ) : ℝ := ∏ i, p (s i)

/-- All samples of `N` respondents that can be seen. -/
noncomputable def seenSamples (N : ℕ) (cats : List ℕ) (h : (Fin cats.length → Option ℕ) → ℝ) : Finset (Fin N → Fin cats.length → Option ℕ) :=
  Fintype.piFinset fun _ => possiblySeen cats h

/-- How far two distributions of what is seen are apart. -/
noncomputable def seenDistance (cats : List ℕ) (h p q : (Fin cats.length → Option ℕ) → ℝ) : ℝ := ∑ z ∈ possiblySeen cats h, |p z - q z|

/-- The share of the respondents of a sample of whom `z` is seen. -/
noncomputable def seenShare {N K : ℕ} (s : Fin N → Fin K → Option ℕ) (z : Fin K → Option ℕ) : ℝ := ({i | s i = z} : Finset (Fin N)).card / N

section Samples

theorem seenShare_sum {N : ℕ} {cats : List ℕ} {h : (Fin cats.length → Option ℕ) → ℝ}
    {s : Fin N → Fin cats.length → Option ℕ} (hs : s ∈ seenSamples N cats h)
    (g : (Fin cats.length → Option ℕ) → ℝ) : ∑ z ∈ possiblySeen cats h, seenShare s z * g z = (∑ i, g (s i)) / N := by
  have e : ∀ z, seenShare s z * g z = (∑ i : Fin N, if s i = z then g z else 0) / N := by
    intro z
    rw [seenShare, card_filter, Nat.cast_sum, div_mul_eq_mul_div, sum_mul]
    congr 1
    refine sum_congr rfl fun i _ => ?_
    split_ifs <;> simp
  rw [sum_congr rfl fun z _ => e z, ← sum_div, sum_comm]
  congr 1
  refine sum_congr rfl fun i _ => ?_
  rw [sum_ite_eq, if_pos (Fintype.mem_piFinset.1 hs i)]

variable {d : ℕ} {m : Scorer d} {cats : List ℕ} {P : (Fin d → ℝ) → ℕ → ℕ → ℝ} (hm : IsScorer m cats P) (hpos : PositiveProbs P cats)
  (hP : ProperProbs P cats) (pts : Thetas d) (lw : List ℝ) (hlen : lw.length = pts.length) (hne : pts ≠ [])
  {h : (Fin cats.length → Option ℕ) → ℝ}

include hm hpos hP hlen hne in
theorem seenSample_loss {N : ℕ} {s : Fin N → Fin cats.length → Option ℕ} (hs : s ∈ seenSamples N cats h) :
    mmlLoss m (rowsOf N cats.length (seenCells s)) pts lw
      = .ok (some (-(∑ i, Real.log (seenProb cats h P pts (lw.map Real.exp) (s i)) - ∑ i, Real.log (h (s i)) + N * Real.log (lw.map Real.exp).sum))) := by
  classical
  have hz : ∀ i, s i ∈ seenAnswers cats ∧ 0 < h (s i) := fun i => by
    have := Fintype.mem_piFinset.1 hs i
    unfold possiblySeen at this
    exact mem_filter.1 this
  rw [mmlLoss_weighted hm hpos N (seenCells s) (fun i hi => by rw [seenCells, dif_pos hi]; exact seenRow_valid (hz _).1) pts lw hlen hne, sum_range]
  congr 3
  rw [← sum_sub_distrib]
  have e : ∀ i : Fin N, Real.log (weighted pts (lw.map Real.exp) (observedLikelihood P cats.length (seenCells s i)))
      = Real.log (seenProb cats h P pts (lw.map Real.exp) (s i)) - Real.log (h (s i)) + Real.log (lw.map Real.exp).sum := by
    intro i
    have hp := weighted_seen_pos hpos pts lw hlen hne (hz i).1
    have hW := weights_sum_pos pts lw hlen hne
    rw [seenCells, dif_pos i.2, seenProb_eq pts hP _ (hz i).1, Real.log_mul (hz i).2.ne' (div_pos hp hW).ne', Real.log_div hp.ne' hW.ne']
    ring
  rw [sum_congr rfl fun i _ => e i, sum_add_distrib]
  simp

include hm hpos hP hlen hne in
/-- C144: a model that fits a sample with questions left out at least as well as the true model is not further from the truth, in the
distribution of what is seen, than the frequencies of the sample. -/
theorem C144_sample (hask : Asking cats h) {d' : ℕ} {m' : Scorer d'} {P' : (Fin d' → ℝ) → ℕ → ℕ → ℝ}
    (hm' : IsScorer m' cats P') (hpos' : PositiveProbs P' cats) (hP' : ProperProbs P' cats)
    (pts' : Thetas d') (lw' : List ℝ) (hlen' : lw'.length = pts'.length) (hne' : pts' ≠ [])
    (hw : (lw'.map Real.exp).sum = (lw.map Real.exp).sum)
    {N : ℕ} (hN : 0 < N) {s : Fin N → Fin cats.length → Option ℕ} (hs : s ∈ seenSamples N cats h) {L L' : ℝ}
    (hL : mmlLoss m (rowsOf N cats.length (seenCells s)) pts lw = .ok (some L))
    (hL' : mmlLoss m' (rowsOf N cats.length (seenCells s)) pts' lw' = .ok (some L')) (hbetter : L' ≤ L) :
    let p := seenProb cats h P pts (lw.map Real.exp)
    seenDistance cats h (seenProb cats h P' pts' (lw'.map Real.exp)) p ^ 2 ≤ 16 * ∑ z ∈ possiblySeen cats h, (seenShare s z - p z) ^ 2 / p z := by
  intro p
  have hN' : (0:ℝ) < N := by exact_mod_cast hN
  refine distance_of_better (possiblySeen cats h) (seenShare s) p (seenProb cats h P' pts' (lw'.map Real.exp))
    (fun z _ => by unfold seenShare; positivity) (fun z hz => seenProb_pos hpos pts lw hlen hne hP hz)
    (fun z hz => seenProb_pos hpos' pts' lw' hlen' hne' hP' hz) ?_
    (seenProb_sum pts lw hlen hne hask hP) (seenProb_sum pts' lw' hlen' hne' hask hP') ?_
  · have := seenShare_sum hs fun _ => 1
    simp only [mul_one] at this
    rw [this]
    simp [hN'.ne']
  · rw [seenSample_loss hm hpos hP pts lw hlen hne hs] at hL
    rw [seenSample_loss hm' hpos' hP' pts' lw' hlen' hne' hs, hw] at hL'
    have h1 := Option.some.inj (Except.ok.inj hL)
    have h2 := Option.some.inj (Except.ok.inj hL')
    rw [seenShare_sum hs fun z => Real.log (p z), seenShare_sum hs fun z => Real.log (seenProb cats h P' pts' (lw'.map Real.exp) z)]
    refine div_le_div_of_nonneg_right ?_ hN'.le
    linarith

/-- The expected distance of Pearson between frequencies and probabilities. -/
theorem draws_chi {ι : Type} [DecidableEq ι] {N : ℕ} (hN : 0 < N) (A : Finset ι) {p : ι → ℝ} (hp : ∀ z ∈ A, 0 < p z) (hsum : ∑ z ∈ A, p z = 1) :
    ∑ s ∈ Fintype.piFinset (fun _ : Fin N => A), (∏ i, p (s i)) * ∑ z ∈ A, ((({i | s i = z} : Finset (Fin N)).card / N : ℝ) - p z) ^ 2 / p z
      = (A.card - 1) / N := by
  have hN' : (N:ℝ) ≠ 0 := by exact_mod_cast hN.ne'
  simp only [mul_sum]
  rw [sum_comm]
  have key : ∀ x ∈ A, ∑ s ∈ Fintype.piFinset (fun _ : Fin N => A),
      (∏ i, p (s i)) * (((({i | s i = x} : Finset (Fin N)).card / N : ℝ) - p x) ^ 2 / p x) = (1 - p x) / N := by
    intro x hx
    have hv := draws_variance (N := N) A p hsum (fun y => (if y = x then 1 else 0) - p x) (by
      simp only [mul_sub, sum_sub_distrib, mul_ite, mul_one, mul_zero, sum_ite_eq', hx, if_true, ← sum_mul, hsum]
      ring)
    have e1 : ∀ s : Fin N → ι, ∑ i, ((if s i = x then (1:ℝ) else 0) - p x) = N * ((({i | s i = x} : Finset (Fin N)).card / N : ℝ) - p x) := by
      intro s
      rw [sum_sub_distrib, card_filter, Nat.cast_sum]
      simp only [Nat.cast_ite, Nat.cast_one, Nat.cast_zero, sum_const, card_univ, Fintype.card_fin, nsmul_eq_mul]
      field_simp
    have e2 : ∑ y ∈ A, p y * ((if y = x then (1:ℝ) else 0) - p x) ^ 2 = p x * (1 - p x) := by
      have : ∀ y, p y * ((if y = x then (1:ℝ) else 0) - p x) ^ 2 = (if y = x then p y * (1 - 2 * p x) else 0) + p y * p x ^ 2 := by
        intro y; split_ifs <;> ring
      simp only [this, sum_add_distrib, sum_ite_eq', hx, if_true, ← sum_mul, hsum]
      ring
    simp only [e1] at hv
    rw [e2] at hv
    have hpx := (hp x hx).ne'
    have e3 : ∀ s : Fin N → ι, (∏ i, p (s i)) * (((({i | s i = x} : Finset (Fin N)).card / N : ℝ) - p x) ^ 2 / p x)
        = (∏ i, p (s i)) * (N * ((({i | s i = x} : Finset (Fin N)).card / N : ℝ) - p x)) ^ 2 * (1 / (N ^ 2 * p x)) := by
      intro s; field_simp
    rw [sum_congr rfl fun s _ => e3 s, ← sum_mul, hv]
    field_simp
  rw [sum_congr rfl key, ← sum_div, sum_sub_distrib, hsum]
  simp

include hm hpos hP hlen hne in
/-- C144: if every sample is fitted at least as well as the true model fits it, the mean square of the distance from the truth, in the
distribution of what is seen, is at most sixteen times the number of possibilities, less one, over the number of respondents. -/
theorem C144_expected_distance (hask : Asking cats h) {d' : ℕ} (pts' : Thetas d') (lw' : List ℝ) (hlen' : lw'.length = pts'.length)
    (hne' : pts' ≠ []) (hw : (lw'.map Real.exp).sum = (lw.map Real.exp).sum) {N : ℕ} (hN : 0 < N)
    {fit : (Fin N → Fin cats.length → Option ℕ) → Scorer d'} {P' : (Fin N → Fin cats.length → Option ℕ) → (Fin d' → ℝ) → ℕ → ℕ → ℝ}
    (hfit : ∀ s ∈ seenSamples N cats h, IsScorer (fit s) cats (P' s) ∧ PositiveProbs (P' s) cats ∧ ProperProbs (P' s) cats ∧
      ∃ L L' : ℝ, mmlLoss m (rowsOf N cats.length (seenCells s)) pts lw = .ok (some L) ∧
        mmlLoss (fit s) (rowsOf N cats.length (seenCells s)) pts' lw' = .ok (some L') ∧ L' ≤ L) :
    let p := seenProb cats h P pts (lw.map Real.exp)
    ∑ s ∈ seenSamples N cats h, seenSampleProb p s * seenDistance cats h (seenProb cats h (P' s) pts' (lw'.map Real.exp)) p ^ 2
      ≤ 16 * ((possiblySeen cats h).card - 1) / N := by
  intro p
  have hp : ∀ z ∈ possiblySeen cats h, 0 < p z := fun z hz => seenProb_pos hpos pts lw hlen hne hP hz
  rw [mul_div_assoc, ← draws_chi hN _ hp (seenProb_sum pts lw hlen hne hask hP), mul_sum]
  refine sum_le_sum fun s hs => ?_
  obtain ⟨h1, h2, h3, L, L', hL, hL', hb⟩ := hfit s hs
  rw [mul_left_comm]
  exact mul_le_mul_of_nonneg_left (C144_sample hm hpos hP pts lw hlen hne hask h1 h2 h3 pts' lw' hlen' hne' hw hN hs hL hL' hb)
    (prod_nonneg fun i _ => (hp _ (Fintype.mem_piFinset.1 hs i)).le)

include hm hpos hP hlen hne in
/-- C144: consistency. For every distance and every risk there is a number of respondents from which on the fits are further than that from
the truth with at most that risk. -/
theorem C144_consistent (hask : Asking cats h) {d' : ℕ} (pts' : Thetas d') (lw' : List ℝ) (hlen' : lw'.length = pts'.length)
    (hne' : pts' ≠ []) (hw : (lw'.map Real.exp).sum = (lw.map Real.exp).sum) (ε risk : ℝ) (hε : 0 < ε) (hrisk : 0 < risk) :
    let p := seenProb cats h P pts (lw.map Real.exp)
    ∃ N₀ : ℕ, ∀ N, N₀ ≤ N → ∀ (fit : (Fin N → Fin cats.length → Option ℕ) → Scorer d')
      (P' : (Fin N → Fin cats.length → Option ℕ) → (Fin d' → ℝ) → ℕ → ℕ → ℝ),
      (∀ s ∈ seenSamples N cats h, IsScorer (fit s) cats (P' s) ∧ PositiveProbs (P' s) cats ∧ ProperProbs (P' s) cats ∧
        ∃ L L' : ℝ, mmlLoss m (rowsOf N cats.length (seenCells s)) pts lw = .ok (some L) ∧
          mmlLoss (fit s) (rowsOf N cats.length (seenCells s)) pts' lw' = .ok (some L') ∧ L' ≤ L) →
      ∀ far : Finset (Fin N → Fin cats.length → Option ℕ), far ⊆ seenSamples N cats h →
        (∀ s ∈ far, ε ≤ seenDistance cats h (seenProb cats h (P' s) pts' (lw'.map Real.exp)) p) →
        ∑ s ∈ far, seenSampleProb p s ≤ risk := by
  intro p
  obtain ⟨n, hn⟩ := exists_nat_gt (16 * ((possiblySeen cats h).card - 1) / ε ^ 2 / risk)
  refine ⟨n + 1, fun N hN fit P' hfit far hfar hdist => ?_⟩
  have hN0 : 0 < N := by omega
  have hN' : (0:ℝ) < N := by exact_mod_cast hN0
  have hp : ∀ z ∈ possiblySeen cats h, 0 < p z := fun z hz => seenProb_pos hpos pts lw hlen hne hP hz
  have key := C144_expected_distance hm hpos hP pts lw hlen hne hask pts' lw' hlen' hne' hw hN0 hfit
  have hnn : ∀ s ∈ seenSamples N cats h, 0 ≤ seenSampleProb p s := fun s hs => prod_nonneg fun i _ => (hp _ (Fintype.mem_piFinset.1 hs i)).le
  have h1 : (∑ s ∈ far, seenSampleProb p s) * ε ^ 2 ≤ 16 * ((possiblySeen cats h).card - 1) / N := by
    refine le_trans ?_ key
    rw [sum_mul]
    refine (sum_le_sum fun s hs => ?_).trans (sum_le_sum_of_subset_of_nonneg hfar fun s hs _ => mul_nonneg (hnn s hs) (sq_nonneg _))
    exact mul_le_mul_of_nonneg_left (pow_le_pow_left₀ hε.le (hdist s hs) 2) (hnn s (hfar hs))
  have hε2 : 0 < ε ^ 2 := by positivity
  rw [← le_div_iff₀ hε2] at h1
  refine h1.trans ?_
  rw [div_right_comm, div_le_iff₀ hN']
  rw [div_lt_iff₀ hrisk] at hn
  have : (n:ℝ) + 1 ≤ N := by exact_mod_cast hN
  nlinarith

end Samples

/-! ## EAP scores -/

section Eap

variable {d : ℕ} {m : Scorer d} {cats : List ℕ} {P : (Fin d → ℝ) → ℕ → ℕ → ℝ}
  (hm : IsScorer m cats P) (hpos : PositiveProbs P cats) (hP : ProperProbs P cats) (a : AlgAttrs d) (hd : d ≤ 4)
  (points : Option ℕ) (grid : Thetas d) (hg : grid ≠ []) (cov : Matrix (Fin d) (Fin d) ℝ) (hcov : cov.PosDef)
  (hgrid : eapGrid a (points.getD (eapDefaultPoints d)) = .ok (grid, cov)) {h : (Fin cats.length → Option ℕ) → ℝ}

theorem expectation_finset {ι : Type} (s : Finset ι) (prior : (Fin d → ℝ) → ℝ) (F : ι → (Fin d → ℝ) → (Fin cats.length → ℕ) → ℝ) :
    expectation P cats prior grid (fun θ x => ∑ i ∈ s, F i θ x) = ∑ i ∈ s, expectation P cats prior grid (F i) := by
  classical
  induction s using Finset.induction_on with
  | empty => simp [expectation]
  | insert i s hi ih =>
    simp only [sum_insert hi]
    rw [expectation_add, ih]

theorem seenOf_congr {K : ℕ} {T : Finset (Fin K)} {x x' : Fin K → ℕ} (hj : ∀ j ∈ T, x j = x' j) : seenOf T x = seenOf T x' := by
  funext j
  unfold seenOf
  split_ifs with hT
  · rw [hj j hT]
  · rfl

theorem seenOf_dependsOn (T : Finset (Fin cats.length)) (g : (Fin cats.length → Option ℕ) → ℝ) : DependsOn cats T fun x => g (seenOf T x) := by
  intro x _ x' _ hj
  dsimp only
  rw [seenOf_congr hj]

include hm hpos hP hd hg hcov hgrid in
/-- C144: EAP scores of tests with questions left out for reasons that can be seen are calibrated: the mean score of the respondents picked by
what is seen of them is the mean of their latent variables (both times their share). -/
theorem C144_eap_calibrated {e : Finset (Fin cats.length) → (Fin cats.length → ℕ) → Fin d → ℝ} (he : ∀ T, EapOf m a points cats T (e T))
    (k : Fin d) (group : (Fin cats.length → Option ℕ) → Prop) [DecidablePred group] :
    let mean := expectation P cats (fun θ => Real.exp (mvnLogDensity 0 cov θ)) grid
    mean (fun _ x => ∑ T, h (seenOf T x) * if group (seenOf T x) then e T x k else 0)
      = mean fun θ x => ∑ T, h (seenOf T x) * if group (seenOf T x) then θ k else 0 := by
  intro mean
  rw [eq_comm, ← sub_eq_zero, ← expectation_sub]
  have e1 : (fun (θ : Fin d → ℝ) (x : Fin cats.length → ℕ) => (∑ T, h (seenOf T x) * if group (seenOf T x) then θ k else 0)
      - ∑ T, h (seenOf T x) * if group (seenOf T x) then e T x k else 0)
      = fun θ x => ∑ T, (θ k - e T x k) * (if group (seenOf T x) then h (seenOf T x) else 0) := by
    funext θ x
    rw [← sum_sub_distrib]
    refine sum_congr rfl fun T _ => ?_
    split_ifs <;> ring
  rw [e1, expectation_finset]
  exact sum_eq_zero fun T _ => C128_errors hm hpos hP a hd points grid hg cov hcov hgrid (he T) k _
    (seenOf_dependsOn T fun z => if group z then h z else 0)

include hm hpos hP hd hg hcov hgrid in
/-- C144: and no other score that uses what is seen has a smaller mean squared error. -/
theorem C144_eap_best (hask : Asking cats h) {e : Finset (Fin cats.length) → (Fin cats.length → ℕ) → Fin d → ℝ}
    (he : ∀ T, EapOf m a points cats T (e T)) (k : Fin d) (δ : (Fin cats.length → Option ℕ) → ℝ) :
    let mean := expectation P cats (fun θ => Real.exp (mvnLogDensity 0 cov θ)) grid
    mean (fun θ x => ∑ T, h (seenOf T x) * (θ k - e T x k) ^ 2) ≤ mean fun θ x => ∑ T, h (seenOf T x) * (θ k - δ (seenOf T x)) ^ 2 := by
  intro mean
  show expectation _ _ _ _ _ ≤ expectation _ _ _ _ _
  rw [expectation_finset, expectation_finset]
  refine sum_le_sum fun T _ => ?_
  have hz := C128_errors hm hpos hP a hd points grid hg cov hcov hgrid (he T) k (fun x => h (seenOf T x) * (e T x k - δ (seenOf T x)))
    fun x hx x' hx' hj => by
      dsimp only
      rw [eapOf_dependsOn hm hpos a hd points grid hg cov hcov hgrid (he T) hx hx' hj, seenOf_congr hj]
  have e1 : (fun (θ : Fin d → ℝ) (x : Fin cats.length → ℕ) => h (seenOf T x) * (θ k - δ (seenOf T x)) ^ 2)
      = fun θ x => (h (seenOf T x) * (θ k - e T x k) ^ 2 + h (seenOf T x) * (e T x k - δ (seenOf T x)) ^ 2)
          + 2 * ((θ k - e T x k) * (h (seenOf T x) * (e T x k - δ (seenOf T x)))) := by
    funext θ x
    ring
  rw [e1, expectation_add, expectation_add, expectation_mul, hz]
  have h0 : 0 ≤ expectation P cats (fun θ => Real.exp (mvnLogDensity 0 cov θ)) grid fun _ x => h (seenOf T x) * (e T x k - δ (seenOf T x)) ^ 2 :=
    expectation_nonneg hm.nonneg (fun _ => (Real.exp_pos _).le) fun _ x => mul_nonneg (hask.nonneg _) (sq_nonneg _)
  linarith

end Eap

/-! ## Adaptive tests -/

section Adaptive

variable {K : ℕ} (next : (Fin K → Option ℕ) → Option (Fin K))

theorem adaptiveTest_succ (n : ℕ) (x : Fin K → ℕ) : adaptiveTest next (n + 1) x = askNext next x (adaptiveTest next n x) := by
  unfold adaptiveTest
  rw [Function.iterate_succ_apply']

theorem adaptiveTest_seen (n : ℕ) (x : Fin K → ℕ) : ∃ T, adaptiveTest next n x = seenOf T x := by
  induction n with
  | zero => exact ⟨∅, by funext j; simp [adaptiveTest, seenOf]⟩
  | succ n ih =>
    obtain ⟨T, hT⟩ := ih
    rw [adaptiveTest_succ, hT]
    unfold askNext
    cases next (seenOf T x) with
    | none => exact ⟨T, rfl⟩
    | some j =>
      refine ⟨insert j T, ?_⟩
      funext i
      by_cases hi : i = j
      · subst hi
        simp [seenOf]
      · simp [seenOf, Function.update_of_ne hi, hi]

/-- Answers once seen stay. -/
theorem askNext_keeps {x : Fin K → ℕ} {T : Finset (Fin K)} {j : Fin K} {r : ℕ} (h : seenOf T x j = some r) :
    askNext next x (seenOf T x) j = some r := by
  unfold askNext
  cases next (seenOf T x) with
  | none => exact h
  | some i =>
    by_cases hi : j = i
    · subst hi
      unfold seenOf at h
      split_ifs at h
      simpa using h
    · simpa [Function.update_of_ne hi] using h

/-- The course of the test depends on the answers seen only. -/
theorem adaptiveTest_congr (n : ℕ) {x x' : Fin K → ℕ} (h : ∀ j r, adaptiveTest next n x' j = some r → x j = r) :
    adaptiveTest next n x = adaptiveTest next n x' := by
  induction n with
  | zero => rfl
  | succ n ih =>
    rw [adaptiveTest_succ, adaptiveTest_succ]
    obtain ⟨T, hT⟩ := adaptiveTest_seen next n x'
    rw [ih fun j r hr => h j r (by
      rw [adaptiveTest_succ, hT]
      exact askNext_keeps next (by rw [← hT]; exact hr))]
    rw [adaptiveTest_succ] at h
    unfold askNext at h ⊢
    cases hn : next (adaptiveTest next n x') with
    | none => rfl
    | some j =>
      rw [hn] at h
      simp only
      rw [h j (x' j) (by simp)]

open Classical in
/-- C144: every adaptive test qualifies, whatever the rule by which the next question is chosen and whenever it stops. -/
theorem C144_adaptive (cats : List ℕ) (next : (Fin cats.length → Option ℕ) → Option (Fin cats.length)) (n : ℕ) :
    Asking cats fun z => if ∃ x ∈ fullAnswers cats, adaptiveTest next n x = z then 1 else 0 := by
  refine ⟨fun z => by positivity, fun x hx => ?_⟩
  obtain ⟨T, hT⟩ := adaptiveTest_seen next n x
  rw [sum_eq_single T]
  · exact if_pos ⟨x, hx, hT⟩
  · intro T' _ hne
    refine if_neg ?_
    rintro ⟨x', _, h'⟩
    refine hne (seenOf_injective x ?_)
    dsimp only
    rw [← h', ← hT]
    refine (adaptiveTest_congr next n fun j r hr => ?_).symm
    rw [h'] at hr
    unfold seenOf at hr
    split_ifs at hr
    exact Option.some.inj hr
  · exact fun h => absurd (mem_univ _) h

end Adaptive

/-! ## Questions left out for other reasons -/

/-- The claim for questions that are left out for reasons of any kind. -/
def TruthWinsWhateverTheReason : Prop := ∀ (d d' : ℕ) (m : Scorer d) (m' : Scorer d') (cats : List ℕ) (P : (Fin d → ℝ) → ℕ → ℕ → ℝ)
    (P' : (Fin d' → ℝ) → ℕ → ℕ → ℝ), IsScorer m cats P → PositiveProbs P cats → ProperProbs P cats →
    IsScorer m' cats P' → PositiveProbs P' cats → ProperProbs P' cats → ∀ (pts : Thetas d) (lw : List ℝ) (pts' : Thetas d') (lw' : List ℝ),
    lw.length = pts.length → pts ≠ [] → lw'.length = pts'.length → pts' ≠ [] → (lw'.map Real.exp).sum = (lw.map Real.exp).sum →
    ∀ ask : (Fin cats.length → ℕ) → Finset (Fin cats.length) → ℝ, (∀ x T, 0 ≤ ask x T) → (∀ x ∈ fullAnswers cats, ∑ T, ask x T = 1) →
    ∀ L L' : Finset (Fin cats.length) → (Fin cats.length → ℕ) → ℝ, SeenLossOf m cats pts lw L → SeenLossOf m' cats pts' lw' L' →
    ∑ x ∈ fullAnswers cats, populationProb P pts (lw.map Real.exp) x * ∑ T, ask x T * L T x
      ≤ ∑ x ∈ fullAnswers cats, populationProb P pts (lw.map Real.exp) x * ∑ T, ask x T * L' T x

/-- C144 is false for other reasons: if those who do not know the answer leave the question out, the item looks easier than it is. -/
theorem C144_other_reasons_false : ¬ TruthWinsWhateverTheReason := by
  classical
  intro h
  have hb : ∀ b : ℝ, IsScorer (onePLWith fun _ : Fin 1 => b).scorer (List.replicate 1 2)
      fun θ : Fin 1 → ℝ => tableProb ((onePLWith fun _ : Fin 1 => b).probs (θ 0)) := fun b =>
    (onePLWith fun _ : Fin 1 => b).isScorer (onePLWith_wf _) one_pos
  have hp : ∀ b : ℝ, PositiveProbs (fun θ : Fin 1 → ℝ => tableProb ((onePLWith fun _ : Fin 1 => b).probs (θ 0))) (List.replicate 1 2) := fun b =>
    (onePLWith fun _ : Fin 1 => b).positive (onePLWith_wf _)
  obtain ⟨L, hL⟩ := seenLossOf_exists (hb 0) (hp 0) [fun _ => 0] [0] rfl (by simp)
  obtain ⟨L', hL'⟩ := seenLossOf_exists (hb 1) (hp 1) [fun _ => 0] [0] rfl (by simp)
  have key := h 1 1 _ _ _ _ _ (hb 0) (hp 0) (onePLWith_proper _) (hb 1) (hp 1) (onePLWith_proper _) [fun _ => 0] [0] [fun _ => 0] [0] rfl
    (by simp) rfl (by simp) rfl (fun x T => if T = (if x onlyItem = 1 then univ else ∅) then 1 else 0) (fun x T => by split_ifs <;> norm_num)
    (fun x _ => by simp) L L' hL hL'
  simp only [ite_mul, one_mul, zero_mul, sum_ite_eq', mem_univ, if_true] at key
  have none : ∀ (b : ℝ) (M : Finset (Fin (List.replicate 1 2).length) → (Fin (List.replicate 1 2).length → ℕ) → ℝ),
      SeenLossOf (onePLWith fun _ : Fin 1 => b).scorer (List.replicate 1 2) [fun _ => 0] [0] M →
      ∀ x ∈ fullAnswers (List.replicate 1 2), M ∅ x = 0 := by
    intro b M hM x hx
    have h1 := mmlLoss_weighted (hb b) (hp b) 1 (fun _ => answersTo ∅ x) (fun _ _ => answersTo_valid ∅ hx) [fun _ => 0] [0] rfl (by simp)
    rw [hM ∅ x hx] at h1
    rw [Option.some.inj (Except.ok.inj h1)]
    have : ∀ j, answersTo (∅ : Finset (Fin (List.replicate 1 2).length)) x j = none := by intro j; simp [answersTo]
    simp [weighted, observedLikelihood, this, cellMissing]
  have one : ∀ (b : ℝ) (M : Finset (Fin (List.replicate 1 2).length) → (Fin (List.replicate 1 2).length → ℕ) → ℝ),
      SeenLossOf (onePLWith fun _ : Fin 1 => b).scorer (List.replicate 1 2) [fun _ => 0] [0] M →
      ∀ x ∈ fullAnswers (List.replicate 1 2), x onlyItem = 1 → M univ x = -Real.log (logistic b) := by
    intro b M hM x hx h1
    have h2 := mmlLossOf_eq (hb b) (hp b) [fun _ => 0] [0] rfl (by simp) (L := M univ) (fun x hx => hM univ x hx) hx
    have h3 := (one_item hx b fun _ => 0).2
    simp only [weighted, List.map_cons, List.map_nil, List.zipWith_cons_cons, List.zipWith_nil_left, List.sum_cons, List.sum_nil, h3,
      Real.exp_zero, h1] at h2
    have h4 := congrArg Real.log h2
    rw [Real.log_exp, if_neg one_ne_zero, zero_add, add_zero, one_mul] at h4
    linarith
  have hlog : Real.log (logistic 0) < Real.log (logistic 1) := Real.log_lt_log (logistic_pos 0) (logistic_strictMono one_pos)
  have hx1 := Fintype.mem_piFinset.1 exAllRight_mem 0
  refine absurd key (not_le.2 (sum_lt_sum (fun x hx => ?_) ⟨_, hx1, ?_⟩))
  · refine mul_le_mul_of_nonneg_left ?_ (populationProb_pos (hb 0) (hp 0) [fun _ => 0] [0] rfl (by simp) hx).le
    split_ifs with h1
    · rw [one 0 L hL x hx h1, one 1 L' hL' x hx h1]
      linarith
    · rw [none 0 L hL x hx, none 1 L' hL' x hx]
  · refine mul_lt_mul_of_pos_left ?_ (populationProb_pos (hb 0) (hp 0) [fun _ => 0] [0] rfl (by simp) hx1)
    rw [if_pos rfl, one 0 L hL _ hx1 rfl, one 1 L' hL' _ hx1 rfl]
    linarith

/-! ## The hypotheses are met: two items, the second of which is only asked after a right answer -/

/-- The first question, and after a right answer the second. -/
def exBranch (z : Fin exScore.cats.length → Option ℕ) : Option (Fin exScore.cats.length) :=
  match z ⟨0, by simp [exScore]⟩ with
  | none => some ⟨0, by simp [exScore]⟩
  | some 1 => some ⟨1, by simp [exScore]⟩
  | some _ => none

open Classical in
/-- Whether a respondent of the branched test gives just the answers `z`. -/
noncomputable def exBranched (z : Fin exScore.cats.length → Option ℕ) : ℝ :=
  if ∃ x ∈ fullAnswers exScore.cats, adaptiveTest exBranch 2 x = z then 1 else 0

theorem exBranched_asking : Asking exScore.cats exBranched := C144_adaptive exScore.cats exBranch 2

/-- After a wrong answer nothing else is seen, after a right one everything. -/
example (x : Fin exScore.cats.length → ℕ) : (x ⟨0, by simp [exScore]⟩ = 0 → adaptiveTest exBranch 2 x = seenOf {⟨0, by simp [exScore]⟩} x) ∧
    (x ⟨0, by simp [exScore]⟩ = 1 → adaptiveTest exBranch 2 x = seenOf univ x) := by
  constructor
  · intro h0
    funext j
    obtain ⟨j, hj⟩ := j
    have : j = 0 ∨ j = 1 := by simp [exScore] at hj; omega
    rcases this with rfl | rfl <;> simp [adaptiveTest, askNext, exBranch, seenOf, Function.update_apply, h0]
  · intro h1
    funext j
    obtain ⟨j, hj⟩ := j
    have : j = 0 ∨ j = 1 := by simp [exScore] at hj; omega
    rcases this with rfl | rfl <;> simp [adaptiveTest, askNext, exBranch, seenOf, Function.update_apply, h1]

/-- Another model of the two items does not fit better on average. -/
example : ∃ L L' : Finset (Fin exScore.cats.length) → (Fin exScore.cats.length → ℕ) → ℝ,
    SeenLossOf (exScore.scorer 1) exScore.cats [fun _ => 0, fun _ => 1] [-1, -2] L ∧
    SeenLossOf (exOther.scorer 1) exScore.cats [fun _ => 0, fun _ => 1] [-1, -2] L' ∧
    averageSeen exScore.cats exBranched (populationProb (fun θ : Fin 1 → ℝ => tableProb (exScore.probs (List.ofFn θ))) [fun _ => 0, fun _ => 1]
        ([-1, -2].map Real.exp)) L
      ≤ averageSeen exScore.cats exBranched (populationProb (fun θ : Fin 1 → ℝ => tableProb (exScore.probs (List.ofFn θ))) [fun _ => 0, fun _ => 1]
        ([-1, -2].map Real.exp)) L' := by
  have hm' : IsScorer (exOther.scorer 1) exScore.cats fun θ : Fin 1 → ℝ => tableProb (exOther.probs (List.ofFn θ)) := exOther.isScorer exOther_wf (by simp [exOther]) 1
  have hp' : PositiveProbs (fun θ : Fin 1 → ℝ => tableProb (exOther.probs (List.ofFn θ))) exScore.cats :=
    fun θ j c r hc hr => exOther.tableProb_pos exOther_wf _ j c r hc hr
  have hP' : ProperProbs (fun θ : Fin 1 → ℝ => tableProb (exOther.probs (List.ofFn θ))) exScore.cats :=
    properProbs_of_isTable fun θ => isTable_gpc exOther exOther_wf (List.ofFn θ)
  obtain ⟨L, hL⟩ := seenLossOf_exists exScore_isScorer exScore_positive [fun _ => 0, fun _ => 1] [-1, -2] rfl (by simp)
  obtain ⟨L', hL'⟩ := seenLossOf_exists hm' hp' [fun _ => 0, fun _ => 1] [-1, -2] rfl (by simp)
  exact ⟨L, L', hL, hL', (C144_mml exScore_isScorer exScore_positive _ _ rfl (by simp) exBranched_asking exScore_proper hL hm' hp' hP' _ _ rfl
    (by simp) rfl hL').1⟩

/-- The true model itself is a fit as in `C144_expected_distance` and `C144_consistent`. -/
example (N : ℕ) (s : Fin N → Fin exScore.cats.length → Option ℕ) (hs : s ∈ seenSamples N exScore.cats exBranched) : ∃ L L' : ℝ,
    mmlLoss (exScore.scorer 1) (rowsOf N exScore.cats.length (seenCells s)) [fun _ => 0, fun _ => 1] [-1, -2] = .ok (some L) ∧
    mmlLoss (exScore.scorer 1) (rowsOf N exScore.cats.length (seenCells s)) [fun _ => 0, fun _ => 1] [-1, -2] = .ok (some L') ∧ L' ≤ L :=
  ⟨_, _, seenSample_loss exScore_isScorer exScore_positive exScore_proper _ _ rfl (by simp) hs,
    seenSample_loss exScore_isScorer exScore_positive exScore_proper _ _ rfl (by simp) hs, le_rfl⟩

/-- The EAP scores of the branched test exist and are the best. -/
example : ∃ (grid : Thetas 1) (e : Finset (Fin exScore.cats.length) → (Fin exScore.cats.length → ℕ) → Fin 1 → ℝ), grid ≠ [] ∧
    (∀ T, EapOf (exScore.scorer 1) exTrained none exScore.cats T (e T)) ∧ ∀ δ : (Fin exScore.cats.length → Option ℕ) → ℝ,
    expectation (fun θ : Fin 1 → ℝ => tableProb (exScore.probs (List.ofFn θ))) exScore.cats
        (fun θ => Real.exp (mvnLogDensity 0 (sampleCov [fun _ : Fin 1 => (0:ℝ), fun _ => 2]) θ)) grid
        (fun θ x => ∑ T, exBranched (seenOf T x) * (θ 0 - e T x 0) ^ 2)
      ≤ expectation (fun θ : Fin 1 → ℝ => tableProb (exScore.probs (List.ofFn θ))) exScore.cats
        (fun θ => Real.exp (mvnLogDensity 0 (sampleCov [fun _ : Fin 1 => (0:ℝ), fun _ => 2]) θ)) grid
        (fun θ x => ∑ T, exBranched (seenOf T x) * (θ 0 - δ (seenOf T x)) ^ 2) := by
  obtain ⟨grid, hg, hgrid⟩ := exTrained_grid
  have hex := fun T => C128_scores_exist exScore_isScorer exScore_positive exTrained (by norm_num) none grid hg _ exTraining_cov hgrid T
  choose e he using hex
  exact ⟨grid, e, hg, he, fun δ => C144_eap_best exScore_isScorer exScore_positive exScore_proper exTrained (by norm_num) none grid hg _
    exTraining_cov hgrid exBranched_asking he 0 δ⟩

end Irt
