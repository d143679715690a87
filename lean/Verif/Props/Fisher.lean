import Verif.Lemmas.Fisher
import Verif.Props.LatentScores

/-! # Property C106: information and standard errors are about the answers of a respondent -/

namespace Irt
open Spec

variable {d : ℕ}

/-- The probabilities that `item_probabilities` returns, by item and category. -/
noncomputable def answersOf (probs : (Fin d → ℝ) → List (List ℝ)) (items C : ℕ) (t : Fin d → ℝ) (j : Fin items) (c : Fin C) : ℝ :=
  ((probs t).getD j []).getD c 0

theorem smoothTest_table {probs : (Fin d → ℝ) → List (List ℝ)} {items C : ℕ} (hP : SmoothTest (answersOf probs items C))
    (hshape : TableShape items C probs) (t : Fin d → ℝ) (i c : ℕ) (k : Fin d) :
    DifferentiableAt ℝ (fun v => ((probs (Function.update t k v)).getD i []).getD c 0) (t k) := by
  by_cases hi : i < items
  · by_cases hc : c < C
    · exact hP.diff t ⟨i, hi⟩ ⟨c, hc⟩ k
    · have : ∀ s : Fin d → ℝ, ((probs s).getD i []).getD c 0 = 0 := fun s =>
        List.getD_eq_default _ _ (by rw [hshape.row s i hi]; omega)
      simp only [this]
      exact differentiableAt_const _
  · have : ∀ s : Fin d → ℝ, ((probs s).getD i []).getD c 0 = 0 := fun s => by
      rw [List.getD_eq_default (probs s) _ (by rw [(hshape s).1]; omega)]; rfl
    simp only [this]
    exact differentiableAt_const _

/-- C106: the test information is the expectation, over the answers of a respondent to all items, of the outer product of the gradient
of their log likelihood. -/
theorem C106_outer_product (probs : (Fin d → ℝ) → List (List ℝ)) (items C : ℕ) (hshape : TableShape items C probs)
    (hP : SmoothTest (answersOf probs items C)) (scales : List (Scale d)) (rescale : Bool) (hs : rescale = false ∨ scales = [])
    (θ : Thetas d) :
    information probs items C scales false none rescale θ = .ok (.test (θ.map (expectedOuter (answersOf probs items C)))) := by
  have h := C31_test_is_sum _ _ _ _ _ _ _
    (C31_fisher probs items C hshape (fun t i c k => smoothTest_table hP hshape t i c k) scales rescale hs θ)
  rw [h, List.map_map]
  congr 2
  refine List.map_congr_left fun t _ => ?_
  ext k k'
  rw [Function.comp_apply, expectedOuter_items hP]
  have hlist : ∀ l : List (Matrix (Fin d) (Fin d) ℝ), l.sum k k' = (l.map fun M => M k k').sum := by
    intro l
    induction l with
    | nil => rfl
    | cons M l ih => rw [List.sum_cons, List.map_cons, List.sum_cons, Matrix.add_apply, ih]
  rw [hlist, List.map_map, list_sum_range, Finset.sum_range]
  refine Finset.sum_congr rfl fun j _ => ?_
  simp only [Function.comp_apply, fisherInformation, Matrix.of_apply]
  rw [hshape.row t j j.2, Finset.sum_range]
  refine Finset.sum_congr rfl fun c _ => ?_
  show answersOf probs items C t j c * _ = _
  by_cases hz : answersOf probs items C t j c = 0
  · rw [hz, zero_mul, zero_mul]
  · have hlog : ∀ k, partialD (fun s => Real.log (((probs s).getD j []).getD c 0)) t k = relSlope (answersOf probs items C) t k j c := by
      intro k
      unfold partialD relSlope
      have := ((hP.diff t j c k).hasDerivAt.log (by rw [Function.update_eq_self]; exact hz)).deriv
      rw [Function.update_eq_self] at this
      exact this
    rw [hlog, hlog]

/-- C106: for twice continuously differentiable probabilities, each positive or the zero of a category that the item does not have, the
test information is also minus the expectation of the second derivatives of the log likelihood, as documented. -/
theorem C106_hessian (probs : (Fin d → ℝ) → List (List ℝ)) (items C : ℕ) (hshape : TableShape items C probs)
    (hP : SmoothTest (answersOf probs items C)) (hC : ∀ j c, ContDiff ℝ 2 fun t => answersOf probs items C t j c)
    (hpos : ∀ j c, (∀ t, 0 < answersOf probs items C t j c) ∨ ∀ t, answersOf probs items C t j c = 0)
    (scales : List (Scale d)) (rescale : Bool) (hs : rescale = false ∨ scales = []) (θ : Thetas d) :
    information probs items C scales false none rescale θ
      = .ok (.test (θ.map fun t => -expectedHessian (answersOf probs items C) t)) := by
  rw [C106_outer_product probs items C hshape hP scales rescale hs θ]
  simp only [expectedHessian_eq hP hC hpos, neg_neg]

/-- C106, the bound of Cramér and Rao: no statistic of the answers follows latent variable `k` with a variance below the squared slope
of its expectation divided by the information. -/
theorem C106_cramer_rao (probs : (Fin d → ℝ) → List (List ℝ)) (items C : ℕ) (hshape : TableShape items C probs)
    (hP : SmoothTest (answersOf probs items C)) (t : Fin d → ℝ) (I : Matrix (Fin d) (Fin d) ℝ)
    (hI : information probs items C [] false none false [t] = .ok (.test [I])) (k : Fin d) (T : (Fin items → Fin C) → ℝ) :
    partialD (fun s => expect (answersOf probs items C) s T) t k ^ 2 ≤ variance (answersOf probs items C) t T * I k k := by
  rw [C106_outer_product probs items C hshape hP [] false (Or.inl rfl)] at hI
  obtain rfl : expectedOuter (answersOf probs items C) t = I := by simpa using hI
  exact cramer_rao hP t k T

/-! ## Standard errors -/

/-- Probabilities of the answers to the items that were answered. -/
noncomputable def givenAnswers (probs : (Fin d → ℝ) → List (List ℝ)) (items C : ℕ) (row : List Num) (t : Fin d → ℝ)
    (j : GivenItems row items) : Fin C → ℝ := answersOf probs items C t j.1

/-- The full claim: the square of the standard error that `latent_scores` reports for a respondent is the smallest variance of a
locally unbiased statistic of the answers that the respondent gave (with the other latent variables known). -/
def SeOfAnswersGiven : Prop :=
  ∀ (d : ℕ) (f : FittedModel d) (width : ℕ) (data : List (List Num)) (points : Option ℕ) (θs : Thetas d)
    (ses : List (Fin d → Option ℝ)) (i : ℕ) (row : List Num) (θ : Fin d → ℝ) (se : Fin d → Option ℝ) (k : Fin d) (s : ℝ),
    TableShape f.cats.length (maxCats f.cats) f.probs → SmoothTest (answersOf f.probs f.cats.length (maxCats f.cats)) →
    latentScores f width data "ML" true false points = .ok (some θs, some ses) →
    data[i]? = some row → θs[i]? = some θ → ses[i]? = some se → se k = some s →
    IsLeast (unbiasedVariances (givenAnswers f.probs f.cats.length (maxCats f.cats) row) θ k) (s ^ 2)

theorem latentScores_ml {f : FittedModel d} {width : ℕ} {data : List (List Num)} {points : Option ℕ} {θs : Thetas d}
    {ses : List (Fin d → Option ℝ)} (hshape : TableShape f.cats.length (maxCats f.cats) f.probs)
    (hP : SmoothTest (answersOf f.probs f.cats.length (maxCats f.cats)))
    (h : latentScores f width data "ML" true false points = .ok (some θs, some ses)) :
    ses = θs.map fun t k => invSqrt (expectedOuter (answersOf f.probs f.cats.length (maxCats f.cats)) t k k) := by
  unfold latentScores at h
  obtain ⟨⟨theta, input⟩, hraw, h⟩ := bind_eq_ok h
  obtain ⟨out, hout, h⟩ := bind_eq_ok h
  rw [if_pos rfl] at h
  obtain ⟨se, hse, h⟩ := bind_eq_ok h
  have h' := Except.ok.inj h
  simp only [Prod.mk.injEq, Option.some.injEq] at h'
  obtain ⟨rfl, rfl⟩ := h'
  have ht : theta = some θs := by
    unfold rescaleScores at hout
    cases theta with
    | none => cases hout
    | some t => simpa using hout
  rw [ht] at hse
  unfold standardErrorsOf at hse
  rw [if_neg (by simp), C106_outer_product f.probs f.cats.length (maxCats f.cats) hshape hP f.scales false (Or.inl rfl)] at hse
  simp only [Option.getD_some, bind_ok, pure, Except.pure, Except.ok.injEq] at hse
  rw [← hse, List.map_map]
  rfl

theorem givenAnswers_outer (probs : (Fin d → ℝ) → List (List ℝ)) (items C : ℕ) (hP : SmoothTest (answersOf probs items C))
    (row : List Num) (t : Fin d → ℝ) (k : Fin d) (hrow : ∀ j, j < items → ∃ x, row[j]? = some (some x) ∧ x ≠ -1) :
    expectedOuter (givenAnswers probs items C row) t k k = expectedOuter (answersOf probs items C) t k k := by
  have hG : SmoothTest (givenAnswers probs items C row) :=
    ⟨fun t j c => hP.nonneg t j.1 c, fun t j => hP.sum t j.1, fun t j c k => hP.diff t j.1 c k⟩
  rw [expectedOuter_items hP, expectedOuter_items hG]
  exact Fintype.sum_equiv ⟨fun j => j.1, fun j => ⟨j, hrow j j.2⟩, fun j => rfl, fun j => rfl⟩ _ _ fun j => rfl

theorem givenAnswers_le (probs : (Fin d → ℝ) → List (List ℝ)) (items C : ℕ) (hP : SmoothTest (answersOf probs items C))
    (row : List Num) (t : Fin d → ℝ) (k : Fin d) :
    expectedOuter (givenAnswers probs items C row) t k k ≤ expectedOuter (answersOf probs items C) t k k := by
  classical
  have hG : SmoothTest (givenAnswers probs items C row) :=
    ⟨fun t j c => hP.nonneg t j.1 c, fun t j => hP.sum t j.1, fun t j c k => hP.diff t j.1 c k⟩
  rw [expectedOuter_items hP, expectedOuter_items hG]
  have hinj : Function.Injective fun j : GivenItems row items => j.1 := Subtype.val_injective
  let F : Fin items → ℝ := fun j => ∑ c, answersOf probs items C t j c *
    (relSlope (answersOf probs items C) t k j c * relSlope (answersOf probs items C) t k j c)
  calc _ = ∑ j : GivenItems row items, F j.1 := rfl
    _ = ∑ j ∈ Finset.univ.image (fun j : GivenItems row items => j.1), F j :=
        (Finset.sum_image (f := F) fun a _ b _ hab => hinj hab).symm
    _ ≤ ∑ j, F j := Finset.sum_le_univ_sum_of_nonneg fun j =>
        Finset.sum_nonneg fun c _ => mul_nonneg (hP.nonneg t j c) (mul_self_nonneg _)

/-- C106: the claim holds for respondents who answered every item. -/
theorem C106_standard_error_partial (f : FittedModel d) (width : ℕ) (data : List (List Num)) (points : Option ℕ) (θs : Thetas d)
    (ses : List (Fin d → Option ℝ)) (i : ℕ) (row : List Num) (θ : Fin d → ℝ) (se : Fin d → Option ℝ) (k : Fin d) (s : ℝ)
    (hshape : TableShape f.cats.length (maxCats f.cats) f.probs)
    (hP : SmoothTest (answersOf f.probs f.cats.length (maxCats f.cats)))
    (h : latentScores f width data "ML" true false points = .ok (some θs, some ses))
    (hrow : ∀ j, j < f.cats.length → ∃ x, row[j]? = some (some x) ∧ x ≠ -1)
    (hθ : θs[i]? = some θ) (hse : ses[i]? = some se) (hs : se k = some s) :
    IsLeast (unbiasedVariances (givenAnswers f.probs f.cats.length (maxCats f.cats) row) θ k) (s ^ 2) := by
  have hG : SmoothTest (givenAnswers f.probs f.cats.length (maxCats f.cats) row) :=
    ⟨fun t j c => hP.nonneg t j.1 c, fun t j => hP.sum t j.1, fun t j c k => hP.diff t j.1 c k⟩
  rw [latentScores_ml hshape hP h, List.getElem?_map, hθ] at hse
  obtain rfl := Option.some.inj hse
  change invSqrt _ = some s at hs
  unfold invSqrt at hs
  split at hs
  · cases hs
  · rename_i hne
    obtain rfl := Option.some.inj hs
    have hout := givenAnswers_outer f.probs f.cats.length (maxCats f.cats) hP row θ k hrow
    have hl := least_variance hG θ k (by rw [hout]; exact hne)
    rw [hout] at hl
    have hnn : 0 ≤ expectedOuter (answersOf f.probs f.cats.length (maxCats f.cats)) θ k k := by
      unfold expectedOuter expect
      exact Finset.sum_nonneg fun x _ => mul_nonneg (patternProb_nonneg hP x θ) (mul_self_nonneg _)
    rw [div_pow, one_pow, Real.sq_sqrt hnn]
    exact hl

/-- C106: for every respondent the square of the standard error is at most the variance of each locally unbiased statistic of the answers
given: standard errors can only be too small. -/
theorem C106_lower_bound (f : FittedModel d) (width : ℕ) (data : List (List Num)) (points : Option ℕ) (θs : Thetas d)
    (ses : List (Fin d → Option ℝ)) (i : ℕ) (row : List Num) (θ : Fin d → ℝ) (se : Fin d → Option ℝ) (k : Fin d) (s : ℝ)
    (hshape : TableShape f.cats.length (maxCats f.cats) f.probs)
    (hP : SmoothTest (answersOf f.probs f.cats.length (maxCats f.cats)))
    (h : latentScores f width data "ML" true false points = .ok (some θs, some ses))
    (hθ : θs[i]? = some θ) (hse : ses[i]? = some se) (hs : se k = some s) :
    s ^ 2 ∈ lowerBounds (unbiasedVariances (givenAnswers f.probs f.cats.length (maxCats f.cats) row) θ k) := by
  have hG : SmoothTest (givenAnswers f.probs f.cats.length (maxCats f.cats) row) :=
    ⟨fun t j c => hP.nonneg t j.1 c, fun t j => hP.sum t j.1, fun t j c k => hP.diff t j.1 c k⟩
  rw [latentScores_ml hshape hP h, List.getElem?_map, hθ] at hse
  obtain rfl := Option.some.inj hse
  change invSqrt _ = some s at hs
  unfold invSqrt at hs
  split at hs
  · cases hs
  · rename_i hne
    obtain rfl := Option.some.inj hs
    have hnn : 0 ≤ expectedOuter (answersOf f.probs f.cats.length (maxCats f.cats)) θ k k := by
      unfold expectedOuter expect
      exact Finset.sum_nonneg fun x _ => mul_nonneg (patternProb_nonneg hP x θ) (mul_self_nonneg _)
    rw [div_pow, one_pow, Real.sq_sqrt hnn]
    rintro v ⟨T, ⟨-, h1⟩, rfl⟩
    have hcr := cramer_rao hG θ k T
    rw [h1, one_pow] at hcr
    have hv : 0 ≤ variance (givenAnswers f.probs f.cats.length (maxCats f.cats) row) θ T := by
      unfold variance expect
      exact Finset.sum_nonneg fun x _ => mul_nonneg (patternProb_nonneg hG x θ) (sq_nonneg _)
    rw [div_le_iff₀ (lt_of_le_of_ne hnn (Ne.symm hne))]
    exact hcr.trans (mul_le_mul_of_nonneg_left (givenAnswers_le f.probs _ _ hP row θ k) hv)

/-- C106: what is reported does not depend on which answers are missing: respondents with the same score have the same standard
errors. -/
theorem C106_missing_ignored (f : FittedModel d) (width : ℕ) (data : List (List Num)) (points : Option ℕ) (θs : Thetas d)
    (ses : List (Fin d → Option ℝ)) (hshape : TableShape f.cats.length (maxCats f.cats) f.probs)
    (hP : SmoothTest (answersOf f.probs f.cats.length (maxCats f.cats)))
    (h : latentScores f width data "ML" true false points = .ok (some θs, some ses)) (i i' : ℕ) (hi : i < data.length)
    (hi' : i' < data.length) (heq : θs[i]? = θs[i']?) : ses[i]? = ses[i']? := by
  rw [latentScores_ml hshape hP h, List.getElem?_map, List.getElem?_map, heq]

/-! ## The two-parameter logistic model -/

theorem twoPL_answers (m : TwoPL) (hwf : m.WF) (j : Fin m.items) (a : List ℝ) (b : ℝ) (hp : m.itemParameters[(j : ℕ)]? = some (a, b))
    (t : Fin d → ℝ) (c : Fin 2) : answersOf (fun t => m.probs (List.ofFn t)) m.items 2 t j c
      = if c = 0 then 1 - logistic ((∑ x, t x * a.getD x 0) + b) else logistic ((∑ x, t x * a.getD x 0) + b) := by
  unfold answersOf
  rw [twoPL_row m hwf j a b hp]
  fin_cases c <;> rfl

theorem twoPL_smooth (m : TwoPL) (hwf : m.WF) : SmoothTest (d := d) (answersOf (fun t => m.probs (List.ofFn t)) m.items 2) := by
  refine ⟨fun t j c => ?_, fun t j => ?_, fun t j c k => ?_⟩ <;>
    obtain ⟨⟨a, b⟩, hp⟩ := twoPL_parameters m hwf j j.2
  · rw [twoPL_answers m hwf j a b hp]
    split
    · exact (sub_pos.2 (logistic_lt_one _)).le
    · exact (logistic_pos _).le
  · rw [Fin.sum_univ_two, twoPL_answers m hwf j a b hp, twoPL_answers m hwf j a b hp]
    simp
  · simp only [twoPL_answers m hwf j a b hp]
    split
    · exact ((twoPL_entry_hasDerivAt t a b k).const_sub 1).differentiableAt
    · exact (twoPL_entry_hasDerivAt t a b k).differentiableAt

/-- C106 for the two-parameter logistic model, with no further hypotheses: the test information is both documented expectations. -/
theorem C106_twoPL (m : TwoPL) (hwf : m.WF) (scales : List (Scale d)) (rescale : Bool) (hs : rescale = false ∨ scales = [])
    (θ : Thetas d) :
    information (fun t => m.probs (List.ofFn t)) m.items 2 scales false none rescale θ
        = .ok (.test (θ.map (expectedOuter (answersOf (fun t => m.probs (List.ofFn t)) m.items 2)))) ∧
    information (fun t => m.probs (List.ofFn t)) m.items 2 scales false none rescale θ
        = .ok (.test (θ.map fun t => -expectedHessian (answersOf (fun t => m.probs (List.ofFn t)) m.items 2) t)) := by
  refine ⟨C106_outer_product _ _ _ (twoPL_shape m hwf) (twoPL_smooth m hwf) scales rescale hs θ,
    C106_hessian _ _ _ (twoPL_shape m hwf) (twoPL_smooth m hwf) (fun j c => ?_) (fun j c => Or.inl fun t => ?_) scales rescale hs θ⟩ <;>
    obtain ⟨⟨a, b⟩, hp⟩ := twoPL_parameters m hwf j j.2
  · have hl : ContDiff ℝ 2 fun t : Fin d → ℝ => logistic ((∑ x, t x * a.getD x 0) + b) := by
      unfold logistic
      have he : ContDiff ℝ 2 fun t : Fin d → ℝ => Real.exp ((∑ x, t x * a.getD x 0) + b) :=
        Real.contDiff_exp.comp ((ContDiff.sum fun x _ => (contDiff_apply ℝ ℝ x).mul contDiff_const).add contDiff_const)
      exact ContDiff.div he (contDiff_const.add he) fun t => by positivity
    simp only [twoPL_answers m hwf j a b hp]
    split
    · exact contDiff_const.sub hl
    · exact hl
  · rw [twoPL_answers m hwf j a b hp]
    split
    · exact sub_pos.2 (logistic_lt_one _)
    · exact logistic_pos _

theorem twoPL_given_outer (m : TwoPL) (hwf : m.WF) (row : List Num) (t : Fin d → ℝ) (k : Fin d) (q : ℝ)
    (hq : ∀ j : Fin m.items, ∃ a b, m.itemParameters[(j : ℕ)]? = some (a, b) ∧
      logistic ((∑ x, t x * a.getD x 0) + b) * (1 - logistic ((∑ x, t x * a.getD x 0) + b)) * a.getD k 0 ^ 2 = q) :
    expectedOuter (givenAnswers (fun t => m.probs (List.ofFn t)) m.items 2 row) t k k = Fintype.card (GivenItems row m.items) * q := by
  have hG : SmoothTest (d := d) (givenAnswers (fun t => m.probs (List.ofFn t)) m.items 2 row) :=
    ⟨fun t j c => (twoPL_smooth m hwf).nonneg t j.1 c, fun t j => (twoPL_smooth m hwf).sum t j.1,
      fun t j c k => (twoPL_smooth m hwf).diff t j.1 c k⟩
  rw [expectedOuter_items hG]
  have hterm : ∀ j : GivenItems row m.items, (∑ c, givenAnswers (fun t => m.probs (List.ofFn t)) m.items 2 row t j c *
      (relSlope (givenAnswers (fun t => m.probs (List.ofFn t)) m.items 2 row) t k j c
        * relSlope (givenAnswers (fun t => m.probs (List.ofFn t)) m.items 2 row) t k j c)) = q := by
    intro j
    obtain ⟨a, b, hp, hq⟩ := hq j.1
    rw [← hq, Fin.sum_univ_two]
    have h0 : ∀ s : Fin d → ℝ, givenAnswers (fun t => m.probs (List.ofFn t)) m.items 2 row s j 0
        = 1 - logistic ((∑ x, s x * a.getD x 0) + b) := fun s => twoPL_answers m hwf j.1 a b hp s 0
    have h1 : ∀ s : Fin d → ℝ, givenAnswers (fun t => m.probs (List.ofFn t)) m.items 2 row s j 1
        = logistic ((∑ x, s x * a.getD x 0) + b) := fun s => twoPL_answers m hwf j.1 a b hp s 1
    unfold relSlope partialD
    simp only [h0, h1]
    rw [((twoPL_entry_hasDerivAt t a b k).const_sub 1).deriv, (twoPL_entry_hasDerivAt t a b k).deriv]
    have p0 := logistic_pos ((∑ x, t x * a.getD x 0) + b)
    have p1 := sub_pos.2 (logistic_lt_one ((∑ x, t x * a.getD x 0) + b))
    field_simp
    ring
  rw [Finset.sum_congr rfl fun j _ => hterm j, Finset.sum_const, Finset.card_univ, nsmul_eq_mul]

/-! ## The claim is false for respondents with missing answers -/

/-- Four items with slopes 1 and biases 0. -/
noncomputable def exSkip : TwoPL :=
  { items := 4, lv := 1, rel := [[true], [true], [true], [true]], weight := [1, 1, 1, 1], bias := [0, 0, 0, 0] }

theorem exSkip_wf : exSkip.WF where
  relLen := by simp [exSkip]
  relRow := by simp [exSkip]
  weightLen := by simp [exSkip, countTrue]
  biasLen := by simp [exSkip]

theorem exSkip_parameters : exSkip.itemParameters = [([1], 0), ([1], 0), ([1], 0), ([1], 0)] := by
  simp [TwoPL.itemParameters, TwoPL.weights, exSkip, viewRows, scatterMask]

/-- The model fitted with MML. The optimiser returns its starting values, the zeros that MML fits start from, which are the maximum
likelihood estimate of a respondent with one correct and one wrong answer. -/
noncomputable def exSkipModel : FittedModel 1 where
  scorer := tableScorer 4 fun t => exSkip.probs (List.ofFn t)
  cats := [2, 2, 2, 2]
  attrs := Algorithm.mml.afterFit [] 1 false none
  probs := fun t => exSkip.probs (List.ofFn t)
  scales := []
  encode := fun _ => []
  meanSe := fun _ => []
  optimise := fun _ _ start => start
  permutation := []
  draw := fun _ _ => 0

/-- Two respondents: one answered every item, one only the first two. -/
def exSkipData : List (List Num) := [[some 1, some 0, some 1, some 0], [some 1, some 0, none, none]]

theorem exSkip_quarter (j : Fin exSkip.items) : ∃ a b, exSkip.itemParameters[(j : ℕ)]? = some (a, b) ∧
    logistic ((∑ x, (fun _ => 0 : Fin 1 → ℝ) x * a.getD x 0) + b) * (1 - logistic ((∑ x, (fun _ => 0 : Fin 1 → ℝ) x * a.getD x 0) + b))
      * a.getD (0 : Fin 1) 0 ^ 2 = 1 / 4 := by
  refine ⟨[1], 0, ?_, ?_⟩
  · rw [exSkip_parameters]
    have : (j : ℕ) < 4 := j.2
    interval_cases (j : ℕ) <;> rfl
  · simp [logistic]
    norm_num

theorem exSkip_outer (row : List Num) :
    expectedOuter (givenAnswers exSkipModel.probs 4 2 row) (fun _ => 0 : Fin 1 → ℝ) 0 0 = Fintype.card (GivenItems row 4) * (1 / 4) :=
  twoPL_given_outer (d := 1) exSkip exSkip_wf row (fun _ => 0) 0 (1 / 4) exSkip_quarter

theorem exSkip_full (row : List Num) (h : ∀ j, j < 4 → ∃ x : ℝ, row[j]? = some (some x) ∧ x ≠ -1) :
    Fintype.card (GivenItems row 4) = 4 :=
  (Fintype.card_congr ⟨fun j : GivenItems row 4 => j.1, fun j => ⟨j, h j j.2⟩, fun _ => rfl, fun _ => rfl⟩).trans (Fintype.card_fin 4)

theorem exSkip_all (j : ℕ) (hj : j < 4) : ∃ x : ℝ, ([some 1, some 0, some 1, some 0] : List Num)[j]? = some (some x) ∧ x ≠ -1 := by
  interval_cases j <;> simp <;> norm_num

theorem exSkip_two : Fintype.card (GivenItems [some 1, some 0, none, none] 4) = 2 := by
  have h1 : ∀ j : GivenItems [some 1, some 0, none, none] 4, (j.1 : ℕ) < 2 := by
    rintro ⟨⟨j, hj⟩, x, hx, -⟩
    by_contra hlt
    have : j = 2 ∨ j = 3 := by simp at hlt; omega
    rcases this with rfl | rfl <;> simp at hx
  have h2 : ∀ j : Fin 2, ∃ x : ℝ, ([some 1, some 0, none, none] : List Num)[(j : ℕ)]? = some (some x) ∧ x ≠ -1 := by
    intro j
    fin_cases j <;> simp <;> norm_num
  exact (Fintype.card_congr ⟨fun j => (⟨j.1, h1 j⟩ : Fin 2), fun j => ⟨⟨j, by omega⟩, h2 j⟩, fun _ => rfl, fun _ => rfl⟩).trans
    (Fintype.card_fin 2)

theorem exSkip_shape : TableShape (d := 1) exSkipModel.cats.length (maxCats exSkipModel.cats) exSkipModel.probs :=
  twoPL_shape exSkip exSkip_wf

theorem exSkip_smooth : SmoothTest (answersOf exSkipModel.probs exSkipModel.cats.length (maxCats exSkipModel.cats)) :=
  twoPL_smooth exSkip exSkip_wf

/-- Both respondents get score 0 and standard error 1. -/
theorem exSkip_scores : latentScores exSkipModel 4 exSkipData "ML" true false none
    = .ok (some [fun _ => 0, fun _ => 0], some [fun _ => some 1, fun _ => some 1]) := by
  have hI : expectedOuter (answersOf exSkipModel.probs 4 2) (fun _ => 0 : Fin 1 → ℝ) 0 0 = 1 := by
    rw [← givenAnswers_outer _ 4 2 exSkip_smooth [some 1, some 0, some 1, some 0] _ 0 exSkip_all, exSkip_outer,
      exSkip_full _ exSkip_all]
    norm_num
  rw [C74_reported exSkipModel 4 exSkipData false none [fun _ => 0, fun _ => 0] none ?_ (some [fun _ => 0, fun _ => 0]) rfl _
    (C106_outer_product _ _ _ exSkip_shape exSkip_smooth [] false (Or.inl rfl) _)]
  · have hse : (fun k : Fin 1 => if expectedOuter (answersOf exSkipModel.probs 4 2) (fun _ => 0 : Fin 1 → ℝ) k k = 0 then none
        else some (1 / Real.sqrt (expectedOuter (answersOf exSkipModel.probs 4 2) (fun _ => 0 : Fin 1 → ℝ) k k)))
        = fun _ => some 1 := by
      funext k
      obtain rfl : k = 0 := Subsingleton.elim _ _
      rw [hI]
      simp
    simp only [List.map_cons, List.map_nil]
    exact congrArg (fun g => Except.ok (some [fun _ => 0, fun _ => 0], some [g, g])) hse
  · simp [rawScores, startScores, mlMapScores, exSkipModel, exSkipData, Algorithm.afterFit, bind, Except.bind, pure, Except.pure]

/-- C106 is false: a respondent who answered two of the four items gets the standard error 1 of a respondent who answered all four, but
no statistic of two answers that is locally unbiased has a variance below 2. -/
theorem C106_missing_false : ¬ SeOfAnswersGiven := by
  intro h
  have h1 := h 1 exSkipModel 4 exSkipData none _ _ 1 [some 1, some 0, none, none] (fun _ => 0) (fun _ => some 1) 0 1 exSkip_shape
    exSkip_smooth exSkip_scores rfl rfl rfl rfl
  have hG : SmoothTest (givenAnswers exSkipModel.probs 4 2 [some 1, some 0, none, none]) :=
    ⟨fun t j c => exSkip_smooth.nonneg t j.1 c, fun t j => exSkip_smooth.sum t j.1, fun t j c k => exSkip_smooth.diff t j.1 c k⟩
  have hI := exSkip_outer [some 1, some 0, none, none]
  rw [exSkip_two] at hI
  have h2 := least_variance hG (fun _ => 0) 0 (by rw [hI]; norm_num)
  rw [hI] at h2
  have := h1.unique h2
  norm_num at this

/-! ## Non-vacuity -/

/-- The respondent who answered every item: 1 is the smallest variance. -/
example : IsLeast (unbiasedVariances (givenAnswers exSkipModel.probs 4 2 [some 1, some 0, some 1, some 0]) (fun _ => 0) 0) ((1 : ℝ) ^ 2) :=
  C106_standard_error_partial exSkipModel 4 exSkipData none _ _ 0 _ (fun _ => 0) (fun _ => some 1) 0 1 exSkip_shape exSkip_smooth
    exSkip_scores exSkip_all rfl rfl rfl

example : (1 : ℝ) ^ 2 ∈ lowerBounds (unbiasedVariances (givenAnswers exSkipModel.probs 4 2 [some 1, some 0, none, none]) (fun _ => 0) 0) :=
  C106_lower_bound exSkipModel 4 exSkipData none _ _ 1 _ (fun _ => 0) (fun _ => some 1) 0 1 exSkip_shape exSkip_smooth
    exSkip_scores rfl rfl rfl

example : ([fun _ => some 1, fun _ => some 1] : List (Fin 1 → Option ℝ))[0]? = ([fun _ => some 1, fun _ => some 1] : List (Fin 1 → Option ℝ))[1]? :=
  C106_missing_ignored exSkipModel 4 exSkipData none _ _ exSkip_shape exSkip_smooth exSkip_scores 0 1 (by simp [exSkipData])
    (by simp [exSkipData]) rfl

/-- The bound applies to any statistic, here the number of correct answers. -/
example (I : Matrix (Fin 1) (Fin 1) ℝ) (t : Fin 1 → ℝ) (hI : information exSkipModel.probs 4 2 [] false none false [t] = .ok (.test [I])) :
    partialD (fun s => expect (answersOf exSkipModel.probs 4 2) s fun x => ∑ j, ((x j : ℕ) : ℝ)) t 0 ^ 2
      ≤ variance (answersOf exSkipModel.probs 4 2) t (fun x => ∑ j, ((x j : ℕ) : ℝ)) * I 0 0 :=
  C106_cramer_rao _ 4 2 exSkip_shape exSkip_smooth t I hI 0 _

example : ∃ I, information exSkipModel.probs 4 2 [] false none false [fun _ => 0] = .ok (.test [I]) :=
  ⟨_, (C106_twoPL exSkip exSkip_wf [] false (Or.inl rfl) [fun _ => 0]).2⟩

end Irt
