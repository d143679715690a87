import Verif.Props.ScoreOrder
import Verif.Spec.Sufficient

/-!
# C101: what the scores depend on

In the 1PL, 2PL, generalized partial credit and nominal response models the likelihood of a respondent's
answers depends on the latent scores only through weighted sums of the answers.
-/

namespace Irt

open Finset

/-- The likelihood is the exponential of the weighted sums times something that depends only on which items
were answered, up to a constant. -/
theorem LogitModel.likelihood {d : ℕ} {cats : List ℕ} {P : (Fin d → ℝ) → ℕ → ℕ → ℝ} {A : ℕ → ℕ → Fin d → ℝ} {B : ℕ → ℕ → ℝ}
    (h : LogitModel cats P A B) (row : ℕ → Cell) (hrow : ValidResponses cats row) (θ : Fin d → ℝ) :
    observedLikelihood P cats.length row θ
      = Real.exp (∑ k, answerSum (fun j r => A j r k) cats.length row * θ k) * Real.exp (answerSum B cats.length row)
        / ∏ j ∈ range cats.length, if cellMissing (row j) then 1
            else ∑ s ∈ range (cats.getD j 0), Real.exp (∑ k, A j s k * θ k + B j s) := by
  have e : ∀ j ∈ range cats.length, (if cellMissing (row j) then 1 else P θ j (responseOf (row j)))
      = Real.exp (if cellMissing (row j) then 0 else ∑ k, A j (responseOf (row j)) k * θ k + B j (responseOf (row j)))
        / (if cellMissing (row j) then 1 else ∑ s ∈ range (cats.getD j 0), Real.exp (∑ k, A j s k * θ k + B j s)) := by
    intro j hj
    obtain ⟨c, hc⟩ := getElem?_of_lt cats j (mem_range.1 hj)
    cases hm : cellMissing (row j) with
    | true => simp
    | false =>
      simp only [Bool.false_eq_true, if_false]
      rw [h θ j c _ hc (observed_lt cats row hrow j c hc hm), List.getD_eq_getElem?_getD, hc, Option.getD_some]
  rw [observedLikelihood, prod_congr rfl e, prod_div_distrib, ← Real.exp_sum, ← Real.exp_add]
  congr 2
  unfold answerSum
  rw [sum_congr rfl fun k _ => sum_mul _ _ _, sum_comm, ← sum_add_distrib]
  refine sum_congr rfl fun j _ => ?_
  cases cellMissing (row j) <;> simp

theorem LogitModel.normalizer {d : ℕ} {cats : List ℕ} (hcats : ∀ c ∈ cats, 0 < c) (A : ℕ → ℕ → Fin d → ℝ) (B : ℕ → ℕ → ℝ)
    (row : ℕ → Cell) (θ : Fin d → ℝ) : 0 < ∏ j ∈ range cats.length, if cellMissing (row j) then 1
            else ∑ s ∈ range (cats.getD j 0), Real.exp (∑ k, A j s k * θ k + B j s) := by
  refine prod_pos fun j hj => ?_
  obtain ⟨c, hc⟩ := getElem?_of_lt cats j (mem_range.1 hj)
  split
  · exact one_pos
  · rw [List.getD_eq_getElem?_getD, hc, Option.getD_some]
    exact sum_pos (fun _ _ => Real.exp_pos _) ⟨0, mem_range.2 (hcats c (List.mem_of_getElem? hc))⟩

/-- The likelihood ratio of two respondents who answered the same items. -/
theorem LogitModel.likelihood_ratio {d : ℕ} {cats : List ℕ} (hcats : ∀ c ∈ cats, 0 < c) {P : (Fin d → ℝ) → ℕ → ℕ → ℝ}
    {A : ℕ → ℕ → Fin d → ℝ} {B : ℕ → ℕ → ℝ} (h : LogitModel cats P A B) (row row' : ℕ → Cell)
    (hrow : ValidResponses cats row) (hrow' : ValidResponses cats row') (hsame : SameItems cats.length row row') :
    ∃ K, 0 < K ∧ ∀ θ, 0 < observedLikelihood P cats.length row θ ∧ observedLikelihood P cats.length row' θ
      = K * Real.exp (∑ k, (answerSum (fun j r => A j r k) cats.length row'
          - answerSum (fun j r => A j r k) cats.length row) * θ k) * observedLikelihood P cats.length row θ := by
  refine ⟨Real.exp (answerSum B cats.length row' - answerSum B cats.length row), Real.exp_pos _, fun θ => ?_⟩
  have hZ := LogitModel.normalizer hcats A B row θ
  have e : (∏ j ∈ range cats.length, if cellMissing (row' j) then 1
            else ∑ s ∈ range (cats.getD j 0), Real.exp (∑ k, A j s k * θ k + B j s))
      = ∏ j ∈ range cats.length, if cellMissing (row j) then 1
            else ∑ s ∈ range (cats.getD j 0), Real.exp (∑ k, A j s k * θ k + B j s) :=
    prod_congr rfl fun j hj => by rw [hsame j (mem_range.1 hj)]
  rw [h.likelihood row hrow, h.likelihood row' hrow', e]
  refine ⟨by positivity, ?_⟩
  rw [← mul_div_assoc]
  congr 1
  simp only [← Real.exp_add]
  congr 1
  simp only [sub_mul, sum_sub_distrib]
  ring

/-- C101, the likelihood: two respondents who answered the same items and have the same weighted sums have
proportional likelihoods, hence the same points of maximum likelihood. -/
theorem C101_likelihood {d : ℕ} {cats : List ℕ} (hcats : ∀ c ∈ cats, 0 < c) {P : (Fin d → ℝ) → ℕ → ℕ → ℝ}
    {A : ℕ → ℕ → Fin d → ℝ} {B : ℕ → ℕ → ℝ} (h : LogitModel cats P A B) (row row' : ℕ → Cell)
    (hrow : ValidResponses cats row) (hrow' : ValidResponses cats row') (hsame : SameItems cats.length row row')
    (hsum : ∀ k, answerSum (fun j r => A j r k) cats.length row = answerSum (fun j r => A j r k) cats.length row') :
    (∃ K, 0 < K ∧ ∀ θ, observedLikelihood P cats.length row' θ = K * observedLikelihood P cats.length row θ) ∧
    ∀ (prior : (Fin d → ℝ) → ℝ) θ, (∀ t, prior t * observedLikelihood P cats.length row t ≤ prior θ * observedLikelihood P cats.length row θ) ↔
      (∀ t, prior t * observedLikelihood P cats.length row' t ≤ prior θ * observedLikelihood P cats.length row' θ) := by
  obtain ⟨K, hK, hr⟩ := h.likelihood_ratio hcats row row' hrow hrow' hsame
  have hp : ∀ θ, observedLikelihood P cats.length row' θ = K * observedLikelihood P cats.length row θ := by
    intro θ
    rw [(hr θ).2]
    simp [hsum]
  refine ⟨⟨K, hK, hp⟩, fun prior θ => forall_congr' fun t => ?_⟩
  rw [hp, hp, mul_left_comm, mul_left_comm (prior θ), mul_le_mul_iff_right₀ hK]

/-- C101, the EAP scores: same items answered, same weighted sums, same scores. -/
theorem C101_eap {d : ℕ} {m : Scorer d} {cats : List ℕ} (hcats : ∀ c ∈ cats, 0 < c) {P : (Fin d → ℝ) → ℕ → ℕ → ℝ}
    (hm : IsScorer m cats P) {A : ℕ → ℕ → Fin d → ℝ} {B : ℕ → ℕ → ℝ} (h : LogitModel cats P A B)
    (a : AlgAttrs d) (hd : d ≤ 4) (points : Option ℕ) (N : ℕ) (y : ℕ → ℕ → Cell)
    (hy : ∀ i, i < N → ValidResponses cats (y i)) (grid : Thetas d) (hg : grid ≠ [])
    (cov : Matrix (Fin d) (Fin d) ℝ) (hcov : cov.PosDef)
    (hgrid : eapGrid a (points.getD (eapDefaultPoints d)) = .ok (grid, cov))
    (i i' : ℕ) (hi : i < N) (hi' : i' < N) (hsame : SameItems cats.length (y i) (y i'))
    (hsum : ∀ k, answerSum (fun j r => A j r k) cats.length (y i) = answerSum (fun j r => A j r k) cats.length (y i')) :
    ∃ s u, eapScores m a (rowsOf N cats.length y) points = .ok s ∧ s[i]? = some (some u) ∧ s[i']? = some (some u) := by
  obtain ⟨s, hs, hex⟩ := eap_exists hm a hd points N y hy grid hg cov hcov hgrid
    (fun j c r hc hr θ _ => h.pos θ j c r hc hr)
  obtain ⟨u, hu⟩ := hex i hi
  obtain ⟨v, hv⟩ := hex i' hi'
  obtain ⟨pu, eu⟩ := eap_row hm a hd points N y hy grid hg cov hcov hgrid s hs i hi u hu
  obtain ⟨pv, ev⟩ := eap_row hm a hd points N y hy grid hg cov hcov hgrid s hs i' hi' v hv
  obtain ⟨⟨K, hK, hp⟩, _⟩ := C101_likelihood hcats h (y i) (y i') (hy i hi) (hy i' hi') hsame hsum
  have : v = u := by
    funext k
    rw [ev, eu]
    have e1 : ∀ θ, Real.exp (mvnLogDensity 0 cov θ) * observedLikelihood P cats.length (y i') θ
        = K * (Real.exp (mvnLogDensity 0 cov θ) * observedLikelihood P cats.length (y i) θ) := by
      intro θ; rw [hp]; ring
    simp only [e1, mul_assoc K, List.sum_map_mul_left]
    rw [mul_div_mul_left _ _ hK.ne']
  exact ⟨s, u, hs, hu, this ▸ hv⟩

/-- C101, one latent variable: among respondents who answered the same items the order of the EAP scores is
exactly the order of the weighted sums. -/
theorem C101_ranking {m : Scorer 1} {cats : List ℕ} (hcats : ∀ c ∈ cats, 0 < c) {P : (Fin 1 → ℝ) → ℕ → ℕ → ℝ}
    (hm : IsScorer m cats P) {A : ℕ → ℕ → Fin 1 → ℝ} {B : ℕ → ℕ → ℝ} (h : LogitModel cats P A B)
    (a : AlgAttrs 1) (points : Option ℕ) (N : ℕ) (y : ℕ → ℕ → Cell)
    (hy : ∀ i, i < N → ValidResponses cats (y i)) (grid : Thetas 1)
    (hg : ∃ p ∈ grid, ∃ q ∈ grid, p 0 ≠ q 0)
    (cov : Matrix (Fin 1) (Fin 1) ℝ) (hcov : cov.PosDef)
    (hgrid : eapGrid a (points.getD (eapDefaultPoints 1)) = .ok (grid, cov))
    (i i' : ℕ) (hi : i < N) (hi' : i' < N) (hsame : SameItems cats.length (y i) (y i')) :
    ∃ s u v, eapScores m a (rowsOf N cats.length y) points = .ok s ∧ s[i]? = some (some u) ∧ s[i']? = some (some v) ∧
      (u 0 < v 0 ↔ answerSum (fun j r => A j r 0) cats.length (y i) < answerSum (fun j r => A j r 0) cats.length (y i')) := by
  have hne : grid ≠ [] := by obtain ⟨p, hp, _⟩ := hg; exact List.ne_nil_of_mem hp
  obtain ⟨s, hs, hex⟩ := eap_exists hm a (by norm_num) points N y hy grid hne cov hcov hgrid
    (fun j c r hc hr θ _ => h.pos θ j c r hc hr)
  obtain ⟨u, hu⟩ := hex i hi
  obtain ⟨v, hv⟩ := hex i' hi'
  have order : ∀ (i i' : ℕ) (u v : Fin 1 → ℝ), i < N → i' < N → SameItems cats.length (y i) (y i') → s[i]? = some (some u) → s[i']? = some (some v) →
      (answerSum (fun j r => A j r 0) cats.length (y i) ≤ answerSum (fun j r => A j r 0) cats.length (y i') → u 0 ≤ v 0) ∧
      (answerSum (fun j r => A j r 0) cats.length (y i) < answerSum (fun j r => A j r 0) cats.length (y i') → u 0 < v 0) := by
    intro i i' u v hi hi' hsame hu hv
    obtain ⟨pu, eu⟩ := eap_row hm a (by norm_num) points N y hy grid hne cov hcov hgrid s hs i hi u hu
    obtain ⟨pv, ev⟩ := eap_row hm a (by norm_num) points N y hy grid hne cov hcov hgrid s hs i' hi' v hv
    obtain ⟨K, hK, hr⟩ := h.likelihood_ratio hcats (y i) (y i') (hy i hi) (hy i' hi') hsame
    rw [eu, ev]
    have hr' : ∀ θ : Fin 1 → ℝ, observedLikelihood P cats.length (y i') θ
        = K * Real.exp ((answerSum (fun j r => A j r 0) cats.length (y i')
          - answerSum (fun j r => A j r 0) cats.length (y i)) * θ 0) * observedLikelihood P cats.length (y i) θ := by
      intro θ; rw [(hr θ).2]; simp
    have cross : ∀ p q : Fin 1 → ℝ, ∃ C, 0 < C ∧
        Real.exp (mvnLogDensity 0 cov q) * observedLikelihood P cats.length (y i) q *
          (Real.exp (mvnLogDensity 0 cov p) * observedLikelihood P cats.length (y i') p)
        = C * Real.exp ((answerSum (fun j r => A j r 0) cats.length (y i')
          - answerSum (fun j r => A j r 0) cats.length (y i)) * p 0) ∧
        Real.exp (mvnLogDensity 0 cov p) * observedLikelihood P cats.length (y i) p *
          (Real.exp (mvnLogDensity 0 cov q) * observedLikelihood P cats.length (y i') q)
        = C * Real.exp ((answerSum (fun j r => A j r 0) cats.length (y i')
          - answerSum (fun j r => A j r 0) cats.length (y i)) * q 0) := by
      intro p q
      have h1 := (hr p).1
      have h2 := (hr q).1
      refine ⟨Real.exp (mvnLogDensity 0 cov q) * observedLikelihood P cats.length (y i) q *
          (Real.exp (mvnLogDensity 0 cov p) * observedLikelihood P cats.length (y i) p) * K, by positivity, ?_, ?_⟩
      · rw [hr' p]; ring
      · rw [hr' q]; ring
    constructor
    · intro hle
      refine (weighted_mean_le grid (fun θ => θ 0) _ _ pu pv fun p _ q _ hpq => ?_).1
      obtain ⟨C, hC, e1, e2⟩ := cross p q
      rw [e1, e2]
      exact mul_le_mul_of_nonneg_left (Real.exp_le_exp.2 (mul_le_mul_of_nonneg_left hpq (sub_nonneg.2 hle))) hC.le
    · intro hlt
      refine (weighted_mean_le grid (fun θ => θ 0) _ _ pu pv fun p _ q _ hpq => ?_).2 ?_
      · obtain ⟨C, hC, e1, e2⟩ := cross p q
        rw [e1, e2]
        exact mul_le_mul_of_nonneg_left (Real.exp_le_exp.2 (mul_le_mul_of_nonneg_left hpq (sub_nonneg.2 hlt.le))) hC.le
      · have strict : ∀ p q : Fin 1 → ℝ, p 0 < q 0 →
          Real.exp (mvnLogDensity 0 cov q) * observedLikelihood P cats.length (y i) q *
            (Real.exp (mvnLogDensity 0 cov p) * observedLikelihood P cats.length (y i') p)
          < Real.exp (mvnLogDensity 0 cov p) * observedLikelihood P cats.length (y i) p *
            (Real.exp (mvnLogDensity 0 cov q) * observedLikelihood P cats.length (y i') q) := by
          intro p q hpq
          obtain ⟨C, hC, e1, e2⟩ := cross p q
          rw [e1, e2]
          exact mul_lt_mul_of_pos_left (Real.exp_lt_exp.2 (mul_lt_mul_of_pos_left hpq (sub_pos.2 hlt))) hC
        obtain ⟨p, hp, q, hq, hpq⟩ := hg
        rcases lt_or_gt_of_ne hpq with hh | hh
        · exact ⟨p, hp, q, hq, hh, strict p q hh⟩
        · exact ⟨q, hq, p, hp, hh, strict q p hh⟩
  refine ⟨s, u, v, hs, hu, hv, fun hlt => ?_, (order i i' u v hi hi' hsame hu hv).2⟩
  by_contra hn
  have := (order i' i v u hi' hi (fun j hj => (hsame j hj).symm) hv hu).1 (not_lt.1 hn)
  linarith

/-! ## The models -/

/-- C101 for the 1PL model: the number of correct answers decides the score. -/
theorem C101_onePL (m : OnePL) (hwf : m.WF) (hne : 0 < m.items)
    (a : AlgAttrs 1) (points : Option ℕ) (N : ℕ) (y : ℕ → ℕ → Cell)
    (hy : ∀ i, i < N → ValidResponses (List.replicate m.items 2) (y i)) (grid : Thetas 1)
    (hg : ∃ p ∈ grid, ∃ q ∈ grid, p 0 ≠ q 0)
    (cov : Matrix (Fin 1) (Fin 1) ℝ) (hcov : cov.PosDef)
    (hgrid : eapGrid a (points.getD (eapDefaultPoints 1)) = .ok (grid, cov))
    (i i' : ℕ) (hi : i < N) (hi' : i' < N) (hsame : SameItems m.items (y i) (y i')) :
    ∃ s u v, eapScores m.scorer a (rowsOf N m.items y) points = .ok s ∧ s[i]? = some (some u) ∧ s[i']? = some (some v) ∧
      (u 0 < v 0 ↔ sumScore m.items (y i) < sumScore m.items (y i')) := by
  have := C101_ranking (replicate_pos _) (m.isScorer hwf hne) (m.logitModel hwf) a points N y hy grid hg cov hcov hgrid i i' hi hi'
    (by rwa [List.length_replicate])
  simp only [List.length_replicate] at this
  exact this

/-- C101 for the 2PL model with one latent variable: the sum of the slopes of the items answered correctly
decides the score. -/
theorem C101_twoPL (m : TwoPL) (hwf : m.WF) (hne : 0 < m.items)
    (a : AlgAttrs 1) (points : Option ℕ) (N : ℕ) (y : ℕ → ℕ → Cell)
    (hy : ∀ i, i < N → ValidResponses (List.replicate m.items 2) (y i)) (grid : Thetas 1)
    (hg : ∃ p ∈ grid, ∃ q ∈ grid, p 0 ≠ q 0)
    (cov : Matrix (Fin 1) (Fin 1) ℝ) (hcov : cov.PosDef)
    (hgrid : eapGrid a (points.getD (eapDefaultPoints 1)) = .ok (grid, cov))
    (i i' : ℕ) (hi : i < N) (hi' : i' < N) (hsame : SameItems m.items (y i) (y i')) :
    ∃ s u v, eapScores (m.scorer 1) a (rowsOf N m.items y) points = .ok s ∧ s[i]? = some (some u) ∧ s[i']? = some (some v) ∧
      (u 0 < v 0 ↔ answerSum (fun j r => r * slopeOf m.itemParameters j 0) m.items (y i)
        < answerSum (fun j r => r * slopeOf m.itemParameters j 0) m.items (y i')) := by
  have := C101_ranking (replicate_pos _) (m.isScorer hwf hne 1) (m.logitModel hwf 1) a points N y hy grid hg cov hcov hgrid i i' hi hi'
    (by rwa [List.length_replicate])
  simp only [List.length_replicate] at this
  exact this

/-- C101 for the generalized partial credit model with one latent variable. -/
theorem C101_gpc (m : GPC) (hwf : m.WF) (hne : m.cats ≠ [])
    (a : AlgAttrs 1) (points : Option ℕ) (N : ℕ) (y : ℕ → ℕ → Cell)
    (hy : ∀ i, i < N → ValidResponses m.cats (y i)) (grid : Thetas 1)
    (hg : ∃ p ∈ grid, ∃ q ∈ grid, p 0 ≠ q 0)
    (cov : Matrix (Fin 1) (Fin 1) ℝ) (hcov : cov.PosDef)
    (hgrid : eapGrid a (points.getD (eapDefaultPoints 1)) = .ok (grid, cov))
    (i i' : ℕ) (hi : i < N) (hi' : i' < N) (hsame : SameItems m.cats.length (y i) (y i')) :
    ∃ s u v, eapScores (m.scorer 1) a (rowsOf N m.cats.length y) points = .ok s ∧ s[i]? = some (some u) ∧ s[i']? = some (some v) ∧
      (u 0 < v 0 ↔ answerSum (fun j r => r * slopeOf m.itemParameters j 0) m.cats.length (y i)
        < answerSum (fun j r => r * slopeOf m.itemParameters j 0) m.cats.length (y i')) :=
  C101_ranking hwf.catsPos (m.isScorer hwf hne 1) (m.logitModel hwf 1) a points N y hy grid hg cov hcov hgrid i i' hi hi' hsame

/-- C101 for the nominal response model with one latent variable. -/
theorem C101_nrm (m : NRM) (hwf : m.WF) (hne : m.cats ≠ [])
    (a : AlgAttrs 1) (points : Option ℕ) (N : ℕ) (y : ℕ → ℕ → Cell)
    (hy : ∀ i, i < N → ValidResponses m.cats (y i)) (grid : Thetas 1)
    (hg : ∃ p ∈ grid, ∃ q ∈ grid, p 0 ≠ q 0)
    (cov : Matrix (Fin 1) (Fin 1) ℝ) (hcov : cov.PosDef)
    (hgrid : eapGrid a (points.getD (eapDefaultPoints 1)) = .ok (grid, cov))
    (i i' : ℕ) (hi : i < N) (hi' : i' < N) (hsame : SameItems m.cats.length (y i) (y i')) :
    ∃ s u v, eapScores (m.scorer 1) a (rowsOf N m.cats.length y) points = .ok s ∧ s[i]? = some (some u) ∧ s[i']? = some (some v) ∧
      (u 0 < v 0 ↔ answerSum (fun j r => categorySlopeOf m.itemParameters j r 0) m.cats.length (y i)
        < answerSum (fun j r => categorySlopeOf m.itemParameters j r 0) m.cats.length (y i')) :=
  C101_ranking hwf.catsPos (m.isScorer hwf hne 1) (m.logitModel 1) a points N y hy grid hg cov hcov hgrid i i' hi hi' hsame

/-! ## Non-vacuity -/

/-- Respondent 0 passes the first item only, respondent 1 the second only, respondent 2 both. -/
def exThreePatterns : ℕ → ℕ → Cell := fun i j => if i = 2 ∨ i = j then some 1 else some 0

theorem exThreePatterns_valid (n i : ℕ) : ValidResponses (List.replicate n 2) (exThreePatterns i) := by
  intro j c hc _
  obtain ⟨_, rfl⟩ := replicate_getElem? _ _ _ _ hc
  unfold exThreePatterns
  split
  · exact ⟨1, rfl, by norm_num⟩
  · exact ⟨0, rfl, by norm_num⟩

theorem exThreePatterns_same (n i i' : ℕ) : SameItems n (exThreePatterns i) (exThreePatterns i') := by
  intro j _
  unfold exThreePatterns
  split <;> split <;> rfl

example : ∃ s u v, eapScores exOnePL.scorer {} (rowsOf 3 exOnePL.items exThreePatterns) (some 2) = .ok s ∧
    s[0]? = some (some u) ∧ s[2]? = some (some v) ∧ u 0 < v 0 := by
  obtain ⟨s, u, v, h1, h2, h3, h4⟩ := C101_onePL exOnePL exOnePL_wf (by simp [exOnePL]) {} (some 2) 3 exThreePatterns
    (fun i _ => exThreePatterns_valid _ i) _ ⟨_, two_points.1, _, two_points.2, by norm_num⟩ 1 Matrix.PosDef.one (grid_one 2) 0 2
    (by norm_num) (by norm_num) (exThreePatterns_same _ _ _)
  refine ⟨s, u, v, h1, h2, h3, h4.2 ?_⟩
  simp [sumScore, answerSum, exOnePL, sum_range_succ, exThreePatterns, cellMissing, responseOf]

example : ∃ s u, eapScores exOnePL.scorer {} (rowsOf 3 (List.replicate exOnePL.items 2).length exThreePatterns) (some 2) = .ok s ∧
    s[0]? = some (some u) ∧ s[1]? = some (some u) :=
  C101_eap (replicate_pos _) (exOnePL.isScorer exOnePL_wf (by simp [exOnePL])) (exOnePL.logitModel exOnePL_wf) {} (by norm_num)
    (some 2) 3 exThreePatterns (fun i _ => exThreePatterns_valid _ i) _ (List.ne_nil_of_mem two_points.1) 1 Matrix.PosDef.one
    (grid_one 2) 0 1 (by norm_num) (by norm_num) (exThreePatterns_same _ _ _) (by
      intro k
      simp [answerSum, exOnePL, sum_range_succ, exThreePatterns, cellMissing, responseOf])

/-! ## 3PL -/

/-- The claim of C101 for the 3PL model: same items, same slopes of the items answered correctly, same
score. -/
def ThreePLSumDecides : Prop :=
  ∀ (m : ThreePL), m.WF → 0 < m.items → ∀ (points : Option ℕ) (N : ℕ) (y : ℕ → ℕ → Cell),
    (∀ i, i < N → ValidResponses (List.replicate m.items 2) (y i)) → ∀ i i', i < N → i' < N →
    SameItems m.items (y i) (y i') →
    answerSum (fun j r => r * slopeOf m.itemParameters j 0) m.items (y i)
      = answerSum (fun j r => r * slopeOf m.itemParameters j 0) m.items (y i') →
    ∀ s, eapScores (m.scorer 1) {} (rowsOf N m.items y) points = .ok s → s[i]? = s[i']?

/-- Two equally hard items with equal slopes; the first is easier to guess. -/
noncomputable def exTwoGuess : ThreePL := ⟨2, 1, [[true], [true]], [1, 1], [0, 0], [0, -1]⟩

theorem exTwoGuess_wf : exTwoGuess.WF where
  relLen := rfl
  relRow := by simp [exTwoGuess]
  weightLen := by simp [exTwoGuess, countTrue]
  biasLen := rfl
  guessLen := rfl

theorem exTwoGuess_parameters : exTwoGuess.itemParameters = [([1], 0, sigmoid 0), ([1], 0, sigmoid (-1))] := by
  simp [ThreePL.itemParameters, ThreePL.weights, exTwoGuess, viewRows, scatterMask, List.range_succ]

/-- C101 does not hold for the 3PL model: of two correct answers to equally discriminating items the one
that is harder to guess counts for more. -/
theorem C101_threePL_false : ¬ ThreePLSumDecides := by
  intro claim
  have hsc := exTwoGuess.isScorer exTwoGuess_wf (by norm_num [exTwoGuess]) 1
  have hgrid : eapGrid ({} : AlgAttrs 1) ((some 2 : Option ℕ).getD (eapDefaultPoints 1))
      = .ok (cartesianProd fun _ => linspace (-3) 3 2, 1) := rfl
  have hne := List.ne_nil_of_mem two_points.1
  obtain ⟨s, hs, hex⟩ := eap_exists hsc {} (by norm_num) (some 2) 2 exThreePatterns (fun i _ => exThreePatterns_valid _ i) _
    hne 1 Matrix.PosDef.one hgrid (fun j c r hc hr θ _ => by
      obtain ⟨hj, rfl⟩ := replicate_getElem? _ _ _ _ hc
      exact (exTwoGuess.ranked exTwoGuess_wf j hj).2.2 θ r hr)
  obtain ⟨u, hu⟩ := hex 0 (by norm_num)
  obtain ⟨v, hv⟩ := hex 1 (by norm_num)
  have heq := claim exTwoGuess exTwoGuess_wf (by norm_num [exTwoGuess]) (some 2) 2 exThreePatterns
    (fun i _ => exThreePatterns_valid _ i) 0 1 (by norm_num) (by norm_num) (exThreePatterns_same _ _ _) (by
      rw [show exTwoGuess.items = 2 from rfl]
      simp [answerSum, sum_range_succ, exThreePatterns, cellMissing, responseOf, slopeOf, exTwoGuess_parameters]) s
    (by rw [List.length_replicate] at hs; exact hs)
  rw [hu, hv] at heq
  have huv : u = v := Option.some.inj (Option.some.inj heq)
  obtain ⟨pu, eu⟩ := eap_row hsc {} (by norm_num) (some 2) 2 exThreePatterns (fun i _ => exThreePatterns_valid _ i) _
    hne 1 Matrix.PosDef.one hgrid s hs 0 (by norm_num) u hu
  obtain ⟨pv, ev⟩ := eap_row hsc {} (by norm_num) (some 2) 2 exThreePatterns (fun i _ => exThreePatterns_valid _ i) _
    hne 1 Matrix.PosDef.one hgrid s hs 1 (by norm_num) v hv
  have r0 : ∀ θ : Fin 1 → ℝ, (exTwoGuess.probs (List.ofFn θ))[0]? = some [1 - (sigmoid 0 + (1 - sigmoid 0) * logistic (θ 0)),
      sigmoid 0 + (1 - sigmoid 0) * logistic (θ 0)] := by
    intro θ
    have := C03_threePL_formula exTwoGuess (List.ofFn θ) 0 [1] 0 (sigmoid 0) (by simp [exTwoGuess_parameters])
    rw [this, dot_ofFn]; simp
  have r1 : ∀ θ : Fin 1 → ℝ, (exTwoGuess.probs (List.ofFn θ))[1]? = some [1 - (sigmoid (-1) + (1 - sigmoid (-1)) * logistic (θ 0)),
      sigmoid (-1) + (1 - sigmoid (-1)) * logistic (θ 0)] := by
    intro θ
    have := C03_threePL_formula exTwoGuess (List.ofFn θ) 1 [1] 0 (sigmoid (-1)) (by simp [exTwoGuess_parameters])
    rw [this, dot_ofFn]; simp
  have hc := sigmoid_strictMono (show (-1 : ℝ) < 0 by norm_num)
  have hc1 := sigmoid_pos (-1)
  have hc0 := sigmoid_lt_one 0
  generalize sigmoid 0 = g at *
  generalize sigmoid (-1) = h at *
  have l0 : ∀ θ : Fin 1 → ℝ, observedLikelihood (fun θ => tableProb (exTwoGuess.probs (List.ofFn θ)))
      (List.replicate exTwoGuess.items 2).length (exThreePatterns 0) θ
      = (g + (1 - g) * logistic (θ 0)) * (1 - (h + (1 - h) * logistic (θ 0))) := by
    intro θ
    rw [List.length_replicate, show exTwoGuess.items = 2 from rfl, observedLikelihood, prod_range_succ, prod_range_one]
    have e0 := tableProb_row _ _ 1 _ (r0 θ)
    have e1 := tableProb_row _ _ 0 _ (r1 θ)
    simp only [List.getD_cons_zero, List.getD_cons_succ] at e0 e1
    rw [← e0, ← e1]
    simp [exThreePatterns, cellMissing, responseOf]
  have l1 : ∀ θ : Fin 1 → ℝ, observedLikelihood (fun θ => tableProb (exTwoGuess.probs (List.ofFn θ)))
      (List.replicate exTwoGuess.items 2).length (exThreePatterns 1) θ
      = (1 - (g + (1 - g) * logistic (θ 0))) * (h + (1 - h) * logistic (θ 0)) := by
    intro θ
    rw [List.length_replicate, show exTwoGuess.items = 2 from rfl, observedLikelihood, prod_range_succ, prod_range_one]
    have e0 := tableProb_row _ _ 0 _ (r0 θ)
    have e1 := tableProb_row _ _ 1 _ (r1 θ)
    simp only [List.getD_cons_zero, List.getD_cons_succ] at e0 e1
    rw [← e0, ← e1]
    simp [exThreePatterns, cellMissing, responseOf]
  have core : ∀ x z : ℝ, x < 1 → z < 1 →
      (g + (1 - g) * x) * (1 - (h + (1 - h) * x)) * ((1 - (g + (1 - g) * z)) * (h + (1 - h) * z))
        - (g + (1 - g) * z) * (1 - (h + (1 - h) * z)) * ((1 - (g + (1 - g) * x)) * (h + (1 - h) * x))
      = (1 - g) * (1 - h) * ((1 - x) * (1 - z)) * ((z - x) * (g - h)) := by
    intro x z _ _; ring
  have hpos : 0 < (1 - g) * (1 - h) := mul_pos (by linarith) (by linarith)
  have lt := (weighted_mean_le _ (fun θ : Fin 1 → ℝ => θ 0) _ _ pu pv (by
    intro p _ q _ hpq
    rw [l0, l0, l1, l1]
    have := core (logistic (p 0)) (logistic (q 0)) (logistic_lt_one _) (logistic_lt_one _)
    have hge : 0 ≤ (1 - g) * (1 - h) * ((1 - logistic (p 0)) * (1 - logistic (q 0))) * ((logistic (q 0) - logistic (p 0)) * (g - h)) := by
      have h1 := logistic_lt_one (p 0)
      have h2 := logistic_lt_one (q 0)
      have h3 := logistic_strictMono.monotone hpq
      exact mul_nonneg (mul_nonneg hpos.le (mul_nonneg (by linarith) (by linarith))) (mul_nonneg (by linarith) (by linarith))
    rw [← this] at hge
    have h1 := Real.exp_pos (mvnLogDensity 0 (1 : Matrix (Fin 1) (Fin 1) ℝ) p)
    have h2 := Real.exp_pos (mvnLogDensity 0 (1 : Matrix (Fin 1) (Fin 1) ℝ) q)
    have := mul_nonneg (mul_pos h1 h2).le hge
    linarith)).2 ⟨_, two_points.1, _, two_points.2, by norm_num, by
    rw [l0, l0, l1, l1]
    have := core (logistic (-3)) (logistic 3) (logistic_lt_one _) (logistic_lt_one _)
    have hgt : 0 < (1 - g) * (1 - h) * ((1 - logistic (-3)) * (1 - logistic 3)) * ((logistic 3 - logistic (-3)) * (g - h)) := by
      have h1 := logistic_lt_one (-3)
      have h2 := logistic_lt_one 3
      have h3 := logistic_strictMono (show (-3 : ℝ) < 3 by norm_num)
      exact mul_pos (mul_pos hpos (mul_pos (by linarith) (by linarith))) (mul_pos (by linarith) (by linarith))
    rw [← this] at hgt
    have h1 := Real.exp_pos (mvnLogDensity 0 (1 : Matrix (Fin 1) (Fin 1) ℝ) fun _ => -3)
    have h2 := Real.exp_pos (mvnLogDensity 0 (1 : Matrix (Fin 1) (Fin 1) ℝ) fun _ => 3)
    have := mul_pos (mul_pos h1 h2) hgt
    linarith⟩
  rw [← eu 0, ← ev 0, huv] at lt
  exact lt_irrefl _ lt

end Irt
