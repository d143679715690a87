import Verif.Props.QuadratureLimit
import Verif.Spec.NormalPopulation

/-! # C151: with many respondents from a normal population and enough points marginal maximum likelihood finds the truth -/

namespace Irt
open Spec MeasureTheory Filter Topology

/-! ## The distribution of the answers in a normal population -/

section Normal

variable {d : ℕ} {cats : List ℕ} {P : (Fin d → ℝ) → ℕ → ℕ → ℝ} {C : Matrix (Fin d) (Fin d) ℝ}

theorem normalProb_marginal {K : ℕ} (x : Fin K → ℕ) : normalProb P C x = marginalLikelihood P K C (answersToAll x) := by
  unfold normalProb marginalLikelihood
  simp only [observedLikelihood_all]

theorem answerProb_unit {K : ℕ} (h0 : ∀ θ j r, 0 ≤ P θ j r) (h1 : ∀ θ j r, P θ j r ≤ 1) (θ : Fin d → ℝ) (x : Fin K → ℕ) :
    0 ≤ answerProb P θ x ∧ answerProb P θ x ≤ 1 :=
  ⟨Finset.prod_nonneg fun _ _ => h0 _ _ _, Finset.prod_le_one (fun _ _ => h0 _ _ _) fun _ _ => h1 _ _ _⟩

theorem normalProb_pos (hpos : PositiveProbs P cats) (hcont : ContinuousProbs P) (h0 : ∀ θ j r, 0 ≤ P θ j r) (h1 : ∀ θ j r, P θ j r ≤ 1)
    (hC : C.PosDef) {x : Fin cats.length → ℕ} (hx : x ∈ fullAnswers cats) : 0 < normalProb P C x := by
  rw [normalProb_marginal]
  exact marginalLikelihood_pos hpos hcont h0 h1 hC _ (answersToAll_valid hx)

/-- An expectation over the answers of a respondent from the population. -/
theorem normalProb_sum_mul (hcont : ContinuousProbs P) (h0 : ∀ θ j r, 0 ≤ P θ j r) (h1 : ∀ θ j r, P θ j r ≤ 1) (hC : C.PosDef)
    (F : (Fin cats.length → ℕ) → ℝ) :
    ∑ x ∈ fullAnswers cats, normalProb P C x * F x
      = ∫ θ, Real.exp (mvnLogDensity 0 C θ) * ∑ x ∈ fullAnswers cats, answerProb P θ x * F x := by
  have hi : ∀ x : Fin cats.length → ℕ, Integrable fun θ => Real.exp (mvnLogDensity 0 C θ) * answerProb P θ x := fun x =>
    integrable_mvn_mul hC _ (continuous_finsetProd _ fun j _ => hcont _ _) fun θ => by
      obtain ⟨g0, g1⟩ := answerProb_unit h0 h1 θ x
      exact abs_le.2 ⟨by linarith, g1⟩
  simp only [Finset.mul_sum, ← mul_assoc]
  rw [integral_finsetSum _ fun x _ => (hi x).mul_const _]
  exact Finset.sum_congr rfl fun x _ => (integral_mul_const _ _).symm

theorem normalProb_sum (hP : ProperProbs P cats) (hcont : ContinuousProbs P) (h0 : ∀ θ j r, 0 ≤ P θ j r) (h1 : ∀ θ j r, P θ j r ≤ 1)
    (hC : C.PosDef) : ∑ x ∈ fullAnswers cats, normalProb P C x = 1 := by
  have := normalProb_sum_mul (cats := cats) hcont h0 h1 hC fun _ => 1
  simp only [mul_one, answerProb_sum hP] at this
  rw [this, integral_mvn 0 C hC]

end Normal

/-! ## A fit with an integration rule, a truth of any kind -/

section Truth

open Finset

variable {d : ℕ} {m : Scorer d} {cats : List ℕ} {P : (Fin d → ℝ) → ℕ → ℕ → ℝ} (hm : IsScorer m cats P) (hpos : PositiveProbs P cats)
  {p : (Fin cats.length → ℕ) → ℝ} (hp : ∀ x ∈ fullAnswers cats, 0 < p x) (hps : ∑ x ∈ fullAnswers cats, p x = 1)
  (pts : Thetas d) (lw : List ℝ) (hlen : lw.length = pts.length) (hne : pts ≠ []) (δ : ℝ)
  (hδ : ∀ x ∈ fullAnswers cats, Real.log (p x) ≤ Real.log (populationProb P pts (lw.map Real.exp) x) + δ)

include hm hpos hp hps hlen hne hδ in
/-- C151: a model that fits a sample at least as well as a model whose distribution of answers, computed with the integration rule, is
near the truth. -/
theorem C151_sample {m' : Scorer d} {P' : (Fin d → ℝ) → ℕ → ℕ → ℝ} (hm' : IsScorer m' cats P') (hpos' : PositiveProbs P' cats)
    (hP' : ProperProbs P' cats) {N : ℕ} (hN : 0 < N) {s : Fin N → Fin cats.length → ℕ} (hs : s ∈ samples N cats) {L L' : ℝ}
    (hL : mmlLoss m (rowsOf N cats.length (sampleCells s)) pts lw = .ok (some L))
    (hL' : mmlLoss m' (rowsOf N cats.length (sampleCells s)) pts lw = .ok (some L')) (hbetter : L' ≤ L) :
    patternDistance cats (populationProb P' pts (lw.map Real.exp)) p ^ 2
      ≤ 16 * ∑ x ∈ fullAnswers cats, (sampleShare s x - p x) ^ 2 / p x + 8 * δ := by
  have hN' : (0:ℝ) < N := by exact_mod_cast hN
  have hshare : ∑ x ∈ fullAnswers cats, sampleShare s x = 1 := by
    have := sampleShare_sum hN hs fun _ => 1
    simp only [mul_one] at this
    rw [this]
    simp [hN'.ne']
  have hnn : ∀ x ∈ fullAnswers cats, 0 ≤ sampleShare s x := fun x _ => by unfold sampleShare; positivity
  refine distance_of_nearly_better (fullAnswers cats) (sampleShare s) p (populationProb P' pts (lw.map Real.exp)) hnn hp
    (fun x hx => populationProb_pos hm' hpos' pts lw hlen hne hx) hshare hps (populationProb_sum pts lw hlen hne hP') δ ?_
  have h1 : ∑ x ∈ fullAnswers cats, sampleShare s x * Real.log (p x)
      ≤ ∑ x ∈ fullAnswers cats, sampleShare s x * Real.log (populationProb P pts (lw.map Real.exp) x) + δ := by
    refine (sum_le_sum fun x hx => mul_le_mul_of_nonneg_left (hδ x hx) (hnn x hx)).trans_eq ?_
    simp only [mul_add, sum_add_distrib, ← sum_mul, hshare, one_mul]
  refine h1.trans (add_le_add ?_ le_rfl)
  rw [sample_loss hm hpos pts lw hlen hne hs] at hL
  rw [sample_loss hm' hpos' pts lw hlen hne hs] at hL'
  have g1 := Option.some.inj (Except.ok.inj hL)
  have g2 := Option.some.inj (Except.ok.inj hL')
  rw [sampleShare_sum hN hs fun x => Real.log (populationProb P pts (lw.map Real.exp) x),
    sampleShare_sum hN hs fun x => Real.log (populationProb P' pts (lw.map Real.exp) x)]
  refine div_le_div_of_nonneg_right ?_ hN'.le
  linarith

include hm hpos hp hps hlen hne hδ in
/-- C151: the probability of a sample whose fit is further than `ε` from the truth. -/
theorem C151_probability {N : ℕ} (hN : 0 < N) {fit : (Fin N → Fin cats.length → ℕ) → Scorer d}
    {P' : (Fin N → Fin cats.length → ℕ) → (Fin d → ℝ) → ℕ → ℕ → ℝ}
    (hfit : ∀ s ∈ samples N cats, IsScorer (fit s) cats (P' s) ∧ PositiveProbs (P' s) cats ∧ ProperProbs (P' s) cats ∧
      ∃ L L' : ℝ, mmlLoss m (rowsOf N cats.length (sampleCells s)) pts lw = .ok (some L) ∧
        mmlLoss (fit s) (rowsOf N cats.length (sampleCells s)) pts lw = .ok (some L') ∧ L' ≤ L)
    (ε : ℝ) (hε : 0 < ε) (hδε : 16 * δ ≤ ε ^ 2) (far : Finset (Fin N → Fin cats.length → ℕ)) (hfar : far ⊆ samples N cats)
    (hdist : ∀ s ∈ far, ε ≤ patternDistance cats (populationProb (P' s) pts (lw.map Real.exp)) p) :
    ∑ s ∈ far, sampleProb p s ≤ 32 * ((fullAnswers cats).card - 1) / N / ε ^ 2 := by
  have hnn : ∀ s ∈ samples N cats, 0 ≤ sampleProb p s := fun s hs => prod_nonneg fun i _ => (hp _ (Fintype.mem_piFinset.1 hs i)).le
  have hchi : ∀ s : Fin N → Fin cats.length → ℕ, 0 ≤ ∑ x ∈ fullAnswers cats, (sampleShare s x - p x) ^ 2 / p x := fun s =>
    sum_nonneg fun x hx => div_nonneg (sq_nonneg _) (hp x hx).le
  rw [le_div_iff₀ (by positivity), sum_mul, mul_div_assoc, ← average_chi hN hp hps]
  unfold averageOverSamples
  rw [mul_sum]
  refine (sum_le_sum fun s hs => ?_).trans (sum_le_sum_of_subset_of_nonneg hfar fun s hs _ =>
    mul_nonneg (by norm_num) (mul_nonneg (hnn s hs) (hchi s)))
  obtain ⟨h1, h2, h3, L, L', hL, hL', hb⟩ := hfit s (hfar hs)
  have h4 := C151_sample hm hpos hp hps pts lw hlen hne δ hδ h1 h2 h3 hN (hfar hs) hL hL' hb
  have h5 := pow_le_pow_left₀ hε.le (hdist s hs) 2
  rw [mul_left_comm]
  exact mul_le_mul_of_nonneg_left (by linarith) (hnn s (hfar hs))

end Truth

/-! ## The rules of `gauss_hermite` -/

section Rules

variable {d : ℕ} {hg : ℕ → Except PyErr (List ℝ × List ℝ)}
  {ch : Matrix (Fin d) (Fin d) ℝ → Except PyErr (Matrix (Fin d) (Fin d) ℝ)} (cov : Option CovArg) {C L : Matrix (Fin d) (Fin d) ℝ}
  (hC : cov = none ∧ C = 1 ∨ ∃ c, cov = some c ∧ c.rows = d ∧ c.cols = d ∧ C = Matrix.of fun i j : Fin d => c.entry i j)
  (hL : ch C = .ok L)

include hC hL in
theorem integration_rule {n : ℕ} (hn : 1 ≤ n) {x w : List ℝ} (hx : hg n = .ok (x, w)) (hexact : HermiteExact n x w) :
    ∃ pts lw, mmlIntegration hg ch "gauss_hermite" (some n) cov = .ok (pts, lw) ∧ lw.length = pts.length ∧ pts ≠ [] ∧
      ∀ f : (Fin d → ℝ) → ℝ, weighted pts (lw.map Real.exp) f = nodeSum x w fun u => f fun k => Real.sqrt 2 * (L.mulVec u) k + (0 : Fin d → ℝ) k := by
  have hok := gaussHermite_ok (n := n) (0 : Fin d → ℝ) hx hL
  set pts : Thetas d := (gridProduct x d).map fun v => fun i => Real.sqrt 2 * (L.mulVec v) i + (0 : Fin d → ℝ) i with hpts
  set wts : List ℝ := ((gridProduct w d).map fun v => ∏ i, v i).map fun v => v * Real.pi ^ (-(1 / 2 : ℝ) * d) with hwts
  have hwpos : ∀ v ∈ wts, 0 < v := by
    intro v hv
    simp only [hwts, List.map_map, List.mem_map, Function.comp] at hv
    obtain ⟨u, hu, rfl⟩ := hv
    exact mul_pos (gridProduct_pos w (exact_positive hexact) d u hu) (Real.rpow_pos_of_pos Real.pi_pos _)
  have hexp : (wts.map Real.log).map Real.exp = wts := by
    rw [List.map_map]
    conv_rhs => rw [← List.map_id wts]
    exact List.map_congr_left fun v hv => Real.exp_log (hwpos v hv)
  have hplen : pts.length = n ^ d := by rw [hpts, List.length_map, length_gridProduct, hexact.1]
  have hwlen : wts.length = n ^ d := by rw [hwts, List.length_map, List.length_map, length_gridProduct, hexact.2.1]
  refine ⟨pts, wts.map Real.log, ?_, by rw [List.length_map, hplen, hwlen], fun h => ?_, fun f => ?_⟩
  · have hc' : mmlCovariance d cov = .ok C := by
      unfold mmlCovariance
      rcases hC with ⟨rfl, rfl⟩ | ⟨c, rfl, hr, hcl, rfl⟩
      · rfl
      · simp [hr, hcl]
    unfold mmlIntegration
    rw [hc']
    simp only [if_true, mmlPoints]
    show (gaussHermite hg ch n 0 C >>= _) = _
    rw [hok]
    rfl
  · rw [h, List.length_nil] at hplen
    exact (Nat.pow_pos hn).ne hplen
  · rw [hexp, gaussHermite_weighted hx hL hok]

end Rules

section Family

variable {A : Type*} [TopologicalSpace A] {d : ℕ} {cats : List ℕ} (m : A → Scorer d) (P : A → (Fin d → ℝ) → ℕ → ℕ → ℝ)
  (hm : ∀ a, IsScorer (m a) cats (P a)) (hpos : ∀ a, PositiveProbs (P a) cats) (hP : ∀ a, ProperProbs (P a) cats)
  (hcont : ∀ j r, Continuous fun p : A × (Fin d → ℝ) => P p.1 p.2 j r) (hle : ∀ a θ j r, P a θ j r ≤ 1)
  {hg : ℕ → Except PyErr (List ℝ × List ℝ)} (hrules : ExactRules hg)
  {ch : Matrix (Fin d) (Fin d) ℝ → Except PyErr (Matrix (Fin d) (Fin d) ℝ)} (cov : Option CovArg)
  {C L : Matrix (Fin d) (Fin d) ℝ}
  (hC : cov = none ∧ C = 1 ∨ ∃ c, cov = some c ∧ c.rows = d ∧ c.cols = d ∧ C = Matrix.of fun i j : Fin d => c.entry i j)
  (hCpos : C.PosDef) (hL : ch C = .ok L) (hchol : IsCholesky C L)

include hm hcont hle hrules hC hCpos hL hchol in
/-- The distributions of the answers under the rules with more and more points come to the one in the normal population. -/
theorem rules_exist : ∃ (pts : ℕ → Thetas d) (lw : ℕ → List ℝ),
    (∀ n, 1 ≤ n → mmlIntegration hg ch "gauss_hermite" (some n) cov = .ok (pts n, lw n) ∧ (lw n).length = (pts n).length ∧ pts n ≠ []) ∧
    ∀ (a : ℕ → A) (a₀ : A), Tendsto a atTop (𝓝 a₀) → ∀ x : Fin cats.length → ℕ,
      Tendsto (fun n => populationProb (P (a n)) (pts n) ((lw n).map Real.exp) x) atTop (𝓝 (normalProb (P a₀) C x)) := by
  choose! x w hx hexact using hrules
  choose! pts lw h using fun n (hn : 1 ≤ n) => integration_rule cov hC hL hn (hx n hn) (hexact n hn)
  refine ⟨pts, lw, fun n hn => ⟨(h n hn).1, (h n hn).2.1, (h n hn).2.2.1⟩, fun a a₀ ha y => ?_⟩
  have hmap : Continuous fun u : Fin d → ℝ => fun k => Real.sqrt 2 * (L.mulVec u) k + (0 : Fin d → ℝ) k := by
    unfold Matrix.mulVec dotProduct
    fun_prop
  have hlim := nodeSum_tendsto_moving hexact (fun (a : A) (u : Fin d → ℝ) =>
      answerProb (P a) (fun k => Real.sqrt 2 * (L.mulVec u) k + (0 : Fin d → ℝ) k) y)
    (by
      unfold answerProb Function.uncurry
      exact continuous_finsetProd _ fun j _ => (hcont j _).comp (continuous_fst.prodMk (hmap.comp continuous_snd)))
    (fun a u => (answerProb_unit (hm a).nonneg (hle a) _ _).1) (fun a u => (answerProb_unit (hm a).nonneg (hle a) _ _).2) a a₀ ha
  rw [integral_halfDensity_comp 0 hCpos hchol fun θ => answerProb (P a₀) θ y] at hlim
  refine hlim.congr' ?_
  filter_upwards [eventually_ge_atTop 1] with n hn
  obtain ⟨_, h2, _, h4⟩ := h n hn
  rw [populationProb, h4, ← weighted_const_one (pts n) _ (by simpa using h2), h4, nodeSum_one hn (hexact n hn), div_one]

include hm hpos hP hcont hle hrules hC hCpos hL hchol in
/-- C151: the distribution of the answers. If the respondents come from a normal population with the covariance matrix given to `fit`,
then for every distance there is a number of points and for every risk a number of respondents from which on any fits that are at least
as good as the true model are further than that from the truth with at most that risk. -/
theorem C151_consistent (η₀ : A) (ε : ℝ) (hε : 0 < ε) :
    ∃ n₀ : ℕ, 1 ≤ n₀ ∧ ∀ risk : ℝ, 0 < risk → ∃ N₀ : ℕ, ∀ n, n₀ ≤ n → ∀ N, N₀ ≤ N →
      ∀ pts lw, mmlIntegration hg ch "gauss_hermite" (some n) cov = .ok (pts, lw) →
      ∀ (fit : (Fin N → Fin cats.length → ℕ) → Scorer d) (P' : (Fin N → Fin cats.length → ℕ) → (Fin d → ℝ) → ℕ → ℕ → ℝ),
      (∀ s ∈ samples N cats, IsScorer (fit s) cats (P' s) ∧ PositiveProbs (P' s) cats ∧ ProperProbs (P' s) cats ∧
        ∃ L L' : ℝ, mmlLoss (m η₀) (rowsOf N cats.length (sampleCells s)) pts lw = .ok (some L) ∧
          mmlLoss (fit s) (rowsOf N cats.length (sampleCells s)) pts lw = .ok (some L') ∧ L' ≤ L) →
      ∀ far : Finset (Fin N → Fin cats.length → ℕ), far ⊆ samples N cats →
        (∀ s ∈ far, ε ≤ patternDistance cats (populationProb (P' s) pts (lw.map Real.exp)) (normalProb (P η₀) C)) →
        ∑ s ∈ far, sampleProb (normalProb (P η₀) C) s ≤ risk := by
  have hcont₀ : ContinuousProbs (P η₀) := fun j r => (hcont j r).comp (by fun_prop : Continuous fun θ : Fin d → ℝ => (η₀, θ))
  have hp : ∀ x ∈ fullAnswers cats, 0 < normalProb (P η₀) C x := fun x hx => normalProb_pos (hpos η₀) hcont₀ (hm η₀).nonneg (hle η₀) hCpos hx
  have hps : ∑ x ∈ fullAnswers cats, normalProb (P η₀) C x = 1 := normalProb_sum (hP η₀) hcont₀ (hm η₀).nonneg (hle η₀) hCpos
  obtain ⟨pts, lw, hrule, hlim⟩ := rules_exist m P hm hcont hle hrules cov hC hCpos hL hchol
  have hev : ∀ᶠ n in atTop, ∀ x ∈ fullAnswers cats,
      Real.log (normalProb (P η₀) C x) - ε ^ 2 / 16 < Real.log (populationProb (P η₀) (pts n) ((lw n).map Real.exp) x) := by
    rw [Filter.eventually_all_finset]
    intro x hx
    exact ((hlim (fun _ => η₀) η₀ tendsto_const_nhds x).log (hp x hx).ne').eventually_const_lt (by
      have : 0 < ε ^ 2 := by positivity
      linarith)
  obtain ⟨n₀, hn₀⟩ := eventually_atTop.1 hev
  refine ⟨max n₀ 1, le_max_right _ _, fun risk hrisk => ?_⟩
  obtain ⟨k, hk⟩ := exists_nat_gt (32 * ((fullAnswers cats).card - 1) / ε ^ 2 / risk)
  refine ⟨k + 1, fun n hn N hN pts' lw' hok fit P' hfit far hfar hdist => ?_⟩
  obtain ⟨g1, g2, g3⟩ := hrule n ((le_max_right _ _).trans hn)
  rw [g1] at hok
  obtain ⟨rfl, rfl⟩ := Prod.mk.inj (Except.ok.inj hok)
  have hNpos : 0 < N := by omega
  have hN' : (0:ℝ) < N := by exact_mod_cast hNpos
  refine (C151_probability (hm η₀) (hpos η₀) hp hps (pts n) (lw n) g2 g3 (ε ^ 2 / 16) (fun x hx => by
    linarith [hn₀ n ((le_max_left _ _).trans hn) x hx]) hNpos hfit ε hε (by linarith) far hfar hdist).trans ?_
  have h1 : (k:ℝ) ≤ N := by exact_mod_cast (by omega : k ≤ N)
  rw [div_div, mul_comm (N:ℝ), ← div_div, div_le_iff₀ hN']
  rw [div_lt_iff₀ hrisk] at hk
  nlinarith

include hm hcont hle hrules hC hCpos hL hchol in
/-- With enough points, parameters outside a neighbourhood of the truth do not give nearly the distribution of the answers in the
normal population. -/
theorem rules_apart [FirstCountableTopology A] (K : Set A) (hK : IsCompact K) (η₀ : A)
    (hident : ∀ η ∈ K, (∀ x ∈ fullAnswers cats, normalProb (P η) C x = normalProb (P η₀) C x) → η = η₀)
    (U : Set A) (hU : IsOpen U) (hU₀ : η₀ ∈ U) :
    ∃ ε : ℝ, 0 < ε ∧ ∃ n₀ : ℕ, ∀ n, n₀ ≤ n → ∀ pts lw, mmlIntegration hg ch "gauss_hermite" (some n) cov = .ok (pts, lw) →
      ∀ η ∈ K, η ∉ U → ε ≤ patternDistance cats (populationProb (P η) pts (lw.map Real.exp)) (normalProb (P η₀) C) := by
  classical
  obtain ⟨pts, lw, hrule, hlim⟩ := rules_exist m P hm hcont hle hrules cov hC hCpos hL hchol
  by_contra hno
  push Not at hno
  have hfreq : ∀ k : ℕ, ∃ᶠ n in atTop, 1 ≤ n ∧ ∃ η ∈ K \ U,
      patternDistance cats (populationProb (P η) (pts n) ((lw n).map Real.exp)) (normalProb (P η₀) C) < 1 / (k + 1 : ℝ) := by
    intro k
    rw [frequently_atTop]
    intro n₀
    obtain ⟨n, hn, pts', lw', hok, η, h1, h2, h3⟩ := hno (1 / (k + 1 : ℝ)) (by positivity) (max n₀ 1)
    have hn1 : 1 ≤ n := (le_max_right _ _).trans hn
    rw [(hrule n hn1).1] at hok
    obtain ⟨rfl, rfl⟩ := Prod.mk.inj (Except.ok.inj hok)
    exact ⟨n, (le_max_left _ _).trans hn, hn1, η, ⟨h1, h2⟩, h3⟩
  obtain ⟨φ, hφ, hφp⟩ := extraction_forall_of_frequently hfreq
  choose _ η hηK hηd using hφp
  obtain ⟨a₀, ha₀, χ, hχ, htend⟩ := (hK.diff hU).tendsto_subseq hηK
  have hψ : StrictMono fun k => φ (χ k) := hφ.comp hχ
  let a : ℕ → A := Function.extend (fun k => φ (χ k)) (fun k => η (χ k)) fun _ => a₀
  have haψ : ∀ k, a (φ (χ k)) = η (χ k) := fun k => hψ.injective.extend_apply _ _ k
  have ha : Tendsto a atTop (𝓝 a₀) := by
    intro V hV
    obtain ⟨k₀, hk₀⟩ := eventually_atTop.1 (htend.eventually hV)
    rw [Filter.mem_map, Filter.mem_atTop_sets]
    refine ⟨φ (χ k₀), fun n hn => ?_⟩
    by_cases h : ∃ k, φ (χ k) = n
    · obtain ⟨k, rfl⟩ := h
      show a (φ (χ k)) ∈ V
      rw [haψ]
      exact hk₀ k (hψ.le_iff_le.1 hn)
    · show a n ∈ V
      rw [show a n = a₀ from Function.extend_apply' _ _ _ h]
      exact mem_of_mem_nhds hV
  have hd : Tendsto (fun n => patternDistance cats (populationProb (P (a n)) (pts n) ((lw n).map Real.exp)) (normalProb (P η₀) C)) atTop
      (𝓝 (patternDistance cats (normalProb (P a₀) C) (normalProb (P η₀) C))) := by
    unfold patternDistance
    exact tendsto_finsetSum _ fun x _ => ((hlim a a₀ ha x).sub_const _).abs
  have hd2 := hd.comp hψ.tendsto_atTop
  have hzero : Tendsto (fun k : ℕ => 1 / ((χ k : ℕ) + 1 : ℝ)) atTop (𝓝 0) :=
    (tendsto_one_div_add_atTop_nhds_zero_nat (𝕜 := ℝ)).comp hχ.tendsto_atTop
  have hle0 : patternDistance cats (normalProb (P a₀) C) (normalProb (P η₀) C) ≤ 0 :=
    le_of_tendsto_of_tendsto' hd2 hzero fun k => by
      simp only [Function.comp, haψ]
      exact (hηd (χ k)).le
  refine ha₀.2 ?_
  rw [hident a₀ ha₀.1 fun x hx => ?_]
  · exact hU₀
  · have h0 : patternDistance cats (normalProb (P a₀) C) (normalProb (P η₀) C) = 0 :=
      le_antisymm hle0 (Finset.sum_nonneg fun _ _ => abs_nonneg _)
    have := (Finset.sum_eq_zero_iff_of_nonneg fun _ _ => abs_nonneg _).1 h0 x hx
    linarith [abs_eq_zero.1 this]

include hm hpos hP hcont hle hrules hC hCpos hL hchol in
/-- C151: the parameters. If the respondents come from a normal population, the parameters range over a compact set and the distribution
of the answers determines them, then there is a number of points from which on the estimates are outside a given neighbourhood of the truth
with a probability that tends to zero as the number of respondents grows. -/
theorem C151_parameters [FirstCountableTopology A] (K : Set A) (hK : IsCompact K) (η₀ : A)
    (hident : ∀ η ∈ K, (∀ x ∈ fullAnswers cats, normalProb (P η) C x = normalProb (P η₀) C x) → η = η₀)
    (U : Set A) (hU : IsOpen U) (hU₀ : η₀ ∈ U) :
    ∃ n₀ : ℕ, 1 ≤ n₀ ∧ ∀ risk : ℝ, 0 < risk → ∃ N₀ : ℕ, ∀ n, n₀ ≤ n → ∀ N, N₀ ≤ N →
      ∀ pts lw, mmlIntegration hg ch "gauss_hermite" (some n) cov = .ok (pts, lw) →
      ∀ estimate : (Fin N → Fin cats.length → ℕ) → A,
      (∀ s ∈ samples N cats, estimate s ∈ K ∧
        ∃ L L' : ℝ, mmlLoss (m η₀) (rowsOf N cats.length (sampleCells s)) pts lw = .ok (some L) ∧
          mmlLoss (m (estimate s)) (rowsOf N cats.length (sampleCells s)) pts lw = .ok (some L') ∧ L' ≤ L) →
      ∀ far : Finset (Fin N → Fin cats.length → ℕ), far ⊆ samples N cats → (∀ s ∈ far, estimate s ∉ U) →
        ∑ s ∈ far, sampleProb (normalProb (P η₀) C) s ≤ risk := by
  obtain ⟨ε, hε, n₁, hapart⟩ := rules_apart m P hm hcont hle hrules cov hC hCpos hL hchol K hK η₀ hident U hU hU₀
  obtain ⟨n₂, hn₂, h⟩ := C151_consistent m P hm hpos hP hcont hle hrules cov hC hCpos hL hchol η₀ ε hε
  refine ⟨max n₁ n₂, hn₂.trans (le_max_right _ _), fun risk hrisk => ?_⟩
  obtain ⟨N₀, hN₀⟩ := h risk hrisk
  refine ⟨N₀, fun n hn N hN pts lw hok estimate hest far hfar hout => ?_⟩
  refine hN₀ n ((le_max_right _ _).trans hn) N hN pts lw hok (fun s => m (estimate s)) (fun s => P (estimate s))
    (fun s hs => ⟨hm _, hpos _, hP _, (hest s hs).2⟩) far hfar fun s hs => ?_
  exact hapart n ((le_max_left _ _).trans hn) pts lw hok _ (hest s (hfar hs)).1 (hout s hs)

end Family

/-! ## The 1PL model -/

/-- In a standard normal population the distribution of the answers determines the intercepts. -/
theorem onePLWith_normal_identified {items : ℕ} (b b' : Fin items → ℝ)
    (h : ∀ x ∈ fullAnswers (List.replicate items 2), normalProb (fun θ : Fin 1 → ℝ => tableProb ((onePLWith b).probs (θ 0))) 1 x
      = normalProb (fun θ : Fin 1 → ℝ => tableProb ((onePLWith b').probs (θ 0))) 1 x) : b = b' := by
  funext j
  have key : ∀ c : Fin items → ℝ, ∑ x ∈ fullAnswers (List.replicate items 2),
      normalProb (fun θ : Fin 1 → ℝ => tableProb ((onePLWith c).probs (θ 0))) 1 x * (if x ⟨j, by simp⟩ = 1 then 1 else 0) = rightProb (c j) := by
    intro c
    rw [normalProb_sum_mul (P := fun θ : Fin 1 → ℝ => tableProb ((onePLWith c).probs (θ 0))) (fun j r => (onePLWith_jointly j r).comp (by fun_prop : Continuous fun θ : Fin 1 → ℝ => (c, θ)))
      ((onePLWith c).isScorer (onePLWith_wf c) (Fin.pos j)).nonneg (fun θ j r => onePLWith_le_one c _ j r) Matrix.PosDef.one]
    unfold rightProb
    congr 1
    funext θ
    rw [answerProb_item (onePLWith_proper c) θ ⟨j, by simp⟩ fun r => if r = 1 then 1 else 0]
    simp [Finset.sum_range_succ, onePLWith_prob]
  have heq := key b
  rw [Finset.sum_congr rfl fun x hx => by rw [h x hx], key b'] at heq
  by_contra hb
  rcases lt_or_gt_of_ne hb with hlt | hlt
  · exact absurd heq (rightProb_mono hlt).ne'
  · exact absurd heq (rightProb_mono hlt).ne

/-- C151 for the 1PL model with a standard normal population: with enough Gauss-Hermite points and enough respondents the intercepts with
the smallest loss, among those within bounds, are near the true ones. -/
theorem C151_onePL {items : ℕ} (hitems : 0 < items) (β : ℝ) {hg : ℕ → Except PyErr (List ℝ × List ℝ)} (hrules : ExactRules hg)
    {ch : Matrix (Fin 1) (Fin 1) ℝ → Except PyErr (Matrix (Fin 1) (Fin 1) ℝ)} {L : Matrix (Fin 1) (Fin 1) ℝ}
    (hL : ch 1 = .ok L) (hchol : IsCholesky 1 L) (b₀ : Fin items → ℝ) (ε : ℝ) (hε : 0 < ε) :
    ∃ n₀ : ℕ, 1 ≤ n₀ ∧ ∀ risk : ℝ, 0 < risk → ∃ N₀ : ℕ, ∀ n, n₀ ≤ n → ∀ N, N₀ ≤ N →
      ∀ pts lw, mmlIntegration hg ch "gauss_hermite" (some n) none = .ok (pts, lw) →
      ∀ estimate : (Fin N → Fin (List.replicate items 2).length → ℕ) → Fin items → ℝ,
      (∀ s ∈ samples N (List.replicate items 2), (∀ j, |estimate s j| ≤ β) ∧
        ∃ L L' : ℝ, mmlLoss (onePLWith b₀).scorer (rowsOf N (List.replicate items 2).length (sampleCells s)) pts lw = .ok (some L) ∧
          mmlLoss (onePLWith (estimate s)).scorer (rowsOf N (List.replicate items 2).length (sampleCells s)) pts lw = .ok (some L') ∧ L' ≤ L) →
      ∀ far : Finset (Fin N → Fin (List.replicate items 2).length → ℕ), far ⊆ samples N (List.replicate items 2) →
        (∀ s ∈ far, ∃ j, ε ≤ |estimate s j - b₀ j|) →
        ∑ s ∈ far, sampleProb (normalProb (fun θ : Fin 1 → ℝ => tableProb ((onePLWith b₀).probs (θ 0))) 1) s ≤ risk := by
  have hK : IsCompact {b : Fin items → ℝ | ∀ j, |b j| ≤ β} := by
    have : {b : Fin items → ℝ | ∀ j, |b j| ≤ β} = Set.univ.pi fun _ => Set.Icc (-β) β := by
      ext b; simp only [Set.mem_ofPred_eq, abs_le, Set.mem_univ_pi, Set.mem_Icc]
    rw [this]
    exact isCompact_univ_pi fun _ => isCompact_Icc
  have hU : IsOpen {b : Fin items → ℝ | ∀ j, |b j - b₀ j| < ε} := by
    rw [Set.ofPred_forall]
    exact isOpen_iInter_of_finite fun j => isOpen_lt (by fun_prop) continuous_const
  obtain ⟨n₀, h1, h⟩ := C151_parameters (fun b : Fin items → ℝ => (onePLWith b).scorer) (fun b θ => tableProb ((onePLWith b).probs (θ 0)))
    (fun b => (onePLWith b).isScorer (onePLWith_wf b) hitems) (fun b => (onePLWith b).positive (onePLWith_wf b)) onePLWith_proper onePLWith_jointly
    (fun b θ j r => onePLWith_le_one b _ j r) hrules none (Or.inl ⟨rfl, rfl⟩) Matrix.PosDef.one hL hchol _ hK b₀
    (fun b _ hb => onePLWith_normal_identified b b₀ hb) _ hU (fun j => by simpa using hε)
  refine ⟨n₀, h1, fun risk hrisk => ?_⟩
  obtain ⟨N₀, hN₀⟩ := h risk hrisk
  refine ⟨N₀, fun n hn N hN pts lw hok estimate hest far hfar hout => hN₀ n hn N hN pts lw hok estimate hest far hfar fun s hs hin => ?_⟩
  obtain ⟨j, hj⟩ := hout s hs
  exact absurd (hin j) (not_lt.2 hj)

/-- Two items with intercepts 0 and 1: for the rules there are best intercepts of size at most 5 for every sample, and with enough points and
respondents they are within a tenth of 0 and 1 with a probability of at least 95 percent. -/
example : ∃ (hg : ℕ → Except PyErr (List ℝ × List ℝ)) (n₀ N₀ : ℕ), ExactRules hg ∧ ∀ n, n₀ ≤ n → ∀ N, N₀ ≤ N →
    ∃ (pts : Thetas 1) (lw : List ℝ) (estimate : (Fin N → Fin (List.replicate 2 2).length → ℕ) → Fin 2 → ℝ),
      mmlIntegration hg (fun _ => .ok (1 : Matrix (Fin 1) (Fin 1) ℝ)) "gauss_hermite" (some n) none = .ok (pts, lw) ∧
      ∀ far : Finset (Fin N → Fin (List.replicate 2 2).length → ℕ), far ⊆ samples N (List.replicate 2 2) →
        (∀ s ∈ far, ∃ j, 1 / 10 ≤ |estimate s j - ![0, 1] j|) →
        ∑ s ∈ far, sampleProb (normalProb (fun θ : Fin 1 → ℝ => tableProb ((onePLWith ![0, 1]).probs (θ 0))) 1) s ≤ 1 / 20 := by
  classical
  obtain ⟨hg, hrules⟩ := C141_rules_exist
  obtain ⟨n₀, h1, h⟩ := C151_onePL (items := 2) two_pos 5 hrules (ch := fun _ => .ok (1 : Matrix (Fin 1) (Fin 1) ℝ)) rfl (by simp [IsCholesky])
    ![0, 1] (1 / 10) (by norm_num)
  obtain ⟨N₀, hN₀⟩ := h (1 / 20) (by norm_num)
  refine ⟨hg, n₀, N₀, hrules, fun n hn N hN => ?_⟩
  obtain ⟨x, w, hx, hexact⟩ := hrules n (h1.trans hn)
  obtain ⟨pts, lw, hok, hl, hne, _⟩ := integration_rule (ch := fun _ => .ok (1 : Matrix (Fin 1) (Fin 1) ℝ)) none (Or.inl ⟨rfl, rfl⟩) rfl (h1.trans hn)
    hx hexact
  choose! estimate hb hmin using C133_onePL_exists (items := 2) two_pos pts lw hl hne 5 (by norm_num) N
  refine ⟨pts, lw, estimate, hok, hN₀ n hn N hN pts lw hok estimate fun s hs => ⟨hb s hs, ?_⟩⟩
  obtain ⟨L', hL', hbest⟩ := hmin s hs
  obtain ⟨L, hL, hle⟩ := hbest ![0, 1] fun j => by fin_cases j <;> norm_num
  exact ⟨L, L', hL, hL', hle⟩

end Irt
