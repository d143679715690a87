import Verif.Lemmas.HermiteRule
import Verif.Lemmas.GridSymmetry
import Verif.Spec.QuadratureLimit
import Verif.Props.Marginal
import Verif.Props.LargeSample

/-! # C141: with more Gauss-Hermite points marginal maximum likelihood comes to the exact marginal likelihood -/

namespace Irt

open Spec MeasureTheory Filter Topology

/-- C141: a rule that is exact has distinct nodes and positive weights. -/
theorem C141_rule {n : ℕ} {x w : List ℝ} (h : HermiteExact n x w) : x.Nodup ∧ ∀ v ∈ w, 0 < v :=
  ⟨exact_nodup h, exact_positive h⟩

/-- C141: there are exact rules of every size. -/
theorem C141_rules_exist : ∃ hermgauss, ExactRules hermgauss := by
  choose x w h using hermite_rule_exists
  exact ⟨fun n => .ok (x n, w n), fun n _ => ⟨x n, w n, rfl, (h n).1⟩⟩

/-! ## Change of variables -/

theorem halfDensity_eq {d : ℕ} (u : Fin d → ℝ) :
    halfDensity u = Real.exp (-(1 / 2) * (d * Real.log Real.pi) - ∑ i, u i ^ 2) := by
  unfold halfDensity
  rw [← Real.exp_sum, Real.rpow_def_of_pos Real.pi_pos, ← Real.exp_add]
  congr 1
  rw [Finset.sum_neg_distrib]
  ring

theorem mvn_cholesky {d : ℕ} (mean : Fin d → ℝ) {cov L : Matrix (Fin d) (Fin d) ℝ} (hcov : cov.PosDef) (hL : IsCholesky cov L)
    (u : Fin d → ℝ) :
    halfDensity u = |(Real.sqrt 2 • L).det| * Real.exp (mvnLogDensity mean cov ((Real.sqrt 2 • L).mulVec u + mean)) := by
  have hdet : cov.det = L.det ^ 2 := by rw [← hL, Matrix.det_mul, Matrix.det_transpose, sq]
  have hL0 : L.det ≠ 0 := by
    intro h0
    have := hcov.det_pos
    rw [hdet, h0] at this
    simp at this
  have hu : IsUnit L.det := isUnit_iff_ne_zero.2 hL0
  have hquad : (L.mulVec u) ⬝ᵥ (cov⁻¹.mulVec (L.mulVec u)) = ∑ i, u i ^ 2 := by
    have h1 : cov⁻¹ * L = (L.transpose)⁻¹ := by
      rw [← hL, Matrix.mul_inv_rev, Matrix.mul_assoc, Matrix.nonsing_inv_mul _ hu, Matrix.mul_one]
    rw [Matrix.mulVec_mulVec, h1, Matrix.dotProduct_mulVec, ← Matrix.mulVec_transpose, Matrix.mulVec_mulVec,
      Matrix.transpose_nonsing_inv, Matrix.transpose_transpose, Matrix.nonsing_inv_mul _ hu, Matrix.one_mulVec]
    simp [dotProduct, sq]
  have hA : |(Real.sqrt 2 • L).det| = Real.exp (d * Real.log (Real.sqrt 2) + Real.log |L.det|) := by
    rw [Matrix.det_smul, abs_mul, Fintype.card_fin, Real.exp_add, Real.exp_log (abs_pos.2 hL0), ← Real.log_pow,
      Real.exp_log (by positivity), abs_of_nonneg (by positivity : (0 : ℝ) ≤ Real.sqrt 2 ^ d)]
  rw [halfDensity_eq, hA, ← Real.exp_add]
  congr 1
  unfold mvnLogDensity
  rw [add_sub_cancel_right, Matrix.smul_mulVec, Matrix.mulVec_smul, smul_dotProduct, dotProduct_smul, hquad, hdet, Real.log_pow,
    ← Real.log_abs L.det, Real.log_mul (by norm_num) Real.pi_pos.ne', Real.log_sqrt (by norm_num)]
  simp only [smul_eq_mul]
  rw [← mul_assoc (Real.sqrt 2), Real.mul_self_sqrt (by norm_num)]
  push_cast
  ring

theorem integral_halfDensity_comp {d : ℕ} (mean : Fin d → ℝ) {cov L : Matrix (Fin d) (Fin d) ℝ} (hcov : cov.PosDef)
    (hL : IsCholesky cov L) (f : (Fin d → ℝ) → ℝ) :
    ∫ u : Fin d → ℝ, halfDensity u * f (fun i => Real.sqrt 2 * (L.mulVec u) i + mean i)
      = ∫ θ : Fin d → ℝ, Real.exp (mvnLogDensity mean cov θ) * f θ := by
  have hdet : cov.det = L.det ^ 2 := by rw [← hL, Matrix.det_mul, Matrix.det_transpose, sq]
  have hA0 : (Real.sqrt 2 • L).det ≠ 0 := by
    rw [Matrix.det_smul]
    refine mul_ne_zero (by positivity) fun h0 => ?_
    have := hcov.det_pos
    rw [hdet, h0] at this
    simp at this
  have h1 : ∀ u : Fin d → ℝ, halfDensity u * f (fun i => Real.sqrt 2 * (L.mulVec u) i + mean i)
      = |(Real.sqrt 2 • L).det| * (fun z : Fin d → ℝ => Real.exp (mvnLogDensity mean cov (z + mean)) * f (z + mean))
          ((Real.sqrt 2 • L).mulVec u) := by
    intro u
    rw [mvn_cholesky mean hcov hL u]
    have : (fun i => Real.sqrt 2 * (L.mulVec u) i + mean i) = (Real.sqrt 2 • L).mulVec u + mean := by
      funext i
      rw [Matrix.smul_mulVec]
      simp
    rw [this]
    ring
  simp only [h1]
  rw [integral_const_mul, integral_comp_matrix _ hA0 (fun z : Fin d → ℝ => Real.exp (mvnLogDensity mean cov (z + mean)) * f (z + mean)), ← mul_assoc, mul_inv_cancel₀ (abs_ne_zero.2 hA0), one_mul,
    integral_add_right_eq_self (fun θ => Real.exp (mvnLogDensity mean cov θ) * f θ) mean]

/-! ## `gauss_hermite` -/

theorem gaussHermite_ok {d n : ℕ} {hg : ℕ → Except PyErr (List ℝ × List ℝ)}
    {ch : Matrix (Fin d) (Fin d) ℝ → Except PyErr (Matrix (Fin d) (Fin d) ℝ)} (mean : Fin d → ℝ) {cov L : Matrix (Fin d) (Fin d) ℝ}
    {x w : List ℝ} (hx : hg n = .ok (x, w)) (hL : ch cov = .ok L) :
    gaussHermite hg ch n mean cov
      = .ok ((gridProduct x d).map fun v => fun i => Real.sqrt 2 * (L.mulVec v) i + mean i,
          ((gridProduct w d).map fun v => ∏ i, v i).map fun v => v * Real.pi ^ (-(1 / 2 : ℝ) * d)) := by
  unfold gaussHermite
  rw [hx, hL]
  rfl

/-- C141: for every bounded continuous function, mean and covariance, the weighted sum over the points that `gauss_hermite` returns
converges to the expectation under the normal distribution. -/
theorem C141_expectation {d : ℕ} {hg : ℕ → Except PyErr (List ℝ × List ℝ)} (hrules : ExactRules hg)
    {ch : Matrix (Fin d) (Fin d) ℝ → Except PyErr (Matrix (Fin d) (Fin d) ℝ)} (mean : Fin d → ℝ)
    {cov L : Matrix (Fin d) (Fin d) ℝ} (hcov : cov.PosDef) (hL : ch cov = .ok L) (hchol : IsCholesky cov L)
    (f : (Fin d → ℝ) → ℝ) (hf : Continuous f) (B : ℝ) (hB : ∀ θ, |f θ| ≤ B) :
    ∃ value : ℕ → ℝ,
      (∀ n, 1 ≤ n → ∃ pts wts, gaussHermite hg ch n mean cov = .ok (pts, wts) ∧ value n = weighted pts wts f) ∧
      Tendsto value atTop (𝓝 (∫ θ, Real.exp (mvnLogDensity mean cov θ) * f θ)) := by
  choose! x w hx hexact using hrules
  refine ⟨fun n => nodeSum (x n) (w n) fun u => f fun i => Real.sqrt 2 * (L.mulVec u) i + mean i, fun n hn => ?_, ?_⟩
  · exact ⟨_, _, gaussHermite_ok mean (hx n hn) hL, (gaussHermite_weighted (hx n hn) hL (gaussHermite_ok mean (hx n hn) hL) f).symm⟩
  · rw [← integral_halfDensity_comp mean hcov hchol f]
    refine nodeSum_tendsto hexact (fun n hn v hv => (exact_positive (hexact n hn) v hv).le) _ ?_ B fun u => hB _
    have : Continuous fun u : Fin d → ℝ => fun i => Real.sqrt 2 * (L.mulVec u) i + mean i := by
      unfold Matrix.mulVec dotProduct
      fun_prop
    exact hf.comp this

/-! ## Functions that change with the number of points -/

theorem nodeSum_mono {d : ℕ} (x w : List ℝ) (hw : ∀ v ∈ w, 0 ≤ v) (f g : (Fin d → ℝ) → ℝ) (h : ∀ u, f u ≤ g u) :
    nodeSum x w f ≤ nodeSum x w g := by
  have hn := gridProduct_nonneg w hw d
  have hc : (0 : ℝ) ≤ Real.pi ^ (-(1 / 2 : ℝ) * d) := (Real.rpow_pos_of_pos Real.pi_pos _).le
  unfold nodeSum
  generalize gridProduct x d = us
  generalize gridProduct w d = vs at hn
  induction us generalizing vs with
  | nil => simp
  | cons u us ih =>
    cases vs with
    | nil => simp
    | cons v vs =>
      simp only [List.zipWith_cons_cons, List.sum_cons]
      exact add_le_add (mul_le_mul_of_nonneg_left (h u) (mul_nonneg (hn v List.mem_cons_self) hc))
        (ih vs fun v hv => hn v (List.mem_cons_of_mem _ hv))

theorem nodeSum_spread {d n : ℕ} (hn : 2 ≤ n) {x w : List ℝ} (h : HermiteExact n x w) (ε c : ℝ) :
    nodeSum (d := d) x w (fun u => ε + c * ∑ i, u i * u i) = ε + c * (d / 2) := by
  have h1 : nodeSum (d := d) x w (fun _ => ε) = ε := by
    have := nodeSum_mul (d := d) x w ε fun _ => 1
    rw [nodeSum_one (by omega) h] at this
    simpa using this
  rw [nodeSum_add, nodeSum_mul, nodeSum_sum, h1]
  simp only [nodeSum_second hn h, if_true, Finset.sum_const, Finset.card_univ, Fintype.card_fin, nsmul_eq_mul]
  ring

theorem nodeSum_tendsto_moving {A : Type*} [TopologicalSpace A] {d : ℕ} {x w : ℕ → List ℝ}
    (h : ∀ n, 1 ≤ n → HermiteExact n (x n) (w n)) (f : A → (Fin d → ℝ) → ℝ) (hf : Continuous (Function.uncurry f))
    (h0 : ∀ a u, 0 ≤ f a u) (h1 : ∀ a u, f a u ≤ 1) (a : ℕ → A) (a₀ : A) (ha : Tendsto a atTop (𝓝 a₀)) :
    Tendsto (fun n => nodeSum (x n) (w n) (f (a n))) atTop (𝓝 (∫ u : Fin d → ℝ, halfDensity u * f a₀ u)) := by
  have hw : ∀ n, 1 ≤ n → ∀ v ∈ w n, 0 ≤ v := fun n hn v hv => (exact_positive (h n hn) v hv).le
  have hfix := nodeSum_tendsto h hw (f a₀) (hf.comp (by fun_prop : Continuous fun u : Fin d → ℝ => (a₀, u))) 1
    (fun u => abs_le.2 ⟨by linarith [h0 a₀ u], h1 a₀ u⟩)
  have hdiff : Tendsto (fun n => nodeSum (x n) (w n) (f (a n)) - nodeSum (x n) (w n) (f a₀)) atTop (𝓝 0) := by
    rw [Metric.tendsto_atTop]
    intro ε hε
    -- outside a large box the rule has little weight
    obtain ⟨R, hR, hRd⟩ : ∃ R : ℝ, 0 < R ∧ (R ^ 2)⁻¹ * (d / 2) < ε / 2 := by
      refine ⟨Real.sqrt (d / ε + 1), by positivity, ?_⟩
      rw [Real.sq_sqrt (by positivity), inv_mul_lt_iff₀ (by positivity)]
      have : (d / ε + 1) * (ε / 2) = d / 2 + ε / 2 := by field_simp
      rw [this]
      linarith
    obtain ⟨v, hv, hunif⟩ := (isCompact_closedBall (0 : Fin d → ℝ) R).mem_uniformity_of_prod (s := Set.univ) (q := a₀)
      hf.continuousOn (Set.mem_univ _) (Metric.dist_mem_uniformity (by positivity : 0 < ε / 2))
    rw [nhdsWithin_univ] at hv
    obtain ⟨N, hN⟩ := eventually_atTop.1 (ha.eventually hv)
    refine ⟨max N 2, fun n hn => ?_⟩
    have hn2 : 2 ≤ n := (le_max_right _ _).trans hn
    have hclose := hunif (a n) (hN n ((le_max_left _ _).trans hn))
    have hpoint : ∀ u, |f (a n) u - f a₀ u| ≤ ε / 2 + (R ^ 2)⁻¹ * ∑ i, u i * u i := by
      intro u
      have hs : 0 ≤ ∑ i, u i * u i := Finset.sum_nonneg fun i _ => mul_self_nonneg _
      by_cases hu : u ∈ Metric.closedBall (0 : Fin d → ℝ) R
      · have : dist (f (a n) u) (f a₀ u) < ε / 2 := hclose u hu
        rw [Real.dist_eq] at this
        have : 0 ≤ (R ^ 2)⁻¹ * ∑ i, u i * u i := by positivity
        linarith
      · rw [mem_closedBall_zero_iff, pi_norm_le_iff_of_nonneg hR.le] at hu
        push Not at hu
        obtain ⟨k, hk⟩ := hu
        have h2 : R ^ 2 ≤ ∑ i, u i * u i := by
          refine le_trans ?_ (Finset.single_le_sum (f := fun i => u i * u i) (fun i _ => mul_self_nonneg _) (Finset.mem_univ k))
          rw [Real.norm_eq_abs] at hk
          have := mul_self_le_mul_self hR.le hk.le
          rw [abs_mul_abs_self] at this
          rw [sq]
          exact this
        have h3 : 1 ≤ (R ^ 2)⁻¹ * ∑ i, u i * u i := by
          rw [← div_eq_inv_mul, le_div_iff₀ (by positivity)]
          linarith
        have h4 : |f (a n) u - f a₀ u| ≤ 1 := abs_le.2 ⟨by linarith [h0 (a n) u, h1 a₀ u], by linarith [h1 (a n) u, h0 a₀ u]⟩
        linarith
    have hsub : nodeSum (x n) (w n) (f (a n)) - nodeSum (x n) (w n) (f a₀) = nodeSum (x n) (w n) fun u => f (a n) u - f a₀ u := by
      have e := nodeSum_add (x n) (w n) (fun u => f (a n) u - f a₀ u) (f a₀)
      simp only [sub_add_cancel] at e
      linarith
    have hspread := nodeSum_spread (d := d) hn2 (h n (by omega)) (ε / 2) (R ^ 2)⁻¹
    have hup := nodeSum_mono (x n) (w n) (hw n (by omega)) _ _ fun u => (abs_le.1 (hpoint u)).2
    have hlow := nodeSum_mono (x n) (w n) (hw n (by omega)) _ _ fun u => (abs_le.1 (hpoint u)).1
    have hneg : nodeSum (x n) (w n) (fun u : Fin d → ℝ => -(ε / 2 + (R ^ 2)⁻¹ * ∑ i, u i * u i))
        = -(ε / 2 + (R ^ 2)⁻¹ * (d / 2)) := by
      rw [← hspread]
      have := nodeSum_mul (x n) (w n) (-1) fun u : Fin d → ℝ => ε / 2 + (R ^ 2)⁻¹ * ∑ i, u i * u i
      simpa using this
    rw [Real.dist_eq, sub_zero, hsub, abs_lt]
    constructor <;> linarith
  have := hdiff.add hfix
  simpa using this

/-! ## Marginal maximum likelihood -/

theorem likelihood_bounds {d : ℕ} {P : (Fin d → ℝ) → ℕ → ℕ → ℝ} (h0 : ∀ θ j r, 0 ≤ P θ j r) (h1 : ∀ θ j r, P θ j r ≤ 1) (K : ℕ)
    (row : ℕ → Cell) (θ : Fin d → ℝ) : 0 ≤ observedLikelihood P K row θ ∧ observedLikelihood P K row θ ≤ 1 := by
  unfold observedLikelihood
  refine ⟨Finset.prod_nonneg fun j _ => ?_, Finset.prod_le_one (fun j _ => ?_) fun j _ => ?_⟩ <;> split
  · exact zero_le_one
  · exact h0 _ _ _
  · exact zero_le_one
  · exact h0 _ _ _
  · exact le_rfl
  · exact h1 _ _ _

theorem marginalLikelihood_pos {d : ℕ} {P : (Fin d → ℝ) → ℕ → ℕ → ℝ} {cats : List ℕ} (hpos : PositiveProbs P cats)
    (hcont : ContinuousProbs P) (h0 : ∀ θ j r, 0 ≤ P θ j r) (h1 : ∀ θ j r, P θ j r ≤ 1) {cov : Matrix (Fin d) (Fin d) ℝ}
    (hcov : cov.PosDef) (row : ℕ → Cell) (hrow : ValidResponses cats row) : 0 < marginalLikelihood P cats.length cov row := by
  have hmvn : Integrable fun θ : Fin d → ℝ => Real.exp (mvnLogDensity 0 cov θ) := by
    by_contra h
    have := integral_mvn 0 cov hcov
    rw [integral_undef h] at this
    norm_num at this
  have hF : Continuous fun θ => Real.exp (mvnLogDensity 0 cov θ) * observedLikelihood P cats.length row θ :=
    (continuous_mvn 0 cov).mul (continuous_observedLikelihood hcont _ _)
  have hFpos : ∀ θ, 0 < Real.exp (mvnLogDensity 0 cov θ) * observedLikelihood P cats.length row θ := fun θ =>
    mul_pos (Real.exp_pos _) (observedLikelihood_pos hpos _ hrow _)
  unfold marginalLikelihood
  rw [integral_pos_iff_support_of_nonneg (fun θ => (hFpos θ).le)]
  · have : (Function.support fun θ => Real.exp (mvnLogDensity 0 cov θ) * observedLikelihood P cats.length row θ) = Set.univ := by
      ext θ; simp only [Function.mem_support, Set.mem_univ, iff_true]; exact (hFpos θ).ne'
    rw [this]
    exact isOpen_univ.measure_pos _ ⟨0, trivial⟩
  · refine hmvn.mono' hF.aestronglyMeasurable (Eventually.of_forall fun θ => ?_)
    rw [Real.norm_of_nonneg (hFpos θ).le]
    exact mul_le_of_le_one_right (Real.exp_pos _).le (likelihood_bounds h0 h1 _ _ _).2

section Family

variable {A : Type*} [TopologicalSpace A] {d : ℕ} {cats : List ℕ} (m : A → Scorer d) (P : A → (Fin d → ℝ) → ℕ → ℕ → ℝ)
  (hm : ∀ a, IsScorer (m a) cats (P a)) (hpos : ∀ a, PositiveProbs (P a) cats)
  (hcont : ∀ j r, Continuous fun p : A × (Fin d → ℝ) => P p.1 p.2 j r) (hle : ∀ a θ j r, P a θ j r ≤ 1)
  (N : ℕ) (y : ℕ → ℕ → Cell) (hy : ∀ i, i < N → ValidResponses cats (y i))
  {hg : ℕ → Except PyErr (List ℝ × List ℝ)} (hrules : ExactRules hg)
  {ch : Matrix (Fin d) (Fin d) ℝ → Except PyErr (Matrix (Fin d) (Fin d) ℝ)} (cov : Option CovArg)
  {C L : Matrix (Fin d) (Fin d) ℝ}
  (hC : cov = none ∧ C = 1 ∨ ∃ c, cov = some c ∧ c.rows = d ∧ c.cols = d ∧ C = Matrix.of fun i j : Fin d => c.entry i j)
  (hCpos : C.PosDef) (hL : ch C = .ok L) (hchol : IsCholesky C L)

include hm hpos hcont hle hy hrules hC hCpos hL hchol in
/-- C141: the loss that `fit` computes with `n` Gauss-Hermite points in every latent variable, at parameters that may change with
`n`, converges, as the number of points grows and the parameters converge, to minus the logarithm of the marginal likelihood. -/
theorem C141_loss_moving : ∃ loss : A → ℕ → ℝ,
    (∀ a n, 1 ≤ n → ∃ pts lw, mmlIntegration hg ch "gauss_hermite" (some n) cov = .ok (pts, lw) ∧
      mmlLoss (m a) (rowsOf N cats.length y) pts lw = .ok (some (loss a n))) ∧
    ∀ (a : ℕ → A) (a₀ : A), Tendsto a atTop (𝓝 a₀) → Tendsto (fun n => loss (a n) n) atTop
      (𝓝 (-Real.log (sampleLikelihood (P a₀) cats.length C N y))) := by
  choose! x w hx hexact using hrules
  have h0 : ∀ a θ j r, 0 ≤ P a θ j r := fun a => (hm a).nonneg
  have hf : ∀ i, Continuous (Function.uncurry fun (a : A) (u : Fin d → ℝ) =>
      observedLikelihood (P a) cats.length (y i) fun k => Real.sqrt 2 * (L.mulVec u) k + (0 : Fin d → ℝ) k) := by
    intro i
    have hmap : Continuous fun u : Fin d → ℝ => fun k => Real.sqrt 2 * (L.mulVec u) k + (0 : Fin d → ℝ) k := by
      unfold Matrix.mulVec dotProduct
      fun_prop
    unfold observedLikelihood Function.uncurry
    refine continuous_finsetProd _ fun j _ => ?_
    by_cases h : cellMissing (y i j) = true
    · simp only [h, if_true]; exact continuous_const
    · simp only [h]
      exact (hcont j _).comp (continuous_fst.prodMk (hmap.comp continuous_snd))
  refine ⟨fun a n => -∑ i ∈ Finset.range N, Real.log (nodeSum (x n) (w n) fun u =>
    observedLikelihood (P a) cats.length (y i) fun k => Real.sqrt 2 * (L.mulVec u) k + (0 : Fin d → ℝ) k), fun a n hn => ?_, ?_⟩
  · have hok := gaussHermite_ok (n := n) (0 : Fin d → ℝ) (hx n hn) hL
    set pts : Thetas d := (gridProduct (x n) d).map fun v => fun i => Real.sqrt 2 * (L.mulVec v) i + (0 : Fin d → ℝ) i with hpts
    set wts : List ℝ := ((gridProduct (w n) d).map fun v => ∏ i, v i).map fun v => v * Real.pi ^ (-(1 / 2 : ℝ) * d) with hwts
    have hwpos : ∀ v ∈ wts, 0 < v := by
      intro v hv
      simp only [hwts, List.map_map, List.mem_map, Function.comp] at hv
      obtain ⟨u, hu, rfl⟩ := hv
      exact mul_pos (gridProduct_pos (w n) (exact_positive (hexact n hn)) d u hu) (Real.rpow_pos_of_pos Real.pi_pos _)
    have hexp : (wts.map Real.log).map Real.exp = wts := by
      rw [List.map_map]
      conv_rhs => rw [← List.map_id wts]
      exact List.map_congr_left fun v hv => Real.exp_log (hwpos v hv)
    have hplen : pts.length = n ^ d := by rw [hpts, List.length_map, length_gridProduct, (hexact n hn).1]
    have hwlen : wts.length = n ^ d := by rw [hwts, List.length_map, List.length_map, length_gridProduct, (hexact n hn).2.1]
    refine ⟨pts, wts.map Real.log, ?_, ?_⟩
    · have hc' : mmlCovariance d cov = .ok C := by
        unfold mmlCovariance
        rcases hC with ⟨rfl, rfl⟩ | ⟨c, rfl, hr, hcl, rfl⟩
        · rfl
        · simp [hr, hcl]
      unfold mmlIntegration
      rw [hc']
      simp only [if_true, mmlPoints]
      show (gaussHermite hg ch n 0 C >>= _) = _
      rw [hok]
      rfl
    · rw [mmlLoss_weighted (hm a) (hpos a) N y hy pts _ (by rw [List.length_map, hplen, hwlen]) (by
        intro h
        rw [h, List.length_nil] at hplen
        exact (Nat.pow_pos hn).ne hplen), hexp]
      simp only [gaussHermite_weighted (hx n hn) hL hok]
  · intro a a₀ ha
    have hmpos : ∀ i, i < N → 0 < marginalLikelihood (P a₀) cats.length C (y i) := fun i hi =>
      marginalLikelihood_pos (hpos a₀) (fun j r => (hcont j r).comp (by fun_prop : Continuous fun θ : Fin d → ℝ => (a₀, θ))) (h0 a₀) (hle a₀)
        hCpos _ (hy i hi)
    unfold sampleLikelihood
    rw [Real.log_prod fun i hi => (hmpos i (Finset.mem_range.1 hi)).ne']
    refine (tendsto_finsetSum _ fun i hi => ?_).neg
    refine Tendsto.log ?_ (hmpos i (Finset.mem_range.1 hi)).ne'
    have hlim := nodeSum_tendsto_moving hexact (fun (a : A) (u : Fin d → ℝ) =>
      observedLikelihood (P a) cats.length (y i) fun k => Real.sqrt 2 * (L.mulVec u) k + (0 : Fin d → ℝ) k) (hf i)
      (fun a u => (likelihood_bounds (h0 a) (hle a) _ _ _).1) (fun a u => (likelihood_bounds (h0 a) (hle a) _ _ _).2) a a₀ ha
    rwa [integral_halfDensity_comp 0 hCpos hchol (observedLikelihood (P a₀) cats.length (y i))] at hlim

include hm hpos hcont hle hy hrules hC hCpos hL hchol in
/-- C141: for one model, the loss that `fit` computes with `n` Gauss-Hermite points in every latent variable converges to minus the
logarithm of the marginal likelihood of the answers. -/
theorem C141_loss (a : A) : ∃ loss : ℕ → ℝ,
    (∀ n, 1 ≤ n → ∃ pts lw, mmlIntegration hg ch "gauss_hermite" (some n) cov = .ok (pts, lw) ∧
      mmlLoss (m a) (rowsOf N cats.length y) pts lw = .ok (some (loss n))) ∧
    Tendsto loss atTop (𝓝 (-Real.log (sampleLikelihood (P a) cats.length C N y))) := by
  obtain ⟨loss, h1, h2⟩ := C141_loss_moving m P hm hpos hcont hle N y hy hrules cov hC hCpos hL hchol
  exact ⟨loss a, h1 a, h2 (fun _ => a) a tendsto_const_nhds⟩

include hm hpos hcont hle hy hrules hC hCpos hL hchol in
/-- C141: of two sets of parameters with different marginal likelihoods, the loss with enough points prefers the one with the larger. -/
theorem C141_order (a b : A) (hab : sampleLikelihood (P a) cats.length C N y < sampleLikelihood (P b) cats.length C N y) :
    ∃ n₀, ∀ n, n₀ ≤ n → ∃ pts lw La Lb, mmlIntegration hg ch "gauss_hermite" (some n) cov = .ok (pts, lw) ∧
      mmlLoss (m a) (rowsOf N cats.length y) pts lw = .ok (some La) ∧
      mmlLoss (m b) (rowsOf N cats.length y) pts lw = .ok (some Lb) ∧ Lb < La := by
  obtain ⟨loss, h1, h2⟩ := C141_loss_moving m P hm hpos hcont hle N y hy hrules cov hC hCpos hL hchol
  have ha := h2 (fun _ => a) a tendsto_const_nhds
  have hb := h2 (fun _ => b) b tendsto_const_nhds
  have hapos : 0 < sampleLikelihood (P a) cats.length C N y := Finset.prod_pos fun i hi =>
    marginalLikelihood_pos (hpos a) (fun j r => (hcont j r).comp (by fun_prop : Continuous fun θ : Fin d → ℝ => (a, θ))) (hm a).nonneg (hle a)
      hCpos _ (hy i (Finset.mem_range.1 hi))
  have hlt := neg_lt_neg (Real.log_lt_log hapos hab)
  obtain ⟨n₀, hn₀⟩ := eventually_atTop.1 (hb.eventually_lt ha hlt)
  refine ⟨max n₀ 1, fun n hn => ?_⟩
  obtain ⟨pts, lw, hok, hLa⟩ := h1 a n ((le_max_right _ _).trans hn)
  obtain ⟨pts', lw', hok', hLb⟩ := h1 b n ((le_max_right _ _).trans hn)
  rw [hok] at hok'
  obtain ⟨rfl, rfl⟩ := Prod.mk.inj (Except.ok.inj hok')
  exact ⟨pts, lw, _, _, hok, hLa, hLb, hn₀ n ((le_max_left _ _).trans hn)⟩

/-- With `n` points no parameters in `K` have a loss that is smaller than that of `a` by more than `e`. -/
def BestWith (hg : ℕ → Except PyErr (List ℝ × List ℝ)) (ch : Matrix (Fin d) (Fin d) ℝ → Except PyErr (Matrix (Fin d) (Fin d) ℝ))
    (cov : Option CovArg) (data : List (List Cell)) (K : Set A) (n : ℕ) (e : ℝ) (a : A) : Prop :=
  ∀ pts lw La, mmlIntegration hg ch "gauss_hermite" (some n) cov = .ok (pts, lw) → mmlLoss (m a) data pts lw = .ok (some La) →
    ∀ b ∈ K, ∀ Lb, mmlLoss (m b) data pts lw = .ok (some Lb) → La ≤ Lb + e

include hm hpos hcont hle hy hrules hC hCpos hL hchol in
theorem estimates_core (K : Set A) (a : ℕ → A) (e : ℕ → ℝ) (he : Tendsto e atTop (𝓝 0))
    (hbest : ∀ n, 1 ≤ n → BestWith m hg ch cov (rowsOf N cats.length y) K n (e n) (a n))
    (φ : ℕ → ℕ) (hφ : StrictMono φ) (a₀ : A) (ha : Tendsto (a ∘ φ) atTop (𝓝 a₀)) (b : A) (hb : b ∈ K) :
    sampleLikelihood (P b) cats.length C N y ≤ sampleLikelihood (P a₀) cats.length C N y := by
  classical
  obtain ⟨loss, h1, h2⟩ := C141_loss_moving m P hm hpos hcont hle N y hy hrules cov hC hCpos hL hchol
  have hspos : ∀ c : A, 0 < sampleLikelihood (P c) cats.length C N y := fun c => Finset.prod_pos fun i hi =>
    marginalLikelihood_pos (hpos c) (fun j r => (hcont j r).comp (by fun_prop : Continuous fun θ : Fin d → ℝ => (c, θ))) (hm c).nonneg (hle c)
      hCpos _ (hy i (Finset.mem_range.1 hi))
  let a' : ℕ → A := fun n => if n ∈ Set.range φ then a n else a₀
  have ha' : Tendsto a' atTop (𝓝 a₀) := by
    intro U hU
    obtain ⟨k₀, hk₀⟩ := eventually_atTop.1 (ha.eventually hU)
    rw [Filter.mem_map, Filter.mem_atTop_sets]
    refine ⟨φ k₀, fun n hn => ?_⟩
    by_cases h : n ∈ Set.range φ
    · obtain ⟨k, rfl⟩ := h
      have : k₀ ≤ k := hφ.le_iff_le.1 hn
      have hk : a (φ k) ∈ U := hk₀ k this
      show (if φ k ∈ Set.range φ then a (φ k) else a₀) ∈ U
      rwa [if_pos ⟨k, rfl⟩]
    · show (if n ∈ Set.range φ then a n else a₀) ∈ U
      rw [if_neg h]
      exact mem_of_mem_nhds hU
  have hlim := (h2 a' a₀ ha').comp hφ.tendsto_atTop
  have hlimb := ((h2 (fun _ => b) b tendsto_const_nhds).comp hφ.tendsto_atTop).add (he.comp hφ.tendsto_atTop)
  have hle' := le_of_tendsto_of_tendsto hlim hlimb (by
    filter_upwards [eventually_ge_atTop 1] with k hk
    have hn : 1 ≤ φ k := hk.trans (hφ.id_le k)
    obtain ⟨pts, lw, hok, hLa⟩ := h1 (a (φ k)) (φ k) hn
    obtain ⟨pts', lw', hok', hLb⟩ := h1 b (φ k) hn
    rw [hok] at hok'
    obtain ⟨rfl, rfl⟩ := Prod.mk.inj (Except.ok.inj hok')
    have := hbest (φ k) hn pts lw _ hok hLa b hb _ hLb
    simpa [a'] using this)
  rw [add_zero, neg_le_neg_iff] at hle'
  exact (Real.log_le_log_iff (hspos b) (hspos a₀)).1 hle'

include hm hpos hcont hle hy hrules hC hCpos hL hchol in
/-- C141: parameters that are best, up to an error that vanishes, for the losses with more and more points can only converge to
parameters with the largest marginal likelihood. -/
theorem C141_estimates (K : Set A) (a : ℕ → A) (e : ℕ → ℝ) (he : Tendsto e atTop (𝓝 0))
    (hbest : ∀ n, 1 ≤ n → BestWith m hg ch cov (rowsOf N cats.length y) K n (e n) (a n)) (a₀ : A) (ha : Tendsto a atTop (𝓝 a₀)) :
    ∀ b ∈ K, sampleLikelihood (P b) cats.length C N y ≤ sampleLikelihood (P a₀) cats.length C N y :=
  fun b hb => estimates_core m P hm hpos hcont hle N y hy hrules cov hC hCpos hL hchol K a e he hbest id strictMono_id a₀ ha b hb

include hm hpos hcont hle hy hrules hC hCpos hL hchol in
/-- C141: if the parameters range over a compact set and one of them has the largest marginal likelihood, the best parameters for
the losses with more and more points converge to it. -/
theorem C141_consistent [FirstCountableTopology A] [T2Space A] (K : Set A) (hK : IsCompact K) (best : A)
    (hunique : ∀ b ∈ K, b ≠ best → sampleLikelihood (P b) cats.length C N y < sampleLikelihood (P best) cats.length C N y) (hbestK : best ∈ K)
    (a : ℕ → A) (haK : ∀ n, a n ∈ K) (e : ℕ → ℝ) (he : Tendsto e atTop (𝓝 0))
    (hbest : ∀ n, 1 ≤ n → BestWith m hg ch cov (rowsOf N cats.length y) K n (e n) (a n)) : Tendsto a atTop (𝓝 best) := by
  refine tendsto_of_subseq_tendsto fun ns hns => ?_
  obtain ⟨ψ, hψ, hψns⟩ := strictMono_subseq_of_tendsto_atTop hns
  obtain ⟨a₀, ha₀K, χ, hχ, hlim⟩ := hK.tendsto_subseq fun k => haK (ns (ψ k))
  refine ⟨fun k => ψ (χ k), ?_⟩
  have h := estimates_core m P hm hpos hcont hle N y hy hrules cov hC hCpos hL hchol K a e he hbest (fun k => ns (ψ (χ k)))
    (hψns.comp hχ) a₀ hlim best hbestK
  have : a₀ = best := by
    by_contra hne
    exact absurd (hunique a₀ ha₀K hne) (not_lt.2 h)
  rw [← this]
  exact hlim

end Family

/-! ## The two integration methods -/

/-- C141: the losses of the two methods do not come to the same. For the same data and model, the loss of `gauss_hermite` converges
to minus the log marginal likelihood; the loss of the default method, corrected for the distance between its points, converges to a
larger number. -/
theorem C141_methods {d : ℕ} (hd : 1 ≤ d) {m : Scorer d} {cats : List ℕ} {P : (Fin d → ℝ) → ℕ → ℕ → ℝ} (hm : IsScorer m cats P)
    (hpos : PositiveProbs P cats) (hcont : ContinuousProbs P) (hle : ∀ θ j r, P θ j r ≤ 1) (N : ℕ) (hN : 0 < N) (y : ℕ → ℕ → Cell)
    (hy : ∀ i, i < N → ValidResponses cats (y i)) {hg : ℕ → Except PyErr (List ℝ × List ℝ)} (hrules : ExactRules hg)
    {ch : Matrix (Fin d) (Fin d) ℝ → Except PyErr (Matrix (Fin d) (Fin d) ℝ)} {L : Matrix (Fin d) (Fin d) ℝ}
    (hL : ch 1 = .ok L) (hchol : IsCholesky 1 L) :
    ∃ (hermite quasi : ℕ → ℝ) (x x' : ℝ),
      (∀ n, 1 ≤ n → ∃ pts lw, mmlIntegration hg ch "gauss_hermite" (some n) none = .ok (pts, lw) ∧
        mmlLoss m (rowsOf N cats.length y) pts lw = .ok (some (hermite n))) ∧
      (∀ n, 1 ≤ n → ∃ pts lw, mmlIntegration hg ch "quasi_mc" (some n) none = .ok (pts, lw) ∧
        mmlLoss m (rowsOf N cats.length y) pts lw = .ok (some (quasi n))) ∧
      Tendsto hermite atTop (𝓝 x) ∧ Tendsto (fun n : ℕ => quasi (n + 1) - N * (d * Real.log (6 / n))) atTop (𝓝 x') ∧
      x = -Real.log (sampleLikelihood P cats.length 1 N y) ∧ x < x' := by
  obtain ⟨hermite, h1, h2⟩ := C141_loss (A := Unit) (fun _ => m) (fun _ => P) (fun _ => hm) (fun _ => hpos)
    (fun j r => (hcont j r).comp continuous_snd) (fun _ => hle) N y hy hrules none (Or.inl ⟨rfl, rfl⟩) Matrix.PosDef.one hL hchol ()
  obtain ⟨quasi, h3, h4⟩ := C80_limit hm hpos hcont N y hy 1 Matrix.PosDef.one
  refine ⟨hermite, quasi, _, _, h1, fun n hn => ?_, h2, h4, rfl, ?_⟩
  · obtain ⟨grid, weights, hq, hl⟩ := h3 n hn
    exact ⟨grid, weights, hq, hl⟩
  · have hq : ∀ i, i < N → 0 < marginalLikelihood P cats.length 1 (y i) ∧
        -Real.log (marginalLikelihood P cats.length 1 (y i))
          < -Real.log (boxLikelihood P cats.length 1 (y i) (fun _ => -3) (fun _ => 3)) := by
      intro i hi
      obtain ⟨q, hq0, hq1, hp, _, hlog⟩ := C80_truncation hd hpos hcont hle (y i) (hy i hi) 1 Matrix.PosDef.one
      have := Real.log_neg hq0 hq1
      exact ⟨hp, by rw [hlog]; linarith⟩
    unfold sampleLikelihood
    rw [Real.log_prod fun i hi => (hq i (Finset.mem_range.1 hi)).1.ne', ← Finset.sum_neg_distrib, ← Finset.sum_neg_distrib]
    exact Finset.sum_lt_sum_of_nonempty ⟨0, Finset.mem_range.2 hN⟩ fun i hi => (hq i (Finset.mem_range.1 hi)).2

/-! ## The 1PL model -/

theorem onePLWith_jointly {items : ℕ} (j r : ℕ) :
    Continuous fun p : (Fin items → ℝ) × (Fin 1 → ℝ) => tableProb ((onePLWith p.1).probs (p.2 0)) j r := by
  simp only [onePLWith_prob]
  have hl : Continuous logistic := by
    unfold logistic
    exact Continuous.div (by fun_prop) (by fun_prop) fun x => by positivity
  split_ifs with hj
  · fun_prop
  · fun_prop
  · fun_prop
  · fun_prop

theorem onePLWith_le_one {items : ℕ} (b : Fin items → ℝ) (x : ℝ) (j r : ℕ) : tableProb ((onePLWith b).probs x) j r ≤ 1 := by
  rw [onePLWith_prob]
  have h1 : ∀ x : ℝ, 0 < logistic x := fun x => by unfold logistic; positivity
  have h2 : ∀ x : ℝ, logistic x < 1 := fun x => by
    unfold logistic
    rw [div_lt_one (by positivity)]
    linarith
  split_ifs with hj
  · linarith [h1 (x + b ⟨j, hj⟩)]
  · exact (h2 _).le
  · exact zero_le_one
  · exact zero_le_one

/-- C141 for the 1PL model with a standard normal population: intercepts that are best, within bounds, for more and more
Gauss-Hermite points come to the intercepts with the largest marginal likelihood, if these are unique. -/
theorem C141_onePL {items : ℕ} (hitems : 0 < items) (β : ℝ) (N : ℕ) (y : ℕ → ℕ → Cell)
    (hy : ∀ i, i < N → ValidResponses (List.replicate items 2) (y i)) {hg : ℕ → Except PyErr (List ℝ × List ℝ)} (hrules : ExactRules hg)
    {ch : Matrix (Fin 1) (Fin 1) ℝ → Except PyErr (Matrix (Fin 1) (Fin 1) ℝ)} {L : Matrix (Fin 1) (Fin 1) ℝ}
    (hL : ch 1 = .ok L) (hchol : IsCholesky 1 L) (best : Fin items → ℝ) (hbestK : ∀ j, |best j| ≤ β)
    (hunique : ∀ b : Fin items → ℝ, (∀ j, |b j| ≤ β) → b ≠ best →
      sampleLikelihood (fun θ : Fin 1 → ℝ => tableProb ((onePLWith b).probs (θ 0))) (List.replicate items 2).length 1 N y
        < sampleLikelihood (fun θ : Fin 1 → ℝ => tableProb ((onePLWith best).probs (θ 0))) (List.replicate items 2).length 1 N y)
    (b : ℕ → Fin items → ℝ) (hbK : ∀ n j, |b n j| ≤ β)
    (hbest : ∀ n, 1 ≤ n → BestWith (fun b : Fin items → ℝ => (onePLWith b).scorer) hg ch none
      (rowsOf N (List.replicate items 2).length y) {b | ∀ j, |b j| ≤ β} n 0 (b n)) :
    ∀ j, Tendsto (fun n => b n j) atTop (𝓝 (best j)) := by
  have hK : IsCompact {b : Fin items → ℝ | ∀ j, |b j| ≤ β} := by
    have : {b : Fin items → ℝ | ∀ j, |b j| ≤ β} = Set.univ.pi fun _ => Set.Icc (-β) β := by
      ext b; simp only [Set.mem_setOf_eq, abs_le, Set.mem_univ_pi, Set.mem_Icc]
    rw [this]
    exact isCompact_univ_pi fun _ => isCompact_Icc
  have := C141_consistent (fun b : Fin items → ℝ => (onePLWith b).scorer) (fun b θ => tableProb ((onePLWith b).probs (θ 0)))
    (fun b => (onePLWith b).isScorer (onePLWith_wf b) hitems) (fun b => (onePLWith b).positive (onePLWith_wf b)) onePLWith_jointly
    (fun b θ j r => onePLWith_le_one b _ j r) N y hy hrules none (Or.inl ⟨rfl, rfl⟩) Matrix.PosDef.one hL hchol _ hK best hunique hbestK b hbK
    (fun _ => 0) tendsto_const_nhds hbest
  exact tendsto_pi_nhds.1 this


/-! ## A case in which everything is met: one item, one right and one wrong answer -/

noncomputable def exOneRight : Fin 2 → Fin (List.replicate 1 2).length → ℕ := fun i _ => i

theorem exOneRight_mem : exOneRight ∈ samples 2 (List.replicate 1 2) := by
  unfold samples fullAnswers
  simp only [Fintype.mem_piFinset, Finset.mem_range]
  intro i j
  show (i : ℕ) < (List.replicate 1 2)[(j : ℕ)]
  rw [List.getElem_replicate]
  exact i.2

theorem exOneRight_cell (i : ℕ) (hi : i < 2) : sampleCells exOneRight i 0 = some (i : ℤ) := by
  simp [sampleCells, hi, answersToAll, answersTo, exOneRight]

theorem integrable_mvn_mul {d : ℕ} {cov : Matrix (Fin d) (Fin d) ℝ} (hcov : cov.PosDef) (f : (Fin d → ℝ) → ℝ) (hf : Continuous f)
    (h : ∀ θ, |f θ| ≤ 1) : Integrable fun θ : Fin d → ℝ => Real.exp (mvnLogDensity 0 cov θ) * f θ := by
  have hmvn : Integrable fun θ : Fin d → ℝ => Real.exp (mvnLogDensity 0 cov θ) := by
    by_contra h
    have := integral_mvn 0 cov hcov
    rw [integral_undef h] at this
    norm_num at this
  refine hmvn.mono' ((continuous_mvn 0 cov).mul hf).aestronglyMeasurable (Eventually.of_forall fun θ => ?_)
  rw [norm_mul, Real.norm_eq_abs, Real.norm_eq_abs, abs_of_pos (Real.exp_pos _)]
  exact mul_le_of_le_one_right (Real.exp_pos _).le (h θ)

/-- The probability of a right answer to an item with intercept `b` in a standard normal population. -/
noncomputable def rightProb (b : ℝ) : ℝ := ∫ θ : Fin 1 → ℝ, Real.exp (mvnLogDensity 0 1 θ) * logistic (θ 0 + b)

theorem continuous_logistic' : Continuous logistic := by
  unfold logistic
  exact Continuous.div (by fun_prop) (by fun_prop) fun x => by positivity

theorem logistic_unit (x : ℝ) : 0 < logistic x ∧ logistic x < 1 := by
  constructor
  · unfold logistic; positivity
  · unfold logistic
    rw [div_lt_one (by positivity)]
    linarith

theorem rightProb_integrable (b : ℝ) : Integrable fun θ : Fin 1 → ℝ => Real.exp (mvnLogDensity 0 1 θ) * logistic (θ 0 + b) :=
  integrable_mvn_mul Matrix.PosDef.one _ (continuous_logistic'.comp (by fun_prop)) fun θ =>
    abs_le.2 ⟨by linarith [(logistic_unit (θ 0 + b)).1], (logistic_unit _).2.le⟩

theorem rightProb_mono {b b' : ℝ} (h : b < b') : rightProb b < rightProb b' := by
  have hpos : ∀ θ : Fin 1 → ℝ, 0 < Real.exp (mvnLogDensity 0 1 θ) * logistic (θ 0 + b') - Real.exp (mvnLogDensity 0 1 θ) * logistic (θ 0 + b) := by
    intro θ
    rw [← mul_sub]
    exact mul_pos (Real.exp_pos _) (sub_pos.2 (logistic_strictMono (by linarith)))
  have h1 : 0 < ∫ θ : Fin 1 → ℝ, (Real.exp (mvnLogDensity 0 1 θ) * logistic (θ 0 + b') - Real.exp (mvnLogDensity 0 1 θ) * logistic (θ 0 + b)) := by
    rw [integral_pos_iff_support_of_nonneg (fun θ => (hpos θ).le) ((rightProb_integrable b').sub (rightProb_integrable b))]
    have : (Function.support fun θ : Fin 1 → ℝ => Real.exp (mvnLogDensity 0 1 θ) * logistic (θ 0 + b') - Real.exp (mvnLogDensity 0 1 θ) * logistic (θ 0 + b))
        = Set.univ := by
      ext θ; simp only [Function.mem_support, Set.mem_univ, iff_true]; exact (hpos θ).ne'
    rw [this]
    exact isOpen_univ.measure_pos _ ⟨0, trivial⟩
  rw [integral_sub (rightProb_integrable b') (rightProb_integrable b)] at h1
  exact sub_pos.1 h1

theorem wrongProb (b : ℝ) : ∫ θ : Fin 1 → ℝ, Real.exp (mvnLogDensity 0 1 θ) * (1 - logistic (θ 0 + b)) = 1 - rightProb b := by
  have hmvn := integrable_mvn_mul (d := 1) Matrix.PosDef.one (fun _ => 1) continuous_const (by simp)
  simp only [mul_one] at hmvn
  simp only [mul_sub, mul_one]
  rw [integral_sub hmvn (rightProb_integrable b), integral_mvn 0 1 Matrix.PosDef.one]
  rfl

theorem rightProb_zero : rightProb 0 = 1 / 2 := by
  have h1 := integral_neg_eq_self (fun θ : Fin 1 → ℝ => Real.exp (mvnLogDensity 0 1 θ) * logistic (θ 0 + 0)) volume
  have h2 : (∫ θ : Fin 1 → ℝ, Real.exp (mvnLogDensity 0 1 (-θ)) * logistic ((-θ) 0 + 0)) = 1 - rightProb 0 := by
    rw [← wrongProb 0]
    congr 1
    funext θ
    have e1 : mvnLogDensity 0 1 (-θ) = mvnLogDensity 0 1 θ := by
      unfold mvnLogDensity
      simp [Matrix.mulVec_neg]
    rw [e1, Pi.neg_apply, add_zero, add_zero, logistic_neg']
  rw [h2] at h1
  have h3 : (∫ θ : Fin 1 → ℝ, Real.exp (mvnLogDensity 0 1 θ) * logistic (θ 0 + 0)) = rightProb 0 := rfl
  rw [h3] at h1
  linarith

theorem exOneRight_likelihood (b : Fin 1 → ℝ) :
    sampleLikelihood (fun θ : Fin 1 → ℝ => tableProb ((onePLWith b).probs (θ 0))) (List.replicate 1 2).length 1 2 (sampleCells exOneRight)
      = (1 - rightProb (b 0)) * rightProb (b 0) := by
  have hobs : ∀ (i : ℕ) (hi : i < 2) (θ : Fin 1 → ℝ),
      observedLikelihood (fun θ : Fin 1 → ℝ => tableProb ((onePLWith b).probs (θ 0))) (List.replicate 1 2).length (sampleCells exOneRight i) θ
        = if i = 0 then 1 - logistic (θ 0 + b 0) else logistic (θ 0 + b 0) := by
    intro i hi θ
    unfold observedLikelihood
    rw [show Finset.range (List.replicate 1 2).length = Finset.range 1 from rfl, Finset.prod_range_one, exOneRight_cell i hi]
    interval_cases i <;> simp [cellMissing, responseOf, onePLWith_prob]
  unfold sampleLikelihood marginalLikelihood
  rw [Finset.prod_range_succ, Finset.prod_range_one]
  simp only [hobs 0 (by norm_num), hobs 1 (by norm_num), if_true, one_ne_zero, if_false]
  rw [wrongProb]
  rfl

/-- One item, answered by one respondent correctly and by another one incorrectly: there are exact rules, best intercepts of size at
most 5 for every number of points, and they converge to zero, the intercept with the largest marginal likelihood. -/
example : ∃ (hg : ℕ → Except PyErr (List ℝ × List ℝ)) (b : ℕ → Fin 1 → ℝ), ExactRules hg ∧
    (∀ n, 1 ≤ n → BestWith (fun b : Fin 1 → ℝ => (onePLWith b).scorer) hg (fun _ => .ok 1) none
      (rowsOf 2 (List.replicate 1 2).length (sampleCells exOneRight)) {b | ∀ j, |b j| ≤ 5} n 0 (b n)) ∧
    Tendsto (fun n => b n 0) atTop (𝓝 0) := by
  obtain ⟨hg, hrules⟩ := C141_rules_exist
  have hvalid : ∀ i, i < 2 → ValidResponses (List.replicate 1 2) (sampleCells exOneRight i) := by
    intro i hi j c hc _
    obtain ⟨hj, rfl⟩ := replicate_getElem? _ _ _ _ hc
    have hj0 : j = 0 := by omega
    subst hj0
    exact ⟨i, exOneRight_cell i hi, hi⟩
  have hchol : IsCholesky (1 : Matrix (Fin 1) (Fin 1) ℝ) 1 := by simp [IsCholesky]
  have hpts : ∀ n : ℕ, 1 ≤ n → ∃ pts lw, mmlIntegration hg (fun _ => .ok (1 : Matrix (Fin 1) (Fin 1) ℝ)) "gauss_hermite" (some n) none = .ok (pts, lw) ∧
      lw.length = pts.length ∧ pts ≠ [] := by
    intro n hn
    obtain ⟨x, w, hx, hexact⟩ := hrules n hn
    have hok := gaussHermite_ok (n := n) (ch := fun _ => .ok (1 : Matrix (Fin 1) (Fin 1) ℝ)) (0 : Fin 1 → ℝ) (cov := 1) hx rfl
    have hl : ((gridProduct x 1).map fun v => fun i => Real.sqrt 2 * ((1 : Matrix (Fin 1) (Fin 1) ℝ).mulVec v) i + (0 : Fin 1 → ℝ) i).length = n := by
      rw [List.length_map, length_gridProduct, hexact.1, pow_one]
    refine ⟨(gridProduct x 1).map fun v => fun i => Real.sqrt 2 * ((1 : Matrix (Fin 1) (Fin 1) ℝ).mulVec v) i + (0 : Fin 1 → ℝ) i,
      List.map Real.log (((gridProduct w 1).map fun v => ∏ i, v i).map fun v => v * Real.pi ^ (-(1 / 2 : ℝ) * (1 : ℕ))), ?_,
      by rw [hl]; simp only [List.length_map]; rw [length_gridProduct, hexact.2.1, pow_one], fun h0 => by
        rw [h0, List.length_nil] at hl; omega⟩
    · unfold mmlIntegration
      simp only [if_true, mmlPoints, mmlCovariance]
      show (gaussHermite hg _ n 0 1 >>= _) = _
      rw [hok]
      rfl
  have hex : ∀ n : ℕ, ∃ b : Fin 1 → ℝ, (∀ j, |b j| ≤ 5) ∧ (1 ≤ n → BestWith (fun b : Fin 1 → ℝ => (onePLWith b).scorer) hg (fun _ => .ok 1) none
      (rowsOf 2 (List.replicate 1 2).length (sampleCells exOneRight)) {b | ∀ j, |b j| ≤ 5} n 0 b) := by
    intro n
    by_cases hn : 1 ≤ n
    · obtain ⟨pts, lw, hok, hl, hne⟩ := hpts n hn
      obtain ⟨b, hb, L', hL', hmin⟩ := C133_onePL_exists one_pos pts lw hl hne 5 (by norm_num) 2 exOneRight exOneRight_mem
      refine ⟨b, hb, fun _ pts' lw' La hok' hLa b' hb' Lb hLb => ?_⟩
      rw [hok] at hok'
      obtain ⟨rfl, rfl⟩ := Prod.mk.inj (Except.ok.inj hok')
      obtain ⟨L, hL, hle⟩ := hmin b' hb'
      have e1 : La = L' := Option.some.inj (Except.ok.inj (hLa.symm.trans hL'))
      have e2 : Lb = L := Option.some.inj (Except.ok.inj (hLb.symm.trans hL))
      rw [e1, e2]
      linarith
    · exact ⟨fun _ => 0, fun _ => by norm_num, fun h => absurd h hn⟩
  choose b hb hbest using hex
  refine ⟨hg, b, hrules, hbest, ?_⟩
  refine C141_onePL one_pos 5 2 (sampleCells exOneRight) hvalid hrules rfl hchol (fun _ => 0) (fun _ => by norm_num) (fun c _ hne => ?_) b hb hbest 0
  rw [exOneRight_likelihood, exOneRight_likelihood, rightProb_zero]
  have hc : c 0 ≠ 0 := fun h => hne (funext fun j => by rw [Subsingleton.elim j 0]; exact h)
  have : rightProb (c 0) ≠ 1 / 2 := by
    rw [← rightProb_zero]
    rcases lt_or_gt_of_ne hc with h | h
    · exact (rightProb_mono h).ne
    · exact (rightProb_mono h).ne'
  nlinarith [sq_pos_of_ne_zero (sub_ne_zero.2 this)]

theorem exOneRight_valid : ∀ i, i < 2 → ValidResponses (List.replicate 1 2) (sampleCells exOneRight i) := by
  intro i hi j c hc _
  obtain ⟨hj, rfl⟩ := replicate_getElem? _ _ _ _ hc
  have hj0 : j = 0 := by omega
  subst hj0
  exact ⟨i, exOneRight_cell i hi, hi⟩

/-- The two methods with the same data and the same item: the limits differ. -/
example : ∃ (hg : ℕ → Except PyErr (List ℝ × List ℝ)) (hermite quasi : ℕ → ℝ) (x x' : ℝ), ExactRules hg ∧
    (∀ n, 1 ≤ n → ∃ pts lw, mmlIntegration hg (fun _ => .ok (1 : Matrix (Fin 1) (Fin 1) ℝ)) "gauss_hermite" (some n) none = .ok (pts, lw) ∧
      mmlLoss (onePLWith fun _ : Fin 1 => 0).scorer (rowsOf 2 (List.replicate 1 2).length (sampleCells exOneRight)) pts lw = .ok (some (hermite n))) ∧
    Tendsto hermite atTop (𝓝 x) ∧ Tendsto (fun n : ℕ => quasi (n + 1) - (2 : ℕ) * ((1 : ℕ) * Real.log (6 / n))) atTop (𝓝 x') ∧
    x = Real.log 4 ∧ x < x' := by
  obtain ⟨hg, hrules⟩ := C141_rules_exist
  obtain ⟨hermite, quasi, x, x', h1, _, h3, h4, h5, h6⟩ := C141_methods le_rfl ((onePLWith fun _ : Fin 1 => 0).isScorer (onePLWith_wf _) one_pos)
    ((onePLWith fun _ : Fin 1 => 0).positive (onePLWith_wf _))
    (fun j r => (onePLWith_jointly j r).comp (by fun_prop : Continuous fun θ : Fin 1 → ℝ => ((fun _ : Fin 1 => (0 : ℝ)), θ)))
    (fun θ j r => onePLWith_le_one _ _ j r) 2 two_pos (sampleCells exOneRight) exOneRight_valid hrules
    (ch := fun _ => .ok (1 : Matrix (Fin 1) (Fin 1) ℝ)) rfl (by simp [IsCholesky])
  refine ⟨hg, hermite, quasi, x, x', hrules, h1, h3, h4, ?_, h6⟩
  rw [h5]
  have := exOneRight_likelihood fun _ => 0
  simp only [rightProb_zero] at this
  rw [show sampleLikelihood (fun θ : Fin 1 → ℝ => tableProb ((onePLWith fun _ : Fin 1 => (0 : ℝ)).probs (θ 0)))
      (List.replicate (onePLWith fun _ : Fin 1 => (0 : ℝ)).items 2).length 1 2 (sampleCells exOneRight) = _ from this, ← Real.log_inv]
  norm_num

/-- A probability as an expectation: the weighted sums of the logistic function converge to one half. -/
example : ∃ (hg : ℕ → Except PyErr (List ℝ × List ℝ)) (value : ℕ → ℝ), ExactRules hg ∧
    (∀ n, 1 ≤ n → ∃ pts wts, gaussHermite hg (fun _ => .ok (1 : Matrix (Fin 1) (Fin 1) ℝ)) n 0 1 = .ok (pts, wts) ∧
      value n = weighted pts wts fun θ => logistic (θ 0 + 0)) ∧ Tendsto value atTop (𝓝 (1 / 2)) := by
  obtain ⟨hg, hrules⟩ := C141_rules_exist
  obtain ⟨value, h1, h2⟩ := C141_expectation hrules (ch := fun _ => .ok (1 : Matrix (Fin 1) (Fin 1) ℝ)) (0 : Fin 1 → ℝ) Matrix.PosDef.one rfl
    (by simp [IsCholesky]) (fun θ => logistic (θ 0 + 0)) (continuous_logistic'.comp (by fun_prop)) 1
    fun θ => abs_le.2 ⟨by linarith [(logistic_unit (θ 0 + 0)).1], (logistic_unit _).2.le⟩
  refine ⟨hg, value, hrules, h1, ?_⟩
  rw [← rightProb_zero]
  exact h2

end Irt
