import Verif.Model.MmlSetup
import Verif.Spec.Marginal
import Verif.Lemmas.Grid
import Verif.Props.Scoring
import Verif.Props.Quadrature

/-! # C80: the default integration method of marginal maximum likelihood; C45: EAP scores on fine grids -/

namespace Irt

open MeasureTheory Filter Topology

theorem continuous_mvn {d : ℕ} (mean : Fin d → ℝ) (cov : Matrix (Fin d) (Fin d) ℝ) :
    Continuous fun θ : Fin d → ℝ => Real.exp (mvnLogDensity mean cov θ) := by
  unfold mvnLogDensity dotProduct Matrix.mulVec dotProduct
  fun_prop

theorem continuous_observedLikelihood {d : ℕ} {P : (Fin d → ℝ) → ℕ → ℕ → ℝ} (hP : ContinuousProbs P) (items : ℕ)
    (row : ℕ → Cell) : Continuous (observedLikelihood P items row) := by
  unfold observedLikelihood
  apply continuous_finsetProd
  intro j _
  by_cases h : cellMissing (row j) = true
  · simp only [h, if_true]; exact continuous_const
  · simp only [h]; exact hP j _

theorem observedLikelihood_pos {d : ℕ} {P : (Fin d → ℝ) → ℕ → ℕ → ℝ} {cats : List ℕ} (hP : PositiveProbs P cats)
    (row : ℕ → Cell) (hrow : ValidResponses cats row) (θ : Fin d → ℝ) : 0 < observedLikelihood P cats.length row θ := by
  unfold observedLikelihood
  refine Finset.prod_pos fun j hj => ?_
  split
  · exact zero_lt_one
  · next hμ =>
    obtain ⟨c, hc⟩ := getElem?_of_lt cats j (Finset.mem_range.1 hj)
    obtain ⟨r, hr, hrc⟩ := hrow j c hc (by simpa using hμ)
    rw [hr]
    exact hP θ j c r hc hrc

/-- A function that is positive and continuous has a positive integral over a box. -/
theorem box_integral_pos {d : ℕ} (a b : Fin d → ℝ) (hab : ∀ k, a k < b k) (F : (Fin d → ℝ) → ℝ) (hF : Continuous F)
    (hpos : ∀ x, 0 < F x) : 0 < ∫ x in Set.Icc a b, F x := by
  rw [setIntegral_pos_iff_support_of_nonneg_ae (Eventually.of_forall fun x => (hpos x).le)
    (hF.continuousOn.integrableOn_compact isCompact_Icc)]
  have : Function.support F = Set.univ := by
    ext x; simp [(hpos x).ne']
  rw [this, Set.univ_inter, Real.volume_Icc_pi]
  exact pos_iff_ne_zero.mpr (Finset.prod_ne_zero_iff.mpr fun k _ => by
    rw [Ne, ENNReal.ofReal_eq_zero, not_le]; linarith [hab k])

/-! ## C80: the points -/

/-- C80: the equidistant grid has `n ^ d` points, every combination of `-3 + 6 i / (n - 1)`, and the log weight of a point is
the log density of the normal distribution with the given covariance; a matrix that is not positive definite is refused. -/
theorem C80_points {d : ℕ} (n : ℕ) (cov : Matrix (Fin d) (Fin d) ℝ) :
    (cov.PosDef → ∃ grid weights, quasiMc n cov = .ok (grid, weights) ∧ grid.length = n ^ d ∧
      (∀ θ, θ ∈ grid ↔ ∀ k, ∃ i : ℕ, i < n ∧ θ k = -3 + 6 * i / ((n : ℝ) - 1)) ∧
      weights = grid.map fun θ => mvnLogDensity 0 cov θ) ∧
    (¬ cov.PosDef → quasiMc n cov = .error .valueError) := by
  refine ⟨fun h => ?_, fun h => ?_⟩
  · refine ⟨cartesianProd fun _ : Fin d => linspace (-3) 3 n, _, ?_,
      length_cartesianProd _ n fun k => length_linspace _ _ _, fun θ => ?_, rfl⟩
    · unfold quasiMc mvnLogProbs
      simp only [if_pos h]
      rfl
    · rw [mem_cartesianProd]
      refine forall_congr' fun k => ?_
      rw [mem_linspace]
      constructor <;> rintro ⟨i, hi', h⟩ <;> refine ⟨i, hi', ?_⟩ <;> rw [h] <;> ring
  · unfold quasiMc mvnLogProbs
    simp only [if_neg h]
    rfl

/-- C80: what `fit` refuses before training: more than three latent variables without a number of points, a covariance matrix of
another shape, and one that is not positive definite. Otherwise `quasi_mc` uses the given number of points, or 15, 7 or 5 for
one, two or three latent variables. -/
theorem C80_setup {d : ℕ} (hd : 1 ≤ d) (hg : ℕ → Except PyErr (List ℝ × List ℝ))
    (ch : Matrix (Fin d) (Fin d) ℝ → Except PyErr (Matrix (Fin d) (Fin d) ℝ)) (points : Option ℕ) (cov : Option CovArg) :
    (3 < d → mmlIntegration hg ch "quasi_mc" none cov = .error .valueError) ∧
    (∀ c, cov = some c → (c.rows ≠ d ∨ c.cols ≠ d) → mmlIntegration hg ch "quasi_mc" points cov = .error .valueError) ∧
    (∀ n, (points = some n ∨ points = none ∧ (d = 1 ∧ n = 15 ∨ d = 2 ∧ n = 7 ∨ d = 3 ∧ n = 5)) →
      (cov = none → mmlIntegration hg ch "quasi_mc" points cov = quasiMc n (1 : Matrix (Fin d) (Fin d) ℝ)) ∧
      (∀ c, cov = some c → c.rows = d → c.cols = d →
        mmlIntegration hg ch "quasi_mc" points cov = quasiMc n (Matrix.of fun i j : Fin d => c.entry i j))) := by
  refine ⟨fun h => ?_, fun c hc h => ?_, fun n hn => ?_⟩
  · unfold mmlIntegration mmlPoints
    simp only [gt_iff_lt, h, if_true]
    rfl
  · subst hc
    unfold mmlIntegration
    cases hp : mmlPoints d points with
    | error e =>
      unfold mmlPoints at hp
      split at hp
      · cases hp
      · split_ifs at hp
        obtain rfl := Except.error.inj hp
        rfl
    | ok n =>
      simp only [mmlCovariance, if_pos h]
      rfl
  · have hp : mmlPoints d points = .ok n := by
      unfold mmlPoints
      rcases hn with rfl | ⟨rfl, ⟨rfl, rfl⟩ | ⟨rfl, rfl⟩ | ⟨rfl, rfl⟩⟩ <;> simp
    refine ⟨fun hc => ?_, fun c hc h1 h2 => ?_⟩
    · subst hc
      unfold mmlIntegration
      rw [hp]
      rfl
    · subst hc
      unfold mmlIntegration
      rw [hp]
      simp only [mmlCovariance, h1, h2, ne_eq, not_true, or_self, if_false]
      rfl

/-- C80: a misspelled method is not refused, it is `quasi_mc`. -/
theorem C80_other_names {d : ℕ} (hg : ℕ → Except PyErr (List ℝ × List ℝ))
    (ch : Matrix (Fin d) (Fin d) ℝ → Except PyErr (Matrix (Fin d) (Fin d) ℝ)) (name : String) (h : name ≠ "gauss_hermite")
    (points : Option ℕ) (cov : Option CovArg) :
    mmlIntegration hg ch name points cov = mmlIntegration hg ch "quasi_mc" points cov := by
  unfold mmlIntegration
  simp only [if_neg h]
  rfl

theorem gridProduct_pos (w : List ℝ) (hw : ∀ v ∈ w, 0 < v) (d : ℕ) : ∀ v ∈ gridProduct w d, 0 < ∏ i, v i := by
  induction d with
  | zero => intro v _; simp
  | succ d ih =>
    intro v hv
    simp only [gridProduct, List.mem_flatMap, List.mem_map] at hv
    obtain ⟨a, ha, u, hu, rfl⟩ := hv
    rw [Fin.prod_univ_succ]
    simp only [Fin.cons_zero, Fin.cons_succ]
    exact mul_pos (hw a ha) (ih u hu)

open Spec in
/-- C80: with `gauss_hermite`, `fit` uses `n ^ d` points, and the exponentials of its log weights sum to one and give them mean
zero and the given covariance (the identity without one). `hermgauss` is exact with positive weights, `cholesky` factors the
covariance. -/
theorem C80_gauss_hermite {d : ℕ} {n : ℕ} (hn : 2 ≤ n) {hg : ℕ → Except PyErr (List ℝ × List ℝ)}
    {ch : Matrix (Fin d) (Fin d) ℝ → Except PyErr (Matrix (Fin d) (Fin d) ℝ)} {x w : List ℝ} (hx : hg n = .ok (x, w))
    (hexact : HermiteExact n x w) (hpos : ∀ v ∈ w, 0 < v) (points : Option ℕ) (cov : Option CovArg)
    (hp : points = some n ∨ points = none ∧ (d = 1 ∧ n = 15 ∨ d = 2 ∧ n = 7 ∨ d = 3 ∧ n = 5)) {L : Matrix (Fin d) (Fin d) ℝ}
    (C : Matrix (Fin d) (Fin d) ℝ)
    (hC : cov = none ∧ C = 1 ∨ ∃ c, cov = some c ∧ c.rows = d ∧ c.cols = d ∧ C = Matrix.of fun i j : Fin d => c.entry i j)
    (hL : ch C = .ok L) (hchol : IsCholesky C L) :
    ∃ pts lw, mmlIntegration hg ch "gauss_hermite" points cov = .ok (pts, lw) ∧ pts.length = n ^ d ∧ lw.length = n ^ d ∧
      (lw.map Real.exp).sum = 1 ∧ (∀ i, weighted pts (lw.map Real.exp) (fun y => y i) = 0) ∧
      ∀ i j, weighted pts (lw.map Real.exp) (fun y => y i * y j) = C i j := by
  obtain ⟨pts, wts, hok, h1, h2, h3, h4, h5⟩ := C42_moments hn hx hexact 0 hL hchol
  have hwpos : ∀ v ∈ wts, 0 < v := by
    have hok' := hok
    unfold gaussHermite at hok'
    rw [hx, hL] at hok'
    have hw' := congrArg Prod.snd (Except.ok.inj hok')
    simp only at hw'
    intro v hv
    rw [← hw'] at hv
    simp only [List.map_map, List.mem_map, Function.comp] at hv
    obtain ⟨u, hu, rfl⟩ := hv
    exact mul_pos (gridProduct_pos w hpos d u hu) (Real.rpow_pos_of_pos Real.pi_pos _)
  have hexp : (wts.map Real.log).map Real.exp = wts := by
    rw [List.map_map]
    conv_rhs => rw [← List.map_id wts]
    exact List.map_congr_left fun v hv => Real.exp_log (hwpos v hv)
  refine ⟨pts, wts.map Real.log, ?_, h1, by rw [List.length_map, h2], ?_, ?_, ?_⟩
  · have hp' : mmlPoints d points = .ok n := by
      unfold mmlPoints
      rcases hp with rfl | ⟨rfl, ⟨rfl, rfl⟩ | ⟨rfl, rfl⟩ | ⟨rfl, rfl⟩⟩ <;> simp
    have hc' : mmlCovariance d cov = .ok C := by
      unfold mmlCovariance
      rcases hC with ⟨rfl, rfl⟩ | ⟨c, rfl, hr, hcl, rfl⟩
      · rfl
      · simp [hr, hcl]
    unfold mmlIntegration
    rw [hp', hc']
    simp only [if_true]
    show (gaussHermite hg ch n 0 C >>= _) = _
    rw [hok]
    rfl
  · rw [hexp, h3]
  · intro i; rw [hexp, h4]; rfl
  · intro i j
    rw [hexp, ← h5]
    simp

open Spec in
/-- The hypotheses are met with two points and the identity. -/
example : ∃ (hg : ℕ → Except PyErr (List ℝ × List ℝ))
    (ch : Matrix (Fin 2) (Fin 2) ℝ → Except PyErr (Matrix (Fin 2) (Fin 2) ℝ)) (x w : List ℝ) (L : Matrix (Fin 2) (Fin 2) ℝ),
    hg 2 = .ok (x, w) ∧ HermiteExact 2 x w ∧ (∀ v ∈ w, 0 < v) ∧ ch 1 = .ok L ∧ IsCholesky 1 L := by
  refine ⟨fun _ => .ok (_, _), fun _ => .ok 1, _, _, _, rfl, hermite_two, ?_, rfl, by simp [IsCholesky]⟩
  intro v hv
  simp only [List.mem_cons, List.not_mem_nil, or_false, or_self] at hv
  rw [hv]
  have := Real.pi_pos
  positivity

/-! ## C80: the objective -/

/-- C80: with the equidistant grid the training loss is minus the sum over respondents of the logarithm of the sum over the grid
of normal density times likelihood. -/
theorem C80_objective {d : ℕ} {m : Scorer d} {cats : List ℕ} {P : (Fin d → ℝ) → ℕ → ℕ → ℝ} (hm : IsScorer m cats P)
    (hpos : PositiveProbs P cats) (N : ℕ) (y : ℕ → ℕ → Cell) (hy : ∀ i, i < N → ValidResponses cats (y i))
    (cov : Matrix (Fin d) (Fin d) ℝ) (hcov : cov.PosDef) (n : ℕ) (hn : 1 ≤ n) :
    ∃ grid weights, quasiMc n cov = .ok (grid, weights) ∧
      mmlLoss m (rowsOf N cats.length y) grid weights = .ok (some (-∑ i ∈ Finset.range N, Real.log
        ((cartesianProd fun _ : Fin d => linspace (-3) 3 n).map fun θ =>
          Real.exp (mvnLogDensity 0 cov θ) * observedLikelihood P cats.length (y i) θ).sum)) := by
  set grid := cartesianProd fun _ : Fin d => linspace (-3) 3 n with hgrid
  have hlen : grid.length = n ^ d := length_cartesianProd _ n fun k => length_linspace _ _ _
  refine ⟨grid, grid.map (mvnLogDensity 0 cov), ?_, ?_⟩
  · unfold quasiMc mvnLogProbs
    simp only [if_pos hcov]
    rfl
  · have hsum : ∀ F : (Fin d → ℝ) → ℝ, (grid.map F).sum = ∑ g ∈ Finset.range grid.length, F (grid.getD g 0) := by
      intro F
      conv_lhs => rw [grid_eq grid, List.map_map]
      rfl
    have h := (C48_objective hm N grid.length y hy (fun g => grid.getD g 0)
      (fun g => Real.exp (mvnLogDensity 0 cov (grid.getD g 0))) fun g _ => Real.exp_pos _).1 ?_
    · simp only [Real.log_exp] at h
      rw [← grid_eq] at h
      have hw : (List.range grid.length).map (fun g => mvnLogDensity 0 cov (grid.getD g 0))
          = grid.map (mvnLogDensity 0 cov) := by
        conv_rhs => rw [grid_eq grid, List.map_map]
        rfl
      rw [hw] at h
      rw [h]
      simp only [hsum]
    · intro i hi
      apply ne_of_gt
      apply Finset.sum_pos
      · exact fun g _ => mul_pos (Real.exp_pos _) (observedLikelihood_pos hpos _ (hy i hi) _)
      · rw [hlen]; exact ⟨0, Finset.mem_range.mpr (Nat.pow_pos hn)⟩

/-- C80: as the number of points grows, the training loss, after the constant `N d log (6 / (n - 1))` that does not depend on the
model is subtracted, converges to minus the sum of the logarithms of the marginal likelihoods over [-3, 3] in every latent
variable. -/
theorem C80_limit {d : ℕ} {m : Scorer d} {cats : List ℕ} {P : (Fin d → ℝ) → ℕ → ℕ → ℝ} (hm : IsScorer m cats P)
    (hpos : PositiveProbs P cats) (hcont : ContinuousProbs P) (N : ℕ) (y : ℕ → ℕ → Cell)
    (hy : ∀ i, i < N → ValidResponses cats (y i)) (cov : Matrix (Fin d) (Fin d) ℝ) (hcov : cov.PosDef) :
    ∃ loss : ℕ → ℝ,
      (∀ n : ℕ, 1 ≤ n → ∃ grid weights, quasiMc n cov = .ok (grid, weights) ∧
        mmlLoss m (rowsOf N cats.length y) grid weights = .ok (some (loss n))) ∧
      Tendsto (fun n : ℕ => loss (n + 1) - N * (d * Real.log (6 / n))) atTop
        (𝓝 (-∑ i ∈ Finset.range N, Real.log (boxLikelihood P cats.length cov (y i) (fun _ => -3) (fun _ => 3)))) := by
  refine ⟨fun n => -∑ i ∈ Finset.range N, Real.log
        ((cartesianProd fun _ : Fin d => linspace (-3) 3 n).map fun θ =>
          Real.exp (mvnLogDensity 0 cov θ) * observedLikelihood P cats.length (y i) θ).sum,
    fun n hn => C80_objective hm hpos N y hy cov hcov n hn, ?_⟩
  have hF : ∀ i, Continuous fun θ => Real.exp (mvnLogDensity 0 cov θ) * observedLikelihood P cats.length (y i) θ :=
    fun i => (continuous_mvn 0 cov).mul (continuous_observedLikelihood hcont _ _)
  have hlim : ∀ i ∈ Finset.range N, Tendsto (fun n : ℕ => Real.log ((∏ _k : Fin d, ((3 : ℝ) - -3) / n) *
      ((cartesianProd fun _ : Fin d => linspace (-3) 3 (n + 1)).map fun θ =>
          Real.exp (mvnLogDensity 0 cov θ) * observedLikelihood P cats.length (y i) θ).sum)) atTop
      (𝓝 (Real.log (boxLikelihood P cats.length cov (y i) (fun _ => -3) (fun _ => 3)))) := by
    intro i hi
    refine (box_grid_tendsto (fun _ : Fin d => (-3 : ℝ)) (fun _ => 3) (fun _ => by norm_num) _ (hF i)).log ?_
    exact (box_integral_pos _ _ (fun _ => by norm_num) _ (hF i) fun θ => mul_pos (Real.exp_pos _)
      (observedLikelihood_pos hpos _ (hy i (Finset.mem_range.mp hi)) _)).ne'
  refine (tendsto_finsetSum _ hlim).neg.congr' ?_
  filter_upwards [eventually_gt_atTop 0] with n hn
  have hn' : (0 : ℝ) < n := by exact_mod_cast hn
  have hterm : ∀ i ∈ Finset.range N, Real.log ((∏ _k : Fin d, ((3 : ℝ) - -3) / n) *
      ((cartesianProd fun _ : Fin d => linspace (-3) 3 (n + 1)).map fun θ =>
          Real.exp (mvnLogDensity 0 cov θ) * observedLikelihood P cats.length (y i) θ).sum)
      = d * Real.log (6 / n) + Real.log ((cartesianProd fun _ : Fin d => linspace (-3) 3 (n + 1)).map fun θ =>
          Real.exp (mvnLogDensity 0 cov θ) * observedLikelihood P cats.length (y i) θ).sum := by
    intro i hi
    have hs : 0 < ((cartesianProd fun _ : Fin d => linspace (-3) 3 (n + 1)).map fun θ =>
          Real.exp (mvnLogDensity 0 cov θ) * observedLikelihood P cats.length (y i) θ).sum := by
      have hl : (cartesianProd fun _ : Fin d => linspace (-3) 3 (n + 1)).length = (n + 1) ^ d :=
        length_cartesianProd _ _ fun k => length_linspace _ _ _
      obtain ⟨θ, hθ⟩ := List.exists_mem_of_length_pos (by rw [hl]; positivity :
        0 < (cartesianProd fun _ : Fin d => linspace (-3) 3 (n + 1)).length)
      have hp : ∀ θ, 0 < Real.exp (mvnLogDensity 0 cov θ) * observedLikelihood P cats.length (y i) θ := fun θ =>
        mul_pos (Real.exp_pos _) (observedLikelihood_pos hpos _ (hy i (Finset.mem_range.mp hi)) _)
      exact list_sum_pos_of_mem _ _ (fun x _ => (hp x).le) θ hθ (hp θ)
    rw [Real.log_mul (Finset.prod_pos fun _ _ => by positivity).ne' hs.ne', Finset.prod_const, Real.log_pow]
    norm_num
  rw [Finset.sum_congr rfl hterm, Finset.sum_add_distrib]
  simp
  ring

/-- C80: the limit exceeds minus the log marginal likelihood by minus the sum of the logarithms of the posterior probabilities of
[-3, 3], which lie strictly between 0 and 1. -/
theorem C80_truncation {d : ℕ} (hd : 1 ≤ d) {cats : List ℕ} {P : (Fin d → ℝ) → ℕ → ℕ → ℝ}
    (hpos : PositiveProbs P cats) (hcont : ContinuousProbs P) (hle : ∀ θ j r, P θ j r ≤ 1) (y : ℕ → Cell)
    (hy : ValidResponses cats y) (cov : Matrix (Fin d) (Fin d) ℝ) (hcov : cov.PosDef) :
    ∃ q : ℝ, 0 < q ∧ q < 1 ∧ 0 < marginalLikelihood P cats.length cov y ∧
      boxLikelihood P cats.length cov y (fun _ => -3) (fun _ => 3) = q * marginalLikelihood P cats.length cov y ∧
      -Real.log (boxLikelihood P cats.length cov y (fun _ => -3) (fun _ => 3))
        = -Real.log (marginalLikelihood P cats.length cov y) - Real.log q := by
  set F : (Fin d → ℝ) → ℝ := fun θ => Real.exp (mvnLogDensity 0 cov θ) * observedLikelihood P cats.length y θ with hFdef
  have hF : Continuous F := (continuous_mvn 0 cov).mul (continuous_observedLikelihood hcont _ _)
  have hFpos : ∀ θ, 0 < F θ := fun θ => mul_pos (Real.exp_pos _) (observedLikelihood_pos hpos _ hy _)
  have hmvn : Integrable fun θ : Fin d → ℝ => Real.exp (mvnLogDensity 0 cov θ) := by
    by_contra h
    have := integral_mvn 0 cov hcov
    rw [integral_undef h] at this
    norm_num at this
  have hL : ∀ θ, observedLikelihood P cats.length y θ ≤ 1 := by
    intro θ
    unfold observedLikelihood
    refine Finset.prod_le_one (fun j hj => ?_) fun j _ => ?_
    · split
      · exact zero_le_one
      · next hμ =>
        obtain ⟨c, hc⟩ := getElem?_of_lt cats j (Finset.mem_range.1 hj)
        obtain ⟨r, hr, hrc⟩ := hy j c hc (by simpa using hμ)
        rw [hr]
        exact (hpos θ j c r hc hrc).le
    · split
      · exact le_rfl
      · exact hle _ _ _
  have hint : Integrable F := by
    refine hmvn.mono' hF.aestronglyMeasurable (Eventually.of_forall fun θ => ?_)
    rw [Real.norm_of_nonneg (hFpos θ).le]
    exact mul_le_of_le_one_right (Real.exp_pos _).le (hL θ)
  have hbox : 0 < ∫ θ in Set.Icc (fun _ : Fin d => (-3 : ℝ)) (fun _ => 3), F θ :=
    box_integral_pos _ _ (fun _ => by norm_num) F hF hFpos
  have hout : 0 < ∫ θ in (Set.Icc (fun _ : Fin d => (-3 : ℝ)) (fun _ => 3))ᶜ, F θ := by
    rw [setIntegral_pos_iff_support_of_nonneg_ae (Eventually.of_forall fun x => (hFpos x).le) hint.integrableOn]
    have : Function.support F = Set.univ := by
      ext x; simp [(hFpos x).ne']
    rw [this, Set.univ_inter]
    by_contra h0
    rw [not_lt, nonpos_iff_eq_zero] at h0
    have h1 := measure_add_measure_compl (μ := volume)
      (measurableSet_Icc (a := fun _ : Fin d => (-3 : ℝ)) (b := fun _ => 3))
    rw [h0, add_zero] at h1
    have : Nonempty (Fin d) := ⟨⟨0, hd⟩⟩
    rw [measure_univ_of_isAddLeftInvariant] at h1
    exact isCompact_Icc.measure_lt_top.ne h1
  have hsplit := integral_add_compl (measurableSet_Icc (a := fun _ : Fin d => (-3 : ℝ)) (b := fun _ => 3)) hint
  have hm : marginalLikelihood P cats.length cov y = ∫ θ, F θ := rfl
  have hb : boxLikelihood P cats.length cov y (fun _ => -3) (fun _ => 3)
      = ∫ θ in Set.Icc (fun _ : Fin d => (-3 : ℝ)) (fun _ => 3), F θ := rfl
  rw [hm, hb]
  have hfull : 0 < ∫ θ, F θ := by linarith
  refine ⟨(∫ θ in Set.Icc (fun _ : Fin d => (-3 : ℝ)) (fun _ => 3), F θ) / ∫ θ, F θ, by positivity, ?_, hfull, ?_, ?_⟩
  · rw [div_lt_one hfull]; linarith
  · field_simp
  · rw [Real.log_div hbox.ne' hfull.ne']; ring

/-! ## C45: EAP scores on fine grids -/

theorem eap_limit {d : ℕ} (hd : d ≤ 4) {m : Scorer d} {cats : List ℕ} {P : (Fin d → ℝ) → ℕ → ℕ → ℝ} (hm : IsScorer m cats P)
    (hpos : PositiveProbs P cats) (hcont : ContinuousProbs P) (a : AlgAttrs d) (lo hi : Fin d → ℝ) (hlh : ∀ k, lo k < hi k)
    (cov : Matrix (Fin d) (Fin d) ℝ)
    (hgrid : ∀ n, eapGrid a n = .ok (cartesianProd fun k => linspace (lo k) (hi k) n, cov)) (hcov : cov.PosDef) (N : ℕ)
    (y : ℕ → ℕ → Cell) (hy : ∀ i, i < N → ValidResponses cats (y i)) :
    ∃ score : ℕ → ℕ → Fin d → ℝ,
      (∀ n : ℕ, 1 ≤ n → eapScores m a (rowsOf N cats.length y) (some n) = .ok ((List.range N).map fun i => some (score n i))) ∧
      ∀ i k, i < N → Tendsto (fun n : ℕ => score (n + 1) i k) atTop
        (𝓝 ((∫ θ in Set.Icc lo hi, Real.exp (mvnLogDensity 0 cov θ) * observedLikelihood P cats.length (y i) θ * θ k)
          / boxLikelihood P cats.length cov (y i) lo hi)) := by
  have hp : ∀ i, i < N → ∀ θ, 0 < Real.exp (mvnLogDensity 0 cov θ) * observedLikelihood P cats.length (y i) θ :=
    fun i hi θ => mul_pos (Real.exp_pos _) (observedLikelihood_pos hpos _ (hy i hi) _)
  have hl : ∀ n, (cartesianProd fun k => linspace (lo k) (hi k) n).length = n ^ d := fun n =>
    length_cartesianProd _ _ fun k => length_linspace _ _ _
  have hs : ∀ i, i < N → ∀ n : ℕ, 1 ≤ n → 0 < ((cartesianProd fun k => linspace (lo k) (hi k) n).map fun θ =>
        Real.exp (mvnLogDensity 0 cov θ) * observedLikelihood P cats.length (y i) θ).sum := by
    intro i hi' n hn
    obtain ⟨θ, hθ⟩ := List.exists_mem_of_length_pos (by rw [hl]; exact Nat.pow_pos hn :
        0 < (cartesianProd fun k => linspace (lo k) (hi k) n).length)
    exact list_sum_pos_of_mem _ _ (fun x _ => (hp i hi' x).le) θ hθ (hp i hi' θ)
  refine ⟨fun n i k => ((cartesianProd fun k => linspace (lo k) (hi k) n).map fun θ =>
        Real.exp (mvnLogDensity 0 cov θ) * observedLikelihood P cats.length (y i) θ * θ k).sum
      / ((cartesianProd fun k => linspace (lo k) (hi k) n).map fun θ =>
        Real.exp (mvnLogDensity 0 cov θ) * observedLikelihood P cats.length (y i) θ).sum, fun n hn => ?_, fun i k hi' => ?_⟩
  · rw [C45_posterior_mean hm a hd (some n) N y hy (cartesianProd fun k => linspace (lo k) (hi k) n) (by
      intro h0
      have h1 := hl n
      rw [h0, List.length_nil] at h1
      exact (Nat.pow_pos hn).ne h1) cov hcov (hgrid n)]
    congr 1
    apply List.map_congr_left
    intro i hi'
    rw [if_neg (hs i (List.mem_range.mp hi') n hn).ne']
  · have hF : Continuous fun θ => Real.exp (mvnLogDensity 0 cov θ) * observedLikelihood P cats.length (y i) θ :=
      (continuous_mvn 0 cov).mul (continuous_observedLikelihood hcont _ _)
    have h1 := box_grid_tendsto lo hi hlh _ (hF.mul (continuous_apply k))
    have h2 := box_grid_tendsto lo hi hlh _ hF
    have hb : 0 < ∫ θ in Set.Icc lo hi, Real.exp (mvnLogDensity 0 cov θ) * observedLikelihood P cats.length (y i) θ :=
      box_integral_pos _ _ hlh _ hF (hp i hi')
    refine (h1.div h2 hb.ne').congr' ?_
    filter_upwards [eventually_gt_atTop 0] with n hn
    have hn' : (0 : ℝ) < n := by exact_mod_cast hn
    exact mul_div_mul_left _ _ (Finset.prod_pos fun k _ => div_pos (sub_pos.mpr (hlh k)) hn').ne'

/-- C45: for an algorithm without training scores (marginal maximum likelihood), the EAP scores converge, as the number of grid
points per latent variable grows, to the mean of the posterior distribution over [-3, 3] in every latent variable. -/
theorem C45_limit {d : ℕ} (hd : d ≤ 4) {m : Scorer d} {cats : List ℕ} {P : (Fin d → ℝ) → ℕ → ℕ → ℝ} (hm : IsScorer m cats P)
    (hpos : PositiveProbs P cats) (hcont : ContinuousProbs P) (a : AlgAttrs d) (ha : a.trainingThetas = none)
    (cov : Matrix (Fin d) (Fin d) ℝ) (hac : a.covariance = some (some cov)) (hcov : cov.PosDef) (N : ℕ) (y : ℕ → ℕ → Cell)
    (hy : ∀ i, i < N → ValidResponses cats (y i)) :
    ∃ score : ℕ → ℕ → Fin d → ℝ,
      (∀ n : ℕ, 1 ≤ n → eapScores m a (rowsOf N cats.length y) (some n) = .ok ((List.range N).map fun i => some (score n i))) ∧
      ∀ i k, i < N → Tendsto (fun n : ℕ => score (n + 1) i k) atTop
        (𝓝 ((∫ θ in Set.Icc (fun _ : Fin d => (-3 : ℝ)) (fun _ => 3),
            Real.exp (mvnLogDensity 0 cov θ) * observedLikelihood P cats.length (y i) θ * θ k)
          / boxLikelihood P cats.length cov (y i) (fun _ => -3) (fun _ => 3))) :=
  eap_limit hd hm hpos hcont a (fun _ => -3) (fun _ => 3) (fun _ => by norm_num) cov
    (fun n => by unfold eapGrid; rw [ha]; simp only [hac]) hcov N y hy

/-- C45: for an algorithm with training scores that are not all equal in any latent variable, the EAP scores converge to the mean
of the posterior distribution, with the sample covariance of the training scores in the prior, over the range of the training
scores extended by a quarter of its length on both sides. -/
theorem C45_limit_training {d : ℕ} (hd : d ≤ 4) {m : Scorer d} {cats : List ℕ} {P : (Fin d → ℝ) → ℕ → ℕ → ℝ}
    (hm : IsScorer m cats P) (hpos : PositiveProbs P cats) (hcont : ContinuousProbs P) (a : AlgAttrs d) (ts : Thetas d)
    (hts : ts ≠ []) (ha : a.trainingThetas = some (some ts)) (lo hi : Fin d → ℝ)
    (hlo : ∀ k, IsLeast {x | ∃ t ∈ ts, t k = x} (lo k)) (hhi : ∀ k, IsGreatest {x | ∃ t ∈ ts, t k = x} (hi k))
    (hlh : ∀ k, lo k < hi k) (hcov : (sampleCov ts).PosDef) (N : ℕ) (y : ℕ → ℕ → Cell)
    (hy : ∀ i, i < N → ValidResponses cats (y i)) :
    ∃ score : ℕ → ℕ → Fin d → ℝ,
      (∀ n : ℕ, 1 ≤ n → eapScores m a (rowsOf N cats.length y) (some n) = .ok ((List.range N).map fun i => some (score n i))) ∧
      ∀ i k, i < N → Tendsto (fun n : ℕ => score (n + 1) i k) atTop
        (𝓝 ((∫ θ in Set.Icc (fun k => lo k - (hi k - lo k) * 0.25) (fun k => hi k + (hi k - lo k) * 0.25),
            Real.exp (mvnLogDensity 0 (sampleCov ts) θ) * observedLikelihood P cats.length (y i) θ * θ k)
          / boxLikelihood P cats.length (sampleCov ts) (y i) (fun k => lo k - (hi k - lo k) * 0.25)
            (fun k => hi k + (hi k - lo k) * 0.25))) := by
  have hset : ∀ k, {x | x ∈ ts.map fun t => t k} = {x | ∃ t ∈ ts, t k = x} := by
    intro k; ext x; simp
  have hne : ∀ k : Fin d, ts.map (fun t => t k) ≠ [] := by intro k; simpa using hts
  have hmin : ∀ k, columnMin (ts.map fun t => t k) = lo k := by
    intro k
    have := columnMin_isLeast _ (hne k)
    rw [hset] at this
    exact this.unique (hlo k)
  have hmax : ∀ k, columnMax (ts.map fun t => t k) = hi k := by
    intro k
    have := columnMax_isGreatest _ (hne k)
    rw [hset] at this
    exact this.unique (hhi k)
  refine eap_limit hd hm hpos hcont a (fun k => lo k - (hi k - lo k) * 0.25) (fun k => hi k + (hi k - lo k) * 0.25)
    (fun k => by nlinarith [hlh k]) (sampleCov ts) (fun n => ?_) hcov N y hy
  unfold eapGrid thetaGrid
  rw [ha]
  simp only [hts, if_false, hmin, hmax]
  rfl

/-! ## Non-vacuity -/

/-- One item with two categories and the probabilities of the logistic model. -/
noncomputable def exLogistic : Scorer 1 :=
  tableScorer 1 fun θ => [[1 - (1 + Real.exp (-θ 0))⁻¹, (1 + Real.exp (-θ 0))⁻¹]]

theorem exLogistic_bounds (x : ℝ) : 0 < (1 + Real.exp (-x))⁻¹ ∧ (1 + Real.exp (-x))⁻¹ < 1 := by
  have := Real.exp_pos (-x)
  exact ⟨by positivity, inv_lt_one_of_one_lt₀ (by linarith)⟩

example : ∃ P, IsScorer exLogistic [2] P ∧ PositiveProbs P [2] ∧ ContinuousProbs P ∧ (∀ θ j r, P θ j r ≤ 1) ∧
    (∀ i : ℕ, ValidResponses [2] (fun _ => some ((i % 2 : ℕ) : ℤ))) ∧ (1 : Matrix (Fin 1) (Fin 1) ℝ).PosDef := by
  have key : ∀ (θ : Fin 1 → ℝ) (j r : ℕ), tableProb [[1 - (1 + Real.exp (-θ 0))⁻¹, (1 + Real.exp (-θ 0))⁻¹]] j r
      = if j = 0 then (if r = 0 then 1 - (1 + Real.exp (-θ 0))⁻¹ else if r = 1 then (1 + Real.exp (-θ 0))⁻¹ else 0) else 0 := by
    intro θ j r
    rcases j with _ | j
    · rcases r with _ | _ | r <;> simp [tableProb]
    · simp [tableProb]
  refine ⟨_, tableScorer_isScorer [2] (by simp) _ (by simp) ?_ ?_, ?_, ?_, ?_, ?_, Matrix.PosDef.one⟩
  · intro θ j c p hc hp
    rcases j with _ | j
    · simp at hc hp; subst hc hp; simp
    · simp at hc
  · intro θ p hp x hx
    have := exLogistic_bounds (θ 0)
    simp at hp
    subst hp
    simp at hx
    rcases hx with rfl | rfl
    · linarith [this.2]
    · exact this.1.le
  · intro θ j c r hc hr
    have := exLogistic_bounds (θ 0)
    simp only [key]
    rcases j with _ | j
    · simp at hc
      subst hc
      rcases r with _ | _ | r
      · simp; linarith [this.2]
      · simpa using this.1
      · omega
    · simp at hc
  · intro j r
    simp only [key]
    have hc : Continuous fun θ : Fin 1 → ℝ => (1 + Real.exp (-θ 0))⁻¹ :=
      Continuous.inv₀ (by fun_prop) fun θ => by positivity
    split_ifs
    · exact continuous_const.sub hc
    · exact hc
    · exact continuous_const
    · exact continuous_const
  · intro θ j r
    have := exLogistic_bounds (θ 0)
    simp only [key]
    split_ifs
    · linarith [this.1]
    · exact this.2.le
    · exact zero_le_one
    · exact zero_le_one
  · intro i j c hc _
    rcases j with _ | j
    · simp at hc
      subst hc
      exact ⟨i % 2, rfl, Nat.mod_lt _ (by norm_num)⟩
    · simp at hc

end Irt
