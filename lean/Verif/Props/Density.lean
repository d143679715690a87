import Verif.Lemmas.Density
import Verif.Lemmas.Mixture
import Verif.Lemmas.Scoring
import Verif.Spec.Evaluator
import Verif.Props.LatentFunctions
import Verif.Props.Mixture
import Verif.Props.Groups
import Mathlib.Probability.Distributions.Gaussian.Real

/-!
# C72, C78, C79: the densities used for the latent variables
-/

namespace Irt

open MeasureTheory Spec

/-- **C72** The density a mixture reports is a probability density: it is positive everywhere and integrates to one, for every
number of components and variables. -/
theorem C72_density {K d : ℕ} (hK : 0 < K) {g : GMM K d} (hg : ValidMixture g.weights g.covariances) (x₀ : Fin d → ℝ) (p₀ : ℝ)
    (h : gmmPdf g x₀ = .ok p₀) :
    ∃ f : (Fin d → ℝ) → ℝ, (∀ x, gmmPdf g x = .ok (f x)) ∧ (∀ x, 0 < f x) ∧ ∫ x, f x = 1 := by
  obtain ⟨lp, hlp, -⟩ := bind_eq_ok h
  obtain ⟨hpd, -⟩ := gmmLogProbs_ok hlp
  refine ⟨fun x => ∑ k, g.weights k * Real.exp (mvnLogDensity (g.means k) (g.covariances k) x), fun x => ?_, fun x => ?_, ?_⟩
  · unfold gmmPdf
    rw [gmmLogProbs_of_posDef _ hpd]
    rfl
  · exact Finset.sum_pos (fun k _ => mul_pos (hg.1 k) (Real.exp_pos _)) ⟨⟨0, hK⟩, Finset.mem_univ _⟩
  · rw [integral_finsetSum _ fun k _ => (integrable_of_integral_eq_one (integral_mvn _ _ (hpd k))).const_mul _]
    simp only [integral_const_mul, integral_mvn _ _ (hpd _), mul_one, hg.2.1]

example : ∃ f : (Fin 2 → ℝ) → ℝ, (∀ x, gmmPdf (K := 3) ⟨fun _ => 1 / 3, fun k _ => k.val, fun _ => 1⟩ x = .ok (f x)) ∧
    (∀ x, 0 < f x) ∧ ∫ x, f x = 1 := by
  obtain ⟨g, hg, hval, hpd⟩ := (C44_constructed 3 2 (fun k _ => k.val)).1 ⟨by omega, by omega⟩
  have he : g = ⟨fun _ => 1 / 3, fun k _ => k.val, fun _ => 1⟩ := by
    have : gmmInit 3 2 (fun k _ => k.val) = .ok ⟨fun _ => 1 / 3, fun k _ => k.val, fun _ => 1⟩ := by
      simp [gmmInit]
    rw [this] at hg
    exact (Except.ok.inj hg).symm
  subst he
  exact C72_density (by omega) hval 0 _ (by unfold gmmPdf; rw [gmmLogProbs_of_posDef _ hpd]; rfl)

/-- The M step gives positive definite covariances for data that is not contained in a hyperplane. -/
theorem gmmMStep_posDef {K d n : ℕ} (hn : 0 < n) (data : Fin n → Fin d → ℝ) {r : Fin K → Fin n → ℝ} (hr : Responsible r)
    (hs : ∀ c : Fin d → ℝ, c ≠ 0 → ∀ b : ℝ, ∃ i, ∑ j, c j * data i j ≠ b) (k : Fin K) :
    ((gmmMStep data r).covariances k).PosDef := by
  have hR : 0 < ∑ i, r k i := Finset.sum_pos (fun i _ => hr.1 k i) ⟨⟨0, hn⟩, Finset.mem_univ _⟩
  obtain ⟨hsymm, -⟩ := (gmmMStep_valid hn data hr).2.2 k
  refine Matrix.PosDef.of_dotProduct_mulVec_pos ?_ fun v hv => ?_
  · rw [Matrix.IsHermitian, Matrix.conjTranspose_eq_transpose_of_trivial]; exact hsymm
  · rw [star_trivial, gmmMStep_cov, quad_form data ((gmmMStep data r).means k) (r k) (∑ i, r k i) v]
    obtain ⟨i, hi⟩ := hs v hv (∑ j, v j * (gmmMStep data r).means k j)
    refine div_pos (Finset.sum_pos' (fun i _ => mul_nonneg (hr.1 k i).le (sq_nonneg _)) ⟨i, Finset.mem_univ _, ?_⟩) hR
    refine mul_pos (hr.1 k i) (sq_pos_of_ne_zero fun h0 => hi ?_)
    simp only [dotProduct, Pi.sub_apply, sub_mul, Finset.sum_sub_distrib] at h0
    rw [sub_eq_zero] at h0
    rw [Finset.sum_congr rfl fun j _ => mul_comm (v j) (data i j), h0]
    exact Finset.sum_congr rfl fun j _ => mul_comm _ _

/-- **C44** A fit of any number of iterations succeeds, and all covariances stay positive definite, whenever the data is not
contained in a hyperplane. -/
theorem C44_defined {K d n : ℕ} (hK : 0 < K) (hn : 0 < n) {g : GMM K d} (hg : ValidMixture g.weights g.covariances)
    (hpd : ∀ k, (g.covariances k).PosDef) (data : Fin n → Fin d → ℝ)
    (hs : ∀ c : Fin d → ℝ, c ≠ 0 → ∀ b : ℝ, ∃ i, ∑ j, c j * data i j ≠ b) (it : ℕ) :
    ∃ g', gmmFit g data it = .ok g' ∧ ∀ k, (g'.covariances k).PosDef := by
  have key : ∀ (it : ℕ) (g : GMM K d), ValidMixture g.weights g.covariances → (∀ k, (g.covariances k).PosDef) →
      ∃ g', gmmLoop data it g = .ok g' ∧ ∀ k, (g'.covariances k).PosDef := by
    intro it
    induction it with
    | zero => exact fun g _ hpd => ⟨g, rfl, hpd⟩
    | succ it ih =>
      intro g hg hpd
      obtain ⟨r, hr⟩ : ∃ r, gmmEStep g data = .ok r := by
        unfold gmmEStep
        rw [gmmLogProbs_of_posDef data hpd]
        exact ⟨_, rfl⟩
      have hresp := gmmEStep_responsible hK hg.1 hr
      obtain ⟨g', h1, h2⟩ := ih (gmmMStep data r) (gmmMStep_valid hn data hresp) (gmmMStep_posDef hn data hresp hs)
      refine ⟨g', ?_, h2⟩
      unfold gmmLoop
      rw [hr]
      exact h1
  obtain ⟨g', h1, h2⟩ := key it g hg hpd
  refine ⟨g', ?_, h2⟩
  unfold gmmFit
  rw [if_neg (by omega), dif_pos rfl]
  exact h1

/-- Two distinct values on the line are not contained in a hyperplane. -/
theorem line_spans {n : ℕ} (data : Fin n → Fin 1 → ℝ) (i j : Fin n) (h : data i 0 ≠ data j 0) :
    ∀ c : Fin 1 → ℝ, c ≠ 0 → ∀ b : ℝ, ∃ i, ∑ k, c k * data i k ≠ b := by
  intro c hc b
  by_contra hcon
  push Not at hcon
  have h1 := hcon i
  have h2 := hcon j
  rw [Fin.sum_univ_one] at h1 h2
  have hc0 : c 0 ≠ 0 := fun h0 => hc (funext fun k => by rw [Subsingleton.elim k 0, h0]; rfl)
  exact h (mul_left_cancel₀ hc0 (h1.trans h2.symm))

example : ∃ g', gmmFit (K := 2) (d := 1) ⟨fun _ => 1 / 2, fun k _ => k.val, fun _ => 1⟩ (![![0], ![2], ![7]] : Fin 3 → Fin 1 → ℝ) 100
    = .ok g' ∧ ∀ k, (g'.covariances k).PosDef := by
  obtain ⟨g, hg, hval, hpd⟩ := (C44_constructed 2 1 (fun k _ => k.val)).1 ⟨by omega, by omega⟩
  have he : gmmInit 2 1 (fun k _ => k.val) = .ok ⟨fun _ => 1 / 2, fun k _ => k.val, fun _ => 1⟩ := by simp [gmmInit]
  rw [he] at hg
  cases hg
  exact C44_defined (by omega) (by omega) hval hpd _ (line_spans _ 0 1 (by simp)) 100

/-! ## C78 -/

/-- The table from which coordinate `k` is interpolated. -/
theorem knots_nodup {n d : ℕ} (q : QuantileNormal n d) (k : Fin d) (h : Function.Injective fun i => q.data i k) :
    ((List.ofFn fun i => (q.data i k, q.qtData i k)).map Prod.fst).Nodup := by
  rw [List.map_ofFn, List.nodup_ofFn]
  exact h

theorem pdf_of_coords {n d : ℕ} (q : QuantileNormal n d) (x v : Fin d → ℝ)
    (h : ∀ k, interp (List.ofFn fun i => (q.data i k, q.qtData i k)) (x k) = .ok (some (v k))) :
    q.pdf x = .ok (some (Real.exp (mvnLogDensity q.mean q.cov v))) := by
  unfold QuantileNormal.pdf
  rw [mapM_ok _ _ (fun k => some (v k)) (fun k _ => h k)]
  simp only [bind, Except.bind, pure, Except.pure, Except.ok.injEq]
  have : ((List.finRange d).map fun k => some (v k)).mapM id = some ((List.finRange d).map v) := by
    exact mapM_some _ _ (by rw [List.map_map]; rfl)
  rw [this]
  simp

theorem quantileFit_ok {n d : ℕ} {argsort : (Fin n → ℝ) → Fin n → Fin n} {icdf : ℝ → ℝ} {data : Fin n → Fin d → ℝ}
    {q : QuantileNormal n d} (h : quantileFit argsort icdf data = .ok q) :
    q.data = data ∧ (∀ i k, q.qtData i k = quantileTransform argsort icdf (fun r => data r k) i) ∧
      q.mean = scoreMean q.qtData ∧ q.cov = scoreCov q.qtData ∧ q.cov.PosDef := by
  unfold quantileFit at h
  simp only at h
  split at h
  · rename_i hp
    cases h
    exact ⟨rfl, fun _ _ => rfl, rfl, rfl, hp⟩
  · cases h

/-- **C78** The approximate density is defined and positive at every point, if it could be fitted, there are at least two
rows and no column has two equal values. -/
theorem C78_positive {n d : ℕ} (argsort : (Fin n → ℝ) → Fin n → Fin n) (icdf : ℝ → ℝ) (data : Fin n → Fin d → ℝ)
    (q : QuantileNormal n d) (h : quantileFit argsort icdf data = .ok q) (hn : 2 ≤ n)
    (hd : ∀ k, Function.Injective fun i => data i k) (x : Fin d → ℝ) : ∃ v : ℝ, q.pdf x = .ok (some v) ∧ 0 < v := by
  obtain ⟨h1, -⟩ := quantileFit_ok h
  have hex : ∀ k, ∃ v, interp (List.ofFn fun i => (q.data i k, q.qtData i k)) (x k) = .ok (some v) := by
    intro k
    obtain ⟨a, b, -, -, he⟩ := interp_eq _ (knots_nodup q k (by rw [h1]; exact hd k)) (by simpa using hn) (x k)
    exact ⟨_, he⟩
  choose v hv using hex
  exact ⟨_, pdf_of_coords q x v hv, Real.exp_pos _⟩

/-- **C78** At a row of the data it was fitted to, the approximate density is the normal density of the row's normal scores,
with the mean and covariance of all normal scores. -/
theorem C78_training_rows {n d : ℕ} (argsort : (Fin n → ℝ) → Fin n → Fin n) (icdf : ℝ → ℝ) (data : Fin n → Fin d → ℝ)
    (q : QuantileNormal n d) (h : quantileFit argsort icdf data = .ok q) (hn : 2 ≤ n)
    (hd : ∀ k, Function.Injective fun i => data i k) (i : Fin n) :
    let z : Fin n → Fin d → ℝ := fun i k => quantileTransform argsort icdf (fun r => data r k) i
    q.pdf (data i) = .ok (some (Real.exp (mvnLogDensity (scoreMean z) (scoreCov z) (z i)))) := by
  obtain ⟨h1, h2, h3, h4, -⟩ := quantileFit_ok h
  have hz : q.qtData = fun i k => quantileTransform argsort icdf (fun r => data r k) i := by
    funext i k; exact h2 i k
  intro z
  rw [show scoreMean z = q.mean by rw [h3, hz], show scoreCov z = q.cov by rw [h4, hz]]
  apply pdf_of_coords
  intro k
  have := C53_knots _ (knots_nodup q k (by rw [h1]; exact hd k)) (by simpa using hn) (data i k, z i k)
    (by rw [List.mem_ofFn]; exact ⟨i, by rw [h1, hz]⟩)
  exact this

/-- The sample covariance as a quadratic form. -/
theorem scoreCov_quadratic {n d : ℕ} (z : Fin n → Fin d → ℝ) (c : Fin d → ℝ) :
    c ⬝ᵥ ((scoreCov z).mulVec c) = (∑ i, (∑ k, c k * (z i k - scoreMean z k)) ^ 2) / ((n : ℝ) - 1) := by
  have e : ∀ i, (∑ k, c k * (z i k - scoreMean z k)) ^ 2
      = ∑ a, ∑ b, c a * ((z i a - scoreMean z a) * (z i b - scoreMean z b)) * c b := by
    intro i
    rw [sq, Finset.sum_mul_sum]
    refine Finset.sum_congr rfl fun a _ => Finset.sum_congr rfl fun b _ => by ring
  simp only [dotProduct, Matrix.mulVec, scoreCov, Matrix.of_apply]
  rw [Finset.sum_congr rfl fun i _ => e i]
  calc ∑ a, c a * ∑ b, (∑ i, (z i a - scoreMean z a) * (z i b - scoreMean z b)) / ((n : ℝ) - 1) * c b
      = ∑ a, ∑ b, ∑ i, c a * ((z i a - scoreMean z a) * (z i b - scoreMean z b)) * c b / ((n : ℝ) - 1) := by
        refine Finset.sum_congr rfl fun a _ => ?_
        rw [Finset.mul_sum]
        refine Finset.sum_congr rfl fun b _ => ?_
        rw [Finset.sum_div, Finset.sum_mul, Finset.mul_sum]
        exact Finset.sum_congr rfl fun i _ => by ring
    _ = ∑ i, ∑ a, ∑ b, c a * ((z i a - scoreMean z a) * (z i b - scoreMean z b)) * c b / ((n : ℝ) - 1) := by
        rw [Finset.sum_congr rfl fun a _ => Finset.sum_comm, Finset.sum_comm]
    _ = _ := by
        rw [Finset.sum_div]
        refine Finset.sum_congr rfl fun i _ => ?_
        rw [Finset.sum_div]
        exact Finset.sum_congr rfl fun a _ => (Finset.sum_div _ _ _).symm

/-- **C78** With at least two rows the fit is refused exactly when the normal scores are collinear: some combination of the
columns, not all of whose coefficients are zero, is the same for all rows. -/
theorem C78_refused {n d : ℕ} (argsort : (Fin n → ℝ) → Fin n → Fin n) (icdf : ℝ → ℝ) (data : Fin n → Fin d → ℝ)
    (hn : 2 ≤ n) :
    quantileFit argsort icdf data = .error .valueError ↔
      ∃ c : Fin d → ℝ, c ≠ 0 ∧ ∃ b : ℝ, ∀ i, ∑ k, c k * quantileTransform argsort icdf (fun r => data r k) i = b := by
  set z : Fin n → Fin d → ℝ := fun i k => quantileTransform argsort icdf (fun r => data r k) i with hz
  have hn1 : (0 : ℝ) < (n : ℝ) - 1 := by
    have : (2 : ℝ) ≤ n := by exact_mod_cast hn
    linarith
  have hherm : (scoreCov z).IsHermitian := by
    ext a b
    simp only [Matrix.conjTranspose_apply, star_trivial, scoreCov, Matrix.of_apply]
    congr 1
    exact Finset.sum_congr rfl fun i _ => by ring
  have hfit : quantileFit argsort icdf data = .error .valueError ↔ ¬ (scoreCov z).PosDef := by
    unfold quantileFit
    simp only [← hz]
    split <;> simp_all
  have hpd : (scoreCov z).PosDef ↔ ∀ c : Fin d → ℝ, c ≠ 0 → 0 < c ⬝ᵥ ((scoreCov z).mulVec c) := by
    rw [Matrix.posDef_iff_dotProduct_mulVec]
    simp only [star_trivial, hherm, true_and]
  rw [hfit, hpd]
  push Not
  constructor
  · rintro ⟨c, hc, hle⟩
    refine ⟨c, hc, ∑ k, c k * scoreMean z k, fun i => ?_⟩
    rw [scoreCov_quadratic, div_le_iff₀ hn1, zero_mul] at hle
    have h0 := (Finset.sum_eq_zero_iff_of_nonneg fun i _ => sq_nonneg _).1
      (le_antisymm hle (Finset.sum_nonneg fun i _ => sq_nonneg _)) i (Finset.mem_univ _)
    have h1 := pow_eq_zero_iff (two_ne_zero) |>.1 h0
    simp only [mul_sub, Finset.sum_sub_distrib] at h1
    linarith
  · rintro ⟨c, hc, b, hb⟩
    refine ⟨c, hc, ?_⟩
    rw [scoreCov_quadratic]
    have hmean : ∑ k, c k * scoreMean z k = b := by
      have hn0 : (n : ℝ) ≠ 0 := by have : 0 < n := by omega
                                   positivity
      unfold scoreMean
      have : ∑ k, c k * ((∑ i, z i k) / n) = (∑ i, ∑ k, c k * z i k) / n := by
        rw [Finset.sum_comm, Finset.sum_div]
        exact Finset.sum_congr rfl fun k _ => by rw [← Finset.mul_sum, mul_div_assoc]
      rw [this, Finset.sum_congr rfl fun i _ => hb i]
      simp [hn0]
    have : ∀ i, ∑ k, c k * (z i k - scoreMean z k) = 0 := by
      intro i
      simp only [mul_sub, Finset.sum_sub_distrib, hmean]
      rw [show ∑ k, c k * z i k = b from hb i, sub_self]
    simp [this]

/-- **C78** One latent variable and at least two respondents: the fit always works. -/
theorem C78_one_variable {n : ℕ} (argsort : (Fin n → ℝ) → Fin n → Fin n) (ha : IsArgsort argsort) (icdf : ℝ → ℝ)
    (hq : IsNormalQuantile icdf) (data : Fin n → Fin 1 → ℝ) (hn : 2 ≤ n) : ∃ q, quantileFit argsort icdf data = .ok q := by
  cases h : quantileFit argsort icdf data with
  | ok q => exact ⟨q, rfl⟩
  | error e =>
    exfalso
    have he : e = .valueError := by
      unfold quantileFit at h
      simp only at h
      split at h
      · cases h
      · cases h; rfl
    rw [he] at h
    obtain ⟨c, hc, b, hb⟩ := (C78_refused argsort icdf data hn).1 h
    have hc0 : c 0 ≠ 0 := by
      intro h0
      apply hc
      funext k
      rw [Subsingleton.elim k 0, h0]; rfl
    have h0 := hb ⟨0, by omega⟩
    have h1 := hb ⟨1, by omega⟩
    rw [Fin.sum_univ_one] at h0 h1
    refine (C54_order argsort ha icdf hq (fun r => data r 0) ⟨0, by omega⟩ ⟨1, by omega⟩).2 (by simp) ?_
    exact mul_left_cancel₀ hc0 (h0.trans h1.symm)

/-- Distinct values have only one order. -/
theorem argsort_comp {n : ℕ} (argsort : (Fin n → ℝ) → Fin n → Fin n) (ha : IsArgsort argsort) (x : Fin n → ℝ)
    (hx : Function.Injective x) (g : ℝ → ℝ) (hg : StrictMono g) : argsort (g ∘ x) = argsort x := by
  obtain ⟨b1, m1⟩ := ha x
  obtain ⟨b2, m2⟩ := ha (g ∘ x)
  have := Tuple.unique_monotone (f := x) (σ := Equiv.ofBijective _ b2) (τ := Equiv.ofBijective _ b1)
    (fun i j hij => hg.le_iff_le.1 (m2 i j hij)) (fun i j hij => m1 i j hij)
  funext i
  exact hx (congrFun this i)

theorem quantileTransform_comp {n : ℕ} (argsort : (Fin n → ℝ) → Fin n → Fin n) (ha : IsArgsort argsort) (icdf : ℝ → ℝ)
    (x : Fin n → ℝ) (hx : Function.Injective x) (g : ℝ → ℝ) (hg : StrictMono g) :
    quantileTransform argsort icdf (fun i => g (x i)) = quantileTransform argsort icdf x := by
  have := argsort_comp argsort ha x hx g hg
  unfold quantileTransform
  rw [show (fun i => g (x i)) = g ∘ x from rfl, this]

/-- Interpolation does not depend on the unit of the knots. -/
theorem interp_affine (knots : List (ℝ × ℝ)) (s b q : ℝ) (hs : 0 < s) :
    interp (knots.map fun p => (s * p.1 + b, p.2)) (s * q + b) = interp knots q := by
  set f : ℝ × ℝ → ℝ × ℝ := fun p => (s * p.1 + b, p.2) with hf
  have hsort : sortKnots (knots.map f) = (sortKnots knots).map f := by
    unfold sortKnots
    rw [List.map_mergeSort]
    intro p _ r _
    simp [hf, hs]
  have hget : ∀ (l : List (ℝ × ℝ)) (i : ℤ), pyGet (l.map f) i = (pyGet l i).map f := by
    intro l i
    unfold pyGet
    rw [List.length_map, List.getElem?_map]
    cases l[(if i < 0 then i + l.length else i).toNat]? with
    | none => rfl
    | some a => simp only [Option.map_some]; split <;> rfl
  have hcount : searchSorted ((sortKnots knots).map f) (s * q + b) = searchSorted (sortKnots knots) q := by
    unfold searchSorted
    rw [List.countP_map]
    congr 1
    funext p
    simp [hf, hs]
  have hdiv : ∀ a c : ℝ, floatDiv (s * a) (s * c) = floatDiv a c := by
    intro a c
    unfold floatDiv
    by_cases hc : c = 0
    · simp [hc]
    · rw [if_neg (mul_ne_zero hs.ne' hc), if_neg hc, mul_div_mul_left _ _ hs.ne']
  have hslope : ∀ a c t : ℝ, (floatDiv a (s * c)).map (fun k => k * (s * t)) = (floatDiv a c).map fun k => k * t := by
    intro a c t
    unfold floatDiv
    by_cases hc : c = 0
    · simp [hc]
    · rw [if_neg (mul_ne_zero hs.ne' hc), if_neg hc]
      simp only [Option.map_some, Option.some.injEq]
      field_simp
  have hslope' : ∀ y a c t : ℝ, (floatDiv a (s * c)).map (fun k => y + k * (s * t)) = (floatDiv a c).map fun k => y + k * t := by
    intro y a c t
    have := congrArg (Option.map fun w => y + w) (hslope a c t)
    simpa [Option.map_map, Function.comp_def] using this
  unfold interp
  rw [hsort]
  simp only [hget, hcount]
  cases h0 : pyGet (sortKnots knots) 0 with
  | error e => rfl
  | ok first =>
    cases h1 : pyGet (sortKnots knots) (-1) with
    | error e => rfl
    | ok last =>
      simp only [bind, Except.bind, Except.map]
      have c1 : (f first).1 ≤ s * q + b ↔ first.1 ≤ q := by simp [hf, hs]
      have c2 : s * q + b ≤ (f last).1 ↔ q ≤ last.1 := by simp [hf, hs]
      have c3 : s * q + b < (f first).1 ↔ q < first.1 := by simp [hf, hs]
      simp only [c1, c2, c3]
      split
      · cases pyGet (sortKnots knots) ((searchSorted (sortKnots knots) q : ℤ) - 1) with
        | error e => rfl
        | ok a =>
          cases pyGet (sortKnots knots) (searchSorted (sortKnots knots) q) with
          | error e => rfl
          | ok c =>
            simp only [hf, pure, Except.pure, Except.ok.injEq]
            rw [show s * q + b - (s * a.1 + b) = s * (q - a.1) by ring,
              show s * c.1 + b - (s * a.1 + b) = s * (c.1 - a.1) by ring, hdiv]
      · cases pyGet (sortKnots knots) 1 with
        | error e => rfl
        | ok second =>
          cases pyGet (sortKnots knots) (-2) with
          | error e => rfl
          | ok before =>
            simp only [hf, pure, Except.pure]
            split
            · rw [show s * second.1 + b - (s * first.1 + b) = s * (second.1 - first.1) by ring,
                show s * q + b - (s * first.1 + b) = s * (q - first.1) by ring, hslope']
            · rw [show s * last.1 + b - (s * before.1 + b) = s * (last.1 - before.1) by ring,
                show s * q + b - (s * last.1 + b) = s * (q - last.1) by ring, hslope']

/-- **C78** The values do not depend on the units of the variables: data measured in other units, and the points with it, give
the same values, and the fit is refused for one if and only if it is refused for the other. -/
theorem C78_units {n d : ℕ} (argsort : (Fin n → ℝ) → Fin n → Fin n) (ha : IsArgsort argsort) (icdf : ℝ → ℝ)
    (data : Fin n → Fin d → ℝ) (hd : ∀ k, Function.Injective fun i => data i k) (s b : Fin d → ℝ) (hs : ∀ k, 0 < s k) :
    (∀ e, quantileFit argsort icdf data = .error e ↔ quantileFit argsort icdf (fun i k => s k * data i k + b k) = .error e) ∧
    ∀ q q', quantileFit argsort icdf data = .ok q → quantileFit argsort icdf (fun i k => s k * data i k + b k) = .ok q' →
      ∀ x, q'.pdf (fun k => s k * x k + b k) = q.pdf x := by
  have hqt : (fun (i : Fin n) (k : Fin d) => quantileTransform argsort icdf (fun r => s k * data r k + b k) i)
      = fun i k => quantileTransform argsort icdf (fun r => data r k) i := by
    funext i k
    have hmono : StrictMono fun t : ℝ => s k * t + b k := fun u v huv => by
      have := mul_lt_mul_of_pos_left huv (hs k)
      simpa using this
    exact congrFun (quantileTransform_comp argsort ha icdf (fun r => data r k) (hd k) (fun t => s k * t + b k) hmono) i
  have hkey : quantileFit argsort icdf (fun i k => s k * data i k + b k)
      = (quantileFit argsort icdf data).map fun q => { q with data := fun i k => s k * data i k + b k } := by
    unfold quantileFit
    dsimp only
    rw [hqt]
    split <;> rfl
  constructor
  · intro e
    rw [hkey]
    cases quantileFit argsort icdf data <;> simp [Except.map]
  · intro q q' h h' x
    rw [hkey, h] at h'
    cases h'
    unfold quantileFit at h
    dsimp only at h
    split at h
    · cases h
      unfold QuantileNormal.pdf
      have : ∀ k : Fin d, interp (List.ofFn fun i => (s k * data i k + b k, quantileTransform argsort icdf (fun r => data r k) i))
          (s k * x k + b k) = interp (List.ofFn fun i => (data i k, quantileTransform argsort icdf (fun r => data r k) i)) (x k) := by
        intro k
        rw [← interp_affine _ (s k) (b k) (x k) (hs k), List.map_ofFn]
        rfl
      simp only [this]
    · cases h

/-- **C78** The approximate density is not a probability density: it is not the case that it integrates to one for all data.
(The derivative of the transformation to normal scores is missing, so that a change of units does not change the values.) -/
theorem C78_density_false (argsort : (Fin 2 → ℝ) → Fin 2 → Fin 2) (ha : IsArgsort argsort) (icdf : ℝ → ℝ)
    (hq : IsNormalQuantile icdf) :
    ¬ ∀ (data : Fin 2 → Fin 1 → ℝ) (q : QuantileNormal 2 1) (f : ℝ → ℝ), (∀ k, Function.Injective fun i => data i k) →
      quantileFit argsort icdf data = .ok q → (∀ x, q.pdf (fun _ => x) = .ok (some (f x))) → ∫ x, f x = 1 := by
  intro hall
  set data : Fin 2 → Fin 1 → ℝ := fun i _ => (i : ℝ) with hdata
  have hinj : ∀ k, Function.Injective fun i => data i k := by
    intro k i j hij
    simp only [hdata] at hij
    exact Fin.ext (by exact_mod_cast hij)
  have hinj' : ∀ k, Function.Injective fun i => 2 * data i k + 0 := by
    intro k i j hij
    apply hinj k
    simpa using hij
  obtain ⟨q, h1⟩ := C78_one_variable argsort ha icdf hq data le_rfl
  obtain ⟨q', h1'⟩ := C78_one_variable argsort ha icdf hq (fun i k => 2 * data i k + 0) le_rfl
  choose f h2 _ using fun x : ℝ => C78_positive argsort icdf data q h1 le_rfl hinj fun _ => x
  choose f' h2' _ using fun x : ℝ => C78_positive argsort icdf _ q' h1' le_rfl hinj' fun _ => x
  have h3 := hall data q f hinj h1 h2
  have h3' := hall _ q' f' hinj' h1' h2'
  have hu := (C78_units argsort ha icdf data hinj (fun _ => 2) (fun _ => 0) (by simp)).2 q q' h1 h1'
  have hf : ∀ x, f' (2 * x) = f x := by
    intro x
    have := hu fun _ => x
    simp only [add_zero] at this
    rw [h2' (2 * x), h2 x] at this
    simpa using this
  have hint := Measure.integral_comp_mul_left f' 2
  simp only [hf] at hint
  rw [h3, h3'] at hint
  norm_num at hint

example : Function.Injective (fun i : Fin 3 => (![![2, 0], ![0, 1], ![5, 7]] : Fin 3 → Fin 2 → ℝ) i 0) := by
  intro i j h
  fin_cases i <;> fin_cases j <;> simp_all

/-- A fit, and the values of its density, exist for two rows. -/
example (icdf : ℝ → ℝ) (hq : IsNormalQuantile icdf) :
    ∃ q, quantileFit (fun x => Tuple.sort x) icdf (![![0], ![3]] : Fin 2 → Fin 1 → ℝ) = .ok q ∧
      ∃ v : ℝ, q.pdf ![1] = .ok (some v) ∧ 0 < v := by
  obtain ⟨q, h⟩ := C78_one_variable (fun x => Tuple.sort x)
    (fun x => ⟨(Tuple.sort x).bijective, fun _ _ hij => Tuple.monotone_sort x hij⟩) icdf hq ![![0], ![3]] le_rfl
  refine ⟨q, h, C78_positive _ icdf _ q h le_rfl ?_ _⟩
  intro k i j hij
  fin_cases i <;> fin_cases j <;> fin_cases k <;> simp_all

/-! ## C79 -/

/-- `ll` is the log likelihood of fold `i` under a mixture with `K` components fitted to the rows of all other folds. -/
def HeldOutLogLik {d : ℕ} (K : ℕ) (randn : Fin K → Fin d → ℝ) (folds : List (List (Fin d → ℝ))) (i : ℕ) (ll : ℝ) : Prop :=
  ∃ g, fitMixture K randn (folds.eraseIdx i).flatten = .ok g ∧ gmmForward g (rowsTensor (folds.getD i [])) = .ok ll

theorem averageFoldLogLik_ok {d : ℕ} (K : ℕ) (randn : ℕ → Fin K → Fin d → ℝ) (data : List (Fin d → ℝ)) (a : ℝ)
    (folds : List (List (Fin d → ℝ))) (hf : torchChunk data 5 = .ok folds) (h : averageFoldLogLik K randn data = .ok a) :
    ∃ ll : ℕ → ℝ, (∀ i < folds.length, HeldOutLogLik K (randn i) folds i (ll i)) ∧
      a = (∑ i ∈ Finset.range folds.length, ll i) / 5 := by
  unfold averageFoldLogLik at h
  rw [hf] at h
  simp only [bind, Except.bind] at h
  cases hm : (List.range folds.length).mapM (foldLogLik K randn folds) with
  | error e => rw [hm] at h; cases h
  | ok lls =>
    rw [hm] at h
    simp only [pure, Except.pure, Except.ok.injEq] at h
    obtain ⟨hlen, hall⟩ := (mapM_ok_iff _ _ _).1 hm
    rw [List.length_range] at hlen
    refine ⟨fun i => lls.getD i 0, fun i hi => ?_, ?_⟩
    · obtain ⟨y, hy, hfy⟩ := hall i i (by rw [List.getElem?_range hi])
      have : lls.getD i 0 = y := by simp [List.getD, hy]
      simp only [this]
      unfold foldLogLik at hfy
      by_cases h0 : folds.eraseIdx i = []
      · simp [h0, throw, throwThe, MonadExceptOf.throw, bind, Except.bind] at hfy
      · simp only [h0, if_false] at hfy
        obtain ⟨g, hg, hfy⟩ := bind_eq_ok hfy
        exact ⟨g, hg, hfy⟩
    · rw [← h]
      simp only [List.sum_append, List.sum_replicate, smul_zero, add_zero]
      congr 1
      rw [← hlen, Finset.sum_range]
      simp only [List.getD_eq_getElem?_getD, Fin.is_lt, List.getElem?_eq_getElem, Option.getD_some]
      rw [Fin.sum_univ_getElem]

/-- **C79** With several numbers of components to choose from, the returned mixture is fitted to all data with the number whose
mixtures give the held out parts of the data the largest total log likelihood. The data is cut into at most five consecutive
parts, and each is evaluated with a mixture fitted to the others. -/
theorem C79_selected {d : ℕ} (argmax : List ℝ → ℕ) (ha : ∀ row, row ≠ [] → IsArgmax row (argmax row))
    (cvRandn : ℕ → (K : ℕ) → ℕ → Fin K → Fin d → ℝ) (randn : (K : ℕ) → Fin K → Fin d → ℝ) (data : List (Fin d → ℝ))
    (components : List ℕ) (hc : 1 < components.length) (K : ℕ) (g : GMM K d)
    (h : cvMixture argmax cvRandn randn data components = .ok ⟨K, g⟩) :
    ∃ (folds : List (List (Fin d → ℝ))) (ll : ℕ → ℕ → ℝ) (best : ℕ),
      folds.flatten = data ∧ folds.length ≤ 5 ∧
      (∀ (j K' : ℕ), components[j]? = some K' → ∀ i < folds.length, HeldOutLogLik K' (cvRandn j K' i) folds i (ll j i)) ∧
      components[best]? = some K ∧
      (∀ j < components.length, ∑ i ∈ Finset.range folds.length, ll j i ≤ ∑ i ∈ Finset.range folds.length, ll best i) ∧
      fitMixture K (randn K) data = .ok g := by
  obtain ⟨folds, hf, hflat, hlen5, -⟩ := torchChunk_ok data 5 (by omega)
  unfold cvMixture at h
  obtain ⟨K₀, hK, h⟩ := bind_eq_ok h
  unfold selectComponents at hK
  rw [if_pos hc] at hK
  obtain ⟨g₀, hg, h⟩ := bind_eq_ok h
  simp only [pure, Except.pure, Except.ok.injEq] at h
  cases h
  obtain ⟨averages, hav, hK⟩ := bind_eq_ok hK
  obtain ⟨hlen, hall⟩ := (mapM_ok_iff _ _ _).1 hav
  rw [List.length_zipIdx] at hlen
  have hex : ∀ j, ∃ ll : ℕ → ℝ, ∀ K', components[j]? = some K' →
      (∀ i < folds.length, HeldOutLogLik K' (cvRandn j K' i) folds i (ll i)) ∧
      averages[j]? = some ((∑ i ∈ Finset.range folds.length, ll i) / 5) := by
    intro j
    cases hj : components[j]? with
    | none => exact ⟨fun _ => 0, fun K' h => by cases h⟩
    | some K' =>
      obtain ⟨a, ha', hfa⟩ := hall j (K', j) (by rw [List.getElem?_zipIdx, hj]; simp)
      obtain ⟨ll, h1, h2⟩ := averageFoldLogLik_ok K' (cvRandn j K') data a folds hf hfa
      refine ⟨ll, fun K'' h => ?_⟩
      cases h
      exact ⟨h1, by rw [ha', h2]⟩
  choose ll hll using hex
  have hne : averages ≠ [] := by
    intro h0
    rw [h0] at hlen
    simp at hlen
    omega
  obtain ⟨hlt, hmax⟩ := ha averages hne
  cases hb : components[argmax averages]? with
  | none => rw [hb] at hK; cases hK
  | some K₁ =>
    rw [hb] at hK
    cases hK
    refine ⟨folds, ll, argmax averages, hflat, hlen5, fun j K' hj => (hll j K' hj).1, hb, ?_, hg⟩
    intro j hj
    have h1 := (hll j _ (List.getElem?_eq_getElem hj)).2
    have h2 := (hll _ _ hb).2
    have h3 := hmax _ (List.mem_of_getElem? h1)
    rw [List.getElem?_eq_getElem hlt] at h2
    rw [Option.some.inj h2] at h3
    linarith

/-- **C79** Each fold is disjoint from the rows its mixture is fitted to: together they are the data, each row once. -/
theorem C79_held_out {d : ℕ} (data : List (Fin d → ℝ)) (folds : List (List (Fin d → ℝ))) (h : folds.flatten = data) (i : ℕ)
    (hi : i < folds.length) : ((folds.eraseIdx i).flatten ++ folds.getD i []).Perm data := by
  rw [← h]
  exact eraseIdx_flatten_perm folds i _ (by rw [List.getD_eq_getElem _ _ hi, List.getElem?_eq_getElem hi])

/-- **C79** One number of components is used without cross-validation, an empty list is refused, and with more than one number
of components a single row is refused. -/
theorem C79_edges {d : ℕ} (argmax : List ℝ → ℕ) (cvRandn : ℕ → (K : ℕ) → ℕ → Fin K → Fin d → ℝ)
    (randn : (K : ℕ) → Fin K → Fin d → ℝ) (data : List (Fin d → ℝ)) (K : ℕ) :
    cvMixture argmax cvRandn randn data [K] = (fitMixture K (randn K) data).map (fun g => ⟨K, g⟩) ∧
    cvMixture argmax cvRandn randn data [] = .error .indexError ∧
    ∀ (row : Fin d → ℝ) (components : List ℕ), 1 < components.length →
      cvMixture argmax cvRandn randn [row] components = .error .runtimeError := by
  refine ⟨?_, ?_, ?_⟩
  · have : selectComponents argmax cvRandn data [K] = .ok K := by simp [selectComponents]
    unfold cvMixture
    rw [this]
    show (fitMixture K (randn K) data >>= _) = _
    cases fitMixture K (randn K) data <;> rfl
  · simp [cvMixture, selectComponents, bind, Except.bind]
  · intro row components hc
    unfold cvMixture selectComponents
    rw [if_pos hc]
    have h1 : ∀ (K : ℕ) (r : ℕ → Fin K → Fin d → ℝ), averageFoldLogLik K r [row] = .error .runtimeError := by
      intro K r
      have : torchChunk [row] 5 = .ok [[row]] := by simp [torchChunk, blocks]
      simp [averageFoldLogLik, this, foldLogLik, bind, Except.bind, throw, throwThe, MonadExceptOf.throw, List.range_succ]
    rw [mapM_error _ _ .runtimeError (fun p _ => .inl (h1 _ _))]
    · rfl
    · have : components.zipIdx ≠ [] := by
        intro h0
        have := congrArg List.length h0
        rw [List.length_zipIdx] at this
        simp at this
        simp [this] at hc
      obtain ⟨p, hp⟩ := List.exists_mem_of_ne_nil _ this
      exact ⟨p, hp, h1 _ _⟩

/-- **C79** Only the two documented approximations are accepted. -/
theorem C79_approximations {d : ℕ} (argmax : List ℝ → ℕ) (cvRandn : ℕ → (K : ℕ) → ℕ → Fin K → Fin d → ℝ)
    (randn : (K : ℕ) → Fin K → Fin d → ℝ) (argsort : {n : ℕ} → (Fin n → ℝ) → Fin n → Fin n) (icdf : ℝ → ℝ)
    (scores : List (Fin d → ℝ)) (approximation : String) (components : Option (List ℕ))
    (h : approximation ≠ "gmm" ∧ approximation ≠ "qmvn") :
    approximateDensity argmax cvRandn randn argsort icdf scores approximation components = .error .valueError := by
  simp [approximateDensity, h.1, h.2]

/-- **C79** What is returned is of the requested kind: a mixture fitted to all scores whose number of components is one of those
the caller listed (or, without a list, one of the documented 2, 3, 4, 5, 10), or the quantile normal approximation of the
scores. -/
theorem C79_requested {d : ℕ} (argmax : List ℝ → ℕ) (cvRandn : ℕ → (K : ℕ) → ℕ → Fin K → Fin d → ℝ)
    (randn : (K : ℕ) → Fin K → Fin d → ℝ) (argsort : {n : ℕ} → (Fin n → ℝ) → Fin n → Fin n) (icdf : ℝ → ℝ)
    (scores : List (Fin d → ℝ)) (approximation : String) (components : Option (List ℕ))
    (r : QuantileNormal scores.length d ⊕ (K : ℕ) × GMM K d)
    (h : approximateDensity argmax cvRandn randn argsort icdf scores approximation components = .ok r) :
    (approximation = "gmm" ∧ ∃ (K : ℕ) (g : GMM K d), r = .inr ⟨K, g⟩ ∧ fitMixture K (randn K) scores = .ok g ∧
      (∀ list, components = some list → K ∈ list) ∧ (components = none → K ∈ [2, 3, 4, 5, 10])) ∨
    (approximation = "qmvn" ∧ ∃ q, r = .inl q ∧ quantileFit argsort icdf (fun i => scores.get i) = .ok q) := by
  unfold approximateDensity at h
  split at h
  · rename_i ha
    refine .inl ⟨ha, ?_⟩
    cases hcv : cvMixture argmax cvRandn randn scores (components.getD [2, 3, 4, 5, 10]) with
    | error e => rw [hcv] at h; cases h
    | ok Kg =>
      obtain ⟨K, g⟩ := Kg
      rw [hcv] at h
      cases h
      unfold cvMixture at hcv
      obtain ⟨K₀, hK, hcv⟩ := bind_eq_ok hcv
      obtain ⟨g₀, hg, hcv⟩ := bind_eq_ok hcv
      simp only [pure, Except.pure, Except.ok.injEq] at hcv
      cases hcv
      have hmem : K ∈ components.getD [2, 3, 4, 5, 10] := by
        unfold selectComponents at hK
        split at hK
        · obtain ⟨av, -, hK⟩ := bind_eq_ok hK
          cases hb : (components.getD [2, 3, 4, 5, 10])[argmax av]? with
          | none => rw [hb] at hK; cases hK
          | some K₁ => rw [hb] at hK; cases hK; exact List.mem_of_getElem? hb
        · cases hb : (components.getD [2, 3, 4, 5, 10])[0]? with
          | none => rw [hb] at hK; cases hK
          | some K₁ => rw [hb] at hK; cases hK; exact List.mem_of_getElem? hb
      exact ⟨K, g, rfl, hg, fun list hl => by subst hl; exact hmem, fun hl => by subst hl; exact hmem⟩
  · split at h
    · rename_i ha
      refine .inr ⟨ha, ?_⟩
      cases hq : quantileFit argsort icdf (rowsTensor scores) with
      | error e => rw [hq] at h; cases h
      | ok q => rw [hq] at h; cases h; exact ⟨q, rfl, hq⟩
    · cases h

theorem fitMixture_defined (K : ℕ) (hK : 0 < K) (randn : Fin K → Fin 1 → ℝ) (rows : List (Fin 1 → ℝ)) (a b : Fin 1 → ℝ)
    (ha : a ∈ rows) (hb : b ∈ rows) (hab : a 0 ≠ b 0) : ∃ g, fitMixture K randn rows = .ok g ∧ ∀ k, (g.covariances k).PosDef := by
  obtain ⟨g, hg, hval, hpd⟩ := (C44_constructed K 1 randn).1 ⟨hK, le_rfl⟩
  obtain ⟨i, rfl⟩ := List.get_of_mem ha
  obtain ⟨j, rfl⟩ := List.get_of_mem hb
  obtain ⟨g', h1, h2⟩ := C44_defined hK (Fin.pos i) hval hpd (rowsTensor rows) (line_spans _ i j hab) 100
  refine ⟨g', ?_, h2⟩
  unfold fitMixture
  rw [hg]
  exact h1

/-- `C79_requested`: a mixture of three components is returned for two different scores. -/
example (argmax : List ℝ → ℕ) (cvRandn : ℕ → (K : ℕ) → ℕ → Fin K → Fin 1 → ℝ) (randn : (K : ℕ) → Fin K → Fin 1 → ℝ)
    (argsort : {n : ℕ} → (Fin n → ℝ) → Fin n → Fin n) (icdf : ℝ → ℝ) :
    ∃ r, approximateDensity argmax cvRandn randn argsort icdf [fun _ => 0, fun _ => 1] "gmm" (some [3]) = .ok r := by
  obtain ⟨g, hg, -⟩ := fitMixture_defined 3 (by omega) (randn 3) [fun _ => 0, fun _ => 1] (fun _ => 0) (fun _ => 1)
    (by simp) (by simp) (by norm_num)
  refine ⟨.inr ⟨3, g⟩, ?_⟩
  unfold approximateDensity
  rw [if_pos rfl, Option.getD_some, (C79_edges argmax cvRandn randn _ 3).1, hg]
  rfl

/-- **C79** On one latent variable the choice succeeds for all positive numbers of components if whenever one of the five parts
is left out two different values remain. -/
theorem C79_defined (argmax : List ℝ → ℕ) (ha : ∀ row, row ≠ [] → IsArgmax row (argmax row))
    (cvRandn : ℕ → (K : ℕ) → ℕ → Fin K → Fin 1 → ℝ) (randn : (K : ℕ) → Fin K → Fin 1 → ℝ) (data : List (Fin 1 → ℝ))
    (components : List ℕ) (hc : 1 < components.length) (hpos : ∀ K ∈ components, 0 < K) (folds : List (List (Fin 1 → ℝ)))
    (hf : torchChunk data 5 = .ok folds)
    (hdist : ∀ i < folds.length, ∃ a ∈ (folds.eraseIdx i).flatten, ∃ b ∈ (folds.eraseIdx i).flatten, a 0 ≠ b 0) :
    ∃ r, cvMixture argmax cvRandn randn data components = .ok r := by
  obtain ⟨folds', hf', hflat, hlen5, -⟩ := torchChunk_ok data 5 (by omega)
  have : folds' = folds := by rw [show ((5 : ℕ) : ℤ) = 5 from rfl, hf] at hf'; exact (Except.ok.inj hf').symm
  subst this
  have hfold : ∀ K, 0 < K → ∀ r : ℕ → Fin K → Fin 1 → ℝ, ∀ i < folds'.length, ∃ v, foldLogLik K r folds' i = .ok v := by
    intro K hK r i hi
    obtain ⟨a, ha', b, hb', hab⟩ := hdist i hi
    obtain ⟨g, h1, h2⟩ := fitMixture_defined K hK (r i) _ a b ha' hb' hab
    have hne : folds'.eraseIdx i ≠ [] := by intro h0; rw [h0] at ha'; simp at ha'
    unfold foldLogLik
    simp only [hne, if_false, h1, bind, Except.bind]
    unfold gmmForward
    rw [gmmLogProbs_of_posDef _ h2]
    exact ⟨_, rfl⟩
  have hav : ∀ K, 0 < K → ∀ r : ℕ → Fin K → Fin 1 → ℝ, ∃ v, averageFoldLogLik K r data = .ok v := by
    intro K hK r
    obtain ⟨v, hv⟩ : ∃ v : ℕ → ℝ, ∀ i < folds'.length, foldLogLik K r folds' i = .ok (v i) := by
      classical
      refine ⟨fun i => if h : i < folds'.length then (hfold K hK r i h).choose else 0, fun i hi => ?_⟩
      simp only [hi, dif_pos]
      exact (hfold K hK r i hi).choose_spec
    unfold averageFoldLogLik
    rw [hf]
    simp only [bind, Except.bind]
    rw [mapM_ok _ _ v fun i hi => hv i (List.mem_range.1 hi)]
    exact ⟨_, rfl⟩
  obtain ⟨K, hK, hsel⟩ : ∃ K, 0 < K ∧ selectComponents argmax cvRandn data components = .ok K := by
    have hmap : ∃ vs, components.zipIdx.mapM (fun p => averageFoldLogLik p.1 (cvRandn p.2 p.1) data) = .ok vs ∧
        vs.length = components.length := by
      have hex : ∀ p : ℕ × ℕ, ∃ v, p ∈ components.zipIdx → averageFoldLogLik p.1 (cvRandn p.2 p.1) data = .ok v := by
        intro p
        by_cases hp : p ∈ components.zipIdx
        · obtain ⟨v, hv⟩ := hav p.1 (hpos _ (List.fst_mem_of_mem_zipIdx hp)) (cvRandn p.2 p.1)
          exact ⟨v, fun _ => hv⟩
        · exact ⟨0, fun h => absurd h hp⟩
      choose v hv using hex
      exact ⟨_, mapM_ok _ _ v hv, by simp⟩
    obtain ⟨vs, hvs, hlen⟩ := hmap
    obtain ⟨hlt, -⟩ := ha vs (by intro h0; rw [h0] at hlen; simp at hlen; omega)
    have hlt' : argmax vs < components.length := by omega
    refine ⟨components[argmax vs], hpos _ (List.getElem_mem hlt'), ?_⟩
    unfold selectComponents
    rw [if_pos hc, hvs]
    simp only [bind, Except.bind, List.getElem?_eq_getElem hlt']
    rfl
  have hex : ∃ a ∈ data, ∃ b ∈ data, a 0 ≠ b 0 := by
    by_cases h0 : folds'.length = 0
    · rw [List.length_eq_zero_iff] at h0
      rw [h0] at hflat hf
      rw [← hflat] at hf
      simp [torchChunk] at hf
    · obtain ⟨a, ha', b, hb', hab⟩ := hdist 0 (by omega)
      have hsub : ∀ x ∈ (folds'.eraseIdx 0).flatten, x ∈ data := by
        intro x hx
        rw [← hflat]
        obtain ⟨f, hf, hxf⟩ := List.mem_flatten.1 hx
        exact List.mem_flatten.2 ⟨f, List.mem_of_mem_eraseIdx hf, hxf⟩
      exact ⟨a, hsub a ha', b, hsub b hb', hab⟩
  obtain ⟨a, ha', b, hb', hab⟩ := hex
  obtain ⟨g, hg, -⟩ := fitMixture_defined K hK (randn K) data a b ha' hb' hab
  refine ⟨⟨K, g⟩, ?_⟩
  unfold cvMixture
  rw [hsel]
  show (fitMixture K (randn K) data >>= _) = _
  rw [hg]
  rfl

/-- Four values, two candidate numbers of components: the choice is made. -/
example (argmax : List ℝ → ℕ) (ha : ∀ row, row ≠ [] → IsArgmax row (argmax row))
    (cvRandn : ℕ → (K : ℕ) → ℕ → Fin K → Fin 1 → ℝ) (randn : (K : ℕ) → Fin K → Fin 1 → ℝ) :
    ∃ r, cvMixture argmax cvRandn randn [fun _ => 0, fun _ => 1, fun _ => 2, fun _ => 3] [1, 2] = .ok r := by
  refine C79_defined argmax ha cvRandn randn _ [1, 2] (by simp) (by simp)
    [[fun _ => 0], [fun _ => 1], [fun _ => 2], [fun _ => 3]] (by simp [torchChunk, blocks]) ?_
  intro i hi
  have hi4 : i < 4 := by simpa using hi
  by_cases h : i ≤ 1
  · refine ⟨fun _ => 2, ?_, fun _ => 3, ?_, by norm_num⟩ <;> interval_cases i <;> simp
  · refine ⟨fun _ => 0, ?_, fun _ => 1, ?_, by norm_num⟩ <;> interval_cases i <;> simp_all

end Irt
