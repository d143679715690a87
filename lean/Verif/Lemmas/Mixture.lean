import Verif.Model.Mixture
import Verif.Spec.Mixture
import Verif.Lemmas.LogLik
import Verif.Lemmas.MonoModels
import Mathlib.Analysis.Matrix.Order
import Mathlib.Algebra.Order.Star.Real

namespace Irt
open Spec Matrix
open scoped MatrixOrder

/-! ## Linear algebra -/

/-- `log det A ≤ tr A - d` for positive definite `A`. -/
theorem log_det_le_trace {d : ℕ} {A : Matrix (Fin d) (Fin d) ℝ} (hA : A.PosDef) :
    Real.log A.det ≤ A.trace - d := by
  have h1 := hA.isHermitian.det_eq_prod_eigenvalues
  have h2 := hA.isHermitian.trace_eq_sum_eigenvalues
  simp only [RCLike.ofReal_real_eq_id, id] at h1 h2
  rw [h1, h2, Real.log_prod fun i _ => (hA.eigenvalues_pos i).ne']
  have : (d : ℝ) = ∑ _i : Fin d, (1 : ℝ) := by simp
  rw [this, ← Finset.sum_sub_distrib]
  exact Finset.sum_le_sum fun i _ => Real.log_le_sub_one_of_pos (hA.eigenvalues_pos i)

/-- `log det S ≤ log det C + tr (C⁻¹ S) - d`. -/
theorem log_det_le {d : ℕ} {C S : Matrix (Fin d) (Fin d) ℝ} (hC : C.PosDef) (hS : S.PosDef) :
    Real.log S.det ≤ Real.log C.det + (C⁻¹ * S).trace - d := by
  obtain ⟨B, hB⟩ := CStarAlgebra.nonneg_iff_eq_star_mul_self.mp hC.inv.posSemidef.nonneg
  rw [star_eq_conjTranspose] at hB
  have hdetC := hC.det_pos
  have hdetinv : C⁻¹.det = (C.det)⁻¹ := by
    rw [det_nonsing_inv, Ring.inverse_eq_inv']
  have hBdet : B.det * B.det = (C.det)⁻¹ := by
    rw [← hdetinv, hB, det_mul, det_conjTranspose]
    simp
  have hBne : B.det ≠ 0 := by
    intro h0
    rw [h0] at hBdet
    simp at hBdet
    exact hdetC.ne' hBdet.symm
  have hBunit : IsUnit B := (isUnit_iff_isUnit_det _).2 hBne.isUnit
  have hA : (B * S * Bᴴ).PosDef := hS.mul_mul_conjTranspose_same (vecMul_injective_iff_isUnit.2 hBunit)
  have h := log_det_le_trace hA
  have hdet : (B * S * Bᴴ).det = (C.det)⁻¹ * S.det := by
    rw [det_mul, det_mul, det_conjTranspose, ← hBdet]
    simp
    ring
  have htr : (B * S * Bᴴ).trace = (C⁻¹ * S).trace := by
    rw [hB, Matrix.trace_mul_comm, ← Matrix.mul_assoc]
  rw [hdet, htr, Real.log_mul (inv_ne_zero hdetC.ne') hS.det_pos.ne', Real.log_inv] at h
  linarith

/-! ## The list comprehension -/

theorem gmmLogProbs_ok {K d n : ℕ} {g : GMM K d} {data : Fin n → Fin d → ℝ} {lp : Fin K → Fin n → ℝ}
    (h : gmmLogProbs g data = .ok lp) :
    (∀ k, (g.covariances k).PosDef) ∧
      ∀ k i, lp k i = mvnLogDensity (g.means k) (g.covariances k) (data i) := by
  unfold gmmLogProbs at h
  obtain ⟨rows, hrows, hlp⟩ := bind_eq_ok h
  simp only [pure, Except.pure, Except.ok.injEq] at hlp
  obtain ⟨hlen, hent⟩ := (mapM_ok_iff _ _ _).1 hrows
  have key : ∀ k : Fin K, (g.covariances k).PosDef ∧
      rows.getD k (fun _ => 0) = fun i => mvnLogDensity (g.means k) (g.covariances k) (data i) := by
    intro k
    obtain ⟨y, hy, hok⟩ := hent k k (by
      rw [List.getElem?_eq_getElem (by simp)]; simp)
    unfold mvnLogProb at hok
    split at hok
    · rename_i hp
      refine ⟨hp, ?_⟩
      simp only [Except.ok.injEq] at hok
      rw [List.getD_eq_getElem?_getD, hy, Option.getD_some, ← hok]
    · simp at hok
  refine ⟨fun k => (key k).1, fun k i => ?_⟩
  rw [← hlp]
  exact congrFun (key k).2 i

theorem gmmLogProbs_of_posDef {K d n : ℕ} {g : GMM K d} (data : Fin n → Fin d → ℝ)
    (h : ∀ k, (g.covariances k).PosDef) :
    gmmLogProbs g data = .ok fun k i => mvnLogDensity (g.means k) (g.covariances k) (data i) := by
  unfold gmmLogProbs
  rw [mapM_ok _ _ (fun k => fun i => mvnLogDensity (g.means k) (g.covariances k) (data i))
    (fun k _ => by unfold mvnLogProb; rw [if_pos (h k)])]
  show Except.ok _ = _
  congr 1
  funext k
  rw [List.getD_eq_getElem?_getD, List.getElem?_map, List.getElem?_eq_getElem (by simp)]
  simp

/-! ## The E step -/

theorem gmmEStep_eq {K d n : ℕ} {g : GMM K d} {data : Fin n → Fin d → ℝ} {r : Fin K → Fin n → ℝ}
    (hw : ∀ k, 0 < g.weights k) (h : gmmEStep g data = .ok r) :
    (∀ k, (g.covariances k).PosDef) ∧ ∀ k i, r k i =
      g.weights k * Real.exp (mvnLogDensity (g.means k) (g.covariances k) (data i)) /
        ∑ l, g.weights l * Real.exp (mvnLogDensity (g.means l) (g.covariances l) (data i)) := by
  unfold gmmEStep at h
  obtain ⟨lp, hlp, hr⟩ := bind_eq_ok h
  simp only [pure, Except.pure, Except.ok.injEq] at hr
  obtain ⟨hp, he⟩ := gmmLogProbs_ok hlp
  refine ⟨hp, fun k i => ?_⟩
  have hex : ∀ l, Real.exp (gmmWeighted g lp l i)
      = g.weights l * Real.exp (mvnLogDensity (g.means l) (g.covariances l) (data i)) := by
    intro l
    unfold gmmWeighted
    rw [he, Real.exp_add, Real.exp_log (hw l)]
    ring
  rw [← hr]
  simp only
  rw [Real.exp_sub, logSumExpCol, hex]
  simp only [hex]
  rw [Real.exp_log]
  exact Finset.sum_pos (fun l _ => mul_pos (hw l) (Real.exp_pos _)) ⟨k, Finset.mem_univ k⟩

/-- Responsibilities: positive, and they sum to one over the components. -/
def Responsible {K n : ℕ} (r : Fin K → Fin n → ℝ) : Prop :=
  (∀ k i, 0 < r k i) ∧ ∀ i, ∑ k, r k i = 1

theorem gmmEStep_responsible {K d n : ℕ} (hK : 0 < K) {g : GMM K d} {data : Fin n → Fin d → ℝ}
    {r : Fin K → Fin n → ℝ} (hw : ∀ k, 0 < g.weights k) (h : gmmEStep g data = .ok r) : Responsible r := by
  obtain ⟨-, he⟩ := gmmEStep_eq hw h
  have hpos : ∀ i, 0 < ∑ l, g.weights l * Real.exp (mvnLogDensity (g.means l) (g.covariances l) (data i)) :=
    fun i => Finset.sum_pos (fun l _ => mul_pos (hw l) (Real.exp_pos _)) ⟨⟨0, hK⟩, Finset.mem_univ _⟩
  constructor
  · intro k i
    rw [he]
    exact div_pos (mul_pos (hw k) (Real.exp_pos _)) (hpos i)
  · intro i
    simp only [he]
    rw [← Finset.sum_div, div_self (hpos i).ne']

/-! ## The M step -/

theorem quad_form {d n : ℕ} (x : Fin n → Fin d → ℝ) (m : Fin d → ℝ) (r : Fin n → ℝ) (R : ℝ) (v : Fin d → ℝ) :
    v ⬝ᵥ ((Matrix.of fun a b => (∑ i, ((x i a - m a) * r i) * (x i b - m b)) / R).mulVec v)
      = (∑ i, r i * ((x i - m) ⬝ᵥ v) ^ 2) / R := by
  simp only [dotProduct, mulVec, Matrix.of_apply, Pi.sub_apply, Finset.mul_sum, Finset.sum_div,
    Finset.sum_mul, pow_two]
  have h1 : ∀ a b, v a * ∑ i, (x i a - m a) * r i * (x i b - m b) / R * v b
      = ∑ i, v a * ((x i a - m a) * r i * (x i b - m b) / R * v b) := fun a b => Finset.mul_sum _ _ _
  rw [Finset.sum_comm]
  rw [Finset.sum_congr rfl fun b _ => Finset.sum_comm]
  rw [Finset.sum_comm]
  refine Finset.sum_congr rfl fun i _ => ?_
  refine Finset.sum_congr rfl fun a _ => ?_
  refine Finset.sum_congr rfl fun b _ => ?_
  ring

theorem gmmMStep_cov {K d n : ℕ} (data : Fin n → Fin d → ℝ) (r : Fin K → Fin n → ℝ) (k : Fin K) :
    (gmmMStep data r).covariances k = Matrix.of fun a b =>
      (∑ i, ((data i a - (gmmMStep data r).means k a) * r k i) * (data i b - (gmmMStep data r).means k b))
        / ∑ i, r k i := rfl

theorem gmmMStep_valid {K d n : ℕ} (hn : 0 < n) (data : Fin n → Fin d → ℝ) {r : Fin K → Fin n → ℝ}
    (hr : Responsible r) :
    ValidMixture (gmmMStep data r).weights (gmmMStep data r).covariances := by
  have hR : ∀ k, 0 < ∑ i, r k i := fun k => Finset.sum_pos (fun i _ => hr.1 k i) ⟨⟨0, hn⟩, Finset.mem_univ _⟩
  have hn' : (0 : ℝ) < n := by exact_mod_cast hn
  refine ⟨fun k => div_pos (hR k) hn', ?_, fun k => ⟨?_, fun v => ?_⟩⟩
  · show ∑ k, (∑ i, r k i) / (n : ℝ) = 1
    rw [← Finset.sum_div, Finset.sum_comm, Finset.sum_congr rfl fun i _ => hr.2 i]
    simp [hn'.ne']
  · ext a b
    rw [gmmMStep_cov, Matrix.transpose_apply, Matrix.of_apply, Matrix.of_apply]
    congr 1
    refine Finset.sum_congr rfl fun i _ => ?_
    ring
  · rw [gmmMStep_cov, quad_form data ((gmmMStep data r).means k) (r k) (∑ i, r k i) v]
    exact div_nonneg (Finset.sum_nonneg fun i _ => mul_nonneg (hr.1 k i).le (sq_nonneg _)) (hR k).le

theorem gmmMStep_mean {K d n : ℕ} (hn : 0 < n) (data : Fin n → Fin d → ℝ) {r : Fin K → Fin n → ℝ}
    (hr : Responsible r) (j : Fin d) :
    ∑ k, (gmmMStep data r).weights k * (gmmMStep data r).means k j = (∑ i, data i j) / n := by
  have hR : ∀ k, (∑ i, r k i) ≠ 0 :=
    fun k => (Finset.sum_pos (fun i _ => hr.1 k i) ⟨⟨0, hn⟩, Finset.mem_univ _⟩).ne'
  have h1 : ∀ k, (gmmMStep data r).weights k * (gmmMStep data r).means k j
      = (∑ i, r k i * data i j) / n := by
    intro k
    show (∑ i, r k i) / (n : ℝ) * ((∑ i, r k i * data i j) / ∑ i, r k i) = _
    have := hR k
    field_simp
  simp only [h1]
  rw [← Finset.sum_div, Finset.sum_comm]
  congr 1
  refine Finset.sum_congr rfl fun i _ => ?_
  rw [← Finset.sum_mul, hr.2 i, one_mul]

/-! ## One EM iteration does not lower the log likelihood -/

theorem sum_expand {n : ℕ} (r x y : Fin n → ℝ) (p q : ℝ) :
    ∑ i, r i * ((x i - p) * (y i - q))
      = ∑ i, r i * (x i * y i) - q * ∑ i, r i * x i - p * ∑ i, r i * y i + p * q * ∑ i, r i := by
  simp only [Finset.mul_sum, ← Finset.sum_sub_distrib, ← Finset.sum_add_distrib]
  exact Finset.sum_congr rfl fun i _ => by ring

/-- The weighted quadratic form around any centre. -/
theorem weighted_quad {K d n : ℕ} (data : Fin n → Fin d → ℝ) (r : Fin K → Fin n → ℝ) (k : Fin K)
    (hR : (∑ i, r k i) ≠ 0) (P : Matrix (Fin d) (Fin d) ℝ) (c : Fin d → ℝ) :
    ∑ i, r k i * ((data i - c) ⬝ᵥ (P.mulVec (data i - c)))
      = (∑ i, r k i) * ((P * (gmmMStep data r).covariances k).trace
          + ((gmmMStep data r).means k - c) ⬝ᵥ (P.mulVec ((gmmMStep data r).means k - c))) := by
  have hm : ∀ j, ∑ i, r k i * data i j = (∑ i, r k i) * (gmmMStep data r).means k j := by
    intro j
    show _ = (∑ i, r k i) * ((∑ i, r k i * data i j) / ∑ i, r k i)
    field_simp
  have hS : ∀ a b, ∑ i, r k i * ((data i a - (gmmMStep data r).means k a) * (data i b - (gmmMStep data r).means k b))
      = (∑ i, r k i) * (gmmMStep data r).covariances k b a := by
    intro a b
    rw [gmmMStep_cov, Matrix.of_apply]
    rw [mul_div_cancel₀ _ hR]
    exact Finset.sum_congr rfl fun i _ => by ring
  generalize (gmmMStep data r).means k = m at hm hS ⊢
  generalize (gmmMStep data r).covariances k = S at hS ⊢
  have key : ∀ a b, ∑ i, r k i * ((data i a - c a) * (data i b - c b))
      = (∑ i, r k i) * (S b a + (m a - c a) * (m b - c b)) := by
    intro a b
    have h1 := hS a b
    rw [sum_expand (r k) (fun i => data i a) (fun i => data i b)] at h1
    rw [sum_expand (r k) (fun i => data i a) (fun i => data i b)]
    simp only [hm] at h1 ⊢
    linear_combination h1
  have hl : ∀ i, (data i - c) ⬝ᵥ (P.mulVec (data i - c))
      = ∑ a, ∑ b, P a b * ((data i a - c a) * (data i b - c b)) := by
    intro i
    simp only [dotProduct, mulVec, Pi.sub_apply, Finset.mul_sum]
    exact Finset.sum_congr rfl fun a _ => Finset.sum_congr rfl fun b _ => by ring
  have hr' : (P * S).trace + (m - c) ⬝ᵥ (P.mulVec (m - c))
      = ∑ a, ∑ b, P a b * (S b a + (m a - c a) * (m b - c b)) := by
    simp only [Matrix.trace, Matrix.diag, Matrix.mul_apply, dotProduct, mulVec, Pi.sub_apply, Finset.mul_sum,
      ← Finset.sum_add_distrib]
    exact Finset.sum_congr rfl fun a _ => Finset.sum_congr rfl fun b _ => by ring
  rw [hr', Finset.mul_sum]
  simp only [hl, Finset.mul_sum]
  rw [Finset.sum_comm]
  refine Finset.sum_congr rfl fun a _ => ?_
  rw [Finset.sum_comm]
  refine Finset.sum_congr rfl fun b _ => ?_
  rw [show (∑ i, r k i) * (P a b * (S b a + (m a - c a) * (m b - c b)))
    = P a b * ((∑ i, r k i) * (S b a + (m a - c a) * (m b - c b))) by ring, ← key, Finset.mul_sum]
  exact Finset.sum_congr rfl fun i _ => by ring

/-- The M step maximises the weighted Gaussian log likelihood of each component. -/
theorem gaussian_part {K d n : ℕ} (data : Fin n → Fin d → ℝ) (r : Fin K → Fin n → ℝ) (k : Fin K)
    (hR : 0 < ∑ i, r k i) {C : Matrix (Fin d) (Fin d) ℝ} (hC : C.PosDef) (c : Fin d → ℝ)
    (hS : ((gmmMStep data r).covariances k).PosDef) :
    ∑ i, r k i * mvnLogDensity c C (data i)
      ≤ ∑ i, r k i * mvnLogDensity ((gmmMStep data r).means k) ((gmmMStep data r).covariances k) (data i) := by
  have expand : ∀ (m : Fin d → ℝ) (V : Matrix (Fin d) (Fin d) ℝ),
      ∑ i, r k i * mvnLogDensity m V (data i)
        = -(1 / 2) * ((∑ i, r k i) * (d * Real.log (2 * Real.pi) + Real.log V.det)
            + ∑ i, r k i * ((data i - m) ⬝ᵥ (V⁻¹.mulVec (data i - m)))) := by
    intro m V
    unfold mvnLogDensity
    rw [Finset.sum_mul, ← Finset.sum_add_distrib, Finset.mul_sum]
    exact Finset.sum_congr rfl fun i _ => by ring
  rw [expand, expand, weighted_quad data r k hR.ne', weighted_quad data r k hR.ne']
  have h1 := log_det_le hC hS
  have hq : 0 ≤ ((gmmMStep data r).means k - c) ⬝ᵥ (C⁻¹.mulVec ((gmmMStep data r).means k - c)) := by
    have := hC.inv.posSemidef.dotProduct_mulVec_nonneg ((gmmMStep data r).means k - c)
    simpa using this
  have hid : (((gmmMStep data r).covariances k)⁻¹ * (gmmMStep data r).covariances k).trace = d := by
    rw [Matrix.nonsing_inv_mul _ (isUnit_iff_isUnit_det _ |>.1 hS.isUnit), Matrix.trace_one, Fintype.card_fin]
  rw [hid, sub_self, Matrix.mulVec_zero, dotProduct_zero]
  nlinarith [mul_le_mul_of_nonneg_left h1 hR.le, mul_nonneg hR.le hq]

theorem weights_part {K : ℕ} {p q : Fin K → ℝ} (hp : ∀ k, 0 < p k) (hq : ∀ k, 0 < q k)
    (sp : ∑ k, p k = 1) (sq : ∑ k, q k = 1) :
    ∑ k, p k * Real.log (q k) ≤ ∑ k, p k * Real.log (p k) := by
  have h : ∑ k, (p k * Real.log (q k) - p k * Real.log (p k)) ≤ ∑ k, (q k - p k) := by
    refine Finset.sum_le_sum fun k _ => ?_
    have h1 := Real.log_le_sub_one_of_pos (div_pos (hq k) (hp k))
    rw [Real.log_div (hq k).ne' (hp k).ne'] at h1
    have h2 := mul_le_mul_of_nonneg_left h1 (hp k).le
    have h3 : p k * (q k / p k - 1) = q k - p k := by
      have := (hp k).ne'
      field_simp
    linarith
  rw [Finset.sum_sub_distrib, Finset.sum_sub_distrib, sp, sq] at h
  linarith

/-- Jensen's inequality for one observation. -/
theorem jensen_part {K : ℕ} (hK : 0 < K) {a b : Fin K → ℝ} (ha : ∀ k, 0 < a k) (hb : ∀ k, 0 < b k) :
    ∑ k, a k / (∑ l, a l) * (Real.log (b k) - Real.log (a k))
      ≤ Real.log (∑ l, b l) - Real.log (∑ l, a l) := by
  have hne : (Finset.univ : Finset (Fin K)).Nonempty := ⟨⟨0, hK⟩, Finset.mem_univ _⟩
  have hA : 0 < ∑ l, a l := Finset.sum_pos (fun l _ => ha l) hne
  have hB : 0 < ∑ l, b l := Finset.sum_pos (fun l _ => hb l) hne
  have h := weights_part (p := fun k => a k / ∑ l, a l) (q := fun k => b k / ∑ l, b l)
    (fun k => div_pos (ha k) hA) (fun k => div_pos (hb k) hB)
    (by rw [← Finset.sum_div, div_self hA.ne']) (by rw [← Finset.sum_div, div_self hB.ne'])
  have e : ∑ k, a k / (∑ l, a l) * (Real.log (b k) - Real.log (a k))
      = (∑ k, a k / (∑ l, a l) * Real.log (b k / ∑ l, b l))
        - (∑ k, a k / (∑ l, a l) * Real.log (a k / ∑ l, a l))
        + (Real.log (∑ l, b l) - Real.log (∑ l, a l)) * ∑ k, a k / (∑ l, a l) := by
    rw [Finset.mul_sum, ← Finset.sum_sub_distrib, ← Finset.sum_add_distrib]
    refine Finset.sum_congr rfl fun k _ => ?_
    rw [Real.log_div (hb k).ne' hB.ne', Real.log_div (ha k).ne' hA.ne']
    ring
  rw [e, ← Finset.sum_div, div_self hA.ne']
  linarith

theorem gmmForward_eq {K d n : ℕ} {g : GMM K d} {data : Fin n → Fin d → ℝ} {v : ℝ}
    (hw : ∀ k, 0 < g.weights k) (h : gmmForward g data = .ok v) :
    (∀ k, (g.covariances k).PosDef) ∧
      v = ∑ i, Real.log (∑ k, g.weights k * Real.exp (mvnLogDensity (g.means k) (g.covariances k) (data i))) := by
  unfold gmmForward at h
  obtain ⟨lp, hlp, hv⟩ := bind_eq_ok h
  simp only [pure, Except.pure, Except.ok.injEq] at hv
  obtain ⟨hp, he⟩ := gmmLogProbs_ok hlp
  refine ⟨hp, ?_⟩
  rw [← hv]
  refine Finset.sum_congr rfl fun i _ => ?_
  unfold logSumExpCol gmmWeighted
  congr 1
  refine Finset.sum_congr rfl fun k _ => ?_
  rw [he, Real.exp_add, Real.exp_log (hw k), mul_comm]

theorem em_step_monotone {K d n : ℕ} (hK : 0 < K) (hn : 0 < n) {g : GMM K d} {data : Fin n → Fin d → ℝ}
    (hw : ∀ k, 0 < g.weights k) (hs : ∑ k, g.weights k = 1) {r : Fin K → Fin n → ℝ}
    (hr : gmmEStep g data = .ok r) {v v' : ℝ} (hv : gmmForward g data = .ok v)
    (hv' : gmmForward (gmmMStep data r) data = .ok v') : v ≤ v' := by
  have hresp := gmmEStep_responsible hK hw hr
  obtain ⟨hpd, hre⟩ := gmmEStep_eq hw hr
  obtain ⟨hw', hs', -⟩ := gmmMStep_valid hn data hresp
  obtain ⟨-, ev⟩ := gmmForward_eq hw hv
  obtain ⟨hpd', ev'⟩ := gmmForward_eq hw' hv'
  have hR : ∀ k, 0 < ∑ i, r k i := fun k => Finset.sum_pos (fun i _ => hresp.1 k i) ⟨⟨0, hn⟩, Finset.mem_univ _⟩
  have hn' : (0 : ℝ) < n := by exact_mod_cast hn
  -- Jensen, observation by observation
  have hJ : ∑ i, ∑ k, r k i *
      ((Real.log ((gmmMStep data r).weights k) + mvnLogDensity ((gmmMStep data r).means k) ((gmmMStep data r).covariances k) (data i))
        - (Real.log (g.weights k) + mvnLogDensity (g.means k) (g.covariances k) (data i))) ≤ v' - v := by
    rw [ev, ev', ← Finset.sum_sub_distrib]
    refine Finset.sum_le_sum fun i _ => ?_
    have := jensen_part hK
      (a := fun k => g.weights k * Real.exp (mvnLogDensity (g.means k) (g.covariances k) (data i)))
      (b := fun k => (gmmMStep data r).weights k *
        Real.exp (mvnLogDensity ((gmmMStep data r).means k) ((gmmMStep data r).covariances k) (data i)))
      (fun k => mul_pos (hw k) (Real.exp_pos _)) (fun k => mul_pos (hw' k) (Real.exp_pos _))
    refine le_trans (le_of_eq ?_) this
    refine Finset.sum_congr rfl fun k _ => ?_
    rw [hre k i, Real.log_mul (hw' k).ne' (Real.exp_pos _).ne', Real.log_mul (hw k).ne' (Real.exp_pos _).ne',
      Real.log_exp, Real.log_exp]
  -- split into weights and Gaussians
  have hsplit : ∑ i, ∑ k, r k i *
      ((Real.log ((gmmMStep data r).weights k) + mvnLogDensity ((gmmMStep data r).means k) ((gmmMStep data r).covariances k) (data i))
        - (Real.log (g.weights k) + mvnLogDensity (g.means k) (g.covariances k) (data i)))
      = n * (∑ k, (gmmMStep data r).weights k * Real.log ((gmmMStep data r).weights k)
          - ∑ k, (gmmMStep data r).weights k * Real.log (g.weights k))
        + ∑ k, (∑ i, r k i * mvnLogDensity ((gmmMStep data r).means k) ((gmmMStep data r).covariances k) (data i)
          - ∑ i, r k i * mvnLogDensity (g.means k) (g.covariances k) (data i)) := by
    rw [Finset.sum_comm, ← Finset.sum_sub_distrib, Finset.mul_sum, ← Finset.sum_add_distrib]
    refine Finset.sum_congr rfl fun k _ => ?_
    have hnw : (n : ℝ) * (gmmMStep data r).weights k = ∑ i, r k i := by
      show (n : ℝ) * ((∑ i, r k i) / n) = _
      field_simp
    rw [← mul_sub, ← mul_assoc, hnw, Finset.sum_mul, ← Finset.sum_sub_distrib, ← Finset.sum_add_distrib]
    exact Finset.sum_congr rfl fun i _ => by ring
  have hW := weights_part hw' hw hs' hs
  have hG : 0 ≤ ∑ k, (∑ i, r k i * mvnLogDensity ((gmmMStep data r).means k) ((gmmMStep data r).covariances k) (data i)
          - ∑ i, r k i * mvnLogDensity (g.means k) (g.covariances k) (data i)) :=
    Finset.sum_nonneg fun k _ => sub_nonneg.2 (gaussian_part data r k (hR k) (hpd k) (g.means k) (hpd' k))
  rw [hsplit] at hJ
  nlinarith [mul_nonneg hn'.le (sub_nonneg.2 hW)]

end Irt
