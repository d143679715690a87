import Verif.Model.Density
import Mathlib.MeasureTheory.Measure.Lebesgue.Basic
import Mathlib.MeasureTheory.Integral.Pi
import Mathlib.Analysis.SpecialFunctions.Gaussian.GaussianIntegral
import Mathlib.MeasureTheory.Measure.Haar.NormedSpace
import Mathlib.Analysis.Matrix.Order

/-! # The multivariate normal density integrates to one -/

namespace Irt

open MeasureTheory
open scoped MatrixOrder

theorem integral_exp_norm (d : ℕ) :
    ∫ z : Fin d → ℝ, Real.exp (-(1 / 2) * ∑ k, z k ^ 2) = (Real.sqrt (2 * Real.pi)) ^ d := by
  have h1 : (fun z : Fin d → ℝ => Real.exp (-(1 / 2) * ∑ k, z k ^ 2)) = fun z => ∏ k, Real.exp (-(1 / 2) * z k ^ 2) := by
    funext z
    rw [← Real.exp_sum, Finset.mul_sum]
  rw [h1, integral_fintype_prod_volume_eq_prod (f := fun _ => fun x : ℝ => Real.exp (-(1 / 2) * x ^ 2))]
  simp only [integral_gaussian, Finset.prod_const, Finset.card_univ, Fintype.card_fin]
  congr 2
  ring

theorem integral_comp_matrix {d : ℕ} (A : Matrix (Fin d) (Fin d) ℝ) (hA : A.det ≠ 0) (f : (Fin d → ℝ) → ℝ) :
    ∫ x : Fin d → ℝ, f (A.mulVec x) = |A.det|⁻¹ * ∫ z, f z := by
  have hmap := Real.map_matrix_volume_pi_eq_smul_volume_pi hA
  have hinj : MeasurableEmbedding (Matrix.toLin' A) := by
    let e : (Fin d → ℝ) ≃ₗ[ℝ] (Fin d → ℝ) := LinearEquiv.ofIsUnitDet (f := Matrix.toLin' A)
      (v := Pi.basisFun ℝ (Fin d)) (v' := Pi.basisFun ℝ (Fin d)) (by
        rw [LinearMap.toMatrix_eq_toMatrix', LinearMap.toMatrix'_toLin']; exact isUnit_iff_ne_zero.2 hA)
    exact e.toContinuousLinearEquiv.toHomeomorph.measurableEmbedding
  have := hinj.integral_map (μ := volume) f
  rw [hmap, integral_smul_measure] at this
  simp only [Matrix.toLin'_apply] at this
  rw [← this, ENNReal.toReal_ofReal (abs_nonneg _), abs_inv, smul_eq_mul]

theorem mvn_factor {d : ℕ} (cov : Matrix (Fin d) (Fin d) ℝ) (h : cov.PosDef) :
    ∃ B : Matrix (Fin d) (Fin d) ℝ, B.det ≠ 0 ∧ cov.det = B.det ^ 2 ∧
      ∀ x, x ⬝ᵥ (cov⁻¹.mulVec x) = ∑ k, ((B.transpose)⁻¹.mulVec x) k ^ 2 := by
  obtain ⟨B, hB⟩ := CStarAlgebra.nonneg_iff_eq_star_mul_self.mp h.posSemidef.nonneg
  rw [Matrix.star_eq_conjTranspose, Matrix.conjTranspose_eq_transpose_of_trivial] at hB
  have hdet : cov.det = B.det ^ 2 := by rw [hB, Matrix.det_mul, Matrix.det_transpose, sq]
  have hB0 : B.det ≠ 0 := by
    intro h0
    have := h.det_pos
    rw [hdet, h0] at this
    simp at this
  refine ⟨B, hB0, hdet, fun x => ?_⟩
  have hinv : cov⁻¹ = B⁻¹ * (B.transpose)⁻¹ := by rw [hB, Matrix.mul_inv_rev]
  rw [hinv, ← Matrix.mulVec_mulVec, Matrix.dotProduct_mulVec, ← Matrix.mulVec_transpose, Matrix.transpose_nonsing_inv]
  simp [dotProduct, sq]

/-- The density `exp (mvnLogDensity mean cov x)` integrates to one. -/
theorem integral_mvn {d : ℕ} (mean : Fin d → ℝ) (cov : Matrix (Fin d) (Fin d) ℝ) (h : cov.PosDef) :
    ∫ x : Fin d → ℝ, Real.exp (mvnLogDensity mean cov x) = 1 := by
  obtain ⟨B, hB0, hdet, hq⟩ := mvn_factor cov h
  have hfun : (fun x : Fin d → ℝ => Real.exp (mvnLogDensity mean cov x)) = fun x =>
      ((Real.sqrt (2 * Real.pi)) ^ d)⁻¹ * |B.det|⁻¹ *
        (fun y => Real.exp (-(1 / 2) * ∑ k, ((B.transpose)⁻¹.mulVec y) k ^ 2)) (x - mean) := by
    funext x
    unfold mvnLogDensity
    rw [hq, hdet, Real.log_pow, ← Real.log_abs B.det]
    have e1 : ((Real.sqrt (2 * Real.pi)) ^ d)⁻¹ = Real.exp (-(1 / 2) * (d * Real.log (2 * Real.pi))) := by
      rw [show -(1 / 2) * (d * Real.log (2 * Real.pi)) = -(d * Real.log (Real.sqrt (2 * Real.pi))) by
        rw [Real.log_sqrt (by positivity)]; ring, Real.exp_neg, ← Real.log_pow, Real.exp_log (by positivity)]
    have e2 : |B.det|⁻¹ = Real.exp (-(1 / 2) * (2 * Real.log |B.det|)) := by
      rw [show -(1 / 2) * (2 * Real.log |B.det|) = -Real.log |B.det| by ring, Real.exp_neg,
        Real.exp_log (abs_pos.2 hB0)]
    rw [e1, e2, ← Real.exp_add, ← Real.exp_add]
    congr 1
    push_cast
    ring
  rw [hfun, integral_const_mul, integral_sub_right_eq_self (fun y => Real.exp (-(1 / 2) * ∑ k, ((B.transpose)⁻¹.mulVec y) k ^ 2)) mean,
    integral_comp_matrix _ (by rw [Matrix.det_nonsing_inv, Matrix.det_transpose]; simpa using hB0)
      fun z => Real.exp (-(1 / 2) * ∑ k, z k ^ 2), integral_exp_norm, Matrix.det_nonsing_inv, Matrix.det_transpose]
  have : (Real.sqrt (2 * Real.pi)) ^ d ≠ 0 := by positivity
  have h2 : |B.det| ≠ 0 := abs_ne_zero.2 hB0
  simp only [Ring.inverse_eq_inv', abs_inv, inv_inv]
  field_simp

end Irt
