import Verif.Spec.Scoring

/-!
# Specification of a rounded exponential and sigmoid
-/

namespace Irt.Spec

/-- A floating point exponential: exact at zero, nothing left below `u` (underflow), within a factor two below `v`
(subnormal numbers), relative error at most `ε` from `v` on. For 64 bit numbers `u = -745.2`, `v = -708.3` and
`ε = 2 ^ (-52)` will do, for 32 bit numbers `u = -104`, `v = -87.3` and `ε = 2 ^ (-22)`. -/
structure FloatExp (E : ℝ → ℝ) (u v ε : ℝ) : Prop where
  zero : E 0 = 1
  order : u ≤ v
  err : 0 ≤ ε
  small : ε < 1
  under : ∀ x, x < u → E x = 0
  subnormal : ∀ x, u ≤ x → x < v → 0 < E x ∧ E x ≤ 2 * Real.exp x
  normal : ∀ x, v ≤ x → |E x - Real.exp x| ≤ ε * Real.exp x

/-- A floating point sigmoid: between zero and one, and rounded to one from `s` on. For 32 bit numbers `s = 17`. -/
structure FloatSigmoid (S : ℝ → ℝ) (s : ℝ) : Prop where
  nonneg : ∀ x, 0 ≤ S x
  le_one : ∀ x, S x ≤ 1
  saturated : ∀ x, s ≤ x → S x = 1

/-- The log of prior density times likelihood of the observed responses (for positive probabilities). -/
noncomputable def logPosterior {d : ℕ} (P : (Fin d → ℝ) → ℕ → ℕ → ℝ) (items : ℕ) (cov : Matrix (Fin d) (Fin d) ℝ)
    (row : ℕ → Cell) (θ : Fin d → ℝ) : ℝ :=
  mvnLogDensity 0 cov θ + Real.log (observedLikelihood P items row θ)

open Classical in
/-- Prior density times likelihood as computed with the exponential `E` (zero for a likelihood of zero). -/
noncomputable def roundedWeight (E : ℝ → ℝ) {d : ℕ} (P : (Fin d → ℝ) → ℕ → ℕ → ℝ) (items : ℕ)
    (cov : Matrix (Fin d) (Fin d) ℝ) (row : ℕ → Cell) (θ : Fin d → ℝ) : ℝ :=
  if observedLikelihood P items row θ = 0 then 0 else E (logPosterior P items cov row θ)

end Irt.Spec
