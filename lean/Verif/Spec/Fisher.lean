import Verif.Spec.Information
import Mathlib.Algebra.BigOperators.Pi
import Mathlib.Data.Fintype.Pi

/-!
# What a test tells about the latent variables

Items are indexed by a finite type `ι`, their answers are the categories `Fin C` (a category that an item does not have gets
probability 0), and the answers of a respondent with latent scores `t` are independent given `t`.
-/

namespace Irt.Spec

variable {d C : ℕ} {ι : Type} [Fintype ι] [DecidableEq ι]

/-- Probability of the answers `x`. -/
noncomputable def patternProb (P : (Fin d → ℝ) → ι → Fin C → ℝ) (x : ι → Fin C) (t : Fin d → ℝ) : ℝ := ∏ j, P t j (x j)

/-- Log likelihood of the latent scores `t` given the answers `x`. -/
noncomputable def patternLogLik (P : (Fin d → ℝ) → ι → Fin C → ℝ) (x : ι → Fin C) (t : Fin d → ℝ) : ℝ :=
  Real.log (patternProb P x t)

/-- Expectation over the answers of a respondent with latent scores `t`. -/
noncomputable def expect (P : (Fin d → ℝ) → ι → Fin C → ℝ) (t : Fin d → ℝ) (F : (ι → Fin C) → ℝ) : ℝ :=
  ∑ x, patternProb P x t * F x

/-- Expected outer product of the gradient of the log likelihood. -/
noncomputable def expectedOuter (P : (Fin d → ℝ) → ι → Fin C → ℝ) (t : Fin d → ℝ) : Matrix (Fin d) (Fin d) ℝ :=
  Matrix.of fun k k' => expect P t fun x => partialD (patternLogLik P x) t k * partialD (patternLogLik P x) t k'

/-- Expected matrix of second derivatives of the log likelihood. -/
noncomputable def expectedHessian (P : (Fin d → ℝ) → ι → Fin C → ℝ) (t : Fin d → ℝ) : Matrix (Fin d) (Fin d) ℝ :=
  Matrix.of fun k k' => expect P t fun x => partialD (fun s => partialD (patternLogLik P x) s k) t k'

/-- Variance of a statistic of the answers. -/
noncomputable def variance (P : (Fin d → ℝ) → ι → Fin C → ℝ) (t : Fin d → ℝ) (T : (ι → Fin C) → ℝ) : ℝ :=
  expect P t fun x => (T x - expect P t T) ^ 2

/-- The statistic `T` of the answers estimates latent variable `k` without bias near `t`, when the other latent variables are known:
its expectation at `t` is `t k`, and changes by as much as latent variable `k` does. (A statistic of finitely many answers is bounded,
so none is unbiased for all latent scores.) -/
def LocallyUnbiased (P : (Fin d → ℝ) → ι → Fin C → ℝ) (t : Fin d → ℝ) (k : Fin d) (T : (ι → Fin C) → ℝ) : Prop :=
  expect P t T = t k ∧ partialD (fun s => expect P s T) t k = 1

/-- The variances of such statistics. -/
def unbiasedVariances (P : (Fin d → ℝ) → ι → Fin C → ℝ) (t : Fin d → ℝ) (k : Fin d) : Set ℝ :=
  {v | ∃ T, LocallyUnbiased P t k T ∧ v = variance P t T}

/-- The probabilities of each item form a distribution, and are differentiable in every latent variable. -/
structure SmoothTest (P : (Fin d → ℝ) → ι → Fin C → ℝ) : Prop where
  nonneg : ∀ t j c, 0 ≤ P t j c
  sum : ∀ t j, ∑ c, P t j c = 1
  diff : ∀ t j c k, DifferentiableAt ℝ (fun v => P (Function.update t k v) j c) (t k)

/-- The items that a respondent answered: neither NaN nor -1. -/
def GivenItems (row : List (Option ℝ)) (n : ℕ) : Type := {j : Fin n // ∃ x, row[(j : ℕ)]? = some (some x) ∧ x ≠ -1}

open Classical in
noncomputable instance (row : List (Option ℝ)) (n : ℕ) : Fintype (GivenItems row n) := inferInstanceAs (Fintype {j : Fin n // _})

open Classical in
noncomputable instance (row : List (Option ℝ)) (n : ℕ) : DecidableEq (GivenItems row n) := inferInstanceAs (DecidableEq {j : Fin n // _})

end Irt.Spec
