import Verif.Lemmas.Activation

/-!
# C14: the bounded ELU activation

`boundedElu ov alpha x` is the forward pass and `boundedEluGrad ov alpha x` the factor of the backward
pass; `none` means NaN or an infinity, `ov` is the argument above which `exp` overflows.
-/

namespace Irt

/-- C14: for a positive `alpha` the forward pass returns the bounded ELU at every input, also where the
unused branch overflows. -/
theorem C14_value (ov α x : ℝ) (hov : 0 ≤ ov) (hα : 0 < α) : boundedElu ov α x = some (belu α x) :=
  boundedElu_eq ov α x hov hα

example : boundedElu 88 1 3 = some (belu 1 3) := C14_value 88 1 3 (by norm_num) one_pos

/-- The overflow threshold matters: with a negative `alpha` the infinity of the unused branch is not
removed, and the output is not finite. -/
example : boundedElu 88 (-1) 100 = none := by
  simp [boundedElu, expOv, affineExt, maskMul, add3]
  norm_num

/-- C14: the activation is finite, strictly increasing, odd and stays within `1 + alpha`. -/
theorem C14_shape (ov α : ℝ) (hov : 0 ≤ ov) (hα : 0 < α) :
    ∃ f : ℝ → ℝ, (∀ x, boundedElu ov α x = some (f x)) ∧ StrictMono f ∧ Continuous f ∧
      (∀ x, f (-x) = -f x) ∧ (∀ x, -(1 + α) < f x ∧ f x < 1 + α) ∧ (∀ x, -1 ≤ x → x ≤ 1 → f x = x) :=
  ⟨belu α, fun x => boundedElu_eq ov α x hov hα, belu_strictMono α hα, belu_continuous α, belu_odd α,
    fun x => belu_bounded α x hα, belu_eqOn_mid α⟩

example : ∃ f : ℝ → ℝ, (∀ x, boundedElu 88 1 x = some (f x)) ∧ StrictMono f := by
  obtain ⟨f, h1, h2, -⟩ := C14_shape 88 1 (by norm_num) one_pos
  exact ⟨f, h1, h2⟩

/-- C14: with `alpha = 1`, the value the package uses, the backward pass is the derivative of the forward
pass at every point. -/
theorem C14_derivative (ov : ℝ) (hov : 0 ≤ ov) (x : ℝ) :
    ∃ g, boundedEluGrad ov 1 x = some g ∧ HasDerivAt (fun t => (boundedElu ov 1 t).getD 0) g x := by
  refine ⟨beluDeriv 1 x, boundedEluGrad_eq ov 1 x hov one_pos, ?_⟩
  simp only [boundedElu_eq ov 1 _ hov one_pos, Option.getD_some]
  exact belu_hasDerivAt 1 x (Or.inl rfl)

example : ∃ g, boundedEluGrad 88 1 (-1) = some g ∧ HasDerivAt (fun t => (boundedElu 88 1 t).getD 0) g (-1) :=
  C14_derivative 88 (by norm_num) (-1)

/-- C14: for any other positive `alpha` the same holds away from the two joints. -/
theorem C14_derivative_any_alpha (ov α : ℝ) (hov : 0 ≤ ov) (hα : 0 < α) (x : ℝ) (h : x ≠ -1 ∧ x ≠ 1) :
    ∃ g, boundedEluGrad ov α x = some g ∧ HasDerivAt (fun t => (boundedElu ov α t).getD 0) g x := by
  refine ⟨beluDeriv α x, boundedEluGrad_eq ov α x hov hα, ?_⟩
  simp only [boundedElu_eq ov α _ hov hα, Option.getD_some]
  exact belu_hasDerivAt α x (Or.inr h)

example : ∃ g, boundedEluGrad 88 2 3 = some g ∧ HasDerivAt (fun t => (boundedElu 88 2 t).getD 0) g 3 :=
  C14_derivative_any_alpha 88 2 (by norm_num) (by norm_num) 3 (by norm_num)

end Irt
