import Verif.Lemmas.Poly

/-!
# C11, C12: the monotone polynomial module

`m.forward x o` is output `o` for the input row `x`; `Function.update x i t` is the row with input `i`
set to `t`.
-/

namespace Irt

open Finset

/-- A concrete module of degree 3 with two inputs and two outputs: input 0 is related to both outputs,
input 1 only to output 1; directions are 2 for input 0 and -1 for input 1. -/
noncomputable def polyDemo (negative : Bool) : MonoPoly where
  k := 1
  inDim := 2
  outDim := 2
  omega := fun _ _ => 0
  alpha := fun _ _ _ => 3
  tau := fun _ _ _ => -5
  intercept := some fun _ => 1
  rel := some fun i o => decide (i ≤ o)
  directions := if negative then some fun i _ => if i = 0 then 2 else -1 else none
  shared := 1

/-- C11: without negative relationships the output is differentiable in every related input, with a
positive derivative everywhere. -/
theorem C11_derivative_positive (m : MonoPoly) (hd : m.directions = none) (x : ℕ → ℝ) (i o : ℕ)
    (hi : i < m.inDim) (hr : ∀ r, m.rel = some r → r i o = true) (t : ℝ) :
    ∃ d, 0 < d ∧ HasDerivAt (fun t => m.forward (Function.update x i t) o) d t := by
  have hg : m.gain i o = 1 := by
    have h1 : m.related i o = true := by
      unfold MonoPoly.related
      cases h : m.rel with
      | none => rfl
      | some r => exact hr r h
    unfold MonoPoly.gain MonoPoly.direction
    rw [hd, h1]
    cases m.rel <;> simp
  refine ⟨_, m.eval_rawCoeffs_pos i o t, ?_⟩
  have h := (m.term_hasDerivAt i o t).add_const (m.forward x o - m.term i o (x i))
  rw [hg, one_mul] at h
  simpa only [m.forward_update x o i hi] using h

/-- C11: without negative relationships the output is strictly increasing in every related input,
whatever the parameters. -/
theorem C11_strictly_increasing (m : MonoPoly) (hd : m.directions = none) (x : ℕ → ℝ) (i o : ℕ)
    (hi : i < m.inDim) (hr : ∀ r, m.rel = some r → r i o = true) :
    StrictMono fun t => m.forward (Function.update x i t) o := by
  refine strictMono_of_deriv_pos fun t => ?_
  obtain ⟨d, hpos, hd⟩ := C11_derivative_positive m hd x i o hi hr t
  rw [hd.deriv]; exact hpos

example : StrictMono fun t => (polyDemo false).forward (Function.update (fun _ => 0) 0 t) 1 :=
  C11_strictly_increasing _ rfl _ 0 1 (by simp [polyDemo]) (by intro r h; cases h; rfl)

example (t : ℝ) : ∃ d, 0 < d ∧
    HasDerivAt (fun t => (polyDemo false).forward (Function.update (fun _ => 0) 0 t) 1) d t :=
  C11_derivative_positive _ rfl _ 0 1 (by simp [polyDemo]) (by intro r h; cases h; rfl) t

/-- C11: with negative relationships the sign of the direction parameter of the group of `o` decides:
strictly increasing, strictly decreasing, or constant. -/
theorem C11_direction_sign (m : MonoPoly) (d : ℕ → ℕ → ℝ) (r : ℕ → ℕ → Bool) (hd : m.directions = some d)
    (hrel : m.rel = some r) (x : ℕ → ℝ) (i o : ℕ) (hi : i < m.inDim) (hr : r i o = true)
    (hgroup : r i (o / m.shared * m.shared) = true) :
    (0 < d i (o / m.shared) → StrictMono fun t => m.forward (Function.update x i t) o) ∧
    (d i (o / m.shared) < 0 → StrictAnti fun t => m.forward (Function.update x i t) o) ∧
    (d i (o / m.shared) = 0 → ∀ t, m.forward (Function.update x i t) o = m.forward x o) := by
  have hg : m.gain i o = d i (o / m.shared) := by
    simp [MonoPoly.gain, MonoPoly.related, MonoPoly.direction, hd, hrel, hr, hgroup]
  simp only [m.forward_update x o i hi]
  refine ⟨fun h => ?_, fun h => ?_, fun h t => ?_⟩
  · have := m.term_strictMono i o (by rw [hg]; exact h)
    exact fun a b hab => by simpa using this hab
  · have := m.term_strictAnti i o (by rw [hg]; exact h)
    exact fun a b hab => by simpa using this hab
  · rw [m.term_zero_gain i o (by rw [hg]; exact h), m.term_zero_gain i o (by rw [hg]; exact h)]
    ring

example : StrictAnti fun t => (polyDemo true).forward (Function.update (fun _ => 0) 1 t) 1 :=
  (C11_direction_sign (polyDemo true) (fun i _ => if i = 0 then 2 else -1) (fun i o => decide (i ≤ o)) rfl rfl
    _ 1 1 (by simp [polyDemo]) rfl rfl).2.1 (by norm_num)

/-- C11: an input that is not related to an output does not change it. -/
theorem C11_unrelated (m : MonoPoly) (r : ℕ → ℕ → Bool) (hrel : m.rel = some r) (x : ℕ → ℝ) (i o : ℕ)
    (hr : r i o = false) (t : ℝ) : m.forward (Function.update x i t) o = m.forward x o := by
  have hg : m.gain i o = 0 := by simp [MonoPoly.gain, MonoPoly.related, hrel, hr]
  rw [m.forward_eq, m.forward_eq]
  congr 1
  refine sum_congr rfl fun j _ => ?_
  by_cases hj : j = i
  · subst hj
    rw [m.term_zero_gain j o hg, m.term_zero_gain j o hg]
  · rw [Function.update_of_ne hj]

example (t : ℝ) : (polyDemo false).forward (Function.update (fun _ => 0) 1 t) 0 =
    (polyDemo false).forward (fun _ => 0) 0 :=
  C11_unrelated (polyDemo false) (fun i o => decide (i ≤ o)) rfl _ 1 0 rfl t

/-- C11: the constructor accepts exactly the odd degrees (with consistent directions). -/
theorem C11_degree (degree outDim : ℕ) (hasRel negative : Bool) (shared : ℕ) :
    (∀ k, MonoPoly.checkInit degree outDim hasRel negative shared = .ok k → degree = 2 * k + 1) ∧
    (degree % 2 = 1 → negative = false →
      ∃ k, MonoPoly.checkInit degree outDim hasRel negative shared = .ok k) := by
  unfold MonoPoly.checkInit
  constructor
  · intro k
    split_ifs <;> intro h <;> simp at h
    omega
  · intro h1 h2
    exact ⟨(degree - 1) / 2, by simp [h1, h2]⟩

example : MonoPoly.checkInit 3 4 true true 2 = .ok 1 := by simp [MonoPoly.checkInit]

/-- The reported coefficients describe the forward pass: the output is the polynomial with those
coefficients (of degrees 1, 2, ...) in each input, plus the intercept. -/
def ReportsItself (m : MonoPoly) : Prop :=
  ∀ (x : ℕ → ℝ) (o : ℕ), o < m.outDim → m.forward x o =
    ∑ i ∈ range m.inDim, ∑ c ∈ range (2 * m.k + 1), (m.reportedCoeffs i o).getD c 0 * x i ^ (c + 1) +
      (match m.intercept with | some b => b o | none => 0)

/-- C12 (holds only for degree 1): the reported coefficient of a linear module is the slope used. Missing:
every higher degree, where the claim is false (`C12_false`). -/
theorem C12_partial (m : MonoPoly) (hk : m.k = 0) : ReportsItself m := by
  intro x o _
  rw [m.forward_eq]
  congr 1
  refine sum_congr rfl fun i _ => ?_
  unfold MonoPoly.term
  refine sum_congr rfl fun c hc => ?_
  have hc0 : c = 0 := by have := mem_range.1 hc; omega
  subst hc0
  rw [m.reported_getD, m.coeffs_getD, hk]
  simp
  ring

example : ReportsItself { polyDemo false with k := 0 } := C12_partial _ rfl

/-- C12 is false for every module of degree at least 3 that has a related pair with a nonzero direction:
the reported coefficients are never those of the forward pass. -/
theorem C12_false (m : MonoPoly) (hk : 1 ≤ m.k) (i o : ℕ) (hi : i < m.inDim) (ho : o < m.outDim)
    (hr : m.related i o = true) (hd : m.direction i o ≠ 0) : ¬ ReportsItself m := by
  intro h
  have hg : m.gain i o ≠ 0 := by simpa [MonoPoly.gain, hr] using hd
  have key : ∀ t : ℝ, ∑ c ∈ range (2 * m.k + 1), (m.coeffs i o).getD c 0 / ((c + 1 : ℕ) : ℝ) * t ^ (c + 1) =
      ∑ c ∈ range (2 * m.k + 1), (m.reportedCoeffs i o).getD c 0 * t ^ (c + 1) := by
    intro t
    have h1 := h (Function.update (fun _ => 0) i t) o ho
    rw [m.forward_eq] at h1
    replace h1 := add_right_cancel h1
    rw [sum_eq_single i, sum_eq_single i] at h1
    · rw [Function.update_self] at h1
      rw [← h1]
      unfold MonoPoly.term
      exact sum_congr rfl fun c _ => by ring
    · intro j _ hj
      rw [Function.update_of_ne hj]
      exact sum_eq_zero fun c _ => by simp
    · intro hn; exact absurd (mem_range.2 hi) hn
    · intro j _ hj
      rw [Function.update_of_ne hj, m.term_zero]
    · intro hn; exact absurd (mem_range.2 hi) hn
  have hc := coeff_unique _ _ _ key
  obtain ⟨hf, hl⟩ := m.rawCoeffs_first_last i o
  have hω := softplus_pos (m.omega i o)
  have e0 := hc 0 (by omega)
  have e2 := hc (2 * m.k) (by omega)
  rw [m.coeffs_getD, m.reported_getD] at e0 e2
  have hne0 : (m.rawCoeffs i o).getD 0 0 * m.gain i o ≠ 0 := mul_ne_zero (by rw [hf]; exact hω.ne') hg
  have hne2 : (m.rawCoeffs i o).getD (2 * m.k) 0 * m.gain i o ≠ 0 := mul_ne_zero hl.ne' hg
  have hfac : (m.k.factorial : ℝ) ≠ 0 := by positivity
  have f0 : (m.k.factorial : ℝ) = 1 := by
    have h1 : ((0 + 1 : ℕ) : ℝ) ≠ 0 := by norm_num
    rw [div_eq_div_iff h1 hfac] at e0
    have := mul_left_cancel₀ hne0 e0
    simpa using this
  have f2 : (m.k.factorial : ℝ) = ((2 * m.k + 1 : ℕ) : ℝ) := by
    have hk' : ((2 * m.k + 1 : ℕ) : ℝ) ≠ 0 := by positivity
    rw [div_eq_div_iff hk' hfac] at e2
    exact mul_left_cancel₀ hne2 e2
  rw [f0] at f2
  have : (1 : ℕ) = 2 * m.k + 1 := by exact_mod_cast f2
  omega

example : ¬ ReportsItself (polyDemo true) :=
  C12_false _ (by simp [polyDemo]) 0 1 (by simp [polyDemo]) (by simp [polyDemo]) rfl
    (by norm_num [polyDemo, MonoPoly.direction])

/-- C12: exactly what is reported instead: coefficient `c` of the forward pass is multiplied by
`(c + 1) / k!`. -/
theorem C12_reported_instead (m : MonoPoly) (i o c : ℕ) :
    (m.reportedCoeffs i o).getD c 0 =
      (m.coeffs i o).getD c 0 / ((c + 1 : ℕ) : ℝ) * (((c + 1 : ℕ) : ℝ) / m.k.factorial) := by
  rw [m.reported_getD, m.coeffs_getD]
  have : ((c + 1 : ℕ) : ℝ) ≠ 0 := by positivity
  field_simp

end Irt
