import Verif.Model.Information
import Verif.Spec.Information
import Verif.Lemmas.Rescale
import Verif.Lemmas.Data
import Mathlib.LinearAlgebra.Matrix.PosDef
import Mathlib.Algebra.Order.Star.Real
import Verif.Lemmas.Nominal

/-! # Lemmas on gradients and information -/

namespace Irt

variable {d : ℕ}

theorem zip_flatMap {α β γ : Type} (θ : List γ) (f : γ → List α) (g : γ → List β)
    (h : ∀ t ∈ θ, (f t).length = (g t).length) :
    List.zip (θ.flatMap f) (θ.flatMap g) = θ.flatMap fun t => List.zip (f t) (g t) := by
  induction θ with
  | nil => rfl
  | cons a θ ih =>
    simp only [List.flatMap_cons]
    rw [List.zip_append (h a (by simp)), ih fun t ht => h t (List.mem_cons_of_mem _ ht)]

theorem length_flatMap_rows {α γ : Type} (θ : List γ) (f : γ → List α) (K : ℕ) (h : ∀ t ∈ θ, (f t).length = K) :
    (θ.flatMap f).length = θ.length * K := by
  induction θ with
  | nil => simp
  | cons a θ ih =>
    rw [List.flatMap_cons, List.length_append, h a (by simp), ih fun t ht => h t (List.mem_cons_of_mem _ ht),
      List.length_cons]
    ring

/-- The gradient vectors of every respondent are multiplied by the inverse of their transposed Jacobian. -/
theorem rescaleGradients_eq (scales : List (Scale d)) (θ : Thetas d) (hθ : θ ≠ [])
    (J : (Fin d → ℝ) → Matrix (Fin d) (Fin d) ℝ) (hJ : thetaTransformJacobian scales θ = .ok (θ.map J))
    (hdet : ∀ t ∈ θ, (J t).det ≠ 0) (K : ℕ) (g : (Fin d → ℝ) → List (Fin d → ℝ)) (hg : ∀ t ∈ θ, (g t).length = K) :
    rescaleGradients scales (θ.flatMap g) θ
      = .ok (θ.flatMap fun t => (g t).map fun h => ((J t).transpose)⁻¹.mulVec h) := by
  unfold rescaleGradients
  have hN : 0 < θ.length := List.length_pos_of_ne_nil hθ
  have hlen := length_flatMap_rows θ g K hg
  rw [hJ]
  simp only [bind_ok, List.length_map, if_neg hN.ne', hlen, Nat.mul_div_cancel_left K hN]
  rw [List.flatMap_map, if_pos (length_flatMap_rows θ _ K fun t _ => by simp),
    zip_flatMap θ _ g fun t ht => by rw [hg t ht, List.length_replicate]]
  have h := mapM_ok (θ.flatMap fun t => List.zip (List.replicate K (J t).transpose) (g t))
    (fun p : Matrix (Fin d) (Fin d) ℝ × (Fin d → ℝ) => linalgSolve p.1 p.2) (fun p => p.1⁻¹.mulVec p.2) (by
      intro p hp
      obtain ⟨t, ht, hp⟩ := List.mem_flatMap.1 hp
      have hp1 := (List.of_mem_zip hp).1
      rw [List.mem_replicate] at hp1
      unfold linalgSolve
      rw [hp1.2, Matrix.det_transpose, if_neg (hdet t ht)])
  rw [h, List.map_flatMap]
  congr 1
  apply List.flatMap_congr
  intro t ht
  have : ∀ (K : ℕ) (l : List (Fin d → ℝ)), l.length = K →
      (List.zip (List.replicate K (J t).transpose) l).map (fun p => p.1⁻¹.mulVec p.2)
        = l.map fun h => ((J t).transpose)⁻¹.mulVec h := by
    intro K l hl
    subst hl
    induction l with
    | nil => rfl
    | cons a l ih => simp only [List.length_cons, List.replicate_succ, List.zip_cons_cons, List.map_cons, ih]
  exact this K (g t) (hg t ht)

/-- A singular Jacobian makes the rescaling raise. -/
theorem rescaleGradients_singular (scales : List (Scale d)) (t : Fin d → ℝ) (J : Matrix (Fin d) (Fin d) ℝ)
    (hJ : thetaTransformJacobian scales [t] = .ok [J]) (hdet : J.det = 0) (g : List (Fin d → ℝ)) (hg : g ≠ []) :
    rescaleGradients scales g [t] = .error .runtimeError := by
  unfold rescaleGradients
  rw [hJ]
  simp only [bind_ok, List.length_singleton, Nat.div_one, List.flatMap_cons, List.flatMap_nil, List.append_nil,
    List.length_replicate, if_true]
  cases g with
  | nil => exact absurd rfl hg
  | cons a g =>
    rw [List.length_cons, List.replicate_succ, List.zip_cons_cons, List.mapM_cons]
    unfold linalgSolve
    rw [Matrix.det_transpose, if_pos hdet]
    rfl

/-! ## Information matrices -/

theorem itemInformation_nil_left (g : List (Fin d → ℝ)) : itemInformation [] g = 0 := by
  ext i j; simp [itemInformation]

theorem itemInformation_nil_right (p : List ℝ) : itemInformation p ([] : List (Fin d → ℝ)) = 0 := by
  ext i j; cases p <;> simp [itemInformation]

theorem itemInformation_cons (x : ℝ) (p : List ℝ) (h : Fin d → ℝ) (g : List (Fin d → ℝ)) :
    itemInformation (x :: p) (h :: g) = x⁻¹ • Matrix.vecMulVec h h + itemInformation p g := by
  ext i j
  simp only [itemInformation, Matrix.of_apply, List.zipWith_cons_cons, List.sum_cons, Matrix.add_apply,
    Matrix.smul_apply, Matrix.vecMulVec_apply, smul_eq_mul, infoTerm]
  congr 1
  split_ifs with hx
  · simp [hx]
  · rw [div_eq_inv_mul]

theorem itemInformation_posSemidef (p : List ℝ) (hp : ∀ x ∈ p, 0 ≤ x) (g : List (Fin d → ℝ)) :
    (itemInformation p g).PosSemidef := by
  induction p generalizing g with
  | nil => rw [itemInformation_nil_left]; exact Matrix.PosSemidef.zero
  | cons x p ih =>
    cases g with
    | nil => rw [itemInformation_nil_right]; exact Matrix.PosSemidef.zero
    | cons h g =>
      rw [itemInformation_cons]
      refine Matrix.PosSemidef.add ?_ (ih (fun y hy => hp y (List.mem_cons_of_mem _ hy)) g)
      have h1 : (Matrix.vecMulVec h h).PosSemidef := by
        have := Matrix.posSemidef_vecMulVec_self_star h
        simpa using this
      exact h1.smul (inv_nonneg.2 (hp x (by simp)))

theorem itemInformation_mulVec (A : Matrix (Fin d) (Fin d) ℝ) (p : List ℝ) (g : List (Fin d → ℝ)) :
    itemInformation p (g.map fun h => A.mulVec h) = A * itemInformation p g * A.transpose := by
  induction p generalizing g with
  | nil => simp [itemInformation_nil_left]
  | cons x p ih =>
    cases g with
    | nil => simp [itemInformation_nil_right]
    | cons h g =>
      rw [List.map_cons, itemInformation_cons, itemInformation_cons, ih, mul_add, add_mul]
      congr 1
      rw [Matrix.mul_smul, Matrix.smul_mul, Matrix.mul_vecMulVec, Matrix.vecMulVec_mul, Matrix.vecMul_transpose]

theorem itemInformation_range (p : List ℝ) (n : ℕ) (hn : p.length = n) (h : ℕ → Fin d → ℝ) :
    itemInformation p ((List.range n).map h)
      = Matrix.of fun i j => ∑ c ∈ Finset.range n, infoTerm (p.getD c 0) (h c i) (h c j) := by
  ext i j
  simp only [itemInformation, Matrix.of_apply]
  have hp := eq_range_map p
  rw [hn] at hp
  rw [← list_sum_range, ← zipWith_range n (fun c => p.getD c 0) h fun x g => infoTerm x (g i) (g j), ← hp]

end Irt
