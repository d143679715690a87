import Verif.Model.Rescale
import Verif.Spec.Scale
import Verif.Lemmas.RQSpline
import Mathlib.Analysis.Calculus.FDeriv.Add
import Mathlib.Analysis.Calculus.Deriv.Pi
import Mathlib.Analysis.Calculus.Deriv.Prod

/-! # Lemmas about scale transformations -/

namespace Irt

open Finset

variable {d : ℕ}

/-! ## Jacobians -/

theorem IsJacobian.id (t : Fin d → ℝ) : IsJacobian (fun t => t) 1 t := by
  unfold IsJacobian
  rw [Matrix.toLin'_one]
  exact hasFDerivAt_id t

theorem IsJacobian.comp {F G : (Fin d → ℝ) → Fin d → ℝ} {A B : Matrix (Fin d) (Fin d) ℝ} {t : Fin d → ℝ}
    (hG : IsJacobian G B (F t)) (hF : IsJacobian F A t) : IsJacobian (fun t => G (F t)) (B * A) t := by
  unfold IsJacobian at *
  rw [Matrix.toLin'_mul]
  exact hG.comp t hF

/-- A transformation acting on each coordinate has the diagonal Jacobian of its derivatives. -/
theorem IsJacobian.diagonal {f : Fin d → ℝ → ℝ} {f' : Fin d → ℝ} {t : Fin d → ℝ}
    (h : ∀ k, HasDerivAt (f k) (f' k) (t k)) :
    IsJacobian (fun t k => f k (t k)) (Matrix.diagonal f') t := by
  unfold IsJacobian
  rw [hasFDerivAt_pi']
  intro k
  have h1 : HasFDerivAt (fun t : Fin d → ℝ => t k) (ContinuousLinearMap.proj k) t :=
    (ContinuousLinearMap.proj (R := ℝ) (φ := fun _ : Fin d => ℝ) k).hasFDerivAt
  have h2 := (h k).hasFDerivAt.comp t h1
  refine h2.congr_fderiv ?_
  ext v
  simp [Matrix.mulVec_diagonal, mul_comm]

theorem IsJacobian.vecMul (R : Matrix (Fin d) (Fin d) ℝ) (t : Fin d → ℝ) :
    IsJacobian (fun t => Matrix.vecMul t R) R.transpose t := by
  unfold IsJacobian
  have : (fun t : Fin d → ℝ => Matrix.vecMul t R)
      = LinearMap.toContinuousLinearMap (Matrix.toLin' R.transpose) := by
    funext t
    simp [Matrix.mulVec_transpose]
  rw [this]
  exact ContinuousLinearMap.hasFDerivAt _

/-- Entries of a Jacobian are partial derivatives. -/
theorem IsJacobian.partial_deriv {F : (Fin d → ℝ) → Fin d → ℝ} {J : Matrix (Fin d) (Fin d) ℝ}
    {t : Fin d → ℝ} (h : IsJacobian F J t) (i k : Fin d) :
    HasDerivAt (fun v => F (Function.update t k v) i) (J i k) (t k) := by
  have h1 : HasDerivAt (fun v => Function.update t k v) (Pi.single k 1) (t k) := hasDerivAt_update t k (t k)
  have h2 : HasFDerivAt F (LinearMap.toContinuousLinearMap (Matrix.toLin' J)) (Function.update t k (t k)) := by
    rw [Function.update_eq_self]; exact h
  have h3 := h2.comp_hasDerivAt (t k) h1
  have h4 := (hasDerivAt_pi.1 h3) i
  simpa using h4

/-! ## Flat tensors and rows -/

theorem fromFlat_flatTensor (N : ℕ) (f : ℕ → ℕ → ℝ) :
    (fromFlat N (flatTensor N d f) : Thetas d) = (List.range N).map fun i (k : Fin d) => f i k := by
  unfold fromFlat
  have h : viewRows N d (flatTensor N d f) = rowsOf N d f := by
    have h := viewRows_flatten d (rowsOf N d f) (by
      intro l hl
      simp only [rowsOf, List.mem_map] at hl
      obtain ⟨i, -, rfl⟩ := hl
      simp)
    rw [rowsOf_flatten_eq] at h
    simpa [rowsOf] using h
  rw [h, rowsOf, List.map_map]
  apply List.map_congr_left
  intro i _
  funext k
  simp only [Function.comp]
  exact map_getD_range d (f i) k k.2

/-- Entry `k` of row `i`, zero outside the tensor. -/
noncomputable def entry (theta : Thetas d) (i k : ℕ) : ℝ :=
  match theta[i]? with
  | some t => if h : k < d then t ⟨k, h⟩ else 0
  | none => 0

theorem rows_ofFn (theta : Thetas d) : theta.map List.ofFn = rowsOf theta.length d (entry theta) := by
  unfold rowsOf
  apply List.ext_getElem?
  intro i
  by_cases h : i < theta.length
  · rw [List.getElem?_map, List.getElem?_map, List.getElem?_range h, List.getElem?_eq_getElem h]
    simp only [Option.map_some, Option.some.injEq]
    apply List.ext_getElem?
    intro k
    by_cases hk : k < d
    · rw [List.getElem?_map, List.getElem?_range hk, List.getElem?_ofFn]
      simp [entry, hk, h]
    · rw [List.getElem?_eq_none (by simp; omega), List.getElem?_eq_none (by simp; omega)]
  · rw [List.getElem?_eq_none (by simp; omega), List.getElem?_eq_none (by simp; omega)]

theorem range_entry {γ : Type} (theta : Thetas d) (g : Fin d → ℝ → γ) :
    ((List.range theta.length).map fun i (k : Fin d) => g k (entry theta i k))
      = theta.map fun t k => g k (t k) := by
  apply List.ext_getElem?
  intro i
  by_cases h : i < theta.length
  · rw [List.getElem?_map, List.getElem?_map, List.getElem?_range h, List.getElem?_eq_getElem h]
    simp [entry, h]
  · rw [List.getElem?_eq_none (by simp; omega), List.getElem?_eq_none (by simp; omega)]

/-- The spline applied to rows of vectors. -/
theorem RQSpline.forward_rows (s : RQSpline) (hs : s.WF) (hd : s.uw.length = d) (inverse : Bool)
    (theta : Thetas d) :
    ∃ l, s.forward (theta.map List.ofFn) inverse = .ok (l, flatTensor theta.length d
        fun i j => (s.at inverse j (entry theta i j)).2) ∧
      l = flatTensor theta.length d (fun i j => (s.at inverse j (entry theta i j)).1) ∧
      (fromFlat theta.length l : Thetas d) = theta.map fun t (k : Fin d) => (s.at inverse k (t k)).1 := by
  refine ⟨_, ?_, rfl, ?_⟩
  · rw [rows_ofFn]
    have := s.forward_eq hs inverse theta.length (entry theta)
    rw [hd] at this
    exact this
  · rw [fromFlat_flatTensor, range_entry theta fun k x => (s.at inverse k x).1]

/-! ## Gradient of a sum -/

theorem sum_set (l : List ℝ) (i : ℕ) (v : ℝ) (h : i < l.length) :
    (l.set i v).sum = v + (l.sum - l[i]) := by
  induction l generalizing i with
  | nil => simp at h
  | cons a l ih =>
    cases i with
    | zero => simp
    | succ i =>
      simp only [List.set_cons_succ, List.sum_cons, List.getElem_cons_succ]
      rw [ih i (by simpa using h)]
      ring

/-- If the outputs are computed row by row, the gradient of their sum is the gradient of the row's own sum. -/
theorem gradOfSum_rowwise (out : Thetas d → Except PyErr (List ℝ)) (row : (Fin d → ℝ) → List ℝ)
    (h : ∀ theta, out theta = .ok (theta.flatMap row)) (theta : Thetas d) :
    gradOfSum out theta
      = .ok (theta.map fun t k => deriv (fun v => (row (Function.update t k v)).sum) (t k)) := by
  unfold gradOfSum
  rw [h]
  have hsum : ∀ θ : Thetas d, (θ.flatMap row).sum = (θ.map fun t => (row t).sum).sum := by
    intro θ
    induction θ with
    | nil => rfl
    | cons a θ ih => simp [ih]
  show Except.ok _ = Except.ok _
  congr 1
  apply List.ext_getElem?
  intro i
  rw [List.getElem?_mapIdx, List.getElem?_map]
  by_cases hi : i < theta.length
  · rw [List.getElem?_eq_getElem hi]
    simp only [Option.map_some, Option.some.injEq]
    funext k
    have e : (fun v : ℝ => okSum (out (theta.set i (Function.update theta[i] k v))))
        = fun v => (row (Function.update theta[i] k v)).sum
            + ((theta.map fun t => (row t).sum).sum - (row theta[i]).sum) := by
      funext v
      rw [h]
      show ((theta.set i _).flatMap row).sum = _
      rw [hsum, List.map_set, sum_set _ _ _ (by simpa using hi)]
      simp
    rw [e, deriv_add_const]
  · rw [List.getElem?_eq_none (by omega)]; rfl

theorem flatTensor_rows (theta : Thetas d) (g : Fin d → ℝ → ℝ) (g' : ℕ → ℝ → ℝ)
    (hg : ∀ k : Fin d, g' k = g k) :
    flatTensor theta.length d (fun i j => g' j (entry theta i j))
      = theta.flatMap fun t => List.ofFn fun k => g k (t k) := by
  rw [← rowsOf_flatten_eq, List.flatMap_def]
  congr 1
  unfold rowsOf
  apply List.ext_getElem?
  intro i
  by_cases h : i < theta.length
  · rw [List.getElem?_map, List.getElem?_map, List.getElem?_range h, List.getElem?_eq_getElem h]
    simp only [Option.map_some, Option.some.injEq]
    apply List.ext_getElem?
    intro k
    by_cases hk : k < d
    · rw [List.getElem?_map, List.getElem?_range hk, List.getElem?_ofFn]
      simp [entry, hk, h, ← hg]
    · rw [List.getElem?_eq_none (by simp; omega), List.getElem?_eq_none (by simp; omega)]
  · rw [List.getElem?_eq_none (by simp; omega), List.getElem?_eq_none (by simp; omega)]

/-- Gradient of the sum of a row computed coordinate by coordinate. -/
theorem deriv_row_sum (f : Fin d → ℝ → ℝ) (t : Fin d → ℝ) (k : Fin d) :
    deriv (fun v => (List.ofFn fun j => f j (Function.update t k v j)).sum) (t k) = deriv (f k) (t k) := by
  have e : (fun v => (List.ofFn fun j => f j (Function.update t k v j)).sum)
      = fun v => f k v + ∑ j ∈ univ.erase k, f j (t j) := by
    funext v
    rw [List.sum_ofFn, ← Finset.add_sum_erase _ _ (mem_univ k)]
    congr 1
    · simp
    · refine sum_congr rfl fun j hj => ?_
      rw [Function.update_of_ne (ne_of_mem_erase hj)]
  rw [e, deriv_add_const]

/-! ## Standard deviations -/

theorem columnStd_pos (xs : List ℝ) (i j : ℕ) (a b : ℝ) (hi : xs[i]? = some a) (hj : xs[j]? = some b)
    (hab : a ≠ b) : 0 < columnStd xs := by
  unfold columnStd
  apply Real.sqrt_pos.mpr
  have hlen : 2 ≤ xs.length := by
    have h1 := lt_of_getElem?_some hi
    have h2 := lt_of_getElem?_some hj
    have : i ≠ j := by rintro rfl; rw [hi] at hj; exact hab (Option.some.inj hj)
    omega
  have hl : (2 : ℝ) ≤ xs.length := by exact_mod_cast hlen
  apply div_pos _ (by linarith)
  have hnn : ∀ y ∈ xs.map fun x => (x - columnMean xs) ^ 2, 0 ≤ y := by
    intro y hy
    obtain ⟨x, -, rfl⟩ := List.mem_map.1 hy
    positivity
  obtain ⟨c, hc, hne⟩ : ∃ c ∈ xs, c ≠ columnMean xs := by
    by_cases h : a = columnMean xs
    · exact ⟨b, List.mem_of_getElem? hj, fun h' => hab (h.trans h'.symm)⟩
    · exact ⟨a, List.mem_of_getElem? hi, h⟩
  have hle : (c - columnMean xs) ^ 2 ≤ (xs.map fun x => (x - columnMean xs) ^ 2).sum :=
    List.single_le_sum hnn _ (List.mem_map_of_mem hc)
  have : 0 < (c - columnMean xs) ^ 2 := by
    have := sub_ne_zero.mpr hne
    positivity
  linarith

end Irt
