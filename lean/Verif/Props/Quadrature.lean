import Verif.Lemmas.Quadrature
import Verif.Lemmas.Data

/-!
# C42: Gauss-Hermite quadrature integrates normal moments exactly
-/

namespace Irt
open Spec

/-- What a successful call returns, in the standardised nodes. -/
theorem gaussHermite_weighted {d n : ℕ} {hg : ℕ → Except PyErr (List ℝ × List ℝ)}
    {ch : Matrix (Fin d) (Fin d) ℝ → Except PyErr (Matrix (Fin d) (Fin d) ℝ)}
    {mean : Fin d → ℝ} {cov L : Matrix (Fin d) (Fin d) ℝ} {x w : List ℝ}
    (hx : hg n = .ok (x, w)) (hL : ch cov = .ok L) {pts : Thetas d} {wts : List ℝ}
    (h : gaussHermite hg ch n mean cov = .ok (pts, wts)) (f : (Fin d → ℝ) → ℝ) :
    weighted pts wts f = nodeSum x w fun u => f fun i => Real.sqrt 2 * (L.mulVec u) i + mean i := by
  have h' : gaussHermite hg ch n mean cov
      = .ok ((gridProduct x d).map fun v => fun i => Real.sqrt 2 * (L.mulVec v) i + mean i,
          ((gridProduct w d).map fun v => ∏ i, v i).map fun v => v * Real.pi ^ (-(1 / 2 : ℝ) * d)) := by
    unfold gaussHermite
    rw [hx, hL]
    rfl
  rw [h'] at h
  simp only [Except.ok.injEq, Prod.mk.injEq] at h
  rw [← h.1, ← h.2]
  unfold weighted nodeSum
  rw [List.map_map, List.zipWith_map]
  rfl

/-- **C42.** For every number of points `n ≥ 2`, every dimension, mean and covariance, with numpy's rule
exact as documented and the Cholesky factor a factor of the covariance: the call succeeds, returns one
weight per point, the weights sum to one, the weighted mean of every coordinate is the requested mean, and
the weighted covariance of every pair of coordinates is the requested one. -/
theorem C42_moments {d n : ℕ} (hn : 2 ≤ n) {hg : ℕ → Except PyErr (List ℝ × List ℝ)}
    {ch : Matrix (Fin d) (Fin d) ℝ → Except PyErr (Matrix (Fin d) (Fin d) ℝ)}
    {x w : List ℝ} (hx : hg n = .ok (x, w)) (hexact : HermiteExact n x w)
    (mean : Fin d → ℝ) {cov L : Matrix (Fin d) (Fin d) ℝ} (hL : ch cov = .ok L) (hchol : IsCholesky cov L) :
    ∃ pts wts, gaussHermite hg ch n mean cov = .ok (pts, wts) ∧
      pts.length = n ^ d ∧ wts.length = n ^ d ∧
      wts.sum = 1 ∧
      (∀ i, weighted pts wts (fun y => y i) = mean i) ∧
      (∀ i j, weighted pts wts (fun y => (y i - mean i) * (y j - mean j)) = cov i j) := by
  have hok : gaussHermite hg ch n mean cov
      = .ok ((gridProduct x d).map fun v => fun i => Real.sqrt 2 * (L.mulVec v) i + mean i,
          ((gridProduct w d).map fun v => ∏ i, v i).map fun v => v * Real.pi ^ (-(1 / 2 : ℝ) * d)) := by
    unfold gaussHermite
    rw [hx, hL]
    rfl
  have hlen : ∀ {p : Thetas d} {q : List ℝ}, p.length = q.length → weighted p q (fun _ => 1) = q.sum := by
    intro p
    induction p with
    | nil => intro q h; cases q <;> simp_all [weighted]
    | cons a p ih =>
      intro q h
      cases q with
      | nil => simp at h
      | cons b q =>
        have := ih (q := q) (by simpa using h)
        simp only [weighted, List.zipWith_cons_cons, List.sum_cons, mul_one] at this ⊢
        rw [this]
  refine ⟨_, _, hok, ?_, ?_, ?_, ?_, ?_⟩
  · rw [List.length_map, length_gridProduct, hexact.1]
  · rw [List.length_map, List.length_map, length_gridProduct, hexact.2.1]
  · rw [← hlen (p := (gridProduct x d).map fun v => fun i => Real.sqrt 2 * (L.mulVec v) i + mean i)
      (by simp [length_gridProduct, hexact.1, hexact.2.1]), gaussHermite_weighted hx hL hok]
    exact nodeSum_one (by omega) hexact
  · intro i
    rw [gaussHermite_weighted hx hL hok]
    have h1 : (fun u : Fin d → ℝ => Real.sqrt 2 * (L.mulVec u) i + mean i)
        = fun u => (∑ j, (Real.sqrt 2 * L i j) * u j) + mean i * 1 := by
      funext u
      rw [mul_one, Matrix.mulVec, dotProduct, Finset.mul_sum]
      simp only [mul_assoc]
    rw [h1, nodeSum_add, nodeSum_sum, nodeSum_mul, nodeSum_one (by omega) hexact]
    simp only [nodeSum_mul, nodeSum_first (show 1 ≤ n by omega) hexact, mul_zero, Finset.sum_const_zero,
      zero_add, mul_one]
  · intro i j
    rw [gaussHermite_weighted hx hL hok]
    have h1 : (fun u : Fin d → ℝ => (Real.sqrt 2 * (L.mulVec u) i + mean i - mean i)
          * (Real.sqrt 2 * (L.mulVec u) j + mean j - mean j))
        = fun u => ∑ a, ∑ b, (2 * (L i a * L j b)) * (u a * u b) := by
      funext u
      have hs : Real.sqrt 2 * Real.sqrt 2 = 2 := Real.mul_self_sqrt (by norm_num)
      simp only [add_sub_cancel_right, Matrix.mulVec, dotProduct]
      calc _ = (Real.sqrt 2 * Real.sqrt 2) * ((∑ a, L i a * u a) * (∑ b, L j b * u b)) := by ring
        _ = _ := by
          rw [hs, Finset.sum_mul_sum, Finset.mul_sum]
          refine Finset.sum_congr rfl fun a _ => ?_
          rw [Finset.mul_sum]
          refine Finset.sum_congr rfl fun b _ => ?_
          ring
    rw [h1, nodeSum_sum]
    simp only [nodeSum_sum, nodeSum_mul, nodeSum_second hn hexact, mul_ite, mul_zero,
      Finset.sum_ite_eq, Finset.mem_univ, if_true]
    rw [← hchol, Matrix.mul_apply]
    refine Finset.sum_congr rfl fun a _ => ?_
    rw [Matrix.transpose_apply]
    ring

/-- **C42**, all moments the rule can reach: in the coordinates standardised by the Cholesky factor, every
monomial of degree below `2n` in each coordinate gets its exact normal expectation, the product of the one
dimensional Gaussian integrals. -/
theorem C42_monomials {d n : ℕ} {hg : ℕ → Except PyErr (List ℝ × List ℝ)}
    {ch : Matrix (Fin d) (Fin d) ℝ → Except PyErr (Matrix (Fin d) (Fin d) ℝ)}
    {x w : List ℝ} (hx : hg n = .ok (x, w)) (hexact : HermiteExact n x w)
    (mean : Fin d → ℝ) {cov L : Matrix (Fin d) (Fin d) ℝ} (hL : ch cov = .ok L) (hunit : IsUnit L.det)
    (e : Fin d → ℕ) (he : ∀ i, e i < 2 * n) :
    ∃ pts wts, gaussHermite hg ch n mean cov = .ok (pts, wts) ∧
      weighted pts wts (fun y => ∏ i, ((Real.sqrt 2)⁻¹ * (L⁻¹.mulVec (y - mean)) i) ^ e i)
        = ∏ i, (Real.sqrt Real.pi)⁻¹ * ∫ t : ℝ, t ^ e i * Real.exp (-t ^ 2) := by
  have hok : gaussHermite hg ch n mean cov
      = .ok ((gridProduct x d).map fun v => fun i => Real.sqrt 2 * (L.mulVec v) i + mean i,
          ((gridProduct w d).map fun v => ∏ i, v i).map fun v => v * Real.pi ^ (-(1 / 2 : ℝ) * d)) := by
    unfold gaussHermite
    rw [hx, hL]
    rfl
  refine ⟨_, _, hok, ?_⟩
  rw [gaussHermite_weighted hx hL hok, ← nodeSum_monomial hexact e he]
  congr 1
  funext u
  refine Finset.prod_congr rfl fun i _ => ?_
  congr 1
  have h1 : ((fun i => Real.sqrt 2 * (L.mulVec u) i + mean i) - mean) = Real.sqrt 2 • L.mulVec u := by
    funext k
    simp
  have hs : Real.sqrt 2 ≠ 0 := by positivity
  rw [h1, Matrix.mulVec_smul, Matrix.mulVec_mulVec, Matrix.nonsing_inv_mul _ hunit, Matrix.one_mulVec,
    Pi.smul_apply, smul_eq_mul, inv_mul_cancel_left₀ hs]

/-- **C42**, refusals: the call raises when numpy refuses the number of points or torch cannot factor the
covariance. -/
theorem C42_refused {d n : ℕ} (hg : ℕ → Except PyErr (List ℝ × List ℝ))
    (ch : Matrix (Fin d) (Fin d) ℝ → Except PyErr (Matrix (Fin d) (Fin d) ℝ))
    (mean : Fin d → ℝ) (cov : Matrix (Fin d) (Fin d) ℝ)
    (h : (∃ e, hg n = .error e) ∨ ∃ e, ch cov = .error e) :
    ∃ e, gaussHermite hg ch n mean cov = .error e := by
  unfold gaussHermite
  rcases h with ⟨e, he⟩ | ⟨e, he⟩
  · rw [he]; exact ⟨e, rfl⟩
  · cases hx : hg n with
    | error e' => exact ⟨e', rfl⟩
    | ok p => rw [he]; exact ⟨e, rfl⟩

/-- The two-point rule `±1/√2` with weights `√π/2` has the documented exactness. -/
theorem hermite_two :
    HermiteExact 2 [-(Real.sqrt 2)⁻¹, (Real.sqrt 2)⁻¹] [Real.sqrt Real.pi / 2, Real.sqrt Real.pi / 2] := by
  refine ⟨rfl, rfl, fun k hk => ?_⟩
  have hs : Real.sqrt 2 ^ 2 = 2 := Real.sq_sqrt (by norm_num)
  have hs0 : Real.sqrt 2 ≠ 0 := by positivity
  have hi : (Real.sqrt 2)⁻¹ ^ 2 = 1 / 2 := by rw [inv_pow, hs]; norm_num
  interval_cases k
  · rw [gaussian_moment_zero]; simp
  · rw [gaussian_moment_one]; simp
  · rw [gaussian_moment_two]
    simp only [List.zipWith_cons_cons, List.zipWith_nil_left, List.sum_cons, List.sum_nil, neg_sq, hi]
    ring
  · rw [gaussian_moment_three]
    simp only [List.zipWith_cons_cons, List.zipWith_nil_left, List.sum_cons, List.sum_nil]
    ring

/-- The hypotheses of C42 are met by the two-point rule, the mean (1, 0) and a correlated covariance. -/
example : ∃ (hg : ℕ → Except PyErr (List ℝ × List ℝ))
    (ch : Matrix (Fin 2) (Fin 2) ℝ → Except PyErr (Matrix (Fin 2) (Fin 2) ℝ)) (x w : List ℝ)
    (L : Matrix (Fin 2) (Fin 2) ℝ),
    hg 2 = .ok (x, w) ∧ HermiteExact 2 x w ∧ ch !![4, 2; 2, 2] = .ok L ∧ IsCholesky !![4, 2; 2, 2] L
      ∧ IsUnit L.det := by
  refine ⟨fun _ => .ok (_, _), fun _ => .ok !![2, 0; 1, 1], _, _, _, rfl, hermite_two, rfl, ?_, ?_⟩
  · unfold IsCholesky
    ext i j
    fin_cases i <;> fin_cases j <;> simp [Matrix.mul_apply, Fin.sum_univ_two] <;> norm_num
  · rw [Matrix.det_fin_two]
    simp

/-- A matrix torch cannot factor makes the hypotheses of the refusal theorem true. -/
example : ∃ (ch : Matrix (Fin 1) (Fin 1) ℝ → Except PyErr (Matrix (Fin 1) (Fin 1) ℝ)) (e : PyErr),
    ch !![-1] = .error e := ⟨fun _ => .error .runtimeError, .runtimeError, rfl⟩

end Irt
