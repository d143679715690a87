import Verif.Lemmas.HermiteLimit
import Mathlib.LinearAlgebra.Lagrange
import Mathlib.Analysis.Complex.Polynomial.Basic
import Mathlib.LinearAlgebra.Dual.Lemmas
import Mathlib.RingTheory.Polynomial.DegreeLT

/-! # Gauss-Hermite rules exist

The rules that numpy documents exist for every number of points: the nodes are the roots of the orthogonal polynomial and the
weights are positive. -/

namespace Irt

open Spec MeasureTheory Filter Topology Polynomial

theorem integrable_poly_gauss (p : ℝ[X]) : Integrable fun t : ℝ => p.eval t * Real.exp (-t ^ 2) := by
  have h : (fun t : ℝ => p.eval t * Real.exp (-t ^ 2))
      = fun t => ∑ i ∈ Finset.range (p.natDegree + 1), p.coeff i * (t ^ i * Real.exp (-t ^ 2)) := by
    funext t
    rw [eval_eq_sum_range, Finset.sum_mul]
    simp only [mul_assoc]
  rw [h]
  exact integrable_finsetSum _ fun i _ => (integrable_pow_gauss i).const_mul _

/-- The integral of a polynomial against `exp(-t²)`. -/
noncomputable def hermiteForm : ℝ[X] →ₗ[ℝ] ℝ where
  toFun p := ∫ t : ℝ, p.eval t * Real.exp (-t ^ 2)
  map_add' p q := by
    rw [← integral_add (integrable_poly_gauss p) (integrable_poly_gauss q)]
    simp only [eval_add, add_mul]
  map_smul' c p := by
    rw [RingHom.id_apply, smul_eq_mul, ← integral_const_mul]
    simp only [eval_smul, smul_eq_mul, mul_assoc]

theorem hermiteForm_pos (p : ℝ[X]) (h0 : p ≠ 0) (hp : ∀ t, 0 ≤ p.eval t) : 0 < hermiteForm p := by
  show 0 < ∫ t : ℝ, p.eval t * Real.exp (-t ^ 2)
  rw [integral_pos_iff_support_of_nonneg (fun t => mul_nonneg (hp t) (Real.exp_pos _).le) (integrable_poly_gauss p)]
  have hopen : IsOpen (Function.support fun t : ℝ => p.eval t * Real.exp (-t ^ 2)) :=
    IsOpen.preimage (by fun_prop) isOpen_compl_singleton
  refine hopen.measure_pos _ ?_
  by_contra hne
  rw [Set.not_nonempty_iff_eq_empty] at hne
  apply h0
  refine Polynomial.funext fun t => ?_
  have : t ∉ Function.support fun t : ℝ => p.eval t * Real.exp (-t ^ 2) := by rw [hne]; simp
  simpa using this

theorem hermite_orthogonal (n : ℕ) : ∃ P : ℝ[X], P.Monic ∧ P.natDegree = n ∧ ∀ q : ℝ[X], q.degree < n → hermiteForm (P * q) = 0 := by
  let V := degreeLT ℝ n
  let T : V →ₗ[ℝ] Module.Dual ℝ V := LinearMap.mk₂ ℝ (fun r q : V => hermiteForm ((r : ℝ[X]) * (q : ℝ[X])))
    (fun a b c => by simp [add_mul]) (fun c a b => by simp) (fun a b c => by simp [mul_add]) (fun c a b => by simp)
  have hinj : Function.Injective T := by
    rw [← LinearMap.ker_eq_bot, LinearMap.ker_eq_bot']
    intro r hr
    by_contra h
    have h1 : hermiteForm ((r : ℝ[X]) * (r : ℝ[X])) = 0 := by
      have := LinearMap.congr_fun hr r
      simpa [T] using this
    have h2 : (r : ℝ[X]) ≠ 0 := fun h' => h (Subtype.ext h')
    have := hermiteForm_pos _ (mul_ne_zero h2 h2) (fun t => by rw [eval_mul]; exact mul_self_nonneg _)
    exact this.ne' h1
  haveI : FiniteDimensional ℝ V := Module.Finite.equiv (degreeLTEquiv ℝ n).symm
  have hsurj : Function.Surjective T :=
    (LinearMap.injective_iff_surjective_of_finrank_eq_finrank Subspace.dual_finrank_eq.symm).1 hinj
  let φ : Module.Dual ℝ V := (hermiteForm ∘ₗ LinearMap.mulLeft ℝ (X ^ n)) ∘ₗ V.subtype
  obtain ⟨r, hr⟩ := hsurj φ
  have hdeg : (r : ℝ[X]).degree < n := mem_degreeLT.1 r.2
  refine ⟨X ^ n - (r : ℝ[X]), monic_X_pow_sub (by simpa using hdeg), ?_, fun q hq => ?_⟩
  · exact natDegree_eq_of_degree_eq_some ((degree_sub_eq_left_of_degree_lt (by simpa using hdeg)).trans (degree_X_pow n))
  · have := LinearMap.congr_fun hr ⟨q, mem_degreeLT.2 hq⟩
    simp only [T, φ, LinearMap.mk₂_apply, LinearMap.comp_apply, Submodule.subtype_apply, LinearMap.mulLeft_apply] at this
    rw [sub_mul, map_sub, this, sub_self]

/-- A square-free real-rooted polynomial: no factor of an orthogonal polynomial of positive degree is nonnegative. -/
theorem orthogonal_no_factor {n : ℕ} {P : ℝ[X]} (hP : P.Monic) (hn : P.natDegree = n)
    (ho : ∀ q : ℝ[X], q.degree < n → hermiteForm (P * q) = 0) (q : ℝ[X]) (hq : 0 < q.natDegree)
    (hpos : ∀ t, 0 ≤ q.eval t) : ¬ q ∣ P := by
  rintro ⟨R, hR⟩
  have hP0 : P ≠ 0 := hP.ne_zero
  have hR0 : R ≠ 0 := by rintro rfl; rw [mul_zero] at hR; exact hP0 hR
  have hq0 : q ≠ 0 := by rintro rfl; rw [zero_mul] at hR; exact hP0 hR
  have hdeg : R.natDegree < n := by
    rw [← hn, hR, natDegree_mul hq0 hR0]
    omega
  have h1 := ho R ((natDegree_lt_iff_degree_lt hR0).1 hdeg)
  have h2 : 0 < hermiteForm (P * R) := by
    refine hermiteForm_pos _ (mul_ne_zero hP0 hR0) fun t => ?_
    rw [hR, eval_mul, eval_mul, mul_assoc]
    exact mul_nonneg (hpos t) (mul_self_nonneg _)
  exact h2.ne' h1

theorem orthogonal_roots {n : ℕ} {P : ℝ[X]} (hP : P.Monic) (hn : P.natDegree = n)
    (ho : ∀ q : ℝ[X], q.degree < n → hermiteForm (P * q) = 0) : Multiset.card P.roots = n ∧ P.roots.Nodup := by
  constructor
  · obtain ⟨q, hq, hcard, hroots⟩ := exists_prod_multiset_X_sub_C_mul P
    have hq0 : q.natDegree = 0 := by
      by_contra hne
      have hqne : q ≠ 0 := by rintro rfl; simp at hne
      obtain ⟨z, hz⟩ := IsAlgClosed.exists_aeval_eq_zero ℂ q (by
        intro h
        exact hne (natDegree_eq_of_degree_eq_some h))
      have hzP : aeval z P = 0 := by rw [← hq, map_mul, hz, mul_zero]
      by_cases him : z.im = 0
      · have hzr : z = ((z.re : ℝ) : ℂ) := Complex.ext rfl (by simpa using him)
        rw [hzr, show ((z.re : ℝ) : ℂ) = algebraMap ℝ ℂ z.re from rfl, aeval_algebraMap_apply] at hz
        have hroot : q.eval z.re = 0 := by simpa using hz
        have : z.re ∈ q.roots := (mem_roots hqne).2 hroot
        rw [hroots] at this
        simp at this
      · refine orthogonal_no_factor hP hn ho _ ?_ (fun t => ?_) (quadratic_dvd_of_aeval_eq_zero_im_ne_zero P hzP him)
        · have : (X ^ 2 - C (2 * z.re) * X + C (‖z‖ ^ 2) : ℝ[X]).natDegree = 2 := by
            compute_degree!
          omega
        · have hnorm : ‖z‖ ^ 2 = z.re ^ 2 + z.im ^ 2 := by
            rw [← Complex.normSq_eq_norm_sq, Complex.normSq_apply]; ring
          simp only [eval_add, eval_sub, eval_mul, eval_pow, eval_X, eval_C, hnorm]
          nlinarith [sq_nonneg (t - z.re), sq_nonneg z.im]
    omega
  · classical
    rw [Multiset.nodup_iff_count_le_one]
    intro a
    rw [count_roots]
    by_contra h
    have hdvd : (X - C a) ^ 2 ∣ P := (le_rootMultiplicity_iff hP.ne_zero).1 (by omega)
    refine orthogonal_no_factor hP hn ho _ ?_ (fun t => ?_) hdvd
    · rw [natDegree_pow, natDegree_X_sub_C]; norm_num
    · rw [eval_pow]; exact sq_nonneg _

/-- For every number of points there are distinct nodes and positive weights that integrate exactly what numpy documents. -/
theorem hermite_rule_exists (n : ℕ) : ∃ x w : List ℝ, HermiteExact n x w ∧ x.Nodup ∧ ∀ v ∈ w, 0 < v := by
  classical
  obtain ⟨P, hP, hn, ho⟩ := hermite_orthogonal n
  obtain ⟨hcard, hnodup⟩ := orthogonal_roots hP hn ho
  set x := P.roots.toList with hx
  have hxnd : x.Nodup := by rw [hx, ← Multiset.coe_nodup, Multiset.coe_toList]; exact hnodup
  have hxlen : x.length = n := by rw [hx, Multiset.length_toList, hcard]
  have hroot : ∀ a ∈ x, P.eval a = 0 := fun a ha => (mem_roots hP.ne_zero).1 (by simpa [hx] using ha)
  set s := x.toFinset with hs
  have hscard : s.card = n := by rw [hs, List.toFinset_card_of_nodup hxnd, hxlen]
  have hmem : ∀ a, a ∈ s ↔ a ∈ x := fun a => by rw [hs, List.mem_toFinset]
  have hinj : Set.InjOn (id : ℝ → ℝ) s := Function.injective_id.injOn
  let W : ℝ → ℝ := fun a => hermiteForm (Lagrange.basis s id a)
  have hexact : ∀ p : ℝ[X], p.degree < (2 * n : ℕ) → ∑ a ∈ s, W a * p.eval a = hermiteForm p := by
    intro p hp
    have hdiv := modByMonic_add_div p P
    have hRdeg : (p %ₘ P).degree < s.card := by
      rw [hscard, ← hn, ← degree_eq_natDegree hP.ne_zero]
      exact degree_modByMonic_lt p hP
    have hQdeg : (p /ₘ P).degree < n := by
      by_cases hp0 : p /ₘ P = 0
      · rw [hp0, degree_zero]; exact WithBot.bot_lt_coe _
      · rw [← natDegree_lt_iff_degree_lt hp0, natDegree_divByMonic p hP, hn]
        have hpne : p ≠ 0 := by rintro rfl; simp at hp0
        have h1 : p.natDegree < 2 * n := (natDegree_lt_iff_degree_lt hpne).2 hp
        omega
    have h1 : hermiteForm p = hermiteForm (p %ₘ P) := by
      conv_lhs => rw [← hdiv]
      rw [map_add, ho _ hQdeg, add_zero]
    have h2 : ∀ a ∈ s, p.eval a = (p %ₘ P).eval a := by
      intro a ha
      conv_lhs => rw [← hdiv]
      rw [eval_add, eval_mul, hroot a ((hmem a).1 ha), zero_mul, add_zero]
    have h3 := Lagrange.eq_interpolate (v := id) hinj hRdeg
    rw [h1, h3, Lagrange.interpolate_apply, map_sum]
    refine Finset.sum_congr rfl fun a ha => ?_
    rw [h2 a ha, ← smul_eq_C_mul, map_smul, smul_eq_mul, mul_comm]
    rfl
  have hlist : ∀ p : ℝ[X], (x.map fun a => W a * p.eval a).sum = ∑ a ∈ s, W a * p.eval a := by
    intro p
    rw [hs, List.sum_toFinset _ hxnd]
  refine ⟨x, x.map W, ⟨hxlen, by rw [List.length_map, hxlen], fun k hk => ?_⟩, hxnd, fun v hv => ?_⟩
  · have h1 := hlist (X ^ k)
    rw [hexact _ (by rw [degree_X_pow]; exact_mod_cast hk)] at h1
    have h2 : List.zipWith (fun a b => b * a ^ k) x (x.map W) = x.map fun a => W a * (X ^ k : ℝ[X]).eval a := by
      rw [List.zipWith_map_right, List.zipWith_self]
      simp
    rw [h2, h1]
    show ∫ t : ℝ, (X ^ k : ℝ[X]).eval t * Real.exp (-t ^ 2) = _
    simp
  · obtain ⟨a, ha, rfl⟩ := List.mem_map.1 hv
    have has := (hmem a).2 ha
    have hne : Lagrange.basis s id a ≠ 0 := Lagrange.basis_ne_zero hinj has
    have hn1 : 1 ≤ n := by
      rw [← hxlen]; exact List.length_pos_of_mem ha
    have h1 := hexact (Lagrange.basis s id a * Lagrange.basis s id a) (by
      rw [← natDegree_lt_iff_degree_lt (mul_ne_zero hne hne), natDegree_mul hne hne, Lagrange.natDegree_basis hinj has,
        hscard]
      omega)
    have h2 : ∑ b ∈ s, W b * (Lagrange.basis s id a * Lagrange.basis s id a).eval b = W a := by
      rw [Finset.sum_eq_single a]
      · rw [eval_mul, show (Lagrange.basis s id a).eval a = 1 from Lagrange.eval_basis_self hinj has]; ring
      · intro b hb hba
        rw [eval_mul, show (Lagrange.basis s id a).eval b = 0 from Lagrange.eval_basis_of_ne (v := id) (Ne.symm hba) hb]; ring
      · exact fun h => absurd has h
    rw [h2] at h1
    rw [h1]
    exact hermiteForm_pos _ (mul_ne_zero hne hne) fun t => by rw [eval_mul]; exact mul_self_nonneg _

/-! ## Every exact rule has distinct nodes and positive weights -/

theorem exact_poly {n : ℕ} {x w : List ℝ} (h : HermiteExact n x w) (p : ℝ[X]) (hp : p.natDegree < 2 * n) :
    (List.zipWith (fun a b => b * p.eval a) x w).sum = hermiteForm p := by
  have h1 : ∀ xs ws : List ℝ, (List.zipWith (fun a b => b * p.eval a) xs ws).sum
      = ∑ i ∈ Finset.range (p.natDegree + 1), p.coeff i * (List.zipWith (fun a b => b * a ^ i) xs ws).sum := by
    intro xs
    induction xs with
    | nil => simp
    | cons a xs ih =>
      intro ws
      cases ws with
      | nil => simp
      | cons b ws =>
        simp only [List.zipWith_cons_cons, List.sum_cons, ih, mul_add, Finset.sum_add_distrib]
        congr 1
        rw [eval_eq_sum_range, Finset.mul_sum]
        exact Finset.sum_congr rfl fun i _ => by ring
  rw [h1]
  conv_rhs => rw [p.as_sum_range_C_mul_X_pow, map_sum]
  refine Finset.sum_congr rfl fun i hi => ?_
  rw [h.2.2 i (by have := Finset.mem_range.1 hi; omega), ← smul_eq_C_mul, map_smul, smul_eq_mul]
  congr 1
  show _ = ∫ t : ℝ, (X ^ i : ℝ[X]).eval t * Real.exp (-t ^ 2)
  simp

theorem exact_nodup {n : ℕ} {x w : List ℝ} (h : HermiteExact n x w) : x.Nodup := by
  classical
  by_contra hnd
  have hlt : x.toFinset.card < x.length := by
    refine lt_of_le_of_ne x.toFinset_card_le fun he => hnd ?_
    rw [List.card_toFinset] at he
    have := (List.dedup_sublist x).eq_of_length he
    rw [← this]
    exact x.nodup_dedup
  set Q : ℝ[X] := ∏ a ∈ x.toFinset, (X - C a) with hQ
  have hQ0 : Q ≠ 0 := (monic_prod_of_monic _ _ fun a _ => monic_X_sub_C a).ne_zero
  have hdeg : Q.natDegree = x.toFinset.card := by
    rw [hQ, natDegree_prod_of_monic _ _ fun a _ => monic_X_sub_C a]
    simp
  have h1 := exact_poly h (Q * Q) (by rw [natDegree_mul hQ0 hQ0, hdeg, ← h.1]; omega)
  have h2 := hermiteForm_pos (Q * Q) (mul_ne_zero hQ0 hQ0) fun t => by rw [eval_mul]; exact mul_self_nonneg _
  rw [← h1] at h2
  refine h2.ne' (List.sum_eq_zero fun v hv => ?_)
  obtain ⟨k, hk, rfl⟩ := List.getElem_of_mem hv
  rw [List.getElem_zipWith]
  have hk' : k < x.length := by rw [List.length_zipWith] at hk; omega
  have : Q.eval x[k] = 0 := by
    rw [hQ, eval_prod]
    exact Finset.prod_eq_zero (List.mem_toFinset.2 (List.getElem_mem hk')) (by simp)
  rw [eval_mul, this]
  ring

theorem exact_positive {n : ℕ} {x w : List ℝ} (h : HermiteExact n x w) : ∀ v ∈ w, 0 < v := by
  classical
  intro v hv
  have hnd := exact_nodup h
  obtain ⟨k, hk, rfl⟩ := List.getElem_of_mem hv
  have hkx : k < x.length := by rw [h.1, ← h.2.1]; exact hk
  set S := x.toFinset.erase x[k] with hS
  set Q : ℝ[X] := ∏ a ∈ S, (X - C a) with hQ
  have hQ0 : Q ≠ 0 := (monic_prod_of_monic _ _ fun a _ => monic_X_sub_C a).ne_zero
  have hcard : S.card = n - 1 := by
    rw [hS, Finset.card_erase_of_mem (List.mem_toFinset.2 (List.getElem_mem hkx)), List.toFinset_card_of_nodup hnd, h.1]
  have hdeg : Q.natDegree = n - 1 := by
    rw [hQ, natDegree_prod_of_monic _ _ fun a _ => monic_X_sub_C a]
    simp [hcard]
  have hn : 1 ≤ n := by have := h.1; omega
  have h1 := exact_poly h (Q * Q) (by rw [natDegree_mul hQ0 hQ0, hdeg]; omega)
  have h2 := hermiteForm_pos (Q * Q) (mul_ne_zero hQ0 hQ0) fun t => by rw [eval_mul]; exact mul_self_nonneg _
  rw [← h1] at h2
  have hlen : (List.zipWith (fun a b => b * (Q * Q).eval a) x w).length = n := by
    rw [List.length_zipWith, h.1, h.2.1, min_self]
  have hzero : ∀ a ∈ S, Q.eval a = 0 := by
    intro a ha
    rw [hQ, eval_prod]
    exact Finset.prod_eq_zero ha (by simp)
  have h3 : (List.zipWith (fun a b => b * (Q * Q).eval a) x w).sum = w[k] * (Q * Q).eval x[k] := by
    rw [← Fin.sum_univ_getElem, Finset.sum_eq_single (⟨k, by rw [hlen, ← h.2.1]; exact hk⟩ : Fin _)]
    · simp
    · intro i _ hi
      have hix : (i : ℕ) < x.length := lt_of_lt_of_eq i.2 (hlen.trans h.1.symm)
      have hne : x[(i : ℕ)] ≠ x[k] := fun he => hi (Fin.ext ((hnd.getElem_inj_iff).1 he))
      have : Q.eval x[(i : ℕ)] = 0 := hzero _ (Finset.mem_erase.2 ⟨hne, List.mem_toFinset.2 (List.getElem_mem hix)⟩)
      simp [this]
    · simp
  rw [h3] at h2
  have h4 : 0 ≤ (Q * Q).eval x[k] := by rw [eval_mul]; exact mul_self_nonneg _
  exact pos_of_mul_pos_left h2 h4

end Irt
