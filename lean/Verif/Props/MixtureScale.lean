import Verif.Props.Mixture
import Verif.Spec.MixtureImage
import Verif.Lemmas.LogLik
import Verif.Lemmas.Data
import Verif.Lemmas.MonoModels

/-! # C149: a Gaussian mixture fitted on another scale, or to reordered data -/

namespace Irt
open Spec Matrix

variable {K d n : ℕ}

theorem mvnLogDensity_moved (A : Matrix (Fin d) (Fin d) ℝ) (hA : IsUnit A.det) (c m x : Fin d → ℝ)
    (S : Matrix (Fin d) (Fin d) ℝ) (hS : S.det ≠ 0) :
    mvnLogDensity (movedPoint A c m) (A * S * Aᵀ) (movedPoint A c x) = mvnLogDensity m S x - Real.log |A.det| := by
  have hdA : A.det ≠ 0 := hA.ne_zero
  have hdiff : movedPoint A c x - movedPoint A c m = A.mulVec (x - m) := by
    unfold movedPoint
    rw [add_sub_add_right_eq_sub, ← Matrix.mulVec_sub]
  have hinv : (A * S * Aᵀ)⁻¹ = (A⁻¹)ᵀ * S⁻¹ * A⁻¹ := by
    rw [Matrix.mul_inv_rev, Matrix.mul_inv_rev, ← Matrix.transpose_nonsing_inv, Matrix.mul_assoc]
  have hquad : (A.mulVec (x - m)) ⬝ᵥ ((A * S * Aᵀ)⁻¹.mulVec (A.mulVec (x - m)))
      = (x - m) ⬝ᵥ (S⁻¹.mulVec (x - m)) := by
    rw [hinv, Matrix.mulVec_mulVec, Matrix.mul_assoc, Matrix.nonsing_inv_mul A hA, Matrix.mul_one,
      ← Matrix.mulVec_mulVec, Matrix.dotProduct_mulVec, Matrix.vecMul_transpose, Matrix.mulVec_mulVec,
      Matrix.nonsing_inv_mul A hA, Matrix.one_mulVec]
  have hdet : Real.log (A * S * Aᵀ).det = 2 * Real.log |A.det| + Real.log S.det := by
    rw [Matrix.det_mul, Matrix.det_mul, Matrix.det_transpose, Real.log_mul (mul_ne_zero hdA hS) hdA,
      Real.log_mul hdA hS, Real.log_abs]
    ring
  unfold mvnLogDensity
  rw [hdiff, hquad, hdet]
  ring

theorem posDef_moved (A : Matrix (Fin d) (Fin d) ℝ) (hA : IsUnit A.det) (S : Matrix (Fin d) (Fin d) ℝ) :
    (A * S * Aᵀ).PosDef ↔ S.PosDef := by
  have hU : IsUnit A := (Matrix.isUnit_iff_isUnit_det A).2 hA
  have := Matrix.IsUnit.posDef_star_right_conjugate_iff (x := S) hU
  rwa [Matrix.star_eq_conjTranspose, Matrix.conjTranspose_eq_transpose_of_trivial] at this

theorem gmmLogProbs_not {g : GMM K d} (data : Fin n → Fin d → ℝ) (h : ¬ ∀ k, (g.covariances k).PosDef) :
    gmmLogProbs g data = .error .valueError := by
  unfold gmmLogProbs
  rw [mapM_error _ _ .valueError]
  · rfl
  · intro k _
    unfold mvnLogProb
    split_ifs
    · exact Or.inr ⟨_, rfl⟩
    · exact Or.inl rfl
  · push_neg at h
    obtain ⟨k, hk⟩ := h
    refine ⟨k, List.mem_finRange k, ?_⟩
    unfold mvnLogProb
    rw [if_neg hk]

/-- The mixture `g'` is the mixture `g` on the scale `x ↦ A x + c`. -/
def GMM.MovedTo (g g' : GMM K d) (A : Matrix (Fin d) (Fin d) ℝ) (c : Fin d → ℝ) : Prop :=
  MovedMixture A c g.weights g'.weights g.means g'.means g.covariances g'.covariances

theorem logSumExpCol_sub (a : Fin K → Fin n → ℝ) (L : ℝ) (hK : 0 < K) (i : Fin n) :
    logSumExpCol (fun k i => a k i - L) i = logSumExpCol a i - L := by
  unfold logSumExpCol
  have hpos : 0 < ∑ k, Real.exp (a k i) := Finset.sum_pos (fun k _ => Real.exp_pos _) ⟨⟨0, hK⟩, Finset.mem_univ _⟩
  simp only [sub_eq_add_neg, Real.exp_add]
  rw [← Finset.sum_mul, Real.log_mul hpos.ne' (Real.exp_pos _).ne', Real.log_exp]

theorem gmmEStep_moved (hK : 0 < K) (A : Matrix (Fin d) (Fin d) ℝ) (hA : IsUnit A.det) (c : Fin d → ℝ)
    {g g' : GMM K d} (h : g.MovedTo g' A c) (data : Fin n → Fin d → ℝ) :
    gmmEStep g' (fun i => movedPoint A c (data i)) = gmmEStep g data := by
  by_cases hp : ∀ k, (g.covariances k).PosDef
  · have hp' : ∀ k, (g'.covariances k).PosDef := by
      intro k
      rw [h.covariances k]
      exact (posDef_moved A hA _).2 (hp k)
    unfold gmmEStep
    rw [gmmLogProbs_of_posDef data hp, gmmLogProbs_of_posDef _ hp']
    simp only [bind_ok, pure, Except.pure]
    congr 1
    have hwl : gmmWeighted g' (fun k (i : Fin n) => mvnLogDensity (g'.means k) (g'.covariances k) (movedPoint A c (data i)))
        = fun k i => gmmWeighted g (fun k (i : Fin n) => mvnLogDensity (g.means k) (g.covariances k) (data i)) k i
            - Real.log |A.det| := by
      funext k i
      unfold gmmWeighted
      dsimp only
      rw [h.weights k, h.means k, h.covariances k, mvnLogDensity_moved A hA c _ _ _ (hp k).det_pos.ne']
      ring
    rw [hwl]
    funext k i
    rw [logSumExpCol_sub _ _ hK]
    congr 1
    ring
  · have hp' : ¬ ∀ k, (g'.covariances k).PosDef := by
      intro h'
      apply hp
      intro k
      have := h' k
      rw [h.covariances k] at this
      exact (posDef_moved A hA _).1 this
    unfold gmmEStep
    rw [gmmLogProbs_not data hp, gmmLogProbs_not _ hp']
    rfl

theorem gmmMStep_moved (A : Matrix (Fin d) (Fin d) ℝ) (c : Fin d → ℝ) (data : Fin n → Fin d → ℝ)
    (r : Fin K → Fin n → ℝ) (hr : ∀ k, ∑ i, r k i ≠ 0) :
    (gmmMStep data r).MovedTo (gmmMStep (fun i => movedPoint A c (data i)) r) A c := by
  have hmean : ∀ k, (gmmMStep (fun i => movedPoint A c (data i)) r).means k
      = movedPoint A c ((gmmMStep data r).means k) := by
    intro k
    funext j
    show (∑ i, r k i * (movedPoint A c (data i)) j) / ∑ i, r k i = _
    have h0 := hr k
    have : ∑ i, r k i * (movedPoint A c (data i)) j
        = ∑ l, A j l * ∑ i, r k i * data i l + c j * ∑ i, r k i := by
      unfold movedPoint
      simp only [Pi.add_apply, Matrix.mulVec, dotProduct, mul_add, Finset.sum_add_distrib, Finset.mul_sum]
      rw [Finset.sum_comm]
      congr 1
      · exact Finset.sum_congr rfl fun l _ => Finset.sum_congr rfl fun i _ => by ring
      · exact Finset.sum_congr rfl fun i _ => by ring
    rw [this, add_div, mul_div_cancel_right₀ _ h0]
    unfold movedPoint
    simp only [Pi.add_apply, Matrix.mulVec, dotProduct]
    congr 1
    rw [Finset.sum_div]
    exact Finset.sum_congr rfl fun l _ => by
      show _ = A j l * ((∑ i, r k i * data i l) / ∑ i, r k i)
      rw [mul_div_assoc]
  refine ⟨fun _ => rfl, hmean, fun k => ?_⟩
  rw [gmmMStep_cov, gmmMStep_cov, hmean k]
  set m := (gmmMStep data r).means k with hm
  have hsub : ∀ i a, movedPoint A c (data i) a - movedPoint A c m a = ∑ l, A a l * (data i l - m l) := by
    intro i a
    unfold movedPoint
    simp only [Pi.add_apply, Matrix.mulVec, dotProduct, mul_sub, Finset.sum_sub_distrib]
    ring
  ext a b
  simp only [Matrix.of_apply, Matrix.mul_apply, Matrix.transpose_apply, hsub]
  rw [Finset.sum_div]
  have hterm : ∀ i, ((∑ l, A a l * (data i l - m l)) * r k i * ∑ l, A b l * (data i l - m l)) / ∑ i, r k i
      = ∑ q, ∑ p, A a p * (((data i p - m p) * r k i * (data i q - m q)) / ∑ i, r k i) * A b q := by
    intro i
    rw [Finset.sum_mul, Finset.sum_mul_sum, Finset.sum_div, Finset.sum_comm]
    simp only [Finset.sum_div]
    exact Finset.sum_congr rfl fun q _ => Finset.sum_congr rfl fun p _ => by ring
  rw [Finset.sum_congr rfl fun i _ => hterm i, Finset.sum_comm]
  refine Finset.sum_congr rfl fun q _ => ?_
  rw [Finset.sum_comm, Finset.sum_mul]
  refine Finset.sum_congr rfl fun p _ => ?_
  rw [← Finset.sum_mul, ← Finset.mul_sum, ← Finset.sum_div]

theorem gmmEStep_pos {g : GMM K d} {data : Fin n → Fin d → ℝ} {r : Fin K → Fin n → ℝ}
    (h : gmmEStep g data = .ok r) (k : Fin K) (i : Fin n) : 0 < r k i := by
  unfold gmmEStep at h
  obtain ⟨lp, -, h⟩ := bind_eq_ok h
  simp only [pure, Except.pure, Except.ok.injEq] at h
  rw [← h]
  exact Real.exp_pos _

theorem gmmLoop_moved (hK : 0 < K) (hn : 0 < n) (A : Matrix (Fin d) (Fin d) ℝ) (hA : IsUnit A.det) (c : Fin d → ℝ)
    (data : Fin n → Fin d → ℝ) (it : ℕ) : ∀ {g g' : GMM K d}, g.MovedTo g' A c →
      (∀ e, gmmLoop data it g = .error e → gmmLoop (fun i => movedPoint A c (data i)) it g' = .error e) ∧
      ∀ r, gmmLoop data it g = .ok r → ∃ r', gmmLoop (fun i => movedPoint A c (data i)) it g' = .ok r' ∧
        r.MovedTo r' A c := by
  induction it with
  | zero =>
    intro g g' h
    refine ⟨fun e he => ?_, fun r hr => ⟨g', rfl, ?_⟩⟩
    · cases he
    · cases hr
      exact h
  | succ it ih =>
    intro g g' h
    have hE := gmmEStep_moved hK A hA c h data
    unfold gmmLoop
    rw [hE]
    cases hr : gmmEStep g data with
    | error e => exact ⟨fun e' he => he, fun r hr => by cases hr⟩
    | ok r =>
      simp only [bind_ok]
      refine ih (gmmMStep_moved A c data r fun k => ?_)
      exact (Finset.sum_pos (fun i _ => gmmEStep_pos hr k i) ⟨⟨0, hn⟩, Finset.mem_univ _⟩).ne'

theorem gmmFit_same (g : GMM K d) (hn : 0 < n) (data : Fin n → Fin d → ℝ) (it : ℕ) :
    gmmFit g data it = gmmLoop data it g := by
  unfold gmmFit
  rw [if_neg (by omega), dif_pos rfl]

theorem gmmFit_empty (g : GMM K d) (data : Fin 0 → Fin d → ℝ) (it : ℕ) : gmmFit g data it = .error .valueError := by
  unfold gmmFit
  rw [if_pos rfl]

/-- C149: fitted to data on another scale `x ↦ A x + c`, from a start on that scale, the mixture is the old one on the
new scale; the new fit fails exactly when the old one does, with the same exception. -/
theorem C149_scale (hK : 0 < K) (A : Matrix (Fin d) (Fin d) ℝ) (hA : IsUnit A.det) (c : Fin d → ℝ)
    {g g' : GMM K d} (h : g.MovedTo g' A c) (data : Fin n → Fin d → ℝ) (it : ℕ) :
    (∀ e, gmmFit g data it = .error e → gmmFit g' (fun i => movedPoint A c (data i)) it = .error e) ∧
    ∀ r, gmmFit g data it = .ok r → ∃ r', gmmFit g' (fun i => movedPoint A c (data i)) it = .ok r' ∧
      r.MovedTo r' A c := by
  rcases Nat.eq_zero_or_pos n with hn | hn
  · subst hn
    rw [gmmFit_empty, gmmFit_empty]
    exact ⟨fun e he => he, fun r hr => by cases hr⟩
  · rw [gmmFit_same g hn, gmmFit_same g' hn]
    exact gmmLoop_moved hK hn A hA c data it h

/-- C149: the density of the moved mixture at the moved point is the old density divided by the change of volume. -/
theorem C149_density (A : Matrix (Fin d) (Fin d) ℝ) (hA : IsUnit A.det) (c : Fin d → ℝ)
    {g g' : GMM K d} (h : g.MovedTo g' A c) (x : Fin d → ℝ) (p : ℝ) (hp : gmmPdf g x = .ok p) :
    gmmPdf g' (movedPoint A c x) = .ok (p / |A.det|) := by
  unfold gmmPdf at hp
  obtain ⟨lp, hlp, hp⟩ := bind_eq_ok hp
  obtain ⟨hpd, he⟩ := gmmLogProbs_ok hlp
  have hpd' : ∀ k, (g'.covariances k).PosDef := by
    intro k
    rw [h.covariances k]
    exact (posDef_moved A hA _).2 (hpd k)
  unfold gmmPdf
  rw [gmmLogProbs_of_posDef _ hpd']
  simp only [bind_ok, pure, Except.pure, Except.ok.injEq] at hp ⊢
  rw [← hp, Finset.sum_div]
  refine Finset.sum_congr rfl fun k _ => ?_
  rw [h.weights k, h.means k, h.covariances k, mvnLogDensity_moved A hA c _ _ _ (hpd k).det_pos.ne', he,
    Real.exp_sub, Real.exp_log (abs_pos.2 hA.ne_zero), mul_div_assoc]

/-- C149: the log likelihood changes by the same constant for every mixture, so comparisons between numbers of
components do not depend on the scale. -/
theorem C149_log_likelihood (hK : 0 < K) (A : Matrix (Fin d) (Fin d) ℝ) (hA : IsUnit A.det) (c : Fin d → ℝ)
    {g g' : GMM K d} (h : g.MovedTo g' A c) (data : Fin n → Fin d → ℝ) (v : ℝ) (hv : gmmForward g data = .ok v) :
    gmmForward g' (fun i => movedPoint A c (data i)) = .ok (v - n * Real.log |A.det|) := by
  unfold gmmForward at hv
  obtain ⟨lp, hlp, hv⟩ := bind_eq_ok hv
  obtain ⟨hpd, he⟩ := gmmLogProbs_ok hlp
  have hpd' : ∀ k, (g'.covariances k).PosDef := by
    intro k
    rw [h.covariances k]
    exact (posDef_moved A hA _).2 (hpd k)
  unfold gmmForward
  rw [gmmLogProbs_of_posDef _ hpd']
  simp only [bind_ok, pure, Except.pure, Except.ok.injEq] at hv ⊢
  have hwl : gmmWeighted g' (fun k (i : Fin n) => mvnLogDensity (g'.means k) (g'.covariances k) (movedPoint A c (data i)))
      = fun k i => gmmWeighted g lp k i - Real.log |A.det| := by
    funext k i
    unfold gmmWeighted
    dsimp only
    rw [h.weights k, h.means k, h.covariances k, mvnLogDensity_moved A hA c _ _ _ (hpd k).det_pos.ne', he]
    ring
  rw [hwl, ← hv]
  simp only [logSumExpCol_sub _ _ hK]
  rw [Finset.sum_sub_distrib]
  simp

/-! ## Order of the respondents and of the components -/

theorem gmmEStep_reordered (g : GMM K d) (data : Fin n → Fin d → ℝ) (σ : Equiv.Perm (Fin n)) :
    gmmEStep g (fun i => data (σ i)) = (gmmEStep g data).map fun r k i => r k (σ i) := by
  by_cases hp : ∀ k, (g.covariances k).PosDef
  · unfold gmmEStep
    rw [gmmLogProbs_of_posDef data hp, gmmLogProbs_of_posDef _ hp]
    rfl
  · unfold gmmEStep
    rw [gmmLogProbs_not data hp, gmmLogProbs_not _ hp]
    rfl

theorem gmmMStep_reordered (data : Fin n → Fin d → ℝ) (r : Fin K → Fin n → ℝ) (σ : Equiv.Perm (Fin n)) :
    gmmMStep (fun i => data (σ i)) (fun k i => r k (σ i)) = gmmMStep data r := by
  have h1 : ∀ k, ∑ i, r k (σ i) = ∑ i, r k i := fun k => Equiv.sum_comp σ (r k)
  have h2 : ∀ k j, ∑ i, r k (σ i) * data (σ i) j = ∑ i, r k i * data i j :=
    fun k j => Equiv.sum_comp σ fun i => r k i * data i j
  unfold gmmMStep
  simp only [h1, h2]
  congr 1
  funext k
  ext a b
  simp only [Matrix.of_apply]
  congr 1
  exact Equiv.sum_comp σ fun i => ((data i a - (∑ i, r k i * data i a) / ∑ i, r k i) * r k i) *
    (data i b - (∑ i, r k i * data i b) / ∑ i, r k i)

/-- C149: the order of the respondents does not matter. -/
theorem C149_respondents (g : GMM K d) (data : Fin n → Fin d → ℝ) (σ : Equiv.Perm (Fin n)) (it : ℕ) :
    gmmFit g (fun i => data (σ i)) it = gmmFit g data it := by
  rcases Nat.eq_zero_or_pos n with hn | hn
  · subst hn
    rw [gmmFit_empty, gmmFit_empty]
  · rw [gmmFit_same g hn, gmmFit_same g hn]
    induction it generalizing g with
    | zero => rfl
    | succ it ih =>
      unfold gmmLoop
      rw [gmmEStep_reordered]
      cases gmmEStep g data with
      | error e => rfl
      | ok r =>
        show gmmLoop _ it (gmmMStep (fun i => data (σ i)) fun k i => r k (σ i)) = gmmLoop data it (gmmMStep data r)
        rw [gmmMStep_reordered]
        exact ih _

/-- The mixture with its components in another order. -/
def GMM.reordered (g : GMM K d) (τ : Equiv.Perm (Fin K)) : GMM K d :=
  ⟨fun k => g.weights (τ k), fun k => g.means (τ k), fun k => g.covariances (τ k)⟩

theorem gmmEStep_components (g : GMM K d) (data : Fin n → Fin d → ℝ) (τ : Equiv.Perm (Fin K)) :
    gmmEStep (g.reordered τ) data = (gmmEStep g data).map fun r k i => r (τ k) i := by
  by_cases hp : ∀ k, (g.covariances k).PosDef
  · have hp' : ∀ k, ((g.reordered τ).covariances k).PosDef := fun k => hp (τ k)
    unfold gmmEStep
    rw [gmmLogProbs_of_posDef data hp, gmmLogProbs_of_posDef _ hp']
    simp only [bind_ok, pure, Except.pure, Except.map]
    congr 1
    funext k i
    congr 2
    unfold logSumExpCol
    congr 1
    exact Equiv.sum_comp τ fun k => Real.exp (gmmWeighted g (fun k (i : Fin n) =>
      mvnLogDensity (g.means k) (g.covariances k) (data i)) k i)
  · have hp' : ¬ ∀ k, ((g.reordered τ).covariances k).PosDef := by
      intro h
      apply hp
      intro k
      have := h (τ.symm k)
      unfold GMM.reordered at this
      simpa using this
    unfold gmmEStep
    rw [gmmLogProbs_not data hp, gmmLogProbs_not _ hp']
    rfl

/-- C149: with the components of the start in another order the fit has its components in that order. -/
theorem C149_components (g : GMM K d) (data : Fin n → Fin d → ℝ) (τ : Equiv.Perm (Fin K)) (it : ℕ) :
    gmmFit (g.reordered τ) data it = (gmmFit g data it).map fun r => r.reordered τ := by
  rcases Nat.eq_zero_or_pos n with hn | hn
  · subst hn
    rw [gmmFit_empty, gmmFit_empty]
    rfl
  · rw [gmmFit_same _ hn, gmmFit_same g hn]
    induction it generalizing g with
    | zero => rfl
    | succ it ih =>
      unfold gmmLoop
      rw [gmmEStep_components]
      cases gmmEStep g data with
      | error e => rfl
      | ok r => exact ih (gmmMStep data r)

/-! ## Newly constructed mixtures -/

/-- C149: with one component the start does not matter: every fit of at least one iteration gives the same mixture. -/
theorem C149_one_component (g g' : GMM 1 d) (hg : (g.covariances 0).PosDef) (hg' : (g'.covariances 0).PosDef)
    (data : Fin n → Fin d → ℝ) (it : ℕ) (hit : 1 ≤ it) : gmmFit g data it = gmmFit g' data it := by
  rcases Nat.eq_zero_or_pos n with hn | hn
  · subst hn
    rw [gmmFit_empty, gmmFit_empty]
  · rw [gmmFit_same g hn, gmmFit_same g' hn]
    obtain ⟨j, rfl⟩ : ∃ j, it = j + 1 := ⟨it - 1, by omega⟩
    have hone : ∀ g : GMM 1 d, (g.covariances 0).PosDef → gmmEStep g data = .ok fun _ _ => 1 := by
      intro g hg
      unfold gmmEStep
      rw [gmmLogProbs_of_posDef data fun k => by rw [Subsingleton.elim k 0]; exact hg]
      simp only [bind_ok, pure, Except.pure]
      congr 1
      funext k i
      unfold logSumExpCol
      rw [Fin.sum_univ_one, Real.log_exp, Subsingleton.elim k 0, sub_self, Real.exp_zero]
    unfold gmmLoop
    rw [hone g hg, hone g' hg']

/-- C149: so a newly constructed mixture with one component follows the scale, whatever means were drawn. -/
theorem C149_one_component_scale (A : Matrix (Fin d) (Fin d) ℝ) (hA : IsUnit A.det) (c : Fin d → ℝ)
    (randn randn' : Fin 1 → Fin d → ℝ) (g g' : GMM 1 d) (hg : gmmInit 1 d randn = .ok g)
    (hg' : gmmInit 1 d randn' = .ok g') (data : Fin n → Fin d → ℝ) (it : ℕ) (hit : 1 ≤ it) (r : GMM 1 d)
    (hr : gmmFit g data it = .ok r) :
    ∃ r', gmmFit g' (fun i => movedPoint A c (data i)) it = .ok r' ∧ r.MovedTo r' A c := by
  have hpd : ∀ (f : Fin 1 → Fin d → ℝ) (g : GMM 1 d), gmmInit 1 d f = .ok g → (g.covariances 0).PosDef := by
    intro f g h
    unfold gmmInit at h
    split_ifs at h
    cases h
    exact Matrix.PosDef.one
  let gm : GMM 1 d := ⟨g.weights, fun k => movedPoint A c (g.means k), fun k => A * g.covariances k * Aᵀ⟩
  have hm : g.MovedTo gm A c := ⟨fun _ => rfl, fun _ => rfl, fun _ => rfl⟩
  obtain ⟨r', h1, h2⟩ := (C149_scale (by norm_num) A hA c hm data it).2 r hr
  refine ⟨r', ?_, h2⟩
  rw [← h1]
  exact C149_one_component g' gm (hpd _ _ hg') ((posDef_moved A hA _).2 (hpd _ _ hg)) _ it hit

/-- What a user would expect of a newly constructed mixture: fitted, with the same random draws, to data on another
scale, it is the mixture fitted to the data, on that scale. -/
def FreshFollowsScale : Prop := ∀ (K d n : ℕ) (randn : Fin K → Fin d → ℝ) (g : GMM K d), gmmInit K d randn = .ok g →
  ∀ (A : Matrix (Fin d) (Fin d) ℝ), IsUnit A.det → ∀ (c : Fin d → ℝ) (data : Fin n → Fin d → ℝ) (it : ℕ) (r : GMM K d),
    1 ≤ it → gmmFit g data it = .ok r →
      ∃ r', gmmFit g (fun i => movedPoint A c (data i)) it = .ok r' ∧ r.MovedTo r' A c

theorem first_weight (x : Fin 2 → ℝ) (g : GMM 2 1) (hg : gmmInit 2 1 (fun k _ => 2 * (k.val : ℝ) - 1) = .ok g) :
    ∃ r, gmmFit g (fun i _ => x i : Fin 2 → Fin 1 → ℝ) 1 = .ok r ∧ r.weights 1 = (sigmoid (2 * x 0) + sigmoid (2 * x 1)) / 2 := by
  obtain ⟨g0, hg0, hval, hpd⟩ := (C44_constructed 2 1 (fun k _ => 2 * (k.val : ℝ) - 1)).1 ⟨by omega, le_rfl⟩
  rw [hg0] at hg
  cases hg
  have hlp := gmmLogProbs_of_posDef (fun i _ => x i : Fin 2 → Fin 1 → ℝ) hpd
  obtain ⟨r, hr⟩ : ∃ r, gmmEStep g (fun i _ => x i : Fin 2 → Fin 1 → ℝ) = .ok r := by
    unfold gmmEStep
    rw [hlp]
    exact ⟨_, rfl⟩
  obtain ⟨-, he⟩ := gmmEStep_eq hval.1 hr
  refine ⟨gmmMStep (fun i _ => x i) r, ?_, ?_⟩
  · rw [gmmFit_same g (by norm_num)]
    unfold gmmLoop
    rw [hr]
    rfl
  · have hshape : g.weights = (fun _ => 1 / ((2 : ℕ) : ℝ)) ∧ g.means = (fun k _ => 2 * (k.val : ℝ) - 1) ∧
        g.covariances = fun _ => 1 := by
      unfold gmmInit at hg0
      rw [if_neg (by norm_num), if_neg (by norm_num)] at hg0
      cases hg0
      exact ⟨rfl, rfl, rfl⟩
    have hri : ∀ i, r 1 i = sigmoid (2 * x i) := by
      intro i
      rw [he, Fin.sum_univ_two]
      obtain ⟨e1, e2, e3⟩ := hshape
      have hd : ∀ k : Fin 2, mvnLogDensity (g.means k) (g.covariances k) (fun _ => x i)
          = -(1 / 2) * (Real.log (2 * Real.pi) + (x i - (2 * (k.val : ℝ) - 1)) ^ 2) := by
        intro k
        rw [e2, e3]
        unfold mvnLogDensity
        rw [inv_one, Matrix.one_mulVec, Matrix.det_one, Real.log_one]
        simp [dotProduct, pow_two]
      rw [hd, hd, e1]
      have hL := Real.exp_pos (-(1 / 2) * (Real.log (2 * Real.pi) + (x i - (2 * ((1 : Fin 2).val : ℝ) - 1)) ^ 2))
      have hquot : Real.exp (-(1 / 2) * (Real.log (2 * Real.pi) + (x i - (2 * ((0 : Fin 2).val : ℝ) - 1)) ^ 2))
          = Real.exp (-(1 / 2) * (Real.log (2 * Real.pi) + (x i - (2 * ((1 : Fin 2).val : ℝ) - 1)) ^ 2))
            * Real.exp (-(2 * x i)) := by
        rw [← Real.exp_add]
        congr 1
        simp only [Fin.val_zero, Fin.val_one, Nat.cast_zero, Nat.cast_one]
        ring
      rw [hquot]
      unfold sigmoid
      have := Real.exp_pos (-(2 * x i))
      field_simp
      ring
    show (∑ i, r 1 i) / ((2 : ℕ) : ℝ) = _
    rw [Fin.sum_univ_two, hri, hri]
    norm_num

/-- The constructor draws the means around zero with unit covariances whatever the data are, so already a change of
origin changes the fit: the weights for the scores -1 and 1 are one half each, for 9 and 11 they are not. -/
theorem C149_fresh_false : ¬ FreshFollowsScale := by
  intro hall
  obtain ⟨g, hg, -, -⟩ := (C44_constructed 2 1 (fun k _ => 2 * (k.val : ℝ) - 1)).1 ⟨by omega, le_rfl⟩
  obtain ⟨r, hr, hw⟩ := first_weight (fun i => 2 * (i.val : ℝ) - 1) g hg
  obtain ⟨r', hr', hm⟩ := hall 2 1 2 _ g hg 1 (by simp) (fun _ => 10) _ 1 r le_rfl hr
  have hdata : (fun i : Fin 2 => movedPoint (1 : Matrix (Fin 1) (Fin 1) ℝ) (fun _ => 10)
      ((fun (i : Fin 2) (_ : Fin 1) => (fun i : Fin 2 => 2 * (i.val : ℝ) - 1) i) i)) = fun i _ => 2 * (i.val : ℝ) + 9 := by
    funext i j
    unfold movedPoint
    rw [Matrix.one_mulVec]
    simp only [Pi.add_apply]
    ring
  rw [hdata] at hr'
  obtain ⟨s, hs, hws⟩ := first_weight (fun i => 2 * (i.val : ℝ) + 9) g hg
  have hrs : r' = s := Except.ok.inj (hr'.symm.trans hs)
  have h1 := hm.weights 1
  rw [hrs, hws, hw] at h1
  simp only [Fin.val_zero, Fin.val_one, Nat.cast_zero, Nat.cast_one] at h1
  have m1 := sigmoid_strictMono (show (2 * (2 * 0 - 1) : ℝ) < 2 * (2 * 0 + 9) by norm_num)
  have m2 := sigmoid_strictMono (show (2 * (2 * 1 - 1) : ℝ) < 2 * (2 * 1 + 9) by norm_num)
  norm_num at h1 m1 m2
  linarith

/-! ## The hypotheses are met -/

/-- Two components on the line, three scores, the scale `x ↦ -2 x + 5`; the fit succeeds. -/
example : ∃ (g g' r : GMM 2 1) (A : Matrix (Fin 1) (Fin 1) ℝ) (c : Fin 1 → ℝ), IsUnit A.det ∧ A.det = -2 ∧ c 0 = 5 ∧
    g.MovedTo g' A c ∧ gmmFit g (fun i _ => 2 * (i.val : ℝ) - 1 : Fin 2 → Fin 1 → ℝ) 1 = .ok r := by
  obtain ⟨g, hg, -, -⟩ := (C44_constructed 2 1 (fun k _ => 2 * (k.val : ℝ) - 1)).1 ⟨by omega, le_rfl⟩
  obtain ⟨r, hr, -⟩ := first_weight (fun i => 2 * (i.val : ℝ) - 1) g hg
  refine ⟨g, ⟨g.weights, fun k => movedPoint (Matrix.of fun _ _ => -2) (fun _ => 5) (g.means k), fun k =>
    (Matrix.of fun _ _ => -2) * g.covariances k * (Matrix.of fun _ _ => -2)ᵀ⟩, r, Matrix.of fun _ _ => -2, fun _ => 5,
    ?_, ?_, rfl, ⟨fun _ => rfl, fun _ => rfl, fun _ => rfl⟩, hr⟩
  · rw [Matrix.det_fin_one, Matrix.of_apply]
    exact isUnit_iff_ne_zero.2 (by norm_num)
  · rw [Matrix.det_fin_one, Matrix.of_apply]

/-- The hypotheses of `C149_density` and `C149_log_likelihood`: a new mixture has a density everywhere. -/
example : ∃ (g : GMM 2 1) (p v : ℝ), gmmPdf g (fun _ => 3) = .ok p ∧
    gmmForward g (fun i _ => (i.val : ℝ) : Fin 3 → Fin 1 → ℝ) = .ok v := by
  obtain ⟨g, -, -, hpd⟩ := (C44_constructed 2 1 (fun k _ => k.val)).1 ⟨by omega, le_rfl⟩
  refine ⟨g, ?_⟩
  unfold gmmPdf gmmForward
  rw [gmmLogProbs_of_posDef _ hpd, gmmLogProbs_of_posDef _ hpd]
  exact ⟨_, _, rfl, rfl⟩

end Irt
