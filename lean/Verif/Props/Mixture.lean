import Verif.Lemmas.Mixture

/-!
# C44: EM keeps the Gaussian mixture valid (and C72: it never lowers the log likelihood)
-/

namespace Irt
open Spec Matrix

/-- **C44.** A newly constructed mixture is valid; the constructor refuses exactly zero components or zero
features. -/
theorem C44_constructed (K d : ℕ) (randn : Fin K → Fin d → ℝ) :
    (1 ≤ K ∧ 1 ≤ d → ∃ g, gmmInit K d randn = .ok g ∧ ValidMixture g.weights g.covariances ∧
      ∀ k, (g.covariances k).PosDef) ∧
    (K = 0 ∨ d = 0 → gmmInit K d randn = .error .valueError) := by
  constructor
  · rintro ⟨hK, hd⟩
    refine ⟨{ weights := fun _ => 1 / K, means := randn, covariances := fun _ => 1 }, ?_, ?_, ?_⟩
    · unfold gmmInit
      rw [if_neg (by omega), if_neg (by omega)]
    · have hK' : (0 : ℝ) < K := by exact_mod_cast hK
      refine ⟨fun k => by positivity, ?_, fun k => ⟨?_, fun v => ?_⟩⟩
      · simp [hK'.ne']
      · exact Matrix.isSymm_one
      · show 0 ≤ v ⬝ᵥ ((1 : Matrix (Fin d) (Fin d) ℝ).mulVec v)
        rw [Matrix.one_mulVec]
        exact Finset.sum_nonneg fun i _ => mul_self_nonneg _
    · intro k
      exact Matrix.PosDef.one
  · intro h
    unfold gmmInit
    rcases h with h | h
    · rw [if_pos (by omega)]
    · split
      · rfl
      · rw [if_pos (by omega)]

theorem gmmLoop_valid {K d n : ℕ} (hK : 0 < K) (hn : 0 < n) (data : Fin n → Fin d → ℝ) (it : ℕ) :
    ∀ {g g' : GMM K d}, ValidMixture g.weights g.covariances → gmmLoop data it g = .ok g' →
      ValidMixture g'.weights g'.covariances ∧
      (1 ≤ it → ∀ j, ∑ k, g'.weights k * g'.means k j = (∑ i, data i j) / n) := by
  induction it with
  | zero =>
    intro g g' hg h
    simp only [gmmLoop, Except.ok.injEq] at h
    exact ⟨h ▸ hg, by omega⟩
  | succ it ih =>
    intro g g' hg h
    unfold gmmLoop at h
    obtain ⟨r, hr, h⟩ := bind_eq_ok h
    have hresp := gmmEStep_responsible hK hg.1 hr
    obtain ⟨hv, hm⟩ := ih (gmmMStep_valid hn data hresp) h
    refine ⟨hv, fun _ => ?_⟩
    rcases Nat.eq_zero_or_pos it with h0 | h0
    · subst h0
      simp only [gmmLoop, Except.ok.injEq] at h
      rw [← h]
      exact gmmMStep_mean hn data hresp
    · exact hm h0

/-- **C44.** Whenever `fit` returns, from any valid mixture, for any data and any number of iterations, the
mixture is valid: positive weights summing to one, symmetric positive semidefinite covariances; and after
at least one iteration the mixture mean is the data mean. -/
theorem C44_fit {K d n m : ℕ} (hK : 0 < K) {g g' : GMM K d} (hg : ValidMixture g.weights g.covariances)
    (data : Fin n → Fin m → ℝ) (it : ℕ) (h : gmmFit g data it = .ok g') :
    ValidMixture g'.weights g'.covariances ∧
      (1 ≤ it → ∀ (j : Fin d) (j' : Fin m), j.val = j'.val →
        ∑ k, g'.weights k * g'.means k j = (∑ i, data i j') / n) := by
  unfold gmmFit at h
  split at h
  · simp at h
  · rename_i hn
    split at h
    · rename_i hm
      subst hm
      obtain ⟨h1, h2⟩ := gmmLoop_valid hK (by omega) data it hg h
      refine ⟨h1, fun hit j j' hj => ?_⟩
      have : j = j' := Fin.ext hj
      rw [this]
      exact h2 hit j'
    · simp at h

/-- **C44.** Responsibilities are positive and sum to one for every observation. -/
theorem C44_responsibilities {K d n : ℕ} (hK : 0 < K) {g : GMM K d}
    (hg : ValidMixture g.weights g.covariances) (data : Fin n → Fin d → ℝ) {r : Fin K → Fin n → ℝ}
    (h : gmmEStep g data = .ok r) : (∀ k i, 0 < r k i) ∧ ∀ i, ∑ k, r k i = 1 :=
  gmmEStep_responsible hK hg.1 h

/-- **C44.** `fit` refuses empty data and data with another number of features. -/
theorem C44_refused {K d n m : ℕ} (g : GMM K d) (data : Fin n → Fin m → ℝ) (it : ℕ) (h : n = 0 ∨ m ≠ d) :
    gmmFit g data it = .error .valueError := by
  unfold gmmFit
  rcases h with h | h
  · rw [if_pos h]
  · by_cases hn : n = 0
    · rw [if_pos hn]
    · rw [if_neg hn, dif_neg h]

/-- **C44**, the limit of "any number of iterations": a single observation makes every covariance zero after
one iteration, and the next iteration raises. -/
theorem C44_collapse {K d : ℕ} (hK : 0 < K) (hd : 0 < d) {g : GMM K d}
    (hg : ValidMixture g.weights g.covariances) (data : Fin 1 → Fin d → ℝ) (it : ℕ) :
    ∃ e, gmmFit g data (it + 2) = .error e := by
  unfold gmmFit
  rw [if_neg (by omega), dif_pos rfl]
  show ∃ e, gmmLoop data (it + 2) g = .error e
  cases hr : gmmEStep g data with
  | error e => exact ⟨e, by unfold gmmLoop; rw [hr]; rfl⟩
  | ok r =>
    have hresp := gmmEStep_responsible hK hg.1 hr
    have hcov : ∀ k, (gmmMStep data r).covariances k = 0 := by
      intro k
      rw [gmmMStep_cov]
      ext a b
      have hpos := hresp.1 k 0
      have hm : ∀ j, (gmmMStep data r).means k j = data 0 j := by
        intro j
        show (∑ i, r k i * data i j) / ∑ i, r k i = _
        rw [Fin.sum_univ_one, Fin.sum_univ_one]
        field_simp
      simp [Matrix.of_apply, hm]
    refine ⟨.valueError, ?_⟩
    unfold gmmLoop
    rw [hr]
    show gmmLoop data (it + 1) (gmmMStep data r) = _
    unfold gmmLoop gmmEStep gmmLogProbs
    have hnot : ¬ ((gmmMStep data r).covariances ⟨0, hK⟩).PosDef := by
      rw [hcov]
      intro h
      have : Nonempty (Fin d) := ⟨⟨0, hd⟩⟩
      have := h.det_pos
      rw [Matrix.det_zero] at this
      exact lt_irrefl _ this
    obtain ⟨K', rfl⟩ : ∃ K', K = K' + 1 := ⟨K - 1, by omega⟩
    rw [List.finRange_succ, List.mapM_cons]
    have : mvnLogProb ((gmmMStep data r).means 0) ((gmmMStep data r).covariances 0) data = .error .valueError := by
      unfold mvnLogProb
      exact if_neg hnot
    rw [this]
    rfl

/-- **C72.** One EM iteration never lowers the log likelihood that the module reports. -/
theorem C72_em_monotone {K d n : ℕ} (hK : 0 < K) (hn : 0 < n) {g g' : GMM K d}
    (hg : ValidMixture g.weights g.covariances) (data : Fin n → Fin d → ℝ)
    (h : gmmFit g data 1 = .ok g') {before after : ℝ} (hb : gmmForward g data = .ok before)
    (ha : gmmForward g' data = .ok after) : before ≤ after := by
  unfold gmmFit at h
  rw [if_neg (by omega), dif_pos rfl] at h
  unfold gmmLoop at h
  obtain ⟨r, hr, h⟩ := bind_eq_ok h
  simp only [gmmLoop, Except.ok.injEq] at h
  rw [← h] at ha
  exact em_step_monotone hK hn hg.1 hg.2.1 hr hb ha

theorem gmmLoop_monotone {K d n : ℕ} (hK : 0 < K) (hn : 0 < n) (data : Fin n → Fin d → ℝ) (it : ℕ) :
    ∀ {g g' : GMM K d}, ValidMixture g.weights g.covariances → gmmLoop data it g = .ok g' →
      ∀ {before after : ℝ}, gmmForward g data = .ok before → gmmForward g' data = .ok after →
        before ≤ after := by
  induction it with
  | zero =>
    intro g g' _ h before after hb ha
    simp only [gmmLoop, Except.ok.injEq] at h
    rw [← h, hb] at ha
    simp only [Except.ok.injEq] at ha
    exact ha.le
  | succ it ih =>
    intro g g' hg h before after hb ha
    unfold gmmLoop at h
    obtain ⟨r, hr, h⟩ := bind_eq_ok h
    have hresp := gmmEStep_responsible hK hg.1 hr
    have hmid : ∃ mid, gmmForward (gmmMStep data r) data = .ok mid := by
      have hpd : ∀ k, ((gmmMStep data r).covariances k).PosDef := by
        cases it with
        | zero =>
          simp only [gmmLoop, Except.ok.injEq] at h
          rw [h]
          exact (gmmForward_eq (h ▸ (gmmMStep_valid hn data hresp).1) ha).1
        | succ it =>
          unfold gmmLoop at h
          obtain ⟨r', hr', -⟩ := bind_eq_ok h
          exact (gmmEStep_eq (gmmMStep_valid hn data hresp).1 hr').1
      unfold gmmForward
      rw [gmmLogProbs_of_posDef data hpd]
      exact ⟨_, rfl⟩
    obtain ⟨mid, hmid⟩ := hmid
    exact (em_step_monotone hK hn hg.1 hg.2.1 hr hb hmid).trans
      (ih (gmmMStep_valid hn data hresp) h hmid ha)

/-- **C72.** Nor does any number of iterations of `fit`. -/
theorem C72_fit_monotone {K d n : ℕ} (hK : 0 < K) {g g' : GMM K d}
    (hg : ValidMixture g.weights g.covariances) (data : Fin n → Fin d → ℝ) (it : ℕ)
    (h : gmmFit g data it = .ok g') {before after : ℝ} (hb : gmmForward g data = .ok before)
    (ha : gmmForward g' data = .ok after) : before ≤ after := by
  unfold gmmFit at h
  split at h
  · simp at h
  · rename_i hn
    rw [dif_pos rfl] at h
    exact gmmLoop_monotone hK (by omega) data it hg h hb ha

/-- **C72.** The density the module reports is the exponential of the log likelihood of that single
point. -/
theorem C72_pdf {K d : ℕ} {g : GMM K d} (hK : 0 < K) (hg : ValidMixture g.weights g.covariances)
    (x : Fin d → ℝ) {p v : ℝ} (hp : gmmPdf g x = .ok p) (hv : gmmForward g (fun _ : Fin 1 => x) = .ok v) :
    0 < p ∧ v = Real.log p := by
  unfold gmmPdf at hp
  obtain ⟨lp, hlp, hp⟩ := bind_eq_ok hp
  simp only [pure, Except.pure, Except.ok.injEq] at hp
  obtain ⟨-, he⟩ := gmmLogProbs_ok hlp
  obtain ⟨-, ev⟩ := gmmForward_eq hg.1 hv
  rw [Fin.sum_univ_one] at ev
  constructor
  · rw [← hp]
    exact Finset.sum_pos (fun k _ => mul_pos (hg.1 k) (Real.exp_pos _)) ⟨⟨0, hK⟩, Finset.mem_univ _⟩
  · rw [ev, ← hp]
    simp only [he]

/-- A concrete run: two components on the line with distinct means, three observations; the mixture is
valid, evaluates and takes an EM step. -/
example : ∃ (g g' : GMM 2 1) (v : ℝ),
    gmmInit 2 1 (fun k _ => k.val) = .ok g ∧ ValidMixture g.weights g.covariances ∧
      gmmFit g (fun i _ => (i.val : ℝ) : Fin 3 → Fin 1 → ℝ) 1 = .ok g' ∧
      gmmForward g (fun i _ => (i.val : ℝ) : Fin 3 → Fin 1 → ℝ) = .ok v := by
  obtain ⟨g, hg, hval, hpd⟩ := (C44_constructed 2 1 (fun k _ => k.val)).1 ⟨by omega, le_rfl⟩
  refine ⟨g, ?_⟩
  have h1 := gmmLogProbs_of_posDef (fun i _ => (i.val : ℝ) : Fin 3 → Fin 1 → ℝ) hpd
  refine ⟨?g', ?v, hg, hval, ?h1, ?h2⟩
  case h1 =>
    unfold gmmFit
    rw [if_neg (by omega), dif_pos rfl]
    unfold gmmLoop gmmEStep
    show (gmmLogProbs g (fun i _ => (i.val : ℝ) : Fin 3 → Fin 1 → ℝ) >>= _) >>= _ = _
    rw [h1]
    rfl
  case h2 =>
    unfold gmmForward
    rw [h1]
    rfl

/-- The hypotheses of C72 are met together: one component and the observations 0 and 2, where the log
likelihood is defined before and after the iteration. -/
example : ∃ (g g' : GMM 1 1) (a b : ℝ), ValidMixture g.weights g.covariances ∧
    gmmFit g (fun i _ => 2 * (i.val : ℝ) : Fin 2 → Fin 1 → ℝ) 1 = .ok g' ∧
    gmmForward g (fun i _ => 2 * (i.val : ℝ) : Fin 2 → Fin 1 → ℝ) = .ok a ∧
    gmmForward g' (fun i _ => 2 * (i.val : ℝ) : Fin 2 → Fin 1 → ℝ) = .ok b := by
  obtain ⟨g, hg, hval, hpd⟩ := (C44_constructed 1 1 (fun _ _ => 0)).1 ⟨le_rfl, le_rfl⟩
  have h1 := gmmLogProbs_of_posDef (fun i _ => 2 * (i.val : ℝ) : Fin 2 → Fin 1 → ℝ) hpd
  obtain ⟨r, hr⟩ : ∃ r, gmmEStep g (fun i _ => 2 * (i.val : ℝ) : Fin 2 → Fin 1 → ℝ) = .ok r := by
    unfold gmmEStep
    rw [h1]
    exact ⟨_, rfl⟩
  have hresp := gmmEStep_responsible (by omega) hval.1 hr
  have hone : ∀ i, r 0 i = 1 := fun i => by have := hresp.2 i; rwa [Fin.sum_univ_one] at this
  have hpd' : ∀ k, ((gmmMStep (fun i _ => 2 * (i.val : ℝ) : Fin 2 → Fin 1 → ℝ) r).covariances k).PosDef := by
    intro k
    have hk : k = 0 := Subsingleton.elim _ _
    have : (gmmMStep (fun i _ => 2 * (i.val : ℝ) : Fin 2 → Fin 1 → ℝ) r).covariances k = 1 := by
      subst hk
      rw [gmmMStep_cov]
      ext a b
      have ha : a = 0 := Subsingleton.elim _ _
      have hb : b = 0 := Subsingleton.elim _ _
      subst ha hb
      have hm : (gmmMStep (fun i _ => 2 * (i.val : ℝ) : Fin 2 → Fin 1 → ℝ) r).means 0 0 = 1 := by
        show (∑ i, r 0 i * (2 * (i.val : ℝ))) / ∑ i, r 0 i = 1
        simp [Fin.sum_univ_two, hone]
      simp only [Matrix.of_apply, hm, Fin.sum_univ_two, hone]
      norm_num
    rw [this]
    exact Matrix.PosDef.one
  have h2 := gmmLogProbs_of_posDef (fun i _ => 2 * (i.val : ℝ) : Fin 2 → Fin 1 → ℝ) hpd'
  refine ⟨g, gmmMStep (fun i _ => 2 * (i.val : ℝ)) r, ?a, ?b, hval, ?h1, ?h2, ?h3⟩
  case h1 =>
    unfold gmmFit
    rw [if_neg (by omega), dif_pos rfl]
    unfold gmmLoop
    show gmmEStep g (fun i _ => 2 * (i.val : ℝ) : Fin 2 → Fin 1 → ℝ) >>= _ = _
    rw [hr]
    rfl
  case h2 =>
    unfold gmmForward
    rw [h1]
    rfl
  case h3 =>
    unfold gmmForward
    rw [h2]
    rfl

end Irt
