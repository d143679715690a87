import Verif.Props.LongSearch
import Verif.Props.MmlSymmetry

/-! # C132 for all multinomial logit models with one latent variable -/

namespace Irt
open Spec Finset

/-- C132: with enough items that tell something (at most `C` categories, slopes and intercepts up to `β`, two categories whose slopes differ
by at least `α`), EAP scores on a given grid are as exact as one likes, in every multinomial logit model. -/
theorem C132_logit (a : AlgAttrs 1) (points : Option ℕ) (grid : Thetas 1) (hg : grid ≠ []) (cov : Matrix (Fin 1) (Fin 1) ℝ)
    (hcov : cov.PosDef) (hgrid : eapGrid a (points.getD (eapDefaultPoints 1)) = .ok (grid, cov)) (α β : ℝ) (C : ℕ) (ε : ℝ) (hα : 0 < α)
    (hε : 0 < ε) :
    ∃ n : ℕ, ∀ (m : Scorer 1) (cats : List ℕ) (P : (Fin 1 → ℝ) → ℕ → ℕ → ℝ) (A : ℕ → ℕ → Fin 1 → ℝ) (B : ℕ → ℕ → ℝ),
      IsScorer m cats P → LogitModel cats P A B → Telling cats A B α β C → n ≤ cats.length → ∀ e, EapOf m a points cats univ e →
        expectation P cats (fun θ => Real.exp (mvnLogDensity 0 cov θ)) grid (fun θ x => (θ 0 - e x 0) ^ 2) < ε := by
  have hpair : ∀ q : Fin grid.length × Fin grid.length, ∃ ρ, ρ < 1 ∧ (grid[q.1] 0 ≠ grid[q.2] 0 →
      ∀ (cats : List ℕ) (P : (Fin 1 → ℝ) → ℕ → ℕ → ℝ) (A : ℕ → ℕ → Fin 1 → ℝ) (B : ℕ → ℕ → ℝ),
        LogitModel cats P A B → Telling cats A B α β C → ∀ j, affinity P cats grid[q.1] grid[q.2] j ≤ ρ) := by
    intro q
    by_cases h : grid[q.1] 0 = grid[q.2] 0
    · exact ⟨0, one_pos, fun h' => absurd h h'⟩
    · refine ⟨wrongRate α β (max C 1) |grid[q.1] 0| |grid[q.2] 0 - grid[q.1] 0|,
        wrongRate_lt hα (by simp) _ _ (abs_pos.2 (sub_ne_zero.2 (Ne.symm h))), fun _ cats P A B hl ht j => ?_⟩
      have ht' : Telling cats A B α β (max C 1) :=
        ⟨fun j c hc => (ht.categories j c hc).trans (le_max_left _ _), ht.slopes, ht.intercepts, ht.apart⟩
      refine ht'.affinity_le hl _ _ _ le_rfl _ (abs_pos.2 (sub_ne_zero.2 (Ne.symm h))) hα ?_ j
      rcases le_total (grid[q.1] 0) (grid[q.2] 0) with h' | h'
      · exact Or.inl (by rw [abs_of_nonneg (by linarith)]; ring)
      · exact Or.inr (by rw [abs_of_nonpos (by linarith)]; ring)
  choose r hr1 hr2 using hpair
  obtain ⟨ρ, hρ0, hρ1, hρ⟩ := exists_bound_lt_one r hr1
  obtain ⟨n, hn⟩ := C132_long_tests a (by norm_num) points grid hg cov hcov hgrid 0 ρ ε hρ0 hρ1 hε
  refine ⟨n, fun m cats P A B hm hl ht hlen e he => hn m cats P hm (fun θ j c r => hl.logConcave.pos θ j c r) hlen ?_ e he⟩
  intro θ hθ θ' hθ' hdiff j
  obtain ⟨i, hi, rfl⟩ := List.mem_iff_getElem.1 hθ
  obtain ⟨i', hi', rfl⟩ := List.mem_iff_getElem.1 hθ'
  exact (hr2 (⟨i, hi⟩, ⟨i', hi'⟩) hdiff cats P A B hl ht j).trans (hρ _)

/-- C132 for the 1PL model: intercepts within bounds suffice. -/
theorem C132_onePL (a : AlgAttrs 1) (points : Option ℕ) (grid : Thetas 1) (hg : grid ≠ []) (cov : Matrix (Fin 1) (Fin 1) ℝ)
    (hcov : cov.PosDef) (hgrid : eapGrid a (points.getD (eapDefaultPoints 1)) = .ok (grid, cov)) (β ε : ℝ) (hε : 0 < ε) :
    ∃ n : ℕ, ∀ m : OnePL, m.WF → 0 < m.items → n ≤ m.items → (∀ b ∈ m.itemParameters, |b| ≤ β) →
      ∀ e, EapOf m.scorer a points (List.replicate m.items 2) univ e →
        expectation (fun θ => tableProb (m.probs (θ 0))) (List.replicate m.items 2)
          (fun θ => Real.exp (mvnLogDensity 0 cov θ)) grid (fun θ x => (θ 0 - e x 0) ^ 2) < ε := by
  obtain ⟨n, hn⟩ := C132_logit a points grid hg cov hcov hgrid 1 (max β 1) 2 ε one_pos hε
  exact ⟨n, fun m hwf hne hlen hp e he => hn m.scorer _ _ _ _ (m.isScorer hwf hne) (m.logitModel hwf)
    (C138_onePL m hwf (max β 1) (le_max_right _ _) fun b hb => (hp b hb).trans (le_max_left _ _)) (by simpa using hlen) e he⟩

/-- C132 for the generalized partial credit model: items with two to `C` categories, slopes away from zero, and slopes and intercepts within
bounds. -/
theorem C132_gpc (a : AlgAttrs 1) (points : Option ℕ) (grid : Thetas 1) (hg : grid ≠ []) (cov : Matrix (Fin 1) (Fin 1) ℝ)
    (hcov : cov.PosDef) (hgrid : eapGrid a (points.getD (eapDefaultPoints 1)) = .ok (grid, cov)) (α β : ℝ) (C : ℕ) (ε : ℝ)
    (hα : 0 < α) (hε : 0 < ε) :
    ∃ n : ℕ, ∀ m : GPC, m.WF → m.cats ≠ [] → n ≤ m.cats.length → (∀ c ∈ m.cats, 2 ≤ c ∧ c ≤ C) →
      (∀ p ∈ m.itemParameters, ∃ s, p.1 = [s] ∧ α ≤ |s| ∧ |s| ≤ β ∧ ∀ b ∈ p.2, |b| ≤ β) →
      ∀ e, EapOf (m.scorer 1) a points m.cats univ e →
        expectation (fun θ => tableProb (m.probs (List.ofFn θ))) m.cats
          (fun θ => Real.exp (mvnLogDensity 0 cov θ)) grid (fun θ x => (θ 0 - e x 0) ^ 2) < ε := by
  obtain ⟨n, hn⟩ := C132_logit a points grid hg cov hcov hgrid α ((C + 1) * β) C ε hα hε
  refine ⟨n, fun m hwf hne hlen hcats hp e he => hn (m.scorer 1) _ _ _ _ (m.isScorer hwf hne 1) (m.logitModel hwf 1)
    (C138_gpc m α ((C + 1) * β) C hcats fun p hp' => ?_) hlen e he⟩
  obtain ⟨s, h1, h2, h3, h4⟩ := hp p hp'
  have hβ : 0 ≤ β := (abs_nonneg _).trans h3
  have hC : (0 : ℝ) ≤ C := Nat.cast_nonneg C
  exact ⟨s, h1, h2, by nlinarith, fun b hb => (h4 b hb).trans (by nlinarith)⟩

/-- C132 and C138 for the nominal response model: two of the item's categories have slopes that differ by at least `α`. -/
theorem C138_nrm (m : NRM) (α β : ℝ) (C : ℕ) (hcats : ∀ c ∈ m.cats, c ≤ C)
    (hp : ∀ (j c : ℕ) wl dl, m.cats[j]? = some c → m.itemParameters[j]? = some (wl, dl) →
      (∀ w ∈ wl, |w.getD 0 0| ≤ β) ∧ (∀ b ∈ dl, |b| ≤ β) ∧
      ∃ r s w w', r < c ∧ s < c ∧ wl[r]? = some w ∧ wl[s]? = some w' ∧ α ≤ w.getD 0 0 - w'.getD 0 0) :
    Telling m.cats (fun j r k => categorySlopeOf m.itemParameters j r k)
      (fun j r => ((m.itemParameters[j]?).map fun p => p.2.getD r 0).getD 0) α β C := by
  refine ⟨fun j c hc => hcats c (List.mem_of_getElem? hc), fun j c r hc hr => ?_, fun j c r hc hr => ?_, fun j c hc => ?_⟩
  all_goals
    obtain ⟨wl, dl, hpj, hwl, hdl⟩ := m.exists_params j (lt_of_getElem?_some hc)
    obtain ⟨h1, h2, r', s', w, w', hr', hs', hw, hw', hα⟩ := hp j c wl dl hc hpj
    have hM : c ≤ m.M := le_maxCats _ _ (List.mem_of_getElem? hc)
  · obtain ⟨v, hv⟩ := getElem?_of_lt wl r (by omega)
    simp only [categorySlopeOf, hpj, Option.map_some, Option.getD_some, List.getD_eq_getElem?_getD, hv, Fin.val_zero]
    have := h1 v (List.mem_of_getElem? hv)
    rwa [List.getD_eq_getElem?_getD] at this
  · obtain ⟨v, hv⟩ := getElem?_of_lt dl r (by omega)
    simp only [hpj, Option.map_some, Option.getD_some, List.getD_eq_getElem?_getD, hv]
    exact h2 v (List.mem_of_getElem? hv)
  · refine ⟨r', s', hr', hs', ?_⟩
    simp only [categorySlopeOf, hpj, Option.map_some, Option.getD_some, List.getD_eq_getElem?_getD, hw, hw', Fin.val_zero]
    simpa only [List.getD_eq_getElem?_getD] using hα

/-! ## The hypotheses are met by tests of any length -/

theorem mem_of_mem_viewRows {α : Type} (n k : ℕ) (xs : List α) (l : List α) (hl : l ∈ viewRows n k xs) (b : α) (hb : b ∈ l) : b ∈ xs := by
  induction n generalizing xs with
  | zero => simp [viewRows] at hl
  | succ n ih =>
    rcases List.mem_cons.1 hl with rfl | hl
    · exact List.mem_of_mem_take hb
    · exact List.mem_of_mem_drop (ih _ hl)

theorem mem_scatterMask {α : Type} (z : α) (m : List Bool) (p : List α) (v : α) (h : v ∈ scatterMask z m p) : v = z ∨ v ∈ p := by
  induction m generalizing p with
  | nil => simp [scatterMask] at h
  | cons b m ih =>
    cases b <;> cases p <;> simp only [scatterMask, List.mem_cons] at h ⊢
    · rcases h with h | h
      · exact Or.inl h
      · exact ih [] h
    · rcases h with h | h
      · exact Or.inl h
      · simpa using ih _ h
    · rcases h with h | h
      · exact Or.inl h
      · exact ih [] h
    · rcases h with h | h
      · exact Or.inr (Or.inl h)
      · rcases ih _ h with h | h
        · exact Or.inl h
        · exact Or.inr (Or.inr h)

/-- A generalized partial credit test of `n` items with three categories each, as the constructor makes it. -/
noncomputable def exLongCredit (n : ℕ) : GPC := GPC.free (List.replicate n 3) 1 (List.replicate n 1) (List.replicate (2 * n) 0)

theorem exLongCredit_wf (n : ℕ) : (exLongCredit n).WF :=
  GPC.free_wf _ (fun c hc => by rw [List.eq_of_mem_replicate hc]; norm_num) 1 _ _ (by simp) (by simp; omega)

theorem exLongCredit_parameters (n : ℕ) (p : List ℝ × List ℝ) (hp : p ∈ (exLongCredit n).itemParameters) : p.1 = [1] ∧ ∀ b ∈ p.2, b = 0 := by
  have h1 := List.of_mem_zip (show (p.1, p.2) ∈ List.zip (exLongCredit n).weights _ from hp)
  rw [exLongCredit, GPC.free_weights _ _ _ _ (by simp)] at h1
  constructor
  · have h2 := mem_viewRows_length _ _ _ (by simp) _ h1.1
    obtain ⟨x, hx⟩ := List.length_eq_one_iff.1 h2
    rw [hx]
    have := mem_of_mem_viewRows _ _ _ _ h1.1 x (by rw [hx]; simp)
    rw [List.eq_of_mem_replicate this]
  · intro b hb
    rcases mem_scatterMask _ _ _ _ (mem_of_mem_viewRows _ _ _ _ h1.2 b hb) with h | h
    · exact h
    · exact List.eq_of_mem_replicate h

/-- Training scores 0 and 2: some number of three category items brings the mean squared error of EAP scores below 1/100. -/
example : ∃ (grid : Thetas 1) (n : ℕ) (e : (Fin (List.replicate (n + 1) 3).length → ℕ) → Fin 1 → ℝ),
    EapOf ((exLongCredit (n + 1)).scorer 1) exTrained none (List.replicate (n + 1) 3) univ e ∧
    expectation (fun θ => tableProb ((exLongCredit (n + 1)).probs (List.ofFn θ))) (List.replicate (n + 1) 3)
      (fun θ => Real.exp (mvnLogDensity 0 (sampleCov [fun _ : Fin 1 => (0:ℝ), fun _ => 2]) θ)) grid (fun θ x => (θ 0 - e x 0) ^ 2) < 1 / 100 := by
  obtain ⟨grid, hg, hgrid⟩ := exTrained_grid
  obtain ⟨n, hn⟩ := C132_gpc exTrained none grid hg _ exTraining_cov hgrid 1 1 3 (1 / 100) one_pos (by norm_num)
  have hne : (exLongCredit (n + 1)).cats ≠ [] := by simp [exLongCredit, GPC.free]
  obtain ⟨e, he⟩ := C128_scores_exist ((exLongCredit (n + 1)).isScorer (exLongCredit_wf _) hne 1) ((exLongCredit (n + 1)).positive (exLongCredit_wf _) 1)
    exTrained (by norm_num) none grid hg _ exTraining_cov hgrid univ
  refine ⟨grid, n, e, he, hn (exLongCredit (n + 1)) (exLongCredit_wf _) hne (by simp [exLongCredit, GPC.free]) (fun c hc => ?_) (fun p hp => ?_) e he⟩
  · rw [List.eq_of_mem_replicate (show c ∈ List.replicate (n + 1) 3 from hc)]
    norm_num
  · obtain ⟨h1, h2⟩ := exLongCredit_parameters _ p hp
    exact ⟨1, h1, by simp, by simp, fun b hb => by rw [h2 b hb]; simp⟩

/-- The same with the 1PL model. -/
example : ∃ (grid : Thetas 1) (n : ℕ) (e : (Fin (List.replicate (n + 1) 2).length → ℕ) → Fin 1 → ℝ),
    EapOf (⟨n + 1, List.replicate (n + 1) 0⟩ : OnePL).scorer exTrained none (List.replicate (n + 1) 2) univ e ∧
    expectation (fun θ => tableProb ((⟨n + 1, List.replicate (n + 1) 0⟩ : OnePL).probs (θ 0))) (List.replicate (n + 1) 2)
      (fun θ => Real.exp (mvnLogDensity 0 (sampleCov [fun _ : Fin 1 => (0:ℝ), fun _ => 2]) θ)) grid (fun θ x => (θ 0 - e x 0) ^ 2) < 1 / 100 := by
  obtain ⟨grid, hg, hgrid⟩ := exTrained_grid
  obtain ⟨n, hn⟩ := C132_onePL exTrained none grid hg _ exTraining_cov hgrid 1 (1 / 100) (by norm_num)
  have hwf : (⟨n + 1, List.replicate (n + 1) 0⟩ : OnePL).WF := List.length_replicate
  obtain ⟨e, he⟩ := C128_scores_exist (OnePL.isScorer _ hwf (Nat.succ_pos n)) (OnePL.logitModel _ hwf).pos
    exTrained (by norm_num) none grid hg _ exTraining_cov hgrid univ
  refine ⟨grid, n, e, he, hn _ hwf (Nat.succ_pos n) (Nat.le_succ n) (fun b hb => ?_) e he⟩
  rw [List.eq_of_mem_replicate hb]
  simp

/-- The items of the nominal response model `exNRM`. -/
example : Telling exNRM.cats (fun j r k => categorySlopeOf exNRM.itemParameters j r k)
    (fun j r => ((exNRM.itemParameters[j]?).map fun p => p.2.getD r 0).getD 0) 1 5 3 := by
  have hsecond : exNRM.itemParameters[1]? = some (([[1, -4], [-1, 4], [0, 0]] : List (List ℝ)), ([-3 / 10, 3 / 10, 0] : List ℝ)) := by
    simp [NRM.itemParameters, NRM.weights, NRM.biases, exNRM, viewRows, scatterMask, NRM.M, maxCats,
      freeMask, freeRow, List.range_succ, NRM.freeWeights, nrmFreeRows, sumRows]
    norm_num
  refine C138_nrm exNRM 1 5 3 (by simp [exNRM]) fun j c wl dl hc hp => ?_
  have hj : j < 2 := lt_of_getElem?_some hc
  interval_cases j
  · rw [exNRM_params] at hp
    obtain ⟨rfl, rfl⟩ := Prod.mk.inj (Option.some.inj hp)
    obtain rfl : 3 = c := Option.some.inj hc
    refine ⟨by norm_num [abs_le], by norm_num [abs_le], 1, 0, [1, 0], [-3, 0], by norm_num, by norm_num, rfl, rfl, by norm_num⟩
  · rw [hsecond] at hp
    obtain ⟨rfl, rfl⟩ := Prod.mk.inj (Option.some.inj hp)
    obtain rfl : 2 = c := Option.some.inj hc
    refine ⟨by norm_num [abs_le], by norm_num [abs_le], 0, 1, [1, -4], [-1, 4], by norm_num, by norm_num, rfl, rfl, by norm_num⟩

end Irt
