import Verif.Spec.EapStability
import Verif.Props.Population
import Verif.Props.Rounding
import Verif.Lemmas.GridSymmetry

/-! # C146: small errors of the item parameters and single answers move EAP scores by bounded amounts -/

namespace Irt
open Spec

/-! ## Means with weights that are known up to a factor -/

theorem grid_mean_le {α : Type*} (grid : List α) (v v' x : α → ℝ) (c C lo hi : ℝ) (hne : grid ≠ []) (hc : 0 < c)
    (hv : ∀ θ ∈ grid, 0 < v θ) (h1 : ∀ θ ∈ grid, c * v θ ≤ v' θ) (h2 : ∀ θ ∈ grid, v' θ ≤ C * v θ)
    (hx : ∀ θ ∈ grid, lo ≤ x θ ∧ x θ ≤ hi) :
    (grid.map fun θ => v' θ * x θ).sum / (grid.map v').sum - (grid.map fun θ => v θ * x θ).sum / (grid.map v).sum ≤ (1 - c / C) * (hi - lo) := by
  obtain ⟨θ0, hθ0⟩ := List.exists_mem_of_ne_nil grid hne
  have hv' : ∀ θ ∈ grid, 0 < v' θ := fun θ h => lt_of_lt_of_le (mul_pos hc (hv θ h)) (h1 θ h)
  have hcC : c ≤ C := le_of_mul_le_mul_right ((h1 θ0 hθ0).trans (h2 θ0 hθ0)) (hv θ0 hθ0)
  have hC : 0 < C := hc.trans_le hcC
  have D : 0 < (grid.map v).sum := list_sum_pos_of_mem grid _ (fun θ h => (hv θ h).le) θ0 hθ0 (hv θ0 hθ0)
  have D' : 0 < (grid.map v').sum := list_sum_pos_of_mem grid _ (fun θ h => (hv' θ h).le) θ0 hθ0 (hv' θ0 hθ0)
  have shift : ∀ w : α → ℝ, (grid.map fun θ => w θ * x θ).sum = (grid.map fun θ => w θ * (x θ - lo)).sum + lo * (grid.map w).sum := by
    intro w
    rw [← List.sum_map_mul_left, ← List.sum_map_add]
    congr 1
    exact List.map_congr_left fun θ _ => by ring
  set N := (grid.map fun θ => v θ * (x θ - lo)).sum with hN
  set N' := (grid.map fun θ => v' θ * (x θ - lo)).sum with hN'
  have e : (grid.map fun θ => v' θ * x θ).sum / (grid.map v').sum - (grid.map fun θ => v θ * x θ).sum / (grid.map v).sum
      = N' / (grid.map v').sum - N / (grid.map v).sum := by
    rw [shift v, shift v', add_div, add_div, mul_div_cancel_right₀ _ D.ne', mul_div_cancel_right₀ _ D'.ne']
    ring
  rw [e]
  have n1 : N' ≤ C * N := by
    rw [hN, hN', ← List.sum_map_mul_left]
    refine List.sum_le_sum fun θ h => ?_
    rw [← mul_assoc]
    exact mul_le_mul_of_nonneg_right (h2 θ h) (by linarith [(hx θ h).1])
  have n2 : c * (grid.map v).sum ≤ (grid.map v').sum := by
    rw [← List.sum_map_mul_left]
    exact List.sum_le_sum fun θ h => h1 θ h
  have n3 : N' ≤ (hi - lo) * (grid.map v').sum := by
    rw [hN', ← List.sum_map_mul_left]
    refine List.sum_le_sum fun θ h => ?_
    rw [mul_comm]
    exact mul_le_mul_of_nonneg_right (by linarith [(hx θ h).2]) (hv' θ h).le
  have n4 : 0 ≤ N' := List.sum_nonneg (by
    intro z hz
    obtain ⟨θ, h, rfl⟩ := List.mem_map.1 hz
    exact mul_nonneg (hv' θ h).le (by linarith [(hx θ h).1]))
  have r1 : N' / (grid.map v').sum ≤ hi - lo := (div_le_iff₀ D').2 n3
  have r2 : c / C * (N' / (grid.map v').sum) ≤ N / (grid.map v).sum := by
    rw [div_mul_div_comm, div_le_div_iff₀ (mul_pos hC D') D]
    calc c * N' * (grid.map v).sum = N' * (c * (grid.map v).sum) := by ring
      _ ≤ N' * (grid.map v').sum := mul_le_mul_of_nonneg_left n2 n4
      _ ≤ C * N * (grid.map v').sum := mul_le_mul_of_nonneg_right n1 D'.le
      _ = N * (C * (grid.map v').sum) := by ring
  have r3 : 0 ≤ 1 - c / C := by
    rw [sub_nonneg, div_le_one hC]; exact hcC
  calc N' / (grid.map v').sum - N / (grid.map v).sum ≤ (1 - c / C) * (N' / (grid.map v').sum) := by linarith
    _ ≤ (1 - c / C) * (hi - lo) := mul_le_mul_of_nonneg_left r1 r3

theorem grid_mean_close {α : Type*} (grid : List α) (v v' x : α → ℝ) (c C lo hi : ℝ) (hne : grid ≠ []) (hc : 0 < c)
    (hv : ∀ θ ∈ grid, 0 < v θ) (h1 : ∀ θ ∈ grid, c * v θ ≤ v' θ) (h2 : ∀ θ ∈ grid, v' θ ≤ C * v θ)
    (hx : ∀ θ ∈ grid, lo ≤ x θ ∧ x θ ≤ hi) :
    |(grid.map fun θ => v θ * x θ).sum / (grid.map v).sum - (grid.map fun θ => v' θ * x θ).sum / (grid.map v').sum| ≤ (1 - c / C) * (hi - lo) := by
  obtain ⟨θ0, hθ0⟩ := List.exists_mem_of_ne_nil grid hne
  have hcC : c ≤ C := le_of_mul_le_mul_right ((h1 θ0 hθ0).trans (h2 θ0 hθ0)) (hv θ0 hθ0)
  have hC : 0 < C := hc.trans_le hcC
  have a1 := grid_mean_le grid v v' x c C lo hi hne hc hv h1 h2 hx
  have a2 := grid_mean_le grid v' v x C⁻¹ c⁻¹ lo hi hne (inv_pos.2 hC) (fun θ h => lt_of_lt_of_le (mul_pos hc (hv θ h)) (h1 θ h))
    (fun θ h => by rw [inv_mul_le_iff₀ hC]; exact h2 θ h) (fun θ h => by rw [le_inv_mul_iff₀ hc]; exact h1 θ h) hx
  rw [show C⁻¹ / c⁻¹ = c / C by rw [inv_div_inv]] at a2
  rw [abs_le]
  constructor <;> linarith

/-! ## Likelihoods of close models -/

variable {d : ℕ} {cats : List ℕ} {P P' : (Fin d → ℝ) → ℕ → ℕ → ℝ}

theorem cell_valid {row : ℕ → Cell} (hrow : ValidResponses cats row) {j : ℕ} (hj : j < cats.length) (hs : cellMissing (row j) = false) :
    ∃ c r, cats[j]? = some c ∧ r < c ∧ responseOf (row j) = r := by
  obtain ⟨r, h1, h2⟩ := hrow j cats[j] (by simp [hj]) hs
  exact ⟨cats[j], r, by simp [hj], h2, by simp [responseOf, h1]⟩

theorem observedLikelihood_close {grid : List (Fin d → ℝ)} {δ : ℝ} (hpos : PositiveProbs P cats) (hpos' : PositiveProbs P' cats)
    (hclose : CloseOn grid cats P P' δ) (row : ℕ → Cell) (hrow : ValidResponses cats row) {θ : Fin d → ℝ} (hθ : θ ∈ grid) :
    |Real.log (observedLikelihood P cats.length row θ) - Real.log (observedLikelihood P' cats.length row θ)|
      ≤ (answeredItems cats.length row).card * δ := by
  have hlog : ∀ Q : (Fin d → ℝ) → ℕ → ℕ → ℝ, PositiveProbs Q cats → Real.log (observedLikelihood Q cats.length row θ)
      = ∑ j ∈ answeredItems cats.length row, Real.log (Q θ j (responseOf (row j))) := by
    intro Q hQ
    rw [observedLikelihood, Real.log_prod, answeredItems, Finset.sum_filter]
    · refine Finset.sum_congr rfl fun j _ => ?_
      cases hm : cellMissing (row j) <;> simp
    · intro j hj
      cases hm : cellMissing (row j)
      · obtain ⟨c, r, h1, h2, h3⟩ := cell_valid hrow (Finset.mem_range.1 hj) hm
        simpa [h3] using (hQ θ j c r h1 h2).ne'
      · simp
  rw [hlog P hpos, hlog P' hpos', ← Finset.sum_sub_distrib]
  refine (Finset.abs_sum_le_sum_abs _ _).trans ?_
  rw [← nsmul_eq_mul, ← Finset.sum_const]
  refine Finset.sum_le_sum fun j hj => ?_
  rw [answeredItems, Finset.mem_filter, Finset.mem_range] at hj
  obtain ⟨c, r, h1, h2, h3⟩ := cell_valid hrow hj.1 hj.2
  rw [h3]
  exact hclose θ hθ j c r h1 h2

theorem bounds_of_log {x y t : ℝ} (hx : 0 < x) (hy : 0 < y) (h : |Real.log x - Real.log y| ≤ t) : Real.exp (-t) * x ≤ y ∧ y ≤ Real.exp t * x := by
  rw [abs_le] at h
  have ex := Real.exp_log hx
  have ey := Real.exp_log hy
  constructor
  · calc Real.exp (-t) * x = Real.exp (-t + Real.log x) := by rw [Real.exp_add, ex]
      _ ≤ Real.exp (Real.log y) := Real.exp_le_exp.2 (by linarith)
      _ = y := ey
  · calc y = Real.exp (Real.log y) := ey.symm
      _ ≤ Real.exp (t + Real.log x) := Real.exp_le_exp.2 (by linarith)
      _ = Real.exp t * x := by rw [Real.exp_add, ex]

/-- C146: two models whose log probabilities differ by at most `δ` at the points of the grid. The EAP scores of a respondent with `n` answers
differ by at most `1 - exp (-2 n δ)` times the range of the grid. -/
theorem C146_models {m m' : Scorer d} (hm : IsScorer m cats P) (hm' : IsScorer m' cats P') (hpos : PositiveProbs P cats)
    (hpos' : PositiveProbs P' cats) (a : AlgAttrs d) (hd : d ≤ 4) (points : Option ℕ) (grid : Thetas d) (hg : grid ≠ [])
    (cov : Matrix (Fin d) (Fin d) ℝ) (hcov : cov.PosDef) (hgrid : eapGrid a (points.getD (eapDefaultPoints d)) = .ok (grid, cov))
    (δ : ℝ) (hclose : CloseOn grid cats P P' δ) (row : ℕ → Cell) (hrow : ValidResponses cats row) :
    ∃ e e' : Fin d → ℝ, eapScores m a (rowsOf 1 cats.length fun _ => row) points = .ok [some e] ∧
      eapScores m' a (rowsOf 1 cats.length fun _ => row) points = .ok [some e'] ∧
      ∀ k lo hi, (∀ θ ∈ grid, lo ≤ θ k ∧ θ k ≤ hi) →
        |e k - e' k| ≤ (1 - Real.exp (-(2 * (answeredItems cats.length row).card * δ))) * (hi - lo) := by
  refine ⟨_, _, (eapOf_run hm hpos a hd points grid hg cov hcov hgrid row hrow).2,
    (eapOf_run hm' hpos' a hd points grid hg cov hcov hgrid row hrow).2, fun k lo hi hb => ?_⟩
  set n : ℝ := ((answeredItems cats.length row).card : ℝ) with hn
  have hb2 := fun θ (hθ : θ ∈ grid) => bounds_of_log (observedLikelihood_pos hpos _ hrow θ) (observedLikelihood_pos hpos' _ hrow θ)
    (observedLikelihood_close hpos hpos' hclose row hrow hθ)
  have key := grid_mean_close grid (fun θ => Real.exp (mvnLogDensity 0 cov θ) * observedLikelihood P cats.length row θ)
    (fun θ => Real.exp (mvnLogDensity 0 cov θ) * observedLikelihood P' cats.length row θ) (fun θ => θ k) (Real.exp (-(n * δ)))
    (Real.exp (n * δ)) lo hi hg (Real.exp_pos _) (fun θ _ => mul_pos (Real.exp_pos _) (observedLikelihood_pos hpos _ hrow θ))
    (fun θ hθ => by
      rw [mul_left_comm]
      exact mul_le_mul_of_nonneg_left (hb2 θ hθ).1 (Real.exp_pos _).le)
    (fun θ hθ => by
      rw [mul_left_comm]
      exact mul_le_mul_of_nonneg_left (hb2 θ hθ).2 (Real.exp_pos _).le) hb
  rw [← Real.exp_sub, show -(n * δ) - n * δ = -(2 * n * δ) by ring] at key
  exact key

/-- The bound in other words: `2 n δ` times the range of the grid. -/
theorem C146_linear {n δ lo hi x : ℝ} (hl : lo ≤ hi) (h : |x| ≤ (1 - Real.exp (-(2 * n * δ))) * (hi - lo)) : |x| ≤ 2 * n * δ * (hi - lo) := by
  refine h.trans (mul_le_mul_of_nonneg_right ?_ (by linarith))
  linarith [Real.add_one_le_exp (-(2 * n * δ))]

/-! ## Logit models: errors of slopes and intercepts -/

theorem logitModel_close {A A' : ℕ → ℕ → Fin d → ℝ} {B B' : ℕ → ℕ → ℝ} (hl : LogitModel cats P A B) (hl' : LogitModel cats P' A' B')
    (grid : List (Fin d → ℝ)) (R α β : ℝ) (hR : ∀ θ ∈ grid, ∀ k, |θ k| ≤ R)
    (hA : ∀ j c r, cats[j]? = some c → r < c → ∀ k, |A j r k - A' j r k| ≤ α)
    (hB : ∀ j c r, cats[j]? = some c → r < c → |B j r - B' j r| ≤ β) : CloseOn grid cats P P' (2 * (d * (α * R) + β)) := by
  intro θ hθ j c r hc hr
  have hlog : ∀ (Q : (Fin d → ℝ) → ℕ → ℕ → ℝ) (A : ℕ → ℕ → Fin d → ℝ) (B : ℕ → ℕ → ℝ), LogitModel cats Q A B →
      Real.log (Q θ j r) = logProb ((List.range c).map fun s => ∑ k, A j s k * θ k + B j s) (∑ k, A j r k * θ k + B j r) := by
    intro Q A B h
    have hs : 0 < ∑ s ∈ Finset.range c, Real.exp (∑ k, A j s k * θ k + B j s) :=
      Finset.sum_pos (fun _ _ => Real.exp_pos _) ⟨r, Finset.mem_range.2 hr⟩
    rw [h θ j c r hc hr, Real.log_div (Real.exp_pos _).ne' hs.ne', Real.log_exp, logProb, List.map_map]
    rfl
  rw [hlog P A B hl, hlog P' A' B' hl']
  refine logProb_close (List.range c) (fun s => ∑ k, A j s k * θ k + B j s) (fun s => ∑ k, A' j s k * θ k + B' j s) _ (fun s hs => ?_) r
    (List.mem_range.2 hr)
  have hs' := List.mem_range.1 hs
  have e : ∑ k, A j s k * θ k + B j s - (∑ k, A' j s k * θ k + B' j s) = ∑ k, (A j s k - A' j s k) * θ k + (B j s - B' j s) := by
    simp only [sub_mul, Finset.sum_sub_distrib]
    ring
  rw [e]
  refine (abs_add_le _ _).trans (add_le_add ((Finset.abs_sum_le_sum_abs _ _).trans ?_) (hB j c s hc hs'))
  calc ∑ k, |(A j s k - A' j s k) * θ k| ≤ ∑ _k : Fin d, α * R := Finset.sum_le_sum fun k _ => by
        rw [abs_mul]
        exact mul_le_mul (hA j c s hc hs' k) (hR θ hθ k) (abs_nonneg _) ((abs_nonneg _).trans (hA j c s hc hs' k))
    _ = d * (α * R) := by simp

/-- C146 for 2PL models: slopes off by at most `α` and intercepts by at most `β`. -/
theorem C146_twoPL (m m' : TwoPL) (hwf : m.WF) (hwf' : m'.WF) (hitems : m'.items = m.items) (hne : 0 < m.items) (a : AlgAttrs d) (hd : d ≤ 4)
    (points : Option ℕ) (grid : Thetas d) (hg : grid ≠ []) (cov : Matrix (Fin d) (Fin d) ℝ) (hcov : cov.PosDef)
    (hgrid : eapGrid a (points.getD (eapDefaultPoints d)) = .ok (grid, cov)) (α β R : ℝ)
    (hpar : ∀ (j : ℕ) (w : List ℝ) (b : ℝ) (w' : List ℝ) (b' : ℝ), m.itemParameters[j]? = some (w, b) → m'.itemParameters[j]? = some (w', b') →
      (∀ k : Fin d, |w.getD k 0 - w'.getD k 0| ≤ α) ∧ |b - b'| ≤ β)
    (hR : ∀ θ ∈ grid, ∀ k, |θ k| ≤ R) (row : ℕ → Cell) (hrow : ValidResponses (List.replicate m.items 2) row) :
    ∃ e e' : Fin d → ℝ, eapScores (m.scorer d) a (rowsOf 1 m.items fun _ => row) points = .ok [some e] ∧
      eapScores (m'.scorer d) a (rowsOf 1 m.items fun _ => row) points = .ok [some e'] ∧
      ∀ k, |e k - e' k| ≤ (1 - Real.exp (-(4 * (answeredItems m.items row).card * (d * (α * R) + β)))) * (2 * R) := by
  have hp := fun j (hj : j < m.items) => m.exists_params hwf j hj
  have hp' := fun j (hj : j < m.items) => m'.exists_params hwf' j (hitems ▸ hj)
  have hs' := m'.isScorer hwf' (by omega) d
  have hpos' := m'.positive hwf' d
  have hl' := m'.logitModel hwf' d
  rw [hitems] at hs' hpos' hl'
  have hclose := logitModel_close (m.logitModel hwf d) hl' grid R α β hR (by
      intro j c r hc hr k
      obtain ⟨hj, rfl⟩ := replicate_getElem? _ _ _ _ hc
      obtain ⟨w, b, h⟩ := hp j hj
      obtain ⟨w', b', h'⟩ := hp' j hj
      have := (hpar j w b w' b' h h').1 k
      rw [slopeOf_eq _ _ _ _ h, slopeOf_eq _ _ _ _ h', ← mul_sub, abs_mul, Nat.abs_cast]
      have hr1 : (r : ℝ) ≤ 1 := by exact_mod_cast Nat.le_of_lt_succ hr
      nlinarith [abs_nonneg (w.getD (↑k) 0 - w'.getD (↑k) 0)]) (by
      intro j c r hc hr
      obtain ⟨hj, rfl⟩ := replicate_getElem? _ _ _ _ hc
      obtain ⟨w, b, h⟩ := hp j hj
      obtain ⟨w', b', h'⟩ := hp' j hj
      have := (hpar j w b w' b' h h').2
      rw [h, h', ← mul_sub, abs_mul, Nat.abs_cast]
      have hr1 : (r : ℝ) ≤ 1 := by exact_mod_cast Nat.le_of_lt_succ hr
      simp only [Option.map_some, Option.getD_some]
      nlinarith [abs_nonneg (b - b')])
  obtain ⟨e, e', h1, h2, h3⟩ := C146_models (m.isScorer hwf hne d) hs' (m.positive hwf d) hpos' a hd points grid hg cov hcov hgrid _ hclose
    row hrow
  rw [List.length_replicate] at h1 h2 h3
  refine ⟨e, e', h1, h2, fun k => ?_⟩
  have := h3 k (-R) R fun θ hθ => abs_le.1 (hR θ hθ k)
  refine this.trans (le_of_eq ?_)
  rw [show R - -R = 2 * R by ring]
  congr 4
  ring

/-- C146 for generalized partial credit models. -/
theorem C146_gpc (m m' : GPC) (hwf : m.WF) (hwf' : m'.WF) (hcats : m'.cats = m.cats) (hne : m.cats ≠ []) (a : AlgAttrs d) (hd : d ≤ 4)
    (points : Option ℕ) (grid : Thetas d) (hg : grid ≠ []) (cov : Matrix (Fin d) (Fin d) ℝ) (hcov : cov.PosDef)
    (hgrid : eapGrid a (points.getD (eapDefaultPoints d)) = .ok (grid, cov)) (α β R : ℝ) (M : ℕ) (hM : ∀ c ∈ m.cats, c ≤ M + 1) (hα : 0 ≤ α)
    (hpar : ∀ (j : ℕ) (w b w' b' : List ℝ), m.itemParameters[j]? = some (w, b) → m'.itemParameters[j]? = some (w', b') →
      (∀ k : Fin d, |w.getD k 0 - w'.getD k 0| ≤ α) ∧ ∀ r, |b.getD r 0 - b'.getD r 0| ≤ β)
    (hR : ∀ θ ∈ grid, ∀ k, |θ k| ≤ R) (row : ℕ → Cell) (hrow : ValidResponses m.cats row) :
    ∃ e e' : Fin d → ℝ, eapScores (m.scorer d) a (rowsOf 1 m.cats.length fun _ => row) points = .ok [some e] ∧
      eapScores (m'.scorer d) a (rowsOf 1 m.cats.length fun _ => row) points = .ok [some e'] ∧
      ∀ k, |e k - e' k| ≤ (1 - Real.exp (-(4 * (answeredItems m.cats.length row).card * (d * (M * α * R) + β)))) * (2 * R) := by
  have hs' := m'.isScorer hwf' (by rw [hcats]; exact hne) d
  have hpos' := m'.positive hwf' d
  have hl' := m'.logitModel hwf' d
  rw [hcats] at hs' hpos' hl'
  have hclose := logitModel_close (m.logitModel hwf d) hl' grid R (M * α) β hR (by
      intro j c r hc hr k
      have hj := lt_of_getElem?_some hc
      obtain ⟨w, b, h, -⟩ := m.exists_params j hj
      obtain ⟨w', b', h', -⟩ := m'.exists_params j (hcats ▸ hj)
      have := (hpar j w b w' b' h h').1 k
      rw [slopeOf_eq _ _ _ _ h, slopeOf_eq _ _ _ _ h', ← mul_sub, abs_mul, Nat.abs_cast]
      have hr1 : (r : ℝ) ≤ M := by exact_mod_cast (by have := hM c (List.mem_of_getElem? hc); omega : r ≤ M)
      exact mul_le_mul hr1 this (abs_nonneg _) (by positivity)) (by
      intro j c r hc hr
      have hj := lt_of_getElem?_some hc
      obtain ⟨w, b, h, -⟩ := m.exists_params j hj
      obtain ⟨w', b', h', -⟩ := m'.exists_params j (hcats ▸ hj)
      have := (hpar j w b w' b' h h').2 r
      rw [h, h']
      simpa using this)
  obtain ⟨e, e', h1, h2, h3⟩ := C146_models (m.isScorer hwf hne d) hs' (m.positive hwf d) hpos' a hd points grid hg cov hcov hgrid _ hclose
    row hrow
  refine ⟨e, e', h1, h2, fun k => ?_⟩
  have := h3 k (-R) R fun θ hθ => abs_le.1 (hR θ hθ k)
  refine this.trans (le_of_eq ?_)
  rw [show R - -R = 2 * R by ring]
  congr 4
  ring

/-! ## One answer -/

theorem observedLikelihood_one {row row' : ℕ → Cell} {j : ℕ} (hj : j < cats.length) (hrest : ∀ i, i ≠ j → row' i = row i) (θ : Fin d → ℝ) :
    observedLikelihood P cats.length row' θ * cellLik P j (row j) θ = observedLikelihood P cats.length row θ * cellLik P j (row' j) θ := by
  unfold observedLikelihood cellLik
  rw [← Finset.mul_prod_erase _ _ (Finset.mem_range.2 hj), ← Finset.mul_prod_erase _ _ (Finset.mem_range.2 hj)]
  rw [Finset.prod_congr rfl fun i hi => by rw [hrest i (Finset.ne_of_mem_erase hi)]]
  ring

theorem cellLik_pos (hpos : PositiveProbs P cats) {row : ℕ → Cell} (hrow : ValidResponses cats row) {j : ℕ} (hj : j < cats.length) (θ : Fin d → ℝ) :
    0 < cellLik P j (row j) θ := by
  unfold cellLik
  cases hm : cellMissing (row j)
  · obtain ⟨c, r, h1, h2, h3⟩ := cell_valid hrow hj hm
    simpa [h3] using hpos θ j c r h1 h2
  · simp

/-- C146: what one answer can do. Another answer to item `j`, or no answer, whose probability is between `c` and `C` times that of the old one
at all points of the grid moves the EAP scores by at most `1 - c / C` times the range of the grid. -/
theorem C146_one_answer {m : Scorer d} (hm : IsScorer m cats P) (hpos : PositiveProbs P cats) (a : AlgAttrs d) (hd : d ≤ 4)
    (points : Option ℕ) (grid : Thetas d) (hg : grid ≠ []) (cov : Matrix (Fin d) (Fin d) ℝ) (hcov : cov.PosDef)
    (hgrid : eapGrid a (points.getD (eapDefaultPoints d)) = .ok (grid, cov)) (row row' : ℕ → Cell) (hrow : ValidResponses cats row)
    (hrow' : ValidResponses cats row') (j : ℕ) (hj : j < cats.length) (hrest : ∀ i, i ≠ j → row' i = row i) (c C : ℝ) (hc : 0 < c)
    (h1 : ∀ θ ∈ grid, c * cellLik P j (row j) θ ≤ cellLik P j (row' j) θ)
    (h2 : ∀ θ ∈ grid, cellLik P j (row' j) θ ≤ C * cellLik P j (row j) θ) :
    ∃ e e' : Fin d → ℝ, eapScores m a (rowsOf 1 cats.length fun _ => row) points = .ok [some e] ∧
      eapScores m a (rowsOf 1 cats.length fun _ => row') points = .ok [some e'] ∧
      ∀ k lo hi, (∀ θ ∈ grid, lo ≤ θ k ∧ θ k ≤ hi) → |e k - e' k| ≤ (1 - c / C) * (hi - lo) := by
  refine ⟨_, _, (eapOf_run hm hpos a hd points grid hg cov hcov hgrid row hrow).2,
    (eapOf_run hm hpos a hd points grid hg cov hcov hgrid row' hrow').2, fun k lo hi hb => ?_⟩
  have hL := fun θ => observedLikelihood_pos hpos _ hrow θ
  have hc0 := fun θ => cellLik_pos hpos hrow hj θ
  have hone := fun θ => observedLikelihood_one (P := P) hj hrest θ
  refine grid_mean_close grid (fun θ => Real.exp (mvnLogDensity 0 cov θ) * observedLikelihood P cats.length row θ)
    (fun θ => Real.exp (mvnLogDensity 0 cov θ) * observedLikelihood P cats.length row' θ) (fun θ => θ k) c C lo hi hg hc
    (fun θ _ => mul_pos (Real.exp_pos _) (hL θ)) (fun θ hθ => ?_) (fun θ hθ => ?_) hb
  · rw [mul_left_comm]
    refine mul_le_mul_of_nonneg_left (le_of_mul_le_mul_right ?_ (hc0 θ)) (Real.exp_pos _).le
    rw [hone θ, mul_right_comm, mul_comm]
    exact mul_le_mul_of_nonneg_left (h1 θ hθ) (hL θ).le
  · rw [mul_left_comm]
    refine mul_le_mul_of_nonneg_left (le_of_mul_le_mul_right ?_ (hc0 θ)) (Real.exp_pos _).le
    rw [hone θ, mul_right_comm, mul_comm (C * _)]
    exact mul_le_mul_of_nonneg_left (h2 θ hθ) (hL θ).le

/-- C146: in a logit model (1PL, 2PL, generalized partial credit, nominal response) answering `r'` instead of `r` moves the EAP scores by at most
`1 - exp (-s)` times the range of the grid if the log odds of the two answers vary by at most `s` over the grid. -/
theorem C146_answer_logit {m : Scorer d} (hm : IsScorer m cats P) (hpos : PositiveProbs P cats) {A : ℕ → ℕ → Fin d → ℝ} {B : ℕ → ℕ → ℝ}
    (hl : LogitModel cats P A B) (a : AlgAttrs d) (hd : d ≤ 4)
    (points : Option ℕ) (grid : Thetas d) (hg : grid ≠ []) (cov : Matrix (Fin d) (Fin d) ℝ) (hcov : cov.PosDef)
    (hgrid : eapGrid a (points.getD (eapDefaultPoints d)) = .ok (grid, cov)) (row row' : ℕ → Cell) (hrow : ValidResponses cats row)
    (hrow' : ValidResponses cats row') (j : ℕ) (hj : j < cats.length) (hrest : ∀ i, i ≠ j → row' i = row i) (r r' : ℕ)
    (hr : row j = some (r : ℤ)) (hr' : row' j = some (r' : ℤ)) (s : ℝ)
    (hs : ∀ θ ∈ grid, ∀ θ' ∈ grid, ∑ k, (A j r' k - A j r k) * (θ k - θ' k) ≤ s) :
    ∃ e e' : Fin d → ℝ, eapScores m a (rowsOf 1 cats.length fun _ => row) points = .ok [some e] ∧
      eapScores m a (rowsOf 1 cats.length fun _ => row') points = .ok [some e'] ∧
      ∀ k lo hi, (∀ θ ∈ grid, lo ≤ θ k ∧ θ k ≤ hi) → |e k - e' k| ≤ (1 - Real.exp (-s)) * (hi - lo) := by
  have hm0 : ∀ n : ℕ, cellMissing (some (n : ℤ)) = false := by intro n; simp [cellMissing]
  have valid : ∀ (y : ℕ → Cell) (n : ℕ), ValidResponses cats y → y j = some (n : ℤ) → n < cats[j] := by
    intro y n hy hn
    obtain ⟨q, h1, h2⟩ := hy j cats[j] (by simp [hj]) (by rw [hn]; exact hm0 n)
    rw [hn] at h1
    have : n = q := by exact_mod_cast Option.some.inj h1
    omega
  have v1 := valid row r hrow hr
  have v2 := valid row' r' hrow' hr'
  set Z : (Fin d → ℝ) → ℝ := fun θ => ∑ k, (A j r' k - A j r k) * θ k + (B j r' - B j r) with hZ
  have ratio : ∀ θ, cellLik P j (row' j) θ = Real.exp (Z θ) * cellLik P j (row j) θ := by
    intro θ
    unfold cellLik
    rw [hr, hr', hm0, hm0]
    simp only [Bool.false_eq_true, if_false, responseOf, Int.toNat_natCast]
    rw [hl θ j cats[j] r (by simp [hj]) v1, hl θ j cats[j] r' (by simp [hj]) v2, ← mul_div_assoc, ← Real.exp_add]
    congr 2
    simp only [hZ, sub_mul, Finset.sum_sub_distrib]
    ring
  obtain ⟨θ0, h0, hmin⟩ := Finset.exists_min_image grid.toFinset Z (by
    obtain ⟨θ, h⟩ := List.exists_mem_of_ne_nil grid hg
    exact ⟨θ, List.mem_toFinset.2 h⟩)
  rw [List.mem_toFinset] at h0
  obtain ⟨e, e', g1, g2, g3⟩ := C146_one_answer hm hpos a hd points grid hg cov hcov hgrid row row' hrow hrow' j hj hrest (Real.exp (Z θ0))
    (Real.exp (Z θ0 + s)) (Real.exp_pos _) (fun θ hθ => by
      rw [ratio θ]
      exact mul_le_mul_of_nonneg_right (Real.exp_le_exp.2 (hmin θ (List.mem_toFinset.2 hθ))) (cellLik_pos hpos hrow hj θ).le)
    (fun θ hθ => by
      rw [ratio θ]
      refine mul_le_mul_of_nonneg_right (Real.exp_le_exp.2 ?_) (cellLik_pos hpos hrow hj θ).le
      have := hs θ hθ θ0 h0
      simp only [mul_sub, Finset.sum_sub_distrib] at this
      simp only [hZ]
      linarith)
  refine ⟨e, e', g1, g2, fun k lo hi hb => ?_⟩
  have := g3 k lo hi hb
  rwa [← Real.exp_sub, show Z θ0 - (Z θ0 + s) = -s by ring] at this

/-- C146 for one item of a 2PL model with one latent variable: a right answer instead of a wrong one, with the reported slope `w`. -/
theorem C146_answer_twoPL (m : TwoPL) (hwf : m.WF) (hne : 0 < m.items) (a : AlgAttrs 1) (points : Option ℕ) (grid : Thetas 1) (hg : grid ≠ [])
    (cov : Matrix (Fin 1) (Fin 1) ℝ) (hcov : cov.PosDef) (hgrid : eapGrid a (points.getD (eapDefaultPoints 1)) = .ok (grid, cov))
    (row row' : ℕ → Cell) (hrow : ValidResponses (List.replicate m.items 2) row) (hrow' : ValidResponses (List.replicate m.items 2) row')
    (j : ℕ) (hj : j < m.items) (hrest : ∀ i, i ≠ j → row' i = row i) (hr : row j = some 0) (hr' : row' j = some 1) (w : List ℝ) (b : ℝ)
    (hw : m.itemParameters[j]? = some (w, b)) (lo hi : ℝ) (hb : ∀ θ ∈ grid, lo ≤ θ 0 ∧ θ 0 ≤ hi) :
    ∃ e e' : Fin 1 → ℝ, eapScores (m.scorer 1) a (rowsOf 1 m.items fun _ => row) points = .ok [some e] ∧
      eapScores (m.scorer 1) a (rowsOf 1 m.items fun _ => row') points = .ok [some e'] ∧
      |e 0 - e' 0| ≤ (1 - Real.exp (-(|w.getD 0 0| * (hi - lo)))) * (hi - lo) := by
  obtain ⟨e, e', h1, h2, h3⟩ := C146_answer_logit (m.isScorer hwf hne 1) (m.positive hwf 1) (m.logitModel hwf 1) a (by norm_num) points grid hg cov
    hcov hgrid row row' hrow hrow' j (by simpa using hj) hrest 0 1 (by simpa using hr) (by simpa using hr') (|w.getD 0 0| * (hi - lo)) (by
      intro θ hθ θ' hθ'
      simp only [Fin.sum_univ_one, slopeOf_eq _ _ _ _ hw, Nat.cast_one, one_mul, Nat.cast_zero, zero_mul, sub_zero, Fin.val_zero]
      have b1 := hb θ hθ
      have b2 := hb θ' hθ'
      calc w.getD 0 0 * (θ 0 - θ' 0) ≤ |w.getD 0 0| * |θ 0 - θ' 0| := by rw [← abs_mul]; exact le_abs_self _
        _ ≤ |w.getD 0 0| * (hi - lo) := mul_le_mul_of_nonneg_left (abs_le.2 ⟨by linarith, by linarith⟩) (abs_nonneg _))
  rw [List.length_replicate] at h1 h2
  exact ⟨e, e', h1, h2, h3 0 lo hi hb⟩

/-! ## Marginal likelihood -/

theorem weighted_le (pts : Thetas d) (w : List ℝ) (hw : ∀ x ∈ w, 0 < x) (f g : (Fin d → ℝ) → ℝ) (C : ℝ) (h : ∀ θ ∈ pts, g θ ≤ C * f θ) :
    weighted pts w g ≤ C * weighted pts w f := by
  unfold weighted
  induction pts generalizing w with
  | nil => simp
  | cons p pts ih =>
    cases w with
    | nil => simp
    | cons x w =>
      simp only [List.zipWith_cons_cons, List.sum_cons, mul_add]
      refine add_le_add ?_ (ih w (fun y hy => hw y (List.mem_cons_of_mem _ hy)) fun θ hθ => h θ (List.mem_cons_of_mem _ hθ))
      rw [mul_left_comm]
      exact mul_le_mul_of_nonneg_left (h p List.mem_cons_self) (hw x List.mem_cons_self).le

theorem weighted_positive (pts : Thetas d) (w : List ℝ) (hlen : w.length = pts.length) (hne : pts ≠ []) (hw : ∀ x ∈ w, 0 < x) (f : (Fin d → ℝ) → ℝ)
    (hf : ∀ θ, 0 < f θ) : 0 < weighted pts w f := by
  unfold weighted
  cases pts with
  | nil => exact absurd rfl hne
  | cons p pts =>
    cases w with
    | nil => simp at hlen
    | cons x w =>
      simp only [List.zipWith_cons_cons, List.sum_cons]
      refine add_pos_of_pos_of_nonneg (mul_pos (hw x List.mem_cons_self) (hf p)) (List.sum_nonneg fun z hz => ?_)
      rw [← List.map_uncurry_zip_eq_zipWith] at hz
      obtain ⟨⟨q, y⟩, hq, rfl⟩ := List.mem_map.1 hz
      exact (mul_pos (hw y (List.mem_cons_of_mem _ (List.of_mem_zip hq).2)) (hf q)).le

/-- C146: the loss of marginal maximum likelihood of two models that are close at the integration points differs by at most `δ` per answer. -/
theorem C146_marginal {m m' : Scorer d} (hm : IsScorer m cats P) (hm' : IsScorer m' cats P') (hpos : PositiveProbs P cats)
    (hpos' : PositiveProbs P' cats) (N : ℕ) (y : ℕ → ℕ → Cell) (hy : ∀ i, i < N → ValidResponses cats (y i)) (pts : Thetas d) (lw : List ℝ)
    (hlen : lw.length = pts.length) (hne : pts ≠ []) (δ : ℝ) (hclose : CloseOn pts cats P P' δ) :
    ∃ l l', mmlLoss m (rowsOf N cats.length y) pts lw = .ok (some l) ∧ mmlLoss m' (rowsOf N cats.length y) pts lw = .ok (some l') ∧
      |l - l'| ≤ (∑ i ∈ Finset.range N, (answeredItems cats.length (y i)).card) * δ := by
  refine ⟨_, _, mmlLoss_weighted hm hpos N y hy pts lw hlen hne, mmlLoss_weighted hm' hpos' N y hy pts lw hlen hne, ?_⟩
  rw [neg_sub_neg, ← Finset.sum_sub_distrib]
  refine (Finset.abs_sum_le_sum_abs _ _).trans ?_
  rw [Nat.cast_sum, Finset.sum_mul]
  refine Finset.sum_le_sum fun i hi => ?_
  have hyi := hy i (Finset.mem_range.1 hi)
  have hw : ∀ x ∈ lw.map Real.exp, 0 < x := by
    intro x hx
    obtain ⟨z, -, rfl⟩ := List.mem_map.1 hx
    exact Real.exp_pos z
  have w1 := weighted_positive pts (lw.map Real.exp) (by simpa using hlen) hne hw _ (observedLikelihood_pos hpos _ hyi)
  have w2 := weighted_positive pts (lw.map Real.exp) (by simpa using hlen) hne hw _ (observedLikelihood_pos hpos' _ hyi)
  have hb := fun θ (hθ : θ ∈ pts) => bounds_of_log (observedLikelihood_pos hpos _ hyi θ) (observedLikelihood_pos hpos' _ hyi θ)
    (observedLikelihood_close hpos hpos' hclose (y i) hyi hθ)
  have b1 := weighted_le pts (lw.map Real.exp) hw _ _ _ fun θ hθ => (hb θ hθ).2
  have b2 := weighted_le pts (lw.map Real.exp) hw (observedLikelihood P' cats.length (y i)) (observedLikelihood P cats.length (y i))
    (Real.exp ((answeredItems cats.length (y i)).card * δ)) fun θ hθ => by
      have := (hb θ hθ).1
      rwa [Real.exp_neg, inv_mul_le_iff₀ (Real.exp_pos _)] at this
  have l1 := Real.log_le_log w2 b1
  have l2 := Real.log_le_log w1 b2
  rw [Real.log_mul (Real.exp_pos _).ne' w1.ne', Real.log_exp] at l1
  rw [Real.log_mul (Real.exp_pos _).ne' w2.ne', Real.log_exp] at l2
  rw [abs_le]
  constructor <;> linarith

/-! ## The hypotheses are met -/

noncomputable def exOneSlope (w : ℝ) : TwoPL := { items := 1, lv := 1, rel := [[true]], weight := [w], bias := [0] }

theorem exOneSlope_wf (w : ℝ) : (exOneSlope w).WF := ⟨by simp [exOneSlope], by simp [exOneSlope], by simp [exOneSlope, countTrue], by simp [exOneSlope]⟩

theorem exOneSlope_params (w : ℝ) : (exOneSlope w).itemParameters[0]? = some ([w], 0) := by
  simp [exOneSlope, TwoPL.itemParameters, TwoPL.weights, scatterMask, viewRows]

theorem exOneSlope_row (r : ℕ) (hr : r < 2) : ValidResponses (List.replicate 1 2) fun _ => some (r : ℤ) := by
  intro j c hc _
  obtain ⟨_, rfl⟩ := replicate_getElem? _ _ _ _ hc
  exact ⟨r, rfl, hr⟩

theorem exSeven_ne : (cartesianProd fun _ => linspace (-3) 3 7 : Thetas 1) ≠ [] := by
  intro h
  have := length_cartesianProd (fun _ : Fin 1 => linspace (-3) 3 7) 7 fun _ => length_linspace _ _ _
  rw [h] at this
  simp at this

theorem exSeven_range (θ : Fin 1 → ℝ) (hθ : θ ∈ (cartesianProd fun _ => linspace (-3) 3 7 : Thetas 1)) (k : Fin 1) : -3 ≤ θ k ∧ θ k ≤ 3 := by
  obtain ⟨i, hi, h⟩ := (mem_linspace _ _ _ _).1 ((mem_cartesianProd _ _).1 hθ k)
  have h0 : (0 : ℝ) ≤ i := Nat.cast_nonneg i
  have h1 : (i : ℝ) ≤ 6 := by exact_mod_cast Nat.le_of_lt_succ hi
  have e : θ k = -3 + i := by rw [h]; push_cast; ring
  constructor <;> linarith

/-- A slope that is off by 1/100, a new model (grid from -3 to 3), one right answer: the EAP score is off by at most 18/25. -/
example : ∃ e e' : Fin 1 → ℝ, eapScores ((exOneSlope 1).scorer 1) {} (rowsOf 1 1 fun _ _ => some 1) (some 7) = .ok [some e] ∧
    eapScores ((exOneSlope (101 / 100)).scorer 1) {} (rowsOf 1 1 fun _ _ => some 1) (some 7) = .ok [some e'] ∧ |e 0 - e' 0| ≤ 18 / 25 := by
  obtain ⟨e, e', h1, h2, h3⟩ := C146_twoPL (d := 1) (exOneSlope 1) (exOneSlope (101 / 100)) (exOneSlope_wf _) (exOneSlope_wf _) rfl (by simp [exOneSlope]) {}
    (by norm_num) (some 7) (cartesianProd fun _ => linspace (-3) 3 7) exSeven_ne 1 Matrix.PosDef.one rfl (1 / 100) 0 3 (by
      intro j w b w' b' h h'
      have hj : j = 0 := by
        have := lt_of_getElem?_some h
        simp [exOneSlope, TwoPL.itemParameters] at this
        omega
      subst hj
      rw [exOneSlope_params] at h h'
      cases h
      cases h'
      norm_num) (fun θ hθ k => abs_le.2 (exSeven_range θ hθ k)) (fun _ => some 1) (exOneSlope_row 1 (by norm_num))
  refine ⟨e, e', h1, h2, (C146_linear (n := 1) (δ := 2 * (1 / 100 * 3)) (lo := -3) (hi := 3) (by norm_num) ?_).trans (by norm_num)⟩
  refine (h3 0).trans (le_of_eq ?_)
  have : (answeredItems (exOneSlope 1).items fun _ => some 1).card = 1 := by simp [answeredItems, exOneSlope, cellMissing]
  rw [this]
  norm_num

/-- An item with slope 1/100: a right answer instead of a wrong one moves the score by at most 9/25. -/
example : ∃ e e' : Fin 1 → ℝ, eapScores ((exOneSlope (1 / 100)).scorer 1) {} (rowsOf 1 1 fun _ _ => some 0) (some 7) = .ok [some e] ∧
    eapScores ((exOneSlope (1 / 100)).scorer 1) {} (rowsOf 1 1 fun _ j => if j = 0 then some 1 else some 0) (some 7) = .ok [some e'] ∧
    |e 0 - e' 0| ≤ 9 / 25 := by
  obtain ⟨e, e', h1, h2, h3⟩ := C146_answer_twoPL (exOneSlope (1 / 100)) (exOneSlope_wf _) (by simp [exOneSlope]) {} (some 7)
    (cartesianProd fun _ => linspace (-3) 3 7) exSeven_ne 1 Matrix.PosDef.one rfl (fun _ => some 0) (fun j => if j = 0 then some 1 else some 0)
    (exOneSlope_row 0 (by norm_num)) (by
      intro j c hc _
      obtain ⟨hj, rfl⟩ := replicate_getElem? _ _ _ _ hc
      have : j = 0 := by simp [exOneSlope] at hj; exact hj
      exact ⟨1, by simp [this], by norm_num⟩) 0 (by simp [exOneSlope]) (fun i hi => by simp [hi]) rfl (by simp) _ _ (exOneSlope_params _) (-3) 3
    (fun θ hθ => exSeven_range θ hθ 0)
  refine ⟨e, e', h1, h2, h3.trans ?_⟩
  have := Real.add_one_le_exp (-(|([1 / 100] : List ℝ).getD 0 0| * (3 - -3)))
  norm_num [abs_of_pos] at this ⊢
  linarith

end Irt
