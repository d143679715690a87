import Verif.Model.Underflow
import Verif.Spec.Underflow
import Verif.Props.Scoring
import Verif.Props.VAE
import Mathlib.Analysis.SpecialFunctions.Log.Basic

/-!
# Lemmas about the rounded exponential
-/

namespace Irt

open Spec

theorem expWith_eq (E : ℝ → ℝ) {d : ℕ} {P : (Fin d → ℝ) → ℕ → ℕ → ℝ} (hP : ∀ θ j r, 0 ≤ P θ j r) (items : ℕ)
    (cov : Matrix (Fin d) (Fin d) ℝ) (row : ℕ → Cell) (θ : Fin d → ℝ) :
    (Logit.add (.fin (mvnLogDensity 0 cov θ)) (logLikAt P items row θ)).expWith E = roundedWeight E P items cov row θ := by
  rw [logit_of_exp _ _ (exp_logLikAt P hP items row θ)]
  unfold logE roundedWeight logPosterior
  split <;> rfl

/-- The scores of `eapOnGridWith` in closed form. -/
theorem eapOnGridWith_eq (E : ℝ → ℝ) {d : ℕ} {m : Scorer d} {cats : List ℕ} {P : (Fin d → ℝ) → ℕ → ℕ → ℝ}
    (hm : IsScorer m cats P) (N : ℕ) (y : ℕ → ℕ → Cell) (hy : ∀ i, i < N → ValidResponses cats (y i))
    (grid : Thetas d) (hg : grid ≠ []) (cov : Matrix (Fin d) (Fin d) ℝ) (hcov : cov.PosDef) :
    eapOnGridWith E m (rowsOf N m.items y) grid cov = .ok ((List.range N).map fun i =>
      if (grid.map (roundedWeight E P m.items cov (y i))).sum = 0 then none
      else some (weightedMean (roundedWeight E P m.items cov (y i)) grid)) := by
  have hN : (rowsOf N m.items y).length = N := by simp [rowsOf]
  have hG : 0 < grid.length := List.length_pos_iff.2 hg
  set G := grid.length with hGd
  set th : ℕ → Fin d → ℝ := fun g => grid.getD g 0 with hth
  have hgrid : grid = (List.range G).map th := grid_eq grid
  have e0 : mvnLogProbs 0 cov grid = .ok ((List.range G).map fun g => mvnLogDensity 0 cov (th g)) := by
    unfold mvnLogProbs
    rw [if_pos hcov]
    conv_lhs => rw [hgrid, List.map_map]
    rfl
  have hw : ∀ i g, (Logit.add (.fin (mvnLogDensity 0 cov (th g))) (logLikAt P m.items (y i) (th g))).expWith E
      = roundedWeight E P m.items cov (y i) (th g) := by
    intro i g
    exact expWith_eq E hm.nonneg _ _ _ _
  have hsum : ∀ i, (grid.map (roundedWeight E P m.items cov (y i))).sum
      = ((List.range G).map fun g => roundedWeight E P m.items cov (y i) (th g)).sum := by
    intro i
    conv_lhs => rw [hgrid, List.map_map]
    rfl
  unfold eapOnGridWith
  rw [e0, respondentMajorLL_eq hm N y hy grid]
  simp only [bind, Except.bind, hN]
  rw [if_neg (by omega)]
  rw [tile_range, ← hGd, zipWith_flatTensor, view_flatTensor _ _ hG]
  have e3 : ((rowsOf N G fun i g => Logit.add (.fin (mvnLogDensity 0 cov (th g)))
        (logLikAt P m.items (y i) (th g))).map fun r => r.map (Logit.expWith E))
      = rowsOf N G fun i g => roundedWeight E P m.items cov (y i) (th g) := by
    simp only [rowsOf, List.map_map, Function.comp_def, hw]
  rw [e3]
  have e4 : ((rowsOf N G fun i g => roundedWeight E P m.items cov (y i) (th g)).map fun r =>
        r.map fun e => nanDiv e r.sum).flatten
      = flatTensor N G fun i g => nanDiv (roundedWeight E P m.items cov (y i) (th g))
          (grid.map (roundedWeight E P m.items cov (y i))).sum := by
    rw [← rowsOf_flatten]
    congr 1
    simp only [rowsOf, List.map_map, Function.comp_def, hsum]
  rw [e4]
  have e5 : tile N grid = flatTensor N G fun _ g => th g := by
    conv_lhs => rw [hgrid]
    exact tile_range N G th
  rw [e5, zipWith_flatTensor, view_flatTensor _ _ hG]
  simp only [rowsOf, List.map_map, pure, Except.pure]
  congr 1
  apply List.map_congr_left
  intro i _
  simp only [Function.comp]
  by_cases hz : (grid.map (roundedWeight E P m.items cov (y i))).sum = 0
  · rw [if_pos hz]
    obtain ⟨n, hn⟩ : ∃ n, G = n + 1 := ⟨G - 1, by omega⟩
    rw [hn, List.range_succ_eq_map]
    simp [nanDiv, hz]
  · rw [if_neg hz]
    rw [mapM_some _ ((List.range G).map fun g => fun k => th g k *
      (roundedWeight E P m.items cov (y i) (th g) / (grid.map (roundedWeight E P m.items cov (y i))).sum)) (by
        rw [List.map_map]
        apply List.map_congr_left
        intro g _
        simp [nanDiv, hz])]
    simp only [Option.map_some, Option.some.injEq]
    funext k
    rw [sum_pi, List.map_map]
    simp only [weightedMean, Function.comp_def]
    conv_rhs => rw [show (grid.map fun θ => roundedWeight E P m.items cov (y i) θ * θ k)
      = (List.range G).map fun g => roundedWeight E P m.items cov (y i) (th g) * th g k from by
        conv_lhs => rw [hgrid, List.map_map]
        rfl]
    generalize (grid.map (roundedWeight E P m.items cov (y i))).sum = s
    rw [div_eq_mul_inv, ← List.sum_map_mul_right]
    congr 1
    apply List.map_congr_left
    intro g _
    rw [div_eq_mul_inv]; ring

theorem Spec.FloatExp.nonneg {E : ℝ → ℝ} {u v ε : ℝ} (h : FloatExp E u v ε) (x : ℝ) : 0 ≤ E x := by
  rcases lt_or_ge x u with hu | hu
  · exact (h.under x hu).ge
  · rcases lt_or_ge x v with hv | hv
    · exact (h.subnormal x hu hv).1.le
    · have h1 := abs_le.1 (h.normal x hv)
      nlinarith [Real.exp_pos x, h.small]

theorem Spec.FloatExp.pos_iff {E : ℝ → ℝ} {u v ε : ℝ} (h : FloatExp E u v ε) (x : ℝ) : 0 < E x ↔ u ≤ x := by
  constructor
  · intro hx
    by_contra hu
    rw [h.under x (not_le.1 hu)] at hx
    exact lt_irrefl _ hx
  · intro hu
    rcases lt_or_ge x v with hv | hv
    · exact (h.subnormal x hu hv).1
    · have h1 := abs_le.1 (h.normal x hv)
      nlinarith [Real.exp_pos x, h.small]

/-- The error of the exponential: relative above `v`, absolute below. -/
theorem Spec.FloatExp.error {E : ℝ → ℝ} {u v ε : ℝ} (h : FloatExp E u v ε) (x : ℝ) :
    |E x - Real.exp x| ≤ ε * Real.exp x + Real.exp v := by
  have hε := mul_nonneg h.err (Real.exp_pos x).le
  rcases lt_or_ge x v with hv | hv
  · have hx : Real.exp x ≤ Real.exp v := Real.exp_le_exp.2 hv.le
    rcases lt_or_ge x u with hu | hu
    · rw [h.under x hu, zero_sub, abs_neg, abs_of_pos (Real.exp_pos x)]
      linarith
    · obtain ⟨h1, h2⟩ := h.subnormal x hu hv
      rw [abs_le]
      constructor <;> linarith
  · exact (h.normal x hv).trans (by linarith [Real.exp_pos v])

theorem log_sub_le {a b : ℝ} (ha : 1 ≤ a) (hb : 1 ≤ b) : |Real.log a - Real.log b| ≤ |a - b| := by
  have key : ∀ a b : ℝ, 1 ≤ a → 1 ≤ b → Real.log a - Real.log b ≤ |a - b| := by
    intro a b ha hb
    have hb0 : (0 : ℝ) < b := by linarith
    rw [← Real.log_div (by linarith) hb0.ne']
    have h1 := Real.log_le_sub_one_of_pos (show 0 < a / b by positivity)
    have h2 : a / b - 1 = (a - b) / b := by field_simp
    rw [h2] at h1
    refine h1.trans ((le_abs_self _).trans ?_)
    rw [abs_div, abs_of_pos hb0]
    exact div_le_self (abs_nonneg _) hb
  rw [abs_le]
  constructor
  · have := key b a hb ha
    rw [abs_sub_comm] at this
    linarith
  · exact key a b ha hb

theorem abs_sum_sub_le {α : Type*} (l : List α) (f g : α → ℝ) (η : ℝ) (h : ∀ x ∈ l, |f x - g x| ≤ η) :
    |(l.map f).sum - (l.map g).sum| ≤ l.length * η := by
  induction l with
  | nil => simp
  | cons a t ih =>
    have h1 := h a (by simp)
    have h2 := ih fun x hx => h x (by simp [hx])
    simp only [List.map_cons, List.sum_cons, List.length_cons, Nat.cast_add, Nat.cast_one]
    have e : f a + (t.map f).sum - (g a + (t.map g).sum) = (f a - g a) + ((t.map f).sum - (t.map g).sum) := by ring
    rw [e]
    refine (abs_add_le _ _).trans ?_
    linarith

/-- The log of the sum of a column is a number exactly when it is one in exact arithmetic, and the difference is at most
the number of points times the error of the exponential below zero. -/
theorem shiftedLogSumExpWith_close {E : ℝ → ℝ} {u v ε : ℝ} (h : FloatExp E u v ε) (col : List Logit) :
    (shiftedLogSumExpWith E col = none ∧ shiftedLogSumExp col = none) ∨
      ∃ a b, shiftedLogSumExpWith E col = some a ∧ shiftedLogSumExp col = some b ∧
        |a - b| ≤ col.length * (ε + Real.exp v) := by
  unfold shiftedLogSumExpWith shiftedLogSumExp
  have hlen : (col.filterMap Logit.finite?).length ≤ col.length := List.length_filterMap_le _ _
  generalize col.filterMap Logit.finite? = xs at hlen
  by_cases hx : xs = []
  · left; simp [hx]
  · right
    simp only [hx, if_false]
    refine ⟨_, _, rfl, rfl, ?_⟩
    obtain ⟨hc, hmax⟩ := columnMax_isGreatest xs hx
    have one_le : ∀ F : ℝ → ℝ, (∀ x, 0 ≤ F x) → F 0 = 1 → 1 ≤ (xs.map fun x => F (x - columnMax xs)).sum := by
      intro F hF h0
      have hmem : F (columnMax xs - columnMax xs) ∈ xs.map fun x => F (x - columnMax xs) :=
        List.mem_map.2 ⟨_, hc, rfl⟩
      have := List.single_le_sum (l := xs.map fun x => F (x - columnMax xs)) (by
        intro y hy
        obtain ⟨x, _, rfl⟩ := List.mem_map.1 hy
        exact hF _) _ hmem
      rwa [sub_self, h0] at this
    rw [add_sub_add_right_eq_sub]
    refine (log_sub_le (one_le E h.nonneg h.zero) (one_le Real.exp (fun x => (Real.exp_pos x).le) Real.exp_zero)).trans ?_
    refine (abs_sum_sub_le xs _ _ (ε + Real.exp v) ?_).trans ?_
    · intro x hxm
      refine (h.error _).trans ?_
      have : Real.exp (x - columnMax xs) ≤ 1 := Real.exp_le_one_iff.2 (by linarith [hmax hxm])
      nlinarith [h.err]
    · have : ((xs.length : ℕ) : ℝ) ≤ col.length := by exact_mod_cast hlen
      exact mul_le_mul_of_nonneg_right this (add_nonneg h.err (Real.exp_pos _).le)

/-- Two weighted means with close weights. -/
theorem weightedMean_close {d : ℕ} (a b : (Fin d → ℝ) → ℝ) (grid : List (Fin d → ℝ)) (ha : ∀ θ ∈ grid, 0 ≤ a θ)
    (hA : 0 < (grid.map a).sum) (hB : 0 < (grid.map b).sum) (k : Fin d) (R : ℝ) (hR : ∀ θ ∈ grid, |θ k| ≤ R) (e : ℝ)
    (he : (grid.map fun θ => |b θ - a θ|).sum ≤ e) :
    |weightedMean b grid k - weightedMean a grid k| ≤ 2 * R * e / (grid.map b).sum := by
  have hm := weightedMean_mem a grid ha hA.ne' k (-R) R fun θ hθ => abs_le.1 (hR θ hθ)
  have hma : (grid.map fun θ => a θ * θ k).sum = weightedMean a grid k * (grid.map a).sum := by
    unfold weightedMean; field_simp
  generalize hμ : weightedMean a grid k = μ at hm hma ⊢
  have hid : weightedMean b grid k - μ = (grid.map fun θ => (b θ - a θ) * (θ k - μ)).sum / (grid.map b).sum := by
    have h1 : (grid.map fun θ => (b θ - a θ) * (θ k - μ)).sum
        = (grid.map fun θ => b θ * θ k).sum - μ * (grid.map b).sum := by
      have h2 : (grid.map fun θ => (b θ - a θ) * (θ k - μ)).sum
          = (grid.map fun θ => b θ * θ k).sum - (grid.map fun θ => a θ * θ k).sum
            - μ * (grid.map b).sum + μ * (grid.map a).sum := by
        clear hμ hma hm he hB hA hR ha
        induction grid with
        | nil => simp
        | cons x t ih =>
          simp only [List.map_cons, List.sum_cons]
          rw [ih]; ring
      rw [h2, hma]; ring
    rw [h1]
    unfold weightedMean
    field_simp
  rw [hid, abs_div, abs_of_pos hB]
  apply div_le_div_of_nonneg_right _ hB.le
  have hR0 : ∀ θ ∈ grid, |θ k - μ| ≤ 2 * R := by
    intro θ hθ
    have := abs_le.1 (hR θ hθ)
    rw [abs_le]; constructor <;> linarith
  have step : |(grid.map fun θ => (b θ - a θ) * (θ k - μ)).sum| ≤ 2 * R * (grid.map fun θ => |b θ - a θ|).sum := by
    clear hμ hid hma hm he hB hA hR ha
    induction grid with
    | nil => simp
    | cons x t ih =>
      simp only [List.map_cons, List.sum_cons]
      refine (abs_add_le _ _).trans ?_
      have h1 := ih fun θ hθ => hR0 θ (by simp [hθ])
      have h2 := hR0 x (by simp)
      rw [abs_mul]
      have h3 := mul_le_mul_of_nonneg_left h2 (abs_nonneg (b x - a x))
      nlinarith
  refine step.trans ?_
  have : 0 ≤ 2 * R := by
    obtain ⟨θ, hθ⟩ : ∃ θ, θ ∈ grid := by
      by_contra hno
      push Not at hno
      have : grid = [] := List.eq_nil_iff_forall_not_mem.2 hno
      rw [this] at hA
      simp at hA
    exact (abs_nonneg _).trans (hR0 θ hθ)
  exact mul_le_mul_of_nonneg_left he this

end Irt
