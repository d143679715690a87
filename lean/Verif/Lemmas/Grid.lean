import Verif.Lemmas.Scoring
import Verif.Lemmas.Density
import Mathlib.Analysis.BoxIntegral.UnitPartition
import Mathlib.Analysis.Convex.Measure

/-! # Sums over equidistant grids converge to integrals -/

namespace Irt

open MeasureTheory Filter Topology
open scoped Pointwise

theorem sum_cartesianProd {d : ℕ} (n : ℕ) (c : Fin d → ℕ → ℝ) (F : (Fin d → ℝ) → ℝ) :
    ((cartesianProd fun k => (List.range n).map (c k)).map F).sum = ∑ ν : Fin d → Fin n, F fun k => c k (ν k) := by
  induction d with
  | zero =>
    simp only [cartesianProd, List.map_cons, List.map_nil, List.sum_cons, List.sum_nil, add_zero]
    rw [Fintype.sum_unique]
    congr 1
    funext k
    exact k.elim0
  | succ d ih =>
    simp only [cartesianProd]
    rw [List.map_flatMap, List.flatMap_map, List.flatMap_def, List.sum_flatten, List.map_map,
      ← (Fin.consEquiv fun _ : Fin (d + 1) => Fin n).sum_comp, Fintype.sum_prod_type]
    change ∑ i ∈ Finset.range n, _ = _
    rw [← Fin.sum_univ_eq_sum_range (fun i => _) n]
    apply Finset.sum_congr rfl
    intro i _
    simp only [Function.comp, List.map_map]
    have := ih (fun k => c k.succ) (fun v => F (Fin.cons (c 0 i) v))
    refine Eq.trans this (Finset.sum_congr rfl fun ν _ => ?_)
    congr 1
    funext k
    refine Fin.cases ?_ (fun k => ?_) k <;> simp [Fin.consEquiv]

/-- Sums over the grid with spacing `1 / n` of the unit cube. -/
theorem unit_grid_tendsto {d : ℕ} (G : (Fin d → ℝ) → ℝ) (hG : Continuous G) :
    Tendsto (fun n : ℕ => (∑ ν : Fin d → Fin (n + 1), G fun k => (ν k : ℕ) / (n : ℝ)) / (n : ℝ) ^ d) atTop
      (𝓝 (∫ x in Set.Icc 0 1, G x)) := by
  have h := tendsto_tsum_div_pow_atTop_integral (Set.Icc (0 : Fin d → ℝ) 1) G hG (Metric.isBounded_Icc 0 1)
    measurableSet_Icc ((convex_Icc 0 1).addHaar_frontier volume)
  rw [Fintype.card_fin] at h
  refine h.congr' ?_
  filter_upwards [eventually_gt_atTop 0] with n hn
  have : NeZero n := ⟨hn.ne'⟩
  have hn' : (0 : ℝ) < n := by exact_mod_cast hn
  congr 1
  have hmem : ∀ ν : Fin d → Fin (n + 1), (fun k => ((ν k : ℕ) : ℝ) / (n : ℝ)) ∈
      Set.Icc (0 : Fin d → ℝ) 1 ∩ (n : ℝ)⁻¹ • (Submodule.span ℤ (Set.range (Pi.basisFun ℝ (Fin d))) : Set (Fin d → ℝ)) := by
    intro ν
    refine ⟨⟨fun k => by positivity, fun k => ?_⟩, ?_⟩
    · rw [Pi.one_apply, div_le_one hn']
      exact_mod_cast Nat.lt_succ_iff.mp (ν k).2
    · refine BoxIntegral.unitPartition.mem_smul_span_iff.mpr fun k => ⟨(ν k : ℕ), ?_⟩
      simp
      field_simp
  let f : (Fin d → Fin (n + 1)) → ↑(Set.Icc (0 : Fin d → ℝ) 1 ∩
      (n : ℝ)⁻¹ • (Submodule.span ℤ (Set.range (Pi.basisFun ℝ (Fin d))) : Set (Fin d → ℝ))) := fun ν => ⟨_, hmem ν⟩
  have hf : Function.Bijective f := by
    constructor
    · intro ν ν' hνν
      funext k
      have := congrFun (congrArg Subtype.val hνν) k
      simp only [f] at this
      rw [div_left_inj' hn'.ne'] at this
      exact Fin.ext (by exact_mod_cast this)
    · rintro ⟨x, ⟨hx0, hx1⟩, hx⟩
      have hx' := BoxIntegral.unitPartition.mem_smul_span_iff.mp hx
      choose z hz using hx'
      have hz0 : ∀ k, 0 ≤ z k := by
        intro k
        have h1 := hx0 k
        have h2 := hz k
        have : (0 : ℝ) ≤ (z k : ℝ) := by
          rw [show ((z k : ℤ) : ℝ) = n * x k by simpa using h2]
          exact mul_nonneg hn'.le h1
        exact_mod_cast this
      have hz1 : ∀ k, z k ≤ n := by
        intro k
        have h1 := hx1 k
        have h2 := hz k
        have : (z k : ℝ) ≤ (n : ℝ) := by
          rw [show ((z k : ℤ) : ℝ) = n * x k by simpa using h2]
          simp only [Pi.one_apply] at h1
          nlinarith
        exact_mod_cast this
      refine ⟨fun k => ⟨(z k).toNat, by have := hz0 k; have := hz1 k; omega⟩, Subtype.ext ?_⟩
      funext k
      simp only [f]
      have h2 : ((z k : ℤ) : ℝ) = n * x k := by simpa using hz k
      have h3 : (((z k).toNat : ℕ) : ℝ) = ((z k : ℤ) : ℝ) := by
        exact_mod_cast congrArg (fun a : ℤ => (a : ℝ)) (Int.toNat_of_nonneg (hz0 k))
      rw [h3, h2]
      field_simp
  rw [← (Equiv.ofBijective f hf).tsum_eq, tsum_fintype]
  rfl

/-- Sums over an equidistant grid on a box, times the volume of a cell, converge to the integral over the box. -/
theorem box_grid_tendsto {d : ℕ} (a b : Fin d → ℝ) (hab : ∀ k, a k < b k) (F : (Fin d → ℝ) → ℝ) (hF : Continuous F) :
    Tendsto (fun n : ℕ => (∏ k, (b k - a k) / n) * ((cartesianProd fun k => linspace (a k) (b k) (n + 1)).map F).sum) atTop
      (𝓝 (∫ x in Set.Icc a b, F x)) := by
  have h := (unit_grid_tendsto (fun t => F (fun k => a k + (b k - a k) * t k)) (by fun_prop)).const_mul (∏ k, (b k - a k))
  have hint : (∏ k, (b k - a k)) * ∫ x in Set.Icc (0 : Fin d → ℝ) 1, F (fun k => a k + (b k - a k) * x k)
      = ∫ x in Set.Icc a b, F x := by
    have hdet : (Matrix.diagonal fun k => b k - a k).det = ∏ k, (b k - a k) := Matrix.det_diagonal
    have hpos : 0 < ∏ k, (b k - a k) := Finset.prod_pos fun k _ => sub_pos.mpr (hab k)
    have hc := integral_comp_matrix (Matrix.diagonal fun k => b k - a k) (by rw [hdet]; exact hpos.ne')
      (fun z => (Set.Icc a b).indicator F (fun k => a k + z k))
    rw [hdet, abs_of_pos hpos] at hc
    rw [← integral_indicator measurableSet_Icc, ← integral_indicator measurableSet_Icc]
    have e1 : ∀ x : Fin d → ℝ, (Set.Icc (0 : Fin d → ℝ) 1).indicator (fun x => F (fun k => a k + (b k - a k) * x k)) x
        = (Set.Icc a b).indicator F (fun k => a k + ((Matrix.diagonal fun k => b k - a k).mulVec x) k) := by
      intro x
      have hiff : x ∈ Set.Icc (0 : Fin d → ℝ) 1 ↔ (fun k => a k + (b k - a k) * x k) ∈ Set.Icc a b := by
        simp only [Set.mem_Icc, Pi.le_def, Pi.zero_apply, Pi.one_apply]
        constructor
        · rintro ⟨h0, h1⟩
          exact ⟨fun k => by nlinarith [h0 k, hab k], fun k => by nlinarith [h1 k, hab k]⟩
        · rintro ⟨h0, h1⟩
          exact ⟨fun k => by nlinarith [h0 k, hab k], fun k => by nlinarith [h1 k, hab k]⟩
      simp only [Matrix.mulVec_diagonal]
      by_cases hx : x ∈ Set.Icc (0 : Fin d → ℝ) 1
      · rw [Set.indicator_of_mem hx, Set.indicator_of_mem (hiff.mp hx)]
      · rw [Set.indicator_of_notMem hx, Set.indicator_of_notMem (fun hh => hx (hiff.mpr hh))]
    simp only [e1]
    rw [hc, mul_inv_cancel_left₀ hpos.ne']
    exact integral_add_left_eq_self (μ := volume) ((Set.Icc a b).indicator F) a
  rw [hint] at h
  refine h.congr' ?_
  filter_upwards [eventually_gt_atTop 0] with n hn
  have hn' : (n : ℝ) ≠ 0 := by exact_mod_cast hn.ne'
  unfold linspace
  rw [sum_cartesianProd, Finset.prod_div_distrib, Finset.prod_const, Finset.card_univ, Fintype.card_fin,
    div_mul_eq_mul_div, mul_div_assoc]
  congr 2
  apply Finset.sum_congr rfl
  intro ν _
  congr 1
  funext k
  push_cast
  ring_nf

end Irt
