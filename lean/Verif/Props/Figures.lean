import Verif.Model.Figures
import Verif.Spec.Figures
import Verif.Lemmas.RQSpline
import Verif.Props.Plotter
import Verif.Props.Sampling
import Mathlib.Analysis.SpecialFunctions.Log.Base

/-! # C97: plots of distributions, relationships and the training history -/

namespace Irt

/-! ## Bins -/

theorem IsBinRange.lt {xs : List ℝ} {a b : ℝ} (h : IsBinRange xs a b) : a < b := by
  rcases h with h | ⟨x, -, -, rfl, rfl⟩
  · exact h.1
  · linarith

theorem IsBinRange.mem {xs : List ℝ} {a b : ℝ} (h : IsBinRange xs a b) {x : ℝ} (hx : x ∈ xs) : a ≤ x ∧ x ≤ b := by
  rcases h with h | ⟨y, -, hy, rfl, rfl⟩
  · exact h.2.2.2 x hx
  · rw [hy x hx]; constructor <;> linarith

theorem binEdge_strictMono {a b : ℝ} (hab : a < b) {B : ℕ} (hB : 0 < B) : StrictMono (binEdge a b B) := by
  intro k l hkl
  unfold binEdge
  have hB' : (0 : ℝ) < B := by exact_mod_cast hB
  have : (k : ℝ) < l := by exact_mod_cast hkl
  have h2 : 0 < b - a := by linarith
  gcongr

theorem binEdge_zero (a b : ℝ) (B : ℕ) : binEdge a b B 0 = a := by simp [binEdge]

theorem binEdge_last (a b : ℝ) {B : ℕ} (hB : 0 < B) : binEdge a b B B = b := by
  unfold binEdge
  have hB' : (B : ℝ) ≠ 0 := by exact_mod_cast hB.ne'
  rw [mul_div_assoc, div_self hB', mul_one]; ring

theorem linspace_edges (a b : ℝ) (B : ℕ) : linspace a b (B + 1) = (List.range (B + 1)).map (binEdge a b B) := by
  unfold linspace binEdge
  push_cast
  simp

theorem histEdges_eq (xs : List ℝ) (hne : xs ≠ []) (B : ℕ) :
    ∃ a b, IsBinRange xs a b ∧ histEdges xs B = (List.range (B + 1)).map (binEdge a b B) := by
  have h1 := columnMin_isLeast xs hne
  have h2 := columnMax_isGreatest xs hne
  unfold histEdges
  rw [if_neg hne]
  by_cases h : columnMin xs = columnMax xs
  · rw [if_pos h, linspace_edges]
    refine ⟨_, _, Or.inr ⟨columnMin xs, h1.1, fun y hy => le_antisymm ?_ (h1.2 hy), rfl, by rw [h]⟩, rfl⟩
    rw [h]; exact h2.2 hy
  · rw [if_neg h, linspace_edges]
    exact ⟨_, _, Or.inl ⟨lt_of_le_of_ne (h1.2 h2.1) h, h1.1, h2.1, fun x hx => ⟨h1.2 hx, h2.2 hx⟩⟩, rfl⟩

/-- Every value in the range is in a bin. -/
theorem exists_inBin {a b : ℝ} (hab : a < b) {B : ℕ} (hB : 0 < B) {x : ℝ} (h1 : a ≤ x) (h2 : x ≤ b) : ∃ k < B, InBin a b B k x := by
  rcases eq_or_lt_of_le h2 with rfl | hlt
  · refine ⟨B - 1, by omega, ?_, Or.inr ⟨by omega, rfl⟩⟩
    conv_rhs => rw [← binEdge_last a x hB]
    exact (binEdge_strictMono hab hB).monotone (by omega)
  · obtain ⟨k, hk, hk1, hk2, hk3⟩ := exists_bin (binEdge a b B) B hB x (by rw [binEdge_zero]; exact h1)
      (by rw [binEdge_last a b hB]; exact h2)
    refine ⟨k, hk, hk1, Or.inl ?_⟩
    rcases hk3 with h | h
    · exact h
    · rw [h, binEdge_last a b hB]; exact hlt

theorem histBin_of_inBin {a b : ℝ} (hab : a < b) {B : ℕ} (hB : 0 < B) {k : ℕ} (hk : k < B) {x : ℝ}
    (h : InBin a b B k x) : histBin ((List.range (B + 1)).map (binEdge a b B)) x = k + 1 := by
  have hm := binEdge_strictMono hab hB
  have hlast : ((List.range (B + 1)).map (binEdge a b B)).getLastD 0 = b := by
    rw [List.range_succ, List.map_append]
    simp [binEdge_last a b hB]
  unfold histBin
  rw [hlast, List.countP_map]
  rcases h.2 with hlt | ⟨hkB, rfl⟩
  · have hxb : x ≠ b := by
      have := hm.monotone (show k + 1 ≤ B by omega)
      rw [binEdge_last a b hB] at this
      exact (lt_of_lt_of_le hlt this).ne
    rw [if_neg hxb, Nat.sub_zero]
    refine countP_prefix (B + 1) (k + 1) (by omega) _ (fun i hi => ?_) fun i hi _ => ?_
    · simp only [Function.comp, decide_eq_true_eq]
      exact (hm.monotone (by omega)).trans h.1
    · simp only [Function.comp, decide_eq_false_iff_not, not_le]
      exact lt_of_lt_of_le hlt (hm.monotone hi)
  · rw [if_pos rfl]
    have : (List.range (B + 1)).countP ((fun e => decide (e ≤ x)) ∘ binEdge a x B) = B + 1 := by
      refine countP_prefix (B + 1) (B + 1) le_rfl _ (fun i hi => ?_) fun i hi _ => by omega
      simp only [Function.comp, decide_eq_true_eq]
      conv_rhs => rw [← binEdge_last a x hB]
      exact hm.monotone (by omega)
    rw [this]
    omega

theorem histBin_iff {a b : ℝ} (hab : a < b) {B : ℕ} (hB : 0 < B) {k : ℕ} (hk : k < B) {x : ℝ} (h1 : a ≤ x) (h2 : x ≤ b) :
    histBin ((List.range (B + 1)).map (binEdge a b B)) x = k + 1 ↔ InBin a b B k x := by
  refine ⟨fun h => ?_, histBin_of_inBin hab hB hk⟩
  obtain ⟨l, hl, hb⟩ := exists_inBin hab hB h1 h2
  have := histBin_of_inBin hab hB hl hb
  have hkl : k = l := by omega
  rw [hkl]; exact hb

theorem binCenters_eq (e : ℕ → ℝ) (B : ℕ) :
    binCenters ((List.range (B + 1)).map e) = (List.range B).map fun k => (e k + e (k + 1)) / 2 := by
  unfold binCenters
  have h1 : ((List.range (B + 1)).map e).dropLast = (List.range B).map e := by
    rw [List.range_succ, List.map_append]; simp
  have h2 : ((List.range (B + 1)).map e).tail = (List.range B).map fun k => e (k + 1) := by
    rw [List.range_succ_eq_map]; simp [Function.comp]
  rw [h1, h2, List.zipWith_map_left, List.zipWith_map_right]
  simp [List.zipWith_self]

open Finset in
/-- Every point is counted in exactly one cell. -/
theorem cells_total {α : Type} (pts : List α) (B : ℕ) (f g : α → ℕ) (hf : ∀ p ∈ pts, 1 ≤ f p ∧ f p ≤ B)
    (hg : ∀ p ∈ pts, 1 ≤ g p ∧ g p ≤ B) :
    ∑ k ∈ range B, ∑ l ∈ range B, pts.countP (fun p => decide (f p = k + 1 ∧ g p = l + 1)) = pts.length := by
  induction pts with
  | nil => simp
  | cons p ps ih =>
    have ih' := ih (fun q hq => hf q (List.mem_cons_of_mem _ hq)) (fun q hq => hg q (List.mem_cons_of_mem _ hq))
    simp only [List.countP_cons, sum_add_distrib, ih', List.length_cons, decide_eq_true_eq]
    congr 1
    obtain ⟨a1, a2⟩ := hf p List.mem_cons_self
    obtain ⟨b1, b2⟩ := hg p List.mem_cons_self
    rw [sum_eq_single (f p - 1)]
    · rw [sum_eq_single (g p - 1)]
      · rw [if_pos ⟨by omega, by omega⟩]
      · intro l _ hl
        rw [if_neg (by omega)]
      · intro h
        simp only [mem_range] at h
        omega
    · intro k _ hk
      refine sum_eq_zero fun l _ => ?_
      rw [if_neg (by omega)]
    · intro h
      simp only [mem_range] at h
      omega

theorem sum_range_list (n : ℕ) (f : ℕ → ℝ) : ((List.range n).map f).sum = ∑ k ∈ Finset.range n, f k := by
  induction n with
  | zero => simp
  | succ n ih => rw [List.range_succ, List.map_append, List.sum_append, ih, Finset.sum_range_succ]; simp

theorem edges_getD (e : ℕ → ℝ) (B k : ℕ) (hk : k ≤ B) : ((List.range (B + 1)).map e).getD k 0 = e k :=
  getD_range_map _ _ _ (by omega)

theorem binEdge_diff (a b : ℝ) (B k : ℕ) : binEdge a b B (k + 1) - binEdge a b B k = (b - a) / B := by
  unfold binEdge
  push_cast
  ring

/-- C97: the contour plot of two latent variables. Each variable is cut in `B` bins of equal width from its smallest to its
largest score. The height at the centre of a cell, times the area of the cell, is the proportion of respondents in the
cell; rows are the second variable. The heights times the areas sum to one. -/
theorem C97_contour (pts : List (ℝ × ℝ)) (hne : pts ≠ []) (B : ℕ) (hB : 0 < B) :
    ∃ (c : Contour) (a₁ b₁ a₂ b₂ : ℝ) (z : ℕ → ℕ → ℝ), contourPlot pts (some B) = .ok c ∧
      IsBinRange (pts.map Prod.fst) a₁ b₁ ∧ IsBinRange (pts.map Prod.snd) a₂ b₂ ∧
      c.x = (List.range B).map (fun k => (binEdge a₁ b₁ B k + binEdge a₁ b₁ B (k + 1)) / 2) ∧
      c.y = (List.range B).map (fun k => (binEdge a₂ b₂ B k + binEdge a₂ b₂ B (k + 1)) / 2) ∧
      c.z = (List.range B).map (fun l => (List.range B).map fun k => some (z k l)) ∧
      (∀ k < B, ∀ l < B, ∀ inCell : ℝ × ℝ → Bool, (∀ p, inCell p = true ↔ InBin a₁ b₁ B k p.1 ∧ InBin a₂ b₂ B l p.2) →
        z k l * ((b₁ - a₁) / B * ((b₂ - a₂) / B)) = (pts.countP inCell : ℝ) / pts.length) ∧
      ∑ k ∈ Finset.range B, ∑ l ∈ Finset.range B, z k l * ((b₁ - a₁) / B * ((b₂ - a₂) / B)) = 1 := by
  obtain ⟨a₁, b₁, hr₁, he₁⟩ := histEdges_eq (pts.map Prod.fst) (by simpa using hne) B
  obtain ⟨a₂, b₂, hr₂, he₂⟩ := histEdges_eq (pts.map Prod.snd) (by simpa using hne) B
  have hB' : (B : ℝ) ≠ 0 := by exact_mod_cast hB.ne'
  have hn : (pts.length : ℝ) ≠ 0 := by
    have : 0 < pts.length := List.length_pos_iff.mpr hne
    exact_mod_cast this.ne'
  have w₁ : (b₁ - a₁) / B ≠ 0 := div_ne_zero (sub_pos.mpr hr₁.lt).ne' hB'
  have w₂ : (b₂ - a₂) / B ≠ 0 := div_ne_zero (sub_pos.mpr hr₂.lt).ne' hB'
  set e₁ := (List.range (B + 1)).map (binEdge a₁ b₁ B) with h₁
  set e₂ := (List.range (B + 1)).map (binEdge a₂ b₂ B) with h₂
  set N : ℕ → ℕ → ℕ := fun k l => pts.countP fun p => decide (histBin e₁ p.1 = k + 1 ∧ histBin e₂ p.2 = l + 1) with hN
  have hin₁ : ∀ p ∈ pts, ∃ k < B, InBin a₁ b₁ B k p.1 := fun p hp =>
    exists_inBin hr₁.lt hB (hr₁.mem (List.mem_map_of_mem hp)).1 (hr₁.mem (List.mem_map_of_mem hp)).2
  have hin₂ : ∀ p ∈ pts, ∃ k < B, InBin a₂ b₂ B k p.2 := fun p hp =>
    exists_inBin hr₂.lt hB (hr₂.mem (List.mem_map_of_mem hp)).1 (hr₂.mem (List.mem_map_of_mem hp)).2
  have htot : ∑ k ∈ Finset.range B, ∑ l ∈ Finset.range B, N k l = pts.length := by
    refine cells_total pts B (fun p => histBin e₁ p.1) (fun p => histBin e₂ p.2) (fun p hp => ?_) fun p hp => ?_
    · obtain ⟨k, hk, h⟩ := hin₁ p hp
      simp only [h₁]
      rw [histBin_of_inBin hr₁.lt hB hk h]; omega
    · obtain ⟨k, hk, h⟩ := hin₂ p hp
      simp only [h₂]
      rw [histBin_of_inBin hr₂.lt hB hk h]; omega
  have hz : ∀ k < B, ∀ l < B, histDensity pts e₁ e₂ B k l
      = some ((N k l : ℝ) / ((b₁ - a₁) / B) / ((b₂ - a₂) / B) / pts.length) := by
    intro k hk l hl
    unfold histDensity
    simp only [sum_range_list]
    have : ∑ k ∈ Finset.range B, ∑ l ∈ Finset.range B, (N k l : ℝ) = pts.length := by exact_mod_cast htot
    rw [show (∑ k ∈ Finset.range B, ∑ l ∈ Finset.range B,
      ((pts.countP fun p => decide (histBin e₁ p.1 = k + 1 ∧ histBin e₂ p.2 = l + 1) : ℕ) : ℝ)) = pts.length from this,
      if_neg hn, h₁, h₂, edges_getD _ _ _ hk, edges_getD _ _ _ hk.le, edges_getD _ _ _ hl, edges_getD _ _ _ hl.le,
      binEdge_diff, binEdge_diff]
  have hmul : ∀ k l, (N k l : ℝ) / ((b₁ - a₁) / B) / ((b₂ - a₂) / B) / pts.length * ((b₁ - a₁) / B * ((b₂ - a₂) / B))
      = (N k l : ℝ) / pts.length := by
    intro k l
    generalize (b₁ - a₁) / (B : ℝ) = u at w₁
    generalize (b₂ - a₂) / (B : ℝ) = v at w₂
    field_simp
  refine ⟨⟨(List.range B).map fun l => (List.range B).map fun k => histDensity pts e₁ e₂ B k l, binCenters e₁, binCenters e₂⟩,
    a₁, b₁, a₂, b₂, fun k l => (N k l : ℝ) / ((b₁ - a₁) / B) / ((b₂ - a₂) / B) / pts.length, ?_, hr₁, hr₂,
    binCenters_eq _ B, binCenters_eq _ B, ?_, ?_, ?_⟩
  · unfold contourPlot
    rw [if_neg (by simp), if_neg (by simp; omega)]
    simp only [Int.toNat_natCast, he₁, he₂]
  · refine List.map_congr_left fun l hl => List.map_congr_left fun k hk => ?_
    exact hz k (List.mem_range.mp hk) l (List.mem_range.mp hl)
  · intro k hk l hl inCell hc
    rw [hmul]
    congr 2
    refine List.countP_congr fun p hp => ?_
    rw [hc, decide_eq_true_eq, h₁, h₂, histBin_iff hr₁.lt hB hk (hr₁.mem (List.mem_map_of_mem hp)).1
      (hr₁.mem (List.mem_map_of_mem hp)).2, histBin_iff hr₂.lt hB hl (hr₂.mem (List.mem_map_of_mem hp)).1
      (hr₂.mem (List.mem_map_of_mem hp)).2]
  · simp only [hmul]
    have : ∑ k ∈ Finset.range B, ∑ l ∈ Finset.range B, (N k l : ℝ) = pts.length := by exact_mod_cast htot
    rw [← div_self hn]
    conv_rhs => rw [show ((pts.length : ℝ) / pts.length) = (∑ k ∈ Finset.range B, ∑ l ∈ Finset.range B, (N k l : ℝ)) / pts.length by rw [this]]
    rw [Finset.sum_div]
    refine Finset.sum_congr rfl fun k _ => ?_
    rw [Finset.sum_div]

/-- C97: without a number of bins, `n` respondents get the number of binary digits of `n`. -/
theorem C97_default_bins (pts : List (ℝ × ℝ)) (hne : pts ≠ []) :
    ∃ B : ℕ, contourPlot pts none = contourPlot pts (some B) ∧ 0 < B ∧ 2 ^ (B - 1) ≤ pts.length ∧ pts.length < 2 ^ B := by
  have hn : 0 < pts.length := List.length_pos_iff.mpr hne
  have hn' : (0 : ℝ) < pts.length := by exact_mod_cast hn
  have h1 : 0 ≤ Real.logb 2 pts.length := Real.logb_nonneg (by norm_num) (by exact_mod_cast hn)
  obtain ⟨m, hm⟩ : ∃ m : ℕ, ⌊Real.logb 2 pts.length⌋ = m := ⟨⌊Real.logb 2 pts.length⌋.toNat, by
    exact (Int.toNat_of_nonneg (Int.floor_nonneg.mpr h1)).symm⟩
  have h2 : (m : ℝ) ≤ Real.logb 2 pts.length := by
    have := Int.floor_le (Real.logb 2 pts.length); rw [hm] at this; exact_mod_cast this
  have h3 : Real.logb 2 pts.length < m + 1 := by
    have := Int.lt_floor_add_one (Real.logb 2 pts.length); rw [hm] at this; exact_mod_cast this
  refine ⟨m + 1, ?_, by omega, ?_, ?_⟩
  · unfold contourPlot
    simp only [hm, hne, false_and, if_false, Nat.cast_succ]
  · rw [Real.le_logb_iff_rpow_le (by norm_num) hn', Real.rpow_natCast] at h2
    exact_mod_cast h2
  · rw [Real.logb_lt_iff_lt_rpow (by norm_num) hn'] at h3
    have : ((2 : ℝ) ^ ((m : ℝ) + 1)) = 2 ^ (m + 1) := by
      rw [← Real.rpow_natCast]; push_cast; rfl
    rw [this] at h3
    exact_mod_cast h3

/-! ## From the arguments of a user to the plot -/

theorem plotIndex_succ {d : ℕ} (i : Fin d) : plotIndex d ((i.val : ℤ) + 1) = .ok i := by
  unfold plotIndex
  rw [dif_pos ⟨by omega, by omega⟩]
  congr 1
  apply Fin.ext
  simp

/-- C97: one latent variable. The histogram shows the scores of all respondents on the requested variable: the given ones,
or else those of the given responses, or else those of the training data. Two or more respondents, or none; the case of one
respondent is false. -/
theorem C97_histogram_partial {d : ℕ} {δ : Type} (train : δ) (L : δ → Bool → Except PyErr (Thetas d)) (i : Fin d)
    (bins : Option ℤ) (rescale : Bool) (scores : Thetas d) (h1 : scores.length ≠ 1) :
    (∀ population, latentScoreDistribution train L (some scores) population [(i.val : ℤ) + 1] bins rescale
      = .ok (.histogram (scores.map fun r => r i))) ∧
    (∀ data, L data rescale = .ok scores →
      latentScoreDistribution train L none (some data) [(i.val : ℤ) + 1] bins rescale
        = .ok (.histogram (scores.map fun r => r i))) ∧
    (L train rescale = .ok scores → latentScoreDistribution train L none none [(i.val : ℤ) + 1] bins rescale
        = .ok (.histogram (scores.map fun r => r i))) := by
  have hd : ¬ d < [(i.val : ℤ) + 1].length := by have := i.isLt; simp; omega
  have hm : [(i.val : ℤ) + 1].mapM (plotIndex d) = .ok [i] := by
    rw [List.mapM_cons, plotIndex_succ]; rfl
  have hp : distributionPlot scores [i] bins = .ok (.histogram (scores.map fun r => r i)) := by
    unfold distributionPlot
    simp only [if_neg h1]
  refine ⟨fun population => ?_, fun data h => ?_, fun h => ?_⟩ <;>
  · unfold latentScoreDistribution
    rw [if_neg (by simp), if_neg hd]
    simp only [Option.getD, bind_ok, hm, hp, *]

/-- C97: two latent variables, in the order requested. -/
theorem C97_two_variables {d : ℕ} {δ : Type} (train : δ) (L : δ → Bool → Except PyErr (Thetas d)) (i j : Fin d)
    (hd : 2 ≤ d) (bins : Option ℤ) (rescale : Bool) (scores : Thetas d) (c : Contour)
    (hc : contourPlot (scores.map fun r => (r i, r j)) bins = .ok c) :
    (∀ population, latentScoreDistribution train L (some scores) population [(i.val : ℤ) + 1, (j.val : ℤ) + 1] bins rescale
      = .ok (.contour c)) ∧
    (∀ data, L data rescale = .ok scores →
      latentScoreDistribution train L none (some data) [(i.val : ℤ) + 1, (j.val : ℤ) + 1] bins rescale = .ok (.contour c)) ∧
    (L train rescale = .ok scores →
      latentScoreDistribution train L none none [(i.val : ℤ) + 1, (j.val : ℤ) + 1] bins rescale = .ok (.contour c)) := by
  have hd : ¬ d < [(i.val : ℤ) + 1, (j.val : ℤ) + 1].length := by simp; omega
  have hm : [(i.val : ℤ) + 1, (j.val : ℤ) + 1].mapM (plotIndex d) = .ok [i, j] := by
    rw [List.mapM_cons, plotIndex_succ, List.mapM_cons, plotIndex_succ]; rfl
  have hp : distributionPlot scores [i, j] bins = .ok (.contour c) := by
    unfold distributionPlot
    simp only [hc, Except.map]
  refine ⟨fun population => ?_, fun data h => ?_, fun h => ?_⟩ <;>
  · unfold latentScoreDistribution
    rw [if_neg (by simp), if_neg hd]
    simp only [Option.getD, bind_ok, hm, hp, *]

/-- C97 in full for one variable: any number of respondents. -/
def C97_histogram_claim : Prop :=
  ∀ (d : ℕ) (scores : Thetas d) (i : Fin d) (rescale : Bool),
    latentScoreDistribution () (fun _ _ => .ok scores) (some scores) none [(i.val : ℤ) + 1] none rescale
      = .ok (.histogram (scores.map fun r => r i))

/-- C97 is false for the scores of one respondent: the plot raises an error. -/
theorem C97_histogram_false : ¬ C97_histogram_claim := by
  intro h
  have := h 1 [fun _ => 0] 0 true
  unfold latentScoreDistribution at this
  rw [if_neg (by simp), if_neg (by simp)] at this
  have hm : [((0 : Fin 1).val : ℤ) + 1].mapM (plotIndex 1) = .ok [0] := by
    rw [List.mapM_cons, plotIndex_succ]; rfl
  rw [hm] at this
  simp [bind_ok, distributionPlot] at this

/-- C97: more than two variables, or more than the model has, are refused. -/
theorem C97_too_many {d : ℕ} {δ : Type} (train : δ) (L : δ → Bool → Except PyErr (Thetas d)) (given : Option (Thetas d))
    (population : Option δ) (lv : List ℤ) (bins : Option ℤ) (rescale : Bool) (h : 2 < lv.length ∨ d < lv.length) :
    latentScoreDistribution train L given population lv bins rescale = .error .valueError := by
  unfold latentScoreDistribution
  split
  · rfl
  · rw [if_pos (by omega)]

/-- C97: a request for a latent variable that the model does not have is refused. -/
def C97_variables_claim : Prop :=
  ∀ (d : ℕ) (scores : Thetas d) (v : ℤ) (rescale : Bool), ¬ (1 ≤ v ∧ v ≤ d) →
    ∃ e, latentScoreDistribution () (fun _ _ => .ok scores) (some scores) none [v] none rescale = .error e

/-- C97, refusal, for numbers above the dimension. (The check meant for them repeats the one on the number of variables;
indexing raises `IndexError`.) -/
theorem C97_variables_partial {d : ℕ} {δ : Type} (train : δ) (L : δ → Bool → Except PyErr (Thetas d)) (scores : Thetas d)
    (population : Option δ) (v : ℤ) (bins : Option ℤ) (rescale : Bool) (hd : 0 < d) (hv : (d : ℤ) < v) :
    latentScoreDistribution train L (some scores) population [v] bins rescale = .error .indexError := by
  unfold latentScoreDistribution
  rw [if_neg (by simp), if_neg (by simp; omega)]
  have hi : plotIndex d v = .error .indexError := by
    unfold plotIndex
    rw [dif_neg (by omega), dif_neg (by omega)]
  have hm : [v].mapM (plotIndex d) = .error .indexError := by
    rw [List.mapM_cons, hi]; rfl
  simp only [bind_ok, hm]
  rfl

/-- C97, refusal, is false: latent variable 0 shows the last one. -/
theorem C97_variables_false : ¬ C97_variables_claim := by
  intro h
  obtain ⟨e, he⟩ := h 1 [] 0 true (by norm_num)
  unfold latentScoreDistribution at he
  rw [if_neg (by simp), if_neg (by simp)] at he
  have hi : plotIndex 1 0 = .ok 0 := by
    unfold plotIndex
    rw [dif_neg (by simp), dif_pos (by constructor <;> norm_num)]
    rfl
  have hm : [(0 : ℤ)].mapM (plotIndex 1) = .ok [0] := by
    rw [List.mapM_cons, hi]; rfl
  simp [bind_ok, hm, distributionPlot] at he

/-! ## Training history -/

theorem mem_of_lookup_key {β : Type} (l : List (String × β)) (k : String) (b : β) (h : l.lookup k = some b) : (k, b) ∈ l := by
  induction l with
  | nil => simp at h
  | cons p ps ih =>
    rw [List.lookup_cons] at h
    by_cases hk : k == p.1
    · rw [hk] at h
      have h1 : k = p.1 := by simpa using hk
      have h2 : p.2 = b := by simpa using h
      rw [h1, ← h2]
      exact List.mem_cons_self
    · rw [Bool.not_eq_true] at hk
      rw [hk] at h
      exact List.mem_cons_of_mem _ (ih h)

theorem historyFrame_eq (l : List ℝ) (t : String) :
    historyFrame l t = (List.range l.length).map fun i => (i + 1, l.getD i 0, t) := by
  unfold historyFrame
  conv_lhs => rw [eq_range_map l]
  rw [List.zipWith_map_left, List.zipWith_map_right]
  simp [List.zipWith_self]

/-- C97: the history has one point for each recorded loss, numbered from one in the order of training; both curves when both
losses were recorded, and then a legend. -/
theorem C97_history (history : List (String × List ℝ)) (t v : List ℝ) (ht : history.lookup "train_loss" = some t)
    (hv : history.lookup "validation_loss" = some v) (h : t ≠ [] ∨ v ≠ []) :
    ∃ legend, trainingHistoryPlot history = .ok
      ((List.range t.length).map (fun i => (i + 1, t.getD i 0, "Training"))
        ++ (List.range v.length).map (fun i => (i + 1, v.getD i 0, "Validation")), legend) ∧
      (legend = true ↔ t ≠ [] ∧ v ≠ []) := by
  have hne : ¬ (history.all fun kv => kv.2.isEmpty) = true := by
    rw [List.all_eq_true]
    push Not
    rcases h with h | h
    · exact ⟨("train_loss", t), mem_of_lookup_key _ _ _ ht, by simpa using h⟩
    · exact ⟨("validation_loss", v), mem_of_lookup_key _ _ _ hv, by simpa using h⟩
  have hc : ∀ (key type : String) (l : List ℝ), history.lookup key = some l →
      historyCurve history key type = if l = [] then [] else [(List.range l.length).map fun i => (i + 1, l.getD i 0, type)] := by
    intro key type l hl
    unfold historyCurve
    rw [hl]
    by_cases h0 : l = []
    · simp [h0]
    · simp only [if_neg h0, if_pos (List.length_pos_iff.mpr h0), historyFrame_eq]
  have hd : ∀ (l : List ℝ) (type : String), l ≠ [] →
      (((List.range l.length).map fun i => (i + 1, l.getD i 0, type)).map fun p => p.2.2) = List.replicate l.length type := by
    intro l type _
    rw [List.map_map]
    apply List.ext_getElem <;> simp
  unfold trainingHistoryPlot
  rw [if_neg hne, hc _ _ t ht, hc _ _ v hv]
  by_cases h1 : t = [] <;> by_cases h2 : v = []
  · simp [h1, h2] at h
  · simp only [if_pos h1, if_neg h2, List.nil_append, List.isEmpty_cons, Bool.false_eq_true, if_false, List.flatten_cons,
      List.flatten_nil, List.append_nil, hd v _ h2]
    refine ⟨_, by rw [h1]; rfl, ?_⟩
    rw [List.replicate_dedup (by simpa using h2)]
    simp [h1]
  · simp only [if_neg h1, if_pos h2, List.append_nil, List.isEmpty_cons, Bool.false_eq_true, if_false, List.flatten_cons,
      List.flatten_nil, hd t _ h1]
    refine ⟨_, by rw [h2]; simp; rfl, ?_⟩
    rw [List.replicate_dedup (by simpa using h1)]
    simp [h2]
  · simp only [if_neg h1, if_neg h2, List.cons_append, List.nil_append, List.isEmpty_cons, Bool.false_eq_true, if_false,
      List.flatten_cons, List.flatten_nil, List.append_nil, List.map_append, hd t _ h1, hd v _ h2]
    refine ⟨_, rfl, ?_⟩
    simp only [h1, h2, ne_eq, not_false_eq_true, and_self, iff_true, decide_eq_true_eq]
    have hsub : ["Training", "Validation"] ⊆ (List.replicate t.length "Training" ++ List.replicate v.length "Validation").dedup := by
      intro x hx
      rw [List.mem_dedup, List.mem_append, List.mem_replicate, List.mem_replicate]
      simp only [List.mem_cons, List.not_mem_nil, or_false] at hx
      rcases hx with rfl | rfl
      · exact Or.inl ⟨by simpa using h1, rfl⟩
      · exact Or.inr ⟨by simpa using h2, rfl⟩
    exact (List.subperm_of_subset (by simp) hsub).length_le

/-- C97: a model that has not been trained has no history to plot. -/
theorem C97_history_untrained (history : List (String × List ℝ)) (h : ∀ kv ∈ history, kv.2 = []) :
    trainingHistoryPlot history = .error .attributeError := by
  unfold trainingHistoryPlot
  rw [if_pos]
  rw [List.all_eq_true]
  intro kv hkv
  rw [h kv hkv]; rfl

/-! ## Relationships -/

/-- C97: the heat map of an item without an answer key shows, for each item and latent variable, the mean over the
respondents of the derivative of the expected score divided by the highest score. The respondents are the given ones, or
else the ones of the training data. -/
theorem C97_relationships {d : ℕ} (probs : (Fin d → ℝ) → List (List ℝ)) (cats : List ℕ)
    (h : ∀ t, IsTable cats (maxCats cats) (probs t)) (θ : Thetas d) (hθ : θ ≠ []) :
    ∃ g, (∀ training, relationshipPlot probs cats none [] training none (some θ) = .ok (some g)) ∧
      relationshipPlot probs cats none [] (some θ) none none = .ok (some g) ∧ g.length = cats.length ∧
      ∀ (j c : ℕ) v k, cats[j]? = some c → g[j]? = some v →
        v k = (θ.map fun t => partialD (fun s => itemMean (probs s) (maxCats cats) j / ((c : ℝ) - 1)) t k).sum
          / (θ.length : ℝ) := by
  obtain ⟨g, h1, h2, h3⟩ := C85_discrimination probs cats h [] true (Or.inr rfl) θ hθ
  exact ⟨g, fun _ => h1, h1, h2, h3⟩

/-- C97: on a transformed scale the heat map is the one of the model written in the transformed scores, for given
respondents and for the ones of the training data. -/
theorem C97_relationships_scale {d : ℕ} (probs Q : (Fin d → ℝ) → List (List ℝ)) (cats : List ℕ)
    (h : ∀ t, IsTable cats (maxCats cats) (probs t)) (hQt : ∀ t, IsTable cats (maxCats cats) (Q t))
    (scales : List (Scale d)) (hs : scales ≠ []) (θ : Thetas d) (hθ : θ ≠ []) (F : (Fin d → ℝ) → Fin d → ℝ)
    (J : (Fin d → ℝ) → Matrix (Fin d) (Fin d) ℝ) (hJ : thetaTransformJacobian scales θ = .ok (θ.map J))
    (hF : ∀ t ∈ θ, IsJacobian F (J t) t) (hdet : ∀ t ∈ θ, (J t).det ≠ 0) (hQ : ∀ s, Q (F s) = probs s)
    (hdiff : ∀ t ∈ θ, ∀ j, DifferentiableAt ℝ (fun u => itemMean (Q u) (maxCats cats) j) (F t)) :
    ∃ g, (∀ training, relationshipPlot probs cats none scales training none (some θ) = .ok (some g)) ∧
      relationshipPlot probs cats none scales (some θ) none none = .ok (some g) ∧ g.length = cats.length ∧
      ∀ (j c : ℕ) v k, cats[j]? = some c → g[j]? = some v →
        v k = (θ.map fun t => partialD (fun s => itemMean (Q s) (maxCats cats) j / ((c : ℝ) - 1)) (F t) k).sum
          / (θ.length : ℝ) := by
  obtain ⟨g, h1, h2, h3⟩ := C85_discrimination Q cats hQt [] true (Or.inr rfl) (θ.map F) (by simpa using hθ)
  rw [← C85_discrimination_scale probs cats Q h hQt scales hs θ hθ F J hJ hF hdet hQ hdiff] at h1
  refine ⟨g, fun _ => h1, h1, h2, fun j c v k hc hv => ?_⟩
  rw [h3 j c v k hc hv, List.map_map, List.length_map]
  rfl

/-- C97: given relationships are shown as they are. -/
theorem C97_relationships_given {d : ℕ} (probs : (Fin d → ℝ) → List (List ℝ)) (cats : List ℕ) (mc : Option (List ℤ))
    (scales : List (Scale d)) (training theta : Option (Thetas d)) (r : List (Fin d → ℝ)) :
    relationshipPlot probs cats mc scales training (some r) theta = .ok (some r) ∧
    relationshipPlot probs cats mc scales none none none = .error .valueError := ⟨rfl, rfl⟩

/-! ## The hypotheses are met -/

example : ∃ c, contourPlot [(0, 0), (1, 2), (1, 1)] (some 2) = .ok c ∧ c.x.length = 2 := by
  obtain ⟨c, _, _, _, _, _, h, -, -, hx, -⟩ := C97_contour [(0, 0), (1, 2), (1, 1)] (by simp) 2 (by norm_num)
  exact ⟨c, h, by rw [hx]; simp⟩

example : ∃ legend, trainingHistoryPlot [("train_loss", [3, 2]), ("validation_loss", [4])]
    = .ok ([(1, 3, "Training"), (2, 2, "Training"), (1, 4, "Validation")], legend) ∧ legend = true := by
  obtain ⟨l, h, hl⟩ := C97_history [("train_loss", [3, 2]), ("validation_loss", [4])] [3, 2] [4] rfl rfl (Or.inl (by simp))
  exact ⟨l, h, hl.mpr (by simp)⟩

example : ∃ g, relationshipPlot exGuess [2, 3] none [] (some [fun _ => 0, fun _ => 1]) none none = .ok (some g) := by
  obtain ⟨g, -, h, -⟩ := C97_relationships exGuess [2, 3] exGuess_isTable [fun _ => 0, fun _ => 1] (by simp)
  exact ⟨g, h⟩

/-- One item that is answered correctly with the logistic probability, in the scores and in the reversed scores. -/
noncomputable def exOneItem (s : ℝ) (t : Fin 1 → ℝ) : List (List ℝ) := [[1 - sigmoid (s * t 0), sigmoid (s * t 0)]]

theorem exOneItem_isTable (s : ℝ) (t : Fin 1 → ℝ) : IsTable [2] (maxCats [2]) (exOneItem s t) := by
  refine ⟨rfl, fun j p c hp hc => ?_⟩
  have hj : j < 1 := lt_of_getElem?_some hc
  interval_cases j
  simp only [exOneItem, List.getElem?_cons_zero, Option.some.injEq] at hp hc
  subst hp hc
  have h0 := (sigmoid_pos (s * t 0)).le
  have h1 := (sigmoid_lt_one (s * t 0)).le
  refine ⟨rfl, by simpa using ⟨h1, h0⟩, by simpa using ⟨h0, h1⟩, by norm_num, fun k h1 h2 => ?_⟩
  · simp [maxCats] at h2; omega

example : ∃ g, relationshipPlot (exOneItem 1) [2] none [reverseScale fun _ => true] (some [fun _ => 0, fun _ => 1]) none none
    = .ok (some g) := by
  obtain ⟨g, -, h, -⟩ := C97_relationships_scale (exOneItem 1) (exOneItem (-1)) [2] (exOneItem_isTable 1)
    (exOneItem_isTable (-1)) [reverseScale fun _ => true] (by simp) [fun _ => 0, fun _ => 1] (by simp)
    (fun t k => -t k) (fun _ => Matrix.diagonal fun _ => -1)
    (by simp [thetaTransformJacobian, jacobianLoop, reverseScale, reverseSign, bind, Except.bind])
    (fun t _ => IsJacobian.diagonal fun k => hasDerivAt_neg (t k)) (fun _ _ => by simp)
    (fun s => by simp [exOneItem]) (fun t _ j => by
      rcases j with _ | j
      · have h1 : ∀ u : Fin 1 → ℝ, itemMean (exOneItem (-1) u) (maxCats [2]) 0 = sigmoid (-1 * u 0) := fun u => by
          simp [itemMean, maxCats, Finset.sum_range_succ, tableProb, exOneItem]
        simp only [h1]
        have hd : Differentiable ℝ fun u : Fin 1 → ℝ => sigmoid (-1 * u 0) := by
          unfold sigmoid
          have hp : ∀ u : Fin 1 → ℝ, 1 + Real.exp (-(-1 * u 0)) ≠ 0 := fun u => by positivity
          have he : Differentiable ℝ fun u : Fin 1 → ℝ => 1 + Real.exp (-(-1 * u 0)) := by fun_prop
          simp only [one_div]
          exact he.fun_inv hp
        exact hd _
      · have h1 : ∀ u : Fin 1 → ℝ, itemMean (exOneItem (-1) u) (maxCats [2]) (j + 1) = 0 := fun u => by
          simp [itemMean, tableProb, exOneItem]
        simp only [h1]
        exact differentiableAt_const _)
  exact ⟨g, h⟩

end Irt
