import Verif.Model.Utils
import Verif.Spec.Utils
import Verif.Lemmas.LogLik
import Mathlib.LinearAlgebra.Matrix.ToLinearEquiv
import Mathlib.LinearAlgebra.Matrix.DotProduct
import Mathlib.Data.List.GetD

/-!
# C61, C66: guessing and regression
-/

namespace Irt

/-! ## Linear regression -/

theorem withBias_mul {m n o : ℕ} (x : Matrix (Fin m) (Fin n) ℝ) (w : Matrix (Fin (n + 1)) (Fin o) ℝ) (i : Fin m)
    (k : Fin o) : (withBias x * w) i k = w 0 k + ∑ j, x i j * w j.succ k := by
  simp [withBias, Matrix.mul_apply, Fin.sum_univ_succ]

/-- C66: `linear_regression` returns the unique coefficients minimising the residual sum of squares. -/
theorem C66_least_squares {m n o : ℕ} (x : Matrix (Fin m) (Fin n) ℝ) (y : Matrix (Fin m) (Fin o) ℝ)
    (w : Matrix (Fin (n + 1)) (Fin o) ℝ) (h : linearRegression x y = .ok w) (v : Matrix (Fin (n + 1)) (Fin o) ℝ) :
    residualSumOfSquares x y w ≤ residualSumOfSquares x y v ∧
    (residualSumOfSquares x y v = residualSumOfSquares x y w → v = w) := by
  simp only [linearRegression] at h
  split at h
  · simp at h
  rename_i hdet
  have hu : IsUnit ((withBias x).transpose * withBias x).det := isUnit_iff_ne_zero.2 hdet
  have hw : w = ((withBias x).transpose * withBias x)⁻¹ * (withBias x).transpose * y := by
    injection h with h; exact h.symm
  set B := withBias x with hB
  have hnormal : B.transpose * (y - B * w) = 0 := by
    rw [Matrix.mul_sub, ← Matrix.mul_assoc, hw, ← Matrix.mul_assoc, ← Matrix.mul_assoc, Matrix.mul_nonsing_inv _ hu,
      Matrix.one_mul, sub_self]
  have hrss : ∀ u : Matrix (Fin (n + 1)) (Fin o) ℝ,
      residualSumOfSquares x y u = ((y - B * u).transpose * (y - B * u)).trace := by
    intro u
    simp only [residualSumOfSquares, Matrix.trace, Matrix.diag, Matrix.mul_apply (M := (y - B * u).transpose),
      Matrix.transpose_apply, Matrix.sub_apply]
    rw [Finset.sum_comm]
    refine Finset.sum_congr rfl fun k _ => Finset.sum_congr rfl fun i _ => ?_
    rw [withBias_mul, sq]
  have hsplit : y - B * v = (y - B * w) + B * (w - v) := by rw [Matrix.mul_sub]; abel
  have hcross : (B * (w - v)).transpose * (y - B * w) = 0 := by
    rw [Matrix.transpose_mul, Matrix.mul_assoc, hnormal, Matrix.mul_zero]
  have hcross' : (y - B * w).transpose * (B * (w - v)) = 0 := by
    have := congrArg Matrix.transpose hcross
    simpa [Matrix.transpose_mul] using this
  have hdecomp : residualSumOfSquares x y v
      = residualSumOfSquares x y w + ((B * (w - v)).transpose * (B * (w - v))).trace := by
    rw [hrss, hrss, hsplit, Matrix.transpose_add, Matrix.add_mul, Matrix.mul_add, Matrix.mul_add, hcross, hcross']
    simp [Matrix.trace_add]
  have htr : ((B * (w - v)).transpose * (B * (w - v))).trace = ∑ k, ∑ i, ((B * (w - v)) i k) ^ 2 := by
    generalize B * (w - v) = D
    simp [Matrix.trace, Matrix.mul_apply, sq]
  have hnn : 0 ≤ ((B * (w - v)).transpose * (B * (w - v))).trace := by
    rw [htr]; exact Finset.sum_nonneg fun k _ => Finset.sum_nonneg fun i _ => sq_nonneg _
  refine ⟨by linarith, fun he => ?_⟩
  have h0 : ∑ k, ∑ i, ((B * (w - v)) i k) ^ 2 = 0 := by rw [← htr]; linarith
  have hz : B * (w - v) = 0 := by
    ext i k
    have h1 := (Finset.sum_eq_zero_iff_of_nonneg fun k _ => Finset.sum_nonneg fun i _ => sq_nonneg _).1 h0 k
      (Finset.mem_univ _)
    have h2 := (Finset.sum_eq_zero_iff_of_nonneg fun i _ => sq_nonneg _).1 h1 i (Finset.mem_univ _)
    simpa using h2
  have h3 : (B.transpose * B)⁻¹ * (B.transpose * B) * (w - v) = 0 := by
    rw [Matrix.mul_assoc, Matrix.mul_assoc, hz, Matrix.mul_zero, Matrix.mul_zero]
  rw [Matrix.nonsing_inv_mul _ hu, Matrix.one_mul] at h3
  exact (sub_eq_zero.1 h3).symm

/-- C66: the regression is refused exactly if some nonzero linear combination of the constant and the features vanishes
for every sample, i.e. if the coefficients are not determined. -/
theorem C66_refused {m n o : ℕ} (x : Matrix (Fin m) (Fin n) ℝ) (y : Matrix (Fin m) (Fin o) ℝ) :
    linearRegression x y = .error .runtimeError ↔
      ∃ c : Fin (n + 1) → ℝ, c ≠ 0 ∧ ∀ i, c 0 + ∑ j, x i j * c j.succ = 0 := by
  have hB : ∀ (c : Fin (n + 1) → ℝ) i, ((withBias x).mulVec c) i = c 0 + ∑ j, x i j * c j.succ := by
    intro c i
    simp [withBias, Matrix.mulVec, dotProduct, Fin.sum_univ_succ]
  have h1 : linearRegression x y = .error .runtimeError ↔ ((withBias x).transpose * withBias x).det = 0 := by
    simp only [linearRegression]; split <;> simp_all
  rw [h1, ← Matrix.exists_mulVec_eq_zero_iff]
  constructor
  · rintro ⟨c, hc, h⟩
    refine ⟨c, hc, fun i => ?_⟩
    rw [← hB]
    have h2 : dotProduct ((withBias x).mulVec c) ((withBias x).mulVec c) = 0 := by
      have := congrArg (dotProduct c) h
      rw [← Matrix.mulVec_mulVec, Matrix.dotProduct_mulVec, Matrix.vecMul_transpose] at this
      simpa using this
    exact congrFun (dotProduct_self_eq_zero.1 h2) i
  · rintro ⟨c, hc, h⟩
    refine ⟨c, hc, ?_⟩
    have : (withBias x).mulVec c = 0 := by ext i; rw [hB]; exact h i
    rw [← Matrix.mulVec_mulVec, this, Matrix.mulVec_zero]

/-- Two samples determine a line. -/
example : ∃ w, linearRegression (!![0; 1] : Matrix (Fin 2) (Fin 1) ℝ) (!![1; 3] : Matrix (Fin 2) (Fin 1) ℝ) = .ok w := by
  have : linearRegression (!![0; 1] : Matrix (Fin 2) (Fin 1) ℝ) (!![1; 3] : Matrix (Fin 2) (Fin 1) ℝ)
      ≠ .error .runtimeError := by
    rw [Ne, C66_refused]
    rintro ⟨c, hc, h⟩
    have h0 := h 0
    have h1 := h 1
    simp at h0 h1
    apply hc
    ext i; fin_cases i
    · simpa using h0
    · simpa [h0] using h1
  simp only [linearRegression] at this ⊢
  split at this
  · exact absurd rfl this
  · rename_i h; rw [if_neg h]; exact ⟨_, rfl⟩

/-! ## Random guessing -/

theorem guess_sum (cats k : ℕ) (hk : k < cats) (hc : 2 < cats) (g : ℝ) (f : ℕ → ℝ)
    (hf : ∀ r, f r = if r = k then g else (1 - g) / ((cats : ℝ) - 1)) : ∑ s ∈ Finset.range cats, f s = 1 := by
  have hc' : (2 : ℝ) < cats := by exact_mod_cast hc
  rw [← Finset.add_sum_erase _ _ (Finset.mem_range.2 hk), hf k, if_pos rfl,
    Finset.sum_congr rfl fun r hr => by rw [hf r, if_neg (Finset.ne_of_mem_erase hr)], Finset.sum_const,
    Finset.card_erase_of_mem (Finset.mem_range.2 hk), Finset.card_range, nsmul_eq_mul, Nat.cast_sub (by omega)]
  have : (cats : ℝ) - 1 ≠ 0 := by linarith
  push_cast
  field_simp
  ring

theorem guessingItem_key (cats : ℕ) (hc : 2 < cats) (g : ℝ) (k : ℕ) (hk : k < cats) :
    ∃ f, guessingItem cats g (some k) = .ok f ∧ IsGuess cats k g f ∧ ∑ s ∈ Finset.range cats, f s = 1 := by
  let p₁ : ℕ → ℝ := fun r => if r = k then g else (1 - g) / ((cats : ℝ) - 1)
  let p₂ : ℕ → ℝ := fun r => if p₁ r ≠ g then (1 - g) / ((cats : ℝ) - 1) else p₁ r
  have h2 : ∀ r, p₂ r = if r = k then g else (1 - g) / ((cats : ℝ) - 1) := by
    intro r
    simp only [p₂, p₁]
    split_ifs <;> simp_all
  have hs := guess_sum cats k hk hc g p₂ h2
  refine ⟨fun r => if r < cats then p₂ r / ∑ s ∈ Finset.range cats, p₂ s else 0, ?_, ?_, ?_⟩
  · unfold guessingItem
    rw [if_neg (by omega)]
    dsimp only
    rw [if_neg (by omega), if_neg (by omega)]
  · refine ⟨?_, ?_, ?_⟩
    · dsimp only; rw [if_pos hk, hs, div_one, h2, if_pos rfl]
    · intro r hr hrk
      dsimp only; rw [if_pos hr, hs, div_one, h2, if_neg hrk]
    · intro r hr
      simp only [if_neg (not_lt.2 hr)]
  · rw [← hs]
    refine Finset.sum_congr rfl fun r hr => ?_
    dsimp only
    rw [if_pos (Finset.mem_range.1 hr), hs, div_one]

/-- C61 (partial: without items of two categories whose key is 0, unless their guessing probability is one half): every simulated item with more than two
categories and a key is answered correctly with its guessing probability and otherwise evenly over the other
categories; items with two categories get the answer 1 with that probability. -/
theorem C61_multiple_choice_partial (cats : List ℕ) (gs : List ℝ) (ks : List ℕ) (hg : gs.length = cats.length)
    (hk : ks.length = cats.length) (hgs : ∀ g ∈ gs, 0 ≤ g ∧ g < 1)
    (hc : ∀ j, j < cats.length → 2 ≤ cats.getD j 0 ∧ ks.getD j 0 < cats.getD j 0 ∧
      (cats.getD j 0 = 2 → ks.getD j 0 = 1 ∨ gs.getD j 0 = 1 / 2)) :
    ∃ ds, guessingData cats (some gs) (some ks) = .ok ds ∧ ds.length = cats.length ∧
      ∀ j, j < cats.length → ∃ f, ds[j]? = some f ∧
        IsGuess (cats.getD j 0) (ks.getD j 0) (gs.getD j 0) f ∧ IsDistributionOn (cats.getD j 0) f := by
  let item : ℕ → Except PyErr (ℕ → ℝ) := fun j =>
      if cats.getD j 0 = 2 then guessingItem 2 (gs.getD j 0) none
      else match ks[j]? with
        | some k => guessingItem (cats.getD j 0) (gs.getD j 0) (some k)
        | none => if cats.getD j 0 = 1 then .error .zeroDivision else .error .indexError
  have hitem : ∀ j, j < cats.length → ∃ f, item j = .ok f ∧
      IsGuess (cats.getD j 0) (ks.getD j 0) (gs.getD j 0) f ∧ ∑ s ∈ Finset.range (cats.getD j 0), f s = 1 := by
    intro j hj
    obtain ⟨h2, hlt, hkey⟩ := hc j hj
    by_cases h : cats.getD j 0 = 2
    · refine ⟨fun r => if r = 0 then 1 - gs.getD j 0 else if r = 1 then gs.getD j 0 else 0, ?_, ?_, ?_⟩
      · simp only [item, if_pos h, guessingItem, if_true]
      · rw [h]
        have hlt2 : ks.getD j 0 < 2 := by omega
        generalize ks.getD j 0 = k at hkey hlt2
        refine ⟨?_, ?_, ?_⟩
        · rcases hkey h with hk1 | hg
          · simp [hk1]
          · rw [hg]; interval_cases k <;> norm_num
        · intro r hr hr1
          rcases hkey h with hk1 | hg
          · have : r = 0 := by omega
            subst this
            norm_num
          · rw [hg]; interval_cases r <;> norm_num
        · intro r hr
          have h0 : r ≠ 0 := by omega
          have h1 : r ≠ 1 := by omega
          simp [h0, h1]
      · rw [h]; simp [Finset.sum_range_succ]
    · have hkj : ks[j]? = some (ks.getD j 0) := by
        rw [List.getElem?_eq_getElem (by omega), List.getD_eq_getElem _ _ (by omega)]
      obtain ⟨f, h1, h3⟩ := guessingItem_key (cats.getD j 0) (by omega) (gs.getD j 0) (ks.getD j 0) hlt
      exact ⟨f, by simp only [item, if_neg h, hkj]; exact h1, h3⟩
  choose f hf using hitem
  refine ⟨(List.range cats.length).map fun j => if h : j < cats.length then f j h else fun _ => 0, ?_, by simp, ?_⟩
  · unfold guessingData
    dsimp only
    rw [if_neg (by simpa using hg), if_neg (by simpa using hgs)]
    apply mapM_ok
    intro j hj
    have hj' := List.mem_range.1 hj
    rw [dif_pos hj']
    exact (hf j hj').1
  · intro j hj
    refine ⟨f j hj, by rw [List.getElem?_map, List.getElem?_range hj]; simp [hj], (hf j hj).2.1, ?_⟩
    obtain ⟨ha, hb, hz⟩ := (hf j hj).2.1
    obtain ⟨h2, hlt, -⟩ := hc j hj
    have h2' : (2 : ℝ) ≤ cats.getD j 0 := by exact_mod_cast h2
    have hgj : gs.getD j 0 ∈ gs := by
      rw [List.getD_eq_getElem _ _ (by omega)]; exact List.getElem_mem _
    refine ⟨fun r => ?_, hz, (hf j hj).2.2⟩
    by_cases hr : r < cats.getD j 0
    · by_cases hrk : r = ks.getD j 0
      · rw [hrk, ha]; exact (hgs _ hgj).1
      · rw [hb r hr hrk]
        exact div_nonneg (by linarith [(hgs _ hgj).2]) (by linarith)
    · rw [hz r (not_lt.1 hr)]

/-- C61: without a key, items with two categories are scored 1 with the guessing probability and all others 0. -/
theorem C61_scored (cats : List ℕ) (gs : List ℝ) (hg : gs.length = cats.length) (hgs : ∀ g ∈ gs, 0 ≤ g ∧ g < 1) :
    ∃ ds, guessingData cats (some gs) none = .ok ds ∧ ds.length = cats.length ∧
      ∀ j, j < cats.length → ∃ f, ds[j]? = some f ∧
        (cats.getD j 0 = 2 → f 1 = gs.getD j 0 ∧ f 0 = 1 - gs.getD j 0) ∧ (cats.getD j 0 ≠ 2 → f 0 = 1) := by
  refine ⟨(List.range cats.length).map fun j => if cats.getD j 0 = 2 then
    (fun r => if r = 0 then 1 - gs.getD j 0 else if r = 1 then gs.getD j 0 else 0) else fun r => if r = 0 then 1 else 0,
    ?_, by simp, ?_⟩
  · unfold guessingData
    dsimp only
    rw [if_neg (by simpa using hg), if_neg (by simpa using hgs)]
    apply mapM_ok
    intro j _
    unfold guessingItem
    split <;> rfl
  · intro j hj
    refine ⟨_, by rw [List.getElem?_map, List.getElem?_range hj]; rfl, ?_, ?_⟩
    · intro h; dsimp only; rw [if_pos h]; simp
    · intro h; dsimp only; rw [if_neg h]; simp

/-- C61 is false of the code: an item with two categories whose correct answer is 0 is answered correctly with
probability `1 - g`. -/
theorem C61_first_category_false :
    ∃ f, guessingData [2] (some [0.25]) (some [0]) = .ok [f] ∧ ¬ IsGuess 2 0 0.25 f := by
  refine ⟨fun r => if r = 0 then 1 - 0.25 else if r = 1 then 0.25 else 0, ?_, ?_⟩
  · unfold guessingData
    dsimp only
    rw [if_neg (by simp), if_neg (by norm_num)]
    simp [guessingItem, List.range_succ, bind, Except.bind, pure, Except.pure]
  · rintro ⟨h, -⟩
    norm_num at h

/-- C61: guessing probabilities that are missing, of the wrong number or outside [0,1) are refused. The first is the
documented default. -/
theorem C61_refused (cats : List ℕ) (key : Option (List ℕ)) :
    guessingData cats none key = .error .valueError ∧
    (∀ gs : List ℝ, gs.length ≠ cats.length ∨ (∃ g ∈ gs, g < 0 ∨ 1 ≤ g) →
      guessingData cats (some gs) key = .error .valueError) := by
  refine ⟨rfl, fun gs h => ?_⟩
  unfold guessingData
  dsimp only
  by_cases hl : gs.length = cats.length
  · rw [if_neg (by simpa using hl), if_pos]
    rcases h with h | ⟨g, hg, h⟩
    · exact absurd hl h
    · intro hall
      rcases h with h | h
      · linarith [(hall g hg).1]
      · linarith [(hall g hg).2]
  · rw [if_pos hl]

example : ∃ ds, guessingData [2, 4] (some [0.5, 0.25]) (some [1, 2]) = .ok ds := by
  obtain ⟨ds, h, -⟩ := C61_multiple_choice_partial [2, 4] [0.5, 0.25] [1, 2] rfl rfl (by norm_num) (by
    intro j hj
    have : j = 0 ∨ j = 1 := by simp at hj; omega
    rcases this with rfl | rfl <;> simp)
  exact ⟨ds, h⟩

end Irt
