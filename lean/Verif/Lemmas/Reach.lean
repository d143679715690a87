import Verif.Spec.Reach
import Mathlib.Algebra.Order.Chebyshev
import Mathlib.Tactic.Positivity
import Mathlib.Tactic.Linarith
import Mathlib.Tactic.NormNum
import Mathlib.Tactic.FieldSimp

/-! # Bounds on the steps of Adam -/

namespace Irt
open Spec

/-- What holds of the averages after any derivatives. -/
structure AdamState.Balanced (a : AdamState) : Prop where
  avg : a.avg ^ 2 ≤ 370 / 7 * a.avgSq
  max : a.avgSq ≤ a.maxSq

theorem AdamState.balanced_start : AdamState.Balanced {} := ⟨by simp, by simp⟩

theorem AdamState.Balanced.nonneg {a : AdamState} (h : a.Balanced) : 0 ≤ a.avgSq := by
  have := h.avg
  nlinarith [sq_nonneg a.avg]

theorem adam_balanced (lr : ℝ) (a : AdamState) (v g : ℝ) (h : a.Balanced) : (adamRule lr a v g).1.Balanced := by
  refine ⟨?_, le_max_right _ _⟩
  show (0.9 * a.avg + 0.1 * g) ^ 2 ≤ 370 / 7 * (0.999 * a.avgSq + 0.001 * g ^ 2)
  have h1 := h.avg
  nlinarith [sq_nonneg (21 * a.avg - 10 * g)]

theorem corrections (t : ℕ) : 1 - (0.999 : ℝ) ^ t ≤ (1 - 0.9 ^ t) ^ 2 := by
  have h81 : (0.81 : ℝ) ^ t = 0.9 ^ t * 0.9 ^ t := by rw [← mul_pow]; norm_num
  have key : 2 * (0.9 : ℝ) ^ t ≤ 0.999 ^ t + 0.81 ^ t := by
    induction t with
    | zero => norm_num
    | succ t ih =>
      have ih := ih (by rw [← mul_pow]; norm_num)
      have hle : (0.81 : ℝ) ^ t ≤ 0.999 ^ t := pow_le_pow_left₀ (by norm_num) (by norm_num) t
      rw [pow_succ, pow_succ, pow_succ]
      nlinarith [pow_nonneg (show (0 : ℝ) ≤ 0.81 by norm_num) t]
  nlinarith

theorem adam_step (lr : ℝ) (hlr : 0 ≤ lr) (a : AdamState) (v g : ℝ) (h : a.Balanced) : |(adamRule lr a v g).2 - v| ≤ 7.28 * lr := by
  have hb := adam_balanced lr a v g h
  set s := (adamRule lr a v g).1
  have hstep : s.step = a.step + 1 := rfl
  have hval : (adamRule lr a v g).2 = v - lr / (1 - 0.9 ^ s.step) * s.avg / (Real.sqrt s.maxSq / Real.sqrt (1 - 0.999 ^ s.step) + 1e-8) := rfl
  have h9 : (0.9 : ℝ) ^ s.step < 1 := pow_lt_one₀ (by norm_num) (by norm_num) (by omega)
  have h999 : (0.999 : ℝ) ^ s.step < 1 := pow_lt_one₀ (by norm_num) (by norm_num) (by omega)
  have hc := corrections s.step
  set p := 1 - (0.9 : ℝ) ^ s.step
  set q := 1 - (0.999 : ℝ) ^ s.step
  have hp : 0 < p := by simp only [p]; linarith
  have hq : 0 < q := by simp only [q]; linarith
  have hsq : 0 < Real.sqrt q := Real.sqrt_pos.2 hq
  have hqp : Real.sqrt q ≤ p := Real.sqrt_le_iff.2 ⟨hp.le, hc⟩
  have hm0 : 0 ≤ s.maxSq := hb.nonneg.trans hb.max
  set u := Real.sqrt s.maxSq
  have hu0 : 0 ≤ u := Real.sqrt_nonneg _
  have hu2 : u ^ 2 = s.maxSq := Real.sq_sqrt hm0
  have havg : |s.avg| ≤ 7.28 * u := by
    refine abs_le_of_sq_le_sq ?_ (by positivity)
    have := hb.avg
    have := hb.max
    nlinarith
  have hden : 0 < u / Real.sqrt q + 1e-8 := by positivity
  rw [hval, show v - lr / p * s.avg / (u / Real.sqrt q + 1e-8) - v = -(lr / p * s.avg / (u / Real.sqrt q + 1e-8)) by ring, abs_neg,
    abs_div, abs_mul, abs_of_pos hden, abs_of_nonneg (by positivity : 0 ≤ lr / p), div_le_iff₀ hden]
  have h1 : u / p ≤ u / Real.sqrt q := div_le_div_of_nonneg_left hu0 hsq hqp
  calc lr / p * |s.avg| ≤ lr / p * (7.28 * u) := mul_le_mul_of_nonneg_left havg (by positivity)
    _ = 7.28 * lr * (u / p) := by ring
    _ ≤ 7.28 * lr * (u / Real.sqrt q + 1e-8) := by
        refine mul_le_mul_of_nonneg_left ?_ (by positivity)
        linarith

/-! ## The learning rate -/

theorem plateau_lr (c : TrainConfig) (p : Plateau) (x : Num) (h : 0 ≤ p.lr) : 0 ≤ (p.step c x).lr ∧ (p.step c x).lr ≤ p.lr := by
  unfold Plateau.step
  dsimp only
  have key : ∀ p1 : Plateau, p1.lr = p.lr →
      0 ≤ (if p1.bad > c.patience then
        { p1 with lr := if p1.lr - max (p1.lr * c.factor) 0 > 1 / 10 ^ 8 then max (p1.lr * c.factor) 0 else p1.lr, bad := 0 }
        else p1 : Plateau).lr ∧
      (if p1.bad > c.patience then
        { p1 with lr := if p1.lr - max (p1.lr * c.factor) 0 > 1 / 10 ^ 8 then max (p1.lr * c.factor) 0 else p1.lr, bad := 0 }
        else p1 : Plateau).lr ≤ p.lr := by
    intro p1 h1
    by_cases hb : p1.bad > c.patience
    · rw [if_pos hb]
      dsimp only
      by_cases hr : p1.lr - max (p1.lr * c.factor) 0 > 1 / 10 ^ 8
      · rw [if_pos hr]
        refine ⟨le_max_right _ _, ?_⟩
        have : (0 : ℝ) < 1 / 10 ^ 8 := by positivity
        linarith
      · rw [if_neg hr, h1]
        exact ⟨h, le_rfl⟩
    · rw [if_neg hb, h1]
      exact ⟨h, le_rfl⟩
  split
  · exact key _ rfl
  · exact key _ rfl

/-! ## One update -/

namespace Autograd

/-- Every entry is at most `D` away from its start, and its averages are balanced. -/
def Near (D : ℝ) (start : List ℝ) (l : List (Param × AdamState)) : Prop :=
  l.length = start.length ∧ ∀ k s, l[k]? = some s → |s.1.value - start.getD k 0| ≤ D ∧ s.2.Balanced

/-- The same for both groups. -/
def NearState (D : ℝ) (w r : List ℝ) (s : State AdamState) : Prop := Near D w s.weight ∧ Near D r s.rest

theorem near_mono {D D' : ℝ} {start : List ℝ} {l : List (Param × AdamState)} (h : Near D start l) (hD : D ≤ D') : Near D' start l :=
  ⟨h.1, fun k s hs => ⟨((h.2 k s hs).1).trans hD, (h.2 k s hs).2⟩⟩

theorem NearState.mono {D D' : ℝ} {w r : List ℝ} {s : State AdamState} (h : NearState D w r s) (hD : D ≤ D') : NearState D' w r s :=
  ⟨near_mono h.1 hD, near_mono h.2 hD⟩

theorem near_step (lr : ℝ) (hlr : 0 ≤ lr) (g : ℕ → ℝ) {D : ℝ} {start : List ℝ} {l : List (Param × AdamState)} (h : Near D start l) :
    Near (D + 7.28 * lr) start (optimizerStep adamRule lr (backward g (zeroGrad l))) := by
  constructor
  · simp [optimizerStep, backward, zeroGrad, h.1]
  · intro k s hs
    simp only [optimizerStep, backward, zeroGrad, List.getElem?_map, List.getElem?_mapIdx, Option.map_map] at hs
    obtain ⟨e, he, rfl⟩ := Option.map_eq_some_iff.1 hs
    obtain ⟨h1, h2⟩ := h.2 k e he
    have h3 : (0 : ℝ) ≤ 7.28 * lr := by positivity
    simp only [Function.comp]
    by_cases hr : e.1.requires = true
    · simp only [hr, if_true]
      refine ⟨?_, adam_balanced _ _ _ _ h2⟩
      have := adam_step lr hlr e.2 e.1.value (0 + g k) h2
      calc |(adamRule lr e.2 e.1.value (0 + g k)).2 - start.getD k 0|
          ≤ |(adamRule lr e.2 e.1.value (0 + g k)).2 - e.1.value| + |e.1.value - start.getD k 0| := abs_sub_le _ _ _
        _ ≤ D + 7.28 * lr := by linarith
    · simp only [hr]
      exact ⟨by simpa using h1.trans (by linarith), h2⟩

theorem near_update (loss : ℕ → List ℕ → List ℝ → List ℝ → Except PyErr Num) (i : ℕ) (b : List ℕ) (lr : ℝ) (hlr : 0 ≤ lr) {D : ℝ}
    {w r : List ℝ} {s : State AdamState} (h : NearState D w r s) :
    NearState (D + 7.28 * lr) w r ((trainer loss fun _ => adamRule).update i b lr s) :=
  ⟨near_step lr hlr _ h.1, near_step lr hlr _ h.2⟩

theorem near_start (l : List Param) : Near 0 (l.map fun p => p.value) (attach ({} : AdamState) l) := by
  constructor
  · simp [attach]
  · intro k s hs
    simp only [attach, List.getElem?_map, Option.map_eq_some_iff] at hs
    obtain ⟨p, hp, rfl⟩ := hs
    refine ⟨?_, AdamState.balanced_start⟩
    simp [List.getD_eq_getElem?_getD, hp]

theorem within_of_near {D : ℝ} (hD : 0 ≤ D) {start : List ℝ} {l : List (Param × AdamState)} (h : Near D start l) :
    Within D start (values l) := by
  refine ⟨by simp [values, h.1], fun k => ?_⟩
  cases hk : l[k]? with
  | some s =>
    have := (h.2 k s hk).1
    simpa [values, List.getD_eq_getElem?_getD, hk] using this
  | none =>
    have h1 : start[k]? = none := by
      have := h.1
      rw [List.getElem?_eq_none_iff] at hk ⊢
      omega
    simpa [values, List.getD_eq_getElem?_getD, hk, h1] using hD

end Autograd

end Irt
