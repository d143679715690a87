import Verif.Lemmas.ScoreEquationModels
import Verif.Props.ScoreOrder
import Mathlib.Topology.Order.Compact
import Mathlib.Analysis.Normed.Group.Constructions
import Mathlib.Topology.MetricSpace.ProperSpace
import Mathlib.Analysis.SpecialFunctions.Log.Basic

/-!
# A minimum of the marginal likelihood in the intercepts
-/

namespace Irt

open Spec Finset

theorem weighted_mono {d : ℕ} (pts : List (Fin d → ℝ)) (w : List ℝ) (hw : ∀ a ∈ w, 0 < a) (F G : (Fin d → ℝ) → ℝ) (h : ∀ θ, F θ ≤ G θ) :
    weighted pts w F ≤ weighted pts w G := by
  unfold weighted
  induction pts generalizing w with
  | nil => simp
  | cons p pts ih =>
    cases w with
    | nil => simp
    | cons a w =>
      simp only [List.zipWith_cons_cons, List.sum_cons]
      exact add_le_add (mul_le_mul_of_nonneg_left (h p) (hw a (by simp)).le) (ih w fun b hb => hw b (by simp [hb]))

theorem continuous_weighted {d n : ℕ} (pts : List (Fin d → ℝ)) (w : List ℝ) (F : (Fin n → ℝ) → (Fin d → ℝ) → ℝ)
    (h : ∀ θ, Continuous fun p => F p θ) : Continuous fun p => weighted pts w (F p) := by
  unfold weighted
  induction pts generalizing w with
  | nil => simpa using continuous_const
  | cons q pts ih =>
    cases w with
    | nil => simpa using continuous_const
    | cons a w =>
      simp only [List.zipWith_cons_cons, List.sum_cons]
      exact (continuous_const.mul (h q)).add (ih w)

theorem LogitModel.le_one {d : ℕ} {cats : List ℕ} {P : (Fin d → ℝ) → ℕ → ℕ → ℝ} {A : ℕ → ℕ → Fin d → ℝ} {B : ℕ → ℕ → ℝ}
    (h : LogitModel cats P A B) (θ : Fin d → ℝ) (j c r : ℕ) (hc : cats[j]? = some c) (hr : r < c) : P θ j r ≤ 1 := by
  rw [← h.sum_one θ j c hc (by omega)]
  exact single_le_sum (f := fun r => P θ j r) (fun s hs => (h.pos θ j c s hc (mem_range.1 hs)).le) (mem_range.2 hr)

theorem LogitModel.lik_le {d : ℕ} {cats : List ℕ} {P : (Fin d → ℝ) → ℕ → ℕ → ℝ} {A : ℕ → ℕ → Fin d → ℝ} {B : ℕ → ℕ → ℝ}
    (h : LogitModel cats P A B) (row : ℕ → Cell) (hrow : ValidResponses cats row) (θ : Fin d → ℝ) :
    observedLikelihood P cats.length row θ ≤ 1 ∧
      ∀ j c r : ℕ, cats[j]? = some c → r < c → row j = some (r : ℤ) → observedLikelihood P cats.length row θ ≤ P θ j r := by
  have hfac : ∀ j ∈ range cats.length, 0 ≤ (if cellMissing (row j) then (1 : ℝ) else P θ j (responseOf (row j))) ∧
      (if cellMissing (row j) then (1 : ℝ) else P θ j (responseOf (row j))) ≤ 1 := by
    intro j hj
    obtain ⟨c, hc⟩ := getElem?_of_lt cats j (mem_range.1 hj)
    by_cases hm : cellMissing (row j) = true
    · simp [hm]
    · rw [Bool.not_eq_true] at hm
      obtain ⟨r, hr, hrc⟩ := hrow j c hc hm
      have e : responseOf (row j) = r := by rw [hr]; rfl
      simp only [hm, Bool.false_eq_true, if_false, e]
      exact ⟨(h.pos θ j c r hc hrc).le, h.le_one θ j c r hc hrc⟩
  refine ⟨prod_le_one (fun j hj => (hfac j hj).1) fun j hj => (hfac j hj).2, ?_⟩
  intro j c r hc hr hj
  have hmem : j ∈ range cats.length := mem_range.2 (lt_of_getElem?_some hc)
  unfold observedLikelihood
  rw [← mul_prod_erase _ _ hmem]
  have hm : cellMissing (row j) = false := by
    rw [hj]
    simp only [cellMissing, decide_eq_false_iff_not]
    omega
  have e : responseOf (row j) = r := by rw [hj]; rfl
  simp only [hm, Bool.false_eq_true, if_false, e]
  exact mul_le_of_le_one_right (h.pos θ j c r hc hr).le (prod_le_one (fun j hj => (hfac j (mem_of_mem_erase hj)).1)
    fun j hj => (hfac j (mem_of_mem_erase hj)).2)

/-- The likelihood of an answer is at most the odds of it against another one. -/
theorem LogitModel.le_odds {d : ℕ} {cats : List ℕ} {P : (Fin d → ℝ) → ℕ → ℕ → ℝ} {A : ℕ → ℕ → Fin d → ℝ} {B : ℕ → ℕ → ℝ}
    (h : LogitModel cats P A B) (θ : Fin d → ℝ) (j c r s : ℕ) (hc : cats[j]? = some c) (hr : r < c) (hs : s < c) :
    P θ j r ≤ Real.exp (∑ k, (A j r k - A j s k) * θ k) * Real.exp (-(B j s - B j r)) := by
  rw [h θ j c r hc hr]
  have h1 : Real.exp (∑ k, A j s k * θ k + B j s) ≤ ∑ s ∈ range c, Real.exp (∑ k, A j s k * θ k + B j s) :=
    single_le_sum (f := fun s => Real.exp (∑ k, A j s k * θ k + B j s)) (fun _ _ => (Real.exp_pos _).le) (mem_range.2 hs)
  refine (div_le_div_of_nonneg_left (Real.exp_pos _).le (Real.exp_pos _) h1).trans (le_of_eq ?_)
  rw [← Real.exp_sub, ← Real.exp_add]
  congr 1
  simp only [sub_mul, sum_sub_distrib]
  ring

/-- The negative log marginal likelihood has a minimum in intercepts whose absolute values are at most the difference of two intercepts of
their item, if every answer to every answered item was given. -/
theorem marginal_minimum {d n : ℕ} {cats : List ℕ} (P : (Fin n → ℝ) → (Fin d → ℝ) → ℕ → ℕ → ℝ) (A : ℕ → ℕ → Fin d → ℝ)
    (B : (Fin n → ℝ) → ℕ → ℕ → ℝ) (hP : ∀ p, LogitModel cats (P p) A (B p)) (hB : ∀ j r, Continuous fun p => B p j r)
    (own : Fin n → ℕ) (hspread : ∀ p e, ∃ c r s, cats[own e]? = some c ∧ r < c ∧ s < c ∧ |p e| ≤ B p (own e) s - B p (own e) r)
    (hlocal : ∀ p p' j c r, cats[j]? = some c → r < c → (∀ e, own e = j → p e = p' e) → B p j r = B p' j r)
    (pts : Thetas d) (w : List ℝ) (hlen : w.length = pts.length) (hne : pts ≠ []) (hw : ∀ a ∈ w, 0 < a)
    (N : ℕ) (y : ℕ → ℕ → Cell) (hy : ∀ i, i < N → ValidResponses cats (y i))
    (hall : ∀ j c : ℕ, cats[j]? = some c → (∃ i, i < N ∧ cellMissing (y i j) = false) → ∀ r : ℕ, r < c → ∃ i, i < N ∧ y i j = some (r : ℤ)) :
    ∃ p : Fin n → ℝ, ∀ q : Fin n → ℝ,
      -∑ i ∈ range N, Real.log (weighted pts w (observedLikelihood (P p) cats.length (y i)))
        ≤ -∑ i ∈ range N, Real.log (weighted pts w (observedLikelihood (P q) cats.length (y i))) := by
  classical
  set f : (Fin n → ℝ) → ℝ := fun p => -∑ i ∈ range N, Real.log (weighted pts w (observedLikelihood (P p) cats.length (y i))) with hf
  have hposP : ∀ p, PositiveProbs (P p) cats := fun p θ j c r hc hr => (hP p).pos θ j c r hc hr
  have hwpos : ∀ p i, i < N → 0 < weighted pts w (observedLikelihood (P p) cats.length (y i)) := fun p i hi =>
    weighted_lik_positive pts w hlen hne hw _ fun θ => observedLikelihood_pos (hposP p) _ (hy i hi) θ
  -- continuity
  have hcont : Continuous f := by
    refine (continuous_finsetSum _ fun i hi => ?_).neg
    have hi := mem_range.1 hi
    refine Continuous.log ?_ fun p => (hwpos p i hi).ne'
    refine continuous_weighted pts w _ fun θ => ?_
    unfold observedLikelihood
    refine continuous_finsetProd _ fun j hj => ?_
    obtain ⟨c, hc⟩ := getElem?_of_lt cats j (mem_range.1 hj)
    by_cases hm : cellMissing (y i j) = true
    · simp only [hm, if_true]
      exact continuous_const
    · rw [Bool.not_eq_true] at hm
      obtain ⟨r, hr, hrc⟩ := hy i hi j c hc hm
      have e : responseOf (y i j) = r := by rw [hr]; rfl
      simp only [hm, Bool.false_eq_true, if_false, e]
      rw [show (fun p => P p θ j r) = fun p => _ from funext fun p => hP p θ j c r hc hrc]
      refine Continuous.div ?_ ?_ fun p => (sum_pos (fun _ _ => Real.exp_pos _) ⟨r, mem_range.2 hrc⟩).ne'
      · exact Real.continuous_exp.comp (continuous_const.add (hB j r))
      · exact continuous_finsetSum _ fun s _ => Real.continuous_exp.comp (continuous_const.add (hB j s))
  -- bounds
  set S := weighted pts w (fun _ => 1) with hS
  have hSpos : 0 < S := weighted_lik_positive pts w hlen hne hw _ fun _ => one_pos
  set M := maxCats cats with hM
  set T := ∑ j ∈ range cats.length, ∑ r ∈ range M, ∑ s ∈ range M, weighted pts w (fun θ => Real.exp (∑ k, (A j r k - A j s k) * θ k)) with hT
  have hTpos : ∀ j r s, 0 < weighted pts w (fun θ => Real.exp (∑ k, (A j r k - A j s k) * θ k)) := fun j r s =>
    weighted_lik_positive pts w hlen hne hw _ fun _ => Real.exp_pos _
  have hTle : ∀ j c r s, cats[j]? = some c → r < c → s < c → weighted pts w (fun θ => Real.exp (∑ k, (A j r k - A j s k) * θ k)) ≤ T := by
    intro j c r s hc hr hs
    have hcM : c ≤ M := le_maxCats _ _ (List.mem_of_getElem? hc)
    have h1 := single_le_sum (f := fun s => weighted pts w (fun θ => Real.exp (∑ k, (A j r k - A j s k) * θ k)))
      (fun s _ => (hTpos j r s).le) (mem_range.2 (show s < M by omega))
    have h2 := single_le_sum (f := fun r => ∑ s ∈ range M, weighted pts w (fun θ => Real.exp (∑ k, (A j r k - A j s k) * θ k)))
      (fun r _ => sum_nonneg fun s _ => (hTpos j r s).le) (mem_range.2 (show r < M by omega))
    have h3 := single_le_sum (f := fun j => ∑ r ∈ range M, ∑ s ∈ range M, weighted pts w (fun θ => Real.exp (∑ k, (A j r k - A j s k) * θ k)))
      (fun j _ => sum_nonneg fun r _ => sum_nonneg fun s _ => (hTpos j r s).le) (mem_range.2 (lt_of_getElem?_some hc))
    exact h1.trans (h2.trans h3)
  have hterm : ∀ p i, i < N → Real.log (weighted pts w (observedLikelihood (P p) cats.length (y i))) ≤ |Real.log S| := fun p i hi =>
    (Real.log_le_log (hwpos p i hi) (weighted_mono pts w hw _ _ fun θ => ((hP p).lik_le (y i) (hy i hi) θ).1)).trans (le_abs_self _)
  have hlow : ∀ p e, (∃ i, i < N ∧ cellMissing (y i (own e)) = false) → |p e| - |Real.log T| - N * |Real.log S| ≤ f p := by
    intro p e ha
    obtain ⟨c, r, s, hc, hr, hs, hle⟩ := hspread p e
    obtain ⟨i, hi, hir⟩ := hall (own e) c hc ha r hr
    have h1 : weighted pts w (observedLikelihood (P p) cats.length (y i)) ≤ T * Real.exp (-|p e|) := by
      have h2 : weighted pts w (observedLikelihood (P p) cats.length (y i))
          ≤ weighted pts w (fun θ => Real.exp (-|p e|) * Real.exp (∑ k, (A (own e) r k - A (own e) s k) * θ k)) := by
        refine weighted_mono pts w hw _ _ fun θ => (((hP p).lik_le (y i) (hy i hi) θ).2 (own e) c r hc hr hir).trans ?_
        refine ((hP p).le_odds θ (own e) c r s hc hr hs).trans ?_
        rw [mul_comm]
        exact mul_le_mul_of_nonneg_right (Real.exp_le_exp.2 (by linarith)) (Real.exp_pos _).le
      rw [weighted_smul, mul_comm] at h2
      exact h2.trans (mul_le_mul_of_nonneg_right (hTle _ c r s hc hr hs) (Real.exp_pos _).le)
    have hT0 : 0 < T := (hTpos (own e) r s).trans_le (hTle _ c r s hc hr hs)
    have h3 := Real.log_le_log (hwpos p i hi) h1
    rw [Real.log_mul hT0.ne' (Real.exp_pos _).ne', Real.log_exp] at h3
    have h4 : ∑ i' ∈ range N, Real.log (weighted pts w (observedLikelihood (P p) cats.length (y i')))
        ≤ (Real.log T + -|p e|) + N * |Real.log S| := by
      rw [← add_sum_erase _ _ (mem_range.2 hi)]
      refine add_le_add h3 ?_
      refine (sum_le_card_nsmul _ _ |Real.log S| fun i' hi' => hterm p i' (mem_range.1 (mem_of_mem_erase hi'))).trans ?_
      rw [nsmul_eq_mul]
      refine mul_le_mul_of_nonneg_right (Nat.cast_le.2 ?_) (abs_nonneg _)
      exact (card_le_card (erase_subset _ _)).trans (card_range N).le
    have := le_abs_self (Real.log T)
    simp only [hf]
    linarith
  -- intercepts of unanswered items do not matter
  let π : (Fin n → ℝ) → Fin n → ℝ := fun p e => if ∃ i, i < N ∧ cellMissing (y i (own e)) = false then p e else 0
  have hπ : ∀ p, f (π p) = f p := by
    intro p
    simp only [hf]
    congr 1
    refine sum_congr rfl fun i hi => ?_
    have hi := mem_range.1 hi
    congr 2
    funext θ
    unfold observedLikelihood
    refine prod_congr rfl fun j hj => ?_
    obtain ⟨c, hc⟩ := getElem?_of_lt cats j (mem_range.1 hj)
    by_cases hm : cellMissing (y i j) = true
    · simp only [hm, if_true]
    · rw [Bool.not_eq_true] at hm
      obtain ⟨r, hr, hrc⟩ := hy i hi j c hc hm
      have e : responseOf (y i j) = r := by rw [hr]; rfl
      simp only [hm, Bool.false_eq_true, if_false, e]
      have hB' : ∀ s, s < c → B (π p) j s = B p j s := fun s hs => hlocal _ _ j c s hc hs fun e he => by
        simp only [π]
        rw [if_pos ⟨i, hi, by rw [he]; exact hm⟩]
      rw [hP _ θ j c r hc hrc, hP _ θ j c r hc hrc, hB' r hrc]
      congr 1
      exact sum_congr rfl fun s hs => by rw [hB' s (mem_range.1 hs)]
  set R := max 0 (f 0 + |Real.log T| + N * |Real.log S|) with hR
  have hRpos : 0 ≤ R := le_max_left _ _
  obtain ⟨p, _, hp⟩ := (isCompact_closedBall (0 : Fin n → ℝ) R).exists_isMinOn ⟨0, Metric.mem_closedBall_self hRpos⟩ hcont.continuousOn
  refine ⟨p, fun q => ?_⟩
  show f p ≤ f q
  rw [← hπ q]
  by_cases hq : π q ∈ Metric.closedBall (0 : Fin n → ℝ) R
  · exact hp hq
  · have h0 : f p ≤ f 0 := hp (Metric.mem_closedBall_self hRpos)
    refine h0.trans ?_
    rw [mem_closedBall_zero_iff, pi_norm_le_iff_of_nonneg hRpos] at hq
    push Not at hq
    obtain ⟨e, he⟩ := hq
    rw [Real.norm_eq_abs] at he
    have ha : ∃ i, i < N ∧ cellMissing (y i (own e)) = false := by
      by_contra hcon
      simp only [π, if_neg hcon, abs_zero] at he
      linarith
    have h1 := hlow (π q) e ha
    have h2 : f 0 + |Real.log T| + N * |Real.log S| ≤ R := le_max_right _ _
    linarith

theorem LogitModel.congr {d : ℕ} {cats : List ℕ} {P : (Fin d → ℝ) → ℕ → ℕ → ℝ} {A A' : ℕ → ℕ → Fin d → ℝ} {B B' : ℕ → ℕ → ℝ}
    (h : LogitModel cats P A B) (hA : ∀ j c r k, cats[j]? = some c → r < c → A j r k = A' j r k)
    (hB : ∀ j c r, cats[j]? = some c → r < c → B j r = B' j r) : LogitModel cats P A' B' := by
  intro θ j c r hc hr
  have e : ∀ s, s < c → ∑ k, A j s k * θ k + B j s = ∑ k, A' j s k * θ k + B' j s := fun s hs => by
    rw [hB j c s hc hs, sum_congr rfl fun k _ => by rw [hA j c s k hc hs]]
  rw [h θ j c r hc hr, e r hr]
  congr 1
  exact sum_congr rfl fun s hs => by rw [e s (mem_range.1 hs)]

theorem getD_ofFn {n : ℕ} (p : Fin n → ℝ) (k : ℕ) : (List.ofFn p).getD k 0 = if h : k < n then p ⟨k, h⟩ else 0 := by
  rw [List.getD_eq_getElem?_getD, List.getElem?_ofFn]
  by_cases h : k < n
  · simp [h]
  · simp [h]

theorem continuous_getD_ofFn {n : ℕ} (k : ℕ) : Continuous fun p : Fin n → ℝ => (List.ofFn p).getD k 0 := by
  simp only [getD_ofFn]
  by_cases h : k < n
  · simp only [h, dif_pos]
    exact continuous_apply _
  · simp only [h, dif_neg, not_false_eq_true]
    exact continuous_const

theorem scatter_getD (m : List Bool) (b : List ℝ) (hb : b.length = countTrue m) (i : ℕ) :
    (scatterMask 0 m b).getD i 0 = if m[i]? = some true then b.getD (countTrue (m.take i)) 0 else 0 := by
  rw [List.getD_eq_getElem?_getD]
  rcases h : m[i]? with _ | v
  · rw [List.getElem?_eq_none (by rw [length_scatterMask]; exact List.getElem?_eq_none_iff.1 h)]
    simp
  · cases v
    · rw [scatterMask_false _ _ _ _ h]
      simp
    · obtain ⟨v, hv⟩ := getElem?_of_lt b _ (hb ▸ countTrue_take_lt m i h)
      rw [scatterMask_true _ _ _ h v hv, List.getD_eq_getElem?_getD, hv]
      simp

/-- The entries of a masked tensor are stored in order: each number below the count is the place of exactly one entry. -/
theorem exists_position (m : List Bool) (n : ℕ) (hn : n < countTrue m) : ∃ i, m[i]? = some true ∧ countTrue (m.take i) = n := by
  unfold countTrue at *
  induction m generalizing n with
  | nil => simp at hn
  | cons b m ih =>
    cases b
    · obtain ⟨i, h, e⟩ := ih n (by simpa using hn)
      exact ⟨i + 1, by simpa using h, by simpa using e⟩
    · cases n with
      | zero => exact ⟨0, rfl, rfl⟩
      | succ n =>
        obtain ⟨i, h, e⟩ := ih n (by simpa using hn)
        exact ⟨i + 1, by simpa using h, by simpa using e⟩

theorem position_unique (m : List Bool) (i i' : ℕ) (h : m[i]? = some true) (h' : m[i']? = some true)
    (e : countTrue (m.take i) = countTrue (m.take i')) : i = i' := by
  have key : ∀ a b, a < b → m[a]? = some true → countTrue (m.take a) < countTrue (m.take b) := by
    intro a b hab ha
    have := countTrue_take_lt (m.take b) a (by rw [List.getElem?_take, if_pos hab]; exact ha)
    rwa [List.take_take, min_eq_left hab.le] at this
  rcases lt_trichotomy i i' with hlt | rfl | hlt
  · have := key i i' hlt h; omega
  · rfl
  · have := key i' i hlt h'; omega

/-- Positions of the free intercepts. -/
theorem free_position (M : ℕ) (cats : List ℕ) (hM : ∀ c ∈ cats, c ≤ M) (i : ℕ) (h : (freeMask M cats)[i]? = some true) :
    ∃ j c k, cats[j]? = some c ∧ 0 < k ∧ k < c ∧ i = j * M + k := by
  have hi := lt_of_getElem?_some h
  rw [length_freeMask] at hi
  have hM0 : 0 < M := by
    rcases Nat.eq_zero_or_pos M with h0 | h0
    · subst h0; simp at hi
    · exact h0
  have hj : i / M < cats.length := Nat.div_lt_of_lt_mul (by rwa [mul_comm] at hi)
  obtain ⟨c, hc⟩ := getElem?_of_lt cats _ hj
  have hk : i % M < M := Nat.mod_lt _ hM0
  have e : i = i / M * M + i % M := (Nat.div_add_mod' i M).symm
  rw [e, freeMask_getElem? M cats _ _ c hc hk] at h
  simp only [ne_eq, Option.some.injEq, Bool.and_eq_true, decide_eq_true_eq] at h
  exact ⟨i / M, c, i % M, hc, by omega, h.2, e⟩

theorem smallest_of_minimum {n : ℕ} (loss : List ℝ → Except PyErr Num) (g : (Fin n → ℝ) → ℝ)
    (h : ∀ p : Fin n → ℝ, lossValue (loss (List.ofFn p)) = g p) (hmin : ∃ p, ∀ q, g p ≤ g q) :
    ∃ b : List ℝ, b.length = n ∧ SmallestAt loss b := by
  obtain ⟨p, hp⟩ := hmin
  refine ⟨List.ofFn p, by simp, fun q hq => ?_⟩
  rw [List.length_ofFn] at hq
  subst hq
  have := hp fun i => q[(i : ℕ)]
  rw [← h, ← h] at this
  rwa [List.ofFn_getElem] at this

theorem given_iff (cats : List ℕ) (N : ℕ) (y : ℕ → ℕ → Cell) : EveryAnswerGiven cats N y ↔
    ∀ j c : ℕ, cats[j]? = some c → (∃ i, i < N ∧ cellMissing (y i j) = false) → ∀ r : ℕ, r < c → ∃ i, i < N ∧ y i j = some (r : ℤ) := by
  have h1 : ∀ j, (answeredBy N y j).Nonempty ↔ ∃ i, i < N ∧ cellMissing (y i j) = false := fun j => by
    simp [answeredBy, Finset.Nonempty]
  have h2 : ∀ j r : ℕ, 0 < chosenBy N y j r ↔ ∃ i, i < N ∧ y i j = some (r : ℤ) := fun j r => by
    simp [chosenBy, card_pos, Finset.Nonempty]
  simp only [EveryAnswerGiven, h1, h2]
  exact ⟨fun h j c hc ha r hr => h j c r hc hr ha, fun h j c r hc hr ha => h j c hc ha r hr⟩

theorem OnePL.minimum (m : OnePL) (hwf : m.WF) (h0 : 0 < m.items) (pts : Thetas 1) (lw : List ℝ)
    (hlen : lw.length = pts.length) (hne : pts ≠ []) (N : ℕ) (y : ℕ → ℕ → Cell)
    (hy : ∀ i, i < N → ValidResponses (List.replicate m.items 2) (y i)) (hall : EveryAnswerGiven (List.replicate m.items 2) N y) :
    ∃ b : List ℝ, b.length = m.items ∧
      SmallestAt (fun b => mmlLoss ({ m with bias := b } : OnePL).scorer (rowsOf N m.items y) pts lw) b := by
  have hwf' : ∀ p : Fin m.items → ℝ, ({ m with bias := List.ofFn p } : OnePL).WF := fun p => by
    show (List.ofFn p).length = m.items
    simp
  have hL : ∀ p : Fin m.items → ℝ, LogitModel (d := 1) (List.replicate m.items 2)
      (fun θ => tableProb (({ m with bias := List.ofFn p } : OnePL).probs (θ 0))) (fun _ r _ => r)
      (fun j r => r * (List.ofFn p).getD j 0) := fun p => OnePL.logitModel { m with bias := List.ofFn p } (hwf' p)
  refine smallest_of_minimum _ _ (fun p => ?_) (marginal_minimum _ _ _ hL ?_ (fun e => e) ?_ ?_ pts (lw.map Real.exp) (by simpa using hlen) hne
    (by simp only [List.mem_map]; rintro a ⟨x, _, rfl⟩; exact Real.exp_pos _) N y hy ((given_iff _ _ _).1 hall))
  · have := mmlLoss_weighted (OnePL.isScorer { m with bias := List.ofFn p } (hwf' p) h0)
      (fun θ j c r hc hr => (hL p).pos θ j c r hc hr) N y hy pts lw hlen hne
    dsimp only at this ⊢
    rw [List.length_replicate] at this
    rw [this, List.length_replicate]
    rfl
  · exact fun j r => continuous_const.mul (continuous_getD_ofFn j)
  · intro p e
    have hv : (List.ofFn p).getD (e : ℕ) 0 = p e := by rw [getD_ofFn, dif_pos e.isLt]
    rcases le_total 0 (p e) with h | h
    · refine ⟨2, 0, 1, getElem?_replicate_two e.isLt, by omega, by omega, ?_⟩
      rw [hv, abs_of_nonneg h]
      simp
    · refine ⟨2, 1, 0, getElem?_replicate_two e.isLt, by omega, by omega, ?_⟩
      rw [hv, abs_of_nonpos h]
      simp
  · intro p p' j c r hc hr h
    obtain ⟨hj, rfl⟩ := replicate_getElem? _ _ _ _ hc
    rw [getD_ofFn, getD_ofFn, dif_pos hj, dif_pos hj, h ⟨j, hj⟩ rfl]

theorem TwoPL.minimum (m : TwoPL) (hwf : m.WF) (h0 : 0 < m.items) (pts : Thetas m.lv) (lw : List ℝ)
    (hlen : lw.length = pts.length) (hne : pts ≠ []) (N : ℕ) (y : ℕ → ℕ → Cell)
    (hy : ∀ i, i < N → ValidResponses (List.replicate m.items 2) (y i)) (hall : EveryAnswerGiven (List.replicate m.items 2) N y) :
    ∃ b : List ℝ, b.length = m.items ∧
      SmallestAt (fun b => mmlLoss (({ m with bias := b } : TwoPL).scorer m.lv) (rowsOf N m.items y) pts lw) b := by
  have hwf' : ∀ p : Fin m.items → ℝ, ({ m with bias := List.ofFn p } : TwoPL).WF := fun p =>
    m.wf_bias hwf _ (by rw [hwf.biasLen]; simp)
  have hL : ∀ p : Fin m.items → ℝ, LogitModel (d := m.lv) (List.replicate m.items 2)
      (fun θ => tableProb (({ m with bias := List.ofFn p } : TwoPL).probs (List.ofFn θ)))
      (fun j r k => r * slopeOf m.itemParameters j k) (fun j r => r * (List.ofFn p).getD j 0) := fun p =>
    (TwoPL.logitModel { m with bias := List.ofFn p } (hwf' p) m.lv).congr
      (fun j c r k hc hr => by
        obtain ⟨hj, rfl⟩ := replicate_getElem? _ _ _ _ hc
        rw [TwoPL.slope_entry { m with bias := List.ofFn p } (hwf' p) j k hj k.isLt, TwoPL.slope_entry m hwf j k hj k.isLt])
      (fun j c r hc hr => by
        obtain ⟨hj, rfl⟩ := replicate_getElem? _ _ _ _ hc
        rw [TwoPL.intercept_entry { m with bias := List.ofFn p } (hwf' p) j hj])
  refine smallest_of_minimum _ _ (fun p => ?_) (marginal_minimum _ _ _ hL ?_ (fun e => e) ?_ ?_ pts (lw.map Real.exp) (by simpa using hlen) hne
    (by simp only [List.mem_map]; rintro a ⟨x, _, rfl⟩; exact Real.exp_pos _) N y hy ((given_iff _ _ _).1 hall))
  · have := mmlLoss_weighted (TwoPL.isScorer { m with bias := List.ofFn p } (hwf' p) h0 m.lv)
      (fun θ j c r hc hr => (hL p).pos θ j c r hc hr) N y hy pts lw hlen hne
    dsimp only at this ⊢
    rw [List.length_replicate] at this
    rw [this, List.length_replicate]
    rfl
  · exact fun j r => continuous_const.mul (continuous_getD_ofFn j)
  · intro p e
    have hv : (List.ofFn p).getD (e : ℕ) 0 = p e := by rw [getD_ofFn, dif_pos e.isLt]
    rcases le_total 0 (p e) with h | h
    · refine ⟨2, 0, 1, getElem?_replicate_two e.isLt, by omega, by omega, ?_⟩
      rw [hv, abs_of_nonneg h]
      simp
    · refine ⟨2, 1, 0, getElem?_replicate_two e.isLt, by omega, by omega, ?_⟩
      rw [hv, abs_of_nonpos h]
      simp
  · intro p p' j c r hc hr h
    obtain ⟨hj, rfl⟩ := replicate_getElem? _ _ _ _ hc
    rw [getD_ofFn, getD_ofFn, dif_pos hj, dif_pos hj, h ⟨j, hj⟩ rfl]

/-- The item of each free intercept, with what is needed of the flat intercepts. -/
theorem free_owner (M n : ℕ) (cats : List ℕ) (hM : ∀ c ∈ cats, c ≤ M) (hn : n = countTrue (freeMask M cats)) :
    ∃ own : Fin n → ℕ, (∀ e, ∃ c k, cats[own e]? = some c ∧ 0 < k ∧ k < c ∧
        ∀ p : Fin n → ℝ, (scatterMask 0 (freeMask M cats) (List.ofFn p)).getD (own e * M + k) 0 = p e) ∧
      ∀ (p p' : Fin n → ℝ) (j k : ℕ), k < M → (∀ e, own e = j → p e = p' e) →
        (scatterMask 0 (freeMask M cats) (List.ofFn p)).getD (j * M + k) 0
          = (scatterMask 0 (freeMask M cats) (List.ofFn p')).getD (j * M + k) 0 := by
  have h1 : ∀ e : Fin n, ∃ i, (freeMask M cats)[i]? = some true ∧ countTrue ((freeMask M cats).take i) = e := fun e =>
    exists_position _ _ (hn ▸ e.isLt)
  choose pos hpos hcount using h1
  have h2 := fun e => free_position M cats hM (pos e) (hpos e)
  choose own c k hc hk0 hk he using h2
  have hlen : ∀ p : Fin n → ℝ, (List.ofFn p).length = countTrue (freeMask M cats) := fun p => by simpa using hn
  refine ⟨own, fun e => ⟨c e, k e, hc e, hk0 e, hk e, fun p => ?_⟩, ?_⟩
  · rw [scatter_getD _ _ (hlen p), ← he e, if_pos (hpos e), hcount e, getD_ofFn, dif_pos e.isLt]
  · intro p p' j k' hk' h
    rw [scatter_getD _ _ (hlen p), scatter_getD _ _ (hlen p')]
    by_cases ht : (freeMask M cats)[j * M + k']? = some true
    · rw [if_pos ht, if_pos ht]
      have hlt : countTrue ((freeMask M cats).take (j * M + k')) < n := hn ▸ countTrue_take_lt _ _ ht
      rw [getD_ofFn, getD_ofFn, dif_pos hlt, dif_pos hlt]
      refine h _ ?_
      have hu := position_unique _ _ _ (hpos ⟨_, hlt⟩) ht (hcount ⟨_, hlt⟩)
      rw [he] at hu
      have hkM : k ⟨_, hlt⟩ < M := (hk _).trans_le (hM _ (List.mem_of_getElem? (hc _)))
      exact ((cell_eq hk' hkM).1 hu).1
    · rw [if_neg ht, if_neg ht]

theorem continuous_scatter {n : ℕ} (m : List Bool) (hn : n = countTrue m) (i : ℕ) :
    Continuous fun p : Fin n → ℝ => (scatterMask 0 m (List.ofFn p)).getD i 0 := by
  have : (fun p : Fin n → ℝ => (scatterMask 0 m (List.ofFn p)).getD i 0)
      = fun p => if m[i]? = some true then (List.ofFn p).getD (countTrue (m.take i)) 0 else 0 :=
    funext fun p => scatter_getD _ _ (by simpa using hn) _
  rw [this]
  by_cases h : m[i]? = some true
  · simp only [if_pos h]
    exact continuous_getD_ofFn _
  · simp only [if_neg h]
    exact continuous_const

theorem scatter_zero {n : ℕ} (m : List Bool) (hn : n = countTrue m) (i : ℕ) (h : m[i]? = some false) (p : Fin n → ℝ) :
    (scatterMask 0 m (List.ofFn p)).getD i 0 = 0 := by
  rw [scatter_getD _ _ (by simpa using hn), h]
  simp

theorem GPC.minimum (m : GPC) (hwf : m.WF) (hcats : m.cats ≠ []) (pts : Thetas m.lv) (lw : List ℝ)
    (hlen : lw.length = pts.length) (hne : pts ≠ []) (N : ℕ) (y : ℕ → ℕ → Cell) (hy : ∀ i, i < N → ValidResponses m.cats (y i))
    (hall : EveryAnswerGiven m.cats N y) : ∃ b : List ℝ, b.length = m.bias.length ∧
      SmallestAt (fun b => mmlLoss (({ m with bias := b } : GPC).scorer m.lv) (rowsOf N m.cats.length y) pts lw) b := by
  have hM : ∀ c ∈ m.cats, c ≤ m.M := fun c hc => le_maxCats _ _ hc
  have hn : m.bias.length = countTrue (freeMask m.M m.cats) := by rw [hwf.biasLen, count_freeMask m.M m.cats hwf.catsPos hM]
  have hwf' : ∀ p : Fin m.bias.length → ℝ, ({ m with bias := List.ofFn p } : GPC).WF := fun p => m.wf_bias hwf _ (by simp)
  have hL : ∀ p : Fin m.bias.length → ℝ, LogitModel (d := m.lv) m.cats
      (fun θ => tableProb (({ m with bias := List.ofFn p } : GPC).probs (List.ofFn θ)))
      (fun j r k => r * slopeOf m.itemParameters j k)
      (fun j r => (scatterMask 0 (freeMask m.M m.cats) (List.ofFn p)).getD (j * m.M + r) 0) := fun p =>
    (GPC.logitModel { m with bias := List.ofFn p } (hwf' p) m.lv).congr
      (fun j c r k hc hr => by
        have hj := lt_of_getElem?_some hc
        rw [GPC.slope_entry { m with bias := List.ofFn p } (hwf' p) j k hj k.isLt, GPC.slope_entry m hwf j k hj k.isLt])
      (fun j c r hc hr => by
        have hj := lt_of_getElem?_some hc
        exact GPC.intercept_entry { m with bias := List.ofFn p } j r hj (hr.trans_le (hM c (List.mem_of_getElem? hc))))
  obtain ⟨own, hown, hlocal⟩ := free_owner m.M m.bias.length m.cats hM hn
  refine smallest_of_minimum _ _ (fun p => ?_) (marginal_minimum _ _ _ hL ?_ own ?_ ?_ pts (lw.map Real.exp) (by simpa using hlen) hne
    (by simp only [List.mem_map]; rintro a ⟨x, _, rfl⟩; exact Real.exp_pos _) N y hy ((given_iff _ _ _).1 hall))
  · have := mmlLoss_weighted (GPC.isScorer { m with bias := List.ofFn p } (hwf' p) hcats m.lv)
      (fun θ j c r hc hr => (hL p).pos θ j c r hc hr) N y hy pts lw hlen hne
    dsimp only at this ⊢
    rw [this]
    rfl
  · exact fun j r => continuous_scatter _ hn _
  · intro p e
    obtain ⟨c, k, hc, hk0, hk, hv⟩ := hown e
    have hM0 : 0 < m.M := by have := hM c (List.mem_of_getElem? hc); omega
    have hz : (scatterMask 0 (freeMask m.M m.cats) (List.ofFn p)).getD (own e * m.M + 0) 0 = 0 :=
      scatter_zero _ hn _ (by rw [freeMask_getElem? m.M m.cats (own e) 0 c hc hM0]; simp) p
    rcases le_total 0 (p e) with h | h
    · refine ⟨c, 0, k, hc, by omega, hk, ?_⟩
      rw [hv, hz, abs_of_nonneg h, sub_zero]
    · refine ⟨c, k, 0, hc, hk, by omega, ?_⟩
      rw [hv, hz, abs_of_nonpos h, zero_sub]
  · intro p p' j c r hc hr h
    exact hlocal p p' j r (hr.trans_le (hM c (List.mem_of_getElem? hc))) h

theorem NRM.minimum (m : NRM) (hwf : m.WF) (hcats : m.cats ≠ []) (pts : Thetas m.lv) (lw : List ℝ)
    (hlen : lw.length = pts.length) (hne : pts ≠ []) (N : ℕ) (y : ℕ → ℕ → Cell) (hy : ∀ i, i < N → ValidResponses m.cats (y i))
    (hall : EveryAnswerGiven m.cats N y) : ∃ b : List ℝ, b.length = m.bias.length ∧
      SmallestAt (fun b => mmlLoss (({ m with bias := b } : NRM).scorer m.lv) (rowsOf N m.cats.length y) pts lw) b := by
  have hM : ∀ c ∈ m.cats, c ≤ m.M := fun c hc => le_maxCats _ _ hc
  have hn : m.bias.length = countTrue (freeMask m.M m.cats) := by rw [hwf.biasLen, count_freeMask m.M m.cats hwf.catsPos hM]
  have hwf' : ∀ p : Fin m.bias.length → ℝ, ({ m with bias := List.ofFn p } : NRM).WF := fun p => m.wf_bias hwf _ (by simp)
  have hL : ∀ p : Fin m.bias.length → ℝ, LogitModel (d := m.lv) m.cats
      (fun θ => tableProb (({ m with bias := List.ofFn p } : NRM).probs (List.ofFn θ)))
      (fun j r k => categorySlopeOf m.itemParameters j r k)
      (fun j r => if r = 0 then -∑ s ∈ range (m.M - 1), (scatterMask 0 (freeMask m.M m.cats) (List.ofFn p)).getD (j * m.M + (s + 1)) 0
        else (scatterMask 0 (freeMask m.M m.cats) (List.ofFn p)).getD (j * m.M + r) 0) := fun p =>
    (NRM.logitModel { m with bias := List.ofFn p } m.lv).congr
      (fun j c r k hc hr => by
        have hj := lt_of_getElem?_some hc
        have hrM : r < m.M := hr.trans_le (hM c (List.mem_of_getElem? hc))
        rw [NRM.slope_entry { m with bias := List.ofFn p } (hwf' p) j r k hj hrM k.isLt, NRM.slope_entry m hwf j r k hj hrM k.isLt]
        rfl)
      (fun j c r hc hr => by
        have hj := lt_of_getElem?_some hc
        exact NRM.intercept_entry { m with bias := List.ofFn p } j r hj (hr.trans_le (hM c (List.mem_of_getElem? hc))))
  obtain ⟨own, hown, hlocal⟩ := free_owner m.M m.bias.length m.cats hM hn
  refine smallest_of_minimum _ _ (fun p => ?_) (marginal_minimum _ _ _ hL ?_ own ?_ ?_ pts (lw.map Real.exp) (by simpa using hlen) hne
    (by simp only [List.mem_map]; rintro a ⟨x, _, rfl⟩; exact Real.exp_pos _) N y hy ((given_iff _ _ _).1 hall))
  · have := mmlLoss_weighted (NRM.isScorer { m with bias := List.ofFn p } (hwf' p) hcats m.lv)
      (fun θ j c r hc hr => (hL p).pos θ j c r hc hr) N y hy pts lw hlen hne
    dsimp only at this ⊢
    rw [this]
    rfl
  · intro j r
    by_cases h : r = 0
    · simp only [if_pos h]
      exact (continuous_finsetSum _ fun s _ => continuous_scatter _ hn _).neg
    · simp only [if_neg h]
      exact continuous_scatter _ hn _
  · intro p e
    obtain ⟨c, k, hc, hk0, hk, hv⟩ := hown e
    have hcM := hM c (List.mem_of_getElem? hc)
    set g : ℕ → ℝ := fun s => (scatterMask 0 (freeMask m.M m.cats) (List.ofFn p)).getD (own e * m.M + s) 0 with hg
    have hbeyond : ∀ s, c ≤ s → s < m.M → g s = 0 := fun s hs hsM => scatter_zero _ hn _ (by
      rw [freeMask_getElem? m.M m.cats (own e) s c hc hsM]
      simp only [Option.some.injEq, Bool.and_eq_false_iff, decide_eq_false_iff_not]
      exact Or.inr (by omega)) p
    have hsum : ∑ s ∈ range (m.M - 1), g (s + 1) = ∑ s ∈ range (c - 1), g (s + 1) := by
      symm
      refine sum_subset (range_subset_range.2 (by omega)) fun s hs hs' => ?_
      rw [mem_range] at hs hs'
      exact hbeyond _ (by omega) (by omega)
    have hk' : (if k = 0 then -∑ s ∈ range (m.M - 1), g (s + 1) else g k) = p e := by
      rw [if_neg (by omega)]
      exact hv p
    have hzero : ∑ r ∈ range c, (if r = 0 then -∑ s ∈ range (m.M - 1), g (s + 1) else g r) = 0 := by
      obtain ⟨c', rfl⟩ : ∃ c', c = c' + 1 := ⟨c - 1, by omega⟩
      rw [sum_range_succ', hsum]
      simp
    rcases le_total 0 (p e) with h | h
    · obtain ⟨r, hr, hle⟩ := exists_le_of_sum_le (s := range c) ⟨0, mem_range.2 (by omega)⟩
        (f := fun r => (if r = 0 then -∑ s ∈ range (m.M - 1), g (s + 1) else g r)) (g := fun _ => 0) (by rw [hzero]; simp)
      refine ⟨c, r, k, hc, mem_range.1 hr, hk, ?_⟩
      have goal : |p e| ≤ (if k = 0 then -∑ s ∈ range (m.M - 1), g (s + 1) else g k)
          - (if r = 0 then -∑ s ∈ range (m.M - 1), g (s + 1) else g r) := by
        rw [hk', abs_of_nonneg h]
        linarith
      exact goal
    · obtain ⟨r, hr, hle⟩ := exists_le_of_sum_le (s := range c) ⟨0, mem_range.2 (by omega)⟩
        (g := fun r => (if r = 0 then -∑ s ∈ range (m.M - 1), g (s + 1) else g r)) (f := fun _ => 0) (by rw [hzero]; simp)
      refine ⟨c, k, r, hc, hk, mem_range.1 hr, ?_⟩
      have goal : |p e| ≤ (if r = 0 then -∑ s ∈ range (m.M - 1), g (s + 1) else g r)
          - (if k = 0 then -∑ s ∈ range (m.M - 1), g (s + 1) else g k) := by
        rw [hk', abs_of_nonpos h]
        linarith
      exact goal
  · intro p p' j c r hc hr h
    have hcM := hM c (List.mem_of_getElem? hc)
    by_cases h0 : r = 0
    · simp only [if_pos h0]
      congr 1
      refine sum_congr rfl fun s hs => hlocal p p' j (s + 1) (by have := mem_range.1 hs; omega) h
    · simp only [if_neg h0]
      exact hlocal p p' j r (by omega) h

end Irt
