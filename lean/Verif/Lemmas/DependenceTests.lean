import Verif.Spec.DependenceTests
import Verif.Props.Sampling
import Mathlib.Data.Fintype.Fin
import Mathlib.Data.Fintype.BigOperators
import Mathlib.Topology.Algebra.InfiniteSum.ENNReal

/-! # Ranks among independent data sets -/

namespace Irt

open Spec

theorem copies_ofFn {α : Type} (law : PMF α) (n : ℕ) (f : Fin n → α) : copies law n (List.ofFn f) = ∏ i, law (f i) := by
  unfold copies
  rw [pmf_mapM_apply, if_pos (by simp), ← List.prod_ofFn]
  congr 1
  apply List.ext_getElem <;> simp

theorem copies_length {α : Type} (law : PMF α) (n : ℕ) (l : List α) (h : l.length ≠ n) : copies law n l = 0 := by
  unfold copies
  rw [pmf_mapM_apply, if_neg (by simpa using h)]

theorem copies_mem_length {α : Type} (law : PMF α) (n : ℕ) (l : List α) (h : l ∈ (copies law n).support) : l.length = n := by
  by_contra hc
  exact h (copies_length law n l hc)

theorem copies_apply {α : Type} (law : PMF α) (n : ℕ) (A : Set (List α)) :
    (copies law n).toOuterMeasure A = ∑' f : Fin n → α, {g | List.ofFn g ∈ A}.indicator (fun f => ∏ i, law (f i)) f := by
  rw [PMF.toOuterMeasure_apply, ← (List.ofFn_injective (n := n) (α := α)).tsum_eq]
  · refine tsum_congr fun f => ?_
    by_cases h : List.ofFn f ∈ A
    · rw [Set.indicator_of_mem h, Set.indicator_of_mem (by exact h), copies_ofFn]
    · rw [Set.indicator_of_notMem h, Set.indicator_of_notMem (by exact h)]
  · intro l hl
    have h0 : copies law n l ≠ 0 := by
      intro h0
      refine hl ?_
      by_cases h : l ∈ A
      · rw [Set.indicator_of_mem h, h0]
      · rw [Set.indicator_of_notMem h]
    have hlen : l.length = n := by
      by_contra hc
      exact h0 (copies_length law n l hc)
    subst hlen
    exact ⟨l.get, List.ofFn_get l⟩

theorem copies_total {α : Type} (law : PMF α) (n : ℕ) : ∑' f : Fin n → α, ∏ i, law (f i) = 1 := by
  have h := copies_apply law n Set.univ
  rw [(PMF.toOuterMeasure_apply_eq_one_iff _ _).2 (Set.subset_univ _)] at h
  rw [h]
  refine tsum_congr fun f => ?_
  rw [Set.indicator_of_mem (by trivial)]

/-- Exchangeability: if the condition on one of `n + 1` independent draws holds of at most `K` of them, it holds of the first
with probability at most `K / (n + 1)`. -/
theorem exchangeable_bound {α : Type} (law : PMF α) (n K : ℕ) (R : Fin (n + 1) → (Fin (n + 1) → α) → Prop)
    (hswap : ∀ i f, R i f ↔ R 0 fun j => f (Equiv.swap 0 i j))
    (hcard : ∀ f, ∀ B : Finset (Fin (n + 1)), (∀ i ∈ B, R i f) → B.card ≤ K) :
    ∑' f, {g | R 0 g}.indicator (fun f => ∏ i, law (f i)) f ≤ (K : ENNReal) / ((n + 1 : ℕ) : ENNReal) := by
  classical
  set w : (Fin (n + 1) → α) → ENNReal := fun f => ∏ i, law (f i) with hw
  have heq : ∀ i, ∑' f, {g | R i g}.indicator w f = ∑' f, {g | R 0 g}.indicator w f := by
    intro i
    rw [← (Equiv.arrowCongr (Equiv.swap 0 i) (Equiv.refl α)).tsum_eq]
    refine tsum_congr fun f => ?_
    have hf : ∀ j, (Equiv.arrowCongr (Equiv.swap 0 i) (Equiv.refl α)) f (Equiv.swap 0 i j) = f j := by
      intro j; simp [Equiv.arrowCongr]
    have hR := hswap i ((Equiv.arrowCongr (Equiv.swap 0 i) (Equiv.refl α)) f)
    simp only [hf] at hR
    have hwf : w ((Equiv.arrowCongr (Equiv.swap 0 i) (Equiv.refl α)) f) = w f := by
      rw [hw]
      simp only
      rw [← Equiv.prod_comp (Equiv.swap 0 i)]
      simp only [hf]
    by_cases h : R 0 f
    · rw [Set.indicator_of_mem (s := {g | R i g}) (hR.2 h), Set.indicator_of_mem (by exact h), hwf]
    · rw [Set.indicator_of_notMem (s := {g | R i g}) (fun h' => h (hR.1 h')), Set.indicator_of_notMem (by exact h)]
  have hsum : ((n + 1 : ℕ) : ENNReal) * ∑' f, {g | R 0 g}.indicator w f ≤ K := by
    calc ((n + 1 : ℕ) : ENNReal) * ∑' f, {g | R 0 g}.indicator w f
        = ∑ i : Fin (n + 1), ∑' f, {g | R i g}.indicator w f := by
          rw [Finset.sum_congr rfl fun i _ => heq i]
          simp
      _ = ∑' f, ∑ i : Fin (n + 1), {g | R i g}.indicator w f :=
          (Summable.tsum_finsetSum fun i _ => ENNReal.summable).symm
      _ ≤ ∑' f, (K : ENNReal) * w f := by
          refine ENNReal.tsum_le_tsum fun f => ?_
          have : ∑ i : Fin (n + 1), {g | R i g}.indicator w f
              = ((Finset.univ.filter fun i => R i f).card : ENNReal) * w f := by
            rw [← nsmul_eq_mul, ← Finset.sum_const, Finset.sum_filter]
            refine Finset.sum_congr rfl fun i _ => ?_
            simp only [Set.indicator]
            rfl
          rw [this]
          gcongr
          exact_mod_cast hcard f _ fun i hi => (Finset.mem_filter.1 hi).2
      _ = K := by rw [ENNReal.tsum_mul_left, copies_total, mul_one]
  rw [ENNReal.le_div_iff_mul_le (by simp) (by simp), mul_comm]
  exact hsum

theorem countP_ofFn {α : Type} {n : ℕ} (f : Fin n → α) (q : α → Bool) :
    (List.ofFn f).countP q = (Finset.univ.filter fun j => q (f j) = true).card := by
  induction n with
  | zero => simp
  | succ n ih =>
    rw [List.ofFn_succ, List.countP_cons, ih, Fin.card_filter_univ_succ', add_comm]

/-- The rank of the first of `n + 1` independent draws. -/
theorem rank_bound {α : Type} (law : PMF α) (n k : ℕ) (ok : α → α → Prop) (b : α → α → Bool)
    (hsel : ∀ (f : Fin (n + 1) → α) (B : Finset (Fin (n + 1))), B.Nonempty → (∀ i ∈ B, ∀ j, j ≠ i → ok (f i) (f j)) →
      ∃ i ∈ B, ∀ j ∈ B, j ≠ i → b (f i) (f j) = true) :
    (copies law (n + 1)).toOuterMeasure {l | ∃ x xs, l = x :: xs ∧ (∀ y ∈ xs, ok x y) ∧ xs.countP (b x) ≤ k}
      ≤ ((k + 1 : ℕ) : ENNReal) / ((n + 1 : ℕ) : ENNReal) := by
  classical
  rw [copies_apply]
  set R : Fin (n + 1) → (Fin (n + 1) → α) → Prop := fun i f =>
    (∀ j, j ≠ i → ok (f i) (f j)) ∧ (Finset.univ.filter fun j => j ≠ i ∧ b (f i) (f j) = true).card ≤ k with hR
  have hset : {g : Fin (n + 1) → α | List.ofFn g ∈ {l | ∃ x xs, l = x :: xs ∧ (∀ y ∈ xs, ok x y) ∧ xs.countP (b x) ≤ k}}
      = {g | R 0 g} := by
    ext g
    have hc : (Finset.univ.filter fun j => j ≠ 0 ∧ b (g 0) (g j) = true).card
        = (List.ofFn fun j : Fin n => g j.succ).countP (b (g 0)) := by
      rw [countP_ofFn, Fin.card_filter_univ_succ']
      simp [Fin.succ_ne_zero]
    change (∃ x xs, List.ofFn g = x :: xs ∧ (∀ y ∈ xs, ok x y) ∧ xs.countP (b x) ≤ k) ↔ R 0 g
    rw [hR]
    simp only
    rw [hc]
    constructor
    · rintro ⟨x, xs, he, h1, h2⟩
      rw [List.ofFn_succ] at he
      obtain ⟨rfl, rfl⟩ := List.cons.inj he
      refine ⟨fun j hj => ?_, h2⟩
      obtain ⟨j', rfl⟩ := Fin.exists_succ_eq.2 hj
      exact h1 _ (List.mem_ofFn.2 ⟨j', rfl⟩)
    · rintro ⟨h1, h2⟩
      refine ⟨g 0, _, List.ofFn_succ, fun y hy => ?_, h2⟩
      obtain ⟨j, rfl⟩ := List.mem_ofFn.1 hy
      exact h1 _ (Fin.succ_ne_zero j)
  rw [hset]
  refine exchangeable_bound law n (k + 1) R (fun i f => ?_) (fun f B hB => ?_)
  · rw [hR]
    simp only [Equiv.swap_apply_left]
    refine and_congr ?_ ?_
    · constructor
      · intro h j hj
        refine h _ fun e => hj ?_
        have := congrArg (Equiv.swap 0 i) e
        simpa using this
      · intro h j hj
        have := h (Equiv.swap 0 i j) (fun e => hj (by have := congrArg (Equiv.swap 0 i) e; simpa using this))
        simpa using this
    · rw [Finset.card_equiv (Equiv.swap 0 i) (t := Finset.univ.filter fun j => j ≠ 0 ∧ b (f i) (f (Equiv.swap 0 i j)) = true)]
      intro j
      simp only [Finset.mem_filter, Finset.mem_univ, true_and, Equiv.swap_apply_self, ne_eq]
      refine and_congr (not_congr ?_) Iff.rfl
      constructor
      · rintro rfl; simp
      · intro e
        have := congrArg (Equiv.swap 0 i) e
        simpa using this
  · rcases B.eq_empty_or_nonempty with rfl | hne
    · simp
    · obtain ⟨i, hi, hmax⟩ := hsel f B hne fun i hi => (hB i hi).1
      have hsub : B.erase i ⊆ Finset.univ.filter fun j => j ≠ i ∧ b (f i) (f j) = true := by
        intro j hj
        obtain ⟨h1, h2⟩ := Finset.mem_erase.1 hj
        exact Finset.mem_filter.2 ⟨Finset.mem_univ _, h1, hmax j h2 h1⟩
      have := (Finset.card_le_card hsub).trans (hB i hi).2
      rw [Finset.card_erase_of_mem hi] at this
      omega

/-- A study in which the test draws `n` more data sets from the same law. -/
theorem study_eq {α β γ : Type} (law : PMF α) (n : ℕ) (stat : α → Except PyErr β) (fin : β → List β → γ)
    (test : α → PMF (Except PyErr γ))
    (htest : ∀ x, test x = match stat x with
      | .error e => PMF.pure (.error e)
      | .ok o => (copies law n).map fun draws => do
        let s ← draws.mapM stat
        return fin o s) :
    study law test = (copies law (n + 1)).map fun l => match l with
      | [] => .error .valueError
      | x :: xs => do
        let o ← stat x
        let s ← xs.mapM stat
        return fin o s := by
  have hc : copies law (n + 1) = law.bind fun x => (copies law n).bind fun xs => PMF.pure (x :: xs) := by
    unfold copies
    rw [List.replicate_succ, List.mapM_cons]
    rfl
  rw [hc, PMF.map_bind]
  unfold study
  congr 1
  funext x
  rw [htest, PMF.map_bind]
  simp only [PMF.pure_map]
  cases h : stat x with
  | error e =>
    simp only [bind_error]
    rw [PMF.bind_const]
  | ok o =>
    simp only [bind_ok]
    rfl

theorem simulatedSets_ok {d : ℕ} (probs : (Fin d → ℝ) → List (List ℝ)) (theta : Thetas d) (law : PMF (List (List ℝ)))
    (h : sampleTestData probs theta = .ok law) (n : ℕ) : simulatedSets probs theta n = .ok (copies law n) := by
  unfold simulatedSets
  by_cases h0 : n = 0
  · subst h0
    rw [if_pos rfl]
    rfl
  · rw [if_neg h0, h]
    rfl

theorem map_of_mapM {α β γ : Type} (stat : α → Except PyErr β) (g : β → γ) (t : α → γ) (xs : List α) (ys : List β)
    (h : xs.mapM stat = .ok ys) (hg : ∀ x y, stat x = .ok y → g y = t x) : ys.map g = xs.map t := by
  induction xs generalizing ys with
  | nil => cases h; rfl
  | cons x xs ih =>
    rw [List.mapM_cons] at h
    obtain ⟨q, hq, h⟩ := bind_eq_ok h
    obtain ⟨qs, hqs, h⟩ := bind_eq_ok h
    cases h
    rw [List.map_cons, List.map_cons, ih qs hqs, hg x q hq]

theorem mapM_all_ok {α β : Type} (f : α → Except PyErr β) (l : List α) (h : ∀ x ∈ l, ∃ y, f x = .ok y) :
    ∃ ys, l.mapM f = .ok ys ∧ ys.length = l.length := by
  induction l with
  | nil => exact ⟨[], rfl, rfl⟩
  | cons x l ih =>
    obtain ⟨y, hy⟩ := h x (by simp)
    obtain ⟨ys, hys, hlen⟩ := ih fun x hx => h x (by simp [hx])
    exact ⟨y :: ys, by rw [List.mapM_cons, hy, bind_ok, hys]; rfl, by simp [hlen]⟩

theorem mapM_mem_ok {α β : Type} (f : α → Except PyErr β) (l : List α) (ys : List β) (h : l.mapM f = .ok ys) :
    ∀ y ∈ ys, ∃ x ∈ l, f x = .ok y := by
  induction l generalizing ys with
  | nil => cases h; simp
  | cons x l ih =>
    rw [List.mapM_cons] at h
    obtain ⟨q, hq, h⟩ := bind_eq_ok h
    obtain ⟨qs, hqs, h⟩ := bind_eq_ok h
    cases h
    intro y hy
    rcases List.mem_cons.1 hy with rfl | hy
    · exact ⟨x, by simp, hq⟩
    · obtain ⟨x', hx', h'⟩ := ih qs hqs y hy
      exact ⟨x', by simp [hx'], h'⟩

end Irt
