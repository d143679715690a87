import Verif.Spec.ScoreEquations
import Verif.Lemmas.GradientFit
import Verif.Lemmas.FitOrder
import Verif.Lemmas.LogitModel
import Verif.Lemmas.GridSymmetry
import Verif.Props.MmlSymmetry
import Mathlib.Analysis.SpecialFunctions.Log.Deriv
import Mathlib.Analysis.SpecialFunctions.ExpDeriv

/-!
# The derivative of the marginal likelihood
-/

namespace Irt

open Spec Finset

/-- Derivative of a product, by the logarithmic derivatives of its factors. -/
theorem hasDerivAt_prod_log {ι : Type} (s : Finset ι) (f : ι → ℝ → ℝ) (g : ι → ℝ) (x₀ : ℝ)
    (h : ∀ i ∈ s, HasDerivAt (f i) (f i x₀ * g i) x₀) :
    HasDerivAt (fun x => ∏ i ∈ s, f i x) ((∏ i ∈ s, f i x₀) * ∑ i ∈ s, g i) x₀ := by
  classical
  induction s using Finset.induction_on with
  | empty => simpa using hasDerivAt_const x₀ (1 : ℝ)
  | insert a s ha ih =>
    have h1 := h a (mem_insert_self a s)
    have h2 := ih fun i hi => h i (mem_insert_of_mem hi)
    simp only [prod_insert ha, sum_insert ha]
    have := h1.mul h2
    refine this.congr_deriv ?_
    ring

/-- Derivative of a probability of a multinomial logit. -/
theorem hasDerivAt_softmax (c : ℕ) (L : ℝ → ℕ → ℝ) (s : ℕ → ℝ) (x₀ : ℝ) (h : ∀ r, r < c → HasDerivAt (fun x => L x r) (s r) x₀)
    (r : ℕ) (hr : r < c) :
    HasDerivAt (fun x => Real.exp (L x r) / ∑ t ∈ range c, Real.exp (L x t))
      ((Real.exp (L x₀ r) / ∑ t ∈ range c, Real.exp (L x₀ t)) *
        (s r - ∑ t ∈ range c, (Real.exp (L x₀ t) / ∑ u ∈ range c, Real.exp (L x₀ u)) * s t)) x₀ := by
  have hpos : 0 < ∑ t ∈ range c, Real.exp (L x₀ t) := sum_pos (fun _ _ => Real.exp_pos _) ⟨r, mem_range.2 hr⟩
  have h1 := (h r hr).exp
  have h2 : HasDerivAt (fun x => ∑ t ∈ range c, Real.exp (L x t)) (∑ t ∈ range c, Real.exp (L x₀ t) * s t) x₀ :=
    HasDerivAt.fun_sum fun t ht => (h t (mem_range.1 ht)).exp
  refine (h1.div h2 hpos.ne').congr_deriv ?_
  have h3 : ∑ t ∈ range c, (Real.exp (L x₀ t) / ∑ u ∈ range c, Real.exp (L x₀ u)) * s t
      = (∑ t ∈ range c, Real.exp (L x₀ t) * s t) / ∑ u ∈ range c, Real.exp (L x₀ u) := by
    rw [sum_div]
    exact sum_congr rfl fun t _ => by ring
  rw [h3]
  field_simp

theorem hasDerivAt_weighted {d : ℕ} (pts : List (Fin d → ℝ)) (w : List ℝ) (F : ℝ → (Fin d → ℝ) → ℝ) (F' : (Fin d → ℝ) → ℝ) (x₀ : ℝ)
    (h : ∀ θ, HasDerivAt (fun x => F x θ) (F' θ) x₀) : HasDerivAt (fun x => weighted pts w (F x)) (weighted pts w F') x₀ := by
  unfold weighted
  induction pts generalizing w with
  | nil => simpa using hasDerivAt_const x₀ (0 : ℝ)
  | cons p pts ih =>
    cases w with
    | nil => simpa using hasDerivAt_const x₀ (0 : ℝ)
    | cons a w =>
      simp only [List.zipWith_cons_cons, List.sum_cons]
      exact ((h p).const_mul a).add (ih w)

theorem weighted_lik_positive {d : ℕ} (pts : List (Fin d → ℝ)) (w : List ℝ) (hlen : w.length = pts.length) (hne : pts ≠ []) (hw : ∀ a ∈ w, 0 < a)
    (F : (Fin d → ℝ) → ℝ) (hF : ∀ θ, 0 < F θ) : 0 < weighted pts w F := by
  unfold weighted
  induction pts generalizing w with
  | nil => simp at hne
  | cons p pts ih =>
    cases w with
    | nil => simp at hlen
    | cons a w =>
      simp only [List.zipWith_cons_cons, List.sum_cons]
      have ha := mul_pos (hw a (by simp)) (hF p)
      cases pts with
      | nil => simpa using ha
      | cons q pts =>
        have := ih w (by simpa using hlen) (by simp) fun b hb => hw b (by simp [hb])
        linarith

theorem weighted_sum {d : ℕ} {ι : Type} (s : Finset ι) (pts : List (Fin d → ℝ)) (w : List ℝ) (F : ι → (Fin d → ℝ) → ℝ) :
    weighted pts w (fun θ => ∑ i ∈ s, F i θ) = ∑ i ∈ s, weighted pts w (F i) := by
  unfold weighted
  induction pts generalizing w with
  | nil => simp
  | cons p pts ih =>
    cases w with
    | nil => simp
    | cons a w =>
      simp only [List.zipWith_cons_cons, List.sum_cons, sum_add_distrib]
      rw [ih w, mul_sum]

theorem weighted_smul {d : ℕ} (pts : List (Fin d → ℝ)) (w : List ℝ) (c : ℝ) (F : (Fin d → ℝ) → ℝ) :
    weighted pts w (fun θ => c * F θ) = c * weighted pts w F := by
  unfold weighted
  induction pts generalizing w with
  | nil => simp
  | cons p pts ih =>
    cases w with
    | nil => simp
    | cons a w => simp only [List.zipWith_cons_cons, List.sum_cons, ih]; ring

section Mean
variable {d : ℕ} (pts : List (Fin d → ℝ)) (w : List ℝ) (lik : (Fin d → ℝ) → ℝ)

theorem posteriorMean_sum {ι : Type} (s : Finset ι) (F : ι → (Fin d → ℝ) → ℝ) :
    posteriorMean pts w lik (fun θ => ∑ i ∈ s, F i θ) = ∑ i ∈ s, posteriorMean pts w lik (F i) := by
  unfold posteriorMean
  rw [← sum_div, ← weighted_sum]
  simp only [mul_sum]

theorem posteriorMean_smul (c : ℝ) (F : (Fin d → ℝ) → ℝ) :
    posteriorMean pts w lik (fun θ => c * F θ) = c * posteriorMean pts w lik F := by
  unfold posteriorMean
  rw [← mul_div_assoc, ← weighted_smul]
  congr 2
  funext θ
  ring

theorem posteriorMean_sub (F G : (Fin d → ℝ) → ℝ) :
    posteriorMean pts w lik (fun θ => F θ - G θ) = posteriorMean pts w lik F - posteriorMean pts w lik G := by
  have h := posteriorMean_sum pts w lik (univ : Finset (Fin 2)) ![F, fun θ => -1 * G θ]
  simp only [Fin.sum_univ_two, Matrix.cons_val_zero, Matrix.cons_val_one] at h
  rw [posteriorMean_smul] at h
  rw [show (fun θ => F θ - G θ) = fun θ => F θ + -1 * G θ from funext fun θ => by ring, h]
  ring

theorem posteriorMean_const (c : ℝ) (h : weighted pts w lik ≠ 0) : posteriorMean pts w lik (fun _ => c) = c := by
  unfold posteriorMean
  rw [show (fun θ => lik θ * c) = fun θ => c * lik θ from funext fun θ => mul_comm _ _, weighted_smul, mul_div_assoc, div_self h, mul_one]

theorem posteriorMean_pos (hlen : w.length = pts.length) (hne : pts ≠ []) (hw : ∀ a ∈ w, 0 < a) (hlik : ∀ θ, 0 < lik θ)
    (F : (Fin d → ℝ) → ℝ) (hF : ∀ θ, 0 < F θ) : 0 < posteriorMean pts w lik F :=
  div_pos (weighted_lik_positive pts w hlen hne hw _ fun θ => mul_pos (hlik θ) (hF θ)) (weighted_lik_positive pts w hlen hne hw _ hlik)

end Mean

/-- The derivative of minus the log marginal likelihood, in a multinomial logit model whose logits depend on a parameter with
derivatives `s`: the posterior mean of the expected minus the observed `s`, summed over the answers. -/
theorem hasDerivAt_marginal {d : ℕ} {cats : List ℕ} (P : ℝ → (Fin d → ℝ) → ℕ → ℕ → ℝ) (A : ℝ → ℕ → ℕ → Fin d → ℝ) (B : ℝ → ℕ → ℕ → ℝ)
    (hP : ∀ x, LogitModel cats (P x) (A x) (B x)) (s : (Fin d → ℝ) → ℕ → ℕ → ℝ) (x₀ : ℝ)
    (hs : ∀ θ j c r, cats[j]? = some c → r < c → HasDerivAt (fun x => ∑ k, A x j r k * θ k + B x j r) (s θ j r) x₀)
    (pts : List (Fin d → ℝ)) (w : List ℝ) (hlen : w.length = pts.length) (hne : pts ≠ []) (hw : ∀ a ∈ w, 0 < a)
    (N : ℕ) (y : ℕ → ℕ → Cell) (hy : ∀ i, i < N → ValidResponses cats (y i)) :
    HasDerivAt (fun x => -∑ i ∈ range N, Real.log (weighted pts w (observedLikelihood (P x) cats.length (y i))))
      (∑ j ∈ range cats.length, ∑ i ∈ answeredBy N y j, posteriorMean pts w (observedLikelihood (P x₀) cats.length (y i)) fun θ =>
        (∑ r ∈ range (cats.getD j 0), P x₀ θ j r * s θ j r) - s θ j (responseOf (y i j))) x₀ := by
  have hcell : ∀ i, i < N → ∀ θ, ∀ j ∈ range cats.length,
      HasDerivAt (fun x => if cellMissing (y i j) then (1 : ℝ) else P x θ j (responseOf (y i j)))
        ((if cellMissing (y i j) then (1 : ℝ) else P x₀ θ j (responseOf (y i j))) *
          (if cellMissing (y i j) then 0 else s θ j (responseOf (y i j)) - ∑ r ∈ range (cats.getD j 0), P x₀ θ j r * s θ j r)) x₀ := by
    intro i hi θ j hj
    obtain ⟨c, hc⟩ := getElem?_of_lt cats j (mem_range.1 hj)
    by_cases hm : cellMissing (y i j) = true
    · simp only [hm, if_true, mul_zero]
      exact hasDerivAt_const _ _
    · rw [Bool.not_eq_true] at hm
      obtain ⟨r, hr, hrc⟩ := hy i hi j c hc hm
      have hresp : responseOf (y i j) = r := by rw [hr]; rfl
      simp only [hm, Bool.false_eq_true, if_false, hresp]
      have h := hasDerivAt_softmax c (fun x r => ∑ k, A x j r k * θ k + B x j r) (fun r => s θ j r) x₀ (fun t ht => hs θ j c t hc ht) r hrc
      have e : ∀ x t, t < c → P x θ j t = Real.exp (∑ k, A x j t k * θ k + B x j t)
          / ∑ u ∈ range c, Real.exp (∑ k, A x j u k * θ k + B x j u) := fun x t ht => hP x θ j c t hc ht
      rw [show (fun x => P x θ j r) = fun x => _ from funext fun x => e x r hrc]
      refine h.congr_deriv ?_
      rw [e x₀ r hrc, List.getD_eq_getElem?_getD, hc, Option.getD_some]
      congr 2
      exact sum_congr rfl fun t ht => by rw [e x₀ t (mem_range.1 ht)]
  have hpos : ∀ x, PositiveProbs (P x) cats := fun x θ j c r hc hr => (hP x).pos θ j c r hc hr
  have hlikpos : ∀ x i, i < N → ∀ θ, 0 < observedLikelihood (P x) cats.length (y i) θ :=
    fun x i hi θ => observedLikelihood_pos (hpos x) _ (hy i hi) θ
  have hone : ∀ i, i < N → HasDerivAt (fun x => Real.log (weighted pts w (observedLikelihood (P x) cats.length (y i))))
      (posteriorMean pts w (observedLikelihood (P x₀) cats.length (y i)) fun θ => ∑ j ∈ range cats.length,
        (if cellMissing (y i j) then 0 else s θ j (responseOf (y i j)) - ∑ r ∈ range (cats.getD j 0), P x₀ θ j r * s θ j r)) x₀ := by
    intro i hi
    have h := hasDerivAt_weighted pts w (fun x => observedLikelihood (P x) cats.length (y i)) _ x₀ fun θ =>
      hasDerivAt_prod_log (range cats.length) (fun j x => if cellMissing (y i j) then (1 : ℝ) else P x θ j (responseOf (y i j))) _ x₀
        (hcell i hi θ)
    exact h.log (weighted_lik_positive pts w hlen hne hw _ (hlikpos x₀ i hi)).ne'
  have htot := (HasDerivAt.fun_sum fun i (hi : i ∈ range N) => hone i (mem_range.1 hi)).neg
  refine htot.congr_deriv ?_
  simp only [posteriorMean_sum]
  rw [sum_comm, ← sum_neg_distrib]
  refine sum_congr rfl fun j _ => ?_
  unfold answeredBy
  rw [sum_filter, ← sum_neg_distrib]
  refine sum_congr rfl fun i _ => ?_
  by_cases hm : cellMissing (y i j) = true
  · simp only [hm, if_true, Bool.true_eq_false, if_false]
    rw [show (fun _ : Fin d → ℝ => (0 : ℝ)) = fun θ => 0 * (0 : ℝ) from funext fun _ => by ring, posteriorMean_smul]
    ring
  · rw [Bool.not_eq_true] at hm
    simp only [hm, Bool.false_eq_true, if_false, if_true]
    rw [posteriorMean_sub, posteriorMean_sub]
    ring

/-- The partial derivative of the MML loss by a parameter that moves the logits of one item only. -/
theorem partialAt_mml {d : ℕ} {cats : List ℕ} (scorer : List ℝ → Scorer d) (Q : List ℝ → (Fin d → ℝ) → ℕ → ℕ → ℝ) (p : List ℝ) (n : ℕ)
    (A : ℝ → ℕ → ℕ → Fin d → ℝ) (B : ℝ → ℕ → ℕ → ℝ) (hm : ∀ x, IsScorer (scorer (p.set n x)) cats (Q (p.set n x)))
    (hP : ∀ x, LogitModel cats (Q (p.set n x)) (A x) (B x)) (j₀ c₀ : ℕ) (hc₀ : cats[j₀]? = some c₀) (t : (Fin d → ℝ) → ℕ → ℝ)
    (hs : ∀ θ j c r, cats[j]? = some c → r < c →
      HasDerivAt (fun x => ∑ k, A x j r k * θ k + B x j r) (if j = j₀ then t θ r else 0) (p.getD n 0))
    (pts : Thetas d) (lw : List ℝ) (hlen : lw.length = pts.length) (hne : pts ≠ [])
    (N : ℕ) (y : ℕ → ℕ → Cell) (hy : ∀ i, i < N → ValidResponses cats (y i)) :
    partialAt (fun q => mmlLoss (scorer q) (rowsOf N cats.length y) pts lw) p n
      = ∑ i ∈ answeredBy N y j₀, posteriorMean pts (lw.map Real.exp) (observedLikelihood (Q p) cats.length (y i)) fun θ =>
          (∑ r ∈ range c₀, Q p θ j₀ r * t θ r) - t θ (responseOf (y i j₀)) := by
  have hself : p.set n (p.getD n 0) = p := by
    by_cases hn : n < p.length
    · rw [List.getD_eq_getElem?_getD, List.getElem?_eq_getElem hn, Option.getD_some, List.set_getElem_self]
    · exact List.set_eq_of_length_le (by omega)
  have hmain := hasDerivAt_marginal (fun x => Q (p.set n x)) A B hP (fun θ j r => if j = j₀ then t θ r else 0) (p.getD n 0) hs pts
    (lw.map Real.exp) (by simpa using hlen) hne (fun a ha => by
      obtain ⟨b, _, rfl⟩ := List.mem_map.1 ha
      exact Real.exp_pos b) N y hy
  unfold partialAt
  have e : (fun x => lossValue (mmlLoss (scorer (p.set n x)) (rowsOf N cats.length y) pts lw))
      = fun x => -∑ i ∈ range N, Real.log (weighted pts (lw.map Real.exp) (observedLikelihood (Q (p.set n x)) cats.length (y i))) := by
    funext x
    rw [mmlLoss_weighted (hm x) (fun θ j c r hc hr => (hP x).pos θ j c r hc hr) N y hy pts lw hlen hne]
    rfl
  rw [e, hmain.deriv, hself]
  have hj : j₀ ∈ range cats.length := mem_range.2 (lt_of_getElem?_some hc₀)
  rw [sum_eq_single_of_mem j₀ hj]
  · simp only [if_true, List.getD_eq_getElem?_getD, hc₀, Option.getD_some]
  · intro j _ hne
    refine sum_eq_zero fun i _ => ?_
    simp only [if_neg hne, mul_zero, sum_const_zero, sub_zero]
    rw [show (fun _ : Fin d → ℝ => (0 : ℝ)) = fun θ => 0 * (0 : ℝ) from funext fun _ => by ring, posteriorMean_smul]
    ring

section Equations
variable {d : ℕ} {cats : List ℕ} {P : (Fin d → ℝ) → ℕ → ℕ → ℝ} (hpos : PositiveProbs P cats) (pts : Thetas d) (lw : List ℝ)
  (hlen : lw.length = pts.length) (hne : pts ≠ []) (N : ℕ) (y : ℕ → ℕ → Cell) (hy : ∀ i, i < N → ValidResponses cats (y i))
include hpos hlen hne hy

theorem weighted_lik_pos (i : ℕ) (hi : i < N) : 0 < weighted pts (lw.map Real.exp) (observedLikelihood P cats.length (y i)) :=
  weighted_lik_positive pts _ (by simpa using hlen) hne (fun a ha => by
    obtain ⟨b, _, rfl⟩ := List.mem_map.1 ha
    exact Real.exp_pos b) _ fun θ => observedLikelihood_pos hpos _ (hy i hi) θ

theorem expectedBy_pos (j c r : ℕ) (hc : cats[j]? = some c) (hr : r < c) (h : (answeredBy N y j).Nonempty) :
    0 < expectedBy P cats.length pts (lw.map Real.exp) N y j r := by
  have hw : ∀ a ∈ lw.map Real.exp, 0 < a := fun a ha => by
    obtain ⟨b, _, rfl⟩ := List.mem_map.1 ha
    exact Real.exp_pos b
  classical
  have key : ∀ i, i < N → 0 < posteriorMean pts (lw.map Real.exp) (observedLikelihood P cats.length (y i)) fun θ => P θ j r :=
    fun i hi => posteriorMean_pos pts _ _ (by simpa using hlen) hne hw (fun θ => observedLikelihood_pos hpos _ (hy i hi) θ) _
      fun θ => hpos θ j c r hc hr
  exact sum_pos (fun i hi => key i (mem_range.1 (mem_filter.1 hi).1)) h

/-- Sum over the answers of the posterior mean of a probability minus an indicator. -/
theorem sum_answer_indicator (j c k : ℕ) (hc : cats[j]? = some c) (hk : k < c) :
    ∑ i ∈ answeredBy N y j, posteriorMean pts (lw.map Real.exp) (observedLikelihood P cats.length (y i))
        (fun θ => (∑ r ∈ range c, P θ j r * if r = k then 1 else 0) - if responseOf (y i j) = k then 1 else 0)
      = expectedBy P cats.length pts (lw.map Real.exp) N y j k - chosenBy N y j k := by
  have h1 : ∀ θ, (∑ r ∈ range c, P θ j r * if r = k then (1 : ℝ) else 0) = P θ j k := fun θ => by
    simp [hk]
  simp only [h1, posteriorMean_sub]
  rw [sum_sub_distrib]
  congr 1
  have h2 : ∀ i ∈ answeredBy N y j, posteriorMean pts (lw.map Real.exp) (observedLikelihood P cats.length (y i))
      (fun _ => if responseOf (y i j) = k then (1 : ℝ) else 0) = if responseOf (y i j) = k then 1 else 0 := fun i hi =>
    posteriorMean_const pts _ _ _ (weighted_lik_pos hpos pts lw hlen hne N y hy i (mem_range.1 (mem_filter.1 hi).1)).ne'
  rw [sum_congr rfl h2, sum_boole]
  unfold chosenBy answeredBy
  rw [filter_filter]
  congr 2
  apply filter_congr
  intro i hi
  constructor
  · rintro ⟨hm, hr⟩
    obtain ⟨r, h, _⟩ := hy i (mem_range.1 hi) j c hc hm
    rw [h] at hr ⊢
    simp only [responseOf, Int.toNat_natCast] at hr
    rw [hr]
  · intro h
    rw [h]
    refine ⟨?_, by simp [responseOf]⟩
    simp only [cellMissing, decide_eq_false_iff_not]
    omega

omit hpos hlen hne hy in
/-- Sum over the answers of the posterior mean of a latent score times the expected minus the observed score. -/
theorem sum_slope (j c : ℕ) (k : Fin d) :
    ∑ i ∈ answeredBy N y j, posteriorMean pts (lw.map Real.exp) (observedLikelihood P cats.length (y i))
        (fun θ => (∑ r ∈ range c, P θ j r * (r * θ k)) - (responseOf (y i j) : ℝ) * θ k)
      = ∑ i ∈ answeredBy N y j, posteriorMean pts (lw.map Real.exp) (observedLikelihood P cats.length (y i))
          (fun θ => θ k * meanItemScore P c j θ)
        - ∑ i ∈ answeredBy N y j, (responseOf (y i j) : ℝ) *
            posteriorMean pts (lw.map Real.exp) (observedLikelihood P cats.length (y i)) fun θ => θ k := by
  rw [← sum_sub_distrib]
  refine sum_congr rfl fun i _ => ?_
  rw [posteriorMean_sub, posteriorMean_smul]
  congr 2
  funext θ
  rw [meanItemScore, mul_sum]
  exact sum_congr rfl fun r _ => by ring

end Equations

/-! ## Entries of the parameter lists -/

theorem scatterMask_set (m : List Bool) (p : List ℝ) (i : ℕ) (h : m[i]? = some true) (hn : countTrue (m.take i) < p.length) (x : ℝ) :
    scatterMask 0 m (p.set (countTrue (m.take i)) x) = (scatterMask 0 m p).set i x := by
  unfold countTrue at hn ⊢
  induction m generalizing p i with
  | nil => simp at h
  | cons b m ih =>
    cases i with
    | zero =>
      simp at h
      subst h
      cases p with
      | nil => simp at hn
      | cons a p => simp [scatterMask]
    | succ i =>
      simp at h
      cases b with
      | false =>
        simp only [List.take_succ_cons, List.count_cons, scatterMask, List.set_cons_succ] at hn ⊢
        simp at hn
        simpa using ih p i h hn
      | true =>
        cases p with
        | nil => simp at hn
        | cons a p =>
          simp only [List.take_succ_cons, List.count_cons_self, List.set_cons_succ, scatterMask, List.length_cons] at hn ⊢
          rw [ih p i h (by omega)]

theorem countTrue_take_lt (m : List Bool) (i : ℕ) (h : m[i]? = some true) : countTrue (m.take i) < countTrue m := by
  unfold countTrue
  induction m generalizing i with
  | nil => simp at h
  | cons b m ih =>
    cases i with
    | zero =>
      simp at h
      subst h
      simp
    | succ i =>
      simp at h
      have := ih i h
      simp only [List.take_succ_cons, List.count_cons]
      omega

theorem getD_set_real (l : List ℝ) (i i' : ℕ) (x : ℝ) (h : i < l.length) :
    (l.set i x).getD i' 0 = if i' = i then x else l.getD i' 0 := by
  rw [List.getD_eq_getElem?_getD, List.getElem?_set]
  by_cases hi : i = i'
  · subst hi; simp [h]
  · rw [if_neg hi, if_neg (Ne.symm hi), List.getD_eq_getElem?_getD]

theorem cell_eq {M j k j' k' : ℕ} (hk : k < M) (hk' : k' < M) : j' * M + k' = j * M + k ↔ j' = j ∧ k' = k := by
  constructor
  · intro h
    have h1 : (j' * M + k') / M = (j * M + k) / M := by rw [h]
    rw [Nat.mul_comm j', Nat.mul_comm j, Nat.mul_add_div (by omega), Nat.mul_add_div (by omega), Nat.div_eq_of_lt hk,
      Nat.div_eq_of_lt hk'] at h1
    have : j' = j := by omega
    subst this
    exact ⟨rfl, by omega⟩
  · rintro ⟨rfl, rfl⟩; rfl

theorem viewRows_getD (n M : ℕ) (xs : List ℝ) (hlen : xs.length = n * M) (j : ℕ) (l : List ℝ) (hl : (viewRows n M xs)[j]? = some l)
    (k : ℕ) (hk : k < M) : l.getD k 0 = xs.getD (j * M + k) 0 := by
  rw [List.getD_eq_getElem?_getD, List.getD_eq_getElem?_getD, viewRows_row_entry n M xs hlen j l hl k hk]

theorem length_flatten_rel (rel : List (List Bool)) (lv n : ℕ) (h1 : rel.length = n) (h2 : ∀ r ∈ rel, r.length = lv) :
    rel.flatten.length = n * lv := by
  subst h1
  induction rel with
  | nil => simp
  | cons r rel ih =>
    simp only [List.flatten_cons, List.length_append, List.length_cons, h2 r (by simp), ih fun r hr => h2 r (by simp [hr])]
    ring

end Irt
