import Verif.Lemmas.LogitModel
import Verif.Props.Graded

/-!
# C100: a better set of answers never lowers the EAP score (one latent variable)
-/

namespace Irt

open Finset

/-! ## Weighted means under a monotone likelihood ratio -/

theorem list_sum_fin {α : Type*} (l : List α) (f : α → ℝ) : (l.map f).sum = ∑ i : Fin l.length, f l[i] := by
  rw [← List.sum_ofFn]
  congr 1
  apply List.ext_getElem
  · simp
  · intro i h1 h2; simp

/-- Chebyshev's argument: reweighting towards larger values does not lower the mean. -/
theorem weighted_mean_le {α : Type*} (l : List α) (x w w' : α → ℝ) (hw : 0 < (l.map w).sum)
    (hw' : 0 < (l.map w').sum)
    (h : ∀ a ∈ l, ∀ b ∈ l, x a ≤ x b → w b * w' a ≤ w a * w' b) :
    (l.map fun a => w a * x a).sum / (l.map w).sum ≤ (l.map fun a => w' a * x a).sum / (l.map w').sum ∧
    ((∃ a ∈ l, ∃ b ∈ l, x a < x b ∧ w b * w' a < w a * w' b) →
      (l.map fun a => w a * x a).sum / (l.map w).sum < (l.map fun a => w' a * x a).sum / (l.map w').sum) := by
  have key : 2 * ((l.map w).sum * (l.map fun a => w' a * x a).sum - (l.map w').sum * (l.map fun a => w a * x a).sum)
      = ∑ i : Fin l.length, ∑ k : Fin l.length,
        (w l[i] * w' l[k] - w l[k] * w' l[i]) * (x l[k] - x l[i]) := by
    simp only [list_sum_fin]
    have e : ∀ i k : Fin l.length, (w l[i] * w' l[k] - w l[k] * w' l[i]) * (x l[k] - x l[i])
        = (w l[i] * (w' l[k] * x l[k]) - w' l[k] * (w l[i] * x l[i]))
          + (w l[k] * (w' l[i] * x l[i]) - w' l[i] * (w l[k] * x l[k])) := by intro i k; ring
    simp only [e, sum_add_distrib, sum_sub_distrib, ← sum_mul, ← mul_sum]
    ring
  have nonneg : ∀ i k : Fin l.length, 0 ≤ (w l[i] * w' l[k] - w l[k] * w' l[i]) * (x l[k] - x l[i]) := by
    intro i k
    rcases le_total (x l[i]) (x l[k]) with hx | hx
    · have := h _ (List.getElem_mem i.2) _ (List.getElem_mem k.2) hx
      exact mul_nonneg (sub_nonneg.2 this) (sub_nonneg.2 hx)
    · have := h _ (List.getElem_mem k.2) _ (List.getElem_mem i.2) hx
      exact mul_nonneg_of_nonpos_of_nonpos (sub_nonpos.2 this) (sub_nonpos.2 hx)
  constructor
  · rw [div_le_div_iff₀ hw hw']
    have : 0 ≤ ∑ i : Fin l.length, ∑ k : Fin l.length,
        (w l[i] * w' l[k] - w l[k] * w' l[i]) * (x l[k] - x l[i]) :=
      sum_nonneg fun i _ => sum_nonneg fun k _ => nonneg i k
    nlinarith
  · rintro ⟨a, ha, b, hb, hx, hab⟩
    obtain ⟨i, hi, rfl⟩ := List.getElem_of_mem ha
    obtain ⟨k, hk, rfl⟩ := List.getElem_of_mem hb
    rw [div_lt_div_iff₀ hw hw']
    have : 0 < ∑ i : Fin l.length, ∑ k : Fin l.length,
        (w l[i] * w' l[k] - w l[k] * w' l[i]) * (x l[k] - x l[i]) := by
      refine sum_pos' (fun i _ => sum_nonneg fun k _ => nonneg i k) ⟨⟨i, hi⟩, mem_univ _, ?_⟩
      refine sum_pos' (fun k _ => nonneg _ k) ⟨⟨k, hk⟩, mem_univ _, ?_⟩
      exact mul_pos (sub_pos.2 hab) (sub_pos.2 hx)
    nlinarith

/-! ## The general statement -/

theorem observedLikelihood_eq {d : ℕ} (P : (Fin d → ℝ) → ℕ → ℕ → ℝ) (items : ℕ) (row : ℕ → Cell) (θ : Fin d → ℝ) :
    observedLikelihood P items row θ = ∏ j ∈ range items, cellLik P j (row j) θ := rfl

theorem cellLik_nonneg {d : ℕ} {P : (Fin d → ℝ) → ℕ → ℕ → ℝ} (hP : ∀ θ j r, 0 ≤ P θ j r) (j : ℕ) (c : Cell)
    (θ : Fin d → ℝ) : 0 ≤ cellLik P j c θ := by
  unfold cellLik; split
  · exact zero_le_one
  · exact hP _ _ _

/-- The row of scores, read off the result of `latent_scores(ability_estimation_method="EAP")`. -/
theorem eap_row {d : ℕ} {m : Scorer d} {cats : List ℕ} {P : (Fin d → ℝ) → ℕ → ℕ → ℝ}
    (hm : IsScorer m cats P) (a : AlgAttrs d) (hd : d ≤ 4) (points : Option ℕ) (N : ℕ) (y : ℕ → ℕ → Cell)
    (hy : ∀ i, i < N → ValidResponses cats (y i)) (grid : Thetas d) (hg : grid ≠ [])
    (cov : Matrix (Fin d) (Fin d) ℝ) (hcov : cov.PosDef)
    (hgrid : eapGrid a (points.getD (eapDefaultPoints d)) = .ok (grid, cov))
    (s : List (Option (Fin d → ℝ))) (hs : eapScores m a (rowsOf N cats.length y) points = .ok s)
    (i : ℕ) (hi : i < N) (u : Fin d → ℝ) (hu : s[i]? = some (some u)) :
    0 < (grid.map fun θ => Real.exp (mvnLogDensity 0 cov θ) * observedLikelihood P cats.length (y i) θ).sum ∧
    ∀ k, u k = (grid.map fun θ => Real.exp (mvnLogDensity 0 cov θ) * observedLikelihood P cats.length (y i) θ * θ k).sum
        / (grid.map fun θ => Real.exp (mvnLogDensity 0 cov θ) * observedLikelihood P cats.length (y i) θ).sum := by
  rw [C45_posterior_mean hm a hd points N y hy grid hg cov hcov hgrid] at hs
  rw [← Except.ok.inj hs, List.getElem?_map, List.getElem?_range hi, Option.map_some, Option.some_inj] at hu
  split at hu
  · simp at hu
  · rename_i h0
    refine ⟨lt_of_le_of_ne (list_sum_nonneg _ _ fun θ _ =>
      mul_nonneg (Real.exp_pos _).le (observedLikelihood_nonneg P hm.nonneg _ _ _)) (Ne.symm h0), fun k => ?_⟩
    rw [← Option.some.inj hu]

/-- C100, the general statement (one latent variable): respondent `i'` has, on every item, an answer that
speaks at least as much for high latent scores as the answer of respondent `i`. Then their EAP score is at
least as high. It is strictly higher if some answer speaks for strictly more and two grid points differ,
none of the answers being impossible anywhere on the grid. -/
theorem C100_eap_order {m : Scorer 1} {cats : List ℕ} {P : (Fin 1 → ℝ) → ℕ → ℕ → ℝ}
    (hm : IsScorer m cats P) (a : AlgAttrs 1) (points : Option ℕ) (N : ℕ) (y : ℕ → ℕ → Cell)
    (hy : ∀ i, i < N → ValidResponses cats (y i)) (grid : Thetas 1) (hg : grid ≠ [])
    (cov : Matrix (Fin 1) (Fin 1) ℝ) (hcov : cov.PosDef)
    (hgrid : eapGrid a (points.getD (eapDefaultPoints 1)) = .ok (grid, cov))
    (s : List (Option (Fin 1 → ℝ))) (hs : eapScores m a (rowsOf N cats.length y) points = .ok s)
    (i i' : ℕ) (hi : i < N) (hi' : i' < N) (u v : Fin 1 → ℝ) (hu : s[i]? = some (some u)) (hv : s[i']? = some (some v))
    (better : ∀ j, j < cats.length → SpeaksForMore P j (y i j) (y i' j)) :
    u 0 ≤ v 0 ∧
    ((∃ j, j < cats.length ∧ SpeaksForStrictlyMore P j (y i j) (y i' j)) →
      (∀ j, j < cats.length → ∀ θ ∈ grid, 0 < cellLik P j (y i j) θ ∧ 0 < cellLik P j (y i' j) θ) →
      (∃ p ∈ grid, ∃ q ∈ grid, p 0 ≠ q 0) → u 0 < v 0) := by
  obtain ⟨hw, hu⟩ := eap_row hm a (by norm_num) points N y hy grid hg cov hcov hgrid s hs i hi u hu
  obtain ⟨hw', hv⟩ := eap_row hm a (by norm_num) points N y hy grid hg cov hcov hgrid s hs i' hi' v hv
  rw [hu, hv]
  have hmean := weighted_mean_le grid (fun θ => θ 0) _ _ hw hw' (by
    intro p _ q _ hpq
    have hL : observedLikelihood P cats.length (y i) q * observedLikelihood P cats.length (y i') p
        ≤ observedLikelihood P cats.length (y i) p * observedLikelihood P cats.length (y i') q := by
      simp only [observedLikelihood_eq, ← prod_mul_distrib]
      exact prod_le_prod (fun j _ => mul_nonneg (cellLik_nonneg hm.nonneg _ _ _) (cellLik_nonneg hm.nonneg _ _ _))
        fun j hj => better j (mem_range.1 hj) p q hpq
    have h1 := (Real.exp_pos (mvnLogDensity 0 cov p)).le
    have h2 := (Real.exp_pos (mvnLogDensity 0 cov q)).le
    have := mul_le_mul_of_nonneg_left hL (mul_nonneg h1 h2)
    nlinarith [this])
  refine ⟨hmean.1, fun ⟨j, hj, hstrict⟩ hpos hdiff => hmean.2 ?_⟩
  have strict : ∀ p ∈ grid, ∀ q ∈ grid, p 0 < q 0 →
      Real.exp (mvnLogDensity 0 cov q) * observedLikelihood P cats.length (y i) q *
        (Real.exp (mvnLogDensity 0 cov p) * observedLikelihood P cats.length (y i') p)
      < Real.exp (mvnLogDensity 0 cov p) * observedLikelihood P cats.length (y i) p *
        (Real.exp (mvnLogDensity 0 cov q) * observedLikelihood P cats.length (y i') q) := by
    intro p hp q hq hpq
    have hL : observedLikelihood P cats.length (y i) q * observedLikelihood P cats.length (y i') p
        < observedLikelihood P cats.length (y i) p * observedLikelihood P cats.length (y i') q := by
      simp only [observedLikelihood_eq, ← prod_mul_distrib]
      exact prod_lt_prod (fun j hj => mul_pos (hpos j (mem_range.1 hj) q hq).1 (hpos j (mem_range.1 hj) p hp).2)
        (fun j hj => better j (mem_range.1 hj) p q hpq.le) ⟨j, mem_range.2 hj, hstrict p q hpq⟩
    have h1 := Real.exp_pos (mvnLogDensity 0 cov p)
    have h2 := Real.exp_pos (mvnLogDensity 0 cov q)
    have := mul_lt_mul_of_pos_left hL (mul_pos h1 h2)
    nlinarith [this]
  obtain ⟨p, hp, q, hq, hpq⟩ := hdiff
  rcases lt_or_gt_of_ne hpq with h | h
  · exact ⟨p, hp, q, hq, h, strict p hp q hq h⟩
  · exact ⟨q, hq, p, hp, h, strict q hq p hp h⟩

/-! ## Ordered categories -/

/-- A category that is not lower than any other does not become less likely with the latent score. -/
theorem RankedItem.top {P : (Fin 1 → ℝ) → ℕ → ℕ → ℝ} {j c : ℕ} (h : RankedItem P j c) (hc : 0 < c) (θ θ' : Fin 1 → ℝ)
    (hθ : θ 0 ≤ θ' 0) : P θ j (c - 1) ≤ P θ' j (c - 1) ∧
      (2 ≤ c → StrictlyRankedItem P j c → θ 0 < θ' 0 → P θ j (c - 1) < P θ' j (c - 1)) := by
  have e1 : P θ j (c - 1) = ∑ r ∈ range c, P θ' j r * P θ j (c - 1) := by rw [← sum_mul, h.sum_one, one_mul]
  have e2 : P θ' j (c - 1) = ∑ r ∈ range c, P θ j r * P θ' j (c - 1) := by rw [← sum_mul, h.sum_one, one_mul]
  constructor
  · rw [e1, e2]
    refine sum_le_sum fun r hr => h.ratio θ θ' hθ r (c - 1) ?_ (by omega)
    have := mem_range.1 hr; omega
  · intro h2 hs hlt
    rw [e1, e2]
    refine sum_lt_sum (fun r hr => h.ratio θ θ' hθ r (c - 1) ?_ (by omega)) ⟨0, mem_range.2 hc, ?_⟩
    · have := mem_range.1 hr; omega
    · exact hs θ θ' hlt 0 (c - 1) (by omega) (by omega)

/-- A category that is not higher than any other does not become more likely with the latent score. -/
theorem RankedItem.bottom {P : (Fin 1 → ℝ) → ℕ → ℕ → ℝ} {j c : ℕ} (h : RankedItem P j c) (hc : 0 < c) (θ θ' : Fin 1 → ℝ)
    (hθ : θ 0 ≤ θ' 0) : P θ' j 0 ≤ P θ j 0 ∧
      (2 ≤ c → StrictlyRankedItem P j c → θ 0 < θ' 0 → P θ' j 0 < P θ j 0) := by
  have e1 : P θ' j 0 = ∑ r ∈ range c, P θ' j 0 * P θ j r := by rw [← mul_sum, h.sum_one, mul_one]
  have e2 : P θ j 0 = ∑ r ∈ range c, P θ j 0 * P θ' j r := by rw [← mul_sum, h.sum_one, mul_one]
  constructor
  · rw [e1, e2]
    exact sum_le_sum fun r hr => h.ratio θ θ' hθ 0 r (by omega) (mem_range.1 hr)
  · intro h2 hs hlt
    rw [e1, e2]
    exact sum_lt_sum (fun r hr => h.ratio θ θ' hθ 0 r (by omega) (mem_range.1 hr))
      ⟨1, mem_range.2 (by omega), hs θ θ' hlt 0 1 (by omega) (by omega)⟩

theorem observed_lt (cats : List ℕ) (row : ℕ → Cell) (h : ValidResponses cats row) (j c : ℕ) (hc : cats[j]? = some c)
    (hm : cellMissing (row j) = false) : responseOf (row j) < c := by
  obtain ⟨r, hr, hrc⟩ := h j c hc hm
  rw [hr, responseOf]; simpa using hrc

theorem RankedItem.speaks {P : (Fin 1 → ℝ) → ℕ → ℕ → ℝ} {cats : List ℕ} {j c : ℕ} (h : RankedItem P j c)
    (hc : cats[j]? = some c) (hc0 : 0 < c) (row row' : ℕ → Cell) (hr : ValidResponses cats row)
    (hr' : ValidResponses cats row') :
    (AnswerLE c (row j) (row' j) → SpeaksForMore P j (row j) (row' j)) ∧
    (AnswerLT c (row j) (row' j) → 2 ≤ c → StrictlyRankedItem P j c → SpeaksForStrictlyMore P j (row j) (row' j)) := by
  have o := observed_lt cats row hr j c hc
  have o' := observed_lt cats row' hr' j c hc
  unfold AnswerLE AnswerLT SpeaksForMore SpeaksForStrictlyMore cellLik
  cases hm : cellMissing (row j) <;> cases hm' : cellMissing (row' j) <;>
    simp only [if_true, if_false, Bool.false_eq_true, one_mul, mul_one]
  · exact ⟨fun hle θ θ' hθ => h.ratio θ θ' hθ _ _ hle (o' hm'), fun hlt _ hs θ θ' hθ => hs θ θ' hθ _ _ hlt (o' hm')⟩
  · refine ⟨fun he θ θ' hθ => ?_, fun he h2 hs θ θ' hθ => ?_⟩
    · rw [he]; exact (h.bottom hc0 θ θ' hθ).1
    · rw [he]; exact (h.bottom hc0 θ θ' hθ.le).2 h2 hs hθ
  · refine ⟨fun he θ θ' hθ => ?_, fun he h2 hs θ θ' hθ => ?_⟩
    · rw [he]; exact (h.top hc0 θ θ' hθ).1
    · rw [he]; exact (h.top hc0 θ θ' hθ.le).2 h2 hs hθ
  · exact ⟨fun _ _ _ _ => le_refl _, fun hf => hf.elim⟩

theorem answerLE_of_LT (c : ℕ) (x x' : Cell) (h : AnswerLT c x x') : AnswerLE c x x' := by
  unfold AnswerLT at h; unfold AnswerLE
  cases hm : cellMissing x <;> cases hm' : cellMissing x' <;> simp only [hm, hm'] at h ⊢
  · exact h.le
  · exact h
  · exact h

/-- C100 for every model with one latent variable whose categories are ranked: if on every item respondent
`i'` has an answer at least as good as respondent `i`, their EAP score is at least as high. -/
theorem C100_ranked_categories {m : Scorer 1} {cats : List ℕ} {P : (Fin 1 → ℝ) → ℕ → ℕ → ℝ}
    (hm : IsScorer m cats P) (hcats : ∀ c ∈ cats, 0 < c)
    (hP : ∀ j c, cats[j]? = some c → RankedItem P j c)
    (a : AlgAttrs 1) (points : Option ℕ) (N : ℕ) (y : ℕ → ℕ → Cell)
    (hy : ∀ i, i < N → ValidResponses cats (y i)) (grid : Thetas 1) (hg : grid ≠ [])
    (cov : Matrix (Fin 1) (Fin 1) ℝ) (hcov : cov.PosDef)
    (hgrid : eapGrid a (points.getD (eapDefaultPoints 1)) = .ok (grid, cov))
    (s : List (Option (Fin 1 → ℝ))) (hs : eapScores m a (rowsOf N cats.length y) points = .ok s)
    (i i' : ℕ) (hi : i < N) (hi' : i' < N) (u v : Fin 1 → ℝ) (hu : s[i]? = some (some u)) (hv : s[i']? = some (some v))
    (better : ∀ j c, cats[j]? = some c → AnswerLE c (y i j) (y i' j)) :
    u 0 ≤ v 0 ∧
    ((∃ j c, cats[j]? = some c ∧ 2 ≤ c ∧ StrictlyRankedItem P j c ∧ AnswerLT c (y i j) (y i' j)) →
      (∀ j c r, cats[j]? = some c → r < c → ∀ θ ∈ grid, 0 < P θ j r) →
      (∃ p ∈ grid, ∃ q ∈ grid, p 0 ≠ q 0) → u 0 < v 0) := by
  obtain ⟨h1, h2⟩ := C100_eap_order hm a points N y hy grid hg cov hcov hgrid s hs i i' hi hi' u v hu hv (by
    intro j hj
    obtain ⟨c, hc⟩ := getElem?_of_lt cats j hj
    exact ((hP j c hc).speaks hc (hcats c (List.mem_of_getElem? hc)) _ _ (hy i hi) (hy i' hi')).1 (better j c hc))
  refine ⟨h1, fun ⟨j, c, hc, hc2, hstr, hlt⟩ hpos hdiff => h2 ⟨j, lt_of_getElem?_some hc, ?_⟩ ?_ hdiff⟩
  · exact ((hP j c hc).speaks hc (by omega) _ _ (hy i hi) (hy i' hi')).2 hlt hc2 hstr
  · intro j hj θ hθ
    obtain ⟨c, hc⟩ := getElem?_of_lt cats j hj
    have pos : ∀ row, ValidResponses cats row → 0 < cellLik P j (row j) θ := by
      intro row hrow
      unfold cellLik
      cases hmis : cellMissing (row j) with
      | true => simp
      | false =>
        simp only [Bool.false_eq_true, if_false]
        exact hpos j c _ hc (observed_lt cats row hrow j c hc hmis) θ hθ
    exact ⟨pos _ (hy i hi), pos _ (hy i' hi')⟩

/-! ## The models -/

theorem LogitModel.pos {d : ℕ} {cats : List ℕ} {P : (Fin d → ℝ) → ℕ → ℕ → ℝ} {A : ℕ → ℕ → Fin d → ℝ} {B : ℕ → ℕ → ℝ}
    (h : LogitModel cats P A B) (θ : Fin d → ℝ) (j c r : ℕ) (hc : cats[j]? = some c) (hr : r < c) : 0 < P θ j r := by
  rw [h θ j c r hc hr]
  exact div_pos (Real.exp_pos _) (sum_pos (fun _ _ => Real.exp_pos _) ⟨r, mem_range.2 hr⟩)

theorem LogitModel.sum_one {d : ℕ} {cats : List ℕ} {P : (Fin d → ℝ) → ℕ → ℕ → ℝ} {A : ℕ → ℕ → Fin d → ℝ}
    {B : ℕ → ℕ → ℝ} (h : LogitModel cats P A B) (θ : Fin d → ℝ) (j c : ℕ) (hc : cats[j]? = some c) (hc0 : 0 < c) :
    ∑ r ∈ range c, P θ j r = 1 := by
  rw [sum_congr rfl fun r hr => h θ j c r hc (mem_range.1 hr), ← sum_div]
  exact div_self (sum_pos (fun _ _ => Real.exp_pos _) ⟨0, mem_range.2 hc0⟩).ne'

theorem LogitModel.ranked {cats : List ℕ} {P : (Fin 1 → ℝ) → ℕ → ℕ → ℝ} {A : ℕ → ℕ → Fin 1 → ℝ} {B : ℕ → ℕ → ℝ}
    (h : LogitModel cats P A B) (j c : ℕ) (hc : cats[j]? = some c) (hc0 : 0 < c) :
    ((∀ r r', r ≤ r' → r' < c → A j r 0 ≤ A j r' 0) → RankedItem P j c) ∧
    ((∀ r r', r < r' → r' < c → A j r 0 < A j r' 0) → StrictlyRankedItem P j c) := by
  have key : ∀ (θ θ' : Fin 1 → ℝ) (r r' : ℕ), r < c → r' < c → ∃ K, 0 < K ∧
      P θ' j r * P θ j r' = K * Real.exp (A j r 0 * θ' 0 + A j r' 0 * θ 0) ∧
      P θ j r * P θ' j r' = K * Real.exp (A j r 0 * θ 0 + A j r' 0 * θ' 0) := by
    intro θ θ' r r' hr hr'
    have Z : ∀ t : Fin 1 → ℝ, 0 < ∑ s ∈ range c, Real.exp (∑ k, A j s k * t k + B j s) := fun t =>
      sum_pos (fun _ _ => Real.exp_pos _) ⟨r, mem_range.2 hr⟩
    refine ⟨Real.exp (B j r) * Real.exp (B j r') / ((∑ s ∈ range c, Real.exp (∑ k, A j s k * θ k + B j s))
      * ∑ s ∈ range c, Real.exp (∑ k, A j s k * θ' k + B j s)),
      div_pos (by positivity) (mul_pos (Z θ) (Z θ')), ?_, ?_⟩
    · rw [h θ' j c r hc hr, h θ j c r' hc hr', div_mul_div_comm, div_mul_eq_mul_div,
        mul_comm (∑ s ∈ range c, Real.exp (∑ k, A j s k * θ' k + B j s))]
      congr 1
      simp only [univ_unique, Fin.default_eq_zero, sum_singleton, ← Real.exp_add]
      congr 1; ring
    · rw [h θ j c r hc hr, h θ' j c r' hc hr', div_mul_div_comm, div_mul_eq_mul_div]
      congr 1
      simp only [univ_unique, Fin.default_eq_zero, sum_singleton, ← Real.exp_add]
      congr 1; ring
  refine ⟨fun hA => ⟨fun θ => h.sum_one θ j c hc hc0, fun θ θ' hθ r r' hrr hr' => ?_⟩, fun hA θ θ' hθ r r' hrr hr' => ?_⟩
  · obtain ⟨K, hK, e1, e2⟩ := key θ θ' r r' (by omega) hr'
    rw [e1, e2]
    refine mul_le_mul_of_nonneg_left (Real.exp_le_exp.2 ?_) hK.le
    nlinarith [hA r r' hrr hr']
  · obtain ⟨K, hK, e1, e2⟩ := key θ θ' r r' (by omega) hr'
    rw [e1, e2]
    refine mul_lt_mul_of_pos_left (Real.exp_lt_exp.2 ?_) hK
    nlinarith [hA r r' hrr hr']

/-- If every response has positive probability on the grid, every respondent gets an EAP score. -/
theorem eap_exists {d : ℕ} {m : Scorer d} {cats : List ℕ} {P : (Fin d → ℝ) → ℕ → ℕ → ℝ}
    (hm : IsScorer m cats P) (a : AlgAttrs d) (hd : d ≤ 4) (points : Option ℕ) (N : ℕ) (y : ℕ → ℕ → Cell)
    (hy : ∀ i, i < N → ValidResponses cats (y i)) (grid : Thetas d) (hg : grid ≠ [])
    (cov : Matrix (Fin d) (Fin d) ℝ) (hcov : cov.PosDef)
    (hgrid : eapGrid a (points.getD (eapDefaultPoints d)) = .ok (grid, cov))
    (hpos : ∀ j c r, cats[j]? = some c → r < c → ∀ θ ∈ grid, 0 < P θ j r) :
    ∃ s, eapScores m a (rowsOf N cats.length y) points = .ok s ∧ ∀ i, i < N → ∃ u, s[i]? = some (some u) := by
  refine ⟨_, C45_posterior_mean hm a hd points N y hy grid hg cov hcov hgrid, fun i hi => ?_⟩
  rw [List.getElem?_map, List.getElem?_range hi, Option.map_some]
  obtain ⟨θ₀, hθ₀⟩ := List.exists_mem_of_ne_nil grid hg
  have h : (grid.map fun θ => Real.exp (mvnLogDensity 0 cov θ) * observedLikelihood P cats.length (y i) θ).sum ≠ 0 := by
    refine (list_sum_pos_of_mem _ _ (fun θ _ => mul_nonneg (Real.exp_pos _).le
      (observedLikelihood_nonneg P hm.nonneg _ _ _)) θ₀ hθ₀ (mul_pos (Real.exp_pos _) (prod_pos fun j hj => ?_))).ne'
    obtain ⟨c, hc⟩ := getElem?_of_lt cats j (mem_range.1 hj)
    cases hmis : cellMissing (y i j) with
    | true => simp
    | false =>
      simp only [Bool.false_eq_true, if_false]
      exact hpos j c _ hc (observed_lt cats _ (hy i hi) j c hc hmis) _ hθ₀
  rw [if_neg h]
  exact ⟨_, rfl⟩

/-- Two respondents of one data set, scored by EAP on `grid`: respondent `i'` with answers at least as good
as respondent `i` on every item gets a score at least as high, and a strictly higher one if some answer on an
item in `strict` is strictly better. -/
def EapFollowsAnswers (m : Scorer 1) (cats : List ℕ) (strict : ℕ → Prop) : Prop :=
  ∀ (a : AlgAttrs 1) (points : Option ℕ) (N : ℕ) (y : ℕ → ℕ → Cell), (∀ i, i < N → ValidResponses cats (y i)) →
    ∀ (grid : Thetas 1), grid ≠ [] → ∀ (cov : Matrix (Fin 1) (Fin 1) ℝ), cov.PosDef →
    eapGrid a (points.getD (eapDefaultPoints 1)) = .ok (grid, cov) →
    ∀ (i i' : ℕ), i < N → i' < N → (∀ j c, cats[j]? = some c → AnswerLE c (y i j) (y i' j)) →
    ∃ s u v, eapScores m a (rowsOf N cats.length y) points = .ok s ∧ s[i]? = some (some u) ∧ s[i']? = some (some v) ∧
      u 0 ≤ v 0 ∧
      ((∃ p ∈ grid, ∃ q ∈ grid, p 0 ≠ q 0) → (∃ j c, cats[j]? = some c ∧ strict j ∧ AnswerLT c (y i j) (y i' j)) →
        u 0 < v 0)

theorem eapFollows {m : Scorer 1} {cats : List ℕ} {P : (Fin 1 → ℝ) → ℕ → ℕ → ℝ} (hm : IsScorer m cats P)
    (hcats : ∀ c ∈ cats, 0 < c) (hP : ∀ j c, cats[j]? = some c → RankedItem P j c)
    (hpos : ∀ θ j c r, cats[j]? = some c → r < c → 0 < P θ j r) (strict : ℕ → Prop)
    (hstrict : ∀ j c, cats[j]? = some c → strict j → 2 ≤ c ∧ StrictlyRankedItem P j c) :
    EapFollowsAnswers m cats strict := by
  intro a points N y hy grid hg cov hcov hgrid i i' hi hi' better
  obtain ⟨s, hs, hex⟩ := eap_exists hm a (by norm_num) points N y hy grid hg cov hcov hgrid
    (fun j c r hc hr θ _ => hpos θ j c r hc hr)
  obtain ⟨u, hu⟩ := hex i hi
  obtain ⟨v, hv⟩ := hex i' hi'
  obtain ⟨h1, h2⟩ := C100_ranked_categories hm hcats hP a points N y hy grid hg cov hcov hgrid s hs i i' hi hi' u v hu hv
    better
  refine ⟨s, u, v, hs, hu, hv, h1, fun hdiff ⟨j, c, hc, hst, hlt⟩ => h2 ⟨j, c, hc, (hstrict j c hc hst).1,
    (hstrict j c hc hst).2, hlt⟩ (fun j c r hc hr θ _ => hpos θ j c r hc hr) hdiff⟩

theorem replicate_pos (n : ℕ) : ∀ c ∈ List.replicate n 2, 0 < c := by
  intro c hc; rw [List.eq_of_mem_replicate hc]; norm_num

/-- C100 for the 1PL model: every better answer raises the score. -/
theorem C100_onePL (m : OnePL) (hwf : m.WF) (hne : 0 < m.items) :
    EapFollowsAnswers m.scorer (List.replicate m.items 2) fun _ => True := by
  refine eapFollows (m.isScorer hwf hne) (replicate_pos _)
    (fun j c hc => ((m.logitModel hwf).ranked j c hc (replicate_pos _ c (List.mem_of_getElem? hc))).1 fun r r' h _ => by
      exact_mod_cast h)
    (fun θ j c r hc hr => (m.logitModel hwf).pos θ j c r hc hr) _ fun j c hc _ => ?_
  obtain ⟨_, rfl⟩ := replicate_getElem? _ _ _ _ hc
  exact ⟨le_refl _, ((m.logitModel hwf).ranked j 2 hc (by norm_num)).2 fun r r' h _ => by exact_mod_cast h⟩

/-- C100 for the 2PL model with nonnegative slopes: better answers to items with positive slopes raise the
score. -/
theorem C100_twoPL (m : TwoPL) (hwf : m.WF) (hne : 0 < m.items)
    (hslope : ∀ j, j < m.items → 0 ≤ slopeOf m.itemParameters j 0) :
    EapFollowsAnswers (m.scorer 1) (List.replicate m.items 2) fun j => 0 < slopeOf m.itemParameters j 0 := by
  refine eapFollows (m.isScorer hwf hne 1) (replicate_pos _)
    (fun j c hc => ((m.logitModel hwf 1).ranked j c hc (replicate_pos _ c (List.mem_of_getElem? hc))).1 fun r r' h _ => ?_)
    (fun θ j c r hc hr => (m.logitModel hwf 1).pos θ j c r hc hr) _ fun j c hc hs => ?_
  · exact mul_le_mul_of_nonneg_right (by exact_mod_cast h) (hslope j (replicate_getElem? _ _ _ _ hc).1)
  · obtain ⟨_, rfl⟩ := replicate_getElem? _ _ _ _ hc
    exact ⟨le_refl _, ((m.logitModel hwf 1).ranked j 2 hc (by norm_num)).2 fun r r' h _ =>
      mul_lt_mul_of_pos_right (by exact_mod_cast h) hs⟩

/-- C100 for the generalized partial credit model with nonnegative slopes. -/
theorem C100_gpc (m : GPC) (hwf : m.WF) (hne : m.cats ≠ [])
    (hslope : ∀ j, j < m.cats.length → 0 ≤ slopeOf m.itemParameters j 0) :
    EapFollowsAnswers (m.scorer 1) m.cats fun j => 0 < slopeOf m.itemParameters j 0 ∧ ∀ c, m.cats[j]? = some c → 2 ≤ c := by
  refine eapFollows (m.isScorer hwf hne 1) hwf.catsPos
    (fun j c hc => ((m.logitModel hwf 1).ranked j c hc (hwf.catsPos c (List.mem_of_getElem? hc))).1 fun r r' h _ => ?_)
    (fun θ j c r hc hr => (m.logitModel hwf 1).pos θ j c r hc hr) _ fun j c hc hs => ?_
  · exact mul_le_mul_of_nonneg_right (by exact_mod_cast h) (hslope j (lt_of_getElem?_some hc))
  · exact ⟨hs.2 c hc, ((m.logitModel hwf 1).ranked j c hc (hwf.catsPos c (List.mem_of_getElem? hc))).2 fun r r' h _ =>
      mul_lt_mul_of_pos_right (by exact_mod_cast h) hs.1⟩

/-- C100 for the nominal response model, when the slopes of the categories of each item do not fall. -/
theorem C100_nrm (m : NRM) (hwf : m.WF) (hne : m.cats ≠ [])
    (hslope : ∀ j c r r', m.cats[j]? = some c → r ≤ r' → r' < c →
      categorySlopeOf m.itemParameters j r 0 ≤ categorySlopeOf m.itemParameters j r' 0) :
    EapFollowsAnswers (m.scorer 1) m.cats fun j => ∀ c, m.cats[j]? = some c → 2 ≤ c ∧ ∀ r r', r < r' → r' < c →
      categorySlopeOf m.itemParameters j r 0 < categorySlopeOf m.itemParameters j r' 0 :=
  eapFollows (m.isScorer hwf hne 1) hwf.catsPos
    (fun j c hc => ((m.logitModel 1).ranked j c hc (hwf.catsPos c (List.mem_of_getElem? hc))).1 fun r r' h hr' =>
      hslope j c r r' hc h hr')
    (fun θ j c r hc hr => (m.logitModel 1).pos θ j c r hc hr) _ fun j c hc hs =>
      ⟨(hs c hc).1, ((m.logitModel 1).ranked j c hc (hwf.catsPos c (List.mem_of_getElem? hc))).2 (hs c hc).2⟩

/-! ### 3PL -/

theorem ThreePL.success (m : ThreePL) (hwf : m.WF) (j : ℕ) (hj : j < m.items) : ∃ b g, 0 < g ∧ g < 1 ∧ ∀ θ : Fin 1 → ℝ,
    tableProb (m.probs (List.ofFn θ)) j 1 = g + (1 - g) * logistic (θ 0 * slopeOf m.itemParameters j 0 + b) ∧
    tableProb (m.probs (List.ofFn θ)) j 0 = 1 - (g + (1 - g) * logistic (θ 0 * slopeOf m.itemParameters j 0 + b)) := by
  obtain ⟨w, b, g, hp⟩ := m.exists_params hwf j hj
  obtain ⟨h0, h1, _⟩ := C03_threePL_bounds m [] j w b g hp
  refine ⟨b, g, h0, h1, fun θ => ?_⟩
  rw [tableProb_row _ _ _ _ (C03_threePL_formula m _ j w b g hp), tableProb_row _ _ _ _ (C03_threePL_formula m _ j w b g hp),
    slopeOf_eq _ _ _ _ hp, dot_ofFn]
  simp

theorem ThreePL.ranked (m : ThreePL) (hwf : m.WF) (j : ℕ) (hj : j < m.items) :
    (0 ≤ slopeOf m.itemParameters j 0 → RankedItem (fun θ => tableProb (m.probs (List.ofFn θ))) j 2) ∧
    (0 < slopeOf m.itemParameters j 0 → StrictlyRankedItem (fun θ => tableProb (m.probs (List.ofFn θ))) j 2) ∧
    ∀ (θ : Fin 1 → ℝ) r, r < 2 → 0 < tableProb (m.probs (List.ofFn θ)) j r := by
  obtain ⟨b, g, h0, h1, h⟩ := m.success hwf j hj
  have hl := fun x => logistic_lt_one x
  have hl0 := fun x => logistic_pos x
  refine ⟨fun hs => ⟨fun θ => ?_, fun θ θ' hθ r r' hrr hr' => ?_⟩, fun hs θ θ' hθ r r' hrr hr' => ?_, fun θ r hr => ?_⟩
  · rw [sum_range_succ, sum_range_one, (h θ).1, (h θ).2]; ring
  · have hle : logistic (θ 0 * slopeOf m.itemParameters j 0 + b) ≤ logistic (θ' 0 * slopeOf m.itemParameters j 0 + b) :=
      logistic_strictMono.monotone (by nlinarith)
    have : (r = 0 ∧ r' = 0) ∨ (r = 0 ∧ r' = 1) ∨ (r = 1 ∧ r' = 1) := by omega
    rcases this with ⟨rfl, rfl⟩ | ⟨rfl, rfl⟩ | ⟨rfl, rfl⟩
    · rw [mul_comm]
    · rw [(h θ).1, (h θ').1, (h θ).2, (h θ').2]
      nlinarith
    · rw [mul_comm]
  · obtain ⟨rfl, rfl⟩ : r = 0 ∧ r' = 1 := by omega
    have hlt : logistic (θ 0 * slopeOf m.itemParameters j 0 + b) < logistic (θ' 0 * slopeOf m.itemParameters j 0 + b) :=
      logistic_strictMono (by nlinarith)
    dsimp only
    rw [(h θ).1, (h θ').1, (h θ).2, (h θ').2]
    nlinarith
  · have := hl (θ 0 * slopeOf m.itemParameters j 0 + b)
    have := hl0 (θ 0 * slopeOf m.itemParameters j 0 + b)
    interval_cases r
    · rw [(h θ).2]; nlinarith
    · rw [(h θ).1]; nlinarith

/-- C100 for the 3PL model with nonnegative slopes. -/
theorem C100_threePL (m : ThreePL) (hwf : m.WF) (hne : 0 < m.items)
    (hslope : ∀ j, j < m.items → 0 ≤ slopeOf m.itemParameters j 0) :
    EapFollowsAnswers (m.scorer 1) (List.replicate m.items 2) fun j => 0 < slopeOf m.itemParameters j 0 := by
  refine eapFollows (m.isScorer hwf hne 1) (replicate_pos _) (fun j c hc => ?_) (fun θ j c r hc hr => ?_) _
    fun j c hc hs => ?_
  all_goals obtain ⟨hj, rfl⟩ := replicate_getElem? _ _ _ _ hc
  · exact (m.ranked hwf j hj).1 (hslope j hj)
  · exact (m.ranked hwf j hj).2.2 θ r hr
  · exact ⟨le_refl _, (m.ranked hwf j hj).2.1 hs⟩

/-! ### Graded response -/

theorem sigmoid_exchange (η η' d d' : ℝ) (hη : η ≤ η') (hd : d' ≤ d) :
    sigmoid (η' + d) * sigmoid (η + d') ≤ sigmoid (η + d) * sigmoid (η' + d') ∧
    (1 - sigmoid (η' + d)) * (1 - sigmoid (η + d')) ≤ (1 - sigmoid (η + d)) * (1 - sigmoid (η' + d')) ∧
    (η < η' → d' < d → sigmoid (η' + d) * sigmoid (η + d') < sigmoid (η + d) * sigmoid (η' + d')) := by
  simp only [sigmoid_eq]
  have p : ∀ x : ℝ, 0 < 1 + Real.exp x := fun x => by positivity
  have q : ∀ x : ℝ, 1 - Real.exp x / (1 + Real.exp x) = 1 / (1 + Real.exp x) := by
    intro x; field_simp; ring
  simp only [q, div_mul_div_comm]
  simp only [Real.exp_add] at *
  have e1 := Real.exp_le_exp.2 hη
  have e2 := Real.exp_le_exp.2 hd
  have x0 := Real.exp_pos η
  have y0 := Real.exp_pos η'
  have a0 := Real.exp_pos d
  have b0 := Real.exp_pos d'
  have num : Real.exp η' * Real.exp d * (Real.exp η * Real.exp d') = Real.exp η * Real.exp d * (Real.exp η' * Real.exp d') := by ring
  have le : (1 + Real.exp η * Real.exp d) * (1 + Real.exp η' * Real.exp d')
      ≤ (1 + Real.exp η' * Real.exp d) * (1 + Real.exp η * Real.exp d') := by
    nlinarith [mul_nonneg (sub_nonneg.2 e1) (sub_nonneg.2 e2)]
  refine ⟨?_, ?_, fun h1 h2 => ?_⟩
  · rw [num]
    exact div_le_div_of_nonneg_left (by positivity) (by positivity) le
  · rw [one_mul]
    exact div_le_div_of_nonneg_left (by positivity) (by positivity) le
  · rw [num]
    refine div_lt_div_of_pos_left (by positivity) (by positivity) ?_
    nlinarith [mul_pos (sub_pos.2 (Real.exp_lt_exp.2 h1)) (sub_pos.2 (Real.exp_lt_exp.2 h2))]

theorem sigmoid_sub (u v : ℝ) : sigmoid u - sigmoid v = (1 - Real.exp (v - u)) * (sigmoid u * (1 - sigmoid v)) := by
  simp only [sigmoid_eq, Real.exp_sub]
  have := Real.exp_pos u
  have := Real.exp_pos v
  field_simp
  ring

/-- The probability of a category as a constant times a probability of reaching it times a probability of
not going beyond. -/
theorem grm_factor (c : ℕ) (d : ℕ → ℝ) (r : ℕ) (hr : r < c) (hd : ∀ k, 0 < k → k + 1 < c → d (k + 1) < d k) :
    ∃ K : ℝ, 0 < K ∧ ∀ η, grmGeq c η d r - grmGeq c η d (r + 1) = K * (grmGeq c η d r * (1 - grmGeq c η d (r + 1))) := by
  by_cases h0 : r = 0
  · subst h0
    exact ⟨1, one_pos, fun η => by simp [grmGeq]⟩
  by_cases hl : r + 1 < c
  · refine ⟨1 - Real.exp (d (r + 1) - d r), ?_, fun η => ?_⟩
    · have h1 : Real.exp (d (r + 1) - d r) < Real.exp 0 :=
        Real.exp_lt_exp.2 (by have := hd r (by omega) hl; linarith)
      rw [Real.exp_zero] at h1
      linarith
    · simp only [grmGeq, h0, hr, hl, if_true, if_false, Nat.add_eq_zero_iff, one_ne_zero, and_false]
      rw [sigmoid_sub, show η + d (r + 1) - (η + d r) = d (r + 1) - d r by ring]
  · exact ⟨1, one_pos, fun η => by simp [grmGeq, h0, hl]⟩

theorem grm_antitone (c : ℕ) (d : ℕ → ℝ) (hd : ∀ k, 0 < k → k + 1 < c → d (k + 1) < d k) (r r' : ℕ) (h0 : 0 < r)
    (h : r < r') (hr' : r' < c) : d r' < d r := by
  induction r' with
  | zero => omega
  | succ n ih =>
    rcases Nat.lt_succ_iff_lt_or_eq.1 h with h | rfl
    · exact (hd n (by omega) hr').trans (ih h (by omega))
    · exact hd r h0 hr'

theorem grm_ratio (c : ℕ) (d : ℕ → ℝ) (hd : ∀ k, 0 < k → k + 1 < c → d (k + 1) < d k) (η η' : ℝ) (hη : η ≤ η') (r r' : ℕ)
    (hrr : r < r') (hr' : r' < c) :
    grmGeq c η' d r * grmGeq c η d r' ≤ grmGeq c η d r * grmGeq c η' d r' ∧
    (η < η' → grmGeq c η' d r * grmGeq c η d r' < grmGeq c η d r * grmGeq c η' d r') ∧
    (1 - grmGeq c η' d (r + 1)) * (1 - grmGeq c η d (r' + 1)) ≤ (1 - grmGeq c η d (r + 1)) * (1 - grmGeq c η' d (r' + 1)) := by
  have hr0 : r' ≠ 0 := by omega
  have hrc : r < c := by omega
  have hr1 : r + 1 < c := by omega
  refine ⟨?_, fun hlt => ?_, ?_⟩
  · by_cases h0 : r = 0
    · simp only [grmGeq, h0, hr0, hr', if_true, if_false, one_mul]
      exact sigmoid_strictMono.monotone (by linarith)
    · simp only [grmGeq, h0, hr0, hr', hrc, if_true, if_false]
      exact (sigmoid_exchange η η' _ _ hη (grm_antitone c d hd r r' (by omega) hrr hr').le).1
  · by_cases h0 : r = 0
    · simp only [grmGeq, h0, hr0, hr', if_true, if_false, one_mul]
      exact sigmoid_strictMono (by linarith)
    · simp only [grmGeq, h0, hr0, hr', hrc, if_true, if_false]
      have hd' := grm_antitone c d hd r r' (by omega) hrr hr'
      exact (sigmoid_exchange η η' _ _ hη hd'.le).2.2 hlt hd'
  · have g1 : ∀ t, grmGeq c t d (r + 1) = sigmoid (t + d (r + 1)) := by
      intro t; simp [grmGeq, hr1]
    by_cases hl : r' + 1 < c
    · have g2 : ∀ t, grmGeq c t d (r' + 1) = sigmoid (t + d (r' + 1)) := by
        intro t; simp [grmGeq, hl]
      simp only [g1, g2]
      exact (sigmoid_exchange η η' _ _ hη (grm_antitone c d hd (r + 1) (r' + 1) (by omega) (by omega) hl).le).2.1
    · have g2 : ∀ t, grmGeq c t d (r' + 1) = 0 := by
        intro t; simp [grmGeq, hl]
      simp only [g1, g2, sub_zero, mul_one]
      have := sigmoid_strictMono.monotone (show η + d (r + 1) ≤ η' + d (r + 1) by linarith)
      linarith

theorem grm_pos (c : ℕ) (d : ℕ → ℝ) (η : ℝ) (r : ℕ) (hr : r < c) :
    0 < grmGeq c η d r ∧ 0 < 1 - grmGeq c η d (r + 1) := by
  constructor
  · unfold grmGeq
    split
    · exact one_pos
    · exact sigmoid_pos _
  · unfold grmGeq
    rw [if_neg (by omega)]
    split
    · have := sigmoid_lt_one (η + d (r + 1)); linarith
    · norm_num

/-- The intercepts of every item fall strictly (nothing in the code keeps them ordered, see C04). -/
def GRM.Ordered (m : GRM) : Prop :=
  ∀ (j c : ℕ) (w dl : List ℝ), m.cats[j]? = some c → m.itemParameters[j]? = some (w, dl) →
    ∀ k, k + 2 < c → dl.getD (k + 1) 0 < dl.getD k 0

theorem GRM.row (m : GRM) (d : ℕ) (j c : ℕ) (hc : m.cats[j]? = some c) : ∃ (w : List ℝ) (dl : List ℝ),
    m.itemParameters[j]? = some (w, dl) ∧ ∀ (θ : Fin d → ℝ) (r : ℕ), r < m.M →
      tableProb (m.probs (List.ofFn θ)) j r
        = grmGeq c (∑ k, θ k * w.getD k 0) (fun k => dl.getD (k - 1) 0) r
          - grmGeq c (∑ k, θ k * w.getD k 0) (fun k => dl.getD (k - 1) 0) (r + 1) := by
  obtain ⟨w, dl, hp, hl⟩ := m.exists_params j (lt_of_getElem?_some hc)
  refine ⟨w, dl, hp, fun θ r hr => ?_⟩
  have hd : ∀ k, k + 1 < m.M → dl[k]? = some ((fun k => dl.getD (k - 1) 0) (k + 1)) := by
    intro k hk
    obtain ⟨x, hx⟩ := getElem?_of_lt dl k (by omega)
    simp [List.getD_eq_getElem?_getD, hx]
  rw [tableProb_row _ _ _ _ (m.probs_row' _ j c w dl (fun k => dl.getD (k - 1) 0) hc hp hd), dot_ofFn, List.getD_eq_getElem?_getD, List.getElem?_map,
    List.getElem?_range hr]
  rfl

theorem GRM.isScorer (m : GRM) (hord : m.Ordered) (hne : m.cats ≠ []) (d : ℕ) :
    IsScorer (m.scorer d) m.cats fun θ => tableProb (m.probs (List.ofFn θ)) := by
  have hlen : ∀ θ, (m.probs θ).length = m.cats.length := by
    intro θ; simp [GRM.probs, length_viewRows]
  have row : ∀ (θ : List ℝ) (p : List ℝ) (j c : ℕ), m.cats[j]? = some c → (m.probs θ)[j]? = some p →
      p.length = m.M ∧ ∀ x ∈ p, 0 ≤ x := by
    intro θ p j c hc hp
    obtain ⟨w, dl, hpar, hl⟩ := m.exists_params j (lt_of_getElem?_some hc)
    have hd : ∀ k, k + 1 < m.M → dl[k]? = some ((fun k => dl.getD (k - 1) 0) (k + 1)) := by
      intro k hk
      obtain ⟨x, hx⟩ := getElem?_of_lt dl k (by omega)
      simp [List.getD_eq_getElem?_getD, hx]
    refine ⟨?_, (C04_grm_nonneg_iff m θ j c w dl (fun k => dl.getD (k - 1) 0) hc hpar hd).2 ?_ p hp⟩
    · rw [m.probs_row' _ j c w dl (fun k => dl.getD (k - 1) 0) hc hpar hd] at hp
      rw [← Option.some.inj hp]; simp
    · intro k hk hkc
      have := hord j c w dl hc hpar (k - 1) (by omega)
      rw [show k - 1 + 1 = k by omega] at this
      simpa using this.le
  refine tableScorer_isScorer m.cats hne (fun θ => m.probs (List.ofFn θ)) (fun θ => hlen _) ?_ ?_
  · intro θ j c p hc hp
    rw [(row _ _ _ _ hc hp).1]
    exact le_maxCats _ _ (List.mem_of_getElem? hc)
  · intro θ p hp x hx
    obtain ⟨j, hj⟩ := List.mem_iff_getElem?.1 hp
    have := lt_of_getElem?_some hj
    rw [hlen] at this
    obtain ⟨c, hc⟩ := getElem?_of_lt m.cats j this
    exact (row _ _ _ _ hc hj).2 x hx

theorem GRM.ranked (m : GRM) (hwf : m.WF) (hord : m.Ordered) (j c : ℕ) (hc : m.cats[j]? = some c) :
    (0 ≤ slopeOf m.itemParameters j 0 → RankedItem (fun θ => tableProb (m.probs (List.ofFn θ))) j c) ∧
    (0 < slopeOf m.itemParameters j 0 → StrictlyRankedItem (fun θ => tableProb (m.probs (List.ofFn θ))) j c) ∧
    ∀ (θ : Fin 1 → ℝ) r, r < c → 0 < tableProb (m.probs (List.ofFn θ)) j r := by
  obtain ⟨w, dl, hp, h⟩ := m.row 1 j c hc
  have hcM : c ≤ m.M := le_maxCats _ _ (List.mem_of_getElem? hc)
  have hc0 := hwf.catsPos c (List.mem_of_getElem? hc)
  simp only [univ_unique, Fin.default_eq_zero, sum_singleton] at h
  rw [slopeOf_eq _ _ _ _ hp]
  change (0 ≤ w.getD 0 0 → _) ∧ (0 < w.getD 0 0 → _) ∧ _
  change ∀ (θ : Fin 1 → ℝ) (r : ℕ), r < m.M → _ = grmGeq c (θ 0 * w.getD 0 0) _ r - grmGeq c (θ 0 * w.getD 0 0) _ (r + 1) at h
  have hd : ∀ k, 0 < k → k + 1 < c → (fun k => dl.getD (k - 1) 0) (k + 1) < (fun k => dl.getD (k - 1) 0) k := by
    intro k hk hkc
    have := hord j c w dl hc hp (k - 1) (by omega)
    rw [show k - 1 + 1 = k by omega] at this
    simpa using this
  generalize (fun k => dl.getD (k - 1) 0) = d at h hd
  have prod : ∀ (A B C D A' B' C' D' K L : ℝ), 0 < K → 0 < L → 0 < A → 0 < B → 0 < C → 0 < D → 0 < A' → 0 < B' → 0 < C' → 0 < D' →
      A * B ≤ A' * B' → C * D ≤ C' * D' →
      K * (A * C) * (L * (B * D)) ≤ K * (A' * C') * (L * (B' * D')) ∧
      (A * B < A' * B' → K * (A * C) * (L * (B * D)) < K * (A' * C') * (L * (B' * D'))) := by
    intro A B C D A' B' C' D' K L hK hL hA hB hC hD hA' hB' hC' hD' h1 h2
    have e1 : K * (A * C) * (L * (B * D)) = K * L * ((A * B) * (C * D)) := by ring
    have e2 : K * (A' * C') * (L * (B' * D')) = K * L * ((A' * B') * (C' * D')) := by ring
    rw [e1, e2]
    refine ⟨mul_le_mul_of_nonneg_left (mul_le_mul h1 h2 (by positivity) (by positivity)) (by positivity),
      fun h1 => mul_lt_mul_of_pos_left (mul_lt_mul h1 h2 (by positivity) (by positivity)) (by positivity)⟩
  refine ⟨fun hs => ⟨fun θ => ?_, fun θ θ' hθ r r' hrr hr' => ?_⟩, fun hs θ θ' hθ r r' hrr hr' => ?_, fun θ r hr => ?_⟩
  · rw [sum_congr rfl fun r hr => h θ r (by have := mem_range.1 hr; omega), Finset.sum_range_sub']
    simp [grmGeq, hc0.ne']
  · rcases hrr.eq_or_lt with rfl | hrr
    · rw [mul_comm]
    obtain ⟨K, hK, e⟩ := grm_factor c d r (by omega) hd
    obtain ⟨L, hL, e'⟩ := grm_factor c d r' hr' hd
    rw [h θ r (by omega), h θ' r (by omega), h θ r' (by omega), h θ' r' (by omega), e, e, e', e']
    have hη : θ 0 * w.getD 0 0 ≤ θ' 0 * w.getD 0 0 := mul_le_mul_of_nonneg_right hθ hs
    obtain ⟨g1, _, g3⟩ := grm_ratio c d hd _ _ hη r r' hrr hr'
    exact (prod _ _ _ _ _ _ _ _ K L hK hL (grm_pos c d _ r (by omega)).1 (grm_pos c d _ r' hr').1
      (grm_pos c d _ r (by omega)).2 (grm_pos c d _ r' hr').2 (grm_pos c d _ r (by omega)).1 (grm_pos c d _ r' hr').1
      (grm_pos c d _ r (by omega)).2 (grm_pos c d _ r' hr').2 g1 g3).1
  · obtain ⟨K, hK, e⟩ := grm_factor c d r (by omega) hd
    obtain ⟨L, hL, e'⟩ := grm_factor c d r' hr' hd
    dsimp only
    rw [h θ r (by omega), h θ' r (by omega), h θ r' (by omega), h θ' r' (by omega), e, e, e', e']
    have hη : θ 0 * w.getD 0 0 < θ' 0 * w.getD 0 0 := mul_lt_mul_of_pos_right hθ hs
    obtain ⟨g1, g2, g3⟩ := grm_ratio c d hd _ _ hη.le r r' hrr hr'
    exact (prod _ _ _ _ _ _ _ _ K L hK hL (grm_pos c d _ r (by omega)).1 (grm_pos c d _ r' hr').1
      (grm_pos c d _ r (by omega)).2 (grm_pos c d _ r' hr').2 (grm_pos c d _ r (by omega)).1 (grm_pos c d _ r' hr').1
      (grm_pos c d _ r (by omega)).2 (grm_pos c d _ r' hr').2 g1 g3).2 (g2 hη)
  · obtain ⟨K, hK, e⟩ := grm_factor c d r hr hd
    rw [h θ r (by omega), e]
    have := grm_pos c d (θ 0 * w.getD 0 0) r hr
    exact mul_pos hK (mul_pos this.1 this.2)

/-- C100 for the graded response model with nonnegative slopes and falling intercepts. -/
theorem C100_grm (m : GRM) (hwf : m.WF) (hord : m.Ordered) (hne : m.cats ≠ [])
    (hslope : ∀ j, j < m.cats.length → 0 ≤ slopeOf m.itemParameters j 0) :
    EapFollowsAnswers (m.scorer 1) m.cats fun j => 0 < slopeOf m.itemParameters j 0 ∧ ∀ c, m.cats[j]? = some c → 2 ≤ c :=
  eapFollows (m.isScorer hord hne 1) hwf.catsPos
    (fun j c hc => (m.ranked hwf hord j c hc).1 (hslope j (lt_of_getElem?_some hc)))
    (fun θ j c r hc hr => (m.ranked hwf hord j c hc).2.2 θ r hr) _
    fun j c hc hs => ⟨hs.2 c hc, (m.ranked hwf hord j c hc).2.1 hs.1⟩

/-! ## Non-vacuity -/

theorem grid_one (n : ℕ) : eapGrid ({} : AlgAttrs 1) n = .ok (cartesianProd fun _ => linspace (-3) 3 n, 1) := rfl

theorem two_points : (fun _ => -3 : Fin 1 → ℝ) ∈ (cartesianProd fun _ => linspace (-3) 3 2 : List (Fin 1 → ℝ)) ∧
    (fun _ => 3 : Fin 1 → ℝ) ∈ (cartesianProd fun _ => linspace (-3) 3 2 : List (Fin 1 → ℝ)) := by
  constructor <;> rw [mem_cartesianProd] <;> intro k <;> rw [mem_linspace]
  · exact ⟨0, by norm_num, by norm_num⟩
  · exact ⟨1, by norm_num, by norm_num⟩

/-- Respondent 0 fails the first item, respondent 1 passes it; both skip the second. -/
def exTwoAnswers : ℕ → ℕ → Cell := fun i j => if j = 1 then none else some (i : ℤ)

theorem exTwoAnswers_valid (cats : List ℕ) (hcats : ∀ c ∈ cats, 2 ≤ c) (i : ℕ) (hi : i < 2) :
    ValidResponses cats (exTwoAnswers i) := by
  intro j c hc hm
  unfold exTwoAnswers at *
  split at hm
  · simp [cellMissing] at hm
  · rename_i h
    rw [if_neg h]
    exact ⟨i, rfl, by have := hcats c (List.mem_of_getElem? hc); omega⟩

/-- In every model the theorem covers, the respondent with the pass is scored strictly higher. -/
theorem exTwoAnswers_scored (m : Scorer 1) (cats : List ℕ) (hcats : ∀ c ∈ cats, 2 ≤ c) (hne : 0 < cats.length)
    (strict : ℕ → Prop) (h : EapFollowsAnswers m cats strict) (hs : strict 0) :
    ∃ s u v, eapScores m {} (rowsOf 2 cats.length exTwoAnswers) (some 2) = .ok s ∧ s[0]? = some (some u) ∧
      s[1]? = some (some v) ∧ u 0 < v 0 := by
  obtain ⟨c, hc⟩ := getElem?_of_lt cats 0 hne
  obtain ⟨s, u, v, h1, h2, h3, _, h5⟩ := h {} (some 2) 2 exTwoAnswers (exTwoAnswers_valid cats hcats) _
    (List.ne_nil_of_mem two_points.1) 1 Matrix.PosDef.one (grid_one 2) 0 1 (by norm_num) (by norm_num) (by
      intro j c _
      unfold exTwoAnswers AnswerLE
      by_cases hj : j = 1 <;> simp [hj, cellMissing, responseOf])
  exact ⟨s, u, v, h1, h2, h3, h5 ⟨_, two_points.1, _, two_points.2, by norm_num⟩
    ⟨0, c, hc, hs, by simp [exTwoAnswers, AnswerLT, cellMissing, responseOf]⟩⟩

example : ∃ s u v, eapScores exOnePL.scorer {} (rowsOf 2 (List.replicate exOnePL.items 2).length exTwoAnswers) (some 2) = .ok s ∧
    s[0]? = some (some u) ∧ s[1]? = some (some v) ∧ u 0 < v 0 :=
  exTwoAnswers_scored _ _ (fun c hc => (List.eq_of_mem_replicate hc).ge) (by simp [exOnePL]) _
    (C100_onePL exOnePL exOnePL_wf (by simp [exOnePL])) trivial

/-- Two graded items with three and two categories, slopes 1 and 2, falling intercepts. -/
noncomputable def exGraded : GRM := ⟨1, [3, 2], [[true], [true]], [1, 2], [1, -1, 0]⟩

theorem exGraded_parameters : exGraded.itemParameters = [([1], [1, -1]), ([2], [0, 0])] := by
  simp [GRM.itemParameters, GRM.weights, GRM.biases, GRM.M, exGraded, maxCats, viewRows, scatterMask, freeMask, freeRow,
    List.range_succ, List.replicate]

theorem exGraded_wf : exGraded.WF where
  catsPos := by simp [exGraded]
  relLen := rfl
  relRow := by simp [exGraded]
  weightLen := by simp [exGraded, countTrue]
  biasLen := by simp [exGraded, countTrue, freeMask, freeRow, GRM.M, maxCats, List.range_succ]

theorem exGraded_ordered : exGraded.Ordered := by
  intro j c w dl hc hp k hk
  rw [exGraded_parameters] at hp
  match j, hc, hp with
  | 0, hc, hp =>
    simp only [List.getElem?_cons_zero, Option.some.injEq, Prod.mk.injEq] at hp
    simp only [exGraded, List.getElem?_cons_zero, Option.some.injEq] at hc
    obtain rfl : k = 0 := by omega
    rw [← hp.2]; norm_num
  | 1, hc, hp =>
    simp only [exGraded, List.getElem?_cons_succ, List.getElem?_cons_zero, Option.some.injEq] at hc
    omega
  | j + 2, hc, _ => simp [exGraded] at hc

example : ∃ s u v, eapScores (exGraded.scorer 1) {} (rowsOf 2 exGraded.cats.length exTwoAnswers) (some 2) = .ok s ∧
    s[0]? = some (some u) ∧ s[1]? = some (some v) ∧ u 0 < v 0 :=
  exTwoAnswers_scored _ _ (by simp [exGraded]) (by simp [exGraded]) _
    (C100_grm exGraded exGraded_wf exGraded_ordered (by simp [exGraded]) (by
      intro j hj
      have : j < 2 := hj
      interval_cases j <;> simp [slopeOf, exGraded_parameters])) (by
      constructor
      · simp [slopeOf, exGraded_parameters]
      · intro c hc
        simp [exGraded] at hc; omega)

/-! ## Two latent variables -/

/-- The claim of C100 for the 2PL with two latent variables and nonnegative slopes: better answers do not
lower any of the scores. -/
def TwoTraitsFollowAnswers : Prop :=
  ∀ (m : TwoPL), m.WF → 0 < m.items → (∀ j k, 0 ≤ slopeOf m.itemParameters j k) →
    ∀ (points : Option ℕ) (N : ℕ) (y : ℕ → ℕ → Cell),
    (∀ i, i < N → ValidResponses (List.replicate m.items 2) (y i)) →
    ∀ i i', i < N → i' < N → (∀ j, j < m.items → AnswerLE 2 (y i j) (y i' j)) →
    ∀ s u v, eapScores (m.scorer 2) {} (rowsOf N m.items y) points = .ok s → s[i]? = some (some u) →
      s[i']? = some (some v) → ∀ k, u k ≤ v k

/-- The first item needs either ability, the second only the first ability. -/
noncomputable def exCompensate : TwoPL := ⟨2, 2, [[true, true], [true, false]], [1, 1, 1], [0, 0]⟩

theorem exCompensate_wf : exCompensate.WF where
  relLen := rfl
  relRow := by simp [exCompensate]
  weightLen := by simp [exCompensate, countTrue]
  biasLen := rfl

theorem exCompensate_parameters : exCompensate.itemParameters = [([1, 1], 0), ([1, 0], 0)] := by
  simp [TwoPL.itemParameters, TwoPL.weights, exCompensate, viewRows, scatterMask, List.range_succ]

theorem exCompensate_prob (θ : Fin 2 → ℝ) :
    tableProb (exCompensate.probs (List.ofFn θ)) 0 0 = 1 - logistic (θ 0 + θ 1) ∧
    tableProb (exCompensate.probs (List.ofFn θ)) 1 0 = 1 - logistic (θ 0) ∧
    tableProb (exCompensate.probs (List.ofFn θ)) 1 1 = logistic (θ 0) := by
  have h0 := C03_twoPL_formula exCompensate exCompensate_wf (List.ofFn θ) 0 [1, 1] 0 (by simp [exCompensate_parameters])
  have h1 := C03_twoPL_formula exCompensate exCompensate_wf (List.ofFn θ) 1 [1, 0] 0 (by simp [exCompensate_parameters])
  refine ⟨?_, ?_, ?_⟩
  · rw [tableProb_row _ _ _ _ h0, dot_ofFn]; simp [Fin.sum_univ_two]
  · rw [tableProb_row _ _ _ _ h1, dot_ofFn]; simp [Fin.sum_univ_two]
  · rw [tableProb_row _ _ _ _ h1, dot_ofFn]; simp [Fin.sum_univ_two]

theorem grid_two : (cartesianProd fun _ => linspace (-3) 3 2 : List (Fin 2 → ℝ)) = [![-3, -3], ![-3, 3], ![3, -3], ![3, 3]] := by
  have h : linspace (-3) 3 2 = [-3, 3] := by
    simp [linspace, List.range_succ]; norm_num
  simp only [cartesianProd, h]
  simp
  refine ⟨?_, ?_, ?_, ?_⟩ <;> (funext k; fin_cases k <;> simp)

/-- Both respondents fail the first item; respondent 0 fails the second item and respondent 1 passes it. -/
def exCompensateAnswers : ℕ → ℕ → Cell := fun i j => if j = 0 then some 0 else some (i : ℤ)

theorem exCompensateAnswers_valid (i : ℕ) (hi : i < 2) :
    ValidResponses (List.replicate exCompensate.items 2) (exCompensateAnswers i) := by
  intro j c hc _
  obtain ⟨_, rfl⟩ := replicate_getElem? _ _ _ _ hc
  unfold exCompensateAnswers
  split
  · exact ⟨0, rfl, by norm_num⟩
  · exact ⟨i, rfl, hi⟩

theorem prior_corner (a b : ℝ) (ha : a * a = 9) (hb : b * b = 9) :
    mvnLogDensity 0 (1 : Matrix (Fin 2) (Fin 2) ℝ) ![a, b] = mvnLogDensity 0 1 ![3, 3] := by
  unfold mvnLogDensity
  simp only [sub_zero, inv_one, Matrix.one_mulVec, dotProduct, Fin.sum_univ_two, Matrix.cons_val_zero, Matrix.cons_val_one]
  rw [ha, hb]
  norm_num

theorem logistic_neg' (x : ℝ) : logistic (-x) = 1 - logistic x := by
  unfold logistic
  rw [Real.exp_neg]
  have := Real.exp_pos x
  field_simp
  ring

/-- C100 fails for two latent variables: a respondent who, other things equal, passes one more item gets a
lower EAP score on the ability that the item does not need, because the failure on the first item is then
blamed on that ability. -/
theorem C100_two_traits_false : ¬ TwoTraitsFollowAnswers := by
  intro claim
  have hgrid : eapGrid ({} : AlgAttrs 2) ((some 2 : Option ℕ).getD (eapDefaultPoints 2))
      = .ok ([![-3, -3], ![-3, 3], ![3, -3], ![3, 3]], 1) := by
    rw [← grid_two]; rfl
  have hsc := exCompensate.isScorer exCompensate_wf (by norm_num [exCompensate]) 2
  obtain ⟨s, hs, hex⟩ := eap_exists hsc {} (by norm_num) (some 2) 2 exCompensateAnswers exCompensateAnswers_valid _
    (by simp) 1 Matrix.PosDef.one hgrid (fun j c r hc hr θ _ => (exCompensate.logitModel exCompensate_wf 2).pos θ j c r hc hr)
  obtain ⟨u, hu⟩ := hex 0 (by norm_num)
  obtain ⟨v, hv⟩ := hex 1 (by norm_num)
  have hle := claim exCompensate exCompensate_wf (by norm_num [exCompensate]) (by
      intro j k
      unfold slopeOf
      rw [exCompensate_parameters]
      match j with
      | 0 => match k with
        | 0 => norm_num
        | 1 => norm_num
        | k + 2 => simp
      | 1 => match k with
        | 0 => norm_num
        | 1 => norm_num
        | k + 2 => simp
      | j + 2 => simp) (some 2) 2 exCompensateAnswers exCompensateAnswers_valid 0 1 (by norm_num) (by norm_num) (by
      intro j _
      unfold exCompensateAnswers AnswerLE
      by_cases hj : j = 0 <;> simp [hj, cellMissing, responseOf]) s u v
      (by rw [List.length_replicate] at hs; exact hs) hu hv 1
  obtain ⟨pu, eu⟩ := eap_row hsc {} (by norm_num) (some 2) 2 exCompensateAnswers exCompensateAnswers_valid _
    (by simp) 1 Matrix.PosDef.one hgrid s hs 0 (by norm_num) u hu
  obtain ⟨pv, ev⟩ := eap_row hsc {} (by norm_num) (some 2) 2 exCompensateAnswers exCompensateAnswers_valid _
    (by simp) 1 Matrix.PosDef.one hgrid s hs 1 (by norm_num) v hv
  have l0 : ∀ θ : Fin 2 → ℝ, observedLikelihood (fun θ => tableProb (exCompensate.probs (List.ofFn θ)))
      (List.replicate exCompensate.items 2).length (exCompensateAnswers 0) θ
      = (1 - logistic (θ 0 + θ 1)) * (1 - logistic (θ 0)) := by
    intro θ
    rw [List.length_replicate, show exCompensate.items = 2 from rfl, observedLikelihood, prod_range_succ, prod_range_one]
    rw [← (exCompensate_prob θ).1, ← (exCompensate_prob θ).2.1]
    simp [exCompensateAnswers, cellMissing, responseOf]
  have l1 : ∀ θ : Fin 2 → ℝ, observedLikelihood (fun θ => tableProb (exCompensate.probs (List.ofFn θ)))
      (List.replicate exCompensate.items 2).length (exCompensateAnswers 1) θ
      = (1 - logistic (θ 0 + θ 1)) * logistic (θ 0) := by
    intro θ
    rw [List.length_replicate, show exCompensate.items = 2 from rfl, observedLikelihood, prod_range_succ, prod_range_one]
    rw [← (exCompensate_prob θ).1, ← (exCompensate_prob θ).2.2]
    simp [exCompensateAnswers, cellMissing, responseOf]
  have hK := Real.exp_pos (mvnLogDensity 0 (1 : Matrix (Fin 2) (Fin 2) ℝ) ![3, 3])
  have hhalf : logistic 0 = 1 / 2 := by norm_num [logistic]
  have h36 : logistic 3 < logistic 6 := logistic_strictMono (by norm_num)
  have h03 : logistic 0 < logistic 3 := logistic_strictMono (by norm_num)
  have h61 := logistic_lt_one 6
  rw [hhalf] at h03
  simp only [l0, l1, List.map_cons, List.map_nil, List.sum_cons, List.sum_nil, prior_corner (-3) (-3) (by norm_num) (by norm_num),
    prior_corner (-3) 3 (by norm_num) (by norm_num), prior_corner 3 (-3) (by norm_num) (by norm_num),
    Matrix.cons_val_zero, Matrix.cons_val_one] at pu pv eu ev
  generalize Real.exp (mvnLogDensity 0 (1 : Matrix (Fin 2) (Fin 2) ℝ) ![3, 3]) = K at *
  have eu1 := eu 1
  have ev1 := ev 1
  simp only [Matrix.cons_val_one, Matrix.cons_val_zero] at eu1 ev1
  norm_num [hhalf, logistic_neg'] at pu pv eu1 ev1
  rw [eu1, ev1] at hle
  generalize logistic 6 = α at *
  generalize logistic 3 = σ at *
  rw [div_le_div_iff₀ (by linarith) (by linarith)] at hle
  have hα : 0 < α - 1 / 2 := by linarith
  have hσ : 0 < σ - 1 / 2 := by linarith
  have := mul_pos (mul_pos hK hK) (mul_pos (mul_pos hα hα) hσ)
  nlinarith [this]

end Irt
