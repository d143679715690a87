import Verif.Lemmas.Underflow
import Verif.Lemmas.LogitModel
import Verif.Props.ScoreOrder
import Mathlib.Analysis.Complex.ExponentialBounds
import Mathlib.Analysis.Real.Pi.Bounds

/-!
# C103: marginal likelihood and EAP scores in finite precision

`FloatExp E u v ε` (Spec/Underflow) describes an exponential that is rounded to zero below `u`.
-/

namespace Irt

open Spec

/-! ## The rounded program is the program of the other files when nothing is rounded -/

theorem expWith_exp : Logit.expWith Real.exp = Logit.exp := by
  funext l; cases l <;> rfl

/-- C103: with the exact exponential and sigmoid the functions are those of C45, C48 and C03. -/
theorem C103_exact {d : ℕ} (m : Scorer d) (a : AlgAttrs d) (data : List (List Cell)) (points : Option ℕ) (grid : Thetas d)
    (logWeights : List ℝ) (t : ThreePL) (theta : List ℝ) :
    eapScoresWith Real.exp m a data points = eapScores m a data points ∧
      mmlLossWith Real.exp m data grid logWeights = mmlLoss m data grid logWeights ∧
      t.probsWith sigmoid theta = t.probs theta := by
  refine ⟨?_, rfl, rfl⟩
  unfold eapScoresWith eapScores eapOnGridWith
  rw [expWith_exp]
  rfl

/-! ## The marginal likelihood -/

theorem mapM_close {α : Type*} (l : List α) (f g : α → Option ℝ) (η : ℝ)
    (h : ∀ x ∈ l, (f x = none ∧ g x = none) ∨ ∃ a b, f x = some a ∧ g x = some b ∧ |a - b| ≤ η) :
    (l.mapM f = none ∧ l.mapM g = none) ∨
      ∃ as bs, l.mapM f = some as ∧ l.mapM g = some bs ∧ |as.sum - bs.sum| ≤ l.length * η := by
  induction l with
  | nil => right; exact ⟨[], [], rfl, rfl, by simp⟩
  | cons x t ih =>
    rw [List.mapM_cons, List.mapM_cons]
    rcases h x (by simp) with ⟨h1, h2⟩ | ⟨a, b, h1, h2, h3⟩
    · left; rw [h1, h2]; exact ⟨rfl, rfl⟩
    · rw [h1, h2]
      rcases ih fun y hy => h y (by simp [hy]) with ⟨h4, h5⟩ | ⟨as, bs, h4, h5, h6⟩
      · left; rw [h4, h5]; exact ⟨rfl, rfl⟩
      · right
        rw [h4, h5]
        refine ⟨a :: as, b :: bs, rfl, rfl, ?_⟩
        simp only [List.sum_cons, List.length_cons, Nat.cast_add, Nat.cast_one]
        have e : a + as.sum - (b + bs.sum) = (a - b) + (as.sum - bs.sum) := by ring
        rw [e]
        refine (abs_add_le _ _).trans ?_
        linarith

/-- C103: rounding the exponential never turns the marginal likelihood loss into an exception or NaN, nor removes one, and
moves it by at most respondents × points × the error of the exponential, however many items the test has. -/
theorem C103_mml_loss {E : ℝ → ℝ} {u v ε : ℝ} (h : FloatExp E u v ε) {d : ℕ} (m : Scorer d) (data : List (List Cell))
    (points : Thetas d) (logWeights : List ℝ) :
    (∀ e, mmlLossWith E m data points logWeights = .error e ↔ mmlLoss m data points logWeights = .error e) ∧
      (mmlLossWith E m data points logWeights = .ok none ↔ mmlLoss m data points logWeights = .ok none) ∧
      ∀ L, mmlLoss m data points logWeights = .ok (some L) → ∃ L', mmlLossWith E m data points logWeights = .ok (some L') ∧
        |L' - L| ≤ data.length * (points.length * (ε + Real.exp v)) := by
  unfold mmlLossWith mmlLoss
  cases pointMajorLL m data points with
  | error e => simp [bind, Except.bind]
  | ok lls =>
    simp only [bind, Except.bind, pure, Except.pure]
    set rows := viewRows points.length data.length
      (List.zipWith (fun w l => Logit.add (.fin w) l) (repeatInterleave data.length logWeights) lls) with hrows
    have hlen : rows.length = points.length := by rw [hrows, length_viewRows]
    rcases mapM_close (List.range data.length) (fun i => shiftedLogSumExpWith E (rows.map fun r => r.getD i .negInf))
      (fun i => shiftedLogSumExp (rows.map fun r => r.getD i .negInf)) (points.length * (ε + Real.exp v)) (by
        intro i _
        have := shiftedLogSumExpWith_close h (rows.map fun r => r.getD i .negInf)
        rwa [List.length_map, hlen] at this) with ⟨h1, h2⟩ | ⟨as, bs, h1, h2, h3⟩
    · rw [h1, h2]; simp
    · rw [h1, h2]
      refine ⟨by simp, by simp, ?_⟩
      intro L hL
      simp only [Option.map_some, Except.ok.injEq, Option.some.injEq] at hL
      refine ⟨_, rfl, ?_⟩
      rw [List.length_range] at h3
      rw [← hL, neg_sub_neg, abs_sub_comm]
      exact h3

/-- C103: for models with positive probabilities the rounded loss is a number for every number of items, respondents and
points, close to minus the marginal log likelihood. -/
theorem C103_mml_number {E : ℝ → ℝ} {u v ε : ℝ} (h : FloatExp E u v ε) {d : ℕ} {m : Scorer d} {cats : List ℕ}
    {P : (Fin d → ℝ) → ℕ → ℕ → ℝ} (hm : IsScorer m cats P) (N G : ℕ) (hG : 0 < G) (y : ℕ → ℕ → Cell)
    (hy : ∀ i, i < N → ValidResponses cats (y i)) (θ : ℕ → Fin d → ℝ) (w : ℕ → ℝ) (hw : ∀ g, g < G → 0 < w g)
    (hpos : ∀ i, i < N → ∀ g, g < G → 0 < observedLikelihood P cats.length (y i) (θ g)) :
    ∃ L, mmlLossWith E m (rowsOf N cats.length y) ((List.range G).map θ) ((List.range G).map fun g => Real.log (w g))
        = .ok (some L) ∧
      |L - -∑ i ∈ Finset.range N, Real.log (∑ g ∈ Finset.range G, w g * observedLikelihood P cats.length (y i) (θ g))|
        ≤ N * (G * (ε + Real.exp v)) := by
  have h1 := (C48_objective hm N G y hy θ w hw).1 (by
    intro i hi
    exact (Finset.sum_pos (fun g hg => mul_pos (hw g (Finset.mem_range.1 hg)) (hpos i hi g (Finset.mem_range.1 hg)))
      ⟨0, Finset.mem_range.2 hG⟩).ne')
  obtain ⟨L, h2, h3⟩ := (C103_mml_loss h m _ _ _).2.2 _ h1
  refine ⟨L, h2, ?_⟩
  simpa [rowsOf] using h3

/-! ## EAP scores -/

/-- C103: the EAP score computed with `E` is the mean of the grid points weighted by the rounded weights, NaN exactly when
all of them are zero. -/
theorem C103_eap_value (E : ℝ → ℝ) {d : ℕ} {m : Scorer d} {cats : List ℕ} {P : (Fin d → ℝ) → ℕ → ℕ → ℝ}
    (hm : IsScorer m cats P) (a : AlgAttrs d) (hd : d ≤ 4) (points : Option ℕ) (N : ℕ) (y : ℕ → ℕ → Cell)
    (hy : ∀ i, i < N → ValidResponses cats (y i)) (grid : Thetas d) (hg : grid ≠ []) (cov : Matrix (Fin d) (Fin d) ℝ)
    (hcov : cov.PosDef) (hgrid : eapGrid a (points.getD (eapDefaultPoints d)) = .ok (grid, cov)) :
    eapScoresWith E m a (rowsOf N cats.length y) points = .ok ((List.range N).map fun i =>
      if (grid.map (roundedWeight E P cats.length cov (y i))).sum = 0 then none
      else some (weightedMean (roundedWeight E P cats.length cov (y i)) grid)) := by
  unfold eapScoresWith
  rw [if_neg (by omega), hgrid, ← hm.items]
  exact eapOnGridWith_eq E hm N y hy grid hg cov hcov

theorem roundedWeight_nonneg {E : ℝ → ℝ} {u v ε : ℝ} (h : FloatExp E u v ε) {d : ℕ} (P : (Fin d → ℝ) → ℕ → ℕ → ℝ)
    (items : ℕ) (cov : Matrix (Fin d) (Fin d) ℝ) (row : ℕ → Cell) (θ : Fin d → ℝ) :
    0 ≤ roundedWeight E P items cov row θ := by
  unfold roundedWeight
  split
  · exact le_rfl
  · exact h.nonneg _

/-- C103: respondent `i` gets NaN exactly when, at every grid point, the likelihood is zero or the log of prior density
times likelihood is below the underflow limit. -/
theorem C103_eap_nan_iff {E : ℝ → ℝ} {u v ε : ℝ} (h : FloatExp E u v ε) {d : ℕ} {m : Scorer d} {cats : List ℕ}
    {P : (Fin d → ℝ) → ℕ → ℕ → ℝ} (hm : IsScorer m cats P) (a : AlgAttrs d) (hd : d ≤ 4) (points : Option ℕ) (N : ℕ)
    (y : ℕ → ℕ → Cell) (hy : ∀ i, i < N → ValidResponses cats (y i)) (grid : Thetas d) (hg : grid ≠ [])
    (cov : Matrix (Fin d) (Fin d) ℝ) (hcov : cov.PosDef)
    (hgrid : eapGrid a (points.getD (eapDefaultPoints d)) = .ok (grid, cov)) :
    ∃ scores, eapScoresWith E m a (rowsOf N cats.length y) points = .ok scores ∧ scores.length = N ∧
      ∀ i, i < N → (scores[i]? = some none ↔ ∀ θ ∈ grid, observedLikelihood P cats.length (y i) θ = 0 ∨
        logPosterior P cats.length cov (y i) θ < u) := by
  refine ⟨_, C103_eap_value E hm a hd points N y hy grid hg cov hcov hgrid, by simp, ?_⟩
  intro i hi
  rw [List.getElem?_map, List.getElem?_range hi]
  simp only [Option.map_some, Option.some.injEq, ite_eq_left_iff, reduceCtorEq, imp_false, not_not]
  have hz : ∀ θ, roundedWeight E P cats.length cov (y i) θ = 0 ↔ (observedLikelihood P cats.length (y i) θ = 0 ∨
      logPosterior P cats.length cov (y i) θ < u) := by
    intro θ
    unfold roundedWeight
    by_cases h0 : observedLikelihood P cats.length (y i) θ = 0
    · simp [h0]
    · rw [if_neg h0]
      constructor
      · intro he
        right
        by_contra hu
        exact ((h.pos_iff _).2 (not_lt.1 hu)).ne' he
      · rintro (h1 | h1)
        · exact absurd h1 h0
        · exact h.under _ h1
  constructor
  · intro hs θ hθ
    rw [← hz]
    by_contra hne
    exact (list_sum_pos_of_mem grid _ (fun θ _ => roundedWeight_nonneg h _ _ _ _ θ) θ hθ
      (lt_of_le_of_ne (roundedWeight_nonneg h _ _ _ _ θ) (Ne.symm hne))).ne' hs
  · intro hall
    apply List.sum_eq_zero
    intro x hx
    obtain ⟨θ, hθ, rfl⟩ := List.mem_map.1 hx
    exact (hz θ).2 (hall θ hθ)

/-- C103: when the log of prior density times likelihood is at least `t` above the limit `v` of normal numbers at one grid
point, the score is a number and differs from the exact EAP score by at most `2 R δ / (1 - δ)`, where `R` bounds the grid and
`δ = ε + G exp(-t)` with `G` grid points. Partial: nothing is said when no grid point is that high, where the score may be
NaN (`C103_eap_long_false`). -/
theorem C103_eap_close_partial {E : ℝ → ℝ} {u v ε : ℝ} (h : FloatExp E u v ε) {d : ℕ} {m : Scorer d} {cats : List ℕ}
    {P : (Fin d → ℝ) → ℕ → ℕ → ℝ} (hm : IsScorer m cats P) (a : AlgAttrs d) (hd : d ≤ 4) (points : Option ℕ) (N : ℕ)
    (y : ℕ → ℕ → Cell) (hy : ∀ i, i < N → ValidResponses cats (y i)) (grid : Thetas d)
    (cov : Matrix (Fin d) (Fin d) ℝ) (hcov : cov.PosDef)
    (hgrid : eapGrid a (points.getD (eapDefaultPoints d)) = .ok (grid, cov)) (i : ℕ) (hi : i < N) (t R : ℝ)
    (top : Fin d → ℝ) (htop : top ∈ grid) (hL : 0 < observedLikelihood P cats.length (y i) top)
    (ht : v + t ≤ logPosterior P cats.length cov (y i) top) (hδ : ε + grid.length * Real.exp (-t) < 1)
    (hR : ∀ θ ∈ grid, ∀ k, |θ k| ≤ R) :
    ∃ s s' b e, eapScoresWith E m a (rowsOf N cats.length y) points = .ok s ∧
      eapScores m a (rowsOf N cats.length y) points = .ok s' ∧ s[i]? = some (some b) ∧ s'[i]? = some (some e) ∧
      ∀ k, |b k - e k| ≤ 2 * R * (ε + grid.length * Real.exp (-t)) / (1 - (ε + grid.length * Real.exp (-t))) := by
  have hg : grid ≠ [] := List.ne_nil_of_mem htop
  set δ := ε + grid.length * Real.exp (-t) with hδd
  set A := posteriorWeight P cats.length cov (y i) with hA
  set B := roundedWeight E P cats.length cov (y i) with hB
  have hAnn : ∀ θ, 0 ≤ A θ := fun θ => mul_nonneg (Real.exp_pos _).le (observedLikelihood_nonneg P hm.nonneg _ _ _)
  have hAexp : ∀ θ, observedLikelihood P cats.length (y i) θ ≠ 0 →
      A θ = Real.exp (logPosterior P cats.length cov (y i) θ) := by
    intro θ hθ
    have := lt_of_le_of_ne (observedLikelihood_nonneg P hm.nonneg cats.length (y i) θ) (Ne.symm hθ)
    rw [hA, posteriorWeight, logPosterior, Real.exp_add, Real.exp_log this]
  have hAtop : Real.exp (v + t) ≤ A top := by
    rw [hAexp top hL.ne']; exact Real.exp_le_exp.2 ht
  have hAsum : Real.exp (v + t) ≤ (grid.map A).sum := by
    refine hAtop.trans (List.single_le_sum (fun x hx => ?_) _ (List.mem_map.2 ⟨top, htop, rfl⟩))
    obtain ⟨θ, _, rfl⟩ := List.mem_map.1 hx
    exact hAnn θ
  have hApos : 0 < (grid.map A).sum := (Real.exp_pos _).trans_le hAsum
  have hcell : ∀ θ, |B θ - A θ| ≤ ε * A θ + Real.exp v := by
    intro θ
    by_cases h0 : observedLikelihood P cats.length (y i) θ = 0
    · have h1 : A θ = 0 := by rw [hA, posteriorWeight, h0, mul_zero]
      have h2 : B θ = 0 := by rw [hB, roundedWeight, if_pos h0]
      rw [h1, h2]; simp [(Real.exp_pos v).le]
    · rw [hAexp θ h0]
      have h2 : B θ = E (logPosterior P cats.length cov (y i) θ) := by rw [hB, roundedWeight, if_neg h0]
      rw [h2]
      exact h.error _
  have hdiff : (grid.map fun θ => |B θ - A θ|).sum ≤ δ * (grid.map A).sum := by
    have h1 : (grid.map fun θ => |B θ - A θ|).sum ≤ ε * (grid.map A).sum + grid.length * Real.exp v := by
      clear hAsum hApos hR hg htop hgrid hδd hδ
      clear δ
      induction grid with
      | nil => simp
      | cons x l ih =>
        simp only [List.map_cons, List.sum_cons, List.length_cons, Nat.cast_add, Nat.cast_one]
        have := hcell x
        linarith
    refine h1.trans ?_
    have h2 : Real.exp v ≤ Real.exp (-t) * (grid.map A).sum := by
      refine le_trans (le_of_eq ?_) (mul_le_mul_of_nonneg_left hAsum (Real.exp_pos _).le)
      rw [← Real.exp_add]; congr 1; ring
    have h3 := mul_le_mul_of_nonneg_left h2 (Nat.cast_nonneg (α := ℝ) grid.length)
    rw [hδd]; linarith
  have hBsum : (1 - δ) * (grid.map A).sum ≤ (grid.map B).sum := by
    have h1 : (grid.map A).sum - (grid.map B).sum ≤ (grid.map fun θ => |B θ - A θ|).sum := by
      have key : ∀ l : List (Fin d → ℝ), (l.map A).sum - (l.map B).sum ≤ (l.map fun θ => |B θ - A θ|).sum := by
        intro l
        induction l with
        | nil => simp
        | cons x l ih =>
          simp only [List.map_cons, List.sum_cons]
          have := neg_abs_le (B x - A x)
          linarith
      exact key grid
    linarith
  have hBpos : 0 < (grid.map B).sum := lt_of_lt_of_le (mul_pos (by linarith) hApos) hBsum
  refine ⟨_, _, weightedMean B grid, weightedMean A grid, C103_eap_value E hm a hd points N y hy grid hg cov hcov hgrid,
    C45_posterior_mean hm a hd points N y hy grid hg cov hcov hgrid, ?_, ?_, ?_⟩
  · rw [List.getElem?_map, List.getElem?_range hi]
    simp only [Option.map_some]
    rw [if_neg hBpos.ne']
  · rw [List.getElem?_map, List.getElem?_range hi]
    simp only [Option.map_some]
    have hz : (grid.map fun θ => Real.exp (mvnLogDensity 0 cov θ) * observedLikelihood P cats.length (y i) θ).sum ≠ 0 :=
      hApos.ne'
    rw [if_neg hz]
    rfl
  · intro k
    have h1 := weightedMean_close A B grid (fun θ _ => hAnn θ) hApos hBpos k R (fun θ hθ => hR θ hθ k) _ hdiff
    refine h1.trans ?_
    have hR0 : 0 ≤ R := (abs_nonneg _).trans (hR top htop k)
    have hδ0 : 0 ≤ δ := by
      have := h.err
      have := mul_nonneg (Nat.cast_nonneg (α := ℝ) grid.length) (Real.exp_pos (-t)).le
      rw [hδd]; linarith
    rw [div_le_div_iff₀ hBpos (by linarith)]
    have h2 := mul_le_mul_of_nonneg_left hBsum (mul_nonneg (mul_nonneg (by norm_num : (0:ℝ) ≤ 2) hR0) hδ0)
    linarith

/-- C103: how long a test may be. If the observed responses have probability at least `p` each at some grid point, and
`log prior + items * log p` is not below the limit, the score is a number. -/
theorem C103_eap_length {E : ℝ → ℝ} {u v ε : ℝ} (h : FloatExp E u v ε) {d : ℕ} {m : Scorer d} {cats : List ℕ}
    {P : (Fin d → ℝ) → ℕ → ℕ → ℝ} (hm : IsScorer m cats P) (a : AlgAttrs d) (hd : d ≤ 4) (points : Option ℕ) (N : ℕ)
    (y : ℕ → ℕ → Cell) (hy : ∀ i, i < N → ValidResponses cats (y i)) (grid : Thetas d) (hg : grid ≠ [])
    (cov : Matrix (Fin d) (Fin d) ℝ) (hcov : cov.PosDef)
    (hgrid : eapGrid a (points.getD (eapDefaultPoints d)) = .ok (grid, cov)) (top : Fin d → ℝ) (htop : top ∈ grid)
    (p : ℝ) (hp0 : 0 < p) (hp1 : p ≤ 1)
    (hp : ∀ j c r, cats[j]? = some c → r < c → p ≤ P top j r)
    (hlen : u ≤ mvnLogDensity 0 cov top + cats.length * Real.log p) :
    ∃ scores, eapScoresWith E m a (rowsOf N cats.length y) points = .ok scores ∧ scores.length = N ∧ none ∉ scores := by
  obtain ⟨s, h1, h2, h3⟩ := C103_eap_nan_iff h hm a hd points N y hy grid hg cov hcov hgrid
  refine ⟨s, h1, h2, ?_⟩
  intro hmem
  obtain ⟨i, hi, hsi⟩ := List.getElem_of_mem hmem
  have hiN : i < N := h2 ▸ hi
  have hbound : p ^ cats.length ≤ observedLikelihood P cats.length (y i) top := by
    unfold observedLikelihood
    have := Finset.prod_le_prod (s := Finset.range cats.length) (f := fun _ => p)
      (g := fun j => if cellMissing (y i j) then 1 else P top j (responseOf (y i j))) (fun _ _ => hp0.le) (by
        intro j hj
        split
        · exact hp1
        · next hμ =>
          obtain ⟨c, hc⟩ := getElem?_of_lt cats j (Finset.mem_range.1 hj)
          obtain ⟨r, hr, hrc⟩ := hy i hiN j c hc (by simpa using hμ)
          rw [hr]
          exact hp j c r hc hrc)
    simpa using this
  have hpow : 0 < p ^ cats.length := pow_pos hp0 _
  rcases (h3 i hiN).1 (by rw [List.getElem?_eq_getElem hi, hsi]) top htop with h4 | h4
  · linarith
  · have h5 := Real.log_le_log hpow hbound
    rw [Real.log_pow] at h5
    unfold logPosterior at h4
    linarith

/-! ## Long tests -/

/-- A 1PL test with `n` items of the same difficulty. -/
def exLong (n : ℕ) : OnePL := ⟨n, List.replicate n 0⟩

/-- Alternating wrong and right answers. -/
def exAlternating : ℕ → ℕ → Cell := fun _ j => some ((j % 2 : ℕ) : ℤ)

theorem exLong_wf (n : ℕ) : (exLong n).WF := by simp [OnePL.WF, exLong]

theorem exAlternating_valid (n i : ℕ) : ValidResponses (List.replicate n 2) (exAlternating i) := by
  intro j c hc _
  refine ⟨j % 2, rfl, ?_⟩
  obtain rfl := List.eq_of_mem_replicate (List.mem_of_getElem? hc)
  exact Nat.mod_lt _ (by norm_num)

theorem exLong_prob (n j : ℕ) (hj : j < n) (θ : ℝ) :
    tableProb ((exLong n).probs θ) j 0 = 1 - logistic θ ∧ tableProb ((exLong n).probs θ) j 1 = logistic θ := by
  have h := C03_onePL_formula (exLong n) (exLong_wf n) θ j 0 (by
    simp [OnePL.itemParameters, exLong, hj])
  rw [add_zero] at h
  unfold tableProb
  rw [h]
  simp

theorem exLong_likelihood (n : ℕ) (i : ℕ) (θ : Fin 1 → ℝ) :
    observedLikelihood (fun θ : Fin 1 → ℝ => tableProb ((exLong n).probs (θ 0))) n (exAlternating i) θ
      = ∏ j ∈ Finset.range n, if j % 2 = 0 then 1 - logistic (θ 0) else logistic (θ 0) := by
  unfold observedLikelihood
  apply Finset.prod_congr rfl
  intro j hj
  have hj := Finset.mem_range.1 hj
  have hm : cellMissing (exAlternating i j) = false := by simp [cellMissing, exAlternating]; omega
  have hr : responseOf (exAlternating i j) = j % 2 := by simp only [responseOf, exAlternating, Int.toNat_natCast]
  rw [hm, hr]
  obtain ⟨h0, h1⟩ := exLong_prob n j hj (θ 0)
  rcases Nat.mod_two_eq_zero_or_one j with h | h
  · simp [h, h0]
  · simp [h, h1]

theorem alternating_prod (p : ℝ) (h0 : 0 < p) (h1 : p < 1) (n : ℕ) :
    0 < (∏ j ∈ Finset.range n, if j % 2 = 0 then 1 - p else p) ∧
      (∏ j ∈ Finset.range n, if j % 2 = 0 then 1 - p else p) ≤ (1 / 4) ^ (n / 2) := by
  constructor
  · apply Finset.prod_pos
    intro j _
    split <;> linarith
  · induction n using Nat.twoStepInduction with
    | zero => simp
    | one => simp; linarith
    | more n ih _ =>
      rw [Finset.prod_range_succ, Finset.prod_range_succ, mul_assoc]
      have e : (n + 2) / 2 = n / 2 + 1 := by omega
      rw [e, pow_succ]
      have h2 : ((if n % 2 = 0 then 1 - p else p) * if (n + 1) % 2 = 0 then 1 - p else p) ≤ 1 / 4 := by
        rcases Nat.mod_two_eq_zero_or_one n with h | h
        · have : (n + 1) % 2 = 1 := by omega
          simp only [h, this]
          norm_num
          nlinarith [sq_nonneg (p - 1 / 2)]
        · have : (n + 1) % 2 = 0 := by omega
          simp only [h, this]
          norm_num
          nlinarith [sq_nonneg (p - 1 / 2)]
      have h3 : 0 ≤ ((if n % 2 = 0 then 1 - p else p) * if (n + 1) % 2 = 0 then 1 - p else p) := by
        apply mul_nonneg <;> split <;> linarith
      exact mul_le_mul ih h2 h3 (by positivity)

/-- Two training scores, 0 and 2: the prior variance is 2, and the log density is nowhere positive. -/
theorem exTraining_logDensity (x : Fin 1 → ℝ) : mvnLogDensity 0 (sampleCov [fun _ : Fin 1 => (0:ℝ), fun _ => 2]) x ≤ 0 := by
  have hc : sampleCov [fun _ : Fin 1 => (0:ℝ), fun _ => 2] = Matrix.diagonal fun _ => 2 := by
    ext a b
    have hab : a = b := Subsingleton.elim a b
    subst hab
    simp only [sampleCov, Matrix.of_apply, Matrix.diagonal_apply_eq]
    norm_num
  have hquad := exTraining_cov.inv.posSemidef.dotProduct_mulVec_nonneg (x - 0)
  unfold mvnLogDensity
  have h1 : 0 ≤ Real.log (2 * Real.pi) := Real.log_nonneg (by linarith [Real.pi_gt_three])
  have h2 : 0 ≤ Real.log (sampleCov [fun _ : Fin 1 => (0:ℝ), fun _ => 2]).det := by
    rw [hc, Matrix.det_diagonal]
    exact Real.log_nonneg (by norm_num)
  simp only [star_trivial] at hquad
  have h3 : 0 ≤ ((1 : ℕ) : ℝ) * Real.log (2 * Real.pi) := by rw [Nat.cast_one, one_mul]; exact h1
  linarith

/-- The grid after joint maximum likelihood with training scores 0 and 2. -/
theorem exTraining_grid (n : ℕ) (hn : 0 < n) : ∃ grid, grid ≠ [] ∧
    eapGrid (Algorithm.jml.afterFit [fun _ : Fin 1 => (0:ℝ), fun _ => 2] 1 false none) n
      = .ok (grid, sampleCov [fun _ : Fin 1 => (0:ℝ), fun _ => 2]) := by
  have hb : (∀ k : Fin 1, IsLeast {x | ∃ t ∈ [fun _ : Fin 1 => (0:ℝ), fun _ => 2], t k = x} 0) ∧
      ∀ k : Fin 1, IsGreatest {x | ∃ t ∈ [fun _ : Fin 1 => (0:ℝ), fun _ => 2], t k = x} 2 :=
    ⟨fun k => ⟨by simp, by rintro x ⟨t, ht, rfl⟩; simp at ht; rcases ht with rfl | rfl <;> norm_num⟩,
      fun k => ⟨by simp, by rintro x ⟨t, ht, rfl⟩; simp at ht; rcases ht with rfl | rfl <;> norm_num⟩⟩
  obtain ⟨g, c, h1, h2, _⟩ := C45_grid (Algorithm.jml.afterFit [fun _ : Fin 1 => (0:ℝ), fun _ => 2] 1 false none)
    _ (by simp) rfl n (fun _ => 0) (fun _ => 2) hb.1 hb.2
  refine ⟨g, ?_, ?_⟩
  · rintro rfl
    simp at h2
    omega
  · rw [h1]
    have : eapGrid (Algorithm.jml.afterFit [fun _ : Fin 1 => (0:ℝ), fun _ => 2] 1 false none) n
        = (thetaGrid [fun _ : Fin 1 => (0:ℝ), fun _ => 2] n).map fun g => (g, sampleCov [fun _ : Fin 1 => (0:ℝ), fun _ => 2]) := by
      unfold eapGrid
      simp only [Algorithm.afterFit]
      cases thetaGrid [fun _ : Fin 1 => (0:ℝ), fun _ => 2] n <;> rfl
    rw [this] at h1
    cases ht : thetaGrid [fun _ : Fin 1 => (0:ℝ), fun _ => 2] n with
    | error e => rw [ht] at h1; simp [Except.map] at h1
    | ok g' =>
      rw [ht] at h1
      simp only [Except.map, Except.ok.injEq, Prod.mk.injEq] at h1
      rw [← h1.2]

/-- C103: with 64 bit numbers (underflow at `-746` or later) a test of 1078 or more 1PL items of the same difficulty, half of
them right, gets no EAP score at all: every respondent is NaN, whatever the number of grid points. -/
theorem C103_eap_long {E : ℝ → ℝ} {u v ε : ℝ} (h : FloatExp E u v ε) (hu : -746 ≤ u) (n : ℕ) (hn : 1078 ≤ n) (N : ℕ)
    (points : Option ℕ) (hpts : ∀ k, points = some k → 0 < k) :
    eapScoresWith E (exLong n).scorer (Algorithm.jml.afterFit [fun _ => 0, fun _ => 2] 1 false none)
      (rowsOf N n exAlternating) points = .ok (List.replicate N none) := by
  have hk : 0 < points.getD (eapDefaultPoints 1) := by
    cases points with
    | none => simp [eapDefaultPoints]
    | some k => exact hpts k rfl
  obtain ⟨grid, hg, hgrid⟩ := exTraining_grid _ hk
  have hm := (exLong n).isScorer (exLong_wf n) (by simp [exLong]; omega)
  obtain ⟨s, h1, h2, h3⟩ := C103_eap_nan_iff h hm _ (by norm_num) points N exAlternating
    (fun i _ => exAlternating_valid _ i) grid hg _ exTraining_cov hgrid
  rw [List.length_replicate] at h1 h3
  refine h1.trans ?_
  congr 1
  refine List.eq_replicate_iff.2 ⟨h2, ?_⟩
  intro b hb
  obtain ⟨i, hi, rfl⟩ := List.getElem_of_mem hb
  have hiN : i < N := h2 ▸ hi
  have hnone := (h3 i hiN).2 (by
    intro θ _
    right
    have hlik := exLong_likelihood n i θ
    obtain ⟨hp, hle⟩ := alternating_prod (logistic (θ 0)) (logistic_pos _) (logistic_lt_one _) n
    unfold logPosterior
    have e : (exLong n).items = n := rfl
    rw [e, hlik]
    have h4 := Real.log_le_log hp hle
    rw [Real.log_pow] at h4
    have h5 : Real.log (1 / 4) < -1.386 := by
      rw [one_div, Real.log_inv, show (4 : ℝ) = 2 ^ 2 by norm_num, Real.log_pow]
      have := Real.log_two_gt_d9
      push_cast
      linarith
    have h6 : (539 : ℝ) ≤ ((n / 2 : ℕ) : ℝ) := by exact_mod_cast (show 539 ≤ n / 2 by omega)
    have h7 := exTraining_logDensity θ
    nlinarith)
  rw [List.getElem?_eq_getElem hi] at hnone
  exact Option.some.inj hnone

/-- The claim that every respondent to every 1PL test gets an EAP score after joint maximum likelihood. -/
def EapNeverNaN (E : ℝ → ℝ) : Prop :=
  ∀ (m : OnePL), m.WF → 0 < m.items → ∀ ts : Thetas 1, ts ≠ [] → (sampleCov ts).PosDef → ∀ (N : ℕ) (y : ℕ → ℕ → Cell),
    (∀ i, i < N → ValidResponses (List.replicate m.items 2) (y i)) →
    ∃ scores, eapScoresWith E m.scorer (Algorithm.jml.afterFit ts 1 false none) (rowsOf N m.items y) none = .ok scores ∧
      none ∉ scores

/-- C103 is false for EAP scores: the exponential of the log posterior is taken without subtracting its maximum, unlike in the
marginal likelihood, so that long tests give NaN. -/
theorem C103_eap_long_false {E : ℝ → ℝ} {u v ε : ℝ} (h : FloatExp E u v ε) (hu : -746 ≤ u) : ¬ EapNeverNaN E := by
  intro hall
  obtain ⟨s, h1, h2⟩ := hall (exLong 1078) (exLong_wf _) (show 0 < 1078 by norm_num) [fun _ => 0, fun _ => 2] (by simp) exTraining_cov
    1 exAlternating (fun i _ => exAlternating_valid _ i)
  have h3 := C103_eap_long h hu 1078 le_rfl 1 none (by simp)
  rw [show (exLong 1078).items = 1078 from rfl] at h1
  rw [h1] at h3
  simp only [Except.ok.injEq] at h3
  exact h2 (by simp [h3])

/-- In exact arithmetic the claim holds. -/
theorem C103_exact_never_nan : EapNeverNaN Real.exp := by
  intro m hwf hne ts hts hcov N y hy
  have hm := m.isScorer hwf hne
  obtain ⟨s, h1, _, h2⟩ := C46_scores_partial hm (by
      intro θ j c r hc hr
      exact ((m.logitModel hwf).pos θ j c r hc hr)) .jml (by simp) ts hts hcov 1 false none
    (by norm_num) none (by simp) N y hy
  rw [List.length_replicate] at h1
  exact ⟨s, by rw [(C103_exact m.scorer _ _ _ [] [] ⟨0, 0, [], [], [], []⟩ []).1]; exact h1, h2⟩

/-! ## Saturated probabilities -/

theorem ThreePL.probsWith_row (S : ℝ → ℝ) (m : ThreePL) (θ : List ℝ) (j : ℕ) (w : List ℝ) (b g : ℝ)
    (hw : m.weights[j]? = some w) (hb : m.bias[j]? = some b) (hg : m.guessing[j]? = some g) :
    (m.probsWith S θ)[j]? = some [1 - (S (dot θ w + b) * (1 - S g) + S g), S (dot θ w + b) * (1 - S g) + S g] := by
  unfold ThreePL.probsWith
  simp only [List.getElem?_map, List.getElem?_zipWith, hw, hb, hg, Option.map_some]

theorem ThreePL.isScorerWith {S : ℝ → ℝ} {s : ℝ} (hS : FloatSigmoid S s) (m : ThreePL) (hwf : m.WF) (hne : 0 < m.items)
    (d : ℕ) :
    IsScorer (m.scorerWith S d) (List.replicate m.items 2) fun θ => tableProb (m.probsWith S (List.ofFn θ)) := by
  have hlen : ∀ θ, (m.probsWith S θ).length = m.items := by
    intro θ
    simp [ThreePL.probsWith, ThreePL.weights, length_viewRows, hwf.biasLen, hwf.guessLen]
  have row : ∀ (θ : List ℝ) (p : List ℝ) (j : ℕ), (m.probsWith S θ)[j]? = some p → ∃ q, p = [1 - q, q] ∧ 0 ≤ q ∧ q ≤ 1 := by
    intro θ p j hp
    have hj := lt_of_getElem?_some hp
    rw [hlen] at hj
    obtain ⟨w, hw⟩ := getElem?_of_lt m.weights j (by rw [ThreePL.weights, length_viewRows]; exact hj)
    obtain ⟨b, hb⟩ := getElem?_of_lt m.bias j (by rw [hwf.biasLen]; exact hj)
    obtain ⟨g, hg⟩ := getElem?_of_lt m.guessing j (by rw [hwf.guessLen]; exact hj)
    rw [m.probsWith_row S θ j w b g hw hb hg] at hp
    refine ⟨_, (Option.some.inj hp).symm, ?_, ?_⟩
    · have := mul_nonneg (hS.nonneg (dot θ w + b)) (sub_nonneg.2 (hS.le_one g))
      linarith [hS.nonneg g]
    · have := mul_le_mul_of_nonneg_right (hS.le_one (dot θ w + b)) (sub_nonneg.2 (hS.le_one g))
      linarith
  have h := tableScorer_isScorer (d := d) (List.replicate m.items 2) (by simp; omega)
    (fun θ => m.probsWith S (List.ofFn θ)) (fun θ => by rw [hlen, List.length_replicate]) (by
      intro θ j c p hc hp
      obtain ⟨_, rfl⟩ := replicate_getElem? _ _ _ _ hc
      obtain ⟨q, rfl, _⟩ := row _ _ _ hp
      simp) (by
      intro θ p hp x hx
      obtain ⟨j, hj⟩ := List.mem_iff_getElem?.1 hp
      obtain ⟨q, rfl, h0, h1⟩ := row _ _ _ hj
      simp only [List.mem_cons, List.not_mem_nil, or_false] at hx
      rcases hx with rfl | rfl <;> linarith)
  rwa [List.length_replicate] at h

/-- Where the success probability of item `j` is rounded to one, a wrong answer to it has likelihood zero. -/
theorem ThreePL.saturated_likelihood {S : ℝ → ℝ} {s : ℝ} (hS : FloatSigmoid S s) (m : ThreePL) {d : ℕ} (j : ℕ)
    (hj : j < m.items) (w : List ℝ) (b g : ℝ) (hw : m.weights[j]? = some w) (hb : m.bias[j]? = some b)
    (hg : m.guessing[j]? = some g) (row : ℕ → Cell) (hrow : row j = some 0) (θ : Fin d → ℝ)
    (hsat : s ≤ dot (List.ofFn θ) w + b) :
    observedLikelihood (fun θ : Fin d → ℝ => tableProb (m.probsWith S (List.ofFn θ))) m.items row θ = 0 := by
  unfold observedLikelihood
  apply Finset.prod_eq_zero (Finset.mem_range.2 hj)
  have hm : cellMissing (row j) = false := by rw [hrow]; simp [cellMissing]
  rw [hm, hrow]
  simp only [Bool.false_eq_true, if_false, tableProb, responseOf, m.probsWith_row S _ j w b g hw hb hg,
    hS.saturated _ hsat]
  simp

/-- C103, the three parameter logistic model: its log likelihood takes the log of a rounded probability, whereas the other
models work with logits. A respondent who fails an item whose logit is at least `s` at every grid point gets NaN from EAP
scoring, and the marginal likelihood loss of the whole data set is NaN if that holds at every integration point, whatever the
exponential. -/
theorem C103_threePL_saturated {E S : ℝ → ℝ} {u v ε s : ℝ} (hE : FloatExp E u v ε) (hS : FloatSigmoid S s) (m : ThreePL)
    (hwf : m.WF) {d : ℕ} (a : AlgAttrs d) (hd : d ≤ 4) (points : Option ℕ) (N : ℕ) (y : ℕ → ℕ → Cell)
    (hy : ∀ i, i < N → ValidResponses (List.replicate m.items 2) (y i)) (i j : ℕ) (hi : i < N) (hj : j < m.items)
    (hwrong : y i j = some 0) (w : List ℝ) (b g : ℝ) (hw : m.weights[j]? = some w) (hb : m.bias[j]? = some b)
    (hg : m.guessing[j]? = some g) :
    (∀ grid cov, grid ≠ [] → cov.PosDef → eapGrid a (points.getD (eapDefaultPoints d)) = .ok (grid, cov) →
      (∀ θ ∈ grid, s ≤ dot (List.ofFn θ) w + b) →
      ∃ scores, eapScoresWith E (m.scorerWith S d) a (rowsOf N m.items y) points = .ok scores ∧ scores[i]? = some none) ∧
    ∀ (G : ℕ) (θ : ℕ → Fin d → ℝ) (wt : ℕ → ℝ), (∀ k, k < G → 0 < wt k) →
      (∀ k, k < G → s ≤ dot (List.ofFn (θ k)) w + b) →
      mmlLossWith E (m.scorerWith S d) (rowsOf N m.items y) ((List.range G).map θ)
        ((List.range G).map fun k => Real.log (wt k)) = .ok none := by
  have hm := m.isScorerWith hS hwf (by omega) d
  have hzero := fun θ => m.saturated_likelihood (d := d) hS j hj w b g hw hb hg (y i) hwrong θ
  constructor
  · intro grid cov hgr hcov hgrid hsat
    obtain ⟨sc, h1, h2, h3⟩ := C103_eap_nan_iff hE hm a hd points N y hy grid hgr cov hcov hgrid
    rw [List.length_replicate] at h1 h3
    exact ⟨sc, h1, (h3 i hi).2 fun θ hθ => Or.inl (hzero θ (hsat θ hθ))⟩
  · intro G θ wt hwt hsat
    rw [(C103_mml_loss hE _ _ _ _).2.1]
    have := (C48_objective hm N G y hy θ wt hwt).2 ⟨i, hi, Finset.sum_eq_zero fun k hk => by
      rw [List.length_replicate, hzero _ (hsat k (Finset.mem_range.1 hk)), mul_zero]⟩
    rwa [List.length_replicate] at this

/-! ## Concrete cases -/

/-- The exact exponential, cut off below `u`. -/
noncomputable def cutExp (u : ℝ) : ℝ → ℝ := fun x => open Classical in if x < u then 0 else Real.exp x

theorem cutExp_floatExp (u : ℝ) (hu : u ≤ 0) : FloatExp (cutExp u) u u 0 where
  zero := by simp [cutExp, hu]
  order := le_rfl
  err := le_rfl
  small := one_pos
  under x hx := by simp [cutExp, hx]
  subnormal x h1 h2 := absurd h2 (not_lt.2 h1)
  normal x hx := by simp [cutExp, not_lt.2 hx]

/-- The exact sigmoid, rounded up to one from `s` on. -/
noncomputable def cutSigmoid (s : ℝ) : ℝ → ℝ := fun x => open Classical in if s ≤ x then 1 else logistic x

theorem cutSigmoid_floatSigmoid (s : ℝ) : FloatSigmoid (cutSigmoid s) s where
  nonneg x := by unfold cutSigmoid; split; exacts [zero_le_one, (logistic_pos x).le]
  le_one x := by unfold cutSigmoid; split; exacts [le_rfl, (logistic_lt_one x).le]
  saturated x hx := by simp [cutSigmoid, hx]

/-- 64 bit numbers: the claim fails. -/
example : ¬ EapNeverNaN (cutExp (-745.2)) :=
  C103_eap_long_false (cutExp_floatExp _ (by norm_num)) (by norm_num)

/-- 32 bit numbers: the marginal likelihood of two respondents to 10000 items is a number. -/
example : ∃ L, mmlLossWith (cutExp (-104)) (exLong 10000).scorer (rowsOf 2 10000 exAlternating)
    ((List.range 20).map fun g _ => (g : ℝ)) ((List.range 20).map fun _ => Real.log (1 / 20)) = .ok (some L) := by
  have hm := (exLong 10000).isScorer (exLong_wf _) (show 0 < 10000 by norm_num)
  obtain ⟨L, h1, _⟩ := C103_mml_number (cutExp_floatExp (-104) (by norm_num)) hm 2 20 (by norm_num) exAlternating
    (fun i _ => exAlternating_valid _ i) (fun g _ => (g : ℝ)) (fun _ => 1 / 20) (fun _ _ => by norm_num) (by
      intro i _ g _
      rw [List.length_replicate]
      show 0 < observedLikelihood _ 10000 _ _
      rw [exLong_likelihood]
      exact (alternating_prod _ (logistic_pos _) (logistic_lt_one _) _).1)
  rw [List.length_replicate] at h1
  exact ⟨L, h1⟩

theorem exDensity_at_three : -6 ≤ mvnLogDensity 0 (1 : Matrix (Fin 1) (Fin 1) ℝ) (fun _ => 3) := by
  have h1 : Real.log (2 * Real.pi) ≤ 3 := by
    have h2 : 2 * Real.pi ≤ 8 := by linarith [Real.pi_lt_four]
    have h3 := Real.log_le_log (by positivity) h2
    rw [show (8 : ℝ) = 2 ^ 3 by norm_num, Real.log_pow] at h3
    have := Real.log_two_lt_d9
    push_cast at h3
    linarith
  simp only [mvnLogDensity, inv_one, Matrix.one_mulVec, Matrix.det_one, Real.log_one, sub_zero, dotProduct, Fin.sum_univ_one]
  norm_num
  linarith

theorem exLogistic_three : (1 : ℝ) / 80 ≤ logistic 3 ∧ (1 : ℝ) / 80 ≤ 1 - logistic 3 := by
  have h1 : Real.exp (-3) ≤ 1 := Real.exp_le_one_iff.2 (by norm_num)
  have h2 : (1 : ℝ) / 27 ≤ Real.exp (-3) := by
    rw [Real.exp_neg, ← one_div]
    apply one_div_le_one_div_of_le (Real.exp_pos _)
    have h3 : Real.exp 3 = Real.exp 1 ^ 3 := by rw [← Real.exp_nat_mul]; norm_num
    rw [h3]
    calc Real.exp 1 ^ 3 ≤ 3 ^ 3 := pow_le_pow_left₀ (Real.exp_pos _).le (by linarith [Real.exp_one_lt_d9]) 3
      _ = 27 := by norm_num
  have hl : logistic 3 = 1 / (1 + Real.exp (-3)) := by rw [logistic_eq_sigmoid]; rfl
  have hpos : (0:ℝ) < 1 + Real.exp (-3) := by linarith
  rw [hl]
  constructor
  · rw [div_le_div_iff₀ (by norm_num) hpos]; linarith
  · rw [le_sub_iff_add_le, ← le_sub_iff_add_le', div_le_iff₀ hpos]; linarith

/-- A test of two items with 64 bit numbers: the score is a number within `1e-10` of the exact EAP score. -/
example : ∃ s s' b e, eapScoresWith (cutExp (-745.2)) (exLong 2).scorer {} (rowsOf 1 2 exAlternating) (some 2) = .ok s ∧
    eapScores (exLong 2).scorer {} (rowsOf 1 2 exAlternating) (some 2) = .ok s' ∧ s[0]? = some (some b) ∧
    s'[0]? = some (some e) ∧ |b 0 - e 0| ≤ 2 * 3 * (0 + 2 * Real.exp (-700)) / (1 - (0 + 2 * Real.exp (-700))) := by
  have hm := (exLong 2).isScorer (exLong_wf _) (show 0 < 2 by norm_num)
  have hlen : (cartesianProd fun _ => linspace (-3) 3 2 : List (Fin 1 → ℝ)).length = 2 := by
    rw [length_cartesianProd _ 2 fun _ => length_linspace _ _ _]; norm_num
  have hexp : Real.exp (-700) ≤ 1 / 4 := by
    rw [Real.exp_neg, ← one_div]
    apply one_div_le_one_div_of_le (by norm_num)
    linarith [Real.add_one_le_exp (700 : ℝ)]
  have hlik : observedLikelihood (fun θ : Fin 1 → ℝ => tableProb ((exLong 2).probs (θ 0))) 2 (exAlternating 0) (fun _ => 3)
      = (1 - logistic 3) * logistic 3 := by
    rw [exLong_likelihood]
    simp [Finset.prod_range_succ]
  obtain ⟨h3, h4⟩ := exLogistic_three
  have hlow : (1 : ℝ) / 6400 ≤ (1 - logistic 3) * logistic 3 := by nlinarith
  obtain ⟨s, s', b, e, h1, h2, h5, h6, h7⟩ := C103_eap_close_partial (cutExp_floatExp (-745.2) (by norm_num)) hm {}
    (by norm_num) (some 2) 1 exAlternating (fun i _ => exAlternating_valid _ i) _ 1 Matrix.PosDef.one (grid_one 2) 0
    (by norm_num) 700 3 (fun _ => 3) two_points.2 (by
      rw [List.length_replicate]
      show 0 < observedLikelihood _ 2 _ _
      rw [hlik]; linarith) (by
      rw [List.length_replicate]
      unfold logPosterior
      show _ ≤ _ + Real.log (observedLikelihood _ 2 _ _)
      rw [hlik]
      have hlog := Real.log_le_log (by norm_num) hlow
      have h8 : -13 ≤ Real.log (1 / 6400 : ℝ) := by
        rw [one_div, Real.log_inv]
        have h9 : Real.log (6400 : ℝ) ≤ Real.log (2 ^ 13) := Real.log_le_log (by norm_num) (by norm_num)
        rw [Real.log_pow] at h9
        have := Real.log_two_lt_d9
        push_cast at h9
        linarith
      have := exDensity_at_three
      linarith) (by rw [hlen]; push_cast; linarith) (by
      intro θ hθ k
      have h := (mem_cartesianProd _ _).1 hθ k
      obtain ⟨i, hi, hx⟩ := (mem_linspace _ _ _ _).1 h
      rw [hx]
      interval_cases i <;> norm_num)
  rw [List.length_replicate] at h1 h2
  refine ⟨s, s', b, e, h1, h2, h5, h6, ?_⟩
  have := h7 0
  rw [hlen] at this
  exact_mod_cast this

/-- A test of 160 such items still gets a score. -/
example : ∃ scores, eapScoresWith (cutExp (-745.2)) (exLong 160).scorer {} (rowsOf 5 160 exAlternating) (some 2) = .ok scores ∧
    scores.length = 5 ∧ none ∉ scores := by
  have hm := (exLong 160).isScorer (exLong_wf _) (show 0 < 160 by norm_num)
  obtain ⟨h3, h4⟩ := exLogistic_three
  have h := C103_eap_length (cutExp_floatExp (-745.2) (by norm_num)) hm {} (by norm_num) (some 2) 5 exAlternating
    (fun i _ => exAlternating_valid _ i) _ (List.ne_nil_of_mem two_points.2) 1 Matrix.PosDef.one (grid_one 2) (fun _ => 3)
    two_points.2 (1 / 80) (by norm_num) (by norm_num) (by
      intro j c r hc hr
      obtain ⟨hj, rfl⟩ := replicate_getElem? _ _ _ _ hc
      obtain ⟨h0, h1⟩ := exLong_prob 160 j hj 3
      interval_cases r
      · rw [h0]; exact h4
      · rw [h1]; exact h3) (by
      rw [List.length_replicate]
      show _ ≤ _ + ((160 : ℕ) : ℝ) * Real.log (1 / 80)
      have h8 : -4.51 ≤ Real.log (1 / 80 : ℝ) := by
        rw [one_div, Real.log_inv]
        have h9 : 4 * Real.log (80 : ℝ) ≤ Real.log (2 ^ 26) := by
          rw [show (4 : ℝ) * Real.log 80 = Real.log (80 ^ 4) by rw [Real.log_pow]; norm_num]
          exact Real.log_le_log (by norm_num) (by norm_num)
        rw [Real.log_pow] at h9
        have := Real.log_two_lt_d9
        push_cast at h9
        linarith
      have := exDensity_at_three
      push_cast
      linarith)
  rw [List.length_replicate] at h
  exact h

/-- One easy item: slope 1, intercept 20, guessing parameter 0. -/
def exEasyItem : ThreePL := ⟨1, 1, [[true]], [1], [20], [0]⟩

/-- A respondent who fails it gets no EAP score, although the grid is the default one from -3 to 3 and the exact probability
is positive. -/
example : ∃ scores, eapScoresWith (cutExp (-745.2)) (exEasyItem.scorerWith (cutSigmoid 17) 1) {}
    (rowsOf 1 1 fun _ _ => some 0) none = .ok scores ∧ scores[0]? = some none := by
  have hw : exEasyItem.weights[0]? = some [1] := by
    simp [ThreePL.weights, exEasyItem, viewRows, scatterMask]
  refine (C103_threePL_saturated (cutExp_floatExp (-745.2) (by norm_num)) (cutSigmoid_floatSigmoid 17) exEasyItem
    ⟨rfl, by simp [exEasyItem], by simp [exEasyItem, countTrue], rfl, rfl⟩ {} (by norm_num) none 1 (fun _ _ => some 0)
    (fun i _ j c hc _ => ⟨0, rfl, ?_⟩) 0 0 (by norm_num) (show 0 < 1 by norm_num) rfl [1] 20 0 hw rfl rfl).1 _ 1 ?_
    Matrix.PosDef.one (grid_one 200) ?_
  · obtain ⟨_, rfl⟩ := replicate_getElem? _ _ _ _ hc
    norm_num
  · intro h
    have := length_cartesianProd (fun _ : Fin 1 => linspace (-3) 3 200) 200 fun _ => length_linspace _ _ _
    rw [h] at this
    simp at this
  · intro θ hθ
    obtain ⟨i, hi, hx⟩ := (mem_linspace _ _ _ _).1 ((mem_cartesianProd _ _).1 hθ 0)
    have hi0 : (0 : ℝ) ≤ i := Nat.cast_nonneg i
    have : dot (List.ofFn θ) [1] = θ 0 := by simp [dot, List.ofFn_succ]
    rw [this, hx]
    have h2 : (0 : ℝ) ≤ (3 - -3) * i / ((200 : ℕ) - 1) := by
      apply div_nonneg
      · nlinarith
      · norm_num
    linarith

end Irt
