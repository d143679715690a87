import Verif.Props.TwoPLIdentified
import Verif.Props.ScoreOrder
import Verif.Lemmas.Recode

/-! # C155: slopes and thresholds of the graded response model are found -/

namespace Irt
open Spec MeasureTheory Filter Topology

/-! ## The graded response model with one latent variable -/

section Family

variable {cats : List ℕ}

/-- Slopes, and one intercept per item and category. -/
abbrev GRMParams (cats : List ℕ) := (Fin cats.length → ℝ) × (Fin cats.length → Fin (maxCats cats) → ℝ)

/-- The intercepts as the model stores them: zero for the first category and for categories an item does not have. -/
noncomputable def grmIntercept (p : GRMParams cats) (j k : ℕ) : ℝ :=
  if h : j < cats.length ∧ k < maxCats cats then if k = 0 ∨ cats[j] ≤ k then 0 else p.2 ⟨j, h.1⟩ ⟨k, h.2⟩ else 0

theorem grmIntercept_zero (p : GRMParams cats) (j c k : ℕ) (hc : cats[j]? = some c) (h : k = 0 ∨ c ≤ k) : grmIntercept p j k = 0 := by
  obtain ⟨hj, rfl⟩ := List.getElem?_eq_some_iff.1 hc
  unfold grmIntercept
  split_ifs <;> rfl

theorem grmIntercept_eq (p : GRMParams cats) (j : Fin cats.length) (k : Fin (maxCats cats)) (h0 : 0 < (k : ℕ)) (h1 : (k : ℕ) < cats[j]) :
    grmIntercept p j k = p.2 j k := by
  unfold grmIntercept
  rw [dif_pos ⟨j.2, k.2⟩, if_neg (by push Not; exact ⟨h0.ne', h1⟩)]

/-- The graded response model with one latent variable and given slopes and intercepts. -/
noncomputable def grmWith (p : GRMParams cats) : GRM :=
  { lv := 1, cats := cats, rel := List.replicate cats.length (List.replicate 1 true), weight := List.ofFn p.1,
    bias := Classical.choose (exists_intercepts (maxCats cats) cats (grmIntercept p) (grmIntercept_zero p)) }

theorem grmWith_wf (h2 : ∀ c ∈ cats, 2 ≤ c) (p : GRMParams cats) : (grmWith p).WF where
  catsPos c hc := by have := h2 c hc; omega
  relLen := List.length_replicate
  relRow := free_relRow
  weightLen := by
    show (List.ofFn p.1).length = countTrue (List.replicate cats.length (List.replicate 1 true)).flatten
    rw [countTrue_free]; simp
  biasLen := (Classical.choose_spec (exists_intercepts (maxCats cats) cats (grmIntercept p) (grmIntercept_zero p))).1

theorem grmWith_parameters (p : GRMParams cats) (j : Fin cats.length) :
    (grmWith p).itemParameters[(j : ℕ)]? = some ([p.1 j], ((List.range (maxCats cats)).map (grmIntercept p j)).tail) := by
  rw [GRM.itemParameters, GRM.weights, GRM.biases, List.getElem?_zip_eq_some]
  constructor
  · show (viewRows cats.length 1 (scatterMask 0 (List.replicate cats.length (List.replicate 1 true)).flatten (List.ofFn p.1)))[(j : ℕ)]? = _
    rw [freeSlopes _ _ _ (by simp), viewRows_one _ _ (by simp)]
    simp
  · show ((viewRows cats.length (maxCats cats) (scatterMask 0 (freeMask (maxCats cats) cats) (grmWith p).bias)).map List.tail)[(j : ℕ)]? = _
    rw [grmWith, (Classical.choose_spec (exists_intercepts (maxCats cats) cats (grmIntercept p) (grmIntercept_zero p))).2, List.getElem?_map,
      rowsOf_getElem? _ _ _ _ j.2, Option.map_some]

/-- The probability of a response. -/
theorem grmWith_prob (h2 : ∀ c ∈ cats, 2 ≤ c) (p : GRMParams cats) (θ : Fin 1 → ℝ) (j r : ℕ) :
    tableProb ((grmWith p).probs (List.ofFn θ)) j r = if hj : j < cats.length then
      grmGeq cats[j] (p.1 ⟨j, hj⟩ * θ 0) (grmIntercept p j) r - grmGeq cats[j] (p.1 ⟨j, hj⟩ * θ 0) (grmIntercept p j) (r + 1) else 0 := by
  have hM : (grmWith p).M = maxCats cats := rfl
  by_cases hj : j < cats.length
  · rw [dif_pos hj]
    have hd : ∀ k, k + 1 < (grmWith p).M → (((List.range (maxCats cats)).map (grmIntercept p j)).tail)[k]? = some (grmIntercept p j (k + 1)) := by
      intro k hk
      rw [hM] at hk
      rw [List.getElem?_tail]
      simp [hk]
    have hrow := (grmWith p).probs_row' (List.ofFn θ) j cats[j] _ _ (grmIntercept p j) (List.getElem?_eq_getElem (l := cats) hj)
      (grmWith_parameters p ⟨j, hj⟩) hd
    rw [tableProb_row _ _ _ _ hrow, List.getD_eq_getElem?_getD, List.getElem?_map, hM]
    have hdot : dot (List.ofFn θ) [p.1 ⟨j, hj⟩] = p.1 ⟨j, hj⟩ * θ 0 := by simp [dot, mul_comm]
    rw [hdot]
    by_cases hr : r < maxCats cats
    · rw [List.getElem?_range hr]; rfl
    · rw [List.getElem?_eq_none (by simpa using hr)]
      have hc := le_maxCats cats _ (List.getElem_mem hj)
      have hc2 := h2 _ (List.getElem_mem hj)
      rw [grmGeq_last _ r (by omega) (by omega), grmGeq_last _ (r + 1) (by omega) (by omega)]
      simp
  · rw [dif_neg hj]
    have : ((grmWith p).probs (List.ofFn θ))[j]? = none :=
      List.getElem?_eq_none (by
        have : ((grmWith p).probs (List.ofFn θ)).length = cats.length := by simp [GRM.probs, length_viewRows, grmWith]
        omega)
    rw [tableProb, this]
    rfl

theorem continuous_sigmoid' : Continuous sigmoid := by
  have : sigmoid = logistic := funext fun x => (logistic_eq_sigmoid x).symm
  rw [this]
  exact continuous_logistic'

theorem continuous_grmIntercept (j k : ℕ) : Continuous fun p : GRMParams cats => grmIntercept p j k := by
  unfold grmIntercept
  split_ifs
  · fun_prop
  · fun_prop
  · fun_prop

theorem grmWith_jointly (h2 : ∀ c ∈ cats, 2 ≤ c) (j r : ℕ) :
    Continuous fun q : GRMParams cats × (Fin 1 → ℝ) => tableProb ((grmWith q.1).probs (List.ofFn q.2)) j r := by
  simp only [grmWith_prob h2]
  have hs : Continuous sigmoid := continuous_sigmoid'
  have hi : ∀ k, Continuous fun q : GRMParams cats × (Fin 1 → ℝ) => grmIntercept q.1 j k := fun k => (continuous_grmIntercept j k).comp continuous_fst
  have hg : ∀ (hj : j < cats.length) (k : ℕ), Continuous fun q : GRMParams cats × (Fin 1 → ℝ) =>
      grmGeq cats[j] (q.1.1 ⟨j, hj⟩ * q.2 0) (grmIntercept q.1 j) k := by
    intro hj k
    have := hi k
    unfold grmGeq
    split_ifs
    · fun_prop
    · exact hs.comp (Continuous.add (by fun_prop) this)
    · fun_prop
  split_ifs with hj
  · exact (hg hj r).sub (hg hj (r + 1))
  · fun_prop

theorem grmWith_continuous (h2 : ∀ c ∈ cats, 2 ≤ c) (p : GRMParams cats) :
    ContinuousProbs fun θ : Fin 1 → ℝ => tableProb ((grmWith p).probs (List.ofFn θ)) := fun j r =>
  Continuous.comp (g := fun q : GRMParams cats × (Fin 1 → ℝ) => tableProb ((grmWith q.1).probs (List.ofFn q.2)) j r) (f := fun θ => (p, θ))
    (grmWith_jointly h2 j r) (by fun_prop)

theorem grmWith_proper (h2 : ∀ c ∈ cats, 2 ≤ c) (p : GRMParams cats) :
    ProperProbs (fun θ : Fin 1 → ℝ => tableProb ((grmWith p).probs (List.ofFn θ))) cats := by
  intro θ j c hc
  obtain ⟨hj, rfl⟩ := List.getElem?_eq_some_iff.1 hc
  have hc2 := h2 _ (List.getElem_mem hj)
  dsimp only
  simp only [grmWith_prob h2, dif_pos hj]
  rw [Finset.sum_range_sub', grmGeq_last _ _ (by omega) le_rfl]
  simp [grmGeq]

theorem grmWith_le_one (h2 : ∀ c ∈ cats, 2 ≤ c) (p : GRMParams cats) (θ : Fin 1 → ℝ) (j r : ℕ) :
    tableProb ((grmWith p).probs (List.ofFn θ)) j r ≤ 1 := by
  rw [grmWith_prob h2]
  split_ifs with hj
  · linarith [grmGeq_le_one cats[j] (p.1 ⟨j, hj⟩ * θ 0) (grmIntercept p j) r, grmGeq_nonneg cats[j] (p.1 ⟨j, hj⟩ * θ 0) (grmIntercept p j) (r + 1)]
  · exact zero_le_one

/-- The bounds within which the parameters are fitted: slopes between `α` and `β`, intercepts up to `β` in size, each at least `γ` below the one of
the category before. -/
def GRMBounds (cats : List ℕ) (α β γ : ℝ) : Set (GRMParams cats) :=
  {p | (∀ j, α ≤ p.1 j) ∧ (∀ j, p.1 j ≤ β) ∧ (∀ j k, |p.2 j k| ≤ β) ∧
    (∀ (j : Fin cats.length) (k : Fin (maxCats cats)), (k : ℕ) = 0 ∨ cats[j] ≤ (k : ℕ) → p.2 j k = 0) ∧
    ∀ (j : Fin cats.length) (k l : Fin (maxCats cats)), 0 < (k : ℕ) → (l : ℕ) = k + 1 → (l : ℕ) < cats[j] → p.2 j l + γ ≤ p.2 j k}

theorem grmBounds_compact (cats : List ℕ) (α β γ : ℝ) : IsCompact (GRMBounds cats α β γ) := by
  have hbox : IsCompact ((Set.univ.pi fun _ => Set.Icc α β : Set (Fin cats.length → ℝ)) ×ˢ
      (Set.univ.pi fun _ => Set.univ.pi fun _ => Set.Icc (-β) β : Set (Fin cats.length → Fin (maxCats cats) → ℝ))) :=
    (isCompact_univ_pi fun _ => isCompact_Icc).prod (isCompact_univ_pi fun _ => isCompact_univ_pi fun _ => isCompact_Icc)
  refine hbox.of_isClosed_subset ?_ fun p hp => ⟨fun j _ => ⟨hp.1 j, hp.2.1 j⟩, fun j _ k _ => abs_le.1 (hp.2.2.1 j k)⟩
  unfold GRMBounds
  simp only [Set.ofPred_and, Set.ofPred_forall]
  refine (isClosed_iInter fun j => isClosed_le (by fun_prop) (by fun_prop)).inter ((isClosed_iInter fun j => isClosed_le (by fun_prop) (by fun_prop)).inter
    ((isClosed_iInter fun j => isClosed_iInter fun k => isClosed_le (by fun_prop) (by fun_prop)).inter
    ((isClosed_iInter fun j => isClosed_iInter fun k => isClosed_iInter fun _ => isClosed_eq (by fun_prop) (by fun_prop)).inter
    (isClosed_iInter fun j => isClosed_iInter fun k => isClosed_iInter fun l => isClosed_iInter fun _ => isClosed_iInter fun _ => isClosed_iInter fun _ =>
      isClosed_le (by fun_prop) (by fun_prop)))))

variable {α β γ : ℝ}

theorem grmWith_ordered (hγ : 0 < γ) {p : GRMParams cats} (hp : p ∈ GRMBounds cats α β γ) : (grmWith p).Ordered := by
  intro j c w dl hc hpar k hk
  change cats[j]? = some c at hc
  obtain ⟨hj, rfl⟩ := List.getElem?_eq_some_iff.1 hc
  have hcM := le_maxCats cats _ (List.getElem_mem hj)
  have h := grmWith_parameters p ⟨j, hj⟩
  change (grmWith p).itemParameters[j]? = _ at h
  rw [h] at hpar
  obtain ⟨_, rfl⟩ := Prod.mk.inj (Option.some.inj hpar)
  have e : ∀ i, i + 1 < cats[j] → (((List.range (maxCats cats)).map (grmIntercept p j)).tail).getD i 0 = grmIntercept p j (i + 1) := by
    intro i hi
    rw [List.getD_eq_getElem?_getD, List.getElem?_tail]
    simp [show i + 1 < maxCats cats by omega]
  rw [e (k + 1) (by omega), e k (by omega)]
  have h1 := grmIntercept_eq p ⟨j, hj⟩ ⟨k + 1, by omega⟩ (by simp) (by show k + 1 < cats[j]; omega)
  have h2 := grmIntercept_eq p ⟨j, hj⟩ ⟨k + 1 + 1, by omega⟩ (by simp) (by show k + 1 + 1 < cats[j]; omega)
  have h3 := hp.2.2.2.2 ⟨j, hj⟩ ⟨k + 1, by omega⟩ ⟨k + 1 + 1, by omega⟩ (by simp) rfl (by show k + 1 + 1 < cats[j]; omega)
  dsimp only at h1 h2
  rw [h1, h2]
  linarith

theorem grmWith_isScorer (hγ : 0 < γ) (hne : cats ≠ []) {p : GRMParams cats} (hp : p ∈ GRMBounds cats α β γ) :
    IsScorer ((grmWith p).scorer 1) cats fun θ => tableProb ((grmWith p).probs (List.ofFn θ)) :=
  (grmWith p).isScorer (grmWith_ordered hγ hp) hne 1

theorem grmWith_positive (h2 : ∀ c ∈ cats, 2 ≤ c) (hγ : 0 < γ) {p : GRMParams cats} (hp : p ∈ GRMBounds cats α β γ) :
    PositiveProbs (fun θ : Fin 1 → ℝ => tableProb ((grmWith p).probs (List.ofFn θ))) cats := fun θ j c r hc hr =>
  ((grmWith p).ranked (grmWith_wf h2 p) (grmWith_ordered hγ hp) j c hc).2.2 θ r hr

/-! ## The parameters are determined by the answers -/

/-- The probability of a response of at least `k`. -/
theorem grmWith_atLeast (h2 : ∀ c ∈ cats, 2 ≤ c) (p : GRMParams cats) (θ : Fin 1 → ℝ) (j : Fin cats.length) (k : ℕ) (h0 : 0 < k) (hk : k < cats[j]) :
    ∑ r ∈ Finset.range cats[j], tableProb ((grmWith p).probs (List.ofFn θ)) j r * (if k ≤ r then 1 else 0)
      = logistic (p.1 j * θ 0 + grmIntercept p j k) := by
  have hc2 := h2 _ (List.getElem_mem j.2)
  have hsum : ∀ n, k ≤ n → ∑ r ∈ Finset.range n, (grmGeq cats[j] (p.1 j * θ 0) (grmIntercept p j) r
      - grmGeq cats[j] (p.1 j * θ 0) (grmIntercept p j) (r + 1)) * (if k ≤ r then 1 else 0)
        = grmGeq cats[j] (p.1 j * θ 0) (grmIntercept p j) k - grmGeq cats[j] (p.1 j * θ 0) (grmIntercept p j) n := by
    intro n hn
    induction n, hn using Nat.le_induction with
    | base =>
      rw [sub_self]
      exact Finset.sum_eq_zero fun r hr => by rw [if_neg (by have := Finset.mem_range.1 hr; omega), mul_zero]
    | succ n hn ih => rw [Finset.sum_range_succ, ih, if_pos hn]; ring
  have h := hsum cats[j] hk.le
  rw [grmGeq_last _ _ (by omega) le_rfl, sub_zero] at h
  rw [logistic_eq_sigmoid]
  refine Eq.trans (Finset.sum_congr rfl fun r _ => ?_) (h.trans ?_)
  · rw [grmWith_prob h2, dif_pos j.2]
    rfl
  · unfold grmGeq
    rw [if_neg h0.ne', if_pos hk]

variable (h2 : ∀ c ∈ cats, 2 ≤ c) (hγ : 0 < γ)

include h2 hγ in
theorem grmWith_right {p : GRMParams cats} (hp : p ∈ GRMBounds cats α β γ) (j : Fin cats.length) (k : ℕ) (h0 : 0 < k) (hk : k < cats[j]) :
    ∑ x ∈ fullAnswers cats, normalProb (fun θ : Fin 1 → ℝ => tableProb ((grmWith p).probs (List.ofFn θ))) 1 x * (if k ≤ x j then 1 else 0)
      = rightOne (p.1 j) (grmIntercept p j k) := by
  have hne : cats ≠ [] := by rintro rfl; exact j.elim0
  rw [normalProb_sum_mul (P := fun θ : Fin 1 → ℝ => tableProb ((grmWith p).probs (List.ofFn θ)))
    (grmWith_continuous h2 p) (grmWith_isScorer hγ hne hp).nonneg (fun θ j r => grmWith_le_one h2 p _ j r) Matrix.PosDef.one]
  unfold rightOne rightOneAt
  congr 1
  funext θ
  rw [answerProb_item (grmWith_proper h2 p) θ j fun r => if k ≤ r then 1 else 0, grmWith_atLeast h2 p θ j k h0 hk]

include h2 hγ in
theorem grmWith_both {p : GRMParams cats} (hp : p ∈ GRMBounds cats α β γ) {j k : Fin cats.length} (hjk : j ≠ k) :
    ∑ x ∈ fullAnswers cats, normalProb (fun θ : Fin 1 → ℝ => tableProb ((grmWith p).probs (List.ofFn θ))) 1 x
      * ((if 1 ≤ x j then 1 else 0) * if 1 ≤ x k then 1 else 0)
      = rightBoth (p.1 j) (grmIntercept p j 1) (p.1 k) (grmIntercept p k 1) := by
  have hne : cats ≠ [] := by rintro rfl; exact j.elim0
  rw [normalProb_sum_mul (P := fun θ : Fin 1 → ℝ => tableProb ((grmWith p).probs (List.ofFn θ)))
    (grmWith_continuous h2 p) (grmWith_isScorer hγ hne hp).nonneg (fun θ j r => grmWith_le_one h2 p _ j r) Matrix.PosDef.one]
  unfold rightBoth rightBothAt
  congr 1
  funext θ
  rw [answerProb_pair (grmWith_proper h2 p) θ hjk (fun r => if 1 ≤ r then 1 else 0) fun r => if 1 ≤ r then 1 else 0,
    grmWith_atLeast h2 p θ j 1 one_pos (h2 _ (List.getElem_mem j.2)), grmWith_atLeast h2 p θ k 1 one_pos (h2 _ (List.getElem_mem k.2))]

include h2 hγ in
/-- Three or more items with positive slopes: the distribution of the answers in a standard normal population determines the slopes and the intercepts
of a graded response model. -/
theorem C155_identified (hitems : 3 ≤ cats.length) (hα : 0 < α) {p q : GRMParams cats} (hp : p ∈ GRMBounds cats α β γ) (hq : q ∈ GRMBounds cats α β γ)
    (h : ∀ x ∈ fullAnswers cats, normalProb (fun θ : Fin 1 → ℝ => tableProb ((grmWith p).probs (List.ofFn θ))) 1 x
      = normalProb (fun θ : Fin 1 → ℝ => tableProb ((grmWith q).probs (List.ofFn θ))) 1 x) : p = q := by
  have hM : ∀ j : Fin cats.length, ∀ k, 0 < k → k < cats[j] → rightOne (p.1 j) (grmIntercept p j k) = rightOne (q.1 j) (grmIntercept q j k) := by
    intro j k h0 hk
    rw [← grmWith_right h2 hγ hp j k h0 hk, ← grmWith_right h2 hγ hq j k h0 hk]
    exact Finset.sum_congr rfl fun x hx => by rw [h x hx]
  have hJ : ∀ j k : Fin cats.length, j ≠ k → rightBoth (p.1 j) (grmIntercept p j 1) (p.1 k) (grmIntercept p k 1)
      = rightBoth (q.1 j) (grmIntercept q j 1) (q.1 k) (grmIntercept q k 1) := by
    intro j k hjk
    rw [← grmWith_both h2 hγ hp hjk, ← grmWith_both h2 hγ hq hjk]
    exact Finset.sum_congr rfl fun x hx => by rw [h x hx]
  have hfirst := moments_identified hitems (p.1, fun j => grmIntercept p j 1) (q.1, fun j => grmIntercept q j 1) (fun j => hα.trans_le (hp.1 j))
    (fun j => hα.trans_le (hq.1 j)) (fun j => hM j 1 one_pos (h2 _ (List.getElem_mem j.2))) hJ
  have ha : p.1 = q.1 := (Prod.mk.inj hfirst).1
  refine Prod.ext ha (funext fun j => funext fun k => ?_)
  by_cases hk : (k : ℕ) = 0 ∨ cats[j] ≤ (k : ℕ)
  · rw [hp.2.2.2.1 j k hk, hq.2.2.2.1 j k hk]
  · push Not at hk
    have h0 : 0 < (k : ℕ) := Nat.pos_of_ne_zero hk.1
    have e := hM j k h0 hk.2
    rw [grmIntercept_eq p j k h0 hk.2, grmIntercept_eq q j k h0 hk.2, ha] at e
    rcases lt_trichotomy (p.2 j k) (q.2 j k) with g | g | g
    · exact absurd e (rightOne_mono _ g).ne
    · exact g
    · exact absurd e (rightOne_mono _ g).ne'

/-! ## Fitting the model -/

variable {hg : ℕ → Except PyErr (List ℝ × List ℝ)} (hrules : ExactRules hg)
  {ch : Matrix (Fin 1) (Fin 1) ℝ → Except PyErr (Matrix (Fin 1) (Fin 1) ℝ)} {L : Matrix (Fin 1) (Fin 1) ℝ} (hL : ch 1 = .ok L) (hchol : IsCholesky 1 L)

include h2 hγ hrules hL hchol in
/-- C155: the graded response model with at least three items and one latent variable, fitted within bounds (slopes positive, intercepts in
order) to respondents from a standard normal population. With enough Gauss-Hermite points and enough respondents all slopes and intercepts
with the smallest loss are within `ε` of the true ones, but for a risk as small as one likes. -/
theorem C155_grm (hitems : 3 ≤ cats.length) (hα : 0 < α) (p₀ : GRMParams cats) (h₀ : p₀ ∈ GRMBounds cats α β γ) (ε : ℝ) (hε : 0 < ε) :
    ∃ n₀ : ℕ, 1 ≤ n₀ ∧ ∀ risk : ℝ, 0 < risk → ∃ N₀ : ℕ, ∀ n, n₀ ≤ n → ∀ N, N₀ ≤ N →
      ∀ pts lw, mmlIntegration hg ch "gauss_hermite" (some n) none = .ok (pts, lw) →
      ∀ estimate : (Fin N → Fin cats.length → ℕ) → GRMParams cats,
      (∀ s ∈ samples N cats, estimate s ∈ GRMBounds cats α β γ ∧
        ∃ L L' : ℝ, mmlLoss ((grmWith p₀).scorer 1) (rowsOf N cats.length (sampleCells s)) pts lw = .ok (some L) ∧
          mmlLoss ((grmWith (estimate s)).scorer 1) (rowsOf N cats.length (sampleCells s)) pts lw = .ok (some L') ∧ L' ≤ L) →
      ∀ far : Finset (Fin N → Fin cats.length → ℕ), far ⊆ samples N cats →
        (∀ s ∈ far, ∃ j, ε ≤ |(estimate s).1 j - p₀.1 j| ∨ ∃ k, ε ≤ |(estimate s).2 j k - p₀.2 j k|) →
        ∑ s ∈ far, sampleProb (normalProb (fun θ : Fin 1 → ℝ => tableProb ((grmWith p₀).probs (List.ofFn θ))) 1) s ≤ risk := by
  classical
  have hne : cats ≠ [] := by rintro rfl; simp at hitems
  have hU : IsOpen {p : GRMBounds cats α β γ | ∀ j, |p.1.1 j - p₀.1 j| < ε ∧ ∀ k, |p.1.2 j k - p₀.2 j k| < ε} := by
    simp only [Set.ofPred_forall, Set.ofPred_and]
    exact isOpen_iInter_of_finite fun j => (isOpen_lt (by fun_prop) continuous_const).inter
      (isOpen_iInter_of_finite fun k => isOpen_lt (by fun_prop) continuous_const)
  have hK : IsCompact (Set.univ : Set (GRMBounds cats α β γ)) := isCompact_iff_isCompact_univ.1 (grmBounds_compact cats α β γ)
  obtain ⟨n₀, h1, h⟩ := C151_parameters (fun p : GRMBounds cats α β γ => (grmWith p.1).scorer 1)
    (fun p θ => tableProb ((grmWith p.1).probs (List.ofFn θ))) (fun p => grmWith_isScorer hγ hne p.2) (fun p => grmWith_positive h2 hγ p.2)
    (fun p => grmWith_proper h2 p.1)
    (fun j r => Continuous.comp (g := fun q : GRMParams cats × (Fin 1 → ℝ) => tableProb ((grmWith q.1).probs (List.ofFn q.2)) j r)
      (f := fun q : GRMBounds cats α β γ × (Fin 1 → ℝ) => (q.1.1, q.2)) (grmWith_jointly h2 j r) (by fun_prop))
    (fun p => grmWith_le_one h2 p.1) hrules none (Or.inl ⟨rfl, rfl⟩) Matrix.PosDef.one hL hchol _ hK ⟨p₀, h₀⟩
    (fun p _ hb => Subtype.ext (C155_identified h2 hγ hitems hα p.2 h₀ hb)) _ hU (fun j => ⟨by simpa using hε, fun k => by simpa using hε⟩)
  refine ⟨n₀, h1, fun risk hrisk => ?_⟩
  obtain ⟨N₀, hN₀⟩ := h risk hrisk
  refine ⟨N₀, fun n hn N hN pts lw hok estimate hest far hfar hout => ?_⟩
  refine hN₀ n hn N hN pts lw hok (fun s => if hs : estimate s ∈ GRMBounds cats α β γ then ⟨estimate s, hs⟩ else ⟨p₀, h₀⟩)
    (fun s hs => ⟨trivial, ?_⟩) far hfar fun s hs hin => ?_
  · rw [dif_pos (hest s hs).1]
    exact (hest s hs).2
  · rw [dif_pos (hest s (hfar hs)).1] at hin
    obtain ⟨j, hj | ⟨k, hk⟩⟩ := hout s hs
    · exact absurd (hin j).1 (not_lt.2 hj)
    · exact absurd ((hin j).2 k) (not_lt.2 hk)

include h2 hγ hrules hL hchol in
/-- C155: the scores. All EAP scores of the fitted graded response model are close to those of the true model. -/
theorem C155_scores (hitems : 3 ≤ cats.length) (hα : 0 < α) (p₀ : GRMParams cats) (h₀ : p₀ ∈ GRMBounds cats α β γ)
    (a : AlgAttrs 1) (points : Option ℕ) (grid : Thetas 1) (hgne : grid ≠ [])
    (gcov : Matrix (Fin 1) (Fin 1) ℝ) (hgcov : gcov.PosDef) (hgrid : eapGrid a (points.getD (eapDefaultPoints 1)) = .ok (grid, gcov))
    (ε : ℝ) (hε : 0 < ε) :
    ∃ n₀ : ℕ, 1 ≤ n₀ ∧ ∀ risk : ℝ, 0 < risk → ∃ N₀ : ℕ, ∀ n, n₀ ≤ n → ∀ N, N₀ ≤ N →
      ∀ pts lw, mmlIntegration hg ch "gauss_hermite" (some n) none = .ok (pts, lw) →
      ∀ estimate : (Fin N → Fin cats.length → ℕ) → GRMParams cats,
      (∀ s ∈ samples N cats, estimate s ∈ GRMBounds cats α β γ ∧
        ∃ L L' : ℝ, mmlLoss ((grmWith p₀).scorer 1) (rowsOf N cats.length (sampleCells s)) pts lw = .ok (some L) ∧
          mmlLoss ((grmWith (estimate s)).scorer 1) (rowsOf N cats.length (sampleCells s)) pts lw = .ok (some L') ∧ L' ≤ L) →
      ∀ far : Finset (Fin N → Fin cats.length → ℕ), far ⊆ samples N cats →
        (∀ s ∈ far, ∃ row, ValidResponses cats row ∧ ¬ ∃ e e' : Fin 1 → ℝ,
          eapScores ((grmWith p₀).scorer 1) a (rowsOf 1 cats.length fun _ => row) points = .ok [some e] ∧
          eapScores ((grmWith (estimate s)).scorer 1) a (rowsOf 1 cats.length fun _ => row) points = .ok [some e'] ∧ ∀ k, |e k - e' k| < ε) →
        ∑ s ∈ far, sampleProb (normalProb (fun θ : Fin 1 → ℝ => tableProb ((grmWith p₀).probs (List.ofFn θ))) 1) s ≤ risk := by
  classical
  have hne : cats ≠ [] := by rintro rfl; simp at hitems
  have hK : IsCompact (Set.univ : Set (GRMBounds cats α β γ)) := isCompact_iff_isCompact_univ.1 (grmBounds_compact cats α β γ)
  obtain ⟨n₀, h1, h⟩ := C152_scores (fun p : GRMBounds cats α β γ => (grmWith p.1).scorer 1)
    (fun p θ => tableProb ((grmWith p.1).probs (List.ofFn θ))) (fun p => grmWith_isScorer hγ hne p.2) (fun p => grmWith_positive h2 hγ p.2)
    (fun p => grmWith_proper h2 p.1)
    (fun j r => Continuous.comp (g := fun q : GRMParams cats × (Fin 1 → ℝ) => tableProb ((grmWith q.1).probs (List.ofFn q.2)) j r)
      (f := fun q : GRMBounds cats α β γ × (Fin 1 → ℝ) => (q.1.1, q.2)) (grmWith_jointly h2 j r) (by fun_prop))
    (fun p => grmWith_le_one h2 p.1) hrules none (Or.inl ⟨rfl, rfl⟩) Matrix.PosDef.one hL hchol _ hK ⟨p₀, h₀⟩
    (fun p _ hb => Subtype.ext (C155_identified h2 hγ hitems hα p.2 h₀ hb)) a (by norm_num) points grid hgne gcov hgcov hgrid ε hε
  refine ⟨n₀, h1, fun risk hrisk => ?_⟩
  obtain ⟨N₀, hN₀⟩ := h risk hrisk
  refine ⟨N₀, fun n hn N hN pts lw hok estimate hest far hfar hout => ?_⟩
  refine hN₀ n hn N hN pts lw hok (fun s => if hs : estimate s ∈ GRMBounds cats α β γ then ⟨estimate s, hs⟩ else ⟨p₀, h₀⟩)
    (fun s hs => ⟨trivial, ?_⟩) far hfar fun s hs => ?_
  · rw [dif_pos (hest s hs).1]
    exact (hest s hs).2
  · rw [dif_pos (hest s (hfar hs)).1]
    exact hout s hs

include h2 hγ in
/-- Within bounds there are, for every sample, parameters with the smallest loss. -/
theorem C155_exists (hne : cats ≠ []) (pts : Thetas 1) (lw : List ℝ) (hlen : lw.length = pts.length) (hpne : pts ≠ [])
    (p₀ : GRMParams cats) (h₀ : p₀ ∈ GRMBounds cats α β γ) (N : ℕ) (s : Fin N → Fin cats.length → ℕ) (hs : s ∈ samples N cats) :
    ∃ p ∈ GRMBounds cats α β γ, ∃ L', mmlLoss ((grmWith p).scorer 1) (rowsOf N cats.length (sampleCells s)) pts lw = .ok (some L') ∧
      ∀ q ∈ GRMBounds cats α β γ, ∃ L, mmlLoss ((grmWith q).scorer 1) (rowsOf N cats.length (sampleCells s)) pts lw = .ok (some L) ∧ L' ≤ L := by
  have hloss := fun (p : GRMParams cats) (hp : p ∈ GRMBounds cats α β γ) =>
    sample_loss (grmWith_isScorer hγ hne hp) (grmWith_positive h2 hγ hp) pts lw hlen hpne hs
  have hc : ContinuousOn (fun p : GRMParams cats =>
      -(∑ i, Real.log (populationProb (fun θ : Fin 1 → ℝ => tableProb ((grmWith p).probs (List.ofFn θ))) pts (lw.map Real.exp) (s i))
        + N * Real.log (lw.map Real.exp).sum)) (GRMBounds cats α β γ) := by
    refine ContinuousOn.neg (ContinuousOn.add (continuousOn_finsetSum _ fun i _ => ContinuousOn.log ?_ fun p hp => ?_) continuousOn_const)
    · exact continuousOn_populationProb (fun (p : GRMParams cats) (θ : Fin 1 → ℝ) => tableProb ((grmWith p).probs (List.ofFn θ))) _
        (fun θ j r => Continuous.continuousOn (Continuous.comp (g := fun q : GRMParams cats × (Fin 1 → ℝ) =>
          tableProb ((grmWith q.1).probs (List.ofFn q.2)) j r) (f := fun p => (p, θ)) (grmWith_jointly h2 j r) (by fun_prop))) pts _ _
    · exact (populationProb_pos (grmWith_isScorer hγ hne hp) (grmWith_positive h2 hγ hp) pts lw hlen hpne (Fintype.mem_piFinset.1 hs i)).ne'
  obtain ⟨p, hp, hmin⟩ := (grmBounds_compact cats α β γ).exists_isMinOn ⟨p₀, h₀⟩ hc
  exact ⟨p, hp, _, hloss p hp, fun q hq => ⟨_, hloss q hq, hmin hq⟩⟩

/-- The parameters on the scale of a group with mean `μ` and standard deviation `σ`. -/
noncomputable def onGroupScale (p : GRMParams cats) (μ σ : ℝ) : GRMParams cats :=
  (fun j => p.1 j * σ, fun j k => if (k : ℕ) = 0 ∨ cats[j] ≤ (k : ℕ) then 0 else p.2 j k + p.1 j * μ)

include h2 in
theorem grmWith_scale (p : GRMParams cats) (μ σ : ℝ) :
    SameOnNewScale cats (Matrix.of fun _ _ => σ : Matrix (Fin 1) (Fin 1) ℝ) (fun _ => μ)
      (fun θ => tableProb ((grmWith p).probs (List.ofFn θ))) (fun θ => tableProb ((grmWith (onGroupScale p μ σ)).probs (List.ofFn θ))) := by
  intro φ j c r hc _
  obtain ⟨hj, rfl⟩ := List.getElem?_eq_some_iff.1 hc
  have hcM := le_maxCats cats _ (List.getElem_mem hj)
  simp only [grmWith_prob h2, dif_pos hj, oldScores, Pi.add_apply, Matrix.mulVec, dotProduct, Matrix.of_apply, Finset.univ_unique, Finset.sum_singleton,
    Fin.default_eq_zero]
  have key : ∀ k, grmGeq cats[j] ((onGroupScale p μ σ).1 ⟨j, hj⟩ * φ 0) (grmIntercept (onGroupScale p μ σ) j) k
      = grmGeq cats[j] (p.1 ⟨j, hj⟩ * (σ * φ 0 + μ)) (grmIntercept p j) k := by
    intro k
    unfold grmGeq
    split_ifs with h0 hk
    · rfl
    · have e1 := grmIntercept_eq (onGroupScale p μ σ) ⟨j, hj⟩ ⟨k, by omega⟩ (Nat.pos_of_ne_zero h0) hk
      have e2 := grmIntercept_eq p ⟨j, hj⟩ ⟨k, by omega⟩ (Nat.pos_of_ne_zero h0) hk
      dsimp only at e1 e2
      rw [e1, e2]
      have e3 : (onGroupScale p μ σ).2 ⟨j, hj⟩ ⟨k, by omega⟩ = p.2 ⟨j, hj⟩ ⟨k, by omega⟩ + p.1 ⟨j, hj⟩ * μ := if_neg (by
        push Not; exact ⟨h0, hk⟩)
      have e4 : (onGroupScale p μ σ).1 ⟨j, hj⟩ = p.1 ⟨j, hj⟩ * σ := rfl
      rw [e3, e4]
      congr 1
      ring
    · rfl
  rw [key, key]

include h2 hγ hrules hL hchol in
/-- C155 for a group with mean `μ` and standard deviation `σ`: the slopes come to the true ones times `σ`, the intercepts to the true ones plus the
true slopes times `μ`. -/
theorem C155_groups (hitems : 3 ≤ cats.length) (hα : 0 < α) (p₀ : GRMParams cats) (μ : ℝ) {σ : ℝ} (hσ : 0 < σ)
    (h₀ : onGroupScale p₀ μ σ ∈ GRMBounds cats α β γ) (ε : ℝ) (hε : 0 < ε) :
    ∃ n₀ : ℕ, 1 ≤ n₀ ∧ ∀ risk : ℝ, 0 < risk → ∃ N₀ : ℕ, ∀ n, n₀ ≤ n → ∀ N, N₀ ≤ N →
      ∀ pts lw, mmlIntegration hg ch "gauss_hermite" (some n) none = .ok (pts, lw) →
      ∀ estimate : (Fin N → Fin cats.length → ℕ) → GRMParams cats,
      (∀ s ∈ samples N cats, estimate s ∈ GRMBounds cats α β γ ∧
        ∃ L L' : ℝ, mmlLoss ((grmWith (onGroupScale p₀ μ σ)).scorer 1) (rowsOf N cats.length (sampleCells s)) pts lw = .ok (some L) ∧
          mmlLoss ((grmWith (estimate s)).scorer 1) (rowsOf N cats.length (sampleCells s)) pts lw = .ok (some L') ∧ L' ≤ L) →
      ∀ far : Finset (Fin N → Fin cats.length → ℕ), far ⊆ samples N cats →
        (∀ s ∈ far, ∃ j, ε ≤ |(estimate s).1 j - p₀.1 j * σ| ∨
          ∃ k : Fin (maxCats cats), 0 < (k : ℕ) ∧ (k : ℕ) < cats[j] ∧ ε ≤ |(estimate s).2 j k - (p₀.2 j k + p₀.1 j * μ)|) →
        ∑ s ∈ far, sampleProb (normalProbAt (fun θ : Fin 1 → ℝ => tableProb ((grmWith p₀).probs (List.ofFn θ))) (fun _ => μ)
          (Matrix.of fun _ _ => σ ^ 2)) s ≤ risk := by
  obtain ⟨n₀, h1, h⟩ := C155_grm h2 hγ hrules hL hchol hitems hα (onGroupScale p₀ μ σ) h₀ ε hε
  refine ⟨n₀, h1, fun risk hrisk => ?_⟩
  obtain ⟨N₀, hN₀⟩ := h risk hrisk
  refine ⟨N₀, fun n hn N hN pts lw hok estimate hest far hfar hbad => ?_⟩
  have e : (Matrix.of fun _ _ => σ : Matrix (Fin 1) (Fin 1) ℝ) * 1 * (Matrix.of fun _ _ => σ : Matrix (Fin 1) (Fin 1) ℝ).transpose
      = Matrix.of fun _ _ => σ ^ 2 := by
    ext i j
    simp [Matrix.mul_apply, sq]
  refine (le_of_eq (Finset.sum_congr rfl fun s hs => ?_)).trans (hN₀ n hn N hN pts lw hok estimate hest far hfar fun s hs => ?_)
  · have := sampleProb_population (grmWith_scale h2 p₀ μ σ) (by simp [hσ.ne']) Matrix.PosDef.one (hfar hs)
    rwa [e] at this
  · obtain ⟨j, hj | ⟨k, hk0, hk1, hk⟩⟩ := hbad s hs
    · exact ⟨j, Or.inl hj⟩
    · refine ⟨j, Or.inr ⟨k, ?_⟩⟩
      have : (onGroupScale p₀ μ σ).2 j k = p₀.2 j k + p₀.1 j * μ := if_neg (by push Not; exact ⟨hk0.ne', hk1⟩)
      rw [this]
      exact hk

end Family

/-- Three items with 3, 2 and 3 categories, slopes 1, 2 and 3 and intercepts 1 and 0. -/
noncomputable def exGrmParams : GRMParams [3, 2, 3] :=
  (fun j => (j : ℕ) + 1, fun j k => if (k : ℕ) = 0 ∨ [3, 2, 3][j] ≤ (k : ℕ) then 0 else 2 - (k : ℕ))

theorem exGrmParams_mem : exGrmParams ∈ GRMBounds [3, 2, 3] (1 / 10) 5 (1 / 10) := by
  have hj3 : ∀ j : Fin [3, 2, 3].length, ((j : ℕ) : ℝ) ≤ 2 := fun j => by exact_mod_cast Nat.le_of_lt_succ j.2
  have hk3 : ∀ k : Fin (maxCats [3, 2, 3]), ((k : ℕ) : ℝ) ≤ 2 := fun k => by exact_mod_cast Nat.le_of_lt_succ k.2
  refine ⟨fun j => ?_, fun j => ?_, fun j k => ?_, fun j k h => ?_, fun j k l h0 h1 h2 => ?_⟩
  · have : (0 : ℝ) ≤ (j : ℕ) := Nat.cast_nonneg _
    show 1 / 10 ≤ ((j : ℕ) : ℝ) + 1
    linarith
  · have := hj3 j
    show ((j : ℕ) : ℝ) + 1 ≤ 5
    linarith
  · have := hk3 k
    have h0 : (0 : ℝ) ≤ (k : ℕ) := Nat.cast_nonneg _
    show |if (k : ℕ) = 0 ∨ [3, 2, 3][j] ≤ (k : ℕ) then (0 : ℝ) else 2 - (k : ℕ)| ≤ 5
    split_ifs
    · norm_num
    · exact abs_le.2 ⟨by linarith, by linarith⟩
  · exact if_pos h
  · have e1 : exGrmParams.2 j k = 2 - (k : ℕ) := if_neg (by push Not; exact ⟨h0.ne', by omega⟩)
    have e2 : exGrmParams.2 j l = 2 - (l : ℕ) := if_neg (by push Not; exact ⟨by omega, h2⟩)
    rw [e1, e2, h1]
    push_cast
    linarith

/-- With enough points and respondents the best parameters within bounds are within a tenth of the true ones with a probability of at least 95
percent. -/
example : ∃ (hg : ℕ → Except PyErr (List ℝ × List ℝ)) (n₀ N₀ : ℕ), ExactRules hg ∧ ∀ n, n₀ ≤ n → ∀ N, N₀ ≤ N →
    ∃ (pts : Thetas 1) (lw : List ℝ) (estimate : (Fin N → Fin [3, 2, 3].length → ℕ) → GRMParams [3, 2, 3]),
      mmlIntegration hg (fun _ => .ok (1 : Matrix (Fin 1) (Fin 1) ℝ)) "gauss_hermite" (some n) none = .ok (pts, lw) ∧
      ∀ far : Finset (Fin N → Fin [3, 2, 3].length → ℕ), far ⊆ samples N [3, 2, 3] →
        (∀ s ∈ far, ∃ j, 1 / 10 ≤ |(estimate s).1 j - exGrmParams.1 j| ∨ ∃ k, 1 / 10 ≤ |(estimate s).2 j k - exGrmParams.2 j k|) →
        ∑ s ∈ far, sampleProb (normalProb (fun θ : Fin 1 → ℝ => tableProb ((grmWith exGrmParams).probs (List.ofFn θ))) 1) s ≤ 1 / 20 := by
  classical
  have h2 : ∀ c ∈ [3, 2, 3], 2 ≤ c := by decide
  obtain ⟨hg, hrules⟩ := C141_rules_exist
  obtain ⟨n₀, h1, h⟩ := C155_grm h2 (γ := 1 / 10) (by norm_num) hrules (ch := fun _ => .ok (1 : Matrix (Fin 1) (Fin 1) ℝ)) rfl
    (by simp [IsCholesky]) (by simp) (α := 1 / 10) (by norm_num) exGrmParams exGrmParams_mem (1 / 10) (by norm_num)
  obtain ⟨N₀, hN₀⟩ := h (1 / 20) (by norm_num)
  refine ⟨hg, n₀, N₀, hrules, fun n hn N hN => ?_⟩
  obtain ⟨x, w, hx, hexact⟩ := hrules n (h1.trans hn)
  obtain ⟨pts, lw, hok, hl, hne, _⟩ := integration_rule (ch := fun _ => .ok (1 : Matrix (Fin 1) (Fin 1) ℝ)) none (Or.inl ⟨rfl, rfl⟩) rfl (h1.trans hn)
    hx hexact
  choose! estimate hb hmin using C155_exists h2 (γ := 1 / 10) (by norm_num) (by simp) pts lw hl hne exGrmParams exGrmParams_mem N
  refine ⟨pts, lw, estimate, hok, hN₀ n hn N hN pts lw hok estimate fun s hs => ⟨hb s hs, ?_⟩⟩
  obtain ⟨L', hL', hbest⟩ := hmin s hs
  obtain ⟨L, hL, hle⟩ := hbest exGrmParams exGrmParams_mem
  exact ⟨L, L', hL, hL', hle⟩

theorem exGrmParams_group : onGroupScale exGrmParams 0 1 = exGrmParams := by
  refine Prod.ext (funext fun j => mul_one _) (funext fun j => funext fun k => ?_)
  show (if (k : ℕ) = 0 ∨ [3, 2, 3][j] ≤ (k : ℕ) then (0 : ℝ) else exGrmParams.2 j k + exGrmParams.1 j * 0) = exGrmParams.2 j k
  split_ifs with h
  · exact (if_pos h).symm
  · ring

/-- The other theorems can be used for these items, with the EAP scores of the algorithm's default range. -/
example {hg : ℕ → Except PyErr (List ℝ × List ℝ)} (hrules : ExactRules hg) :=
  C155_scores (cats := [3, 2, 3]) (by decide) (γ := 1 / 10) (by norm_num) hrules (ch := fun _ => .ok (1 : Matrix (Fin 1) (Fin 1) ℝ)) rfl
    (by simp [IsCholesky]) (by simp) (α := 1 / 10) (by norm_num) exGrmParams exGrmParams_mem {} (some 7) (cartesianProd fun _ => linspace (-3) 3 7)
    exSeven_ne 1 Matrix.PosDef.one rfl (1 / 100) (by norm_num)

example {hg : ℕ → Except PyErr (List ℝ × List ℝ)} (hrules : ExactRules hg) :=
  C155_groups (cats := [3, 2, 3]) (by decide) (γ := 1 / 10) (by norm_num) hrules (ch := fun _ => .ok (1 : Matrix (Fin 1) (Fin 1) ℝ)) rfl
    (by simp [IsCholesky]) (by simp) (α := 1 / 10) (by norm_num) exGrmParams 0 (σ := 1) one_pos (by rw [exGrmParams_group]; exact exGrmParams_mem) (1 / 10)
    (by norm_num)

end Irt
