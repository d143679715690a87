import Verif.Lemmas.TestScores
import Verif.Props.Splines

/-!
# C119: test scores as measures of the latent variable

`conditionalScoreDistribution` is the distribution of the number of points from which the model-implied sum score
probabilities are computed. `ScoresHigher` (Spec/Ordered) is stochastic order; `LeansHigher`, `traitAtScore` and
`ScoreOrdersTrait` are in Spec/TestScores.
-/

namespace Irt

open Finset Spec

/-- C119, any model with any number of latent variables: if the answers to every item are stochastically higher,
so is the number of points on the test, and the expected number of points is at least as high. -/
theorem C119_more_points (cats : List ℕ) (hcats : cats ≠ []) (M : ℕ) (hM : ∀ c ∈ cats, 1 ≤ c ∧ c ≤ M) (t t' : List (List ℝ))
    (ht : IsTable cats M t) (ht' : IsTable cats M t')
    (h : ∀ (j : ℕ) p p', t[j]? = some p → t'[j]? = some p' → ScoresHigher p p') :
    ∃ d d', conditionalScoreDistribution t cats = .ok d ∧ conditionalScoreDistribution t' cats = .ok d' ∧
      ScoresHigher d d' :=
  score_dominance cats hcats M hM t t' ht ht' fun j c p p' hc hp hp' =>
    rowDominates_of_scoresHigher (ht.2 j p c hp hc) (ht'.2 j p' c hp' hc) (hM c (List.mem_of_getElem? hc)).2 (h j p p' hp hp')

/-- Two right/wrong items with success probabilities `p` and `q`. -/
noncomputable def exTwoChances (p q : ℝ) : List (List ℝ) := [[1 - p, p], [1 - q, q]]

theorem exTwoChances_positive (p q : ℝ) (hp : 0 < p ∧ p < 1) (hq : 0 < q ∧ q < 1) :
    PositiveTable (List.replicate 2 2) 2 (exTwoChances p q) := by
  have h1 := pair_isDistribution p hp.1 hp.2
  have h2 := pair_isDistribution q hq.1 hq.2
  refine ⟨⟨rfl, fun j r c hr hc => ?_⟩, fun j r c hr hc => ?_⟩
  all_goals
    have hj : j < 2 := by simpa using lt_of_getElem?_some hc
    obtain ⟨_, rfl⟩ := replicate_getElem? _ _ _ _ hc
    interval_cases j
    all_goals
      simp only [exTwoChances, List.getElem?_cons_zero, List.getElem?_cons_succ, Option.some.injEq] at hr
      subst hr
      first | exact h1.1 | exact h2.1 | exact h1.2 | exact h2.2

example : ∃ d d', conditionalScoreDistribution (exTwoChances (1/2) (1/4)) [2, 2] = .ok d ∧
    conditionalScoreDistribution (exTwoChances (2/3) (1/4)) [2, 2] = .ok d' ∧ ScoresHigher d d' := by
  refine C119_more_points [2, 2] (by simp) 2 (by simp) _ _
    (exTwoChances_positive (1/2) (1/4) (by norm_num) (by norm_num)).1
    (exTwoChances_positive (2/3) (1/4) (by norm_num) (by norm_num)).1 ?_
  intro j p p' hp hp'
  have hj : j < 2 := lt_of_getElem?_some hp
  interval_cases j
  all_goals
    simp only [exTwoChances, List.getElem?_cons_zero, List.getElem?_cons_succ, Option.some.injEq] at hp hp'
    subst hp hp'
    refine ⟨fun k => ?_, ?_⟩
    · rcases k with _ | _ | k <;> norm_num [atLeast, Finset.sum_range_succ, Finset.sum_Ico_eq_sum_range]
    · norm_num [meanScore, Finset.sum_range_succ]

/-- C119, one latent variable and ranked categories: respondents with a higher latent score have stochastically
more points. -/
theorem C119_ranked_points (cats : List ℕ) (hcats : cats ≠ []) (M : ℕ) (hM : ∀ c ∈ cats, 1 ≤ c ∧ c ≤ M)
    (table : (Fin 1 → ℝ) → List (List ℝ)) (ht : ∀ θ, IsTable cats M (table θ))
    (hr : ∀ j c, cats[j]? = some c → RankedItem (fun θ => tableProb (table θ)) j c) (θ θ' : Fin 1 → ℝ) (hle : θ 0 ≤ θ' 0) :
    ∃ d d', conditionalScoreDistribution (table θ) cats = .ok d ∧ conditionalScoreDistribution (table θ') cats = .ok d' ∧
      ScoresHigher d d' := by
  refine score_dominance cats hcats M hM _ _ (ht θ) (ht θ') fun j c p p' hc hp hp' => ?_
  have := (hr j c hc).dominates θ θ' hle
  simp only [funext fun r => tableProb_row _ j r p hp, funext fun r => tableProb_row _ j r p' hp'] at this
  exact this

/-- The graded items of `exGraded` are ranked. -/
example : ∀ j c, exGraded.cats[j]? = some c → RankedItem (fun θ : Fin 1 → ℝ => tableProb (exGraded.probs (List.ofFn θ))) j c :=
  fun j c hc => (exGraded.ranked exGraded_wf exGraded_ordered j c hc).1 (by
    have hj : j < 2 := lt_of_getElem?_some hc
    interval_cases j <;> simp [slopeOf, exGraded_parameters])

/-- C119, right/wrong items: if nobody's chance on any item is lower, the distribution of the number of right
answers leans towards higher scores in the sense of likelihood ratios; strictly, if the chance on some item is
higher. -/
theorem C119_right_answers (n : ℕ) (hn : 0 < n) (M : ℕ) (hM : 2 ≤ M) (t t' : List (List ℝ))
    (ht : PositiveTable (List.replicate n 2) M t) (ht' : PositiveTable (List.replicate n 2) M t')
    (h : ∀ j, j < n → tableProb t j 1 ≤ tableProb t' j 1) :
    ∃ d d', conditionalScoreDistribution t (List.replicate n 2) = .ok d ∧
      conditionalScoreDistribution t' (List.replicate n 2) = .ok d' ∧ LeansHigher d d' ∧
      ((∃ j, j < n ∧ tableProb t j 1 < tableProb t' j 1) → LeansStrictlyHigher d d') := by
  have hcats : List.replicate n 2 ≠ [] := by simp; omega
  have hMc : ∀ c ∈ List.replicate n 2, 1 ≤ c ∧ c ≤ M := fun c hc => by rw [List.eq_of_mem_replicate hc]; omega
  obtain ⟨d, a1, a2, a3, -, -⟩ := score_dist _ hcats M hMc t ht.1
  obtain ⟨d', b1, b2, b3, -, -⟩ := score_dist _ hcats M hMc t' ht'.1
  have two : ∀ u : List (List ℝ), PositiveTable (List.replicate n 2) M u → u.length = n ∧
      (∀ p ∈ u, p.getD 0 0 = 1 - p.getD 1 0) ∧ ∀ x ∈ u.map (fun p => p.getD 1 0), 0 < x ∧ x < 1 := by
    intro u hu
    have hlen : u.length = n := by rw [hu.1.1, List.length_replicate]
    have row : ∀ p ∈ u, p.getD 0 0 = 1 - p.getD 1 0 ∧ 0 < p.getD 1 0 ∧ p.getD 1 0 < 1 := by
      intro p hp
      obtain ⟨j, hj⟩ := List.mem_iff_getElem?.1 hp
      have hjn : j < n := by rw [← hlen]; exact lt_of_getElem?_some hj
      have hc : (List.replicate n 2)[j]? = some 2 := by rw [List.getElem?_replicate, if_pos hjn]
      have hs := take_sum_of_distribution (hu.1.2 j p 2 hj hc)
      obtain ⟨x0, e0, p0⟩ := hu.2 j p 2 hj hc 0 (by norm_num)
      obtain ⟨x1, e1, p1⟩ := hu.2 j p 2 hj hc 1 (by norm_num)
      have hp2 : p.take 2 = [x0, x1] := by
        match p, e0, e1 with
        | a :: b :: l, e0, e1 => simp at e0 e1; simp [e0, e1]
      rw [hp2] at hs
      simp at hs
      rw [List.getD_eq_getElem?_getD, List.getD_eq_getElem?_getD, e0, e1]
      simp only [Option.getD_some]
      exact ⟨by linarith, p1, by linarith⟩
    refine ⟨hlen, fun p hp => (row p hp).1, fun x hx => ?_⟩
    obtain ⟨p, hp, rfl⟩ := List.mem_map.1 hx
    exact (row p hp).2
  obtain ⟨l1, l2, l3⟩ := two t ht
  obtain ⟨m1, m2, m3⟩ := two t' ht'
  have hd : ∀ s : ℕ, d.getD s 0 = rightMass (t.map fun p => p.getD 1 0) s := fun s => by
    rw [a3, ← genPoly_right t l2 s, l1]
  have hd' : ∀ s : ℕ, d'.getD s 0 = rightMass (t'.map fun p => p.getD 1 0) s := fun s => by
    rw [b3, ← genPoly_right t' m2 s, m1]
  have prob : ∀ (u : List (List ℝ)), u.length = n → ∀ j (hj : j < u.length), tableProb u j 1 = u[j].getD 1 0 := fun u hu j hj =>
    tableProb_row u j 1 _ (List.getElem?_eq_getElem hj)
  have hall : List.Forall₂ (· ≤ ·) (t.map fun p => p.getD 1 0) (t'.map fun p => p.getD 1 0) := by
    rw [List.forall₂_iff_get]
    refine ⟨by simp [l1, m1], fun j hj hj' => ?_⟩
    simp only [List.get_eq_getElem, List.getElem_map]
    rw [List.length_map] at hj hj'
    rw [← prob t l1, ← prob t' m1]
    exact h j (by omega)
  have key := fun s u hsu => rightMass_ratio hall [] (by simp) l3 m3 s u hsu
  simp only [List.nil_append, List.length_map, l1] at key
  refine ⟨d, d', a1, b1, fun s u hsu => ?_, fun ⟨j, hj, hlt⟩ s u hsu hu => ?_⟩
  · rw [hd, hd, hd', hd']
    exact (key s u (by exact_mod_cast hsu)).1
  · rw [hd, hd, hd', hd']
    refine (key s u (by exact_mod_cast hsu.le)).2 (fun he => ?_) (by exact_mod_cast hsu) (by positivity) (by
      rw [a2] at hu; simp at hu; exact_mod_cast (by omega : u ≤ n))
    have hj1 : j < t.length := by omega
    have hj2 : j < t'.length := by omega
    have := congrArg (fun l => l[j]?) he
    simp only [List.getElem?_map, List.getElem?_eq_getElem hj1, List.getElem?_eq_getElem hj2, Option.map_some,
      Option.some.injEq] at this
    rw [prob t l1 j hj1, prob t' m1 j hj2, this] at hlt
    exact lt_irrefl _ hlt

example : ∃ d d', conditionalScoreDistribution (exTwoChances (1/2) (1/4)) (List.replicate 2 2) = .ok d ∧
    conditionalScoreDistribution (exTwoChances (2/3) (1/4)) (List.replicate 2 2) = .ok d' ∧ LeansStrictlyHigher d d' := by
  obtain ⟨d, d', h1, h2, -, h4⟩ := C119_right_answers 2 (by norm_num) 2 (le_refl _) _ _
    (exTwoChances_positive (1/2) (1/4) (by norm_num) (by norm_num))
    (exTwoChances_positive (2/3) (1/4) (by norm_num) (by norm_num)) (by
      intro j hj
      interval_cases j <;> norm_num [tableProb, exTwoChances])
  exact ⟨d, d', h1, h2, h4 ⟨0, by norm_num, by norm_num [tableProb, exTwoChances]⟩⟩

/-- C119, items with a common slope (1PL, partial credit): the distribution of the number of points leans towards
higher scores when the latent score rises. -/
theorem C119_common_slope (cats : List ℕ) (hcats : cats ≠ []) (M : ℕ) (hM : ∀ c ∈ cats, 1 ≤ c ∧ c ≤ M)
    (table : (Fin 1 → ℝ) → List (List ℝ)) (ht : ∀ θ, PositiveTable cats M (table θ)) (a : ℝ) (ha : 0 ≤ a) (B : ℕ → ℕ → ℝ)
    (hm : LogitModel cats (fun θ => tableProb (table θ)) (fun _ r _ => a * r) B) (θ θ' : Fin 1 → ℝ) (hle : θ 0 ≤ θ' 0) :
    ∃ d d', conditionalScoreDistribution (table θ) cats = .ok d ∧ conditionalScoreDistribution (table θ') cats = .ok d' ∧
      LeansHigher d d' ∧ (0 < a → θ 0 < θ' 0 → LeansStrictlyHigher d d') := by
  obtain ⟨d, a1, a2, a3, -, -⟩ := score_dist cats hcats M hM _ (ht θ).1
  obtain ⟨d', b1, b2, b3, -, -⟩ := score_dist cats hcats M hM _ (ht θ').1
  -- every score has the same form at all latent scores
  obtain ⟨K, Z, hK⟩ : ∃ (K : ℕ → ℝ) (Z : (Fin 1 → ℝ) → ℝ), ∀ φ s, (genPoly (table φ) cats).coeff s
      = Real.exp (a * s * φ 0) * K s * Z φ := by
    refine ⟨fun s => ∑ r ∈ Fintype.piFinset (fun i : Fin cats.length => range cats[i]) with ∑ i, r i = s,
        ∏ i : Fin cats.length, Real.exp (B i (r i)),
      fun φ => ∏ i : Fin cats.length, (∑ x ∈ range cats[i], Real.exp (a * x * φ 0 + B i x))⁻¹, fun φ s => ?_⟩
    rw [genPoly_coeff _ _ (ht φ).1.1, sumScoreMass, mul_sum, sum_mul]
    refine sum_congr rfl fun r hr => ?_
    rw [mem_filter, Fintype.mem_piFinset] at hr
    have e : ∀ i : Fin cats.length, ((table φ).getD i []).getD (r i) 0
        = Real.exp (a * φ 0 * r i) * Real.exp (B i (r i)) * (∑ x ∈ range cats[i], Real.exp (a * x * φ 0 + B i x))⁻¹ := by
      intro i
      have := hm φ i cats[i] (r i) (List.getElem?_eq_getElem i.2) (mem_range.1 (hr.1 i))
      simp only [univ_unique, Fin.default_eq_zero, sum_singleton] at this
      rw [tableProb_getD]
      rw [this, div_eq_mul_inv, Real.exp_add, show a * (r i : ℝ) * φ 0 = a * φ 0 * r i by ring]
    simp only [e]
    rw [prod_mul_distrib, prod_mul_distrib, ← Real.exp_sum, ← mul_sum]
    congr 3
    rw [← hr.2]; push_cast; ring
  have pos : ∀ φ (s : ℕ), s ≤ (cats.map (· - 1)).sum → 0 < Real.exp (a * s * φ 0) * K s * Z φ := fun φ s hs => by
    rw [← hK]; exact genPoly_pos cats _ (ht φ).1.1 (fun c hc => (hM c hc).1) (ht φ).2 s hs
  have zero : ∀ φ (s : ℕ), (cats.map (· - 1)).sum + 1 ≤ s → Real.exp (a * s * φ 0) * K s * Z φ = 0 := fun φ s hs => by
    rw [← hK]; exact genPoly_bound cats _ (ht φ).1.1 (fun c hc => (hM c hc).1) s hs
  have fac : ∀ s u : ℕ, (∃ C, 0 < C ∧ d.getD s 0 * d'.getD u 0 = C * Real.exp (a * s * θ 0 + a * u * θ' 0) ∧
      d'.getD s 0 * d.getD u 0 = C * Real.exp (a * s * θ' 0 + a * u * θ 0)) ∨
      ((cats.map (· - 1)).sum < max s u ∧ d.getD s 0 * d'.getD u 0 = 0 ∧ d'.getD s 0 * d.getD u 0 = 0) := by
    intro s u
    rw [a3, a3, b3, b3, hK, hK, hK, hK]
    by_cases hs : s ≤ (cats.map (· - 1)).sum
    · by_cases hu : u ≤ (cats.map (· - 1)).sum
      · left
        refine ⟨K s * Z θ * (K u * Z θ'), ?_, ?_, ?_⟩
        · have p1 := pos θ s hs
          have p2 := pos θ' u hu
          rw [mul_assoc] at p1 p2
          exact mul_pos (pos_of_mul_pos_right p1 (Real.exp_pos _).le) (pos_of_mul_pos_right p2 (Real.exp_pos _).le)
        · rw [Real.exp_add]; ring
        · rw [Real.exp_add]; ring
      · right
        exact ⟨by omega, by rw [zero θ' u (by omega), mul_zero], by rw [zero θ u (by omega), mul_zero]⟩
    · right
      exact ⟨by omega, by rw [zero θ s (by omega), zero_mul], by rw [zero θ' s (by omega), zero_mul]⟩
  refine ⟨d, d', a1, b1, fun s u hsu => ?_, fun ha' hlt s u hsu hu => ?_⟩
  · rcases fac s u with ⟨C, hC, e1, e2⟩ | ⟨-, e1, e2⟩
    · rw [e1, e2]
      refine mul_le_mul_of_nonneg_left (Real.exp_le_exp.2 ?_) hC.le
      have : (s : ℝ) ≤ u := by exact_mod_cast hsu
      nlinarith [mul_nonneg ha (mul_nonneg (sub_nonneg.2 this) (sub_nonneg.2 hle))]
    · rw [e1, e2]
  · rcases fac s u with ⟨C, hC, e1, e2⟩ | ⟨h, -, -⟩
    · rw [e1, e2]
      refine mul_lt_mul_of_pos_left (Real.exp_lt_exp.2 ?_) hC
      have : (s : ℝ) < u := by exact_mod_cast hsu
      nlinarith [mul_pos ha' (mul_pos (sub_pos.2 this) (sub_pos.2 hlt))]
    · omega

/-- The items of `exScore` have the common slope 1. -/
example : ∃ B, LogitModel exScore.cats (fun θ : Fin 1 → ℝ => tableProb (exScore.probs (List.ofFn θ))) (fun _ r _ => 1 * r) B := by
  refine ⟨fun j r => ((exScore.itemParameters[j]?).map fun p => p.2.getD r 0).getD 0, fun θ j c r hc hr => ?_⟩
  rw [exScore.logitModel exScore_wf 1 θ j c r hc hr]
  have hj : j < 2 := lt_of_getElem?_some hc
  have hs : slopeOf exScore.itemParameters j 0 = 1 := by
    interval_cases j <;> simp [slopeOf, GPC.itemParameters, GPC.weights, GPC.biases, GPC.M, exScore, maxCats, viewRows,
      scatterMask, freeMask, freeRow, List.range_succ]
  simp only [univ_unique, Fin.default_eq_zero, Fin.isValue, sum_singleton, Fin.val_zero, hs, one_mul, mul_one]

/-- C119: if the test scores of respondents with a higher latent score lean higher, more points mean a mean latent
score that is not lower, in every population. -/
theorem C119_trait_at_score (population : List (ℝ × ℝ)) (hshare : ∀ g ∈ population, 0 ≤ g.1) (dist : ℝ → List ℝ)
    (hlean : ∀ θ θ', θ ≤ θ' → LeansHigher (dist θ) (dist θ')) (s t : ℕ) (hst : s ≤ t)
    (hs : 0 < (population.map fun g => g.1 * (dist g.2).getD s 0).sum)
    (ht : 0 < (population.map fun g => g.1 * (dist g.2).getD t 0).sum) :
    traitAtScore population dist s ≤ traitAtScore population dist t ∧
    ((∃ g ∈ population, ∃ g' ∈ population, 0 < g.1 ∧ 0 < g'.1 ∧ g.2 < g'.2 ∧ t < (dist g.2).length ∧
      LeansStrictlyHigher (dist g.2) (dist g'.2)) → s < t → traitAtScore population dist s < traitAtScore population dist t) := by
  obtain ⟨h1, h2⟩ := weighted_mean_le population (fun g => g.2) (fun g => g.1 * (dist g.2).getD s 0)
    (fun g => g.1 * (dist g.2).getD t 0) hs ht (fun g hg g' hg' hle => by
      have := mul_le_mul_of_nonneg_left (hlean g.2 g'.2 hle s t hst) (mul_nonneg (hshare g hg) (hshare g' hg'))
      nlinarith)
  refine ⟨h1, fun ⟨g, hg, g', hg', p, p', hlt, hlen, hstr⟩ hst' => h2 ⟨g, hg, g', hg', hlt, ?_⟩⟩
  have := mul_lt_mul_of_pos_left (hstr s t hst' hlen) (mul_pos p p')
  nlinarith

/-- Half of the respondents at 0, half at 1, one right/wrong item: among those with a right answer the mean is higher. -/
example : traitAtScore [(1/2, 0), (1/2, 1)] (fun θ => if θ ≤ 0 then [1/2, 1/2] else [1/4, 3/4]) 0 <
    traitAtScore [(1/2, 0), (1/2, 1)] (fun θ => if θ ≤ 0 then [1/2, 1/2] else [1/4, 3/4]) 1 := by
  have hs : LeansStrictlyHigher ([1/2, 1/2] : List ℝ) [1/4, 3/4] := by
    intro s t h ht
    simp only [List.length_cons, List.length_nil] at ht
    obtain ⟨rfl, rfl⟩ : s = 0 ∧ t = 1 := by omega
    norm_num
  refine (C119_trait_at_score [(1/2, 0), (1/2, 1)] (by norm_num) _ (fun θ θ' h => ?_) 0 1 (by norm_num) (by norm_num)
    (by norm_num)).2 ⟨(1/2, 0), by simp, (1/2, 1), by simp, by norm_num, by norm_num, by norm_num, by norm_num, ?_⟩ (by norm_num)
  · intro s t hst
    by_cases h1 : θ ≤ 0
    · by_cases h2 : θ' ≤ 0
      · simp only [if_pos h1, if_pos h2, le_refl]
      · simp only [if_pos h1, if_neg h2]
        rcases s with _ | _ | s <;> rcases t with _ | _ | t <;> first | omega | norm_num
    · have h2 : ¬ θ' ≤ 0 := by linarith
      simp only [if_neg h1, if_neg h2, le_refl]
  · norm_num; simpa using hs

/-! ## The models -/

theorem positiveTable_of {cats : List ℕ} {M : ℕ} {t : List (List ℝ)} (h : t.length = cats.length ∧ ∀ j c : ℕ, cats[j]? = some c →
    ∃ p, t[j]? = some p ∧ IsDistribution c M p ∧ AllPositive c p) : PositiveTable cats M t := by
  refine ⟨⟨h.1, fun j p c hp hc => ?_⟩, fun j p c hp hc => ?_⟩
  all_goals
    obtain ⟨q, hq, h1, h2⟩ := h.2 j c hc
    rw [hp] at hq
    obtain rfl := Option.some.inj hq
    first | exact h1 | exact h2

theorem positiveTable_pairs {n : ℕ} {t : List (List ℝ)} (h : t.length = n ∧ ∀ j, j < n →
    ∃ p, t[j]? = some p ∧ IsDistribution 2 2 p ∧ AllPositive 2 p) : PositiveTable (List.replicate n 2) 2 t :=
  positiveTable_of ⟨by rw [h.1, List.length_replicate], fun j c hc => by
    obtain ⟨hj, rfl⟩ := replicate_getElem? _ _ _ _ hc
    exact h.2 j hj⟩

/-- From likelihood ratios to mean latent scores. -/
theorem orders_of_lean (cats : List ℕ) (hcats : cats ≠ []) (M : ℕ) (hM : ∀ c ∈ cats, 1 ≤ c ∧ c ≤ M)
    (table : (Fin 1 → ℝ) → List (List ℝ)) (ht : ∀ θ, PositiveTable cats M (table θ)) (Q : Prop)
    (hl : ∀ θ θ' : Fin 1 → ℝ, θ 0 ≤ θ' 0 → ∃ d d', conditionalScoreDistribution (table θ) cats = .ok d ∧
      conditionalScoreDistribution (table θ') cats = .ok d' ∧ LeansHigher d d' ∧
      (Q → θ 0 < θ' 0 → LeansStrictlyHigher d d')) :
    ∃ dist : ℝ → List ℝ, (∀ θ, conditionalScoreDistribution (table fun _ => θ) cats = .ok (dist θ)) ∧
      ScoreOrdersTrait cats dist ∧ (Q → ScoreStrictlyOrdersTrait cats dist) := by
  have hd := fun θ : ℝ => score_dist cats hcats M hM _ (ht fun _ => θ).1
  choose dist h1 h2 h3 _ _ using hd
  have lean : ∀ θ θ' : ℝ, θ ≤ θ' → LeansHigher (dist θ) (dist θ') ∧ (Q → θ < θ' → LeansStrictlyHigher (dist θ) (dist θ')) := by
    intro θ θ' hle
    obtain ⟨d, d', e1, e2, e3, e4⟩ := hl (fun _ => θ) (fun _ => θ') hle
    rw [h1] at e1 e2
    obtain rfl := Except.ok.inj e1
    obtain rfl := Except.ok.inj e2
    exact ⟨e3, e4⟩
  have pos : ∀ θ s, s ≤ maxPoints cats → 0 < (dist θ).getD s 0 := by
    intro θ s hs
    rw [h3]
    exact genPoly_pos cats _ (ht _).1.1 (fun c hc => (hM c hc).1) (ht _).2 s hs
  have total : ∀ (population : List (ℝ × ℝ)), (∀ g ∈ population, 0 ≤ g.1) → (∃ g ∈ population, 0 < g.1) → ∀ s, s ≤ maxPoints cats →
      0 < (population.map fun g => g.1 * (dist g.2).getD s 0).sum := by
    intro population hs ⟨g, hg, hg0⟩ s hsm
    refine lt_of_lt_of_le (mul_pos hg0 (pos g.2 s hsm)) (List.single_le_sum (fun x hx => ?_) _ (List.mem_map_of_mem hg))
    obtain ⟨g', hg', rfl⟩ := List.mem_map.1 hx
    exact mul_nonneg (hs g' hg') (pos _ _ hsm).le
  refine ⟨dist, h1, fun population hs hex s t hst htm => ?_, fun hQ population hs hex s t hst htm => ?_⟩
  · exact (C119_trait_at_score population hs dist (fun θ θ' h => (lean θ θ' h).1) s t hst
      (total population hs hex s (by omega)) (total population hs hex t htm)).1
  · obtain ⟨g, hg, g', hg', p, p', hne⟩ := hex
    refine (C119_trait_at_score population hs dist (fun θ θ' h => (lean θ θ' h).1) s t hst.le
      (total population hs ⟨g, hg, p⟩ s (by omega)) (total population hs ⟨g, hg, p⟩ t htm)).2 ?_ hst
    rcases lt_or_gt_of_ne hne with h | h
    · exact ⟨g, hg, g', hg', p, p', h, by rw [h2]; exact Nat.lt_succ_of_le htm, (lean _ _ h.le).2 hQ h⟩
    · exact ⟨g', hg', g, hg, p', p, h, by rw [h2]; exact Nat.lt_succ_of_le htm, (lean _ _ h.le).2 hQ h⟩

/-- Right/wrong items with ranked categories. -/
theorem right_orders (n : ℕ) (hn : 0 < n) (table : (Fin 1 → ℝ) → List (List ℝ))
    (ht : ∀ θ, PositiveTable (List.replicate n 2) 2 (table θ)) (up : ℕ → Prop)
    (hle : ∀ j, j < n → ∀ θ θ' : Fin 1 → ℝ, θ 0 ≤ θ' 0 → tableProb (table θ) j 1 ≤ tableProb (table θ') j 1)
    (hlt : ∀ j, j < n → up j → ∀ θ θ' : Fin 1 → ℝ, θ 0 < θ' 0 → tableProb (table θ) j 1 < tableProb (table θ') j 1) :
    ∃ dist : ℝ → List ℝ, (∀ θ, conditionalScoreDistribution (table fun _ => θ) (List.replicate n 2) = .ok (dist θ)) ∧
      ScoreOrdersTrait (List.replicate n 2) dist ∧
      ((∃ j, j < n ∧ up j) → ScoreStrictlyOrdersTrait (List.replicate n 2) dist) := by
  refine orders_of_lean _ (by simp; omega) 2 (fun c hc => by rw [List.eq_of_mem_replicate hc]; omega) table ht _ fun θ θ' h => ?_
  obtain ⟨d, d', a, b, c, e⟩ := C119_right_answers n hn 2 (le_refl _) _ _ (ht θ) (ht θ') fun j hj => hle j hj θ θ' h
  exact ⟨d, d', a, b, c, fun ⟨j, hj, hu⟩ hlt' => e ⟨j, hj, hlt j hj hu θ θ' hlt'⟩⟩

/-- C119 for the 1PL model: every additional right answer raises the mean latent score. -/
theorem C119_onePL (m : OnePL) (hwf : m.WF) (hne : 0 < m.items) :
    ∃ dist : ℝ → List ℝ, (∀ θ, conditionalScoreDistribution (m.probs θ) (List.replicate m.items 2) = .ok (dist θ)) ∧
      ScoreStrictlyOrdersTrait (List.replicate m.items 2) dist := by
  obtain ⟨dist, h1, -, h3⟩ := right_orders m.items hne (fun θ => m.probs (θ 0))
    (fun θ => positiveTable_pairs (C01_onePL_distribution m hwf (θ 0))) (fun _ => True) (fun j hj θ θ' h => by
      rcases eq_or_lt_of_le h with h | h
      · rw [h]
      · obtain ⟨q, q', a, b, c⟩ := C03_onePL_increasing m hwf _ _ h j hj
        rw [tableProb_row _ _ _ _ a, tableProb_row _ _ _ _ b]; exact c.le) (fun j hj _ θ θ' h => by
      obtain ⟨q, q', a, b, c⟩ := C03_onePL_increasing m hwf _ _ h j hj
      rw [tableProb_row _ _ _ _ a, tableProb_row _ _ _ _ b]; exact c)
  exact ⟨dist, h1, h3 ⟨0, hne, trivial⟩⟩

example : ∃ dist : ℝ → List ℝ, (∀ θ, conditionalScoreDistribution (exOnePL.probs θ) [2, 2] = .ok (dist θ)) ∧
    traitAtScore [(1/2, -1), (1/2, 1)] dist 1 < traitAtScore [(1/2, -1), (1/2, 1)] dist 2 := by
  obtain ⟨dist, h1, h2⟩ := C119_onePL exOnePL exOnePL_wf (by simp [exOnePL])
  refine ⟨dist, h1, h2 _ (by norm_num) ⟨(1/2, -1), by simp, (1/2, 1), by simp, by norm_num⟩ 1 2 (by norm_num) ?_⟩
  simp [maxPoints, exOnePL]

theorem dot_one (θ : ℝ) (w : List ℝ) : dot (List.ofFn fun _ : Fin 1 => θ) w = θ * w.getD 0 0 := by
  rw [dot_ofFn]; simp

theorem ofFn_single (θ : Fin 1 → ℝ) : List.ofFn θ = [θ 0] := by simp

/-- C119 for the 2PL model with nonnegative slopes. -/
theorem C119_twoPL (m : TwoPL) (hwf : m.WF) (hne : 0 < m.items) (hslope : ∀ j, j < m.items → 0 ≤ slopeOf m.itemParameters j 0) :
    ∃ dist : ℝ → List ℝ, (∀ θ, conditionalScoreDistribution (m.probs [θ]) (List.replicate m.items 2) = .ok (dist θ)) ∧
      ScoreOrdersTrait (List.replicate m.items 2) dist ∧
      ((∃ j, j < m.items ∧ 0 < slopeOf m.itemParameters j 0) → ScoreStrictlyOrdersTrait (List.replicate m.items 2) dist) := by
  have prob : ∀ j, j < m.items → ∃ b, ∀ θ : Fin 1 → ℝ, tableProb (m.probs (List.ofFn θ)) j 1
      = logistic (θ 0 * slopeOf m.itemParameters j 0 + b) := by
    intro j hj
    obtain ⟨w, b, hp⟩ := m.exists_params hwf j hj
    refine ⟨b, fun θ => ?_⟩
    rw [tableProb_row _ _ _ _ (C03_twoPL_formula m hwf _ j w b hp), dot_ofFn, slopeOf_eq _ _ _ _ hp]
    simp
  have h := right_orders m.items hne (fun θ => m.probs (List.ofFn θ))
    (fun θ => positiveTable_pairs (C01_twoPL_distribution m hwf _)) (fun j => 0 < slopeOf m.itemParameters j 0)
    (fun j hj θ θ' h => by
      obtain ⟨b, hb⟩ := prob j hj
      rw [hb, hb]
      exact logistic_strictMono.monotone (by have := mul_le_mul_of_nonneg_right h (hslope j hj); linarith))
    (fun j hj hu θ θ' h => by
      obtain ⟨b, hb⟩ := prob j hj
      rw [hb, hb]
      exact logistic_strictMono (by have := mul_lt_mul_of_pos_right h hu; linarith))
  simpa only [ofFn_single] using h

/-- Two right/wrong items with slopes 1 and 0. -/
noncomputable def exUpTwo : TwoPL := ⟨2, 1, [[true], [true]], [1, 0], [0, 1]⟩

theorem exUpTwo_wf : exUpTwo.WF where
  relLen := rfl
  relRow := by simp [exUpTwo]
  weightLen := by simp [exUpTwo, countTrue]
  biasLen := rfl

theorem exUpTwo_parameters : exUpTwo.itemParameters = [([1], 0), ([0], 1)] := by
  simp [TwoPL.itemParameters, TwoPL.weights, exUpTwo, viewRows, scatterMask]

example : ∃ dist : ℝ → List ℝ, (∀ θ, conditionalScoreDistribution (exUpTwo.probs [θ]) (List.replicate exUpTwo.items 2) = .ok (dist θ)) ∧
    ScoreStrictlyOrdersTrait (List.replicate exUpTwo.items 2) dist := by
  obtain ⟨dist, h1, -, h3⟩ := C119_twoPL exUpTwo exUpTwo_wf (by simp [exUpTwo]) (by
    intro j hj
    have : j < 2 := hj
    interval_cases j <;> simp [slopeOf, exUpTwo_parameters])
  exact ⟨dist, h1, h3 ⟨0, by simp [exUpTwo], by simp [slopeOf, exUpTwo_parameters]⟩⟩

/-- C119 for the 2PL model with any number of latent variables: if the linear predictor of no item falls, the
number of right answers leans towards higher scores. -/
theorem C119_twoPL_traits (m : TwoPL) (hwf : m.WF) (hne : 0 < m.items) (θ θ' : List ℝ)
    (hle : ∀ (j : ℕ) w b, m.itemParameters[j]? = some (w, b) → dot θ w ≤ dot θ' w) :
    ∃ d d', conditionalScoreDistribution (m.probs θ) (List.replicate m.items 2) = .ok d ∧
      conditionalScoreDistribution (m.probs θ') (List.replicate m.items 2) = .ok d' ∧ LeansHigher d d' ∧
      ((∃ (j : ℕ) (w : List ℝ) (b : ℝ), m.itemParameters[j]? = some (w, b) ∧ dot θ w < dot θ' w) → LeansStrictlyHigher d d') := by
  have prob : ∀ (φ : List ℝ) (j : ℕ) w b, m.itemParameters[j]? = some (w, b) → tableProb (m.probs φ) j 1 = logistic (dot φ w + b) :=
    fun φ j w b hp => by rw [tableProb_row _ _ _ _ (C03_twoPL_formula m hwf φ j w b hp)]; rfl
  obtain ⟨d, d', h1, h2, h3, h4⟩ := C119_right_answers m.items hne 2 (le_refl _) (m.probs θ) (m.probs θ')
    (positiveTable_pairs (C01_twoPL_distribution m hwf _)) (positiveTable_pairs (C01_twoPL_distribution m hwf _)) (fun j hj => by
      obtain ⟨w, b, hp⟩ := m.exists_params hwf j hj
      rw [prob _ _ _ _ hp, prob _ _ _ _ hp]
      exact logistic_strictMono.monotone (by have := hle j w b hp; linarith))
  refine ⟨d, d', h1, h2, h3, fun ⟨j, w, b, hp, hlt⟩ => h4 ⟨j, ?_, ?_⟩⟩
  · by_contra hj
    have := (C03_twoPL_formula m hwf θ j w b hp)
    have := lt_of_getElem?_some this
    rw [(C01_twoPL_distribution m hwf θ).1] at this
    exact hj this
  · rw [prob _ _ _ _ hp, prob _ _ _ _ hp]
    exact logistic_strictMono (by linarith)

example : ∃ d d', conditionalScoreDistribution (exCompensate.probs [0, 0]) [2, 2] = .ok d ∧
    conditionalScoreDistribution (exCompensate.probs [0, 1]) [2, 2] = .ok d' ∧ LeansStrictlyHigher d d' := by
  obtain ⟨d, d', h1, h2, -, h4⟩ := C119_twoPL_traits exCompensate exCompensate_wf (by simp [exCompensate]) [0, 0] [0, 1] (by
    intro j w b hp
    rw [exCompensate_parameters] at hp
    have hj : j < 2 := lt_of_getElem?_some hp
    interval_cases j <;> simp at hp <;> obtain ⟨rfl, rfl⟩ := hp <;> simp [dot])
  exact ⟨d, d', h1, h2, h4 ⟨0, [1, 1], 0, by simp [exCompensate_parameters], by simp [dot]⟩⟩

/-- C119 for the 3PL model with nonnegative slopes. -/
theorem C119_threePL (m : ThreePL) (hwf : m.WF) (hne : 0 < m.items)
    (hslope : ∀ j, j < m.items → 0 ≤ slopeOf m.itemParameters j 0) :
    ∃ dist : ℝ → List ℝ, (∀ θ, conditionalScoreDistribution (m.probs [θ]) (List.replicate m.items 2) = .ok (dist θ)) ∧
      ScoreOrdersTrait (List.replicate m.items 2) dist ∧
      ((∃ j, j < m.items ∧ 0 < slopeOf m.itemParameters j 0) → ScoreStrictlyOrdersTrait (List.replicate m.items 2) dist) := by
  have h := right_orders m.items hne (fun θ => m.probs (List.ofFn θ))
    (fun θ => positiveTable_pairs ⟨m.length_probs hwf _, fun j hj => by
      obtain ⟨w, b, c, hp⟩ := m.exists_params hwf j hj
      obtain ⟨h0, -, q, hq, h1, h2⟩ := C03_threePL_bounds m (List.ofFn θ) j w b c hp
      exact ⟨_, hq, pair_isDistribution q (h0.trans h1) h2⟩⟩) (fun j => 0 < slopeOf m.itemParameters j 0)
    (fun j hj θ θ' h => by
      obtain ⟨b, g, h0, h1, hb⟩ := m.success hwf j hj
      rw [(hb θ).1, (hb θ').1]
      have := logistic_strictMono.monotone (by have := mul_le_mul_of_nonneg_right h (hslope j hj); linarith :
        θ 0 * slopeOf m.itemParameters j 0 + b ≤ θ' 0 * slopeOf m.itemParameters j 0 + b)
      have := mul_le_mul_of_nonneg_left this (sub_pos.2 h1).le
      linarith)
    (fun j hj hu θ θ' h => by
      obtain ⟨b, g, h0, h1, hb⟩ := m.success hwf j hj
      rw [(hb θ).1, (hb θ').1]
      have := logistic_strictMono (by have := mul_lt_mul_of_pos_right h hu; linarith :
        θ 0 * slopeOf m.itemParameters j 0 + b < θ' 0 * slopeOf m.itemParameters j 0 + b)
      have := mul_lt_mul_of_pos_left this (sub_pos.2 h1)
      linarith)
  simpa only [ofFn_single] using h

/-- Two items with guessing and slopes 1 and 0. -/
noncomputable def exUpThree : ThreePL := ⟨2, 1, [[true], [true]], [1, 0], [0, 1], [-1, 0]⟩

theorem exUpThree_wf : exUpThree.WF where
  relLen := rfl
  relRow := by simp [exUpThree]
  weightLen := by simp [exUpThree, countTrue]
  biasLen := rfl
  guessLen := rfl

example : ∃ dist : ℝ → List ℝ, (∀ θ, conditionalScoreDistribution (exUpThree.probs [θ]) (List.replicate exUpThree.items 2) = .ok (dist θ)) ∧
    ScoreStrictlyOrdersTrait (List.replicate exUpThree.items 2) dist := by
  have h0 : slopeOf exUpThree.itemParameters 0 0 = 1 ∧ slopeOf exUpThree.itemParameters 1 0 = 0 := by
    simp [slopeOf, ThreePL.itemParameters, ThreePL.weights, exUpThree, viewRows, scatterMask]
  obtain ⟨dist, h1, -, h3⟩ := C119_threePL exUpThree exUpThree_wf (by simp [exUpThree]) (by
    intro j hj
    have : j < 2 := hj
    interval_cases j <;> simp [h0])
  exact ⟨dist, h1, h3 ⟨0, by simp [exUpThree], by simp [h0]⟩⟩

/-- C119 for the generalized partial credit model: with nonnegative slopes respondents with a higher latent score
have stochastically more points; with a common slope, more points mean a higher mean latent score. -/
theorem C119_gpc_partial (m : GPC) (hwf : m.WF) (hne : m.cats ≠ []) (hslope : ∀ j, j < m.cats.length → 0 ≤ slopeOf m.itemParameters j 0) :
    (∀ θ θ' : ℝ, θ ≤ θ' → ∃ d d', conditionalScoreDistribution (m.probs [θ]) m.cats = .ok d ∧
      conditionalScoreDistribution (m.probs [θ']) m.cats = .ok d' ∧ ScoresHigher d d') ∧
    ∀ a, 0 < a → (∀ j, j < m.cats.length → slopeOf m.itemParameters j 0 = a) →
      ∃ dist : ℝ → List ℝ, (∀ θ, conditionalScoreDistribution (m.probs [θ]) m.cats = .ok (dist θ)) ∧
        ScoreStrictlyOrdersTrait m.cats dist := by
  have hM : ∀ c ∈ m.cats, 1 ≤ c ∧ c ≤ m.M := fun c hc => ⟨hwf.catsPos c hc, le_maxCats _ _ hc⟩
  have hT : ∀ θ : Fin 1 → ℝ, PositiveTable m.cats m.M (m.probs (List.ofFn θ)) := fun θ => positiveTable_of (C01_gpc_distribution m hwf _)
  constructor
  · intro θ θ' hle
    have := C119_ranked_points m.cats hne m.M hM (fun θ => m.probs (List.ofFn θ)) (fun θ => (hT θ).1)
      (fun j c hc => ((m.logitModel hwf 1).ranked j c hc (hwf.catsPos c (List.mem_of_getElem? hc))).1 fun r r' h _ =>
        mul_le_mul_of_nonneg_right (by exact_mod_cast h) (hslope j (lt_of_getElem?_some hc))) (fun _ => θ) (fun _ => θ') hle
    simpa only [ofFn_single] using this
  · intro a ha hs
    have hlm : LogitModel m.cats (fun θ : Fin 1 → ℝ => tableProb (m.probs (List.ofFn θ))) (fun _ r _ => a * r)
        (fun j r => ((m.itemParameters[j]?).map fun p => p.2.getD r 0).getD 0) := by
      intro θ j c r hc hr
      rw [m.logitModel hwf 1 θ j c r hc hr]
      simp only [univ_unique, Fin.default_eq_zero, Fin.isValue, sum_singleton, Fin.val_zero, hs j (lt_of_getElem?_some hc), mul_comm a]
    obtain ⟨dist, h1, -, h3⟩ := orders_of_lean m.cats hne m.M hM _ hT True fun θ θ' hle => by
      obtain ⟨d, d', e1, e2, e3, e4⟩ := C119_common_slope m.cats hne m.M hM _ hT a ha.le _ hlm θ θ' hle
      exact ⟨d, d', e1, e2, e3, fun _ => e4 ha⟩
    refine ⟨dist, ?_, h3 trivial⟩
    simpa only [ofFn_single] using h1

theorem exScore_parameters : exScore.itemParameters = [([1], [0, 0]), ([1], [0, 0])] := by
  simp [GPC.itemParameters, GPC.weights, GPC.biases, GPC.M, exScore, maxCats, viewRows, scatterMask, freeMask, freeRow,
    List.range_succ]

example : ∃ dist : ℝ → List ℝ, (∀ θ, conditionalScoreDistribution (exScore.probs [θ]) exScore.cats = .ok (dist θ)) ∧
    ScoreStrictlyOrdersTrait exScore.cats dist := by
  have hs : ∀ j, j < exScore.cats.length → slopeOf exScore.itemParameters j 0 = 1 := by
    intro j hj
    have : j < 2 := hj
    interval_cases j <;> simp [slopeOf, exScore_parameters]
  exact (C119_gpc_partial exScore exScore_wf (by simp [exScore]) fun j hj => by rw [hs j hj]; norm_num).2 1 one_pos hs

/-- C119 in full for the generalized partial credit model: whenever no slope is negative, more points mean a mean
latent score that is not lower. -/
def C119_gpc_trait : Prop :=
  ∀ m : GPC, m.WF → m.cats ≠ [] → (∀ j, j < m.cats.length → 0 ≤ slopeOf m.itemParameters j 0) → ∀ dist : ℝ → List ℝ,
    (∀ θ, conditionalScoreDistribution (m.probs [θ]) m.cats = .ok (dist θ)) → ScoreOrdersTrait m.cats dist

/-- An item with an unpopular middle category and slope `log 2`, and a right/wrong item with slope `log 8`. -/
noncomputable def exPolar : GPC :=
  ⟨1, [3, 2], [[true], [true]], [Real.log 2, Real.log 8], [-Real.log 4, 0, 0]⟩

theorem exPolar_wf : exPolar.WF where
  catsPos := by simp [exPolar]
  relLen := rfl
  relRow := by simp [exPolar]
  weightLen := by simp [exPolar, countTrue]
  biasLen := by simp [exPolar]

theorem exPolar_parameters : exPolar.itemParameters = [([Real.log 2], [0, -Real.log 4, 0]), ([Real.log 8], [0, 0, 0])] := by
  simp [GPC.itemParameters, GPC.weights, GPC.biases, GPC.M, exPolar, maxCats, viewRows, scatterMask, freeMask, freeRow,
    List.range_succ]

theorem exPolar_zero : exPolar.probs [0] = [[4/9, 1/9, 4/9], [1/2, 1/2, 0]] := by
  simp [GPC.probs, GPC.forwardRow, GPC.weights, GPC.biases, GPC.M, exPolar, maxCats, viewRows, scatterMask, freeMask, freeRow,
    List.range_succ, probabilitiesFromOutput, softmax, maskFill, missingMask, firstMask, missingRow, firstRow, tile, repeatInterleave, dot, Logit.exp,
    Real.exp_neg, Real.exp_log]
  norm_num

theorem exPolar_one : exPolar.probs [1] = [[2/11, 1/11, 8/11], [1/9, 8/9, 0]] := by
  have e : Real.exp (Real.log 2 * 2) = 4 := by rw [mul_two, Real.exp_add, Real.exp_log (by norm_num)]; norm_num
  simp [e, GPC.probs, GPC.forwardRow, GPC.weights, GPC.biases, GPC.M, exPolar, maxCats, viewRows, scatterMask, freeMask, freeRow,
    List.range_succ, probabilitiesFromOutput, softmax, maskFill, missingMask, firstMask, missingRow, firstRow, tile, repeatInterleave, dot, Logit.exp,
    Real.exp_neg, Real.exp_log, Real.exp_add]
  norm_num

/-- More points can come with a lower mean latent score. -/
theorem C119_gpc_trait_false : ¬ C119_gpc_trait := by
  intro h
  have hlog2 := Real.log_nonneg (by norm_num : (1:ℝ) ≤ 2)
  have hlog8 := Real.log_nonneg (by norm_num : (1:ℝ) ≤ 8)
  have hslope : ∀ j, j < exPolar.cats.length → 0 ≤ slopeOf exPolar.itemParameters j 0 := by
    intro j hj
    have : j < 2 := hj
    interval_cases j <;> simpa [slopeOf, exPolar_parameters]
  have hd := fun θ : ℝ => score_dist exPolar.cats (by simp [exPolar]) exPolar.M
    (fun c hc => ⟨exPolar_wf.catsPos c hc, le_maxCats _ _ hc⟩) _ (positiveTable_of (C01_gpc_distribution exPolar exPolar_wf [θ])).1
  choose dist h1 _ _ _ _ using hd
  have h0 : dist 0 = [4/18, 5/18, 5/18, 4/18] := by
    have := h1 0
    rw [exPolar_zero] at this
    rw [← Except.ok.inj this]
    simp [conditionalScoreDistribution, scoreLoop, scoreStep, addSlice, List.range_succ, exPolar]
    norm_num
  have h1' : dist 1 = [2/99, 17/99, 16/99, 64/99] := by
    have := h1 1
    rw [exPolar_one] at this
    rw [← Except.ok.inj this]
    simp [conditionalScoreDistribution, scoreLoop, scoreStep, addSlice, List.range_succ, exPolar]
    norm_num
  have := h exPolar exPolar_wf (by simp [exPolar]) hslope dist h1 [(1, 0), (1, 1)] (by norm_num) ⟨(1, 0), by simp, one_pos⟩ 1 2
    (by norm_num) (by simp [maxPoints, exPolar])
  simp only [traitAtScore, List.map_cons, List.map_nil, List.sum_cons, List.sum_nil, h0, h1'] at this
  norm_num at this

/-- C119 for the nominal response model, when the slopes of the categories of each item do not fall. -/
theorem C119_nrm_points (m : NRM) (hwf : m.WF) (hne : m.cats ≠ [])
    (hslope : ∀ j c r r', m.cats[j]? = some c → r ≤ r' → r' < c →
      categorySlopeOf m.itemParameters j r 0 ≤ categorySlopeOf m.itemParameters j r' 0) (θ θ' : ℝ) (hle : θ ≤ θ') :
    ∃ d d', conditionalScoreDistribution (m.probs [θ]) m.cats = .ok d ∧
      conditionalScoreDistribution (m.probs [θ']) m.cats = .ok d' ∧ ScoresHigher d d' := by
  have := C119_ranked_points m.cats hne m.M (fun c hc => ⟨hwf.catsPos c hc, le_maxCats _ _ hc⟩) (fun θ => m.probs (List.ofFn θ))
    (fun θ => (positiveTable_of (C01_nrm_distribution m hwf _)).1)
    (fun j c hc => ((m.logitModel 1).ranked j c hc (hwf.catsPos c (List.mem_of_getElem? hc))).1 fun r r' h hr' =>
      hslope j c r r' hc h hr') (fun _ => θ) (fun _ => θ') hle
  simpa only [ofFn_single] using this

/-- Category slopes -3, 1, 2 and -3, 3. -/
noncomputable def exUpNRM : NRM := ⟨1, [3, 2], [[true], [true]], [1, 2, 3], [0, 1, 2]⟩

theorem exUpNRM_wf : exUpNRM.WF where
  catsPos := by simp [exUpNRM]
  relLen := rfl
  relRow := by simp [exUpNRM]
  weightLen := by
    simp [exUpNRM, countTrue, NRM.freeWeights, NRM.M, maxCats, nrmFreeRows, freeRow, List.range_succ]
  biasLen := by simp [exUpNRM]

example : ∃ d d', conditionalScoreDistribution (exUpNRM.probs [0]) [3, 2] = .ok d ∧
    conditionalScoreDistribution (exUpNRM.probs [1]) [3, 2] = .ok d' ∧ ScoresHigher d d' := by
  refine C119_nrm_points exUpNRM exUpNRM_wf (by simp [exUpNRM]) ?_ 0 1 (by norm_num)
  intro j c r r' hc hr hr'
  have hj : j < 2 := lt_of_getElem?_some hc
  interval_cases j <;> simp [exUpNRM] at hc <;> subst hc <;> interval_cases r' <;> interval_cases r <;>
    simp [categorySlopeOf, NRM.itemParameters, NRM.weights, NRM.biases, freeMask, sumRows, NRM.freeWeights, NRM.M, nrmFreeRows, exUpNRM, maxCats, viewRows,
      scatterMask, freeRow, List.range_succ] <;> norm_num

/-- C119 for the graded response model with ordered intercepts and nonnegative slopes. -/
theorem C119_grm_points (m : GRM) (hwf : m.WF) (hord : m.Ordered) (hne : m.cats ≠ [])
    (hslope : ∀ j, j < m.cats.length → 0 ≤ slopeOf m.itemParameters j 0) (θ θ' : ℝ) (hle : θ ≤ θ') :
    ∃ d d', conditionalScoreDistribution (m.probs [θ]) m.cats = .ok d ∧
      conditionalScoreDistribution (m.probs [θ']) m.cats = .ok d' ∧ ScoresHigher d d' := by
  have := C119_ranked_points m.cats hne m.M (fun c hc => ⟨hwf.catsPos c hc, le_maxCats _ _ hc⟩) (fun θ => m.probs (List.ofFn θ))
    (fun θ => ⟨by simp [GRM.probs, length_viewRows], fun j p c hp hc => by
      obtain ⟨w, dl, hpar, hl⟩ := m.exists_params j (lt_of_getElem?_some hc)
      obtain ⟨q, hq, hdist⟩ := C04_grm_distribution_partial m hwf (List.ofFn θ) j c w dl (fun k => dl.getD (k - 1) 0) hc hpar (by
          intro k hk
          obtain ⟨x, hx⟩ := getElem?_of_lt dl k (by omega)
          simp [List.getD_eq_getElem?_getD, hx]) (by
          intro k hk hkc
          have := hord j c w dl hc hpar (k - 1) (by omega)
          rw [show k - 1 + 1 = k by omega] at this
          simpa using this.le)
      rw [hp] at hq
      rw [Option.some.inj hq]
      exact hdist⟩)
    (fun j c hc => (m.ranked hwf hord j c hc).1 (hslope j (lt_of_getElem?_some hc))) (fun _ => θ) (fun _ => θ') hle
  simpa only [ofFn_single] using this

example : ∃ d d', conditionalScoreDistribution (exGraded.probs [0]) exGraded.cats = .ok d ∧
    conditionalScoreDistribution (exGraded.probs [1]) exGraded.cats = .ok d' ∧ ScoresHigher d d' :=
  C119_grm_points exGraded exGraded_wf exGraded_ordered (by simp [exGraded]) (by
    intro j hj
    have : j < 2 := hj
    interval_cases j <;> simp [slopeOf, exGraded_parameters]) 0 1 (by norm_num)

/-- C119 for the monotone polynomial model without negative relationships, any number of latent variables. -/
theorem C119_polynomial_points (m : MonoPolyModel) (hwf : m.WF) (hne : m.cats ≠ []) (hpos : m.directions = none) (theta theta' : ℕ → ℝ)
    (hle : ∀ i, i < m.lv → theta i ≤ theta' i) :
    ∃ d d', conditionalScoreDistribution (m.probs theta) m.cats = .ok d ∧
      conditionalScoreDistribution (m.probs theta') m.cats = .ok d' ∧ ScoresHigher d d' :=
  C119_more_points m.cats hne m.M (fun c hc => ⟨hwf.catsPos c hc, le_maxCats _ _ hc⟩) _ _
    (positiveTable_of (C01_monotone_polynomial m hwf _)).1 (positiveTable_of (C01_monotone_polynomial m hwf _)).1
    fun j p p' hp hp' => C13_polynomial m hwf hpos theta theta' hle j p p' hp hp'

example : ∃ d d', conditionalScoreDistribution ((exMonoPoly false).probs fun _ => 0) [3, 2] = .ok d ∧
    conditionalScoreDistribution ((exMonoPoly false).probs fun i => i) [3, 2] = .ok d' ∧ ScoresHigher d d' :=
  C119_polynomial_points (exMonoPoly false) (exMonoPoly_wf false) (by simp [exMonoPoly]) rfl _ _ fun i _ => by simp

/-- C119 for the monotone B-spline model, any number of latent variables. -/
theorem C119_bspline_points (m : MonoBSpline) (hwf : m.WF) (hne : m.cats ≠ []) (interior : List ℝ) (degree : ℕ)
    (hnb : m.nb = splineBases interior degree) (hs : interior.Pairwise (· ≤ ·)) (theta theta' : ℕ → ℝ)
    (hle : ∀ l, l < m.lv → theta l ≤ theta' l) (t t' : List (List ℝ))
    (ht : m.probs (splineBasis interior degree theta) = .ok t) (ht' : m.probs (splineBasis interior degree theta') = .ok t') :
    ∃ d d', conditionalScoreDistribution t m.cats = .ok d ∧ conditionalScoreDistribution t' m.cats = .ok d' ∧
      ScoresHigher d d' :=
  C119_more_points m.cats hne m.M (fun c hc => ⟨hwf.catsPos c hc, le_maxCats _ _ hc⟩) _ _
    (positiveTable_of (C01_monotone_bspline m hwf _ t ht)).1 (positiveTable_of (C01_monotone_bspline m hwf _ t' ht')).1
    fun j p p' hp hp' => C13_bspline m hwf interior degree hnb hs theta theta' hle t t' ht ht' j p p' hp hp'

example : ∃ t t' d d', exMonoBSpline.probs (splineBasis [] 2 fun _ => 1/4) = .ok t ∧
    exMonoBSpline.probs (splineBasis [] 2 fun _ => 3/4) = .ok t' ∧ conditionalScoreDistribution t [3, 2] = .ok d ∧
    conditionalScoreDistribution t' [3, 2] = .ok d' ∧ ScoresHigher d d' := by
  have run : ∀ B, ∃ t, exMonoBSpline.probs B = .ok t := by
    intro B
    unfold MonoBSpline.probs MonoBSpline.forwardRow
    rw [if_neg (by simp [exMonoBSpline])]
    exact ⟨_, rfl⟩
  obtain ⟨t, ht⟩ := run (splineBasis [] 2 fun _ => 1/4)
  obtain ⟨t', ht'⟩ := run (splineBasis [] 2 fun _ => 3/4)
  obtain ⟨d, d', h⟩ := C119_bspline_points exMonoBSpline exMonoBSpline_wf (by simp [exMonoBSpline]) [] 2
    (by rw [splineBases_eq]; rfl) List.Pairwise.nil _ _ (fun _ _ => by norm_num) t t' ht ht'
  exact ⟨t, t', d, d', ht, ht', h⟩

/-- C119 for the monotone network without negative relationships and without an answer key. -/
theorem C119_nn_points {lv : ℕ} {cats : List ℕ} {hidden : Option (List ℕ)} {rel : Option (List (List Bool))} {sep : Separate}
    {bounded : Bool} {m0 m : MonoNN} (h : MonoNN.init lv cats hidden none rel sep false bounded = .ok m0)
    (ht : m0.Trained m) (hne : cats ≠ []) (hcats : ∀ c ∈ cats, 0 < c) (ov : ℝ) (hov : 0 ≤ ov) (theta theta' : ℕ → ℝ)
    (hle : ∀ d, d < lv → theta d ≤ theta' d) :
    ∃ d d', conditionalScoreDistribution (m.probs ov theta) cats = .ok d ∧
      conditionalScoreDistribution (m.probs ov theta') cats = .ok d' ∧ ScoresHigher d d' :=
  C119_more_points cats hne (maxCats cats) (fun c hc => ⟨hcats c hc, le_maxCats _ _ hc⟩) _ _
    (positiveTable_of (C01_monotone_nn h ht hcats (by intro k hk; simp at hk) ov hov _)).1
    (positiveTable_of (C01_monotone_nn h ht hcats (by intro k hk; simp at hk) ov hov _)).1
    fun j p p' hp hp' => C13_nn h ht hcats ov hov theta theta' hle j p p' hp hp'

example : ∃ m0, MonoNN.init 2 [3, 2] (some [6]) none (some [[true, false], [true, true]]) .items false true = .ok m0 ∧
    ∃ d d', conditionalScoreDistribution (m0.probs 1 fun _ => 0) [3, 2] = .ok d ∧
      conditionalScoreDistribution (m0.probs 1 fun i => i) [3, 2] = .ok d' ∧ ScoresHigher d d' := by
  obtain ⟨m0, h⟩ : ∃ m0, MonoNN.init 2 [3, 2] (some [6]) none (some [[true, false], [true, true]]) .items false true = .ok m0 :=
    ⟨_, rfl⟩
  exact ⟨m0, h, C119_nn_points h (MonoNN.trained_refl _) (by simp) (by simp) 1 (by norm_num) _ _ fun d _ => by simp⟩

/-- C119 for the 1PL, 2PL and 3PL model: respondents with a higher latent score have stochastically more right
answers. -/
theorem C119_onePL_points (m : OnePL) (hwf : m.WF) (hne : 0 < m.items) (θ θ' : ℝ) (hle : θ ≤ θ') :
    ∃ d d', conditionalScoreDistribution (m.probs θ) (List.replicate m.items 2) = .ok d ∧
      conditionalScoreDistribution (m.probs θ') (List.replicate m.items 2) = .ok d' ∧ ScoresHigher d d' :=
  C119_ranked_points (List.replicate m.items 2) (by simp; omega) 2 (fun c hc => by rw [List.eq_of_mem_replicate hc]; omega)
    (fun θ => m.probs (θ 0)) (fun θ => (positiveTable_pairs (C01_onePL_distribution m hwf (θ 0))).1)
    (fun j c hc => ((m.logitModel hwf).ranked j c hc (replicate_pos _ c (List.mem_of_getElem? hc))).1 fun r r' h _ => by
      exact_mod_cast h) (fun _ => θ) (fun _ => θ') hle

theorem C119_twoPL_points (m : TwoPL) (hwf : m.WF) (hne : 0 < m.items)
    (hslope : ∀ j, j < m.items → 0 ≤ slopeOf m.itemParameters j 0) (θ θ' : ℝ) (hle : θ ≤ θ') :
    ∃ d d', conditionalScoreDistribution (m.probs [θ]) (List.replicate m.items 2) = .ok d ∧
      conditionalScoreDistribution (m.probs [θ']) (List.replicate m.items 2) = .ok d' ∧ ScoresHigher d d' := by
  have := C119_ranked_points (List.replicate m.items 2) (by simp; omega) 2 (fun c hc => by rw [List.eq_of_mem_replicate hc]; omega)
    (fun θ => m.probs (List.ofFn θ)) (fun θ => (positiveTable_pairs (C01_twoPL_distribution m hwf _)).1)
    (fun j c hc => ((m.logitModel hwf 1).ranked j c hc (replicate_pos _ c (List.mem_of_getElem? hc))).1 fun r r' h _ =>
      mul_le_mul_of_nonneg_right (by exact_mod_cast h) (hslope j (replicate_getElem? _ _ _ _ hc).1))
    (fun _ => θ) (fun _ => θ') hle
  simpa only [ofFn_single] using this

theorem C119_threePL_points (m : ThreePL) (hwf : m.WF) (hne : 0 < m.items)
    (hslope : ∀ j, j < m.items → 0 ≤ slopeOf m.itemParameters j 0) (θ θ' : ℝ) (hle : θ ≤ θ') :
    ∃ d d', conditionalScoreDistribution (m.probs [θ]) (List.replicate m.items 2) = .ok d ∧
      conditionalScoreDistribution (m.probs [θ']) (List.replicate m.items 2) = .ok d' ∧ ScoresHigher d d' := by
  have := C119_ranked_points (List.replicate m.items 2) (by simp; omega) 2 (fun c hc => by rw [List.eq_of_mem_replicate hc]; omega)
    (fun θ => m.probs (List.ofFn θ)) (fun θ => (positiveTable_pairs ⟨m.length_probs hwf _, fun j hj => by
      obtain ⟨w, b, c, hp⟩ := m.exists_params hwf j hj
      obtain ⟨h0, -, q, hq, h1, h2⟩ := C03_threePL_bounds m (List.ofFn θ) j w b c hp
      exact ⟨_, hq, pair_isDistribution q (h0.trans h1) h2⟩⟩).1)
    (fun j c hc => by
      obtain ⟨hj, rfl⟩ := replicate_getElem? _ _ _ _ hc
      exact (m.ranked hwf j hj).1 (hslope j hj)) (fun _ => θ) (fun _ => θ') hle
  simpa only [ofFn_single] using this

example : ∃ d d', conditionalScoreDistribution (exUpTwo.probs [0]) [2, 2] = .ok d ∧
    conditionalScoreDistribution (exUpTwo.probs [1]) [2, 2] = .ok d' ∧ ScoresHigher d d' :=
  C119_twoPL_points exUpTwo exUpTwo_wf (by simp [exUpTwo]) (by
    intro j hj
    have : j < 2 := hj
    interval_cases j <;> simp [slopeOf, exUpTwo_parameters]) 0 1 (by norm_num)

end Irt
