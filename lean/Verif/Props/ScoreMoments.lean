import Verif.Spec.ScoreMoments
import Verif.Props.Fisher
import Verif.Props.Objectivity
import Verif.Props.Monotone
import Verif.Props.Directions
import Verif.Props.Sampling
import Verif.Lemmas.ScoreEquations

/-! # C147: expected scores, score distributions, difficulties and information agree -/

namespace Irt

open Finset Spec

/-! ## Mean and variance of the sum of independent item scores -/

/-- Mean of the first `c` entries. -/
noncomputable def headMean (c : ℕ) (p : List ℝ) : ℝ := ∑ k ∈ range c, (k : ℝ) * p.getD k 0

/-- Variance of the first `c` entries. -/
noncomputable def headVariance (c : ℕ) (p : List ℝ) : ℝ := ∑ k ∈ range c, ((k : ℝ) - headMean c p) ^ 2 * p.getD k 0

theorem genPoly_moments (cs : List ℕ) : ∀ ps : List (List ℝ), ps.length = cs.length →
    (∀ (j : ℕ) p c, ps[j]? = some p → cs[j]? = some c → ∑ k ∈ range c, p.getD k 0 = 1) →
    (∀ a : ℝ, polyMean (fun s => (s : ℝ) - a) (genPoly ps cs) = (List.zipWith headMean cs ps).sum - a) ∧
    ∀ a : ℝ, polyMean (fun s => ((s : ℝ) - a) ^ 2) (genPoly ps cs)
      = (List.zipWith headVariance cs ps).sum + ((List.zipWith headMean cs ps).sum - a) ^ 2 := by
  induction cs with
  | nil =>
    intro ps h _
    obtain rfl := List.length_eq_zero_iff.1 h
    have e : ∀ h : ℕ → ℝ, polyMean h (genPoly [] []) = h 0 := by
      intro h
      have : genPoly [] [] = Polynomial.monomial 0 1 := by simp [genPoly]
      rw [this, polyMean_monomial, mul_one]
    constructor <;> intro a <;> rw [e] <;> simp
  | cons c cs ih =>
    intro ps h hsum
    match ps, h with
    | p :: ps, h =>
      obtain ⟨i1, i2⟩ := ih ps (by simpa using h) fun j p' c' hp hc => hsum (j + 1) p' c' hp hc
      have h1 := hsum 0 p c rfl rfl
      have e : genPoly (p :: ps) (c :: cs) = rowPoly (fun k => p.getD k 0) c * genPoly ps cs := by simp [genPoly]
      have hm0 : ∑ k ∈ range c, p.getD k 0 * ((k : ℝ) - headMean c p) = 0 := by
        simp only [mul_sub]
        rw [sum_sub_distrib, ← sum_mul, h1, one_mul, headMean]
        rw [sub_eq_zero]
        exact sum_congr rfl fun k _ => mul_comm _ _
      constructor
      · intro a
        rw [e, polyMean_row]
        have e2 : ∀ k : ℕ, (fun s : ℕ => ((k + s : ℕ) : ℝ) - a) = fun s : ℕ => (s : ℝ) - (a - k) := by
          intro k; funext s; push_cast; ring
        simp only [e2, i1, List.zipWith_cons_cons, List.sum_cons]
        set m := (List.zipWith headMean cs ps).sum
        have e3 : ∀ k ∈ range c, p.getD k 0 * (m - (a - k))
            = p.getD k 0 * ((k : ℝ) - headMean c p) + p.getD k 0 * (headMean c p + m - a) := fun k _ => by ring
        rw [sum_congr rfl e3, sum_add_distrib, hm0, ← sum_mul, h1]
        ring
      · intro a
        rw [e, polyMean_row]
        have e2 : ∀ k : ℕ, (fun s : ℕ => (((k + s : ℕ) : ℝ) - a) ^ 2) = fun s : ℕ => ((s : ℝ) - (a - k)) ^ 2 := by
          intro k; funext s; push_cast; ring
        simp only [e2, i2, List.zipWith_cons_cons, List.sum_cons]
        set m := (List.zipWith headMean cs ps).sum
        set v := (List.zipWith headVariance cs ps).sum
        have e3 : ∀ k ∈ range c, p.getD k 0 * (v + (m - (a - k)) ^ 2)
            = p.getD k 0 * (v + (headMean c p + m - a) ^ 2) + ((k : ℝ) - headMean c p) ^ 2 * p.getD k 0
              + 2 * (headMean c p + m - a) * (p.getD k 0 * ((k : ℝ) - headMean c p)) := fun k _ => by ring
        rw [sum_congr rfl e3, sum_add_distrib, sum_add_distrib, ← mul_sum, hm0, ← sum_mul, h1, headVariance]
        ring

theorem head_sum {c M : ℕ} (hc : c ≤ M) {p : List ℝ} (h : IsDistribution c M p) (f : ℕ → ℝ) :
    ∑ k ∈ range c, f k * p.getD k 0 = ∑ k ∈ range p.length, f k * p.getD k 0 := by
  rw [h.length]
  refine sum_subset (range_mono hc) fun k hk hk' => ?_
  rw [mem_range] at hk hk'
  rw [List.getD_eq_getElem?_getD, h.missing k (by omega) hk, Option.getD_some, mul_zero]

/-- The score distribution sums to one, and has the sum of the means and of the variances of the items. -/
theorem score_moments (cats : List ℕ) (hcats : cats ≠ []) (M : ℕ) (hM : ∀ c ∈ cats, 1 ≤ c ∧ c ≤ M) (t : List (List ℝ))
    (ht : IsTable cats M t) :
    ∃ d, conditionalScoreDistribution t cats = .ok d ∧ meanScore d = (t.map meanScore).sum ∧
      scoreVariance d = (t.map scoreVariance).sum := by
  obtain ⟨d, h1, h2, h3, -, -⟩ := score_dist cats hcats M hM t ht
  have hone : ∀ (j : ℕ) p c, t[j]? = some p → cats[j]? = some c → ∑ k ∈ range c, p.getD k 0 = 1 := by
    intro j p c hp hc
    have hd := ht.2 j p c hp hc
    have e := head_sum (hM c (List.mem_of_getElem? hc)).2 hd fun _ => 1
    simp only [one_mul] at e
    rw [e, ← hd.sum_one]
    conv_rhs => rw [eq_range_map p, list_sum_range]
  obtain ⟨m1, m2⟩ := genPoly_moments cats t ht.1 hone
  have hmean : List.zipWith headMean cats t = t.map meanScore := by
    refine List.ext_getElem? fun j => ?_
    rw [List.getElem?_zipWith, List.getElem?_map]
    by_cases hj : j < t.length
    · obtain ⟨p, hp⟩ := getElem?_of_lt t j hj
      obtain ⟨c, hc⟩ := getElem?_of_lt cats j (by rw [← ht.1]; exact hj)
      simp only [hp, hc, Option.map_some, Option.some.injEq]
      exact head_sum (hM c (List.mem_of_getElem? hc)).2 (ht.2 j p c hp hc) fun k => (k : ℝ)
    · rw [List.getElem?_eq_none (l := t) (by omega), List.getElem?_eq_none (l := cats) (by rw [← ht.1]; omega)]; rfl
  have hvar : List.zipWith headVariance cats t = t.map scoreVariance := by
    refine List.ext_getElem? fun j => ?_
    rw [List.getElem?_zipWith, List.getElem?_map]
    by_cases hj : j < t.length
    · obtain ⟨p, hp⟩ := getElem?_of_lt t j hj
      obtain ⟨c, hc⟩ := getElem?_of_lt cats j (by rw [← ht.1]; exact hj)
      simp only [hp, hc, Option.map_some, Option.some.injEq]
      have e : headMean c p = meanScore p := head_sum (hM c (List.mem_of_getElem? hc)).2 (ht.2 j p c hp hc) fun k => (k : ℝ)
      unfold headVariance scoreVariance
      rw [e]
      exact head_sum (hM c (List.mem_of_getElem? hc)).2 (ht.2 j p c hp hc) fun k => ((k : ℝ) - meanScore p) ^ 2
    · rw [List.getElem?_eq_none (l := t) (by omega), List.getElem?_eq_none (l := cats) (by rw [← ht.1]; omega)]; rfl
  have hbound : ∀ s, d.length ≤ s → (genPoly t cats).coeff s = 0 := by
    intro s hs
    rw [← h3 s, List.getD_eq_default _ _ hs]
  have hm : meanScore d = (t.map meanScore).sum := by
    have := m1 0
    rw [polyMean_range _ _ d.length hbound, hmean, sub_zero] at this
    rw [← this]
    exact sum_congr rfl fun k _ => by rw [h3, sub_zero]
  refine ⟨d, h1, hm, ?_⟩
  have := m2 (meanScore d)
  rw [polyMean_range _ _ d.length hbound, hmean, hvar, ← hm, sub_self] at this
  rw [zero_pow two_ne_zero, add_zero] at this
  rw [← this]
  exact sum_congr rfl fun k _ => by rw [h3]

theorem table_lengths {cats : List ℕ} {M : ℕ} {t : List (List ℝ)} (ht : IsTable cats M t) : ∀ p ∈ t, p.length = M := by
  intro p hp
  obtain ⟨j, hj⟩ := List.mem_iff_getElem?.1 hp
  obtain ⟨c, hc⟩ := getElem?_of_lt cats j (by rw [← ht.1]; exact lt_of_getElem?_some hj)
  exact (ht.2 j p c hj hc).length

/-- C147: the mean of `conditional_score_distribution` is what `expected_scores` reports, and its variance is the sum of the variances of
the item scores. -/
theorem C147_mean (cats : List ℕ) (hcats : cats ≠ []) (M : ℕ) (hM : ∀ c ∈ cats, 1 ≤ c ∧ c ≤ M) (t : List (List ℝ))
    (ht : IsTable cats M t) :
    ∃ d x, conditionalScoreDistribution t cats = .ok d ∧ expectedSumScore t M none = .ok x ∧ meanScore d = x ∧
      scoreVariance d = (t.map scoreVariance).sum := by
  obtain ⟨d, h1, h2, h3⟩ := score_moments cats hcats M hM t ht
  refine ⟨d, _, h1, ?_, h2, h3⟩
  simp only [expectedSumScore, C13_mean_score t M (table_lengths ht)]
  rfl

/-- C147 with an answer key: the mean number of right answers according to `conditional_score_distribution` is what `expected_scores`
reports, and its variance is the sum of `p (1 - p)` over the items, `p` being the probability of the right answer. -/
theorem C147_keyed (cats : List ℕ) (hcats : cats ≠ []) (M : ℕ) (t : List (List ℝ)) (ht : IsTable cats M t) (keys : List ℕ)
    (hlen : keys.length = cats.length) (hkey : ∀ k ∈ keys, k < M) :
    ∃ d x, conditionalScoreDistribution (sumIncorrectProbabilities t keys) (List.replicate cats.length 2) = .ok d ∧
      expectedSumScore t M (some (keys.map fun k : ℕ => (k : ℤ))) = .ok x ∧ meanScore d = x ∧
      scoreVariance d = ((List.range cats.length).map fun j =>
        tableProb t j (keys.getD j 0) * (1 - tableProb t j (keys.getD j 0))).sum := by
  have hrep : List.replicate cats.length 2 ≠ [] := by
    intro h
    have := congrArg List.length h
    simp at this
    exact hcats this
  have hkne : keys ≠ [] := by
    intro h; rw [h] at hlen; exact hcats (List.length_eq_zero_iff.1 hlen.symm)
  obtain ⟨hT, hval⟩ := sumIncorrect_isTable cats M t ht keys hlen hkey
  obtain ⟨d, h1, h2, h3⟩ := score_moments _ hrep 2 (by intro c hc; rw [List.eq_of_mem_replicate hc]; omega) _ hT
  obtain ⟨e, he, hel, heb⟩ := C17_expected_keyed_score cats M t ht keys hkne hlen hkey
  have hpair : sumIncorrectProbabilities t keys = (List.range cats.length).map fun j =>
      [1 - tableProb t j (keys.getD j 0), tableProb t j (keys.getD j 0)] := by
    refine List.ext_getElem? fun j => ?_
    rw [List.getElem?_map]
    by_cases hj : j < cats.length
    · obtain ⟨k, hk⟩ := getElem?_of_lt keys j (by omega)
      obtain ⟨q, hq⟩ := getElem?_of_lt (sumIncorrectProbabilities t keys) j (by rw [hT.1, List.length_replicate]; exact hj)
      have hl := (hT.2 j q 2 hq (by rw [List.getElem?_replicate, if_pos hj])).length
      obtain ⟨v1, v0⟩ := hval j k hk
      rw [tableProb_row _ _ _ _ hq] at v1 v0
      have hkd : keys.getD j 0 = k := by rw [List.getD_eq_getElem?_getD, hk]; rfl
      rw [hq, List.getElem?_range hj, Option.map_some, hkd, ← v0, ← v1]
      match q, hl with
      | [a, b], _ => rfl
    · rw [List.getElem?_eq_none (by rw [hT.1, List.length_replicate]; omega), List.getElem?_eq_none (by simp; omega)]; rfl
  have hpt : e = (List.range cats.length).map fun j => tableProb t j (keys.getD j 0) := by
    refine List.ext_getElem? fun j => ?_
    rw [List.getElem?_map]
    by_cases hj : j < cats.length
    · obtain ⟨k, hk⟩ := getElem?_of_lt keys j (by omega)
      obtain ⟨p, hp⟩ := getElem?_of_lt t j (by rw [ht.1]; exact hj)
      obtain ⟨x, hx⟩ := getElem?_of_lt e j (by omega)
      have hkd : keys.getD j 0 = k := by rw [List.getD_eq_getElem?_getD, hk]; rfl
      obtain ⟨hpk, -⟩ := heb j k p x hk hp hx
      rw [hx, List.getElem?_range hj, Option.map_some, hkd, tableProb, hp, Option.bind_some, hpk]
      rfl
    · rw [List.getElem?_eq_none (by omega), List.getElem?_eq_none (by simp; omega)]; rfl
  refine ⟨d, e.sum, h1, by simp only [expectedSumScore, he]; rfl, ?_, ?_⟩
  · rw [h2, hpair, hpt, List.map_map]
    congr 1
    refine List.map_congr_left fun j _ => ?_
    exact meanScore_pair _
  · rw [h3, hpair, List.map_map]
    congr 1
    refine List.map_congr_left fun j _ => ?_
    simp only [Function.comp, scoreVariance, meanScore_pair, List.length_cons, List.length_nil]
    simp [sum_range_succ]
    ring

/-! ## Populations -/

theorem meanScore_weighted (L : ℕ) {d : ℕ} (pts : List ((Fin d → ℝ) × ℝ)) (D : (Fin d → ℝ) → List ℝ) (hlen : ∀ t, (D t).length = L)
    (dist : List ℝ) (hl : dist.length = L)
    (h : ∀ s, s < dist.length → dist[s]? = some ((pts.map fun p => p.2 * (D p.1).getD s 0).sum)) :
    meanScore dist = (pts.map fun p => p.2 * meanScore (D p.1)).sum := by
  have e : ∀ s ∈ range dist.length, (s : ℝ) * dist.getD s 0 = (pts.map fun p => p.2 * ((s : ℝ) * (D p.1).getD s 0)).sum := by
    intro s hs
    rw [List.getD_eq_getElem?_getD, h s (mem_range.1 hs), Option.getD_some, ← List.sum_map_mul_left]
    congr 1
    exact List.map_congr_left fun p _ => by ring
  unfold meanScore
  rw [sum_congr rfl e]
  clear e h
  induction pts with
  | nil => simp
  | cons p pts ih =>
    simp only [List.map_cons, List.sum_cons]
    rw [sum_add_distrib, ih, hl, ← mul_sum, hlen]

/-- C147: the mean of `sum_score_probabilities` is the mean of `expected_scores` over the latent density that the evaluator uses. -/
theorem C147_population {d : ℕ} (probs : (Fin d → ℝ) → List (List ℝ)) (cats : List ℕ) (hcats : cats ≠ []) (M : ℕ)
    (hM : ∀ c ∈ cats, 1 ≤ c ∧ c ≤ M) (ht : ∀ t, IsTable cats M (probs t)) (method : String) (isVae : Bool)
    (scores : Thetas d) (segments : ℕ) (pdf : (Fin d → ℝ) → ℝ) (hpdf : ∀ t, 0 ≤ pdf t)
    (hw : WeightsDefined method scores segments pdf) (E : (Fin d → ℝ) → ℝ)
    (hE : ∀ t, expectedSumScore (probs t) M none = .ok (E t)) :
    ∃ pts dist, thetaWeights method isVae scores segments pdf = .ok (some pts) ∧
      sumScoreProbabilities probs cats none method isVae scores segments pdf = .ok (some dist) ∧
      meanScore dist = (pts.map fun p => p.2 * E p.1).sum := by
  obtain ⟨pts, dist, h1, h2, h3, -, -, h6⟩ := C60_distribution probs cats hcats M hM ht method isVae scores segments pdf hpdf hw
  choose D x hx using fun t => (C147_mean cats hcats M hM (probs t) (ht t))
  have hDl : ∀ t, (D t).length = (cats.map (· - 1)).sum + 1 ∧ ∀ s, (D t).getD s 0 = (genPoly (probs t) cats).coeff s := by
    intro t
    obtain ⟨d', a1, a2, a3, -⟩ := score_dist cats hcats M hM (probs t) (ht t)
    rw [hx t |>.1] at a1
    obtain rfl := Except.ok.inj a1
    exact ⟨a2, a3⟩
  refine ⟨pts, dist, h1, h2, ?_⟩
  rw [meanScore_weighted _ pts D (fun t => (hDl t).1) dist h3]
  · congr 1
    refine List.map_congr_left fun p _ => ?_
    obtain ⟨-, e2, e3, -⟩ := hx p.1
    rw [hE] at e2
    rw [e3, Except.ok.inj e2]
  · intro s hs
    rw [h6 s hs]
    congr 2
    refine List.map_congr_left fun p _ => ?_
    rw [(hDl p.1).2, genPoly_coeff _ _ (ht p.1).1]
    simp only [tableProb_getD]

theorem populationDifficulty_eq (cats : List ℕ) (M : ℕ) (tables : List (List (List ℝ))) (h : ∀ t ∈ tables, IsTable cats M t)
    (hne : tables ≠ []) (j c : ℕ) (hc : cats[j]? = some c) :
    populationDifficulty cats tables M none j
      = .ok (some (meanList (tables.map fun t => 1 - meanScore (t.getD j []) / ((c : ℝ) - 1)))) := by
  unfold populationDifficulty
  rw [mapM_ok tables (fun t => itemDifficulties cats t M none)
    (fun t => List.zipWith (fun x (c : ℕ) => 1 - x / ((c : ℝ) - 1)) (t.map meanScore) cats) (by
      intro t ht
      simp only [itemDifficulties, C13_mean_score t M (table_lengths (h t ht))]
      rfl), bind_ok]
  have e : (tables.map fun t => List.zipWith (fun x (c : ℕ) => 1 - x / ((c : ℝ) - 1)) (t.map meanScore) cats).mapM (fun d => d[j]?)
      = some (tables.map fun t => 1 - meanScore (t.getD j []) / ((c : ℝ) - 1)) := by
    clear hne
    induction tables with
    | nil => rfl
    | cons t ts ih =>
      have hj : j < t.length := by rw [(h t (by simp)).1]; exact lt_of_getElem?_some hc
      have e1 : (List.zipWith (fun x (c : ℕ) => 1 - x / ((c : ℝ) - 1)) (t.map meanScore) cats)[j]?
          = some (1 - meanScore (t.getD j []) / ((c : ℝ) - 1)) := by
        rw [List.getElem?_zipWith, List.getElem?_map, hc, List.getElem?_eq_getElem hj, List.getD_eq_getElem _ _ hj]
        rfl
      simp only [List.map_cons, List.mapM_cons, e1, ih fun t ht => h t (by simp [ht])]
      rfl
  rw [e]
  obtain ⟨t, ts, rfl⟩ := List.exists_cons_of_ne_nil hne
  rfl

/-- C147: with the respondents' own scores as latent density, the mean of `sum_score_probabilities` is the number of points that
`population_difficulty` leaves: the sum over the items of the highest score times one minus the difficulty. -/
theorem C147_difficulty {d : ℕ} (probs : (Fin d → ℝ) → List (List ℝ)) (cats : List ℕ) (hcats : cats ≠ []) (M : ℕ)
    (hM : ∀ c ∈ cats, 2 ≤ c ∧ c ≤ M) (ht : ∀ t, IsTable cats M (probs t)) (isVae : Bool) (scores : Thetas d) (hne : scores ≠ [])
    (segments : ℕ) (pdf : (Fin d → ℝ) → ℝ) (hpdf : ∀ t, 0 ≤ pdf t) :
    ∃ (dist : List ℝ) (v : ℕ → ℝ), sumScoreProbabilities probs cats none "data" isVae scores segments pdf = .ok (some dist) ∧
      (∀ j, j < cats.length → populationDifficulty cats (scores.map probs) M none j = .ok (some (v j))) ∧
      meanScore dist = ∑ j : Fin cats.length, ((cats[j] : ℝ) - 1) * (1 - v j) := by
  have hM1 : ∀ c ∈ cats, 1 ≤ c ∧ c ≤ M := fun c hc => ⟨by have := (hM c hc).1; omega, (hM c hc).2⟩
  have hE : ∀ t, expectedSumScore (probs t) M none = .ok ((probs t).map meanScore).sum := by
    intro t
    simp only [expectedSumScore, C13_mean_score _ M (table_lengths (ht t))]
    rfl
  have hw : WeightsDefined "data" scores segments pdf := Or.inl ⟨rfl, hne⟩
  obtain ⟨pts, dist, h1, h2, h3⟩ := C147_population probs cats hcats M hM1 ht "data" isVae scores segments pdf hpdf hw _ hE
  obtain ⟨pts', w1, -, -, w4, -⟩ := C60_weights "data" isVae scores segments pdf hpdf hw
  rw [w1] at h1
  obtain rfl : pts' = pts := Option.some.inj (Except.ok.inj h1)
  rw [w4 rfl, List.map_map] at h3
  have hn : (scores.length : ℝ) ≠ 0 := by simpa using hne
  refine ⟨dist, fun j => meanList ((scores.map probs).map fun t => 1 - meanScore (t.getD j []) / ((cats.getD j 0 : ℝ) - 1)), h2,
    fun j hj => ?_, ?_⟩
  · rw [populationDifficulty_eq cats M _ (by
      intro t hmem
      obtain ⟨s, -, rfl⟩ := List.mem_map.1 hmem
      exact ht s) (by simpa using hne) j cats[j] (List.getElem?_eq_getElem hj)]
    dsimp only
    rw [List.getD_eq_getElem _ _ hj]
  · rw [h3]
    have e : ∀ j : Fin cats.length, ((cats[j] : ℝ) - 1) * (1 - meanList ((scores.map probs).map fun t =>
        1 - meanScore (t.getD j []) / ((cats.getD j 0 : ℝ) - 1)))
        = (scores.map fun s => 1 / (scores.length : ℝ) * meanScore ((probs s).getD j [])).sum := by
      intro j
      have hc : ((cats[j] : ℕ) : ℝ) - 1 ≠ 0 := by
        have : (2 : ℝ) ≤ (cats[j] : ℕ) := by exact_mod_cast (hM _ (List.getElem_mem j.2)).1
        linarith
      rw [List.getD_eq_getElem _ _ j.2, meanList, List.map_map, List.length_map, List.sum_map_mul_left]
      have e2 : (scores.map ((fun t : List (List ℝ) => 1 - meanScore (t.getD j []) / (((cats[(j : ℕ)] : ℕ) : ℝ) - 1)) ∘ probs)).sum
          = scores.length - (scores.map fun s => meanScore ((probs s).getD j [])).sum / (((cats[(j : ℕ)] : ℕ) : ℝ) - 1) := by
        clear hne hw h1 h2 h3 w1 w4 hn
        induction scores with
        | nil => simp
        | cons s l ih => simp only [List.map_cons, List.sum_cons, ih, List.length_cons, Function.comp]; push_cast; ring
      rw [e2]
      have hc' : ((cats[(j : ℕ)] : ℕ) : ℝ) - 1 ≠ 0 := hc
      change (((cats[(j : ℕ)] : ℕ) : ℝ) - 1) * _ = _
      field_simp
      ring
    rw [sum_congr rfl fun j _ => e j]
    have e3 : ∀ s, ((probs s).map meanScore).sum = ∑ j : Fin cats.length, meanScore ((probs s).getD j []) := by
      intro s
      rw [← Fin.sum_univ_getElem]
      refine Fintype.sum_equiv (finCongr (by rw [List.length_map, (ht s).1])) _ _ fun i => ?_
      simp only [List.getElem_map, finCongr_apply, Fin.val_cast]
      rw [List.getD_eq_getElem _ _ (by simpa using i.2)]
    simp only [Function.comp_def, e3]
    generalize 1 / (scores.length : ℝ) = w
    clear hne hw h1 h2 h3 w1 w4 hn e
    induction scores with
    | nil => simp
    | cons s l ih =>
      simp only [List.map_cons, List.sum_cons]
      rw [sum_add_distrib, ih, ← mul_sum]

/-! ## Slope of the expected score and information -/

theorem row_moment {d : ℕ} {cats : List ℕ} {M : ℕ} {probs : (Fin d → ℝ) → List (List ℝ)} (ht : ∀ t, IsTable cats M (probs t))
    (t : Fin d → ℝ) (j : Fin cats.length) (f : ℕ → ℝ) :
    ∑ c : Fin M, answersOf probs cats.length M t j c * f c
      = ∑ k ∈ range ((probs t).getD j []).length, f k * ((probs t).getD j []).getD k 0 := by
  have hl : ((probs t).getD j []).length = M := by
    have hj : (j : ℕ) < (probs t).length := by rw [(ht t).1]; exact j.2
    rw [List.getD_eq_getElem _ _ hj]
    exact table_lengths (ht t) _ (List.getElem_mem hj)
  rw [hl, Finset.sum_range]
  exact sum_congr rfl fun c _ => mul_comm _ _

theorem table_sum {cats : List ℕ} {M : ℕ} {t : List (List ℝ)} (ht : IsTable cats M t) (f : List ℝ → ℝ) :
    (t.map f).sum = ∑ j : Fin cats.length, f (t.getD j []) := by
  rw [← Fin.sum_univ_getElem]
  refine Fintype.sum_equiv (finCongr (by rw [List.length_map, ht.1])) _ _ fun i => ?_
  simp only [List.getElem_map, finCongr_apply, Fin.val_cast]
  rw [List.getD_eq_getElem _ _ (by simpa using i.2)]

theorem row_total {d : ℕ} {cats : List ℕ} {M : ℕ} {probs : (Fin d → ℝ) → List (List ℝ)} (ht : ∀ t, IsTable cats M (probs t))
    (t : Fin d → ℝ) (j : Fin cats.length) : ∑ c : Fin M, answersOf probs cats.length M t j c = 1 := by
  have h := row_moment ht t j fun _ => 1
  simp only [mul_one, one_mul] at h
  rw [h]
  have hj : (j : ℕ) < (probs t).length := by rw [(ht t).1]; exact j.2
  have hd := (ht t).2 j _ cats[j] (List.getElem?_eq_getElem hj) (List.getElem?_eq_getElem j.2)
  rw [List.getD_eq_getElem _ _ hj, ← hd.sum_one]
  conv_rhs => rw [eq_range_map ((probs t)[(j : ℕ)]), list_sum_range]

/-- The number of points as a statistic of the answers. -/
def pointsOf {n M : ℕ} (x : Fin n → Fin M) : ℝ := ∑ j, ((x j : ℕ) : ℝ)

theorem expect_points {d : ℕ} {cats : List ℕ} {M : ℕ} {probs : (Fin d → ℝ) → List (List ℝ)} (ht : ∀ t, IsTable cats M (probs t))
    (t : Fin d → ℝ) : expect (answersOf probs cats.length M) t pointsOf = ((probs t).map meanScore).sum := by
  unfold pointsOf
  rw [expect_sum, table_sum (ht t)]
  refine sum_congr rfl fun j _ => ?_
  rw [expect_single (fun t j => row_total ht t j) t j fun c => ((c : ℕ) : ℝ)]
  exact row_moment ht t j fun k => (k : ℝ)

theorem variance_points {d : ℕ} {cats : List ℕ} {M : ℕ} {probs : (Fin d → ℝ) → List (List ℝ)} (ht : ∀ t, IsTable cats M (probs t))
    (t : Fin d → ℝ) : variance (answersOf probs cats.length M) t pointsOf = ((probs t).map scoreVariance).sum := by
  unfold variance
  rw [expect_points ht, table_sum (ht t), table_sum (ht t)]
  have e : (fun x : Fin cats.length → Fin M => (pointsOf x - ∑ j : Fin cats.length, meanScore ((probs t).getD j [])) ^ 2)
      = fun x => (∑ j : Fin cats.length, (((x j : ℕ) : ℝ) - meanScore ((probs t).getD j [])))
        * ∑ j : Fin cats.length, (((x j : ℕ) : ℝ) - meanScore ((probs t).getD j [])) := by
    funext x
    rw [pointsOf, ← sum_sub_distrib, sq]
  rw [e, expect_product_of_sums (fun t j => row_total ht t j) t
    (fun (j : Fin cats.length) c => ((c : ℕ) : ℝ) - meanScore ((probs t).getD j []))
    (fun (j : Fin cats.length) c => ((c : ℕ) : ℝ) - meanScore ((probs t).getD j []))]
  · refine sum_congr rfl fun j _ => ?_
    rw [row_moment ht t j fun k => ((k : ℝ) - meanScore ((probs t).getD j [])) * ((k : ℝ) - meanScore ((probs t).getD j []))]
    unfold scoreVariance
    exact sum_congr rfl fun k _ => by rw [sq]
  · intro j
    simp only [mul_sub]
    rw [sum_sub_distrib, ← sum_mul, row_total ht, one_mul, row_moment ht t j fun k => (k : ℝ)]
    unfold meanScore
    rw [sub_self]

/-- C147: the number of points never tells more about a latent variable than the answers: the squared slope of `expected_scores` is at
most the variance of `conditional_score_distribution` times the `information`. -/
theorem C147_slope {d : ℕ} (probs : (Fin d → ℝ) → List (List ℝ)) (cats : List ℕ) (hcats : cats ≠ []) (M : ℕ)
    (hM : ∀ c ∈ cats, 1 ≤ c ∧ c ≤ M) (ht : ∀ t, IsTable cats M (probs t)) (hP : SmoothTest (answersOf probs cats.length M))
    (E : (Fin d → ℝ) → ℝ) (hE : ∀ t, expectedSumScore (probs t) M none = .ok (E t)) (t : Fin d → ℝ)
    (I : Matrix (Fin d) (Fin d) ℝ) (hI : information probs cats.length M [] false none false [t] = .ok (.test [I])) (dist : List ℝ)
    (hdist : conditionalScoreDistribution (probs t) cats = .ok dist) (k : Fin d) :
    partialD E t k ^ 2 ≤ scoreVariance dist * I k k := by
  have hshape : TableShape cats.length M probs := fun t => ⟨(ht t).1, table_lengths (ht t)⟩
  have h := C106_cramer_rao probs cats.length M hshape hP t I hI k pointsOf
  have hEe : E = fun s => expect (answersOf probs cats.length M) s pointsOf := by
    funext s
    rw [expect_points ht]
    have := hE s
    simp only [expectedSumScore, C13_mean_score _ M (table_lengths (ht s))] at this
    exact (Except.ok.inj this).symm
  obtain ⟨d', a1, -, a3⟩ := score_moments cats hcats M hM _ (ht t)
  rw [hdist] at a1
  obtain rfl := Except.ok.inj a1
  rw [hEe, a3, ← variance_points ht]
  exact h

theorem logit_partial {d : ℕ} {cats : List ℕ} {M : ℕ} (hM : ∀ c ∈ cats, c ≤ M) {probs : (Fin d → ℝ) → List (List ℝ)}
    (ht : ∀ t, IsTable cats M (probs t)) {A : ℕ → ℕ → Fin d → ℝ} {B : ℕ → ℕ → ℝ}
    (hm : LogitModel cats (fun θ => tableProb (probs θ)) A B) (t : Fin d → ℝ) (j : Fin cats.length) (c : Fin M) (k : Fin d) :
    HasDerivAt (fun v => answersOf probs cats.length M (Function.update t k v) j c)
      (answersOf probs cats.length M t j c * (A j c k - ∑ x : Fin M, answersOf probs cats.length M t j x * A j x k)) (t k) := by
  have hj := List.getElem?_eq_getElem j.2
  have ha : ∀ s (x : Fin M), answersOf probs cats.length M s j x = tableProb (probs s) j x := fun s x => tableProb_getD _ _ _
  have hzero : ∀ s (x : Fin M), cats[j] ≤ (x : ℕ) → answersOf probs cats.length M s j x = 0 := by
    intro s x hx
    have hjs : (j : ℕ) < (probs s).length := by rw [(ht s).1]; exact j.2
    have hd := (ht s).2 j _ cats[j] (List.getElem?_eq_getElem hjs) hj
    unfold answersOf
    rw [List.getD_eq_getElem _ _ hjs, List.getD_eq_getElem?_getD, hd.missing x hx x.2]
    rfl
  by_cases hc : (c : ℕ) < cats[j]
  · have hsum : ∑ x : Fin M, answersOf probs cats.length M t j x * A j x k
        = ∑ x ∈ range cats[j], tableProb (probs t) j x * A j x k := by
      have h1 : ∑ x ∈ range cats[j], tableProb (probs t) j x * A j x k = ∑ x ∈ range M, tableProb (probs t) j x * A j x k := by
        refine sum_subset (range_mono (hM _ (List.getElem_mem j.2))) fun x hx hx' => ?_
        rw [mem_range] at hx hx'
        have := hzero t ⟨x, hx⟩ (by simpa using hx')
        rw [ha] at this
        change tableProb (probs t) j x = 0 at this
        rw [this, zero_mul]
      rw [h1, Finset.sum_range]
      exact sum_congr rfl fun x _ => by rw [ha]
    rw [hsum]
    simp only [ha]
    have hL : ∀ r, r < cats[j] → HasDerivAt (fun v => ∑ y, A j r y * Function.update t k v y + B j r) (A j r k) (t k) := by
      intro r _
      have h1 : ∀ y, HasDerivAt (fun v => A j r y * Function.update t k v y) (if y = k then A j r y else 0) (t k) := by
        intro y
        by_cases hy : y = k
        · subst hy
          simp only [Function.update_self, if_pos]
          simpa using (hasDerivAt_id (t y)).const_mul (A j r y)
        · simp only [Function.update_of_ne hy, if_neg hy]
          exact hasDerivAt_const _ _
      have h2 := (HasDerivAt.fun_sum fun y (_ : y ∈ (univ : Finset (Fin d))) => h1 y).add_const (B j r)
      refine h2.congr_deriv ?_
      rw [sum_ite_eq' univ k fun y => A j r y, if_pos (mem_univ _)]
    have h := hasDerivAt_softmax cats[j] (fun v r => ∑ y, A j r y * Function.update t k v y + B j r) (fun r => A j r k) (t k) hL c hc
    have e : ∀ s r, r < cats[j] → tableProb (probs s) j r
        = Real.exp (∑ y, A j r y * s y + B j r) / ∑ x ∈ range cats[j], Real.exp (∑ y, A j x y * s y + B j x) :=
      fun s r hr => hm s j cats[j] r hj hr
    have e1 : (fun v => tableProb (probs (Function.update t k v)) j c) = fun v =>
        Real.exp (∑ y, A j c y * Function.update t k v y + B j c)
          / ∑ x ∈ range cats[j], Real.exp (∑ y, A j x y * Function.update t k v y + B j x) := by
      funext v
      exact e _ _ hc
    rw [e1]
    refine h.congr_deriv ?_
    simp only [Function.update_eq_self]
    rw [e t c hc]
    congr 2
    exact sum_congr rfl fun x hx => by rw [e t x (mem_range.1 hx)]
  · have h0 := fun s => hzero s c (by omega)
    simp only [h0, zero_mul]
    exact hasDerivAt_const _ _

/-- Multinomial logit models are differentiable tests. -/
theorem logit_smooth {d : ℕ} {cats : List ℕ} {M : ℕ} (hM : ∀ c ∈ cats, c ≤ M) {probs : (Fin d → ℝ) → List (List ℝ)}
    (ht : ∀ t, IsTable cats M (probs t)) {A : ℕ → ℕ → Fin d → ℝ} {B : ℕ → ℕ → ℝ}
    (hm : LogitModel cats (fun θ => tableProb (probs θ)) A B) : SmoothTest (answersOf probs cats.length M) := by
  refine ⟨fun t j c => ?_, fun t j => row_total ht t j, fun t j c k => (logit_partial hM ht hm t j c k).differentiableAt⟩
  have hjs : (j : ℕ) < (probs t).length := by rw [(ht t).1]; exact j.2
  have hd := (ht t).2 j _ cats[j] (List.getElem?_eq_getElem hjs) (List.getElem?_eq_getElem j.2)
  unfold answersOf
  rw [List.getD_eq_getElem _ _ hjs, List.getD_eq_getElem _ _ (by rw [hd.length]; exact c.2)]
  exact hd.nonneg _ (List.getElem_mem _)

/-- C147: logit models in which every answer adds the slope of its item (1PL, 2PL, partial credit): information and slope of
`expected_scores` are sums over the items of the variance of the item score times the slopes. -/
theorem C147_item_slopes {d : ℕ} (probs : (Fin d → ℝ) → List (List ℝ)) (cats : List ℕ) (hcats : cats ≠ []) (M : ℕ)
    (hM : ∀ c ∈ cats, 1 ≤ c ∧ c ≤ M) (ht : ∀ t, IsTable cats M (probs t)) (a : ℕ → Fin d → ℝ) (B : ℕ → ℕ → ℝ)
    (hm : LogitModel cats (fun θ => tableProb (probs θ)) (fun j r k => a j k * r) B) (t : Fin d → ℝ) :
    ∃ dist I E, conditionalScoreDistribution (probs t) cats = .ok dist ∧
      information probs cats.length M [] false none false [t] = .ok (.test [I]) ∧
      (∀ s, expectedSumScore (probs s) M none = .ok (E s)) ∧
      scoreVariance dist = ∑ j : Fin cats.length, scoreVariance ((probs t).getD j []) ∧
      ∀ k k', I k k' = ∑ j : Fin cats.length, a j k * a j k' * scoreVariance ((probs t).getD j []) ∧
        partialD E t k = ∑ j : Fin cats.length, a j k * scoreVariance ((probs t).getD j []) := by
  have hP := logit_smooth (fun c hc => (hM c hc).2) ht hm
  have hshape : TableShape cats.length M probs := fun t => ⟨(ht t).1, table_lengths (ht t)⟩
  obtain ⟨dist, d1, -, d3⟩ := score_moments cats hcats M hM _ (ht t)
  refine ⟨dist, _, fun s => ((probs s).map meanScore).sum, d1, C106_outer_product probs cats.length M hshape hP [] false (Or.inl rfl) [t], fun s => ?_,
    by rw [d3, table_sum (ht t)], fun k k' => ?_⟩
  · simp only [expectedSumScore, C13_mean_score _ M (table_lengths (ht s))]
    rfl
  · have hmean : ∀ (j : Fin cats.length) k, ∑ x : Fin M, answersOf probs cats.length M t j x * (a j k * ((x : ℕ) : ℝ))
        = a j k * meanScore ((probs t).getD j []) := by
      intro j k
      have := row_moment ht t j fun x => a j k * (x : ℝ)
      rw [this]
      unfold meanScore
      rw [mul_sum]
      exact sum_congr rfl fun x _ => by ring
    have hslope : ∀ (j : Fin cats.length) (c : Fin M) k, partialD (fun s => answersOf probs cats.length M s j c) t k
        = answersOf probs cats.length M t j c * (a j k * (((c : ℕ) : ℝ) - meanScore ((probs t).getD j []))) := by
      intro j c k
      unfold partialD
      rw [(logit_partial (fun c hc => (hM c hc).2) ht hm t j c k).deriv, hmean]
      ring
    constructor
    · rw [expectedOuter_items hP]
      refine sum_congr rfl fun j _ => ?_
      unfold scoreVariance
      rw [← row_moment ht t j fun x => ((x : ℝ) - meanScore ((probs t).getD j [])) ^ 2, mul_sum]
      refine sum_congr rfl fun c _ => ?_
      by_cases h0 : answersOf probs cats.length M t j c = 0
      · rw [h0]; ring
      · unfold relSlope
        rw [hslope, hslope]
        field_simp
    · have e : (fun s => ((probs s).map meanScore).sum) = fun s => ∑ j : Fin cats.length, ∑ c : Fin M,
          answersOf probs cats.length M s j c * ((c : ℕ) : ℝ) := by
        funext s
        rw [table_sum (ht s)]
        refine sum_congr rfl fun j _ => ?_
        rw [row_moment ht s j fun x => (x : ℝ)]
        rfl
      rw [e]
      have hd : ∀ (j : Fin cats.length) (c : Fin M), HasDerivAt (fun v => answersOf probs cats.length M (Function.update t k v) j c)
          (answersOf probs cats.length M t j c * (a j k * (((c : ℕ) : ℝ) - meanScore ((probs t).getD j [])))) (t k) := by
        intro j c
        refine (logit_partial (fun c hc => (hM c hc).2) ht hm t j c k).congr_deriv ?_
        rw [hmean]
        ring
      unfold partialD
      have hD := HasDerivAt.fun_sum fun j (_ : j ∈ (univ : Finset (Fin cats.length))) =>
        HasDerivAt.fun_sum fun c (_ : c ∈ (univ : Finset (Fin M))) => (hd j c).mul_const (((c : ℕ) : ℝ))
      rw [hD.deriv]
      refine sum_congr rfl fun j _ => ?_
      unfold scoreVariance
      rw [← row_moment ht t j fun x => ((x : ℝ) - meanScore ((probs t).getD j [])) ^ 2, mul_sum]
      have hz : ∑ c : Fin M, answersOf probs cats.length M t j c * (((c : ℕ) : ℝ) - meanScore ((probs t).getD j [])) = 0 := by
        simp only [mul_sub]
        rw [sum_sub_distrib, ← sum_mul, row_total ht, one_mul, row_moment ht t j fun k => (k : ℝ)]
        unfold meanScore
        rw [sub_self]
      set m := meanScore ((probs t).getD j [])
      have e2 : ∀ c ∈ (univ : Finset (Fin M)), answersOf probs cats.length M t j c * (a j k * (((c : ℕ) : ℝ) - m)) * ((c : ℕ) : ℝ)
          = a j k * (answersOf probs cats.length M t j c * (((c : ℕ) : ℝ) - m) ^ 2)
            + a j k * m * (answersOf probs cats.length M t j c * (((c : ℕ) : ℝ) - m)) := fun c _ => by ring
      rw [sum_congr rfl e2, sum_add_distrib, ← mul_sum, ← mul_sum, hz]
      rw [mul_sum]
      ring

/-- C147: in models with a common slope `a` the number of points tells everything: the `information` is the variance of
`conditional_score_distribution` times the slopes, and the slope of `expected_scores` is that variance times the slope. -/
theorem C147_common_slope {d : ℕ} (probs : (Fin d → ℝ) → List (List ℝ)) (cats : List ℕ) (hcats : cats ≠ []) (M : ℕ)
    (hM : ∀ c ∈ cats, 1 ≤ c ∧ c ≤ M) (ht : ∀ t, IsTable cats M (probs t)) (a : Fin d → ℝ) (B : ℕ → ℕ → ℝ)
    (hm : LogitModel cats (fun θ => tableProb (probs θ)) (fun _ r k => a k * r) B) (t : Fin d → ℝ) :
    ∃ dist I E, conditionalScoreDistribution (probs t) cats = .ok dist ∧
      information probs cats.length M [] false none false [t] = .ok (.test [I]) ∧
      (∀ s, expectedSumScore (probs s) M none = .ok (E s)) ∧
      ∀ k k', I k k' = a k * a k' * scoreVariance dist ∧ partialD E t k = a k * scoreVariance dist := by
  obtain ⟨dist, I, E, h1, h2, h3, h4, h5⟩ := C147_item_slopes probs cats hcats M hM ht (fun _ => a) B hm t
  refine ⟨dist, I, E, h1, h2, h3, fun k k' => ?_⟩
  obtain ⟨h6, h7⟩ := h5 k k'
  rw [h6, h7, h4, mul_sum, mul_sum]
  exact ⟨rfl, rfl⟩

/-- C147, what the number of points loses: the information times the variance of the number of points exceeds the squared slope of the
expected number of points by half the sum, over all pairs of items, of the product of their variances and the squared difference of
their slopes. -/
theorem C147_loss {d : ℕ} (probs : (Fin d → ℝ) → List (List ℝ)) (cats : List ℕ) (hcats : cats ≠ []) (M : ℕ)
    (hM : ∀ c ∈ cats, 1 ≤ c ∧ c ≤ M) (ht : ∀ t, IsTable cats M (probs t)) (a : ℕ → Fin d → ℝ) (B : ℕ → ℕ → ℝ)
    (hm : LogitModel cats (fun θ => tableProb (probs θ)) (fun j r k => a j k * r) B) (t : Fin d → ℝ) :
    ∃ dist I E, conditionalScoreDistribution (probs t) cats = .ok dist ∧
      information probs cats.length M [] false none false [t] = .ok (.test [I]) ∧
      (∀ s, expectedSumScore (probs s) M none = .ok (E s)) ∧
      ∀ k, scoreVariance dist * I k k - partialD E t k ^ 2 = 1 / 2 * ∑ i : Fin cats.length, ∑ j : Fin cats.length,
        scoreVariance ((probs t).getD i []) * scoreVariance ((probs t).getD j []) * (a i k - a j k) ^ 2 := by
  obtain ⟨dist, I, E, h1, h2, h3, h4, h5⟩ := C147_item_slopes probs cats hcats M hM ht a B hm t
  refine ⟨dist, I, E, h1, h2, h3, fun k => ?_⟩
  obtain ⟨h6, h7⟩ := h5 k k
  rw [h6, h7, h4]
  set v : Fin cats.length → ℝ := fun j => scoreVariance ((probs t).getD j []) with hv
  change (∑ j, v j) * (∑ j : Fin cats.length, a j k * a j k * v j) - (∑ j : Fin cats.length, a j k * v j) ^ 2
    = 1 / 2 * ∑ i : Fin cats.length, ∑ j : Fin cats.length, v i * v j * (a i k - a j k) ^ 2
  have e : ∀ i j : Fin cats.length, v i * v j * (a i k - a j k) ^ 2
      = a i k * a i k * v i * v j + v i * (a j k * a j k * v j) - 2 * (a i k * v i * (a j k * v j)) := fun i j => by ring
  simp only [e, sum_sub_distrib, sum_add_distrib, ← mul_sum, ← sum_mul]
  ring

/-- C147, one-parameter logistic model: the test information, the variance of the number of points and the slope of the expected number
of points are the same number. -/
theorem C147_onePL (m : OnePL) (hwf : m.WF) (hne : 0 < m.items) (t : Fin 1 → ℝ) :
    ∃ dist I E, conditionalScoreDistribution (m.probs (t 0)) (List.replicate m.items 2) = .ok dist ∧
      information (fun s : Fin 1 → ℝ => m.probs (s 0)) m.items 2 [] false none false [t] = .ok (.test [I]) ∧
      (∀ s : Fin 1 → ℝ, expectedSumScore (m.probs (s 0)) 2 none = .ok (E s)) ∧
      I 0 0 = scoreVariance dist ∧ partialD E t 0 = scoreVariance dist := by
  obtain ⟨dist, I, E, h1, h2, h3, h4⟩ := C147_common_slope (d := 1) (fun s => m.probs (s 0)) (List.replicate m.items 2)
    (by simpa using hne.ne') 2 (by simp) (fun θ => (positiveTable_pairs (C01_onePL_distribution m hwf (θ 0))).1) (fun _ => 1)
    (fun j r => r * m.itemParameters.getD j 0) (by
      have := m.logitModel hwf
      simpa only [one_mul] using this) t
  have := h4 0 0
  simp only [one_mul] at this
  exact ⟨dist, I, E, h1, by simpa using h2, h3, this.1, this.2⟩

/-- C147, generalized partial credit model whose items have the same slopes `a`. -/
theorem C147_gpc {d : ℕ} (m : GPC) (hwf : m.WF) (hne : m.cats ≠ []) (a : Fin d → ℝ)
    (hslope : ∀ j, j < m.cats.length → ∀ k : Fin d, slopeOf m.itemParameters j k = a k) (t : Fin d → ℝ) :
    ∃ dist I E, conditionalScoreDistribution (m.probs (List.ofFn t)) m.cats = .ok dist ∧
      information (fun s : Fin d → ℝ => m.probs (List.ofFn s)) m.cats.length m.M [] false none false [t] = .ok (.test [I]) ∧
      (∀ s : Fin d → ℝ, expectedSumScore (m.probs (List.ofFn s)) m.M none = .ok (E s)) ∧
      ∀ k k', I k k' = a k * a k' * scoreVariance dist ∧ partialD E t k = a k * scoreVariance dist := by
  refine C147_common_slope (fun s => m.probs (List.ofFn s)) m.cats hne m.M
    (fun c hc => ⟨hwf.catsPos c hc, le_maxCats _ _ hc⟩) (fun θ => (positiveTable_of (C01_gpc_distribution m hwf _)).1) a
    (fun j r => ((m.itemParameters[j]?).map fun p => p.2.getD r 0).getD 0) ?_ t
  intro θ j c r hc hr
  have h := m.logitModel hwf d θ j c r hc hr
  have hj := lt_of_getElem?_some hc
  refine h.trans ?_
  simp only [hslope j hj, mul_comm (_ : ℝ) (a _)]

/-- C147, two-parameter logistic model: information, slope and variance of the number of points. -/
theorem C147_twoPL {d : ℕ} (m : TwoPL) (hwf : m.WF) (hne : 0 < m.items) (t : Fin d → ℝ) :
    ∃ dist I E, conditionalScoreDistribution (m.probs (List.ofFn t)) (List.replicate m.items 2) = .ok dist ∧
      information (fun s : Fin d → ℝ => m.probs (List.ofFn s)) m.items 2 [] false none false [t] = .ok (.test [I]) ∧
      (∀ s : Fin d → ℝ, expectedSumScore (m.probs (List.ofFn s)) 2 none = .ok (E s)) ∧
      ∀ k, scoreVariance dist * I k k - partialD E t k ^ 2 = 1 / 2 * ∑ i ∈ range m.items, ∑ j ∈ range m.items,
        scoreVariance ((m.probs (List.ofFn t)).getD i []) * scoreVariance ((m.probs (List.ofFn t)).getD j [])
          * (slopeOf m.itemParameters i k - slopeOf m.itemParameters j k) ^ 2 := by
  obtain ⟨dist, I, E, h1, h2, h3, h4⟩ := C147_loss (fun s : Fin d → ℝ => m.probs (List.ofFn s)) (List.replicate m.items 2)
    (by simpa using hne.ne') 2 (by simp) (fun θ => (positiveTable_pairs (C01_twoPL_distribution m hwf _)).1)
    (fun j k => slopeOf m.itemParameters j k) (fun j r => r * ((m.itemParameters[j]?).map Prod.snd).getD 0) (by
      intro θ j c r hc hr
      have h := m.logitModel hwf d θ j c r hc hr
      refine h.trans ?_
      simp only [mul_comm (_ : ℝ) (slopeOf _ _ _)]) t
  refine ⟨dist, I, E, h1, by simpa using h2, h3, fun k => ?_⟩
  rw [h4 k, sum_range fun i => ∑ j ∈ range m.items, scoreVariance ((m.probs (List.ofFn t)).getD i [])
    * scoreVariance ((m.probs (List.ofFn t)).getD j []) * (slopeOf m.itemParameters i k - slopeOf m.itemParameters j k) ^ 2]
  have hl : (List.replicate m.items 2).length = m.items := List.length_replicate
  congr 1
  refine Fintype.sum_equiv (finCongr hl) _ _ fun i => ?_
  rw [sum_range fun j => scoreVariance ((m.probs (List.ofFn t)).getD (finCongr hl i) [])
    * scoreVariance ((m.probs (List.ofFn t)).getD j []) * (slopeOf m.itemParameters (finCongr hl i) k - slopeOf m.itemParameters j k) ^ 2]
  exact Fintype.sum_equiv (finCongr hl) _ _ fun j => rfl

/-! ## Non-vacuity -/

/-- Two items, the second with three categories. -/
theorem exScore_table (s : Fin 1 → ℝ) : IsTable exScore.cats exScore.M (exScore.probs (List.ofFn s)) :=
  (positiveTable_of (C01_gpc_distribution exScore exScore_wf _)).1

example (s : Fin 1 → ℝ) : ∃ d x, conditionalScoreDistribution (exScore.probs (List.ofFn s)) exScore.cats = .ok d ∧
    expectedSumScore (exScore.probs (List.ofFn s)) exScore.M none = .ok x ∧ meanScore d = x :=
  let ⟨d, x, h1, h2, h3, _⟩ := C147_mean exScore.cats (by simp [exScore]) exScore.M
    (fun c hc => ⟨exScore_wf.catsPos c hc, le_maxCats _ _ hc⟩) _ (exScore_table s)
  ⟨d, x, h1, h2, h3⟩

example (s : Fin 1 → ℝ) : ∃ d x, conditionalScoreDistribution (sumIncorrectProbabilities (exScore.probs (List.ofFn s)) [1, 0])
      (List.replicate exScore.cats.length 2) = .ok d ∧
    expectedSumScore (exScore.probs (List.ofFn s)) exScore.M (some [1, 0]) = .ok x ∧ meanScore d = x :=
  let ⟨d, x, h1, h2, h3, _⟩ := C147_keyed exScore.cats (by simp [exScore]) exScore.M _ (exScore_table s) [1, 0] (by simp [exScore])
    (by simp [exScore, GPC.M, maxCats])
  ⟨d, x, h1, h2, h3⟩

example : ∃ (dist : List ℝ) (v : ℕ → ℝ),
    sumScoreProbabilities (fun s : Fin 1 → ℝ => exScore.probs (List.ofFn s)) exScore.cats none "data" false [fun _ => 0, fun _ => 1] 10
      (fun _ => 0) = .ok (some dist) ∧ meanScore dist = ∑ j : Fin exScore.cats.length, ((exScore.cats[j] : ℝ) - 1) * (1 - v j) :=
  let ⟨dist, v, h1, _, h3⟩ := C147_difficulty (fun s : Fin 1 → ℝ => exScore.probs (List.ofFn s)) exScore.cats (by simp [exScore]) exScore.M
    (fun c hc => ⟨by simp [exScore] at hc; omega, le_maxCats _ _ hc⟩) exScore_table false [fun _ => 0, fun _ => 1] (by simp) 10 (fun _ => 0)
    (fun _ => le_rfl)
  ⟨dist, v, h1, h3⟩

example : SmoothTest (answersOf (fun s : Fin 1 → ℝ => exScore.probs (List.ofFn s)) exScore.cats.length exScore.M) :=
  logit_smooth (fun _ hc => le_maxCats _ _ hc) exScore_table (exScore.logitModel exScore_wf 1)

example (t : Fin 1 → ℝ) : ∃ dist I E, conditionalScoreDistribution (exScore.probs (List.ofFn t)) exScore.cats = .ok dist ∧
    information (fun s : Fin 1 → ℝ => exScore.probs (List.ofFn s)) exScore.cats.length exScore.M [] false none false [t] = .ok (.test [I]) ∧
    (∀ s : Fin 1 → ℝ, expectedSumScore (exScore.probs (List.ofFn s)) exScore.M none = .ok (E s)) ∧
    ∀ k k', I k k' = 1 * 1 * scoreVariance dist ∧ partialD E t k = 1 * scoreVariance dist :=
  C147_gpc exScore exScore_wf (by simp [exScore]) (fun _ => 1) (fun j hj k => by
    have hj2 : j < 2 := hj
    obtain rfl : k = 0 := Subsingleton.elim _ _
    interval_cases j <;> simp [slopeOf, exScore_parameters]) t

/-- Two items with slopes 1 and 2: the hypotheses of `C147_twoPL` hold. -/
example (t : Fin 1 → ℝ) := C147_twoPL exTwoSlopes exTwoSlopes_wf (by simp [exTwoSlopes]) t

end Irt
