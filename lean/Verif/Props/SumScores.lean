import Verif.Props.Groups
import Verif.Props.ScoreDist
import Verif.Spec.Categorical

/-!
# C60: model-implied sum score probabilities; C75: the latent density an evaluator keeps
-/

namespace Irt

open scoped BigOperators

/-! ## The scored table of one point -/

theorem take_sum_of_distribution {c M : ℕ} {p : List ℝ} (h : IsDistribution c M p) : (p.take c).sum = 1 := by
  rw [← h.sum_one]
  conv_rhs => rw [← List.take_append_drop c p, List.sum_append]
  rw [List.sum_eq_zero (l := p.drop c), add_zero]
  intro x hx
  obtain ⟨i, hi, rfl⟩ := List.mem_iff_getElem.1 hx
  rw [List.getElem_drop]
  rw [List.length_drop, h.length] at hi
  have := h.missing (c + i) (by omega) (by omega)
  rw [List.getElem?_eq_getElem (by rw [h.length]; omega)] at this
  exact Option.some.inj this

/-- Sum score distribution of one respondent, for the item scores `0..c-1`. -/
theorem point_plain (cats : List ℕ) (hcats : cats ≠ []) (M : ℕ) (hM : ∀ c ∈ cats, 1 ≤ c ∧ c ≤ M) (t : List (List ℝ))
    (ht : IsTable cats M t) :
    ∃ dist, conditionalScoreDistribution t cats = .ok dist ∧ dist.length = (cats.map (· - 1)).sum + 1 ∧
      dist.sum = 1 ∧ (∀ x ∈ dist, 0 ≤ x) ∧
      ∀ s, s < dist.length → dist.getD s 0 = sumScoreMass (fun i : Fin cats.length => cats[i]) (fun i k => tableProb t i k) s := by
  have hne : t ≠ [] := by
    intro h; rw [h] at ht
    exact hcats (List.length_eq_zero_iff.1 ht.1.symm)
  have hrow : ∀ i (h : i < cats.length), IsDistribution cats[i] M (t.getD i []) := by
    intro i h
    have hi : i < t.length := by rw [ht.1]; exact h
    rw [List.getD_eq_getElem _ _ hi]
    exact ht.2 i _ _ (List.getElem?_eq_getElem hi) (List.getElem?_eq_getElem h)
  have hv : ∀ i (h : i < cats.length), 1 ≤ cats[i] ∧ cats[i] ≤ (t.getD i []).length := by
    intro i h
    rw [(hrow i h).length]
    exact hM _ (List.getElem_mem h)
  have hnn : ∀ p ∈ t, ∀ x ∈ p, 0 ≤ x := by
    intro p hp
    obtain ⟨i, hi, rfl⟩ := List.mem_iff_getElem.1 hp
    have := hrow i (by rw [← ht.1]; exact hi)
    rw [List.getD_eq_getElem _ _ hi] at this
    exact this.nonneg
  obtain ⟨d1, h1, hl, hf⟩ := C33_conditional_score_distribution t cats hne ht.1 hv
  obtain ⟨d2, h2, hs, hp⟩ := C33_is_distribution t cats hne ht.1 hv hnn fun i h => take_sum_of_distribution (hrow i h)
  rw [h1] at h2
  obtain rfl := Except.ok.inj h2
  refine ⟨d1, h1, hl, hs, hp, fun s hs => ?_⟩
  rw [List.getD_eq_getElem?_getD, hf s hs, Option.getD_some]
  simp only [tableProb_getD]

/-- The scored items of a multiple choice test: one for the key, zero for the other options. -/
theorem sumIncorrect_isTable (cats : List ℕ) (M : ℕ) (t : List (List ℝ)) (ht : IsTable cats M t) (keys : List ℕ)
    (hk : keys.length = cats.length) (hkM : ∀ k ∈ keys, k < M) :
    IsTable (List.replicate cats.length 2) 2 (sumIncorrectProbabilities t keys) ∧
      ∀ i k : ℕ, keys[i]? = some k → tableProb (sumIncorrectProbabilities t keys) i 1 = tableProb t i k ∧
        tableProb (sumIncorrectProbabilities t keys) i 0 = 1 - tableProb t i k := by
  have hrow : ∀ i k : ℕ, keys[i]? = some k → ∃ (p : List ℝ) (c : ℕ), t[i]? = some p ∧ cats[i]? = some c ∧ k < p.length ∧
      IsDistribution c M p := by
    intro i k hik
    have hi := lt_of_getElem?_some hik
    obtain ⟨c, hc⟩ := getElem?_of_lt cats i (by omega)
    obtain ⟨p, hp⟩ := getElem?_of_lt t i (by rw [ht.1]; omega)
    have hd := ht.2 i p c hp hc
    exact ⟨p, c, hp, hc, by rw [hd.length]; exact hkM k (List.mem_of_getElem? hik), hd⟩
  constructor
  · refine ⟨by simp [sumIncorrectProbabilities, ht.1, hk], ?_⟩
    intro i q c hq hc
    have hi : i < keys.length := by
      have := lt_of_getElem?_some hq
      simp only [sumIncorrectProbabilities, List.length_zipWith] at this
      omega
    obtain ⟨k, hik⟩ := getElem?_of_lt keys i hi
    obtain ⟨p, c', hp, -, hkl, hd⟩ := hrow i k hik
    obtain ⟨w, hw, hsum, hwe⟩ := C33_sum_incorrect t keys i p k hp hik hkl
    rw [hw] at hq
    obtain rfl := Option.some.inj hq
    rw [hd.sum_one] at hsum
    have hc2 : c = 2 := List.eq_of_mem_replicate (List.mem_of_getElem? hc)
    subst hc2
    have hp0 := hd.nonneg _ (List.getElem_mem hkl)
    have hw0 : 0 ≤ w := by
      rw [hwe]
      refine Finset.sum_nonneg fun j hj => ?_
      have hj : j < p.length := by simpa using (Finset.mem_erase.1 hj).2
      rw [List.getD_eq_getElem _ _ hj]
      exact hd.nonneg _ (List.getElem_mem _)
    refine ⟨rfl, ?_, ?_, ?_, fun k h1 h2 => by omega⟩
    · intro x hx
      rcases List.mem_cons.1 hx with rfl | hx
      · exact hw0
      · rw [List.mem_singleton] at hx; rw [hx]; exact hp0
    · intro x hx
      rcases List.mem_cons.1 hx with rfl | hx
      · linarith
      · rw [List.mem_singleton] at hx; rw [hx]; linarith
    · simpa using hsum
  · intro i k hik
    obtain ⟨p, c', hp, -, hkl, hd⟩ := hrow i k hik
    obtain ⟨w, hw, hsum, -⟩ := C33_sum_incorrect t keys i p k hp hik hkl
    rw [hd.sum_one] at hsum
    have e : tableProb t i k = p[k] := by
      simp [tableProb, hp, List.getElem?_eq_getElem hkl]
    rw [e]
    simp only [tableProb, hw, Option.bind_some]
    constructor
    · rfl
    · show w = _; linarith

/-! ## Mixtures -/

theorem weightedRows_eq (len : ℕ) {d : ℕ} (pts : List ((Fin d → ℝ) × ℝ)) (D : (Fin d → ℝ) → List ℝ)
    (hl : ∀ t, (D t).length = len) (h0 : ∀ t, ∀ x ∈ D t, 0 ≤ x) (h1 : ∀ t, (D t).sum = 1)
    (hw0 : ∀ p ∈ pts, 0 ≤ p.2) (hw1 : (pts.map Prod.snd).sum = 1) :
    (weightedRows len (pts.map fun p => (D p.1, p.2))).length = len ∧
      (∀ x ∈ weightedRows len (pts.map fun p => (D p.1, p.2)), 0 ≤ x) ∧
      (weightedRows len (pts.map fun p => (D p.1, p.2))).sum = 1 ∧
      ∀ s, s < len → (weightedRows len (pts.map fun p => (D p.1, p.2)))[s]?
        = some ((pts.map fun p => p.2 * (D p.1).getD s 0).sum) := by
  refine ⟨by simp [weightedRows], ?_, ?_, ?_⟩
  · intro x hx
    obtain ⟨s, hs, rfl⟩ := List.mem_map.1 hx
    refine List.sum_nonneg fun y hy => ?_
    obtain ⟨r, hr, rfl⟩ := List.mem_map.1 hy
    obtain ⟨p, hp, rfl⟩ := List.mem_map.1 hr
    refine mul_nonneg ?_ (hw0 p hp)
    rw [List.getD_eq_getElem _ _ (by rw [hl]; exact List.mem_range.1 hs)]
    exact h0 _ _ (List.getElem_mem _)
  · unfold weightedRows
    rw [list_sum_range]
    simp only [List.map_map, Function.comp_def]
    have hsum : ∀ t, ∑ s ∈ Finset.range len, (D t).getD s 0 = 1 := by
      intro t
      rw [← h1 t, ← list_sum_range, ← hl t]
      congr 1
      refine List.ext_getElem (by simp) fun i h _ => ?_
      have hi : i < (D t).length := by simpa using h
      rw [List.getElem_map, List.getElem_range, List.getD_eq_getElem _ _ hi]
    rw [← hw1]
    clear hw1 hw0
    induction pts with
    | nil => simp
    | cons a l ih =>
      simp only [List.map_cons, List.sum_cons]
      rw [Finset.sum_add_distrib, ih, ← Finset.sum_mul, hsum, one_mul]
  · intro s hs
    unfold weightedRows
    rw [List.getElem?_map, List.getElem?_range hs, Option.map_some, List.map_map]
    congr 2
    refine List.map_congr_left fun p _ => ?_
    simp only [Function.comp]
    ring

/-! ## Weights -/

/-- When the weights of the latent space are defined: with scores for 'data'; for a density if it is positive somewhere on
the grid. -/
def WeightsDefined {d : ℕ} (method : String) (scores : Thetas d) (segments : ℕ) (pdf : (Fin d → ℝ) → ℝ) : Prop :=
  (method = "data" ∧ scores ≠ []) ∨
    ((method = "qmvn" ∨ method = "gmm") ∧ ∃ grid, integrationGrid segments scores = some grid ∧ ∃ t ∈ grid, pdf t ≠ 0)

/-- C60: the weights are nonnegative and sum to one: equal weights of the population scores for 'data', and weights
proportional to the density on the grid otherwise. -/
theorem C60_weights {d : ℕ} (method : String) (isVae : Bool) (scores : Thetas d) (segments : ℕ) (pdf : (Fin d → ℝ) → ℝ)
    (hpdf : ∀ t, 0 ≤ pdf t) (h : WeightsDefined method scores segments pdf) :
    ∃ pts, thetaWeights method isVae scores segments pdf = .ok (some pts) ∧ (∀ p ∈ pts, 0 ≤ p.2) ∧
      (pts.map Prod.snd).sum = 1 ∧
      (method = "data" → pts = scores.map fun t => (t, 1 / (scores.length : ℝ))) ∧
      (method ≠ "data" → ∃ grid, integrationGrid segments scores = some grid ∧ pts.map Prod.fst = grid ∧
        ∃ C > 0, ∀ p ∈ pts, p.2 = C * pdf p.1) := by
  rcases h with ⟨rfl, hne⟩ | ⟨hm, grid, hgrid, t0, ht0, hpos⟩
  · refine ⟨_, by unfold thetaWeights; simp, ?_, ?_, fun _ => rfl, fun h => (h rfl).elim⟩
    · intro p hp
      obtain ⟨t, -, rfl⟩ := List.mem_map.1 hp
      positivity
    · rw [List.map_map]
      simp only [Function.comp_def]
      rw [List.map_const', List.sum_replicate, nsmul_eq_mul]
      have : (scores.length : ℝ) ≠ 0 := by simpa using hne
      field_simp
  · have hsum : 0 < (grid.map pdf).sum := by
      refine lt_of_lt_of_le (lt_of_le_of_ne (hpdf t0) (Ne.symm hpos)) ?_
      exact List.single_le_sum (by
        intro x hx
        obtain ⟨t, -, rfl⟩ := List.mem_map.1 hx
        exact hpdf t) _ (List.mem_map.2 ⟨t0, ht0, rfl⟩)
    have hnd : method ≠ "data" := by rcases hm with rfl | rfl <;> decide
    refine ⟨grid.map fun t => (t, pdf t / (grid.map pdf).sum), ?_, ?_, ?_, fun h => (hnd h).elim, fun _ => ?_⟩
    · unfold thetaWeights
      rw [if_neg (by rcases hm with rfl | rfl <;> simp), if_neg (by rcases hm with rfl | rfl <;> simp),
        if_neg (by rcases hm with rfl | rfl <;> simp), if_neg hnd, hgrid, Option.bind_some, if_neg hsum.ne']
    · intro p hp
      obtain ⟨t, -, rfl⟩ := List.mem_map.1 hp
      exact div_nonneg (hpdf t) hsum.le
    · rw [List.map_map]
      simp only [Function.comp_def, div_eq_mul_inv]
      rw [List.sum_map_mul_right, mul_inv_cancel₀ hsum.ne']
    · refine ⟨grid, hgrid, by rw [List.map_map]; simp [Function.comp_def], 1 / (grid.map pdf).sum, by positivity, ?_⟩
      intro p hp
      obtain ⟨t, -, rfl⟩ := List.mem_map.1 hp
      simp only
      ring

/-- C60: the grid spans, for each latent variable, the interval from one standard deviation below the smallest score to
one above the largest; it exists if there are at least two scores. -/
theorem C60_grid {d : ℕ} (segments : ℕ) (scores : Thetas d) (h : 2 ≤ scores.length) :
    ∃ grid, integrationGrid segments scores = some grid ∧ ∀ t, t ∈ grid ↔ ∀ k, ∃ i : ℕ, i < segments ∧
      t k = (columnMin (scores.map fun s => s k) - listStd (scores.map fun s => s k))
        + ((columnMax (scores.map fun s => s k) + listStd (scores.map fun s => s k))
          - (columnMin (scores.map fun s => s k) - listStd (scores.map fun s => s k))) * i / ((segments : ℝ) - 1) := by
  refine ⟨_, by
    unfold integrationGrid
    rw [mapM_option_some _ _ (fun k => (columnMin (scores.map fun s => s k) - listStd (scores.map fun s => s k),
      columnMax (scores.map fun s => s k) + listStd (scores.map fun s => s k)))]
    · rfl
    · intro k _
      unfold integrationRange
      rw [if_neg (by rw [List.length_map]; omega)], ?_⟩
  intro t
  rw [mem_cartesianProd]
  refine forall_congr' fun k => ?_
  simp only [mem_linspace]
  rw [List.getD_eq_getElem _ _ (by simp)]
  simp

/-! ## C60 -/

/-- C60: for a model without key, `sum_score_probabilities` is a probability distribution on the scores from zero to the
largest possible one, the weighted mean of the sum score distributions at the points of the latent space. -/
theorem C60_distribution {d : ℕ} (probs : (Fin d → ℝ) → List (List ℝ)) (cats : List ℕ) (hcats : cats ≠ []) (M : ℕ)
    (hM : ∀ c ∈ cats, 1 ≤ c ∧ c ≤ M) (ht : ∀ t, IsTable cats M (probs t)) (method : String) (isVae : Bool)
    (scores : Thetas d) (segments : ℕ) (pdf : (Fin d → ℝ) → ℝ) (hpdf : ∀ t, 0 ≤ pdf t)
    (hw : WeightsDefined method scores segments pdf) :
    ∃ pts dist, thetaWeights method isVae scores segments pdf = .ok (some pts) ∧
      sumScoreProbabilities probs cats none method isVae scores segments pdf = .ok (some dist) ∧
      dist.length = (cats.map (· - 1)).sum + 1 ∧ (∀ x ∈ dist, 0 ≤ x) ∧ dist.sum = 1 ∧
      ∀ s, s < dist.length → dist[s]? = some ((pts.map fun p =>
        p.2 * sumScoreMass (fun i : Fin cats.length => cats[i]) (fun i k => tableProb (probs p.1) i k) s).sum) := by
  obtain ⟨pts, hpts, hw0, hw1, -⟩ := C60_weights method isVae scores segments pdf hpdf hw
  choose D hD hlen hsum hnn hmass using fun t => point_plain cats hcats M hM (probs t) (ht t)
  have hL : cats.sum - cats.length + 1 = (cats.map (· - 1)).sum + 1 := by
    have : ∀ l : List ℕ, (∀ c ∈ l, 1 ≤ c) → l.sum = (l.map (· - 1)).sum + l.length := by
      intro l
      induction l with
      | nil => simp
      | cons a l ih =>
        intro h
        have h1 := h a (by simp)
        have h2 := ih fun c hc => h c (by simp [hc])
        simp only [List.sum_cons, List.map_cons, List.length_cons]
        omega
    have := this cats fun c hc => (hM c hc).1
    omega
  obtain ⟨r1, r2, r3, r4⟩ := weightedRows_eq ((cats.map (· - 1)).sum + 1) pts D hlen hnn hsum hw0 hw1
  refine ⟨pts, _, hpts, ?_, r1, r2, r3, ?_⟩
  · unfold sumScoreProbabilities
    rw [hpts, bind_ok]
    simp only
    rw [mapM_ok _ _ (fun p => (D p.1, p.2)) (by intro p _; rw [hD, bind_ok]; rfl), bind_ok, hL]
    rfl
  · intro s hs
    rw [r1] at hs
    rw [r4 s hs]
    congr 2
    refine List.map_congr_left fun p _ => ?_
    rw [hmass _ s (by rw [hlen]; exact hs)]

/-- C60: for a multiple choice test the score is the number of correct responses. -/
theorem C60_distribution_keyed {d : ℕ} (probs : (Fin d → ℝ) → List (List ℝ)) (cats : List ℕ) (hcats : cats ≠ []) (M : ℕ)
    (ht : ∀ t, IsTable cats M (probs t)) (keys : List ℕ) (hk : keys.length = cats.length) (hkM : ∀ k ∈ keys, k < M)
    (method : String) (isVae : Bool) (scores : Thetas d) (segments : ℕ) (pdf : (Fin d → ℝ) → ℝ) (hpdf : ∀ t, 0 ≤ pdf t)
    (hw : WeightsDefined method scores segments pdf) :
    ∃ pts dist, thetaWeights method isVae scores segments pdf = .ok (some pts) ∧
      sumScoreProbabilities probs cats (some keys) method isVae scores segments pdf = .ok (some dist) ∧
      dist.length = cats.length + 1 ∧ (∀ x ∈ dist, 0 ≤ x) ∧ dist.sum = 1 ∧
      ∀ s, s < dist.length → dist[s]? = some ((pts.map fun p =>
        p.2 * sumScoreMass (fun _ : Fin cats.length => 2)
          (fun i k => if k = 1 then tableProb (probs p.1) i (keys.getD i 0)
            else 1 - tableProb (probs p.1) i (keys.getD i 0)) s).sum) := by
  obtain ⟨pts, hpts, hw0, hw1, -⟩ := C60_weights method isVae scores segments pdf hpdf hw
  have hrep : List.replicate cats.length 2 ≠ [] := by
    intro h
    have := congrArg List.length h
    simp at this
    exact hcats this
  choose D hD hlen hsum hnn hmass using fun t => point_plain (List.replicate cats.length 2) hrep 2
    (by intro c hc; rw [List.eq_of_mem_replicate hc]; omega) _ (sumIncorrect_isTable cats M (probs t) (ht t) keys hk hkM).1
  have hL : ((List.replicate cats.length 2).map (· - 1)).sum + 1 = cats.length + 1 := by simp
  rw [hL] at hlen
  have hL2 : (List.replicate cats.length 2).sum - (List.replicate cats.length 2).length + 1 = cats.length + 1 := by
    simp; omega
  obtain ⟨r1, r2, r3, r4⟩ := weightedRows_eq (cats.length + 1) pts D hlen hnn hsum hw0 hw1
  refine ⟨pts, _, hpts, ?_, r1, r2, r3, ?_⟩
  · unfold sumScoreProbabilities
    rw [hpts, bind_ok]
    simp only
    rw [mapM_ok _ _ (fun p => (D p.1, p.2)) (by intro p _; rw [hD, bind_ok]; rfl), bind_ok, hL2]
    rfl
  · intro s hs
    rw [r1] at hs
    rw [r4 s hs]
    congr 2
    refine List.map_congr_left fun p _ => ?_
    rw [hmass _ s (by rw [hlen]; exact hs)]
    congr 1
    have hcast : ∀ (n : ℕ) (hn : n = cats.length) (c : Fin n → ℕ) (P : ℕ → ℕ → ℝ), (∀ i, c i = 2) →
        sumScoreMass c (fun i k => P i k) s = sumScoreMass (fun _ : Fin cats.length => 2) (fun i k => P i k) s := by
      intro n hn c P hc
      subst hn
      rw [show c = fun _ => 2 from funext hc]
    rw [hcast _ (by simp) _ (fun i k => tableProb (sumIncorrectProbabilities (probs p.1) keys) i k) (by simp)]
    unfold sumScoreMass
    refine Finset.sum_congr rfl fun r hr => Finset.prod_congr rfl fun i _ => ?_
    have hri : r i < 2 := by
      have := (Finset.mem_filter.1 hr).1
      rw [Fintype.mem_piFinset] at this
      simpa using this i
    have hik : keys[(i : ℕ)]? = some (keys.getD i 0) := by
      rw [List.getD_eq_getElem _ _ (by omega)]
      exact List.getElem?_eq_getElem _
    obtain ⟨e1, e0⟩ := (sumIncorrect_isTable cats M (probs p.1) (ht p.1) keys hk hkM).2 i _ hik
    rcases (by omega : r i = 0 ∨ r i = 1) with h | h
    · simp only [h, e0]; simp
    · simp only [h, e1]; simp

/-- The documented methods all work for a variational autoencoder with a sensible density. -/
def EverySumScoreMethodWorks : Prop :=
  ∀ (d : ℕ) (probs : (Fin d → ℝ) → List (List ℝ)) (cats : List ℕ) (scores : Thetas d) (segments : ℕ)
    (pdf : (Fin d → ℝ) → ℝ), cats ≠ [] → scores ≠ [] → (∀ t, IsTable cats (maxCats cats) (probs t)) →
    ∃ r, sumScoreProbabilities probs cats none "encoder sampling" true scores segments pdf = .ok r

/-- C60: 'encoder sampling' fails for every model: for variational autoencoders a required argument is missing, for the
others it is refused. -/
theorem C60_encoder_sampling {d : ℕ} (probs : (Fin d → ℝ) → List (List ℝ)) (cats : List ℕ) (mc : Option (List ℕ))
    (scores : Thetas d) (segments : ℕ) (pdf : (Fin d → ℝ) → ℝ) :
    sumScoreProbabilities probs cats mc "encoder sampling" true scores segments pdf = .error .typeError ∧
      sumScoreProbabilities probs cats mc "encoder sampling" false scores segments pdf = .error .valueError := by
  constructor <;> simp [sumScoreProbabilities, thetaWeights] <;> rfl

/-- C60 is false for 'encoder sampling'. -/
theorem C60_encoder_sampling_false : ¬ EverySumScoreMethodWorks := by
  intro h
  obtain ⟨r, hr⟩ := h 0 (fun _ => [[1]]) [1] [fun _ => 0] 1 (fun _ => 1) (by simp) (by simp) (by
    intro t
    refine ⟨rfl, ?_⟩
    intro j p c hp hc
    obtain rfl : j = 0 := by have := lt_of_getElem?_some hp; simpa using this
    obtain rfl : p = [1] := by simpa using hp.symm
    obtain rfl : c = 1 := by simpa using hc.symm
    exact ⟨by simp [maxCats], by simp, by simp, by simp, by intro k h1 h2; simp [maxCats] at h2; omega⟩)
  rw [(C60_encoder_sampling _ _ _ _ _ _).1] at hr
  cases hr

/-- C60: a method that does not exist is refused. -/
theorem C60_method_refused {d : ℕ} (probs : (Fin d → ℝ) → List (List ℝ)) (cats : List ℕ) (mc : Option (List ℕ))
    (method : String) (h : method ≠ "data" ∧ method ≠ "encoder sampling" ∧ method ≠ "qmvn" ∧ method ≠ "gmm") (isVae : Bool)
    (scores : Thetas d) (segments : ℕ) (pdf : (Fin d → ℝ) → ℝ) :
    sumScoreProbabilities probs cats mc method isVae scores segments pdf = .error .valueError := by
  unfold sumScoreProbabilities thetaWeights
  rw [if_pos (by simp [h.1, h.2.1, h.2.2.1, h.2.2.2])]
  rfl

/-- C60: population data can be used with autoencoder models only; for the others the call is refused. -/
theorem C60_population_data {d : ℕ} (f : FittedModel d) (isMml : Bool) (draws : Thetas d) (width : ℕ)
    (data : List (List Num)) (h : f.attrs.hasEncoder = false) :
    populationScores f isMml draws width (some data) = .error .valueError := by
  show (latentScores f width data "NN" false false none >>= _) = _
  rw [C47_refused f width data "NN" false false none (Or.inr (Or.inr ⟨rfl, h⟩))]
  rfl

/-- C60: the population of a call without population data is the training sample, or draws from the latent distribution
for a model fitted with MML. -/
theorem C60_population {d : ℕ} (f : FittedModel d) (alg : Algorithm) (ts : Thetas d) (cov : Matrix (Fin d) (Fin d) ℝ)
    (oneHot : Bool) (imputation : Option String) (hfit : f.attrs = alg.afterFit ts cov oneHot imputation)
    (draws : Thetas d) (width : ℕ) :
    populationScores f (decide (alg = .mml)) draws width none = .ok (if alg = .mml then draws else ts) := by
  unfold populationScores
  rw [hfit]
  cases alg <;> rfl

/-! ## C75 -/

/-- The density that the call asks for. -/
def DensityUse.wanted {d : ℕ} : DensityUse d → FittedDensity d
  | .training k s => ⟨k, s⟩
  | .population k s => ⟨k, s⟩
  | .approximate k s => ⟨k, s⟩

/-- The density in use after a history of calls and then a last one. -/
def densityAfter {d : ℕ} (history : List (DensityUse d)) (last : DensityUse d) : Option (FittedDensity d) :=
  last.run (history.foldl DensityUse.run none)

/-- C75: a call with population data uses a density fitted to it, whatever happened before. -/
theorem C75_population {d : ℕ} (history : List (DensityUse d)) (kind : DensityKind) (scores : Thetas d) :
    densityAfter history (.population kind scores) = some ⟨kind, scores⟩ := by
  simp [densityAfter, DensityUse.run, densityForCall]

/-- C75, part: so does a call without population data if no earlier call on this evaluator had population data or a
direct approximation, and the model has not been fitted anew. Missing: histories with such calls (`C75_false`). -/
theorem C75_training_partial {d : ℕ} (train : Thetas d) (history : List (DensityUse d))
    (h : ∀ u ∈ history, ∃ k, u = .training k train) (kind : DensityKind) :
    densityAfter history (.training kind train) = some ⟨kind, train⟩ := by
  have inv : ∀ (l : List (DensityUse d)) (st : Option (FittedDensity d)), (∀ u ∈ l, ∃ k, u = .training k train) →
      (∀ f, st = some f → f.scores = train) → ∀ f, l.foldl DensityUse.run st = some f → f.scores = train := by
    intro l
    induction l with
    | nil => intro st _ hst f hf; exact hst f hf
    | cons u l ih =>
      intro st hu hst f hf
      obtain ⟨k, rfl⟩ := hu u (by simp)
      refine ih _ (fun u' hu' => hu u' (by simp [hu'])) ?_ f hf
      intro f' hf'
      simp only [DensityUse.run, Option.some.injEq] at hf'
      rw [← hf']
      unfold densityForCall
      split
      · rfl
      · cases st with
        | none => rfl
        | some x => exact hst x rfl
  have hst := inv history none h (by intro f hf; cases hf)
  show some (densityForCall (history.foldl DensityUse.run none) kind false train) = _
  unfold densityForCall
  congr 1
  split
  · rfl
  · next hk =>
    simp only [Bool.false_or, decide_eq_true_eq, not_not] at hk
    obtain ⟨f, hf, hkind⟩ := Option.map_eq_some_iff.1 hk
    rw [hf, Option.getD_some]
    have hs := hst f hf
    cases f
    simp only at hkind hs
    rw [hkind, hs]

/-- The full claim: the density is always the one the call asks for. -/
def DensityIndependentOfHistory : Prop :=
  ∀ (d : ℕ) (history : List (DensityUse d)) (last : DensityUse d), densityAfter history last = some last.wanted

/-- C75 is false: after a call with population data, the next call of the same method for the training sample still uses
the density of the population data, and so does a call after the model has been fitted to other data. -/
theorem C75_false : ¬ DensityIndependentOfHistory := by
  intro h
  have h1 := h 1 [.population .qmvn [fun _ => 5]] (.training .qmvn [fun _ => 0])
  have e : densityAfter [.population .qmvn [fun _ : Fin 1 => (5 : ℝ)]] (.training .qmvn [fun _ => 0])
      = some ⟨.qmvn, [fun _ => 5]⟩ := by
    simp [densityAfter, DensityUse.run, densityForCall]
  rw [e] at h1
  have h2 := congrArg FittedDensity.scores (Option.some.inj h1)
  simp only [DensityUse.wanted, List.cons.injEq, and_true] at h2
  have := congrFun h2 0
  norm_num at this

/-! ## The hypotheses are met -/

/-- Two items with three and two categories. -/
noncomputable def exSumTable : (Fin 1 → ℝ) → List (List ℝ) := fun _ => [[1 / 2, 1 / 4, 1 / 4], [1 / 3, 2 / 3, 0]]

theorem exSumTable_isTable (t : Fin 1 → ℝ) : IsTable [3, 2] 3 (exSumTable t) := by
  refine ⟨rfl, ?_⟩
  intro j p c hp hc
  match j with
  | 0 =>
    obtain rfl : p = [1 / 2, 1 / 4, 1 / 4] := by simpa [exSumTable] using hp.symm
    obtain rfl : c = 3 := by simpa using hc.symm
    exact ⟨rfl, by simp, by intro x hx; simp at hx; rcases hx with rfl | rfl <;> norm_num, by norm_num,
      by intro k h1 h2; omega⟩
  | 1 =>
    obtain rfl : p = [1 / 3, 2 / 3, 0] := by simpa [exSumTable] using hp.symm
    obtain rfl : c = 2 := by simpa using hc.symm
    exact ⟨rfl, by intro x hx; simp at hx; rcases hx with rfl | rfl | rfl <;> norm_num,
      by intro x hx; simp at hx; rcases hx with rfl | rfl | rfl <;> norm_num, by norm_num,
      by intro k h1 h2; obtain rfl : k = 2 := by omega
         rfl⟩
  | j + 2 => simp [exSumTable] at hp

example : ∃ pts dist, thetaWeights "data" false [fun _ : Fin 1 => (0 : ℝ), fun _ => 1] 5 (fun _ => 1) = .ok (some pts) ∧
    sumScoreProbabilities exSumTable [3, 2] none "data" false [fun _ : Fin 1 => (0 : ℝ), fun _ => 1] 5 (fun _ => 1)
      = .ok (some dist) ∧ dist.length = 4 ∧ dist.sum = 1 := by
  obtain ⟨pts, dist, h1, h2, h3, -, h5, -⟩ := C60_distribution exSumTable [3, 2] (by simp) 3 (by simp) exSumTable_isTable
    "data" false [fun _ => 0, fun _ => 1] 5 (fun _ => 1) (fun _ => zero_le_one) (Or.inl ⟨rfl, by simp⟩)
  exact ⟨pts, dist, h1, h2, by simpa using h3, h5⟩

example : WeightsDefined "gmm" [fun _ : Fin 1 => (0 : ℝ), fun _ => 1] 2 fun _ => 1 := by
  obtain ⟨grid, hg, hmem⟩ := C60_grid 2 [fun _ : Fin 1 => (0 : ℝ), fun _ => 1] (by simp)
  exact Or.inr ⟨Or.inr rfl, grid, hg, _, (hmem _).2 fun k => ⟨0, by norm_num, rfl⟩, one_ne_zero⟩

example : densityAfter [.training .qmvn [fun _ : Fin 1 => (0 : ℝ)], .training .gmm [fun _ => 0]] (.training .gmm [fun _ => 0])
    = some ⟨.gmm, [fun _ => 0]⟩ :=
  C75_training_partial [fun _ => 0] _ (by
    intro u hu
    simp only [List.mem_cons, List.not_mem_nil, or_false] at hu
    rcases hu with rfl | rfl <;> exact ⟨_, rfl⟩) .gmm

end Irt
