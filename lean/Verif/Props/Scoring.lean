import Verif.Model.Scorers
import Verif.Lemmas.Scoring
import Verif.Props.LogLik
import Mathlib.Algebra.Order.Star.Real

/-!
# C45, C46, C48, C65: EAP scores, the MML objective and starting values

`IsScorer m cats P` says that the model `m` has the items `cats` and that its cell-wise log likelihood is
the log of `P θ item response` (property C02). `rowsOf N items y` is the data matrix with entries `y i j`.
-/

namespace Irt

/-! ## The concrete models are scorers -/

/-- Softmax models (1PL, 2PL, GPC, NRM, monotone models): their log likelihood is cell by cell the log of
the probability table. -/
theorem softmaxScorer_isScorer {d : ℕ} (cats : List ℕ) (hcats : cats ≠ []) (M : ℕ) (hM : ∀ c ∈ cats, c ≤ M)
    (forward : (Fin d → ℝ) → List Logit) (hlen : ∀ θ, (forward θ).length = cats.length * M)
    (hfin : ∀ θ, ∀ row ∈ viewRows cats.length M (forward θ), ∃ v, Logit.fin v ∈ row) :
    IsScorer (softmaxScorer cats.length M forward) cats
      (fun θ => tableProb (probabilitiesFromOutput cats.length M (forward θ))) where
  items := rfl
  items_pos := List.length_pos_iff.2 hcats
  nonneg := by
    intro θ j r
    unfold tableProb
    cases h : ((probabilitiesFromOutput cats.length M (forward θ))[j]?).bind fun p => p[r]? with
    | none => simp
    | some x =>
      simp only [Option.getD_some]
      obtain ⟨p, hp, hx⟩ := Option.bind_eq_some_iff.1 h
      simp only [probabilitiesFromOutput, List.getElem?_map] at hp
      obtain ⟨row, _, rfl⟩ := Option.map_eq_some_iff.1 hp
      simp only [softmax, List.getElem?_map] at hx
      obtain ⟨l, _, rfl⟩ := Option.map_eq_some_iff.1 hx
      have hexp : ∀ l : Logit, 0 ≤ l.exp := by
        intro l; cases l <;> simp [Logit.exp, (Real.exp_pos _).le]
      exact div_nonneg (hexp l) (list_sum_nonneg row Logit.exp fun x _ => hexp x)
  logLik := by
    intro N t y hy
    have h := C02_base_cells N cats.length M (fun i => forward (t i)) y (fun i j => cellMissing (y i j))
      (fun i j => tableProb (probabilitiesFromOutput cats.length M (forward (t i))) j (responseOf (y i j)))
      (fun i _ => hlen _) (fun i _ => hfin _) (by
        intro i hi j hj hμ
        obtain ⟨c, hc⟩ := getElem?_of_lt cats j hj
        obtain ⟨r, hr, hrc⟩ := hy i hi j c hc hμ
        have hjr : j < (viewRows cats.length M (forward (t i))).length := by rw [length_viewRows]; exact hj
        obtain ⟨row, hrow⟩ := getElem?_of_lt _ j hjr
        have hl : row.length = M := mem_viewRows_length cats.length M (forward (t i)) (hlen _) _
          (List.mem_of_getElem? hrow)
        have hcM := hM c (List.mem_of_getElem? hc)
        obtain ⟨x, hx⟩ := getElem?_of_lt (softmax row) r (by simp [softmax, hl]; omega)
        have hp : (probabilitiesFromOutput cats.length M (forward (t i)))[j]? = some (softmax row) := by
          simp [probabilitiesFromOutput, hrow]
        refine ⟨softmax row, r, hp, hr, ?_⟩
        rw [hx]
        simp only [tableProb, hr, responseOf, Int.toNat_natCast]
        rw [hp]
        simp [hx])
    unfold reshapedOutput at h
    show baseLogLikelihood (viewRows (((List.range N).map fun i => forward (t i)).length * cats.length) M
        ((List.range N).map fun i => forward (t i)).flatten) (flatTensor N cats.length y)
        (some (flatTensor N cats.length fun i j => cellMissing (y i j))) .none >>= LL.toCells = _
    rw [List.length_map, List.length_range, h]
    rfl

/-- Models with a probability table (3PL, GRM). -/
theorem tableScorer_isScorer {d : ℕ} (cats : List ℕ) (hcats : cats ≠ [])
    (probs : (Fin d → ℝ) → List (List ℝ)) (hlen : ∀ θ, (probs θ).length = cats.length)
    (hrow : ∀ (θ : Fin d → ℝ) (j c : ℕ) (p : List ℝ), cats[j]? = some c → (probs θ)[j]? = some p → c ≤ p.length)
    (hnn : ∀ θ, ∀ p ∈ probs θ, ∀ x ∈ p, 0 ≤ x) :
    IsScorer (tableScorer cats.length probs) cats (fun θ => tableProb (probs θ)) where
  items := rfl
  items_pos := List.length_pos_iff.2 hcats
  nonneg := by
    intro θ j r
    unfold tableProb
    cases h : ((probs θ)[j]?).bind fun p => p[r]? with
    | none => simp
    | some x =>
      obtain ⟨p, hp, hx⟩ := Option.bind_eq_some_iff.1 h
      exact hnn θ p (List.mem_of_getElem? hp) x (List.mem_of_getElem? hx)
  logLik := by
    intro N t y hy
    have hflat : ((List.range N).map fun i => probs (t i)).flatten
        = flatTensor N cats.length fun i j => ((probs (t i))[j]?).getD [] := by
      unfold flatTensor
      rw [List.flatMap_def]
      congr 1
      apply List.map_congr_left
      intro i _
      apply List.ext_getElem?
      intro j
      by_cases hj : j < cats.length
      · obtain ⟨p, hp⟩ := getElem?_of_lt (probs (t i)) j (by rw [hlen]; exact hj)
        rw [hp, List.getElem?_map, List.getElem?_range hj]; simp [hp]
      · rw [List.getElem?_eq_none (by rw [hlen]; omega), List.getElem?_eq_none (by simp; omega)]
    have h := C02_table_cells N cats.length (fun i j => ((probs (t i))[j]?).getD []) y
      (fun i j => cellMissing (y i j)) (fun i j => tableProb (probs (t i)) j (responseOf (y i j))) (by
        intro i hi j hj hμ
        obtain ⟨c, hc⟩ := getElem?_of_lt cats j hj
        obtain ⟨r, hr, hrc⟩ := hy i hi j c hc hμ
        obtain ⟨p, hp⟩ := getElem?_of_lt (probs (t i)) j (by rw [hlen]; exact hj)
        obtain ⟨x, hx⟩ := getElem?_of_lt p r (lt_of_lt_of_le hrc (hrow _ _ _ _ hc hp))
        refine ⟨r, hr, ?_⟩
        simp [hp, hx, tableProb, hr, responseOf])
    rw [← hflat] at h
    show tableLogLikelihood ((List.range N).map fun i => probs (t i)).flatten (flatTensor N cats.length y)
        (some (flatTensor N cats.length fun i j => cellMissing (y i j))) .none >>= LL.toCells = _
    rw [h]
    rfl

theorem GPC.isScorer (m : GPC) (hwf : m.WF) (hne : m.cats ≠ []) (d : ℕ) :
    IsScorer (m.scorer d) m.cats fun θ => tableProb (m.probs (List.ofFn θ)) :=
  softmaxScorer_isScorer m.cats hne m.M (fun _ hc => le_maxCats _ _ hc) _
    (fun _ => m.length_forwardRow _) (fun _ => m.row_finite hwf _)

/-! ## C45 -/

/-- C45: the EAP score of respondent `i` is the mean of the grid points weighted by prior density times the
likelihood of the respondent's own observed responses; it is NaN exactly when all these weights are zero. -/
theorem C45_posterior_mean {d : ℕ} {m : Scorer d} {cats : List ℕ} {P : (Fin d → ℝ) → ℕ → ℕ → ℝ}
    (hm : IsScorer m cats P) (a : AlgAttrs d) (hd : d ≤ 4) (points : Option ℕ) (N : ℕ) (y : ℕ → ℕ → Cell)
    (hy : ∀ i, i < N → ValidResponses cats (y i)) (grid : Thetas d) (hg : grid ≠ [])
    (cov : Matrix (Fin d) (Fin d) ℝ) (hcov : cov.PosDef)
    (hgrid : eapGrid a (points.getD (eapDefaultPoints d)) = .ok (grid, cov)) :
    eapScores m a (rowsOf N cats.length y) points = .ok ((List.range N).map fun i =>
      if (grid.map fun θ => Real.exp (mvnLogDensity 0 cov θ)
          * observedLikelihood P cats.length (y i) θ).sum = 0 then none
      else some fun k =>
        (grid.map fun θ => Real.exp (mvnLogDensity 0 cov θ)
          * observedLikelihood P cats.length (y i) θ * θ k).sum
        / (grid.map fun θ => Real.exp (mvnLogDensity 0 cov θ)
          * observedLikelihood P cats.length (y i) θ).sum) := by
  unfold eapScores
  rw [if_neg (by omega), hgrid, ← hm.items]
  exact eapOnGrid_eq hm N y hy grid hg cov hcov

/-- C45, the grid and prior of a model with training scores `ts` (JML and the autoencoders): `n` equidistant
points per latent variable from a quarter of the range below the smallest training score to a quarter above
the largest, in all combinations; the prior covariance is the sample covariance of the training scores. -/
theorem C45_grid {d : ℕ} (a : AlgAttrs d) (ts : Thetas d) (hts : ts ≠ [])
    (ha : a.trainingThetas = some (some ts)) (n : ℕ) (lo hi : Fin d → ℝ)
    (hlo : ∀ k, IsLeast {x | ∃ t ∈ ts, t k = x} (lo k)) (hhi : ∀ k, IsGreatest {x | ∃ t ∈ ts, t k = x} (hi k)) :
    ∃ grid cov, eapGrid a n = .ok (grid, cov) ∧ grid.length = n ^ d ∧
      (∀ θ, θ ∈ grid ↔ ∀ k, ∃ i : ℕ, i < n ∧
        θ k = (lo k - (hi k - lo k) / 4) + (hi k - lo k) * (3 / 2) * (i / ((n : ℝ) - 1))) ∧
      ∀ p q, cov p q = (ts.map fun t => (t p - (ts.map fun s => s p).sum / ts.length)
          * (t q - (ts.map fun s => s q).sum / ts.length)).sum / ((ts.length : ℝ) - 1) := by
  have hset : ∀ k, {x | x ∈ ts.map fun t => t k} = {x | ∃ t ∈ ts, t k = x} := by
    intro k; ext x; simp
  have hne : ∀ k : Fin d, ts.map (fun t => t k) ≠ [] := by intro k; simpa using hts
  have hmin : ∀ k, columnMin (ts.map fun t => t k) = lo k := by
    intro k
    have := columnMin_isLeast _ (hne k)
    rw [hset] at this
    exact this.unique (hlo k)
  have hmax : ∀ k, columnMax (ts.map fun t => t k) = hi k := by
    intro k
    have := columnMax_isGreatest _ (hne k)
    rw [hset] at this
    exact this.unique (hhi k)
  refine ⟨cartesianProd fun k => linspace (lo k - (hi k - lo k) * 0.25) (hi k + (hi k - lo k) * 0.25) n,
    sampleCov ts, ?_, ?_, ?_, ?_⟩
  · unfold eapGrid thetaGrid
    rw [ha]
    simp only [hts, if_false, hmin, hmax]
    rfl
  · exact length_cartesianProd _ n fun k => length_linspace _ _ _
  · intro θ
    rw [mem_cartesianProd]
    refine forall_congr' fun k => ?_
    rw [mem_linspace]
    constructor <;> rintro ⟨i, hi', h⟩ <;> refine ⟨i, hi', ?_⟩ <;> rw [h] <;> ring
  · intro p q; rfl

/-- C45: EAP scores lie within the range of the grid, for every latent variable. -/
theorem C45_within_grid {d : ℕ} {m : Scorer d} {cats : List ℕ} {P : (Fin d → ℝ) → ℕ → ℕ → ℝ}
    (hm : IsScorer m cats P) (a : AlgAttrs d) (hd : d ≤ 4) (points : Option ℕ) (N : ℕ) (y : ℕ → ℕ → Cell)
    (hy : ∀ i, i < N → ValidResponses cats (y i)) (grid : Thetas d) (hg : grid ≠ [])
    (cov : Matrix (Fin d) (Fin d) ℝ) (hcov : cov.PosDef)
    (hgrid : eapGrid a (points.getD (eapDefaultPoints d)) = .ok (grid, cov))
    (scores : List (Option (Fin d → ℝ)))
    (hs : eapScores m a (rowsOf N cats.length y) points = .ok scores) (s : Fin d → ℝ) (hmem : some s ∈ scores)
    (k : Fin d) (lo hi : ℝ) (hb : ∀ θ ∈ grid, lo ≤ θ k ∧ θ k ≤ hi) : lo ≤ s k ∧ s k ≤ hi := by
  rw [C45_posterior_mean hm a hd points N y hy grid hg cov hcov hgrid] at hs
  obtain rfl := Except.ok.inj hs
  obtain ⟨i, _, he⟩ := List.mem_map.1 hmem
  split at he
  · simp at he
  · next h =>
    obtain rfl := Option.some.inj he
    exact weightedMean_mem (fun θ => Real.exp (mvnLogDensity 0 cov θ)
      * observedLikelihood P cats.length (y i) θ) grid
      (fun θ _ => mul_nonneg (Real.exp_pos _).le (observedLikelihood_nonneg P hm.nonneg _ _ _)) h k lo hi hb

/-- C45: with positive probabilities every respondent gets a score (no NaN). -/
theorem C45_defined {d : ℕ} {m : Scorer d} {cats : List ℕ} {P : (Fin d → ℝ) → ℕ → ℕ → ℝ}
    (hm : IsScorer m cats P) (hpos : ∀ θ j c r, cats[j]? = some c → r < c → 0 < P θ j r) (a : AlgAttrs d)
    (hd : d ≤ 4) (points : Option ℕ) (N : ℕ) (y : ℕ → ℕ → Cell)
    (hy : ∀ i, i < N → ValidResponses cats (y i)) (grid : Thetas d) (hg : grid ≠ [])
    (cov : Matrix (Fin d) (Fin d) ℝ) (hcov : cov.PosDef)
    (hgrid : eapGrid a (points.getD (eapDefaultPoints d)) = .ok (grid, cov)) :
    ∃ scores, eapScores m a (rowsOf N cats.length y) points = .ok scores ∧ scores.length = N ∧
      none ∉ scores := by
  refine ⟨_, C45_posterior_mean hm a hd points N y hy grid hg cov hcov hgrid, by simp, ?_⟩
  intro hmem
  obtain ⟨i, hi, h⟩ := List.mem_map.1 hmem
  split at h
  · next h0 =>
    obtain ⟨θ, hθ⟩ := List.exists_mem_of_ne_nil grid hg
    refine absurd h0 (list_sum_pos_of_mem grid _ (fun θ _ => mul_nonneg (Real.exp_pos _).le
      (observedLikelihood_nonneg P hm.nonneg _ _ _)) θ hθ (mul_pos (Real.exp_pos _) ?_)).ne'
    unfold observedLikelihood
    apply Finset.prod_pos
    intro j hj
    split
    · exact zero_lt_one
    · next hμ =>
      obtain ⟨c, hc⟩ := getElem?_of_lt cats j (Finset.mem_range.1 hj)
      obtain ⟨r, hr, hrc⟩ := hy i (List.mem_range.1 hi) j c hc (by simpa using hμ)
      rw [hr]
      exact hpos θ j c r hc hrc
  · simp at h

/-- C45: the score of a respondent depends on their own observed responses only: not on the other rows, on
their number, nor on how missing responses are coded. -/
theorem C45_own_responses {d : ℕ} {m : Scorer d} {cats : List ℕ} {P : (Fin d → ℝ) → ℕ → ℕ → ℝ}
    (hm : IsScorer m cats P) (a : AlgAttrs d) (hd : d ≤ 4) (points : Option ℕ) (N N' : ℕ)
    (y y' : ℕ → ℕ → Cell) (hy : ∀ i, i < N → ValidResponses cats (y i))
    (hy' : ∀ i, i < N' → ValidResponses cats (y' i)) (grid : Thetas d) (hg : grid ≠ [])
    (cov : Matrix (Fin d) (Fin d) ℝ) (hcov : cov.PosDef)
    (hgrid : eapGrid a (points.getD (eapDefaultPoints d)) = .ok (grid, cov)) (i i' : ℕ) (hi : i < N)
    (hi' : i' < N') (hmiss : ∀ j, j < cats.length → cellMissing (y i j) = cellMissing (y' i' j))
    (hobs : ∀ j, j < cats.length → cellMissing (y i j) = false → y i j = y' i' j) :
    ∃ s s', eapScores m a (rowsOf N cats.length y) points = .ok s ∧
      eapScores m a (rowsOf N' cats.length y') points = .ok s' ∧ s[i]? = s'[i']? := by
  refine ⟨_, _, C45_posterior_mean hm a hd points N y hy grid hg cov hcov hgrid,
    C45_posterior_mean hm a hd points N' y' hy' grid hg cov hcov hgrid, ?_⟩
  have e : observedLikelihood P cats.length (y i) = observedLikelihood P cats.length (y' i') := by
    funext θ
    unfold observedLikelihood
    apply Finset.prod_congr rfl
    intro j hj
    have hj := Finset.mem_range.1 hj
    rw [← hmiss j hj]
    by_cases h : cellMissing (y i j) = true
    · simp [h]
    · rw [hobs j hj (by simpa using h)]
  rw [List.getElem?_map, List.getElem?_map, List.getElem?_range hi, List.getElem?_range hi']
  simp only [Option.map_some, e]

/-- C45: a respondent without observed responses gets the mean of the discretised prior, whatever the
model. -/
theorem C45_all_missing {d : ℕ} {m : Scorer d} {cats : List ℕ} {P : (Fin d → ℝ) → ℕ → ℕ → ℝ}
    (hm : IsScorer m cats P) (a : AlgAttrs d) (hd : d ≤ 4) (points : Option ℕ) (N : ℕ) (y : ℕ → ℕ → Cell)
    (hy : ∀ i, i < N → ValidResponses cats (y i)) (grid : Thetas d) (hg : grid ≠ [])
    (cov : Matrix (Fin d) (Fin d) ℝ) (hcov : cov.PosDef)
    (hgrid : eapGrid a (points.getD (eapDefaultPoints d)) = .ok (grid, cov)) (i : ℕ) (hi : i < N)
    (hmiss : ∀ j, j < cats.length → cellMissing (y i j) = true) :
    ∃ s, eapScores m a (rowsOf N cats.length y) points = .ok s ∧
      s[i]? = some (some fun k => (grid.map fun θ => Real.exp (mvnLogDensity 0 cov θ) * θ k).sum
        / (grid.map fun θ => Real.exp (mvnLogDensity 0 cov θ)).sum) := by
  refine ⟨_, C45_posterior_mean hm a hd points N y hy grid hg cov hcov hgrid, ?_⟩
  have e : ∀ θ, observedLikelihood P cats.length (y i) θ = 1 := by
    intro θ
    unfold observedLikelihood
    apply Finset.prod_eq_one
    intro j hj
    rw [if_pos (hmiss j (Finset.mem_range.1 hj))]
  rw [List.getElem?_map, List.getElem?_range hi]
  simp only [Option.map_some, e, mul_one]
  rw [if_neg]
  obtain ⟨θ, hθ⟩ := List.exists_mem_of_ne_nil grid hg
  exact (list_sum_pos_of_mem grid _ (fun θ _ => (Real.exp_pos _).le) θ hθ (Real.exp_pos _)).ne'

/-- C45: more than four latent variables and a covariance that is not positive definite are refused. -/
theorem C45_refused {d : ℕ} (m : Scorer d) (a : AlgAttrs d) (data : List (List Cell)) (points : Option ℕ) :
    (4 < d → eapScores m a data points = .error .valueError) ∧
      (∀ grid cov, eapGrid a (points.getD (eapDefaultPoints d)) = .ok (grid, cov) → ¬ cov.PosDef →
        eapScores m a data points = .error .valueError) := by
  constructor
  · intro h; unfold eapScores; rw [if_pos h]
  · intro grid cov h hc
    unfold eapScores
    by_cases hd : 4 < d
    · rw [if_pos hd]
    · rw [if_neg hd, h]
      show eapOnGrid m data grid cov = _
      unfold eapOnGrid mvnLogProbs
      rw [if_neg hc]; rfl


/-! ## C46 -/

/-- C46 is false for models fitted by marginal maximum likelihood: EAP scoring raises `ValueError` for every
data set, number of points and fit. -/
theorem C46_mml_false {d : ℕ} (m : Scorer d) (ts : Thetas d) (cov : Matrix (Fin d) (Fin d) ℝ) (oneHot : Bool)
    (imputation : Option String) (data : List (List Cell)) (points : Option ℕ) :
    eapScores m (Algorithm.mml.afterFit ts cov oneHot imputation) data points = .error .valueError := by
  unfold eapScores
  by_cases h : 4 < d
  · rw [if_pos h]
  · rw [if_neg h]; rfl

/-- C46 for the other algorithms: after a fit by JML or an autoencoder, EAP scoring returns a score for every
respondent, provided there are at most four latent variables and the training scores have a positive definite
sample covariance. Missing: models fitted by MML (`C46_mml_false`), and fits with collinear or fewer than
two training scores, which are refused. -/
theorem C46_scores_partial {d : ℕ} {m : Scorer d} {cats : List ℕ} {P : (Fin d → ℝ) → ℕ → ℕ → ℝ}
    (hm : IsScorer m cats P) (hpos : ∀ θ j c r, cats[j]? = some c → r < c → 0 < P θ j r) (alg : Algorithm)
    (halg : alg ≠ .mml) (ts : Thetas d) (hts : ts ≠ []) (hcov : (sampleCov ts).PosDef)
    (cov : Matrix (Fin d) (Fin d) ℝ) (oneHot : Bool) (imputation : Option String) (hd : d ≤ 4)
    (points : Option ℕ) (hpts : ∀ n, points = some n → 0 < n) (N : ℕ) (y : ℕ → ℕ → Cell)
    (hy : ∀ i, i < N → ValidResponses cats (y i)) :
    ∃ scores, eapScores m (alg.afterFit ts cov oneHot imputation) (rowsOf N cats.length y) points = .ok scores ∧
      scores.length = N ∧ none ∉ scores := by
  have ha : (alg.afterFit ts cov oneHot imputation).trainingThetas = some (some ts) := by
    cases alg <;> simp_all [Algorithm.afterFit]
  have hn : 0 < points.getD (eapDefaultPoints d) := by
    cases points with
    | none => simp only [Option.getD_none, eapDefaultPoints]; split_ifs <;> norm_num
    | some n => exact hpts n rfl
  have hlen := length_cartesianProd (fun k => linspace
    (columnMin (ts.map fun t => t k) - (columnMax (ts.map fun t => t k) - columnMin (ts.map fun t => t k)) * 0.25)
    (columnMax (ts.map fun t => t k) + (columnMax (ts.map fun t => t k) - columnMin (ts.map fun t => t k)) * 0.25)
    (points.getD (eapDefaultPoints d))) _ fun k => length_linspace _ _ _
  refine C45_defined hm hpos (alg.afterFit ts cov oneHot imputation) hd points N y hy _ ?_ (sampleCov ts) hcov
    (?_ : _ = Except.ok (cartesianProd fun k => linspace
    (columnMin (ts.map fun t => t k) - (columnMax (ts.map fun t => t k) - columnMin (ts.map fun t => t k)) * 0.25)
    (columnMax (ts.map fun t => t k) + (columnMax (ts.map fun t => t k) - columnMin (ts.map fun t => t k)) * 0.25)
    (points.getD (eapDefaultPoints d)), sampleCov ts))
  · intro h
    rw [h] at hlen
    simp only [List.length_nil] at hlen
    exact absurd hlen.symm (pow_pos hn d).ne'
  · unfold eapGrid thetaGrid
    rw [ha]
    simp only [hts, if_false]
    rfl

/-- C46: a fit whose training scores do not have a positive definite sample covariance (for example a single
respondent) is refused too. -/
theorem C46_singular {d : ℕ} (m : Scorer d) (a : AlgAttrs d) (ts : Thetas d)
    (ha : a.trainingThetas = some (some ts)) (hne : ts ≠ []) (hsing : ¬ (sampleCov ts).PosDef)
    (data : List (List Cell)) (points : Option ℕ) : eapScores m a data points = .error .valueError := by
  obtain ⟨g, hg⟩ : ∃ g, eapGrid a (points.getD (eapDefaultPoints d)) = .ok (g, sampleCov ts) := by
    unfold eapGrid thetaGrid
    rw [ha]
    simp only [hne, if_false]
    exact ⟨_, rfl⟩
  exact (C45_refused m a data points).2 g _ hg hsing

/-- One training respondent: the sample covariance is never positive definite. -/
theorem C46_one_respondent {d : ℕ} (m : Scorer (d + 1)) (a : AlgAttrs (d + 1)) (t : Fin (d + 1) → ℝ)
    (ha : a.trainingThetas = some (some [t])) (data : List (List Cell)) (points : Option ℕ) :
    eapScores m a data points = .error .valueError := by
  refine C46_singular m a [t] ha (by simp) ?_ data points
  intro h
  have h0 := h.diag_pos (i := 0)
  simp [sampleCov] at h0

/-! ## C48 -/

/-- C48: with quadrature points `θ g` and positive weights `w g`, `g < G`, the MML training loss is minus the
sum over respondents of the log of the weighted sum of the likelihoods of the respondent's observed
responses; it is NaN exactly when that weighted sum is zero for some respondent. -/
theorem C48_objective {d : ℕ} {m : Scorer d} {cats : List ℕ} {P : (Fin d → ℝ) → ℕ → ℕ → ℝ}
    (hm : IsScorer m cats P) (N G : ℕ) (y : ℕ → ℕ → Cell) (hy : ∀ i, i < N → ValidResponses cats (y i))
    (θ : ℕ → Fin d → ℝ) (w : ℕ → ℝ) (hw : ∀ g, g < G → 0 < w g) :
    ((∀ i, i < N → ∑ g ∈ Finset.range G, w g * observedLikelihood P cats.length (y i) (θ g) ≠ 0) →
      mmlLoss m (rowsOf N cats.length y) ((List.range G).map θ) ((List.range G).map fun g => Real.log (w g))
        = .ok (some (-∑ i ∈ Finset.range N,
            Real.log (∑ g ∈ Finset.range G, w g * observedLikelihood P cats.length (y i) (θ g))))) ∧
    ((∃ i, i < N ∧ ∑ g ∈ Finset.range G, w g * observedLikelihood P cats.length (y i) (θ g) = 0) →
      mmlLoss m (rowsOf N cats.length y) ((List.range G).map θ) ((List.range G).map fun g => Real.log (w g))
        = .ok none) := by
  have hN : (rowsOf N m.items y).length = N := by simp [rowsOf]
  have hcol : ∀ i, i < N → shiftedLogSumExp ((rowsOf G N fun g i => Logit.add (.fin (Real.log (w g)))
        (logLikAt P m.items (y i) (((List.range G).map θ).getD g 0))).map fun r => r.getD i .negInf)
      = if ∑ g ∈ Finset.range G, w g * observedLikelihood P m.items (y i) (θ g) = 0 then none
        else some (Real.log (∑ g ∈ Finset.range G, w g * observedLikelihood P m.items (y i) (θ g))) := by
    intro i hi
    rw [shiftedLogSumExp_eq]
    have e : (((rowsOf G N fun g i => Logit.add (.fin (Real.log (w g)))
        (logLikAt P m.items (y i) (((List.range G).map θ).getD g 0))).map fun r => r.getD i .negInf).map
          Logit.exp).sum = ∑ g ∈ Finset.range G, w g * observedLikelihood P m.items (y i) (θ g) := by
      rw [← list_sum_range]
      simp only [rowsOf, List.map_map]
      congr 1
      apply List.map_congr_left
      intro g hg
      have hg := List.mem_range.1 hg
      simp only [Function.comp]
      rw [List.getD_eq_getElem?_getD, List.getElem?_map, List.getElem?_range hi]
      simp only [Option.map_some, Option.getD_some]
      rw [List.getD_eq_getElem?_getD, List.getElem?_map, List.getElem?_range hg]
      simp only [Option.map_some, Option.getD_some]
      rw [exp_add, exp_logLikAt P hm.nonneg]
      simp only [Logit.exp]
      rw [Real.exp_log (hw g hg)]
    rw [e]
  have hloss : mmlLoss m (rowsOf N m.items y) ((List.range G).map θ) ((List.range G).map fun g => Real.log (w g))
      = .ok (((List.range N).mapM fun i => if ∑ g ∈ Finset.range G, w g * observedLikelihood P m.items (y i) (θ g) = 0
          then none else some (Real.log (∑ g ∈ Finset.range G,
            w g * observedLikelihood P m.items (y i) (θ g)))).map fun vs => -vs.sum) := by
    unfold mmlLoss
    rw [pointMajorLL_eq hm N y hy, hN, repeatInterleave_range]
    simp only [bind, Except.bind, List.length_map, List.length_range]
    rw [zipWith_flatTensor, viewRows_flatTensor]
    simp only [pure, Except.pure]
    congr 2
    exact mapM_option_congr _ _ _ fun i hi => hcol i (List.mem_range.1 hi)
  rw [← hm.items, hloss]
  constructor
  · intro h
    rw [mapM_option_some _ _ (fun i => Real.log (∑ g ∈ Finset.range G,
      w g * observedLikelihood P m.items (y i) (θ g))) fun i hi => if_neg (h i (List.mem_range.1 hi))]
    simp only [Option.map_some]
    rw [list_sum_range]
  · rintro ⟨i, hi, h⟩
    rw [mapM_option_none _ _ ⟨i, List.mem_range.2 hi, if_pos h⟩]
    rfl

/-! ## C65 -/

/-- C65, the candidates `thetas` (all training scores, or the sample of them): the starting value of every
respondent is the first candidate at which the likelihood of the respondent's own observed responses is
largest. -/
theorem C65_candidates {d : ℕ} {m : Scorer d} {cats : List ℕ} {P : (Fin d → ℝ) → ℕ → ℕ → ℝ}
    (hm : IsScorer m cats P) (N : ℕ) (y : ℕ → ℕ → Cell) (hy : ∀ i, i < N → ValidResponses cats (y i))
    (thetas : Thetas d) (hne : thetas ≠ []) :
    ∃ start, initialFromCandidates m (rowsOf N cats.length y) thetas = .ok start ∧ start.length = N ∧
      ∀ i, i < N → ∃ (b : ℕ) (t : Fin d → ℝ), start[i]? = some t ∧ thetas[b]? = some t ∧
        (∀ u ∈ thetas, observedLikelihood P cats.length (y i) u ≤ observedLikelihood P cats.length (y i) t) ∧
        ∀ (c : ℕ) (u : Fin d → ℝ), c < b → thetas[c]? = some u →
          observedLikelihood P cats.length (y i) u < observedLikelihood P cats.length (y i) t := by
  have hN : (rowsOf N m.items y).length = N := by simp [rowsOf]
  have hT : 0 < thetas.length := List.length_pos_iff.2 hne
  set L : ℕ → List Logit := fun i => (List.range thetas.length).map fun g =>
    logLikAt P m.items (y i) (thetas.getD g 0) with hL
  have hLne : ∀ i, L i ≠ [] := by
    intro i h
    have := congrArg List.length h
    simp [hL] at this
    exact hne this
  have hLlen : ∀ i, (L i).length = thetas.length := by intro i; simp [hL]
  have hLat : ∀ (i g : ℕ) (t : Fin d → ℝ), thetas[g]? = some t → (L i)[g]? = some (logLikAt P m.items (y i) t) := by
    intro i g t ht
    have hg := lt_of_getElem?_some ht
    simp only [hL]
    rw [List.getElem?_map, List.getElem?_range hg]
    simp [List.getD_eq_getElem?_getD, ht]
  have harg : ∀ i, argmaxLogit (L i) < thetas.length := by
    intro i
    obtain ⟨v, hv, _⟩ := argmaxLogit_spec (L i) (hLne i)
    have := lt_of_getElem?_some hv
    rwa [hLlen] at this
  rw [← hm.items]
  have hstart : initialFromCandidates m (rowsOf N m.items y) thetas
      = .ok ((List.range N).map fun i => thetas.getD (argmaxLogit (L i)) 0) := by
    unfold initialFromCandidates
    rw [respondentMajorLL_eq hm N y hy thetas]
    simp only [bind, Except.bind, hN]
    rw [viewRows_flatTensor]
    apply mapM_ok
    intro i hi
    have hi := List.mem_range.1 hi
    have hrow : (rowsOf N thetas.length fun i g => logLikAt P m.items (y i) (thetas.getD g 0))[i]?
        = some (L i) := by
      simp only [rowsOf, List.getElem?_map, List.getElem?_range hi]; rfl
    rw [hrow]
    simp only
    obtain ⟨t, ht⟩ := getElem?_of_lt thetas _ (harg i)
    rw [tile_getElem? N thetas.length thetas rfl i _ hi (harg i), ht]
    simp [List.getD_eq_getElem?_getD, ht]
  refine ⟨_, hstart, by simp, ?_⟩
  intro i hi
  obtain ⟨t, ht⟩ := getElem?_of_lt thetas _ (harg i)
  obtain ⟨v, hv, h1, h2⟩ := argmaxLogit_spec (L i) (hLne i)
  rw [hLat i _ t ht] at hv
  obtain rfl := Option.some.inj hv
  refine ⟨argmaxLogit (L i), t, ?_, ht, ?_, ?_⟩
  · rw [List.getElem?_map, List.getElem?_range hi]
    simp [List.getD_eq_getElem?_getD, ht]
  · intro u hu
    obtain ⟨g, hg⟩ := List.mem_iff_getElem?.1 hu
    have := h1 g _ (hLat i g u hg)
    rwa [exp_logLikAt P hm.nonneg, exp_logLikAt P hm.nonneg] at this
  · intro c u hc hu
    have := h2 c _ hc (hLat i c u hu)
    rwa [exp_logLikAt P hm.nonneg, exp_logLikAt P hm.nonneg] at this

/-- C65 when respondents times training scores do not exceed a million. Missing: larger data, where only a
random sample of the training scores or their median is used (`C65_sample`, `C65_large_false`). -/
theorem C65_best_training_score_partial {d : ℕ} {m : Scorer d} {cats : List ℕ}
    {P : (Fin d → ℝ) → ℕ → ℕ → ℝ} (hm : IsScorer m cats P) (N : ℕ) (y : ℕ → ℕ → Cell)
    (hy : ∀ i, i < N → ValidResponses cats (y i)) (training : Thetas d) (hne : training ≠ [])
    (hsize : N * training.length ≤ 1000000) (perm : List ℕ) (i : ℕ) (hi : i < N) :
    ∃ t ∈ training, (initialTheta m (rowsOf N cats.length y) training perm)[i]? = some t ∧
      ∀ u ∈ training, observedLikelihood P cats.length (y i) u ≤ observedLikelihood P cats.length (y i) t := by
  obtain ⟨start, hs, _, h⟩ := C65_candidates hm N y hy training hne
  obtain ⟨b, t, h1, h2, h3, _⟩ := h i hi
  have hN : (rowsOf N cats.length y).length = N := by simp [rowsOf]
  refine ⟨t, List.mem_of_getElem? h2, ?_, h3⟩
  unfold initialTheta
  rw [hN, if_neg (by omega), hs]
  exact h1

/-- C65 for larger data with at most half a million respondents: the best among the sampled training
scores, a permutation prefix of `⌊10⁶ / N⌋` of them. -/
theorem C65_sample {d : ℕ} {m : Scorer d} {cats : List ℕ}
    {P : (Fin d → ℝ) → ℕ → ℕ → ℝ} (hm : IsScorer m cats P) (N : ℕ) (y : ℕ → ℕ → Cell)
    (hy : ∀ i, i < N → ValidResponses cats (y i)) (training : Thetas d)
    (hsize : 1000000 < N * training.length) (hN5 : N ≤ 500000) (perm : List ℕ)
    (hperm : perm.Perm (List.range training.length)) (i : ℕ) (hi : i < N) :
    ∃ t ∈ training, (initialTheta m (rowsOf N cats.length y) training perm)[i]? = some t ∧
      ∀ c ∈ perm.take (1000000 / N), ∀ u, training[c]? = some u →
        observedLikelihood P cats.length (y i) u ≤ observedLikelihood P cats.length (y i) t := by
  have hN : (rowsOf N cats.length y).length = N := by simp [rowsOf]
  set sampled := (perm.take (1000000 / N)).filterMap fun i => training[i]? with hsd
  have hpl : perm.length = training.length := by rw [hperm.length_eq]; simp
  have h2 : 0 < 1000000 / N := Nat.div_pos (by omega) (by omega)
  have hsn : sampled ≠ [] := by
    have hT : 0 < training.length := by
      rcases Nat.eq_zero_or_pos training.length with h | h
      · rw [h] at hsize; simp at hsize
      · exact h
    obtain ⟨c, hc⟩ := getElem?_of_lt perm 0 (by omega)
    have hcm : c ∈ perm.take (1000000 / N) := by
      apply List.mem_of_getElem? (i := 0)
      rw [List.getElem?_take_of_lt h2, hc]
    have hcr : c < training.length := by
      have := hperm.subset (List.mem_of_getElem? hc)
      exact List.mem_range.1 this
    obtain ⟨u, hu⟩ := getElem?_of_lt training c hcr
    intro hnil
    have : u ∈ sampled := List.mem_filterMap.2 ⟨c, hcm, hu⟩
    rw [hnil] at this; simp at this
  obtain ⟨start, hs, _, h⟩ := C65_candidates hm N y hy sampled hsn
  obtain ⟨b, t, h1, h3, h4, _⟩ := h i hi
  have hts := List.mem_of_getElem? h3
  obtain ⟨c, _, hc⟩ := List.mem_filterMap.1 hts
  refine ⟨t, List.mem_of_getElem? hc, ?_, ?_⟩
  · unfold initialTheta
    rw [hN, if_pos hsize, if_neg (by omega)]
    simp only
    rw [← hsd, hs]
    exact h1
  · intro c hc u hu
    exact h4 u (List.mem_filterMap.2 ⟨c, hc, hu⟩)

/-! ## A concrete model and data -/

/-- Two binary items with slope 1 and intercept 0. -/
noncomputable def exScore : GPC :=
  { lv := 1, cats := [2, 2], rel := [[true], [true]], weight := [1, 1], bias := [0, 0] }

theorem exScore_wf : exScore.WF where
  catsPos := by simp [exScore]
  relLen := by simp [exScore]
  relRow := by simp [exScore]
  weightLen := by simp [exScore, countTrue]
  biasLen := by simp [exScore]

theorem exScore_isScorer : IsScorer (exScore.scorer 1) exScore.cats fun θ => tableProb (exScore.probs (List.ofFn θ)) :=
  exScore.isScorer exScore_wf (by simp [exScore]) 1

theorem GPC.tableProb_pos (m : GPC) (hwf : m.WF) (θ : List ℝ) (j c r : ℕ) (hc : m.cats[j]? = some c)
    (hr : r < c) : 0 < tableProb (m.probs θ) j r := by
  obtain ⟨p, hp, _, hpos⟩ := (C01_gpc_distribution m hwf θ).2 j c hc
  obtain ⟨x, hx, hx0⟩ := hpos r hr
  simp [tableProb, hp, hx, hx0]

/-- A respondent who answered 1 on the first item and skipped the second, and one with two answers. -/
def exResponses : ℕ → ℕ → Cell := fun i j => if i = 0 ∧ j = 1 then none else some 1

theorem exResponses_valid (i : ℕ) : ValidResponses exScore.cats (exResponses i) := by
  intro j c hc hμ
  have hc2 : c = 2 := by
    have := List.mem_of_getElem? hc
    simpa [exScore] using this
  unfold exResponses at hμ ⊢
  split at hμ
  · simp [cellMissing] at hμ
  · next h => exact ⟨1, by rw [if_neg h]; rfl, by omega⟩

/-- Training scores 0 and 2: sample variance 2. -/
theorem exTraining_cov : (sampleCov [fun _ : Fin 1 => (0:ℝ), fun _ => 2]).PosDef := by
  have : sampleCov [fun _ : Fin 1 => (0:ℝ), fun _ => 2] = Matrix.diagonal fun _ => 2 := by
    ext a b
    have hab : a = b := Subsingleton.elim a b
    subst hab
    simp only [sampleCov, Matrix.of_apply, Matrix.diagonal_apply_eq]
    norm_num
  rw [this]
  exact Matrix.PosDef.diagonal fun _ => by norm_num

/-- EAP scores of the two respondents exist after a JML fit with these training scores. -/
example : ∃ scores, eapScores (exScore.scorer 1)
      (Algorithm.jml.afterFit [fun _ => 0, fun _ => 2] 1 false none) (rowsOf 2 exScore.cats.length exResponses)
      none = .ok scores ∧ scores.length = 2 ∧ none ∉ scores :=
  C46_scores_partial exScore_isScorer (fun θ j c r hc hr => exScore.tableProb_pos exScore_wf _ j c r hc hr) .jml
    (by simp) _ (by simp) exTraining_cov 1 false none (by norm_num) none (by simp) 2 exResponses
    fun i _ => exResponses_valid i

/-- The hypotheses of `C45_grid` and, with it, of `C45_posterior_mean` hold for this fit. -/
example : ∃ grid cov, eapGrid (Algorithm.jml.afterFit [fun _ : Fin 1 => (0:ℝ), fun _ => 2] 1 false none) 200
      = .ok (grid, cov) ∧ grid.length = 200 ^ 1 := by
  obtain ⟨g, c, h1, h2, _⟩ := C45_grid (Algorithm.jml.afterFit [fun _ : Fin 1 => (0:ℝ), fun _ => 2] 1 false none)
    _ (by simp) rfl 200 (fun _ => 0) (fun _ => 2)
    (fun k => ⟨by simp, by rintro x ⟨t, ht, rfl⟩; simp at ht; rcases ht with rfl | rfl <;> norm_num⟩)
    (fun k => ⟨by simp, by rintro x ⟨t, ht, rfl⟩; simp at ht; rcases ht with rfl | rfl <;> norm_num⟩)
  exact ⟨g, c, h1, h2⟩

/-- The MML loss of the two respondents with three quadrature points. -/
example : ∃ v : ℝ, mmlLoss (exScore.scorer 1) (rowsOf 2 exScore.cats.length exResponses)
      ((List.range 3).map fun g _ => (g : ℝ) - 1)
      ((List.range 3).map fun g => Real.log ((fun _ => 1 / 3 : ℕ → ℝ) g)) = .ok (some v) := by
  refine ⟨_, (C48_objective exScore_isScorer 2 3 exResponses (fun i _ => exResponses_valid i)
    (fun g _ => (g : ℝ) - 1) (fun _ => 1 / 3) (fun _ _ => by norm_num)).1 ?_⟩
  intro i _
  apply ne_of_gt
  apply Finset.sum_pos _ ⟨0, by simp⟩
  intro g _
  refine mul_pos (by norm_num) (Finset.prod_pos ?_)
  intro j hj
  split
  · exact zero_lt_one
  · next hμ =>
    obtain ⟨c, hc⟩ := getElem?_of_lt exScore.cats j (Finset.mem_range.1 hj)
    obtain ⟨r, hr, hrc⟩ := exResponses_valid i j c hc (by simpa using hμ)
    rw [hr]
    exact exScore.tableProb_pos exScore_wf _ j c r hc hrc

/-- Starting values of the two respondents. -/
example : ∃ t ∈ [fun _ : Fin 1 => (0:ℝ), fun _ => 2],
    (initialTheta (exScore.scorer 1) (rowsOf 2 exScore.cats.length exResponses) [fun _ => 0, fun _ => 2] [])[1]?
      = some t ∧ ∀ u ∈ [fun _ : Fin 1 => (0:ℝ), fun _ => 2],
        observedLikelihood (fun θ => tableProb (exScore.probs (List.ofFn θ))) exScore.cats.length (exResponses 1) u
        ≤ observedLikelihood (fun θ => tableProb (exScore.probs (List.ofFn θ))) exScore.cats.length
            (exResponses 1) t :=
  C65_best_training_score_partial exScore_isScorer 2 exResponses (fun i _ => exResponses_valid i) _ (by simp)
    (by simp) [] 1 (by norm_num)

/-- The probability of a 1 on either item is the logistic function of the latent score. -/
theorem exScore_prob (x : ℝ) (j : ℕ) (hj : j < 2) :
    tableProb (exScore.probs [x]) j 1 = logistic x := by
  have hM : exScore.M = 2 := by simp [GPC.M, exScore, maxCats]
  have hp : exScore.itemParameters[j]? = some ([1], [0, 0]) := by
    unfold GPC.itemParameters GPC.weights GPC.biases
    rw [hM]
    simp only [exScore, List.length_cons, List.length_nil]
    interval_cases j <;> simp [viewRows, scatterMask, freeMask, freeRow, maxCats, List.range_succ]
  have hc : exScore.cats[j]? = some 2 := by interval_cases j <;> simp [exScore]
  have h := exScore.probs_row exScore_wf [x] j 2 [1] [0, 0] (fun _ => 0) hc hp (by
    intro k hk; rw [hM] at hk; interval_cases k <;> simp)
  simp only [tableProb, h, Option.bind_some, multinomialLogit, hM]
  simp [Finset.sum_range_succ, dot, logistic]

/-- C65 is false for more than half a million respondents: everybody starts at the median training score. Here
every respondent answered 1 on both items, the training scores are 0 and 1, and everybody starts at 0
although the likelihood is larger at 1. -/
theorem C65_large_false (N : ℕ) (hN : 500000 < N) (perm : List ℕ) :
    ∃ t, (initialTheta (exScore.scorer 1) (rowsOf N 2 fun _ _ => some 1) [fun _ => 0, fun _ => 1] perm)[0]? = some t ∧
      ∃ u ∈ [fun _ : Fin 1 => (0:ℝ), fun _ => 1],
        observedLikelihood (fun θ => tableProb (exScore.probs (List.ofFn θ))) 2 (fun _ => some 1) t
        < observedLikelihood (fun θ => tableProb (exScore.probs (List.ofFn θ))) 2 (fun _ => some 1) u := by
  have hL : (rowsOf N 2 fun _ _ => (some 1 : Cell)).length = N := by simp [rowsOf]
  refine ⟨fun _ => 0, ?_, fun _ => 1, by simp, ?_⟩
  · unfold initialTheta
    rw [hL]
    simp only [List.length_cons, List.length_nil]
    rw [if_pos (by omega), if_pos hN]
    simp only [List.getElem?_replicate]
    rw [if_pos (by omega)]
    congr 1
    funext k
    simp [lowerMedian, List.mergeSort]
  · have key : ∀ x : ℝ, observedLikelihood (fun θ : Fin 1 → ℝ => tableProb (exScore.probs (List.ofFn θ))) 2
        (fun _ => some 1) (fun _ => x) = logistic x * logistic x := by
      intro x
      simp only [observedLikelihood, Finset.prod_range_succ, Finset.prod_range_zero, one_mul, cellMissing,
        responseOf]
      norm_num
      rw [exScore_prob x 0 (by norm_num), exScore_prob x 1 (by norm_num)]
    rw [key, key]
    have h0 : logistic 0 = 1 / 2 := by simp [logistic]; norm_num
    have h1 : 1 / 2 < logistic 1 := by
      unfold logistic
      have : 1 < Real.exp 1 := by simp
      rw [lt_div_iff₀ (by positivity)]
      linarith
    rw [h0]
    nlinarith

end Irt
