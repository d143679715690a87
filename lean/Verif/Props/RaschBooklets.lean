import Verif.Props.Booklets

/-!
# C159: what the answers to booklets say about a 1PL model

The slopes of the 1PL model are fixed. Its intercepts are recovered even if every respondent answers a single item, two items asked together tell the
variance of the population, and nothing tells its mean.
-/

namespace Irt
open Spec MeasureTheory Filter Topology

section Rasch

variable {items : ℕ}

/-- The 1PL model has the probabilities of a 2PL model with all slopes one. -/
theorem onePLWith_same (b : Fin items → ℝ) : (fun θ : Fin 1 → ℝ => tableProb ((onePLWith b).probs (θ 0)))
    = fun θ : Fin 1 → ℝ => tableProb ((simpleTwoPL (fun _ : Fin items => (0 : Fin 1)) (fun _ => 1, b)).probs (List.ofFn θ)) := by
  funext θ j r
  rw [onePLWith_prob, simpleTwoPL_prob]
  simp only [one_mul]

variable {π : Finset (Fin (List.replicate items 2).length) → ℝ} (hπ : ∀ T, 0 ≤ π T) (hsum : ∑ T, π T = 1)
  (hasked : ∀ j : Fin items, ∃ T, 0 < π T ∧ (⟨j, by simp⟩ : Fin (List.replicate items 2).length) ∈ T)
  {C : Matrix (Fin 1) (Fin 1) ℝ} (hC : C.PosDef)

include hC hasked in
/-- If every item is in some booklet that is handed out, what is seen in a population with known variance determines the intercepts. -/
theorem C159_identified (b b' : Fin items → ℝ) (h : ∀ z ∈ possiblySeen (List.replicate items 2) (byBooklet π),
      seenFrom (List.replicate items 2) (byBooklet π) (normalProb (fun θ : Fin 1 → ℝ => tableProb ((onePLWith b).probs (θ 0))) C) z
        = seenFrom (List.replicate items 2) (byBooklet π) (normalProb (fun θ : Fin 1 → ℝ => tableProb ((onePLWith b').probs (θ 0))) C) z) :
    b = b' := by
  funext j
  obtain ⟨T, hT, hj⟩ := hasked j
  have e := booklet_average h hT fun z => if z ⟨j, by simp⟩ = some 1 then 1 else 0
  simp only [seenOf, if_pos hj, Option.some.injEq, onePLWith_same] at e
  rw [simpleTwoPL_right (fun _ : Fin items => (0 : Fin 1)) hC _ j, simpleTwoPL_right (fun _ : Fin items => (0 : Fin 1)) hC _ j] at e
  rcases lt_trichotomy (b j) (b' j) with g | g | g
  · exact absurd e (rightOneAt_mono hC 0 1 g).ne
  · exact g
  · exact absurd e (rightOneAt_mono hC 0 1 g).ne'

/-- A 1PL model in a population with variance `C` gives the answers of a 2PL model with all slopes the standard deviation in a standard normal
population. -/
theorem onePLWith_spread (hC : C.PosDef) (b : Fin items → ℝ) {x : Fin (List.replicate items 2).length → ℕ}
    (hx : x ∈ fullAnswers (List.replicate items 2)) :
    normalProb (fun θ : Fin 1 → ℝ => tableProb ((onePLWith b).probs (θ 0))) C x
      = normalProb (fun θ : Fin 1 → ℝ => tableProb ((simpleTwoPL (fun _ : Fin items => (0 : Fin 1)) (fun _ => √(C 0 0), b)).probs (List.ofFn θ))) 1 x := by
  have hpos : 0 < C 0 0 := hC.diag_pos
  have h := C153_population (simpleTwoPL_scale (fun _ : Fin items => (0 : Fin 1)) (fun _ => 1, b) 0 fun _ => √(C 0 0))
    (by simpa using (Real.sqrt_pos.2 hpos).ne') Matrix.PosDef.one hx
  have e : (Matrix.diagonal fun _ : Fin 1 => √(C 0 0)) * 1 * (Matrix.diagonal fun _ : Fin 1 => √(C 0 0)).transpose = C := by
    ext i j
    fin_cases i; fin_cases j
    simp [Real.mul_self_sqrt hpos.le]
  rw [e] at h
  rw [onePLWith_same]
  simp only [one_mul, Pi.zero_apply, mul_zero, add_zero] at h
  exact h

theorem onePLWith_spread_sum (hC : C.PosDef) (b : Fin items → ℝ) (F : (Fin (List.replicate items 2).length → ℕ) → ℝ) :
    ∑ x ∈ fullAnswers (List.replicate items 2), normalProb (fun θ : Fin 1 → ℝ => tableProb ((onePLWith b).probs (θ 0))) C x * F x
      = ∑ x ∈ fullAnswers (List.replicate items 2),
        normalProb (fun θ : Fin 1 → ℝ => tableProb ((simpleTwoPL (fun _ : Fin items => (0 : Fin 1)) (fun _ => √(C 0 0), b)).probs (List.ofFn θ))) 1 x * F x :=
  Finset.sum_congr rfl fun x hx => by rw [onePLWith_spread hC b hx]

include hasked in
/-- If moreover two items are together in some booklet, what is seen determines the intercepts and the variance of the population. -/
theorem C159_variance (hC : C.PosDef) {C' : Matrix (Fin 1) (Fin 1) ℝ} (hC' : C'.PosDef) (j k : Fin items) (hjk : j ≠ k)
    (htog : Together π (⟨j, by simp⟩ : Fin (List.replicate items 2).length) ⟨k, by simp⟩) (b b' : Fin items → ℝ)
    (h : ∀ z ∈ possiblySeen (List.replicate items 2) (byBooklet π),
      seenFrom (List.replicate items 2) (byBooklet π) (normalProb (fun θ : Fin 1 → ℝ => tableProb ((onePLWith b).probs (θ 0))) C) z
        = seenFrom (List.replicate items 2) (byBooklet π) (normalProb (fun θ : Fin 1 → ℝ => tableProb ((onePLWith b').probs (θ 0))) C') z) :
    b = b' ∧ C = C' := by
  have hpos : 0 < C 0 0 := hC.diag_pos
  have hpos' : 0 < C' 0 0 := hC'.diag_pos
  obtain ⟨T, hT, mj, mk⟩ := htog
  have hone : ∀ i : Fin items, (⟨i, by simp⟩ : Fin (List.replicate items 2).length) ∈ T →
      rightOneAt 1 (0 : Fin 1) (√(C 0 0)) (b i) = rightOneAt 1 (0 : Fin 1) (√(C' 0 0)) (b' i) := by
    intro i hi
    have e := booklet_average h hT fun z => if z ⟨i, by simp⟩ = some 1 then 1 else 0
    simp only [seenOf, if_pos hi, Option.some.injEq] at e
    rw [onePLWith_spread_sum hC b, onePLWith_spread_sum hC' b',
      simpleTwoPL_right (fun _ : Fin items => (0 : Fin 1)) Matrix.PosDef.one _ i,
      simpleTwoPL_right (fun _ : Fin items => (0 : Fin 1)) Matrix.PosDef.one _ i] at e
    exact e
  have htwo : rightBothAt 1 (0 : Fin 1) (√(C 0 0)) (b j) (√(C 0 0)) (b k) = rightBothAt 1 (0 : Fin 1) (√(C' 0 0)) (b' j) (√(C' 0 0)) (b' k) := by
    have e := booklet_average h hT fun z => (if z ⟨j, by simp⟩ = some 1 then 1 else 0) * if z ⟨k, by simp⟩ = some 1 then 1 else 0
    simp only [seenOf, if_pos mj, if_pos mk, Option.some.injEq] at e
    rw [onePLWith_spread_sum hC b, onePLWith_spread_sum hC' b',
      simpleTwoPL_both (fun _ : Fin items => (0 : Fin 1)) Matrix.PosDef.one _ hjk rfl,
      simpleTwoPL_both (fun _ : Fin items => (0 : Fin 1)) Matrix.PosDef.one _ hjk rfl] at e
    exact e
  have key : ∀ {σ σ' u v u' v' : ℝ}, 0 < σ → σ < σ' → rightOneAt 1 (0 : Fin 1) σ u = rightOneAt 1 (0 : Fin 1) σ' u' → rightOneAt 1 (0 : Fin 1) σ v = rightOneAt 1 (0 : Fin 1) σ' v' →
      rightBothAt 1 (0 : Fin 1) σ u σ v < rightBothAt 1 (0 : Fin 1) σ' u' σ' v' := by
    intro σ σ' u v u' v' h0 hlt hu hv
    calc rightBothAt 1 (0 : Fin 1) σ u σ v < rightBothAt 1 (0 : Fin 1) σ' u' σ v := rightBothAt_mono Matrix.PosDef.one 0 hlt h0 hu
      _ = rightBothAt 1 (0 : Fin 1) σ v σ' u' := rightBothAt_comm _ _ _ _ _ _
      _ < rightBothAt 1 (0 : Fin 1) σ' v' σ' u' := rightBothAt_mono Matrix.PosDef.one 0 hlt (h0.trans hlt) hv
      _ = rightBothAt 1 (0 : Fin 1) σ' u' σ' v' := rightBothAt_comm _ _ _ _ _ _
  have hσ : √(C 0 0) = √(C' 0 0) := by
    rcases lt_trichotomy (√(C 0 0)) (√(C' 0 0)) with g | g | g
    · exact absurd htwo (key (Real.sqrt_pos.2 hpos) g (hone j mj) (hone k mk)).ne
    · exact g
    · exact absurd htwo (key (Real.sqrt_pos.2 hpos') g (hone j mj).symm (hone k mk).symm).ne'
  have hCC : C = C' := by
    ext i i'
    fin_cases i; fin_cases i'
    exact (Real.sqrt_inj hpos.le hpos'.le).1 hσ
  subst hCC
  exact ⟨C159_identified hasked hC b b' h, rfl⟩

/-- The mean of the population cannot be told from the intercepts: a mean `μ` gives the same answers as adding `μ` to all intercepts. -/
theorem C159_mean (hC : C.PosDef) (b : Fin items → ℝ) (μ : ℝ) {x : Fin (List.replicate items 2).length → ℕ}
    (hx : x ∈ fullAnswers (List.replicate items 2)) :
    normalProbAt (fun θ : Fin 1 → ℝ => tableProb ((onePLWith b).probs (θ 0))) (fun _ => μ) C x
      = normalProb (fun θ : Fin 1 → ℝ => tableProb ((onePLWith fun j => b j + μ).probs (θ 0))) C x := by
  have h := C153_population (simpleTwoPL_scale (fun _ : Fin items => (0 : Fin 1)) (fun _ => 1, b) (fun _ => μ) fun _ => 1)
    (by simp) hC hx
  simp only [Matrix.diagonal_one, Matrix.transpose_one, Matrix.mul_one, one_mul] at h
  rw [onePLWith_same, onePLWith_same]
  exact h

variable {hg : ℕ → Except PyErr (List ℝ × List ℝ)} (hrules : ExactRules hg)
  {ch : Matrix (Fin 1) (Fin 1) ℝ → Except PyErr (Matrix (Fin 1) (Fin 1) ℝ)} (cov : Option CovArg) {L : Matrix (Fin 1) (Fin 1) ℝ}
  (hcov : cov = none ∧ C = 1 ∨ ∃ c, cov = some c ∧ c.rows = 1 ∧ c.cols = 1 ∧ C = Matrix.of fun i j : Fin 1 => c.entry i j)
  (hL : ch C = .ok L) (hchol : IsCholesky C L)

include hC hπ hsum hasked hrules hcov hL hchol in
/-- C159: with enough Gauss-Hermite points and enough respondents, each of whom may answer as little as one item, the intercepts with the smallest loss
within bounds are within `ε` of the true ones plus the mean of the population, but for a risk as small as one likes. -/
theorem C159_onePL (hitems : 0 < items) (β : ℝ) (b₀ : Fin items → ℝ) (μ : ℝ) (ε : ℝ) (hε : 0 < ε) :
    ∃ n₀ : ℕ, 1 ≤ n₀ ∧ ∀ risk : ℝ, 0 < risk → ∃ N₀ : ℕ, ∀ n, n₀ ≤ n → ∀ N, N₀ ≤ N →
      ∀ pts lw, mmlIntegration hg ch "gauss_hermite" (some n) cov = .ok (pts, lw) →
      ∀ estimate : (Fin N → Fin (List.replicate items 2).length → Option ℕ) → Fin items → ℝ,
      (∀ s ∈ seenSamples N (List.replicate items 2) (byBooklet π), (∀ j, |estimate s j| ≤ β) ∧
        ∃ L L' : ℝ, mmlLoss (onePLWith fun j => b₀ j + μ).scorer (rowsOf N (List.replicate items 2).length (seenCells s)) pts lw = .ok (some L) ∧
          mmlLoss (onePLWith (estimate s)).scorer (rowsOf N (List.replicate items 2).length (seenCells s)) pts lw = .ok (some L') ∧ L' ≤ L) →
      ∀ far : Finset (Fin N → Fin (List.replicate items 2).length → Option ℕ), far ⊆ seenSamples N (List.replicate items 2) (byBooklet π) →
        (∀ s ∈ far, ∃ j, ε ≤ |estimate s j - (b₀ j + μ)|) →
        ∑ s ∈ far, seenSampleProb (seenFrom (List.replicate items 2) (byBooklet π)
          (normalProbAt (fun θ : Fin 1 → ℝ => tableProb ((onePLWith b₀).probs (θ 0))) (fun _ => μ) C)) s ≤ risk := by
  have hseen : seenFrom (List.replicate items 2) (byBooklet π) (normalProbAt (fun θ : Fin 1 → ℝ => tableProb ((onePLWith b₀).probs (θ 0))) (fun _ => μ) C)
      = seenFrom (List.replicate items 2) (byBooklet π) (normalProb (fun θ : Fin 1 → ℝ => tableProb ((onePLWith fun j => b₀ j + μ).probs (θ 0))) C) := by
    funext z
    exact Finset.sum_congr rfl fun x hx => by rw [C159_mean hC b₀ μ hx]
  rw [hseen]
  obtain ⟨n₀, h1, h⟩ := C158_parameters (byBooklet_asking _ hπ hsum) (fun b : Fin items → ℝ => (onePLWith b).scorer)
    (fun b θ => tableProb ((onePLWith b).probs (θ 0))) (fun b => (onePLWith b).isScorer (onePLWith_wf b) hitems)
    (fun b => (onePLWith b).positive (onePLWith_wf b)) onePLWith_proper onePLWith_jointly
    (fun b θ j r => by
      have := simpleTwoPL_le_one (fun _ : Fin items => (0 : Fin 1)) (fun _ => 1, b) θ j r
      rwa [← congrFun (congrFun (congrFun (onePLWith_same b) θ) j) r] at this)
    hrules cov hcov hC hL hchol (Set.univ.pi fun _ => Set.Icc (-β) β) (isCompact_univ_pi fun _ => isCompact_Icc) (fun j => b₀ j + μ)
    (fun b _ hb => C159_identified hasked hC b _ hb) (Metric.ball _ ε) Metric.isOpen_ball (Metric.mem_ball_self hε)
  refine ⟨n₀, h1, fun risk hrisk => ?_⟩
  obtain ⟨N₀, hN₀⟩ := h risk hrisk
  refine ⟨N₀, fun n hn N hN pts lw hok estimate hest far hfar hout => hN₀ n hn N hN pts lw hok estimate
    (fun s hs => ⟨fun j _ => abs_le.1 ((hest s hs).1 j), (hest s hs).2⟩) far hfar fun s hs hin => ?_⟩
  obtain ⟨j, hj⟩ := hout s hs
  have := (dist_pi_lt_iff hε).1 (Metric.mem_ball.1 hin) j
  rw [Real.dist_eq] at this
  linarith

/-- Within bounds there are, for every sample, intercepts with the smallest loss. -/
theorem C159_exists (hitems : 0 < items) (π : Finset (Fin (List.replicate items 2).length) → ℝ) (pts : Thetas 1) (lw : List ℝ)
    (hlen : lw.length = pts.length) (hne : pts ≠ []) {β : ℝ} (hβ : 0 ≤ β) (N : ℕ)
    (s : Fin N → Fin (List.replicate items 2).length → Option ℕ) (hs : s ∈ seenSamples N (List.replicate items 2) (byBooklet π)) :
    ∃ b : Fin items → ℝ, (∀ j, |b j| ≤ β) ∧
      ∃ L', mmlLoss (onePLWith b).scorer (rowsOf N (List.replicate items 2).length (seenCells s)) pts lw = .ok (some L') ∧
      ∀ b' : Fin items → ℝ, (∀ j, |b' j| ≤ β) →
        ∃ L, mmlLoss (onePLWith b').scorer (rowsOf N (List.replicate items 2).length (seenCells s)) pts lw = .ok (some L) ∧ L' ≤ L := by
  have hloss : ∀ b : Fin items → ℝ, _ := fun b => seenSample_loss ((onePLWith b).isScorer (onePLWith_wf b) hitems)
    ((onePLWith b).positive (onePLWith_wf b)) (onePLWith_proper b) pts lw hlen hne hs
  have hc : Continuous fun b : Fin items → ℝ =>
      -(∑ i, Real.log (seenProb (List.replicate items 2) (byBooklet π) (fun θ : Fin 1 → ℝ => tableProb ((onePLWith b).probs (θ 0))) pts
        (lw.map Real.exp) (s i)) - ∑ i, Real.log (byBooklet π (s i)) + N * Real.log (lw.map Real.exp).sum) := by
    refine Continuous.neg (Continuous.add (Continuous.sub (continuous_finsetSum _ fun i _ => Continuous.log ?_ fun b => ?_) continuous_const)
      continuous_const)
    · unfold seenProb
      refine continuous_finsetSum _ fun x _ => Continuous.mul ?_ continuous_const
      exact continuousOn_univ.1 (continuousOn_populationProb (fun (b : Fin items → ℝ) θ => tableProb ((onePLWith b).probs (θ 0))) Set.univ
        (fun θ j r => (onePLWith_continuous θ j r).continuousOn) pts _ _)
    · exact (seenProb_pos ((onePLWith b).positive (onePLWith_wf b)) pts lw hlen hne (onePLWith_proper b) (Fintype.mem_piFinset.1 hs i)).ne'
  obtain ⟨b, hb, hmin⟩ := (isCompact_univ_pi fun _ : Fin items => isCompact_Icc (a := -β) (b := β)).exists_isMinOn
    ⟨fun _ => 0, fun _ _ => ⟨by linarith, hβ⟩⟩ hc.continuousOn
  exact ⟨b, fun j => abs_le.2 (hb j (Set.mem_univ j)), _, hloss b, fun b' hb' => ⟨_, hloss b', hmin fun j _ => abs_le.1 (hb' j)⟩⟩

end Rasch

/-! ## Three items of which every respondent answers one -/

/-- One of three items, each with the same probability. -/
noncomputable def exSingles (T : Finset (Fin (List.replicate 3 2).length)) : ℝ := if T.card = 1 then 1 / 3 else 0

theorem exSingles_asked (j : Fin 3) : ∃ T, 0 < exSingles T ∧ (⟨j, by simp⟩ : Fin (List.replicate 3 2).length) ∈ T := by
  refine ⟨{⟨j, by simp⟩}, ?_, by simp⟩
  rw [exSingles, if_pos (Finset.card_singleton _)]
  norm_num

theorem exSingles_sum : ∑ T, exSingles T = 1 := by
  unfold exSingles
  rw [← Finset.sum_filter, Finset.sum_const, ← Finset.powerset_univ, ← Finset.powersetCard_eq_filter, Finset.card_powersetCard, Finset.card_univ,
    Fintype.card_fin]
  norm_num [Nat.choose]

/-- Intercepts 1, 0 and -1 in a population with mean 1/2: for every sample there are best intercepts within bounds, and with enough points and respondents
they are within a tenth of 3/2, 1/2 and -1/2 with a probability of at least 95 percent. -/
example : ∃ (hg : ℕ → Except PyErr (List ℝ × List ℝ)) (n₀ N₀ : ℕ), ExactRules hg ∧ ∀ n, n₀ ≤ n → ∀ N, N₀ ≤ N →
    ∃ (pts : Thetas 1) (lw : List ℝ) (estimate : (Fin N → Fin (List.replicate 3 2).length → Option ℕ) → Fin 3 → ℝ),
      mmlIntegration hg (fun _ => .ok (1 : Matrix (Fin 1) (Fin 1) ℝ)) "gauss_hermite" (some n) none = .ok (pts, lw) ∧
      ∀ far : Finset (Fin N → Fin (List.replicate 3 2).length → Option ℕ), far ⊆ seenSamples N (List.replicate 3 2) (byBooklet exSingles) →
        (∀ s ∈ far, ∃ j, 1 / 10 ≤ |estimate s j - ((![1, 0, -1] : Fin 3 → ℝ) j + 1 / 2)|) →
        ∑ s ∈ far, seenSampleProb (seenFrom (List.replicate 3 2) (byBooklet exSingles)
          (normalProbAt (fun θ : Fin 1 → ℝ => tableProb ((onePLWith ![1, 0, -1]).probs (θ 0))) (fun _ => 1 / 2) 1)) s ≤ 1 / 20 := by
  classical
  obtain ⟨hg, hrules⟩ := C141_rules_exist
  obtain ⟨n₀, h1, h⟩ := C159_onePL (fun T => by unfold exSingles; split_ifs <;> norm_num) exSingles_sum exSingles_asked Matrix.PosDef.one hrules
    (ch := fun _ => .ok (1 : Matrix (Fin 1) (Fin 1) ℝ)) none (Or.inl ⟨rfl, rfl⟩) rfl (by simp [IsCholesky]) (by norm_num) 5
    ![1, 0, -1] (1 / 2) (1 / 10) (by norm_num)
  obtain ⟨N₀, hN₀⟩ := h (1 / 20) (by norm_num)
  refine ⟨hg, n₀, N₀, hrules, fun n hn N hN => ?_⟩
  obtain ⟨x, w, hx, hexact⟩ := hrules n (h1.trans hn)
  obtain ⟨pts, lw, hok, hl, hne, _⟩ := integration_rule (ch := fun _ => .ok (1 : Matrix (Fin 1) (Fin 1) ℝ)) none (Or.inl ⟨rfl, rfl⟩) rfl (h1.trans hn)
    hx hexact
  choose! estimate hb hmin using C159_exists (items := 3) (by norm_num) exSingles pts lw hl hne (β := 5) (by norm_num) N
  refine ⟨pts, lw, estimate, hok, hN₀ n hn N hN pts lw hok estimate fun s hs => ⟨hb s hs, ?_⟩⟩
  obtain ⟨L', hL', hbest⟩ := hmin s hs
  obtain ⟨L, hL, hle⟩ := hbest (fun j => (![1, 0, -1] : Fin 3 → ℝ) j + 1 / 2) (fun j => by fin_cases j <;> norm_num [abs_le])
  exact ⟨L, L', hL, hL', hle⟩

/-- Of three items asked in pairs: no intercepts in a population with variance 4 give what is seen with variance 1. -/
example (b b' : Fin 3 → ℝ) : ¬ ∀ z ∈ possiblySeen (List.replicate 3 2) (byBooklet exPairs),
    seenFrom (List.replicate 3 2) (byBooklet exPairs) (normalProb (fun θ : Fin 1 → ℝ => tableProb ((onePLWith b).probs (θ 0))) 1) z
      = seenFrom (List.replicate 3 2) (byBooklet exPairs) (normalProb (fun θ : Fin 1 → ℝ => tableProb ((onePLWith b').probs (θ 0)))
        (Matrix.diagonal fun _ => 4)) z := by
  intro h
  have hasked : ∀ j : Fin 3, ∃ T, 0 < exPairs T ∧ (⟨j, by simp⟩ : Fin (List.replicate 3 2).length) ∈ T := by
    intro j
    obtain ⟨k, l, _, _, _, _, _, ⟨T, hT, hj, _⟩, _⟩ := exPairs_design j
    exact ⟨T, hT, hj⟩
  have := (C159_variance hasked Matrix.PosDef.one (Matrix.PosDef.diagonal fun _ => by norm_num) 0 1 (by decide) (exPairs_together 0 1 (by decide)) b b' h).2
  have := congrFun (congrFun this 0) 0
  norm_num at this

end Irt
