import Verif.Props.Population
import Verif.Props.ScoreOrder
import Verif.Spec.Affinity
import Verif.Props.JointTwoItems

/-! # C132: long tests measure the latent variables exactly -/

namespace Irt
open Spec Finset

variable {d : ℕ}

/-! ## Affinities -/

theorem sqrt_mul_le_half (a b : ℝ) (ha : 0 ≤ a) (hb : 0 ≤ b) :
    Real.sqrt (a * b) ≤ (a + b) / 2 ∧ (Real.sqrt (a * b) = (a + b) / 2 ↔ a = b) := by
  have h1 := Real.sq_sqrt ha
  have h2 := Real.sq_sqrt hb
  rw [Real.sqrt_mul ha]
  refine ⟨by nlinarith [sq_nonneg (Real.sqrt a - Real.sqrt b)], fun h => ?_, fun h => ?_⟩
  · have h3 : (Real.sqrt a - Real.sqrt b) ^ 2 = 0 := by nlinarith
    rw [← h1, ← h2, sub_eq_zero.1 (pow_eq_zero_iff two_ne_zero |>.1 h3)]
  · subst h; nlinarith

/-- C132: the affinity of an item at two points is at most one, and one only if the item cannot tell them apart. -/
theorem C132_affinity {cats : List ℕ} {P : (Fin d → ℝ) → ℕ → ℕ → ℝ} (hpos : PositiveProbs P cats) (hP : ProperProbs P cats)
    (θ θ' : Fin d → ℝ) (j : Fin cats.length) :
    0 ≤ affinity P cats θ θ' j ∧ affinity P cats θ θ' j ≤ 1 ∧
      (affinity P cats θ θ' j = 1 ↔ ∀ r < cats[j], P θ j r = P θ' j r) := by
  have hc : cats[(j : ℕ)]? = some cats[j] := List.getElem?_eq_getElem j.2
  have hnn : ∀ θ, ∀ r ∈ range cats[j], 0 ≤ P θ j r := fun θ r hr => (hpos θ j _ r hc (mem_range.1 hr)).le
  have hone : ∑ r ∈ range cats[j], (P θ j r + P θ' j r) / 2 = 1 := by
    rw [← sum_div, sum_add_distrib, hP θ j _ hc, hP θ' j _ hc]; norm_num
  have hle : ∀ r ∈ range cats[j], Real.sqrt (P θ j r * P θ' j r) ≤ (P θ j r + P θ' j r) / 2 :=
    fun r hr => (sqrt_mul_le_half _ _ (hnn _ _ hr) (hnn _ _ hr)).1
  refine ⟨sum_nonneg fun _ _ => Real.sqrt_nonneg _, hone ▸ sum_le_sum hle, ?_⟩
  rw [affinity, ← hone, sum_eq_sum_iff_of_le hle]
  constructor
  · intro h r hr
    exact (sqrt_mul_le_half _ _ (hnn _ _ (mem_range.2 hr)) (hnn _ _ (mem_range.2 hr))).2.1 (h r (mem_range.2 hr))
  · intro h r hr
    exact (sqrt_mul_le_half _ _ (hnn _ _ hr) (hnn _ _ hr)).2.2 (h r (mem_range.1 hr))

theorem sum_sqrt_answers {cats : List ℕ} {P : (Fin d → ℝ) → ℕ → ℕ → ℝ} (hnn : ∀ θ j r, 0 ≤ P θ j r) (θ θ' : Fin d → ℝ) :
    ∑ x ∈ fullAnswers cats, Real.sqrt (answerProb P θ x * answerProb P θ' x) = ∏ j, affinity P cats θ θ' j := by
  unfold affinity fullAnswers
  rw [prod_univ_sum]
  refine sum_congr rfl fun x _ => ?_
  rw [answerProb, answerProb, ← prod_mul_distrib]
  exact Real.sqrt_prod _ fun j _ => mul_nonneg (hnn _ _ _) (hnn _ _ _)

/-! ## The spread of a distribution on finitely many points -/

theorem weighted_spread {n : ℕ} (a t : Fin n → ℝ) (ha : ∀ i, 0 < a i) (e : ℝ) (he : e = (∑ i, a i * t i) / ∑ i, a i) :
    ∑ i, a i * (t i - e) ^ 2 ≤ (∑ i, ∑ i', Real.sqrt (a i * a i') * (t i - t i') ^ 2) / 2 := by
  rcases Nat.eq_zero_or_pos n with rfl | hn
  · simp
  have hne : (univ : Finset (Fin n)).Nonempty := ⟨⟨0, hn⟩, mem_univ _⟩
  have hA : 0 < ∑ i, a i := sum_pos (fun i _ => ha i) hne
  set A := ∑ i, a i with hAdef
  have hle : ∀ i, a i ≤ A := fun i => single_le_sum (f := a) (fun i _ => (ha i).le) (mem_univ i)
  have heA : e * A = ∑ i, a i * t i := by rw [he]; field_simp
  have hid : A * ∑ i, a i * (t i - e) ^ 2 = (∑ i, ∑ i', a i * a i' * (t i - t i') ^ 2) / 2 := by
    have h1 : ∑ i, a i * (t i - e) ^ 2 = ∑ i, a i * t i ^ 2 - e * (e * A) := by
      have : ∀ i, a i * (t i - e) ^ 2 = a i * t i ^ 2 - 2 * e * (a i * t i) + e ^ 2 * a i := fun i => by ring
      simp only [this]
      rw [sum_add_distrib, sum_sub_distrib, ← mul_sum, ← mul_sum, ← heA]; ring
    have h2 : ∑ i, ∑ i', a i * a i' * (t i - t i') ^ 2 = 2 * (A * ∑ i, a i * t i ^ 2) - 2 * (e * A) ^ 2 := by
      have : ∀ i i', a i * a i' * (t i - t i') ^ 2
          = (a i * t i ^ 2) * a i' + a i * (a i' * t i' ^ 2) - 2 * ((a i * t i) * (a i' * t i')) := fun i i' => by ring
      simp only [this, sum_sub_distrib, sum_add_distrib, ← mul_sum, ← sum_mul, ← heA]
      ring
    rw [h1, h2]; ring
  have hb : ∑ i, ∑ i', a i * a i' * (t i - t i') ^ 2 ≤ A * ∑ i, ∑ i', Real.sqrt (a i * a i') * (t i - t i') ^ 2 := by
    rw [mul_sum]
    refine sum_le_sum fun i _ => ?_
    rw [mul_sum]
    refine sum_le_sum fun i' _ => ?_
    rw [← mul_assoc]
    refine mul_le_mul_of_nonneg_right ?_ (sq_nonneg _)
    have hs : Real.sqrt (a i * a i') ≤ A := by
      rw [Real.sqrt_le_left hA.le, sq]
      exact mul_le_mul (hle i) (hle i') (ha i').le hA.le
    calc a i * a i' = Real.sqrt (a i * a i') * Real.sqrt (a i * a i') :=
          (Real.mul_self_sqrt (mul_pos (ha i) (ha i')).le).symm
      _ ≤ A * Real.sqrt (a i * a i') := mul_le_mul_of_nonneg_right hs (Real.sqrt_nonneg _)
  have : A * ∑ i, a i * (t i - e) ^ 2 ≤ A * ((∑ i, ∑ i', Real.sqrt (a i * a i') * (t i - t i') ^ 2) / 2) := by
    rw [hid]; linarith
  exact le_of_mul_le_mul_left this hA

/-! ## The error of EAP scores -/

section Scores

variable {m : Scorer d} {cats : List ℕ} {P : (Fin d → ℝ) → ℕ → ℕ → ℝ}
variable (hm : IsScorer m cats P) (hpos : PositiveProbs P cats) (a : AlgAttrs d) (hd : d ≤ 4)
  (points : Option ℕ) (grid : Thetas d) (hg : grid ≠ []) (cov : Matrix (Fin d) (Fin d) ℝ) (hcov : cov.PosDef)
  (hgrid : eapGrid a (points.getD (eapDefaultPoints d)) = .ok (grid, cov))

include hm hpos hd hg hcov hgrid in
/-- C132: the mean squared error of EAP scores is at most the sum, over all pairs of points of the grid, of their squared distance, weighted
with the prior and with the product of the affinities of the items. -/
theorem C132_error {e : (Fin cats.length → ℕ) → Fin d → ℝ} (he : EapOf m a points cats univ e) (k : Fin d) :
    expectation P cats (fun θ => Real.exp (mvnLogDensity 0 cov θ)) grid (fun θ x => (θ k - e x k) ^ 2)
      ≤ (∑ i : Fin grid.length, ∑ i' : Fin grid.length,
          Real.sqrt (Real.exp (mvnLogDensity 0 cov grid[i]) * Real.exp (mvnLogDensity 0 cov grid[i'])) * (grid[i] k - grid[i'] k) ^ 2
            * ∏ j, affinity P cats grid[i] grid[i'] j) / 2
        / (grid.map fun θ => Real.exp (mvnLogDensity 0 cov θ)).sum := by
  rw [expectation_swap]
  refine div_le_div_of_nonneg_right ?_ (List.sum_nonneg fun v hv => by
    obtain ⟨θ, _, rfl⟩ := List.mem_map.1 hv
    exact (Real.exp_pos _).le)
  set w : (Fin d → ℝ) → ℝ := fun θ => Real.exp (mvnLogDensity 0 cov θ) with hw
  have hw0 : ∀ θ, 0 < w θ := fun θ => Real.exp_pos _
  have hx : ∀ x ∈ fullAnswers cats, (grid.map fun θ => w θ * (answerProb P θ x * (θ k - e x k) ^ 2)).sum
      ≤ (∑ i : Fin grid.length, ∑ i' : Fin grid.length,
          Real.sqrt (w grid[i] * w grid[i']) * (grid[i] k - grid[i'] k) ^ 2
            * Real.sqrt (answerProb P grid[i] x * answerProb P grid[i'] x)) / 2 := by
    intro x hx
    obtain ⟨hz, hrun⟩ := eapOf_run hm hpos a hd points grid hg cov hcov hgrid _ (answersToAll_valid hx)
    have hrun' := he x hx
    rw [show answersTo univ x = answersToAll x from rfl, hrun] at hrun'
    have hk := congrArg (fun f => f k) (Option.some.inj (List.cons.inj (Except.ok.inj hrun')).1)
    dsimp only at hk
    simp only [observedLikelihood_all] at hk
    rw [list_sum_fin, list_sum_fin] at hk
    have hp : ∀ θ, 0 < answerProb P θ x := fun θ => by
      rw [← observedLikelihood_all]
      exact observedLikelihood_pos hpos _ (answersToAll_valid hx) θ
    have h := weighted_spread (fun i : Fin grid.length => w grid[i] * answerProb P grid[i] x) (fun i => grid[i] k)
      (fun i => mul_pos (hw0 _) (hp _)) (e x k) hk.symm
    rw [list_sum_fin]
    refine (le_of_eq ?_).trans (h.trans (le_of_eq ?_))
    · exact sum_congr rfl fun i _ => by ring
    · congr 1
      refine sum_congr rfl fun i _ => sum_congr rfl fun i' _ => ?_
      rw [show w grid[i] * answerProb P grid[i] x * (w grid[i'] * answerProb P grid[i'] x)
        = (w grid[i] * w grid[i']) * (answerProb P grid[i] x * answerProb P grid[i'] x) by ring,
        Real.sqrt_mul (mul_pos (hw0 _) (hw0 _)).le]
      ring
  refine (sum_le_sum hx).trans (le_of_eq ?_)
  rw [← sum_div, sum_comm]
  congr 1
  refine sum_congr rfl fun i _ => ?_
  rw [sum_comm]
  refine sum_congr rfl fun i' _ => ?_
  rw [← mul_sum, sum_sqrt_answers hm.nonneg]

end Scores

/-- C132: on a grid of latent scores, with items that tell its points apart (affinities at most `ρ < 1`), a sufficient number of items makes
the mean squared error of the EAP scores as small as one likes, whatever the model and the items. -/
theorem C132_long_tests (a : AlgAttrs d) (hd : d ≤ 4) (points : Option ℕ) (grid : Thetas d) (hg : grid ≠ [])
    (cov : Matrix (Fin d) (Fin d) ℝ) (hcov : cov.PosDef) (hgrid : eapGrid a (points.getD (eapDefaultPoints d)) = .ok (grid, cov))
    (k : Fin d) (ρ ε : ℝ) (hρ0 : 0 ≤ ρ) (hρ : ρ < 1) (hε : 0 < ε) :
    ∃ n : ℕ, ∀ (m : Scorer d) (cats : List ℕ) (P : (Fin d → ℝ) → ℕ → ℕ → ℝ), IsScorer m cats P → PositiveProbs P cats → n ≤ cats.length →
      (∀ θ ∈ grid, ∀ θ' ∈ grid, θ k ≠ θ' k → ∀ j, affinity P cats θ θ' j ≤ ρ) →
      ∀ e, EapOf m a points cats univ e →
        expectation P cats (fun θ => Real.exp (mvnLogDensity 0 cov θ)) grid (fun θ x => (θ k - e x k) ^ 2) < ε := by
  set w : (Fin d → ℝ) → ℝ := fun θ => Real.exp (mvnLogDensity 0 cov θ) with hw
  set C : ℝ := (∑ i : Fin grid.length, ∑ i' : Fin grid.length,
    Real.sqrt (w grid[i] * w grid[i']) * (grid[i] k - grid[i'] k) ^ 2) / 2 / (grid.map w).sum with hC
  have hwsum : 0 ≤ (grid.map w).sum := List.sum_nonneg fun v hv => by
    obtain ⟨θ, _, rfl⟩ := List.mem_map.1 hv
    exact (Real.exp_pos _).le
  have hC0 : 0 ≤ C := div_nonneg (div_nonneg (sum_nonneg fun _ _ => sum_nonneg fun _ _ => by positivity) zero_le_two) hwsum
  have hlim := (tendsto_pow_atTop_nhds_zero_of_lt_one hρ0 hρ).const_mul C
  rw [mul_zero] at hlim
  obtain ⟨n, hn⟩ := (hlim.eventually (gt_mem_nhds hε)).exists
  refine ⟨n, fun m cats P hm hpos hlen haff e he => lt_of_le_of_lt ?_ hn⟩
  refine (C132_error hm hpos a hd points grid hg cov hcov hgrid he k).trans ?_
  rw [hC, div_mul_eq_mul_div, div_mul_eq_mul_div]
  refine div_le_div_of_nonneg_right (div_le_div_of_nonneg_right ?_ zero_le_two) hwsum
  rw [sum_mul]
  refine sum_le_sum fun i _ => ?_
  rw [sum_mul]
  refine sum_le_sum fun i' _ => ?_
  by_cases hne : grid[i] k = grid[i'] k
  · rw [hne]; simp
  · refine mul_le_mul_of_nonneg_left ?_ (by positivity)
    have h1 : ∏ j, affinity P cats grid[i] grid[i'] j ≤ ρ ^ cats.length := by
      refine (prod_le_prod (fun j _ => sum_nonneg fun _ _ => Real.sqrt_nonneg _)
        fun j _ => haff _ (List.getElem_mem _) _ (List.getElem_mem _) hne j).trans ?_
      simp
    exact h1.trans (pow_le_pow_of_le_one hρ0 hρ.le hlen)

/-! ## Right or wrong answers -/

/-- The affinity of a logistic item with logits `z` and `z'` of the right answer at two points. -/
noncomputable def logisticAffinity (z z' : ℝ) : ℝ :=
  Real.sqrt ((1 - logistic z) * (1 - logistic z')) + Real.sqrt (logistic z * logistic z')

theorem logisticAffinity_lt (z z' : ℝ) (h : z ≠ z') : logisticAffinity z z' < 1 := by
  have hb : ∀ x, 0 < logistic x ∧ logistic x < 1 := fun x => ⟨logistic_pos x, logistic_lt_one x⟩
  have h1 := sqrt_mul_le_half (1 - logistic z) (1 - logistic z') (by linarith [(hb z).2]) (by linarith [(hb z').2])
  have h2 := sqrt_mul_le_half (logistic z) (logistic z') (hb z).1.le (hb z').1.le
  have h3 : Real.sqrt (logistic z * logistic z') < (logistic z + logistic z') / 2 :=
    lt_of_le_of_ne h2.1 fun heq => h (logistic_strictMono.injective (h2.2.1 heq))
  unfold logisticAffinity
  linarith [h1.1]

theorem exists_bound_lt_one {ι : Type*} [Finite ι] (f : ι → ℝ) (h : ∀ i, f i < 1) : ∃ ρ, 0 ≤ ρ ∧ ρ < 1 ∧ ∀ i, f i ≤ ρ := by
  rcases isEmpty_or_nonempty ι with he | hne
  · exact ⟨0, le_rfl, one_pos, fun i => he.elim i⟩
  · obtain ⟨i, hi⟩ := Finite.exists_max f
    exact ⟨max (f i) 0, le_max_right _ _, max_lt (h i) one_pos, fun j => (hi j).trans (le_max_left _ _)⟩

/-- Items with slopes between `α` and `β` in size and intercepts of size at most `β` tell two points apart to some extent. -/
theorem logisticAffinity_bound (α β x x' : ℝ) (hα : 0 < α) (hx : x ≠ x') :
    ∃ ρ, ρ < 1 ∧ ∀ s b : ℝ, α ≤ |s| → |s| ≤ β → |b| ≤ β → logisticAffinity (s * x + b) (s * x' + b) ≤ ρ := by
  let K : Set (ℝ × ℝ) := {p | α ≤ |p.1|} ∩ (Set.Icc (-β) β ×ˢ Set.Icc (-β) β)
  have hK : IsCompact K := (isCompact_Icc.prod isCompact_Icc).inter_left (isClosed_le continuous_const (continuous_abs.comp continuous_fst))
  have hmem : ∀ s b : ℝ, α ≤ |s| → |s| ≤ β → |b| ≤ β → (s, b) ∈ K := fun s b h1 h2 h3 => ⟨h1, abs_le.1 h2, abs_le.1 h3⟩
  have hcont : Continuous fun p : ℝ × ℝ => logisticAffinity (p.1 * x + p.2) (p.1 * x' + p.2) := by
    have hl := logistic_cont
    unfold logisticAffinity
    fun_prop
  rcases K.eq_empty_or_nonempty with he | hne
  · exact ⟨0, one_pos, fun s b h1 h2 h3 => absurd (hmem s b h1 h2 h3) (by rw [he]; simp)⟩
  · obtain ⟨p, hp, hmax⟩ := hK.exists_isMaxOn hne hcont.continuousOn
    refine ⟨_, logisticAffinity_lt _ _ fun h => ?_, fun s b h1 h2 h3 => hmax (hmem s b h1 h2 h3)⟩
    have hs : p.1 ≠ 0 := abs_pos.1 (hα.trans_le hp.1)
    exact hx (mul_left_cancel₀ hs (by linarith))

/-- C132 for the 2PL model: with enough items whose slopes and difficulties stay within bounds, EAP scores on a given grid are as exact as one
likes. -/
theorem C132_twoPL (a : AlgAttrs 1) (points : Option ℕ) (grid : Thetas 1) (hg : grid ≠ [])
    (cov : Matrix (Fin 1) (Fin 1) ℝ) (hcov : cov.PosDef) (hgrid : eapGrid a (points.getD (eapDefaultPoints 1)) = .ok (grid, cov))
    (α β ε : ℝ) (hα : 0 < α) (hε : 0 < ε) :
    ∃ n : ℕ, ∀ m : TwoPL, m.WF → 0 < m.items → n ≤ m.items →
      (∀ p ∈ m.itemParameters, ∃ s, p.1 = [s] ∧ α ≤ |s| ∧ |s| ≤ β ∧ |p.2| ≤ β) →
      ∀ e, EapOf (m.scorer 1) a points (List.replicate m.items 2) univ e →
        expectation (fun θ => tableProb (m.probs (List.ofFn θ))) (List.replicate m.items 2)
          (fun θ => Real.exp (mvnLogDensity 0 cov θ)) grid (fun θ x => (θ 0 - e x 0) ^ 2) < ε := by
  have hpair : ∀ q : Fin grid.length × Fin grid.length, ∃ ρ, ρ < 1 ∧ (grid[q.1] 0 ≠ grid[q.2] 0 →
      ∀ s b : ℝ, α ≤ |s| → |s| ≤ β → |b| ≤ β → logisticAffinity (s * grid[q.1] 0 + b) (s * grid[q.2] 0 + b) ≤ ρ) := by
    intro q
    by_cases h : grid[q.1] 0 = grid[q.2] 0
    · exact ⟨0, one_pos, fun h' => absurd h h'⟩
    · obtain ⟨ρ, h1, h2⟩ := logisticAffinity_bound α β _ _ hα h
      exact ⟨ρ, h1, fun _ => h2⟩
  choose r hr1 hr2 using hpair
  obtain ⟨ρ, hρ0, hρ1, hρ⟩ := exists_bound_lt_one r hr1
  obtain ⟨n, hn⟩ := C132_long_tests a (by norm_num) points grid hg cov hcov hgrid 0 ρ ε hρ0 hρ1 hε
  refine ⟨n, fun m hwf hne hlen hp e he => ?_⟩
  refine hn (m.scorer 1) _ _ (m.isScorer hwf hne 1) (m.positive hwf 1) (by simpa using hlen) ?_ e he
  intro θ hθ θ' hθ' hdiff j
  obtain ⟨i, hi, rfl⟩ := List.mem_iff_getElem.1 hθ
  obtain ⟨i', hi', rfl⟩ := List.mem_iff_getElem.1 hθ'
  have hj : (j : ℕ) < m.items := by have := j.2; simpa using this
  obtain ⟨v, b, hpj⟩ := m.exists_params hwf j hj
  obtain ⟨s, hs, h1, h2, h3⟩ := hp _ (List.mem_of_getElem? hpj)
  dsimp only at hs h3
  subst hs
  have hrow : ∀ θ : Fin 1 → ℝ, (m.probs (List.ofFn θ))[(j : ℕ)]? = some [1 - logistic (s * θ 0 + b), logistic (s * θ 0 + b)] := by
    intro θ
    rw [C03_twoPL_formula m hwf _ j [s] b hpj]
    simp [dot, mul_comm]
  have haff : affinity (fun θ : Fin 1 → ℝ => tableProb (m.probs (List.ofFn θ))) (List.replicate m.items 2) grid[i] grid[i'] j
      = logisticAffinity (s * grid[i] 0 + b) (s * grid[i'] 0 + b) := by
    have hc : (List.replicate m.items 2)[j] = 2 := by simp
    simp only [affinity, tableProb_row _ _ _ _ (hrow _), hc, sum_range_succ, range_zero, sum_empty, logisticAffinity]
    simp
  rw [haff]
  exact (hr2 (⟨i, hi⟩, ⟨i', hi'⟩) hdiff s b h1 h2 h3).trans (hρ _)

/-! ## The hypotheses are met by tests of any length -/

/-- A 2PL test of `n` items with slopes one and difficulties zero: what the constructor makes. -/
noncomputable def exLongTest (n : ℕ) : TwoPL :=
  { items := n, lv := 1, rel := List.replicate n [true], weight := List.replicate n 1, bias := List.replicate n 0 }

theorem exLongTest_wf (n : ℕ) : (exLongTest n).WF where
  relLen := by simp [exLongTest]
  relRow := by simp [exLongTest]
  weightLen := by
    have : (List.replicate n [true]).flatten = List.replicate n true := by simp
    simp only [exLongTest, this, countTrue, List.length_replicate, List.count_replicate_self]
  biasLen := by simp [exLongTest]

theorem exLongTest_parameters (n : ℕ) : ∀ p ∈ (exLongTest n).itemParameters, p = ([1], 0) := by
  have hw : ∀ n : ℕ, viewRows n 1 (scatterMask (0:ℝ) (List.replicate n [true]).flatten (List.replicate n 1)) = List.replicate n [1] := by
    intro n
    induction n with
    | zero => rfl
    | succ n ih =>
      rw [List.replicate_succ, List.replicate_succ, List.flatten_cons, List.replicate_succ, ← ih]
      rfl
  intro p hp
  have hp' : p ∈ List.zip (List.replicate n [(1:ℝ)]) (List.replicate n (0:ℝ)) := by
    rw [← hw n]; exact hp
  have h1 := List.of_mem_zip hp'
  exact Prod.ext (List.eq_of_mem_replicate h1.1) (List.eq_of_mem_replicate h1.2)

/-- Training scores 0 and 2: some number of items brings the mean squared error below 1/100. -/
example : ∃ (grid : Thetas 1) (n : ℕ) (e : (Fin (List.replicate (n + 1) 2).length → ℕ) → Fin 1 → ℝ),
    EapOf ((exLongTest (n + 1)).scorer 1) exTrained none (List.replicate (n + 1) 2) univ e ∧
    expectation (fun θ => tableProb ((exLongTest (n + 1)).probs (List.ofFn θ))) (List.replicate (n + 1) 2)
      (fun θ => Real.exp (mvnLogDensity 0 (sampleCov [fun _ : Fin 1 => (0:ℝ), fun _ => 2]) θ)) grid (fun θ x => (θ 0 - e x 0) ^ 2) < 1 / 100 := by
  obtain ⟨grid, hg, hgrid⟩ := exTrained_grid
  obtain ⟨n, hn⟩ := C132_twoPL exTrained none grid hg _ exTraining_cov hgrid 1 1 (1 / 100) one_pos (by norm_num)
  have hne : 0 < (exLongTest (n + 1)).items := Nat.succ_pos n
  obtain ⟨e, he⟩ := C128_scores_exist ((exLongTest (n + 1)).isScorer (exLongTest_wf _) hne 1) ((exLongTest (n + 1)).positive (exLongTest_wf _) 1)
    exTrained (by norm_num) none grid hg _ exTraining_cov hgrid univ
  refine ⟨grid, n, e, he, hn (exLongTest (n + 1)) (exLongTest_wf _) hne (Nat.le_succ n) (fun p hp => ?_) e he⟩
  rw [exLongTest_parameters _ p hp]
  exact ⟨1, rfl, by simp⟩

/-- Two points of an item of that test: the affinity is below one. -/
example : affinity (fun θ : Fin 1 → ℝ => tableProb ((exLongTest 1).probs (List.ofFn θ))) (List.replicate (exLongTest 1).items 2)
    (fun _ => 0) (fun _ => 1) ⟨0, by simp [exLongTest]⟩ < 1 := by
  obtain ⟨_, h1, h2⟩ := C132_affinity ((exLongTest 1).positive (exLongTest_wf 1) 1)
    (properProbs_of_isTable fun θ => isTable_twoPL (exLongTest 1) (exLongTest_wf 1) _) (fun _ => 0) (fun _ => 1) ⟨0, by simp [exLongTest]⟩
  refine lt_of_le_of_ne h1 fun h => ?_
  have h3 := h2.1 h 1 (by simp)
  obtain ⟨v, b, hpj⟩ := (exLongTest 1).exists_params (exLongTest_wf 1) 0 (by simp [exLongTest])
  rw [exLongTest_parameters 1 _ (List.mem_of_getElem? hpj)] at hpj
  dsimp only at h3
  rw [tableProb_row _ _ _ _ (C03_twoPL_formula _ (exLongTest_wf 1) _ 0 _ _ hpj),
    tableProb_row _ _ _ _ (C03_twoPL_formula _ (exLongTest_wf 1) _ 0 _ _ hpj)] at h3
  have h4 := logistic_strictMono.injective (by simpa using h3)
  simp [dot] at h4

end Irt
