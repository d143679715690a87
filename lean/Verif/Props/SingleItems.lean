import Verif.Props.BookletGroups
import Verif.Props.RaschBooklets
import Verif.Props.BookletsGraded

/-! # C158, C159: respondents with a single answer each tell nothing about slopes and variances -/

namespace Irt
open Spec MeasureTheory Filter Topology

/-! ## Every proportion of right answers is possible, whatever the slope -/

theorem logistic_le_exp (x : ℝ) : logistic x ≤ Real.exp x := by
  unfold logistic
  have := Real.exp_pos x
  exact div_le_self this.le (by linarith)

theorem tendsto_logistic_atBot : Tendsto logistic atBot (𝓝 0) :=
  squeeze_zero (fun x => (logistic_unit x).1.le) logistic_le_exp Real.tendsto_exp_atBot

theorem tendsto_logistic_atTop : Tendsto logistic atTop (𝓝 1) := by
  have h := (tendsto_logistic_atBot.comp tendsto_neg_atTop_atBot).const_sub 1
  rw [sub_zero] at h
  refine h.congr fun x => ?_
  simp only [Function.comp]
  rw [logistic_neg_two]
  ring

section Surjective

variable {n : ℕ} {C : Matrix (Fin n) (Fin n) ℝ} (hC : C.PosDef) (κ : Fin n)

include hC in
theorem rightOneAt_tendsto (a : ℝ) {l : Filter ℝ} [l.IsCountablyGenerated] {c : ℝ} (hl : ∀ t : ℝ, Tendsto (fun b => logistic (t + b)) l (𝓝 c)) :
    Tendsto (fun b => rightOneAt C κ a b) l (𝓝 c) := by
  have hb : Integrable fun θ : Fin n → ℝ => Real.exp (mvnLogDensity 0 C θ) := by
    simpa using integrable_mvn_mul hC (fun _ => 1) continuous_const (by simp)
  have h := tendsto_integral_filter_of_dominated_convergence (μ := (volume : Measure (Fin n → ℝ))) (l := l)
    (F := fun b θ => Real.exp (mvnLogDensity 0 C θ) * logistic (a * θ κ + b)) (f := fun θ => Real.exp (mvnLogDensity 0 C θ) * c)
    (fun θ => Real.exp (mvnLogDensity 0 C θ)) (Eventually.of_forall fun b => (rightOneAt_integrable hC κ a b).aestronglyMeasurable)
    (Eventually.of_forall fun b => Eventually.of_forall fun θ => by
      rw [Real.norm_eq_abs, abs_of_pos (mul_pos (Real.exp_pos _) (logistic_unit _).1)]
      exact mul_le_of_le_one_right (Real.exp_pos _).le (logistic_unit _).2.le)
    hb (Eventually.of_forall fun θ => (hl (a * θ κ)).const_mul _)
  rwa [integral_mul_const, integral_mvn 0 C hC, one_mul] at h

include hC in
theorem rightOneAt_unit (a b : ℝ) : 0 < rightOneAt C κ a b ∧ rightOneAt C κ a b < 1 := by
  have h0 : Tendsto (fun b => rightOneAt C κ a b) atBot (𝓝 0) := rightOneAt_tendsto hC κ a fun t =>
    tendsto_logistic_atBot.comp (tendsto_atBot_add_const_left _ _ tendsto_id)
  have h1 : Tendsto (fun b => rightOneAt C κ a b) atTop (𝓝 1) := rightOneAt_tendsto hC κ a fun t =>
    tendsto_logistic_atTop.comp (tendsto_atTop_add_const_left _ _ tendsto_id)
  have hm : StrictMono fun b => rightOneAt C κ a b := fun _ _ h => rightOneAt_mono hC κ a h
  exact ⟨(hm.monotone.le_of_tendsto h0 (b - 1)).trans_lt (hm (by linarith)), (hm (by linarith)).trans_le (hm.monotone.ge_of_tendsto h1 (b + 1))⟩

include hC in
/-- Items with any slope can be answered rightly by any proportion of a population. -/
theorem rightOneAt_surjective (a : ℝ) {q : ℝ} (h0 : 0 < q) (h1 : q < 1) : ∃ b, rightOneAt C κ a b = q := by
  have l0 : Tendsto (fun b => rightOneAt C κ a b) atBot (𝓝 0) := rightOneAt_tendsto hC κ a fun t =>
    tendsto_logistic_atBot.comp (tendsto_atBot_add_const_left _ _ tendsto_id)
  have l1 : Tendsto (fun b => rightOneAt C κ a b) atTop (𝓝 1) := rightOneAt_tendsto hC κ a fun t =>
    tendsto_logistic_atTop.comp (tendsto_atTop_add_const_left _ _ tendsto_id)
  have hc : Continuous fun b => rightOneAt C κ a b := continuous_iff_continuousAt.2 fun b => by
    have hb : Integrable fun θ : Fin n → ℝ => Real.exp (mvnLogDensity 0 C θ) := by
      simpa using integrable_mvn_mul hC (fun _ => 1) continuous_const (by simp)
    exact tendsto_integral_filter_of_dominated_convergence (μ := (volume : Measure (Fin n → ℝ))) (l := 𝓝 b)
      (F := fun b θ => Real.exp (mvnLogDensity 0 C θ) * logistic (a * θ κ + b))
      (fun θ => Real.exp (mvnLogDensity 0 C θ)) (Eventually.of_forall fun b => (rightOneAt_integrable hC κ a b).aestronglyMeasurable)
      (Eventually.of_forall fun b => Eventually.of_forall fun θ => by
        rw [Real.norm_eq_abs, abs_of_pos (mul_pos (Real.exp_pos _) (logistic_unit _).1)]
        exact mul_le_of_le_one_right (Real.exp_pos _).le (logistic_unit _).2.le)
      hb (Eventually.of_forall fun θ => (((continuous_logistic'.tendsto _).comp (tendsto_const_nhds.add tendsto_id))).const_mul _)
  obtain ⟨b0, hb0⟩ := (l0.eventually_lt_const h0).exists
  obtain ⟨b1, hb1⟩ := (l1.eventually_const_lt h1).exists
  exact mem_range_of_exists_le_of_exists_ge hc ⟨b0, hb0.le⟩ ⟨b1, hb1.le⟩

end Surjective

/-- Items with equally frequent answers cannot be told apart by respondents with at most one answer. -/
theorem single_seen_of {d : ℕ} {cats : List ℕ} {P Q : (Fin d → ℝ) → ℕ → ℕ → ℝ} {C C' : Matrix (Fin d) (Fin d) ℝ} (hC : C.PosDef) (hC' : C'.PosDef)
    (hPc : ContinuousProbs P) (hQc : ContinuousProbs Q) (hP0 : ∀ θ j r, 0 ≤ P θ j r) (hQ0 : ∀ θ j r, 0 ≤ Q θ j r)
    (hP1 : ∀ θ j r, P θ j r ≤ 1) (hQ1 : ∀ θ j r, Q θ j r ≤ 1) (hP : ProperProbs P cats) (hQ : ProperProbs Q cats)
    (h : ∀ (j : Fin cats.length) (r : ℕ), r < cats[j] →
      ∫ θ, Real.exp (mvnLogDensity 0 C θ) * P θ j r = ∫ θ, Real.exp (mvnLogDensity 0 C' θ) * Q θ j r)
    {z : Fin cats.length → Option ℕ} (hz : z ∈ seenAnswers cats) (hone : ({j | (z j).isSome} : Finset (Fin cats.length)).card ≤ 1) :
    ∑ x ∈ completions cats (seenRow z), normalProb P C x = ∑ x ∈ completions cats (seenRow z), normalProb Q C' x := by
  rw [seen_integral hC hPc hP0 hP1 hP hz, seen_integral hC' hQc hQ0 hQ1 hQ hz]
  have hmiss : ∀ k : Fin cats.length, z k = none → cellMissing (seenRow z k) = true := by
    intro k hk
    simp [seenRow, hk, cellMissing]
  by_cases hnone : ∀ k, z k = none
  · have hl : ∀ P : (Fin d → ℝ) → ℕ → ℕ → ℝ, ∀ θ, observedLikelihood P cats.length (seenRow z) θ = 1 := by
      intro P θ
      exact Finset.prod_eq_one fun k hk => if_pos (hmiss ⟨k, Finset.mem_range.1 hk⟩ (hnone _))
    simp only [hl, mul_one]
    rw [integral_mvn 0 C hC, integral_mvn 0 C' hC']
  · push Not at hnone
    obtain ⟨k, hk⟩ := hnone
    obtain ⟨r, hr⟩ := Option.ne_none_iff_exists'.1 hk
    have hother : ∀ l, l ≠ k → z l = none := by
      intro l hl
      by_contra hs
      exact hl (Finset.card_le_one.1 hone l (by simpa using Option.isSome_iff_ne_none.2 hs) k (by simpa using Option.isSome_iff_ne_none.2 hk))
    have hrow : seenRow z k = some (r : ℤ) := by simp [seenRow, hr]
    have hr2 : r < cats[k] := by
      have := Fintype.mem_piFinset.1 hz k
      rwa [hr, Finset.some_mem_insertNone, Finset.mem_range] at this
    have hl : ∀ P : (Fin d → ℝ) → ℕ → ℕ → ℝ, ∀ θ, observedLikelihood P cats.length (seenRow z) θ = P θ k r := by
      intro P θ
      unfold observedLikelihood
      rw [Finset.prod_eq_single (k : ℕ) (fun l hl hne => if_pos (hmiss ⟨l, Finset.mem_range.1 hl⟩ (hother _ fun e => hne (congrArg Fin.val e))))
        (fun hn => absurd (Finset.mem_range.2 k.2) hn), hrow]
      have hm : cellMissing (some (r : ℤ)) = false := by
        simp only [cellMissing, decide_eq_false_iff_not]
        omega
      rw [hm]
      simp [responseOf]
    simp only [hl]
    exact h k r hr2

section Single

variable {items d : ℕ} (dim : Fin items → Fin d) {C : Matrix (Fin d) (Fin d) ℝ}

theorem single_item (hC : C.PosDef) (p : (Fin items → ℝ) × (Fin items → ℝ)) (j : Fin items) {r : ℕ} (hr : r < 2) :
    ∫ θ : Fin d → ℝ, Real.exp (mvnLogDensity 0 C θ) * tableProb ((simpleTwoPL dim p).probs (List.ofFn θ)) j r
      = if r = 0 then 1 - rightOneAt C (dim j) (p.1 j) (p.2 j) else rightOneAt C (dim j) (p.1 j) (p.2 j) := by
  have hb : Integrable fun θ : Fin d → ℝ => Real.exp (mvnLogDensity 0 C θ) := by
    simpa using integrable_mvn_mul hC (fun _ => 1) continuous_const (by simp)
  simp only [simpleTwoPL_prob, dif_pos j.2]
  interval_cases r
  · simp only [if_true, mul_sub, mul_one]
    rw [integral_sub hb (rightOneAt_integrable hC (dim j) (p.1 j) (p.2 j)), integral_mvn 0 C hC]
    rfl
  · simp only [one_ne_zero, if_false, if_true]
    rfl

/-- Items that are answered rightly equally often cannot be told apart by respondents with at most one answer. -/
theorem single_seen (hitems : 0 < items) (hC : C.PosDef) {C' : Matrix (Fin d) (Fin d) ℝ} (hC' : C'.PosDef) (p q : (Fin items → ℝ) × (Fin items → ℝ))
    (h : ∀ j, rightOneAt C (dim j) (p.1 j) (p.2 j) = rightOneAt C' (dim j) (q.1 j) (q.2 j)) {z : Fin (List.replicate items 2).length → Option ℕ}
    (hz : z ∈ seenAnswers (List.replicate items 2)) (hone : ({j | (z j).isSome} : Finset (Fin (List.replicate items 2).length)).card ≤ 1) :
    ∑ x ∈ completions (List.replicate items 2) (seenRow z),
        normalProb (fun θ : Fin d → ℝ => tableProb ((simpleTwoPL dim p).probs (List.ofFn θ))) C x
      = ∑ x ∈ completions (List.replicate items 2) (seenRow z),
        normalProb (fun θ : Fin d → ℝ => tableProb ((simpleTwoPL dim q).probs (List.ofFn θ))) C' x := by
  refine single_seen_of hC hC' (simpleTwoPL_continuous dim p) (simpleTwoPL_continuous dim q) (simpleTwoPL_isScorer dim hitems p).nonneg
    (simpleTwoPL_isScorer dim hitems q).nonneg (fun θ => simpleTwoPL_le_one dim p θ) (fun θ => simpleTwoPL_le_one dim q θ)
    (simpleTwoPL_proper dim p) (simpleTwoPL_proper dim q) (fun k r hr => ?_) hz hone
  have hlt : (k : ℕ) < items := by simpa using k.2
  rw [show (List.replicate items 2)[k] = 2 from List.getElem_replicate ..] at hr
  have e1 := single_item dim hC p ⟨k, hlt⟩ hr
  have e2 := single_item dim hC' q ⟨k, hlt⟩ hr
  dsimp only at e1 e2
  rw [e1, e2, h]

variable {π : Finset (Fin (List.replicate items 2).length) → ℝ} (hone : ∀ T, π T ≠ 0 → T.card ≤ 1)

include hone in
/-- C158: respondents with at most one answer each tell nothing about the slopes. With any other slopes and any other covariance matrix there are
intercepts that give the same answers. -/
theorem C158_single (hitems : 0 < items) (hC : C.PosDef) {C' : Matrix (Fin d) (Fin d) ℝ} (hC' : C'.PosDef) (p : (Fin items → ℝ) × (Fin items → ℝ))
    (a : Fin items → ℝ) : ∃ b : Fin items → ℝ, ∀ z ∈ seenAnswers (List.replicate items 2),
      seenFrom (List.replicate items 2) (byBooklet π) (normalProb (fun θ : Fin d → ℝ => tableProb ((simpleTwoPL dim p).probs (List.ofFn θ))) C) z
        = seenFrom (List.replicate items 2) (byBooklet π) (normalProb (fun θ : Fin d → ℝ => tableProb ((simpleTwoPL dim (a, b)).probs (List.ofFn θ))) C') z := by
  have hex : ∀ j, ∃ b, rightOneAt C' (dim j) (a j) b = rightOneAt C (dim j) (p.1 j) (p.2 j) := fun j =>
    rightOneAt_surjective hC' (dim j) (a j) (rightOneAt_unit hC (dim j) _ _).1 (rightOneAt_unit hC (dim j) _ _).2
  choose b hb using hex
  refine ⟨b, fun z hz => ?_⟩
  rw [seenFrom_eq _ hz, seenFrom_eq _ hz]
  by_cases h0 : byBooklet π z = 0
  · rw [h0, zero_mul, zero_mul]
  · rw [single_seen dim hitems hC hC' p (a, b) (fun j => (hb j).symm) hz (hone _ h0)]

end Single

section Graded

variable {cats : List ℕ} {C : Matrix (Fin 1) (Fin 1) ℝ}

/-- How often an answer of at least `k` is given. -/
theorem grmGeq_average (hC : C.PosDef) (c : ℕ) (a : ℝ) (b : ℕ → ℝ) (k : ℕ) :
    Integrable (fun θ : Fin 1 → ℝ => Real.exp (mvnLogDensity 0 C θ) * grmGeq c (a * θ 0) b k) ∧
      ∫ θ : Fin 1 → ℝ, Real.exp (mvnLogDensity 0 C θ) * grmGeq c (a * θ 0) b k
        = if k = 0 then 1 else if k < c then rightOneAt C 0 a (b k) else 0 := by
  have hb : Integrable fun θ : Fin 1 → ℝ => Real.exp (mvnLogDensity 0 C θ) := by
    simpa using integrable_mvn_mul hC (fun _ => 1) continuous_const (by simp)
  unfold grmGeq
  split_ifs with h0 hk
  · simp only [mul_one]
    exact ⟨hb, integral_mvn 0 C hC⟩
  · simp only [← logistic_eq_sigmoid]
    exact ⟨rightOneAt_integrable hC 0 a (b k), rfl⟩
  · simp

theorem exists_gap {ι : Type} [Finite ι] (f : ι → ℝ) (h : ∀ i, 0 < f i) : ∃ γ, 0 < γ ∧ ∀ i, γ ≤ f i := by
  by_cases hn : Nonempty ι
  · obtain ⟨i, hi⟩ := Finite.exists_min f
    exact ⟨f i, h i, hi⟩
  · exact ⟨1, one_pos, fun i => absurd ⟨i⟩ hn⟩

variable {π : Finset (Fin cats.length) → ℝ} (hone : ∀ T, π T ≠ 0 → T.card ≤ 1)

include hone in
/-- C158 for the graded response model: respondents with at most one answer each tell nothing about the slopes. With any other slopes and any other
variance of the population there are ordered intercepts that give the same answers. -/
theorem C158_grm_single (h2 : ∀ c ∈ cats, 2 ≤ c) (hne : cats ≠ []) (hC : C.PosDef) {C' : Matrix (Fin 1) (Fin 1) ℝ} (hC' : C'.PosDef) {α β γ : ℝ} (hγ : 0 < γ)
    (p : GRMParams cats) (hp : p ∈ GRMBounds cats α β γ) (a : Fin cats.length → ℝ) :
    ∃ b : Fin cats.length → Fin (maxCats cats) → ℝ, (∃ α' β' γ', 0 < γ' ∧ (a, b) ∈ GRMBounds cats α' β' γ') ∧
      ∀ z ∈ seenAnswers cats,
        seenFrom cats (byBooklet π) (normalProb (fun θ : Fin 1 → ℝ => tableProb ((grmWith p).probs (List.ofFn θ))) C) z
          = seenFrom cats (byBooklet π) (normalProb (fun θ : Fin 1 → ℝ => tableProb ((grmWith (cats := cats) (a, b)).probs (List.ofFn θ))) C') z := by
  have hex : ∀ (j : Fin cats.length) (k : Fin (maxCats cats)), ∃ b, ((k : ℕ) = 0 ∨ cats[j] ≤ (k : ℕ) → b = 0) ∧
      (¬((k : ℕ) = 0 ∨ cats[j] ≤ (k : ℕ)) → rightOneAt C' 0 (a j) b = rightOneAt C 0 (p.1 j) (p.2 j k)) := by
    intro j k
    by_cases hk : (k : ℕ) = 0 ∨ cats[j] ≤ (k : ℕ)
    · exact ⟨0, fun _ => rfl, fun h => absurd hk h⟩
    · obtain ⟨b, hb⟩ := rightOneAt_surjective hC' 0 (a j) (rightOneAt_unit hC 0 (p.1 j) (p.2 j k)).1 (rightOneAt_unit hC 0 (p.1 j) (p.2 j k)).2
      exact ⟨b, fun h => absurd h hk, fun _ => hb⟩
  choose b hb0 hb using hex
  have hord : ∀ (j : Fin cats.length) (k l : Fin (maxCats cats)), 0 < (k : ℕ) → (l : ℕ) = k + 1 → (l : ℕ) < cats[j] → b j l < b j k := by
    intro j k l h0 hl hlt
    by_contra hle
    push Not at hle
    have hlt' := rightOneAt_mono hC 0 (p.1 j) (show p.2 j l < p.2 j k by linarith [hp.2.2.2.2 j k l h0 hl hlt])
    rw [← hb j l (by omega), ← hb j k (by omega)] at hlt'
    have hm : Monotone fun b => rightOneAt C' 0 (a j) b := (show StrictMono _ from fun _ _ h => rightOneAt_mono hC' 0 (a j) h).monotone
    exact absurd (hm hle) (not_le.2 hlt')
  obtain ⟨γ', hγ', hgap⟩ := exists_gap (fun i : Fin cats.length × Fin (maxCats cats) × Fin (maxCats cats) =>
    if b i.1 i.2.2 < b i.1 i.2.1 then b i.1 i.2.1 - b i.1 i.2.2 else 1) (fun i => by split_ifs with h <;> linarith)
  have hbd : (a, b) ∈ GRMBounds cats (-∑ j, |a j|) (∑ j, |a j| + ∑ j, ∑ k, |b j k|) γ' := by
    have ha : ∀ j, |a j| ≤ ∑ j, |a j| := fun j => Finset.single_le_sum (f := fun j => |a j|) (fun _ _ => abs_nonneg _) (Finset.mem_univ j)
    have hs : 0 ≤ ∑ j, |a j| := Finset.sum_nonneg fun _ _ => abs_nonneg _
    have hs' : 0 ≤ ∑ j, ∑ k, |b j k| := Finset.sum_nonneg fun _ _ => Finset.sum_nonneg fun _ _ => abs_nonneg _
    refine ⟨fun j => ?_, fun j => ?_, fun j k => ?_, hb0, fun j k l h0 hl hlt => ?_⟩
    · linarith [neg_abs_le (a j), ha j]
    · linarith [le_abs_self (a j), ha j]
    · have h1 := Finset.single_le_sum (f := fun k => |b j k|) (fun _ _ => abs_nonneg _) (Finset.mem_univ k)
      have h2 := Finset.single_le_sum (f := fun j => ∑ k, |b j k|) (fun _ _ => Finset.sum_nonneg fun _ _ => abs_nonneg _) (Finset.mem_univ j)
      dsimp only at h1 h2 ⊢
      linarith
    · have := hgap (j, k, l)
      simp only [if_pos (hord j k l h0 hl hlt)] at this
      dsimp only
      linarith
  refine ⟨b, ⟨_, _, γ', hγ', hbd⟩, fun z hz => ?_⟩
  rw [seenFrom_eq _ hz, seenFrom_eq _ hz]
  by_cases hz0 : byBooklet π z = 0
  · rw [hz0, zero_mul, zero_mul]
  · rw [single_seen_of hC hC' (grmWith_continuous h2 p) (grmWith_continuous h2 (a, b)) (grmWith_isScorer hγ hne hp).nonneg
      (grmWith_isScorer hγ' hne hbd).nonneg (fun θ => grmWith_le_one h2 p θ) (fun θ => grmWith_le_one h2 (a, b) θ)
      (grmWith_proper h2 p) (grmWith_proper h2 (a, b)) (fun j r hr => ?_) hz (hone _ hz0)]
    have hsplit : ∀ (D : Matrix (Fin 1) (Fin 1) ℝ), D.PosDef → ∀ q : GRMParams cats,
        ∫ θ : Fin 1 → ℝ, Real.exp (mvnLogDensity 0 D θ) * tableProb ((grmWith q).probs (List.ofFn θ)) j r
          = (if r = 0 then 1 else if r < cats[j] then rightOneAt D 0 (q.1 j) (grmIntercept q j r) else 0)
            - (if r + 1 = 0 then 1 else if r + 1 < cats[j] then rightOneAt D 0 (q.1 j) (grmIntercept q j (r + 1)) else 0) := by
      intro D hD q
      simp only [grmWith_prob h2, dif_pos j.2, mul_sub]
      rw [integral_sub (grmGeq_average hD _ _ _ _).1 (grmGeq_average hD _ _ _ _).1, (grmGeq_average hD _ _ _ _).2, (grmGeq_average hD _ _ _ _).2]
      rfl
    have hsame : ∀ k, 0 < k → k < cats[j] →
        rightOneAt C 0 (p.1 j) (grmIntercept p j k) = rightOneAt C' 0 (a j) (grmIntercept (cats := cats) (a, b) j k) := by
      intro k h0 hk
      have hM : k < maxCats cats := hk.trans_le (le_maxCats cats _ (List.getElem_mem j.2))
      have e1 := grmIntercept_eq p j ⟨k, hM⟩ h0 hk
      have e2 := grmIntercept_eq (cats := cats) (a, b) j ⟨k, hM⟩ h0 hk
      dsimp only at e1 e2
      rw [e1, e2, hb j ⟨k, hM⟩ (by dsimp only; omega)]
    rw [hsplit C hC p, hsplit C' hC' (a, b)]
    congr 1
    · split_ifs with h0
      · rfl
      · exact hsame r (Nat.pos_of_ne_zero h0) hr
    · rw [if_neg (Nat.succ_ne_zero r), if_neg (Nat.succ_ne_zero r)]
      split_ifs with hk
      · exact hsame (r + 1) (Nat.succ_pos r) hk
      · rfl

end Graded

section Rasch

variable {items : ℕ} {π : Finset (Fin (List.replicate items 2).length) → ℝ} (hone : ∀ T, π T ≠ 0 → T.card ≤ 1)

include hone in
/-- C159: respondents with at most one answer each tell nothing about the variance of the population: with any other variance there are intercepts that
give the same answers. Two items asked together are needed (`C159_variance`). -/
theorem C159_single (hitems : 0 < items) {C C' : Matrix (Fin 1) (Fin 1) ℝ} (hC : C.PosDef) (hC' : C'.PosDef) (b : Fin items → ℝ) :
    ∃ b' : Fin items → ℝ, ∀ z ∈ seenAnswers (List.replicate items 2),
      seenFrom (List.replicate items 2) (byBooklet π) (normalProb (fun θ : Fin 1 → ℝ => tableProb ((onePLWith b).probs (θ 0))) C) z
        = seenFrom (List.replicate items 2) (byBooklet π) (normalProb (fun θ : Fin 1 → ℝ => tableProb ((onePLWith b').probs (θ 0))) C') z := by
  obtain ⟨b', h⟩ := C158_single (fun _ : Fin items => (0 : Fin 1)) hone hitems hC hC' (fun _ => 1, b) fun _ => 1
  refine ⟨b', fun z hz => ?_⟩
  rw [onePLWith_same, onePLWith_same]
  exact h z hz

end Rasch

theorem exSingles_one : ∀ T, exSingles T ≠ 0 → T.card ≤ 1 := by
  intro T h
  unfold exSingles at h
  split_ifs at h with hT
  · exact hT.le
  · exact absurd rfl h

/-- Slopes 1, 2 and 3 or slopes 5: one answer per respondent does not tell. -/
example := C158_single (fun _ : Fin 3 => (0 : Fin 1)) exSingles_one (by norm_num) Matrix.PosDef.one Matrix.PosDef.one (![1, 2, 3], ![0, 1, -1]) fun _ => 5

/-- Four items with three categories, one answer each. -/
noncomputable def exSingleGraded (T : Finset (Fin [3, 3, 3, 3].length)) : ℝ := if T.card = 1 then 1 / 4 else 0

theorem exSingleGraded_one : ∀ T, exSingleGraded T ≠ 0 → T.card ≤ 1 := by
  intro T h
  unfold exSingleGraded at h
  split_ifs at h with hT
  · exact hT.le
  · exact absurd rfl h

example := C158_grm_single exSingleGraded_one (by decide) (by simp) Matrix.PosDef.one Matrix.PosDef.one (by norm_num) exFour exFour_mem fun _ => 2

example := C159_single (items := 3) exSingles_one (by norm_num) Matrix.PosDef.one
  (C' := Matrix.diagonal fun _ => 4) (Matrix.PosDef.diagonal fun _ => by norm_num) ![1, 0, -1]

end Irt
