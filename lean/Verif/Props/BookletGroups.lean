import Verif.Spec.BookletGroups
import Verif.Props.Booklets

/-!
# C160: booklets for groups

MML fits one population. If groups with different distributions get booklets without common items, every group's items end up on the group's own scale.
-/

namespace Irt
open Spec MeasureTheory Filter Topology

/-- The probability of what is seen is the average of the likelihood of the answers that are seen. -/
theorem seen_integral {d : ℕ} {cats : List ℕ} {P : (Fin d → ℝ) → ℕ → ℕ → ℝ} {C : Matrix (Fin d) (Fin d) ℝ} (hC : C.PosDef)
    (hPc : ContinuousProbs P) (hP0 : ∀ θ j r, 0 ≤ P θ j r) (hP1 : ∀ θ j r, P θ j r ≤ 1) (hP : ProperProbs P cats)
    {z : Fin cats.length → Option ℕ} (hz : z ∈ seenAnswers cats) :
    ∑ x ∈ completions cats (seenRow z), normalProb P C x
      = ∫ θ, Real.exp (mvnLogDensity 0 C θ) * observedLikelihood P cats.length (seenRow z) θ := by
  classical
  have hsub : ∀ p : (Fin cats.length → ℕ) → ℝ, ∑ x ∈ completions cats (seenRow z), p x
      = ∑ x ∈ fullAnswers cats, p x * if x ∈ completions cats (seenRow z) then 1 else 0 := by
    intro p
    simp only [mul_ite, mul_one, mul_zero]
    rw [← Finset.sum_filter]
    congr 1
    ext x
    simp only [Finset.mem_filter]
    exact ⟨fun h => ⟨((mem_completions_seenRow hz x).1 h).1, h⟩, fun h => h.2⟩
  rw [hsub, normalProb_sum_mul hPc hP0 hP1 hC]
  congr 1
  funext θ
  rw [← hsub, ← observedLikelihood_completions hP]

/-- What is seen depends on the items that are answered only. -/
theorem seen_local {d : ℕ} {cats : List ℕ} {P Q : (Fin d → ℝ) → ℕ → ℕ → ℝ} {C : Matrix (Fin d) (Fin d) ℝ} (hC : C.PosDef)
    (hPc : ContinuousProbs P) (hQc : ContinuousProbs Q) (hP0 : ∀ θ j r, 0 ≤ P θ j r) (hQ0 : ∀ θ j r, 0 ≤ Q θ j r)
    (hP1 : ∀ θ j r, P θ j r ≤ 1) (hQ1 : ∀ θ j r, Q θ j r ≤ 1) (hP : ProperProbs P cats) (hQ : ProperProbs Q cats)
    {z : Fin cats.length → Option ℕ} (hz : z ∈ seenAnswers cats)
    (hsame : ∀ j : Fin cats.length, (z j).isSome → ∀ θ r, P θ j r = Q θ j r) :
    ∑ x ∈ completions cats (seenRow z), normalProb P C x = ∑ x ∈ completions cats (seenRow z), normalProb Q C x := by
  rw [seen_integral hC hPc hP0 hP1 hP hz, seen_integral hC hQc hQ0 hQ1 hQ hz]
  congr 1
  funext θ
  congr 1
  unfold observedLikelihood
  refine Finset.prod_congr rfl fun j hj => ?_
  have hj' := Finset.mem_range.1 hj
  by_cases hn : z ⟨j, hj'⟩ = none
  · have : cellMissing (seenRow z j) = true := by simp [seenRow, hj', hn, cellMissing]
    rw [if_pos this, if_pos this]
  · rw [hsame ⟨j, hj'⟩ (Option.isSome_iff_ne_none.2 hn)]

section Groups

variable {G : Type} [Fintype G] {items d : ℕ} (dim : Fin items → Fin d) {C : Matrix (Fin d) (Fin d) ℝ} (hC : C.PosDef)
  {share : G → ℝ} (hshare : ∀ g, 0 ≤ share g) (hshares : ∑ g, share g = 1)
  {π : G → Finset (Fin (List.replicate items 2).length) → ℝ} (hπ : ∀ g T, 0 ≤ π g T) (hsum : ∀ g, ∑ T, π g T = 1)
  (group : Fin items → G) (hown : ∀ g T, π g T ≠ 0 → ∀ j : Fin items, (⟨j, by simp⟩ : Fin (List.replicate items 2).length) ∈ T → group j = g)

/-- Slopes and intercepts with every item on the scale of the group that answers it: the scale on which that group has mean zero and covariance
matrix `C`. -/
noncomputable def ownScale (μ σ : G → Fin d → ℝ) (p : (Fin items → ℝ) × (Fin items → ℝ)) : (Fin items → ℝ) × (Fin items → ℝ) :=
  (fun j => p.1 j * σ (group j) (dim j), fun j => p.2 j + p.1 j * μ (group j) (dim j))

include hC hown in
/-- C160: what is seen of groups with different means and standard deviations that get different items is what would be seen of a single
population with other slopes and intercepts. -/
theorem C160_same (hitems : 0 < items) (p : (Fin items → ℝ) × (Fin items → ℝ)) (μ : G → Fin d → ℝ) {σ : G → Fin d → ℝ} (hσ : ∀ g k, 0 < σ g k)
    {z : Fin (List.replicate items 2).length → Option ℕ} (hz : z ∈ seenAnswers (List.replicate items 2)) :
    seenInGroups (List.replicate items 2) share π (fun θ : Fin d → ℝ => tableProb ((simpleTwoPL dim p).probs (List.ofFn θ))) μ
        (fun g => Matrix.of fun k l => σ g k * C k l * σ g l) z
      = seenFrom (List.replicate items 2) (byBooklet fun T => ∑ g, share g * π g T)
        (normalProb (fun θ : Fin d → ℝ => tableProb ((simpleTwoPL dim (ownScale dim group μ σ p)).probs (List.ofFn θ))) C) z := by
  rw [seenFrom_eq _ hz]
  unfold seenInGroups byBooklet
  rw [Finset.sum_mul]
  refine Finset.sum_congr rfl fun g _ => ?_
  rw [show seenFrom (List.replicate items 2) (fun z => π g {j | (z j).isSome}) _ z = _ from seenFrom_eq _ hz, ← mul_assoc]
  by_cases hT : π g {j | (z j).isSome} = 0
  · rw [hT, mul_zero, zero_mul, zero_mul]
  congr 1
  have e : Matrix.diagonal (σ g) * C * (Matrix.diagonal (σ g)).transpose = Matrix.of fun k l => σ g k * C k l * σ g l := by
    ext k l
    rw [Matrix.diagonal_transpose, Matrix.mul_diagonal, Matrix.diagonal_mul, Matrix.of_apply]
  set pg : (Fin items → ℝ) × (Fin items → ℝ) := (fun j => p.1 j * σ g (dim j), fun j => p.2 j + p.1 j * μ g (dim j)) with hpg
  refine Eq.trans (Finset.sum_congr rfl fun x hx => ?_) (seen_local hC (P := fun θ : Fin d → ℝ => tableProb ((simpleTwoPL dim pg).probs (List.ofFn θ)))
    (simpleTwoPL_continuous dim pg) (simpleTwoPL_continuous dim _) (simpleTwoPL_isScorer dim hitems pg).nonneg
    (simpleTwoPL_isScorer dim hitems _).nonneg (fun θ => simpleTwoPL_le_one dim pg θ) (fun θ => simpleTwoPL_le_one dim _ θ) (simpleTwoPL_proper dim pg)
    (simpleTwoPL_proper dim _) hz fun j hj θ r => ?_)
  · dsimp only
    rw [← e, C153_population (simpleTwoPL_scale dim p (μ g) (σ g))
      (by rw [Matrix.det_diagonal]; exact Finset.prod_ne_zero_iff.2 fun k _ => (hσ g k).ne') hC ((mem_completions_seenRow hz x).1 hx).1]
  · have hlt : (j : ℕ) < items := by simpa using j.2
    have hg : group ⟨j, hlt⟩ = g := hown g _ hT ⟨j, hlt⟩ (by simpa using hj)
    simp only [simpleTwoPL_prob, dif_pos hlt, hpg, ownScale, hg]

include hC hown in
/-- C160: differences between the groups cannot be told from differences between their items. Groups with the same distribution and other items give the
same answers. -/
theorem C160_confounded (hitems : 0 < items) (p : (Fin items → ℝ) × (Fin items → ℝ)) (μ : G → Fin d → ℝ) {σ : G → Fin d → ℝ} (hσ : ∀ g k, 0 < σ g k)
    {z : Fin (List.replicate items 2).length → Option ℕ} (hz : z ∈ seenAnswers (List.replicate items 2)) :
    seenInGroups (List.replicate items 2) share π (fun θ : Fin d → ℝ => tableProb ((simpleTwoPL dim p).probs (List.ofFn θ))) μ
        (fun g => Matrix.of fun k l => σ g k * C k l * σ g l) z
      = seenInGroups (List.replicate items 2) share π
        (fun θ : Fin d → ℝ => tableProb ((simpleTwoPL dim (fun j => p.1 j * σ (group j) (dim j), fun j => p.2 j + p.1 j * μ (group j) (dim j))).probs
          (List.ofFn θ))) (fun _ => 0) (fun _ => C) z := by
  have h := C160_same (share := share) dim hC group hown hitems (ownScale dim group μ σ p) (fun _ => 0) (σ := fun _ _ => 1) (fun _ _ => one_pos) hz
  have e1 : ownScale dim group (fun _ : G => (0 : Fin d → ℝ)) (fun _ _ => 1) (ownScale dim group μ σ p) = ownScale dim group μ σ p := by
    simp [ownScale]
  have e2 : (fun _ : G => Matrix.of fun k l : Fin d => 1 * C k l * 1) = fun _ : G => C := by
    funext g
    ext k l
    simp
  rw [e1, e2] at h
  rw [C160_same dim hC group hown hitems p μ hσ hz, ← h]
  rfl

variable {hg : ℕ → Except PyErr (List ℝ × List ℝ)} (hrules : ExactRules hg)
  {ch : Matrix (Fin d) (Fin d) ℝ → Except PyErr (Matrix (Fin d) (Fin d) ℝ)} (cov : Option CovArg) {L : Matrix (Fin d) (Fin d) ℝ}
  (hcov : cov = none ∧ C = 1 ∨ ∃ c, cov = some c ∧ c.rows = d ∧ c.cols = d ∧ C = Matrix.of fun i j : Fin d => c.entry i j)
  (hL : ch C = .ok L) (hchol : IsCholesky C L)
  (hdesign : ∀ j : Fin items, ∃ k l, dim k = dim j ∧ dim l = dim j ∧ j ≠ k ∧ j ≠ l ∧ k ≠ l ∧
    Together (fun T => ∑ g, share g * π g T) (⟨j, by simp⟩ : Fin (List.replicate items 2).length) ⟨k, by simp⟩ ∧
    Together (fun T => ∑ g, share g * π g T) (⟨j, by simp⟩ : Fin (List.replicate items 2).length) ⟨l, by simp⟩ ∧
    Together (fun T => ∑ g, share g * π g T) (⟨k, by simp⟩ : Fin (List.replicate items 2).length) ⟨l, by simp⟩)

include hC hshare hshares hπ hsum hown hrules hcov hL hchol hdesign in
/-- C160: a fit to such data puts every item on the scale of the group that answers it. -/
theorem C160_twoPL (hitems : 0 < items) {α : ℝ} (hα : 0 < α) (β : ℝ) (p₀ : (Fin items → ℝ) × (Fin items → ℝ)) (h₀ : ∀ j, 0 < p₀.1 j)
    (μ : G → Fin d → ℝ) {σ : G → Fin d → ℝ} (hσ : ∀ g k, 0 < σ g k) (ε : ℝ) (hε : 0 < ε) :
    ∃ n₀ : ℕ, 1 ≤ n₀ ∧ ∀ risk : ℝ, 0 < risk → ∃ N₀ : ℕ, ∀ n, n₀ ≤ n → ∀ N, N₀ ≤ N →
      ∀ pts lw, mmlIntegration hg ch "gauss_hermite" (some n) cov = .ok (pts, lw) →
      ∀ estimate : (Fin N → Fin (List.replicate items 2).length → Option ℕ) → (Fin items → ℝ) × (Fin items → ℝ),
      (∀ s ∈ seenSamples N (List.replicate items 2) (byBooklet fun T => ∑ g, share g * π g T), estimate s ∈ TwoPLBounds items α β ∧
        ∃ L L' : ℝ, mmlLoss ((simpleTwoPL dim (ownScale dim group μ σ p₀)).scorer d)
            (rowsOf N (List.replicate items 2).length (seenCells s)) pts lw = .ok (some L) ∧
          mmlLoss ((simpleTwoPL dim (estimate s)).scorer d) (rowsOf N (List.replicate items 2).length (seenCells s)) pts lw = .ok (some L') ∧ L' ≤ L) →
      ∀ far : Finset (Fin N → Fin (List.replicate items 2).length → Option ℕ),
        far ⊆ seenSamples N (List.replicate items 2) (byBooklet fun T => ∑ g, share g * π g T) →
        (∀ s ∈ far, ∃ j, ε ≤ |(estimate s).1 j - p₀.1 j * σ (group j) (dim j)| ∨ ε ≤ |(estimate s).2 j - (p₀.2 j + p₀.1 j * μ (group j) (dim j))|) →
        ∑ s ∈ far, seenSampleProb (seenInGroups (List.replicate items 2) share π
          (fun θ : Fin d → ℝ => tableProb ((simpleTwoPL dim p₀).probs (List.ofFn θ))) μ (fun g => Matrix.of fun k l => σ g k * C k l * σ g l)) s ≤ risk := by
  obtain ⟨n₀, h1, h⟩ := C158_twoPL dim hC (π := fun T => ∑ g, share g * π g T) (fun T => Finset.sum_nonneg fun g _ => mul_nonneg (hshare g) (hπ g T))
    (by
      rw [Finset.sum_comm]
      simp only [← Finset.mul_sum, hsum, mul_one, hshares])
    hdesign hrules cov hcov hL hchol hitems hα β (ownScale dim group μ σ p₀) (fun j => mul_pos (h₀ j) (hσ _ _)) ε hε
  refine ⟨n₀, h1, fun risk hrisk => ?_⟩
  obtain ⟨N₀, hN₀⟩ := h risk hrisk
  refine ⟨N₀, fun n hn N hN pts lw hok estimate hest far hfar hbad => ?_⟩
  refine (le_of_eq (Finset.sum_congr rfl fun s hs => ?_)).trans (hN₀ n hn N hN pts lw hok estimate hest far hfar hbad)
  exact Finset.prod_congr rfl fun i _ => C160_same dim hC group hown hitems p₀ μ hσ (mem_possiblySeen.1 (Fintype.mem_piFinset.1 (hfar hs) i)).1

end Groups

/-! ## Two groups with three items each -/

/-- Both groups get their booklet with certainty. -/
noncomputable def exGroupBooklets (g : Bool) (T : Finset (Fin (List.replicate 6 2).length)) : ℝ := if T = exBooklet g then 1 else 0

theorem exGroupBooklets_own : ∀ (g : Bool) T, exGroupBooklets g T ≠ 0 → ∀ j : Fin 6, (⟨j, by simp⟩ : Fin (List.replicate 6 2).length) ∈ T →
    decide ((j : ℕ) < 3) = g := by
  intro g T hT j hj
  unfold exGroupBooklets at hT
  split_ifs at hT with h
  · rw [h] at hj
    have hj' : (j : ℕ) < 3 ↔ g = true := by simpa [exBooklet] using hj
    cases g <;> simpa using hj'
  · exact absurd rfl hT

theorem exGroupBooklets_mix : (fun T => ∑ g : Bool, (1 / 2 : ℝ) * exGroupBooklets g T) = exBooklets := by
  funext T
  rw [Fintype.sum_bool]
  unfold exGroupBooklets exBooklets
  simp only [mul_ite, mul_one, mul_zero]

/-- The first group has mean 0 and standard deviation 1, the second mean 1 and standard deviation 2. For every sample there are best parameters within
bounds, and with enough points and respondents those of the second group's items are not near the truth, but near the truth on the second group's scale,
with a probability of at least 95 percent. -/
example : ∃ (hg : ℕ → Except PyErr (List ℝ × List ℝ)) (n₀ N₀ : ℕ), ExactRules hg ∧ ∀ n, n₀ ≤ n → ∀ N, N₀ ≤ N →
    ∃ (pts : Thetas 1) (lw : List ℝ) (estimate : (Fin N → Fin (List.replicate 6 2).length → Option ℕ) → (Fin 6 → ℝ) × (Fin 6 → ℝ)),
      mmlIntegration hg (fun _ => .ok (1 : Matrix (Fin 1) (Fin 1) ℝ)) "gauss_hermite" (some n) none = .ok (pts, lw) ∧
      ∀ far : Finset (Fin N → Fin (List.replicate 6 2).length → Option ℕ), far ⊆ seenSamples N (List.replicate 6 2) (byBooklet exBooklets) →
        (∀ s ∈ far, ∃ j, 1 / 10 ≤ |(estimate s).1 j - exSimple.1 j * if (j : ℕ) < 3 then 1 else 2| ∨
          1 / 10 ≤ |(estimate s).2 j - (exSimple.2 j + exSimple.1 j * if (j : ℕ) < 3 then 0 else 1)|) →
        ∑ s ∈ far, seenSampleProb (seenInGroups (List.replicate 6 2) (fun _ : Bool => 1 / 2) exGroupBooklets
          (fun θ : Fin 1 → ℝ => tableProb ((simpleTwoPL (fun _ : Fin 6 => (0 : Fin 1)) exSimple).probs (List.ofFn θ)))
          (fun g _ => if g then 0 else 1) (fun g => Matrix.of fun k l => (if g then 1 else 2) * (1 : Matrix (Fin 1) (Fin 1) ℝ) k l * if g then 1 else 2)) s
            ≤ 1 / 20 := by
  classical
  obtain ⟨hg, hrules⟩ := C141_rules_exist
  obtain ⟨n₀, h1, h⟩ := C160_twoPL (fun _ : Fin 6 => (0 : Fin 1)) Matrix.PosDef.one (G := Bool) (share := fun _ => 1 / 2) (fun _ => by norm_num) (by norm_num)
    (π := exGroupBooklets) (fun g T => by unfold exGroupBooklets; split_ifs <;> norm_num)
    (fun g => by unfold exGroupBooklets; rw [Finset.sum_ite_eq', if_pos (Finset.mem_univ _)]) (fun j => decide ((j : ℕ) < 3)) exGroupBooklets_own hrules
    (ch := fun _ => .ok (1 : Matrix (Fin 1) (Fin 1) ℝ)) none (Or.inl ⟨rfl, rfl⟩) rfl (by simp [IsCholesky])
    (by rw [exGroupBooklets_mix]; exact exBooklets_design) (by norm_num) (α := 1 / 10) (by norm_num) 10
    exSimple exSimple_pos (fun g _ => if g then 0 else 1) (σ := fun g _ => if g then 1 else 2) (fun g _ => by split_ifs <;> norm_num) (1 / 10) (by norm_num)
  rw [exGroupBooklets_mix] at h
  simp only [decide_eq_true_eq] at h
  obtain ⟨N₀, hN₀⟩ := h (1 / 20) (by norm_num)
  refine ⟨hg, n₀, N₀, hrules, fun n hn N hN => ?_⟩
  obtain ⟨x, w, hx, hexact⟩ := hrules n (h1.trans hn)
  obtain ⟨pts, lw, hok, hl, hne, _⟩ := integration_rule (ch := fun _ => .ok (1 : Matrix (Fin 1) (Fin 1) ℝ)) none (Or.inl ⟨rfl, rfl⟩) rfl (h1.trans hn)
    hx hexact
  choose! estimate hb hmin using C158_exists (fun _ : Fin 6 => (0 : Fin 1)) (by norm_num) exBooklets pts lw hl hne (α := 1 / 10) (β := 10)
    (by norm_num) (by norm_num) N
  refine ⟨pts, lw, estimate, hok, hN₀ n hn N hN pts lw hok estimate fun s hs => ⟨hb s hs, ?_⟩⟩
  obtain ⟨L', hL', hbest⟩ := hmin s hs
  obtain ⟨L, hL, hle⟩ := hbest (ownScale (fun _ : Fin 6 => (0 : Fin 1)) (fun j => decide ((j : ℕ) < 3)) (fun g _ => if g then 0 else 1)
    (fun g _ => if g then 1 else 2) exSimple) (fun j => by
      have h0 : (0 : ℝ) ≤ (j : ℕ) := Nat.cast_nonneg _
      have h5 : ((j : ℕ) : ℝ) ≤ 5 := by exact_mod_cast Nat.le_of_lt_succ j.2
      simp only [ownScale, exSimple]
      refine ⟨?_, ?_, abs_le.2 ⟨?_, ?_⟩⟩ <;> split_ifs <;> linarith)
  exact ⟨L, L', hL, hL', hle⟩

end Irt
