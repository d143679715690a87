import Verif.Props.Booklets
import Verif.Props.RaschBooklets
import Verif.Props.CalibratedScores

/-! # C158, C159: scores with items that were calibrated in booklets -/

namespace Irt
open Spec MeasureTheory Filter Topology

section Family

variable {A : Type*} [TopologicalSpace A] {d : ℕ} {cats : List ℕ} {h : (Fin cats.length → Option ℕ) → ℝ} (hask : Asking cats h)
  (m : A → Scorer d) (P : A → (Fin d → ℝ) → ℕ → ℕ → ℝ)
  (hm : ∀ a, IsScorer (m a) cats (P a)) (hpos : ∀ a, PositiveProbs (P a) cats) (hP : ∀ a, ProperProbs (P a) cats)
  (hcont : ∀ j r, Continuous fun p : A × (Fin d → ℝ) => P p.1 p.2 j r) (hle : ∀ a θ j r, P a θ j r ≤ 1)
  {hg : ℕ → Except PyErr (List ℝ × List ℝ)} (hrules : ExactRules hg)
  {ch : Matrix (Fin d) (Fin d) ℝ → Except PyErr (Matrix (Fin d) (Fin d) ℝ)} (cov : Option CovArg)
  {C L : Matrix (Fin d) (Fin d) ℝ}
  (hC : cov = none ∧ C = 1 ∨ ∃ c, cov = some c ∧ c.rows = d ∧ c.cols = d ∧ C = Matrix.of fun i j : Fin d => c.entry i j)
  (hCpos : C.PosDef) (hL : ch C = .ok L) (hchol : IsCholesky C L)

include hask hm hpos hP hcont hle hrules hC hCpos hL hchol in
/-- C158 for scores: if what is seen determines the parameters, then with enough integration points and respondents the probability that the model
fitted to incomplete answers gives any answers, to whichever items, EAP scores that differ by `ε` or more from those of the true model is as
small as one likes. -/
theorem C158_scores [FirstCountableTopology A] (K : Set A) (hK : IsCompact K) (η₀ : A)
    (hident : ∀ η ∈ K, (∀ z ∈ possiblySeen cats h, seenFrom cats h (normalProb (P η) C) z = seenFrom cats h (normalProb (P η₀) C) z) → η = η₀)
    (a : AlgAttrs d) (hd : d ≤ 4) (points : Option ℕ) (grid : Thetas d) (hgne : grid ≠ [])
    (gcov : Matrix (Fin d) (Fin d) ℝ) (hgcov : gcov.PosDef) (hgrid : eapGrid a (points.getD (eapDefaultPoints d)) = .ok (grid, gcov))
    (ε : ℝ) (hε : 0 < ε) :
    ∃ n₀ : ℕ, 1 ≤ n₀ ∧ ∀ risk : ℝ, 0 < risk → ∃ N₀ : ℕ, ∀ n, n₀ ≤ n → ∀ N, N₀ ≤ N →
      ∀ pts lw, mmlIntegration hg ch "gauss_hermite" (some n) cov = .ok (pts, lw) →
      ∀ estimate : (Fin N → Fin cats.length → Option ℕ) → A,
      (∀ s ∈ seenSamples N cats h, estimate s ∈ K ∧
        ∃ L L' : ℝ, mmlLoss (m η₀) (rowsOf N cats.length (seenCells s)) pts lw = .ok (some L) ∧
          mmlLoss (m (estimate s)) (rowsOf N cats.length (seenCells s)) pts lw = .ok (some L') ∧ L' ≤ L) →
      ∀ far : Finset (Fin N → Fin cats.length → Option ℕ), far ⊆ seenSamples N cats h →
        (∀ s ∈ far, ∃ row, ValidResponses cats row ∧ ¬ ∃ e e' : Fin d → ℝ,
          eapScores (m η₀) a (rowsOf 1 cats.length fun _ => row) points = .ok [some e] ∧
          eapScores (m (estimate s)) a (rowsOf 1 cats.length fun _ => row) points = .ok [some e'] ∧ ∀ k, |e k - e' k| < ε) →
        ∑ s ∈ far, seenSampleProb (seenFrom cats h (normalProb (P η₀) C)) s ≤ risk := by
  obtain ⟨U, hU, hU₀, hin⟩ := C152_neighbourhood m P hm hpos hcont a hd points grid hgne gcov hgcov hgrid η₀ ε hε
  obtain ⟨n₀, h1, h⟩ := C158_parameters hask m P hm hpos hP hcont hle hrules cov hC hCpos hL hchol K hK η₀ hident U hU hU₀
  refine ⟨n₀, h1, fun risk hrisk => ?_⟩
  obtain ⟨N₀, hN₀⟩ := h risk hrisk
  refine ⟨N₀, fun n hn N hN pts lw hok estimate hest far hfar hbad => hN₀ n hn N hN pts lw hok estimate hest far hfar fun s hs hs' => ?_⟩
  obtain ⟨row, hrow, hno⟩ := hbad s hs
  exact hno (hin _ hs' row hrow)

end Family

section Booklets

variable {items d : ℕ} {π : Finset (Fin (List.replicate items 2).length) → ℝ} (hπ : ∀ T, 0 ≤ π T) (hsum : ∑ T, π T = 1)
  {C : Matrix (Fin d) (Fin d) ℝ} (hC : C.PosDef) {hg : ℕ → Except PyErr (List ℝ × List ℝ)} (hrules : ExactRules hg)
  {ch : Matrix (Fin d) (Fin d) ℝ → Except PyErr (Matrix (Fin d) (Fin d) ℝ)} (cov : Option CovArg) {L : Matrix (Fin d) (Fin d) ℝ}
  (hcov : cov = none ∧ C = 1 ∨ ∃ c, cov = some c ∧ c.rows = d ∧ c.cols = d ∧ C = Matrix.of fun i j : Fin d => c.entry i j)
  (hL : ch C = .ok L) (hchol : IsCholesky C L)

include hπ hsum hC hrules hcov hL hchol in
/-- C158: EAP scores by a 2PL model that was fitted to booklets come as near to those by the true model as one likes, also for respondents who answer
items that were never asked together. -/
theorem C158_twoPL_scores (dim : Fin items → Fin d)
    (hdesign : ∀ j : Fin items, ∃ k l, dim k = dim j ∧ dim l = dim j ∧ j ≠ k ∧ j ≠ l ∧ k ≠ l ∧
      Together π ⟨j, by simp⟩ ⟨k, by simp⟩ ∧ Together π ⟨j, by simp⟩ ⟨l, by simp⟩ ∧ Together π ⟨k, by simp⟩ ⟨l, by simp⟩)
    (hitems : 0 < items) {α : ℝ} (hα : 0 < α) (β : ℝ) (p₀ : (Fin items → ℝ) × (Fin items → ℝ)) (h₀ : ∀ j, 0 < p₀.1 j)
    (a : AlgAttrs d) (hd : d ≤ 4) (points : Option ℕ) (grid : Thetas d) (hgne : grid ≠ [])
    (gcov : Matrix (Fin d) (Fin d) ℝ) (hgcov : gcov.PosDef) (hgrid : eapGrid a (points.getD (eapDefaultPoints d)) = .ok (grid, gcov))
    (ε : ℝ) (hε : 0 < ε) :
    ∃ n₀ : ℕ, 1 ≤ n₀ ∧ ∀ risk : ℝ, 0 < risk → ∃ N₀ : ℕ, ∀ n, n₀ ≤ n → ∀ N, N₀ ≤ N →
      ∀ pts lw, mmlIntegration hg ch "gauss_hermite" (some n) cov = .ok (pts, lw) →
      ∀ estimate : (Fin N → Fin (List.replicate items 2).length → Option ℕ) → (Fin items → ℝ) × (Fin items → ℝ),
      (∀ s ∈ seenSamples N (List.replicate items 2) (byBooklet π), estimate s ∈ TwoPLBounds items α β ∧
        ∃ L L' : ℝ, mmlLoss ((simpleTwoPL dim p₀).scorer d) (rowsOf N (List.replicate items 2).length (seenCells s)) pts lw = .ok (some L) ∧
          mmlLoss ((simpleTwoPL dim (estimate s)).scorer d) (rowsOf N (List.replicate items 2).length (seenCells s)) pts lw = .ok (some L') ∧ L' ≤ L) →
      ∀ far : Finset (Fin N → Fin (List.replicate items 2).length → Option ℕ), far ⊆ seenSamples N (List.replicate items 2) (byBooklet π) →
        (∀ s ∈ far, ∃ row, ValidResponses (List.replicate items 2) row ∧ ¬ ∃ e e' : Fin d → ℝ,
          eapScores ((simpleTwoPL dim p₀).scorer d) a (rowsOf 1 (List.replicate items 2).length fun _ => row) points = .ok [some e] ∧
          eapScores ((simpleTwoPL dim (estimate s)).scorer d) a (rowsOf 1 (List.replicate items 2).length fun _ => row) points = .ok [some e'] ∧
            ∀ k, |e k - e' k| < ε) →
        ∑ s ∈ far, seenSampleProb (seenFrom (List.replicate items 2) (byBooklet π)
          (normalProb (fun θ : Fin d → ℝ => tableProb ((simpleTwoPL dim p₀).probs (List.ofFn θ))) C)) s ≤ risk :=
  C158_scores (byBooklet_asking _ hπ hsum) (fun p : (Fin items → ℝ) × (Fin items → ℝ) => (simpleTwoPL dim p).scorer d)
    (fun p θ => tableProb ((simpleTwoPL dim p).probs (List.ofFn θ))) (simpleTwoPL_isScorer dim hitems) (simpleTwoPL_positive dim)
    (simpleTwoPL_proper dim) (simpleTwoPL_jointly dim) (simpleTwoPL_le_one dim) hrules cov hcov hC hL hchol _ (twoPLBounds_compact items α β) p₀
    (fun p hp hb => C158_identified dim hC hdesign p p₀ (fun j => hα.trans_le (hp j).1) h₀ hb) a hd points grid hgne gcov hgcov hgrid ε hε

end Booklets

section Rasch

variable {items : ℕ} {π : Finset (Fin (List.replicate items 2).length) → ℝ} (hπ : ∀ T, 0 ≤ π T) (hsum : ∑ T, π T = 1)
  (hasked : ∀ j : Fin items, ∃ T, 0 < π T ∧ (⟨j, by simp⟩ : Fin (List.replicate items 2).length) ∈ T)
  {C : Matrix (Fin 1) (Fin 1) ℝ} (hC : C.PosDef) {hg : ℕ → Except PyErr (List ℝ × List ℝ)} (hrules : ExactRules hg)
  {ch : Matrix (Fin 1) (Fin 1) ℝ → Except PyErr (Matrix (Fin 1) (Fin 1) ℝ)} (cov : Option CovArg) {L : Matrix (Fin 1) (Fin 1) ℝ}
  (hcov : cov = none ∧ C = 1 ∨ ∃ c, cov = some c ∧ c.rows = 1 ∧ c.cols = 1 ∧ C = Matrix.of fun i j : Fin 1 => c.entry i j)
  (hL : ch C = .ok L) (hchol : IsCholesky C L)

include hπ hsum hasked hC hrules hcov hL hchol in
/-- C159: EAP scores of complete or incomplete answers by a 1PL model that was fitted to respondents with as little as one answer each. -/
theorem C159_scores (hitems : 0 < items) (β : ℝ) (b₀ : Fin items → ℝ)
    (a : AlgAttrs 1) (points : Option ℕ) (grid : Thetas 1) (hgne : grid ≠ [])
    (gcov : Matrix (Fin 1) (Fin 1) ℝ) (hgcov : gcov.PosDef) (hgrid : eapGrid a (points.getD (eapDefaultPoints 1)) = .ok (grid, gcov))
    (ε : ℝ) (hε : 0 < ε) :
    ∃ n₀ : ℕ, 1 ≤ n₀ ∧ ∀ risk : ℝ, 0 < risk → ∃ N₀ : ℕ, ∀ n, n₀ ≤ n → ∀ N, N₀ ≤ N →
      ∀ pts lw, mmlIntegration hg ch "gauss_hermite" (some n) cov = .ok (pts, lw) →
      ∀ estimate : (Fin N → Fin (List.replicate items 2).length → Option ℕ) → Fin items → ℝ,
      (∀ s ∈ seenSamples N (List.replicate items 2) (byBooklet π), (∀ j, |estimate s j| ≤ β) ∧
        ∃ L L' : ℝ, mmlLoss (onePLWith b₀).scorer (rowsOf N (List.replicate items 2).length (seenCells s)) pts lw = .ok (some L) ∧
          mmlLoss (onePLWith (estimate s)).scorer (rowsOf N (List.replicate items 2).length (seenCells s)) pts lw = .ok (some L') ∧ L' ≤ L) →
      ∀ far : Finset (Fin N → Fin (List.replicate items 2).length → Option ℕ), far ⊆ seenSamples N (List.replicate items 2) (byBooklet π) →
        (∀ s ∈ far, ∃ row, ValidResponses (List.replicate items 2) row ∧ ¬ ∃ e e' : Fin 1 → ℝ,
          eapScores (onePLWith b₀).scorer a (rowsOf 1 (List.replicate items 2).length fun _ => row) points = .ok [some e] ∧
          eapScores (onePLWith (estimate s)).scorer a (rowsOf 1 (List.replicate items 2).length fun _ => row) points = .ok [some e'] ∧
            ∀ k, |e k - e' k| < ε) →
        ∑ s ∈ far, seenSampleProb (seenFrom (List.replicate items 2) (byBooklet π)
          (normalProb (fun θ : Fin 1 → ℝ => tableProb ((onePLWith b₀).probs (θ 0))) C)) s ≤ risk := by
  obtain ⟨n₀, h1, h⟩ := C158_scores (byBooklet_asking _ hπ hsum) (fun b : Fin items → ℝ => (onePLWith b).scorer)
    (fun b θ => tableProb ((onePLWith b).probs (θ 0))) (fun b => (onePLWith b).isScorer (onePLWith_wf b) hitems)
    (fun b => (onePLWith b).positive (onePLWith_wf b)) onePLWith_proper onePLWith_jointly
    (fun b θ j r => by
      have := simpleTwoPL_le_one (fun _ : Fin items => (0 : Fin 1)) (fun _ => 1, b) θ j r
      rwa [← congrFun (congrFun (congrFun (onePLWith_same b) θ) j) r] at this)
    hrules cov hcov hC hL hchol (Set.univ.pi fun _ => Set.Icc (-β) β) (isCompact_univ_pi fun _ => isCompact_Icc) b₀
    (fun b _ hb => C159_identified hasked hC b _ hb) a (by norm_num) points grid hgne gcov hgcov hgrid ε hε
  refine ⟨n₀, h1, fun risk hrisk => ?_⟩
  obtain ⟨N₀, hN₀⟩ := h risk hrisk
  exact ⟨N₀, fun n hn N hN pts lw hok estimate hest => hN₀ n hn N hN pts lw hok estimate
    fun s hs => ⟨fun j _ => abs_le.1 ((hest s hs).1 j), (hest s hs).2⟩⟩

end Rasch

example {hg : ℕ → Except PyErr (List ℝ × List ℝ)} (hrules : ExactRules hg) :=
  C158_twoPL_scores exBooklets_nonneg exBooklets_sum Matrix.PosDef.one hrules (ch := fun _ => .ok (1 : Matrix (Fin 1) (Fin 1) ℝ)) none
    (Or.inl ⟨rfl, rfl⟩) rfl (by simp [IsCholesky]) (fun _ : Fin 6 => (0 : Fin 1)) exBooklets_design (by norm_num) (α := 1 / 10) (by norm_num) 5
    exSimple exSimple_pos {} (by norm_num) (some 7) (cartesianProd fun _ => linspace (-3) 3 7) exSeven_ne 1 Matrix.PosDef.one rfl (1 / 100) (by norm_num)

example {hg : ℕ → Except PyErr (List ℝ × List ℝ)} (hrules : ExactRules hg) :=
  C159_scores (fun T => by unfold exSingles; split_ifs <;> norm_num) exSingles_sum exSingles_asked Matrix.PosDef.one hrules
    (ch := fun _ => .ok (1 : Matrix (Fin 1) (Fin 1) ℝ)) none (Or.inl ⟨rfl, rfl⟩) rfl (by simp [IsCholesky]) (by norm_num) 5 ![1, 0, -1] {} (some 7)
    (cartesianProd fun _ => linspace (-3) 3 7) exSeven_ne 1 Matrix.PosDef.one rfl (1 / 100) (by norm_num)

end Irt
