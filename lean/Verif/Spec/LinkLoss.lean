import Verif.Model.LinkLoss

/-! # Specification of the linking objective -/

namespace Irt

/-- Kullback-Leibler divergence of `q` from `p` over `M` categories. -/
noncomputable def klDivergence (M : ℕ) (p q : ℕ → ℝ) : ℝ := ∑ c ∈ Finset.range M, p c * Real.log (p c / q c)

/-- Squared Hellinger distance (without the factor one half): zero exactly for equal distributions. -/
noncomputable def hellingerSq (M : ℕ) (p q : ℕ → ℝ) : ℝ := ∑ c ∈ Finset.range M, (Real.sqrt (p c) - Real.sqrt (q c)) ^ 2

/-- The average of `f` over `N` respondents and the pairs of a list. -/
noncomputable def averageOver (N : ℕ) (pairs : List (ℕ × ℕ)) (f : ℕ → ℕ × ℕ → ℝ) : ℝ :=
  (∑ i ∈ Finset.range N, (pairs.map (f i)).sum) / (N * pairs.length)

/-- The tensor (respondent, item, category) with entries `P`. -/
def probTensor (N items M : ℕ) (P : ℕ → ℕ → ℕ → ℝ) : List (List (List ℝ)) :=
  (List.range N).map fun i => (List.range items).map fun j => (List.range M).map (P i j)

/-- `P i j` is a probability distribution over `M` categories for every respondent and item. -/
def IsProbTensor (N items M : ℕ) (P : ℕ → ℕ → ℕ → ℝ) : Prop :=
  ∀ i j : ℕ, i < N → j < items → (∀ c : ℕ, c < M → 0 ≤ P i j c) ∧ ∑ c ∈ Finset.range M, P i j c = 1

end Irt
