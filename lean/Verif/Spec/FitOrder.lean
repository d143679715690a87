import Verif.Model.GradientFit
import Mathlib.Analysis.SpecialFunctions.Pow.Real

/-! # Corresponding parameters of two fits -/

namespace Irt.Spec

/-- The list `w` of length `n` consists of the entries of `w'`, of length `n'`, at the positions `e 0, ..., e (n-1)`. -/
def EntriesAt {α : Type} {n n' : ℕ} (e : Fin n → Fin n') (w' w : List α) : Prop :=
  w'.length = n' ∧ w.length = n ∧ ∀ i : Fin n, w'[(e i : ℕ)]? = w[(i : ℕ)]?

/-- An optimiser that leaves alone an entry whose partial derivative is always zero. -/
def QuietRule {A : Type} (rule : ℕ → EntryRule A) (a₀ : A) : Prop :=
  ∃ Q : A → Prop, Q a₀ ∧ ∀ i lr a v, Q a → (rule i lr a v 0).2 = v ∧ Q (rule i lr a v 0).1

/-- The answers `y'` of `N'` respondents to `K'` items are the answers `y` of `N` respondents to `K` items in another order: respondent
`i` is now number `τ i` and item `j` number `σ j`. Items without a counterpart were answered by nobody, respondents without a
counterpart answered nothing. -/
structure SameAnswers {N N' K K' : ℕ} (τ : Fin N → Fin N') (σ : Fin K → Fin K') (y' y : ℕ → ℕ → Cell) : Prop where
  same : ∀ i j, y' (τ i) (σ j) = y i j
  items : ∀ (i' : Fin N') (j' : Fin K'), (∀ j, σ j ≠ j') → cellMissing (y' i' j') = true
  respondents : ∀ (i' : Fin N') (j' : Fin K'), (∀ i, τ i ≠ i') → cellMissing (y' i' j') = true

/-- Gauss-Hermite integration with `q` nodes per latent variable whose weights sum to `√π`, as numpy's do. -/
def UnitWeights {d : ℕ} {A : Type} (S : MmlSettings d A) (q : ℕ) : Prop :=
  S.method = "gauss_hermite" ∧ mmlPoints d S.points = .ok q ∧ ∃ x w, S.hermgauss q = .ok (x, w) ∧ x.length = w.length ∧ (∀ v ∈ w, 0 < v) ∧
    w.sum = Real.sqrt Real.pi ∧ S.cholesky 1 = .ok 1

end Irt.Spec
