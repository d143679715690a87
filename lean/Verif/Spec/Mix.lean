import Verif.Spec.Scoring
import Verif.Model.Composite

/-!
# Specification: a test made of several models

A piece is a model together with the numbers of categories and the probabilities of its items. The items of a test made of several
pieces are the items of the first piece, followed by those of the second, and so on.
-/

namespace Irt.Spec

/-- A model for some of the items. -/
structure Piece (α : Type) (d : ℕ) where
  comp : MixComponent α
  cats : List ℕ
  P : (Fin d → ℝ) → ℕ → ℕ → ℝ

/-- The numbers of categories of all items. -/
def pieceCats {α : Type} {d : ℕ} : List (Piece α d) → List ℕ
  | [] => []
  | p :: ps => p.cats ++ pieceCats ps

/-- The probabilities of the items of all pieces. -/
noncomputable def pieceProb {α : Type} {d : ℕ} : List (Piece α d) → (Fin d → ℝ) → ℕ → ℕ → ℝ
  | [], _, _, _ => 0
  | p :: ps, θ, j, r => if j < p.cats.length then p.P θ j r else pieceProb ps θ (j - p.cats.length) r

/-- The model of a piece has the items of the piece, its output has one column per item and category, and its
`log_likelihood(..., "none")` is, cell by cell, the log probability of the response (property C02). -/
structure Piece.Right {α : Type} {d : ℕ} (p : Piece α d) : Prop where
  items : p.comp.items = p.cats.length
  width : ∀ θ : Fin d → ℝ, (p.comp.forward (List.ofFn θ)).length = p.comp.M * p.comp.items
  nonneg : ∀ θ j r, 0 ≤ p.P θ j r
  ll : ∀ (N : ℕ) (t : ℕ → Fin d → ℝ) (y : ℕ → ℕ → Cell), (∀ i, i < N → ValidResponses p.cats (y i)) →
    p.comp.ll ((List.range N).map fun i => p.comp.forward (List.ofFn (t i))) (rowsOf N p.cats.length y)
        (some (rowsOf N p.cats.length fun i j => cellMissing (y i j))) .none
      = .ok (.cells (flatTensor N p.cats.length fun i j =>
          if cellMissing (y i j) then none else some (logE (p.P (t i) j (responseOf (y i j))))))

end Irt.Spec
