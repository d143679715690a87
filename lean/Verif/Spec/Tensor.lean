import Mathlib.Data.List.Basic

/-! # Specification: the flat (row-major) memory of an `N × K` tensor with entries `f i j` -/

namespace Irt

/-- `torch.tensor([[f 0 0, .., f 0 (K-1)], ...]).view(-1)`. -/
def flatTensor {α : Type*} (N K : ℕ) (f : ℕ → ℕ → α) : List α :=
  (List.range N).flatMap fun i => (List.range K).map (f i)

/-- The rows of an `N × K` tensor with entries `f i j`. -/
def rowsOf {α : Type*} (N K : ℕ) (f : ℕ → ℕ → α) : List (List α) :=
  (List.range N).map fun i => (List.range K).map (f i)

end Irt
