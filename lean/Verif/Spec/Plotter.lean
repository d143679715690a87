import Verif.Model.Rescale

/-! # What a plotted curve should consist of -/

namespace Irt

/-- Value number `s` of `n` equally spaced values from `a` to `b`, both included. -/
noncomputable def stepValue (a b : ℝ) (n s : ℕ) : ℝ := a + (b - a) * s / ((n : ℝ) - 1)

/-- The transformations together map every row by `T`. -/
def ActsRowwise {d : ℕ} (scales : List (Scale d)) (T : (Fin d → ℝ) → Fin d → ℝ) : Prop :=
  ∀ theta, transformTheta scales theta = .ok (theta.map T)

/-- The inverse transformations together map every row by `S`. -/
def InvertsRowwise {d : ℕ} (scales : List (Scale d)) (S : (Fin d → ℝ) → Fin d → ℝ) : Prop :=
  ∀ theta, inverseTransformTheta scales theta = .ok (theta.map S)

/-- `quantity` is computed row by row, as `q`. -/
def IsRowQuantity {d : ℕ} {β : Type} (quantity : Thetas d → Except PyErr (List β)) (q : (Fin d → ℝ) → β) : Prop :=
  ∀ grid, quantity grid = .ok (grid.map q)

end Irt
