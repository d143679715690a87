import Verif.Model.Scoring
import Verif.Model.Quadrature

/-!
# The integration points of marginal maximum likelihood (mml.py 90-123, 285-317)
-/

namespace Irt

/-- mml.py 94-101: the number of points per latent variable. -/
def mmlPoints (d : ℕ) (points : Option ℕ) : Except PyErr ℕ :=
  match points with
  | some n => .ok n
  | none =>
    if d > 3 then .error .valueError
    else .ok (if d = 1 then 15 else if d = 2 then 7 else if d = 3 then 5 else 20)

/-- A two dimensional tensor given by the caller: its shape and entries. -/
structure CovArg where
  rows : ℕ
  cols : ℕ
  entry : ℕ → ℕ → ℝ

/-- mml.py 103-108: the covariance matrix. -/
def mmlCovariance (d : ℕ) (cov : Option CovArg) : Except PyErr (Matrix (Fin d) (Fin d) ℝ) :=
  match cov with
  | some c => if c.rows ≠ d ∨ c.cols ≠ d then .error .valueError else .ok (Matrix.of fun i j => c.entry i j)
  | none => .ok 1

/-- mml.py 285-317 `_quasi_mc`: points and log weights. -/
noncomputable def quasiMc {d : ℕ} (n : ℕ) (cov : Matrix (Fin d) (Fin d) ℝ) : Except PyErr (Thetas d × List ℝ) := do
  let grid := cartesianProd fun _ : Fin d => linspace (-3) 3 n
  let weights ← mvnLogProbs 0 cov grid
  return (grid, weights)

/-- mml.py 94-122: the points and log weights used by `fit`. Every method name other than `gauss_hermite` selects the
equidistant grid. (The logarithm of a weight that is not positive is not modelled; the weights of the rule are positive.) -/
noncomputable def mmlIntegration {d : ℕ} (hermgauss : ℕ → Except PyErr (List ℝ × List ℝ))
    (cholesky : Matrix (Fin d) (Fin d) ℝ → Except PyErr (Matrix (Fin d) (Fin d) ℝ))
    (method : String) (points : Option ℕ) (cov : Option CovArg) : Except PyErr (Thetas d × List ℝ) := do
  let n ← mmlPoints d points
  let c ← mmlCovariance d cov
  if method = "gauss_hermite" then
    let (x, w) ← gaussHermite hermgauss cholesky n 0 c
    return (x, w.map Real.log)
  else quasiMc n c

end Irt
