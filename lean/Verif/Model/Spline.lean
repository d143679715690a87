import Verif.Torch.Basic
import Verif.Spec.BSpline

/-!
# Knots and basis values of the spline models

The package takes the basis values from `splinetorch.b_spline_basis`, which is not part of the repository;
here they are the B-spline basis functions of the textbook recursion (`Spec/BSpline`).
-/

namespace Irt

/-- monotone_b_spline.py 78-85, surprisal_spline.py 83-90: `knots` after the sigmoid, with `degree + 1` zeros
before and `degree + 1` ones after. -/
noncomputable def splineKnots (interior : List ℝ) (degree : ℕ) : List ℝ :=
  List.replicate (degree + 1) 0 ++ interior.map sigmoid ++ List.replicate (degree + 1) 1

/-- monotone_b_spline.py 87, surprisal_spline.py 92: `n_bases = len(knots) - degree - 1`. -/
noncomputable def splineBases (interior : List ℝ) (degree : ℕ) : ℕ :=
  (splineKnots interior degree).length - degree - 1

/-- monotone_b_spline.py 134-136, surprisal_spline.py 121-123 with torch_modules/b_spline.py 15-18: value of
basis function `b` at latent variable `l`. -/
noncomputable def splineBasis (interior : List ℝ) (degree : ℕ) (theta : ℕ → ℝ) (l b : ℕ) : ℝ :=
  bspline (fun i => (splineKnots interior degree).getD i 1) degree b (sigmoid (theta l))

end Irt
