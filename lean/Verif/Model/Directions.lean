import Verif.Model.Logistic
import Verif.Model.Polytomous
import Verif.Model.Monotone
import Verif.Model.Utils
import Mathlib.Data.Sign.Defs

/-! # `item_theta_relationship_directions` of the models

The result is one row per item with one entry per latent variable. (The monotone polynomial and network models are in
Model/Monotone; a nested logit model returns the directions of its model for correct responses,
nested_logit.py 258.) -/

namespace Irt

/-- `x.sign().int()` of one number. -/
noncomputable def signInt (x : ℝ) : ℤ := (SignType.sign x : ℤ)

/-- one_parameter_logistic.py 121. -/
def OnePL.directions (m : OnePL) : List (List ℤ) := List.replicate m.items [1]

/-- two_parameter_logistic.py 166-168. -/
noncomputable def TwoPL.directions (m : TwoPL) : List (List ℤ) := m.weights.map fun w => w.map signInt

/-- three_parameter_logistic.py 229-231. -/
noncomputable def ThreePL.directions (m : ThreePL) : List (List ℤ) := m.weights.map fun w => w.map signInt

/-- graded_response.py 265-267. -/
noncomputable def GRM.directions (m : GRM) : List (List ℤ) := m.weights.map fun w => w.map signInt

/-- generalized_partial_credit.py 181-183. -/
noncomputable def GPC.directions (m : GPC) : List (List ℤ) := m.weights.map fun w => w.map signInt

/-- monotone_b_spline.py 189. -/
def MonoBSpline.directions (m : MonoBSpline) : List (List ℤ) :=
  List.replicate m.cats.length (List.replicate m.lv 1)

/-- base_irt_model.py 480-486: the signs of the slopes of the linear regressions of the expected item scores on the latent
scores of the given respondents. `probs` is the model's table of probabilities for one respondent. -/
noncomputable def regressionDirections (items M : ℕ) (mc : Option (List ℤ)) (probs : List ℝ → List (List ℝ)) {n lv : ℕ}
    (theta : Matrix (Fin n) (Fin lv) ℝ) : Except PyErr (List (List ℤ)) := do
  let scores ← (List.finRange n).mapM fun i => expectedItemScores (probs (List.ofFn (theta i))) M mc
  (List.range items).mapM fun j : ℕ =>
    (linearRegression theta (Matrix.of fun (i : Fin n) (_ : Fin 1) => (scores.getD i []).getD j 0)).map fun w =>
      List.ofFn fun r : Fin lv => signInt (w r.succ 0)

/-- nominal_response.py 180-182: the latent scores are required. `mc` is the model's answer key. -/
noncomputable def NRM.directions (m : NRM) (mc : Option (List ℤ)) {n : ℕ} (theta : Option (Matrix (Fin n) (Fin m.lv) ℝ)) :
    Except PyErr (List (List ℤ)) :=
  match theta with
  | none => .error .valueError
  | some theta => regressionDirections m.cats.length m.M mc m.probs theta

end Irt
