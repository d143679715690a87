import Verif.Model.Base

/-! # One-, two- and three-parameter logistic models -/

namespace Irt

/-- State of `OneParameterLogistic` (one_parameter_logistic.py 49-65). -/
structure OnePL where
  items : ℕ
  bias : List ℝ

/-- Parameter shapes created by the constructor and kept by training. -/
def OnePL.WF (m : OnePL) : Prop := m.bias.length = m.items

/-- one_parameter_logistic.py 84-89 `forward` for one respondent. `theta + bias` broadcasts the single
latent variable. -/
noncomputable def OnePL.forwardRow (m : OnePL) (theta : ℝ) : List Logit :=
  let cats := List.replicate m.items 2
  let bias := scatterMask 0 (freeMask 2 cats) m.bias
  let out := bias.map fun b => Logit.fin (theta + b)
  maskFill (firstMask 2 cats) (.fin 0) out

/-- `item_probabilities` of the 1PL for one respondent (base_irt_model.py 217-218). -/
noncomputable def OnePL.probs (m : OnePL) (theta : ℝ) : List (List ℝ) :=
  probabilitiesFromOutput m.items 2 (m.forwardRow theta)

/-- one_parameter_logistic.py 100-104 `item_parameters`: the column `d`. -/
def OnePL.itemParameters (m : OnePL) : List ℝ := m.bias

/-- State of `TwoParameterLogistic` (two_parameter_logistic.py 56-84). `rel` is the
`item_theta_relationships` mask (`free_weights`). -/
structure TwoPL where
  items : ℕ
  lv : ℕ
  rel : List (List Bool)
  weight : List ℝ
  bias : List ℝ

/-- Parameter shapes created by the constructor and kept by training. -/
structure TwoPL.WF (m : TwoPL) : Prop where
  relLen : m.rel.length = m.items
  relRow : ∀ r ∈ m.rel, r.length = m.lv
  weightLen : m.weight.length = countTrue m.rel.flatten
  biasLen : m.bias.length = m.items

/-- two_parameter_logistic.py 56-88: constructor and `reset_parameters` (weights 1, biases 0). -/
noncomputable def TwoPL.init (items lv : ℕ) (rel : Option (List (List Bool))) : Except PyErr TwoPL := do
  let r ← checkRelationships items lv rel
  return { items, lv, rel := r, weight := List.replicate (countTrue r.flatten) 1,
           bias := List.replicate items 0 }

/-- two_parameter_logistic.py 107-108: `weights = zeros(items, lv); weights[free_weights] = weight_param`. -/
noncomputable def TwoPL.weights (m : TwoPL) : List (List ℝ) :=
  viewRows m.items m.lv (scatterMask 0 m.rel.flatten m.weight)

/-- two_parameter_logistic.py 104-114 `forward` for one respondent. -/
noncomputable def TwoPL.forwardRow (m : TwoPL) (theta : List ℝ) : List Logit :=
  let cats := List.replicate m.items 2
  let bias := scatterMask 0 (freeMask 2 cats) m.bias
  let wt := repeatInterleave 2 (m.weights.map fun w => dot theta w)
  let out := (List.zipWith (· + ·) wt bias).map Logit.fin
  maskFill (firstMask 2 cats) (.fin 0) out

/-- `item_probabilities` of the 2PL for one respondent. -/
noncomputable def TwoPL.probs (m : TwoPL) (theta : List ℝ) : List (List ℝ) :=
  probabilitiesFromOutput m.items 2 (m.forwardRow theta)

/-- two_parameter_logistic.py 130-149 `item_parameters` without `irt_format`: slopes and intercept of
each item. -/
noncomputable def TwoPL.itemParameters (m : TwoPL) : List (List ℝ × ℝ) :=
  List.zip m.weights m.bias

/-- two_parameter_logistic.py 130-149 with `irt_format=True`: `b = -(biases/weights)`, refused for
several latent variables. Division by a zero slope (±inf or NaN in torch) is not represented; theorems
assume a nonzero slope. -/
noncomputable def TwoPL.itemParametersIrt (m : TwoPL) : Except PyErr (List (List ℝ × List ℝ)) :=
  if m.lv > 1 then .error .valueError
  else .ok ((List.zip m.weights m.bias).map fun p => (p.1, p.1.map fun a => -(p.2 / a)))

/-- State of `ThreeParameterLogistic` (three_parameter_logistic.py 52-83). -/
structure ThreePL where
  items : ℕ
  lv : ℕ
  rel : List (List Bool)
  weight : List ℝ
  bias : List ℝ
  guessing : List ℝ

/-- Parameter shapes created by the constructor and kept by training. -/
structure ThreePL.WF (m : ThreePL) : Prop where
  relLen : m.rel.length = m.items
  relRow : ∀ r ∈ m.rel, r.length = m.lv
  weightLen : m.weight.length = countTrue m.rel.flatten
  biasLen : m.bias.length = m.items
  guessLen : m.guessing.length = m.items

/-- three_parameter_logistic.py 103-104: the slope matrix. -/
noncomputable def ThreePL.weights (m : ThreePL) : List (List ℝ) :=
  viewRows m.items m.lv (scatterMask 0 m.rel.flatten m.weight)

/-- three_parameter_logistic.py 101-111 `forward` for one respondent: the success probability of each
item. -/
noncomputable def ThreePL.forwardRow (m : ThreePL) (theta : List ℝ) : List ℝ :=
  let wt := m.weights.map fun w => dot theta w
  let ps := (List.zipWith (· + ·) wt m.bias).map sigmoid
  let gs := m.guessing.map sigmoid
  List.zipWith (fun p g => p * (1 - g) + g) ps gs

/-- three_parameter_logistic.py 128-129 `probabilities_from_output`. -/
noncomputable def ThreePL.probs (m : ThreePL) (theta : List ℝ) : List (List ℝ) :=
  (m.forwardRow theta).map fun p => [1 - p, p]

/-- three_parameter_logistic.py 192-212 `item_parameters`: slopes, intercept and guessing parameter
`c = sigmoid(guessing_param)`. -/
noncomputable def ThreePL.itemParameters (m : ThreePL) : List (List ℝ × ℝ × ℝ) :=
  List.zip m.weights (List.zip m.bias (m.guessing.map sigmoid))

/-- three_parameter_logistic.py 192-212 with `irt_format=True`. (Division by a zero slope: see
`TwoPL.itemParametersIrt`.) -/
noncomputable def ThreePL.itemParametersIrt (m : ThreePL) :
    Except PyErr (List (List ℝ × List ℝ × ℝ)) :=
  if m.lv > 1 then .error .valueError
  else .ok (m.itemParameters.map fun p => (p.1, p.1.map (fun a => -(p.2.1 / a)), p.2.2))

/-- Log likelihood used by the 3PL and GRM, which look the response up in a probability table
(three_parameter_logistic.py 157-176, graded_response.py 193-214, surprisal_spline.py 180-200, nested_logit.py 302-321):
`probabilities[arange, data].log()`.
Python indexing wraps once for negative responses. `rows` is the table reshaped to one row per cell. -/
noncomputable def lookupLog (row : List ℝ) (y : ℤ) : Except PyErr Logit :=
  let idx : ℤ := if y < 0 then y + row.length else y
  if idx < 0 then .error .indexError
  else match row[idx.toNat]? with
    | some p => .ok (logE p)
    | none => .error .indexError

/-- three_parameter_logistic.py 157-176, graded_response.py 193-214, surprisal_spline.py 180-200, nested_logit.py 302-321
`log_likelihood`: `mean` is refused
with ValueError. (`log` of a negative entry is NaN in torch; rows are nonnegative in the theorems.) -/
noncomputable def tableLogLikelihood (rows : List (List ℝ)) (data : List Cell)
    (mask : Option (List Bool)) (red : Reduction) : Except PyErr LL := do
  let ys := data.map cellLong
  let rowsK := match mask with | some m => gatherMask (m.map not) rows | none => rows
  let ysK := match mask with | some m => gatherMask (m.map not) ys | none => ys
  let ll ← (List.zip rowsK ysK).mapM (fun p => lookupLog p.1 p.2)
  match red with
  | .sum => .ok (.scalar (Logit.sum ll))
  | .none =>
    match mask with
    | some m => .ok (.cells (scatterObserved m ll))
    | none => .ok (.cells (ll.map some))
  | .mean => .error .valueError

end Irt
