import Verif.Model.Base

/-! # Generalized partial credit, nominal response and graded response models -/

namespace Irt

/-- State of `GeneralizedPartialCredit` (generalized_partial_credit.py 49-101). -/
structure GPC where
  lv : ℕ
  cats : List ℕ
  rel : List (List Bool)
  weight : List ℝ
  bias : List ℝ

/-- `max_item_responses`. -/
def GPC.M (m : GPC) : ℕ := maxCats m.cats

/-- Parameter shapes created by the constructor and kept by training. Categories are counted from
data or given by the user; an item has at least one category. -/
structure GPC.WF (m : GPC) : Prop where
  catsPos : ∀ c ∈ m.cats, 0 < c
  relLen : m.rel.length = m.cats.length
  relRow : ∀ r ∈ m.rel, r.length = m.lv
  weightLen : m.weight.length = countTrue m.rel.flatten
  biasLen : m.bias.length = m.cats.sum - m.cats.length

/-- generalized_partial_credit.py 64-101: constructor and `reset_parameters` (weights 1, biases 0). -/
noncomputable def GPC.init (lv : ℕ) (cats : List ℕ) (rel : Option (List (List Bool))) :
    Except PyErr GPC := do
  let r ← checkRelationships cats.length lv rel
  return { lv, cats, rel := r, weight := List.replicate (countTrue r.flatten) 1,
           bias := List.replicate (cats.sum - cats.length) 0 }

/-- generalized_partial_credit.py 119-120: the slope matrix. -/
noncomputable def GPC.weights (m : GPC) : List (List ℝ) :=
  viewRows m.cats.length m.lv (scatterMask 0 m.rel.flatten m.weight)

/-- generalized_partial_credit.py 116-117: the flat intercept vector. -/
noncomputable def GPC.biases (m : GPC) : List ℝ := scatterMask 0 (freeMask m.M m.cats) m.bias

/-- generalized_partial_credit.py 116-130 `forward` for one respondent. -/
noncomputable def GPC.forwardRow (m : GPC) (theta : List ℝ) : List Logit :=
  let wt := repeatInterleave m.M (m.weights.map fun w => dot theta w)
  let wt := List.zipWith (· * ·) wt (tile m.cats.length ((List.range m.M).map fun k : ℕ => (k : ℝ)))
  let out := (List.zipWith (· + ·) wt m.biases).map Logit.fin
  let out := maskFill (missingMask m.M m.cats) .negInf out
  maskFill (firstMask m.M m.cats) (.fin 0) out

/-- `item_probabilities` for one respondent. -/
noncomputable def GPC.probs (m : GPC) (theta : List ℝ) : List (List ℝ) :=
  probabilitiesFromOutput m.cats.length m.M (m.forwardRow theta)

/-- generalized_partial_credit.py 146-164 `item_parameters` (without `irt_format`): slopes and the
intercepts of all category slots of each item. -/
noncomputable def GPC.itemParameters (m : GPC) : List (List ℝ × List ℝ) :=
  List.zip m.weights (viewRows m.cats.length m.M m.biases)

/-- generalized_partial_credit.py 146-164 with `irt_format=True`: `b = -(d/a)` without the first slot for
one latent variable; otherwise the flag is ignored and the `d` columns are returned. -/
noncomputable def GPC.itemParametersIrt (m : GPC) : List (List ℝ × List ℝ) :=
  if m.lv = 1 then
    m.itemParameters.map fun p => (p.1, (p.2.map fun d => -(d / p.1.headD 0)).tail)
  else m.itemParameters

/-- Entrywise sum of rows of width `w`. -/
noncomputable def sumRows (w : ℕ) (rows : List (List ℝ)) : List ℝ :=
  rows.foldr (List.zipWith (· + ·)) (List.replicate w 0)

/-- State of `NominalResponse` (nominal_response.py 49-98). -/
structure NRM where
  lv : ℕ
  cats : List ℕ
  rel : List (List Bool)
  weight : List ℝ
  bias : List ℝ

/-- `max_item_responses`. -/
def NRM.M (m : NRM) : ℕ := maxCats m.cats

/-- `free_weights` of one item (nominal_response.py 77-84): the relationship row on the category slots
`1 .. item_cat-1`, false elsewhere. -/
def nrmFreeRows (M c : ℕ) (r : List Bool) : List (List Bool) :=
  (freeRow M c).map fun b => if b then r else r.map fun _ => false

/-- The `free_weights` buffer as rows of length `lv`, one per category slot. -/
def NRM.freeWeights (m : NRM) : List (List Bool) :=
  (List.zipWith (nrmFreeRows m.M) m.cats m.rel).flatten

/-- Parameter shapes created by the constructor and kept by training. -/
structure NRM.WF (m : NRM) : Prop where
  catsPos : ∀ c ∈ m.cats, 0 < c
  relLen : m.rel.length = m.cats.length
  relRow : ∀ r ∈ m.rel, r.length = m.lv
  weightLen : m.weight.length = countTrue m.freeWeights.flatten
  biasLen : m.bias.length = m.cats.sum - m.cats.length

/-- nominal_response.py 119-122 / 145-148: intercepts per item, the first being minus the sum of the
others. -/
noncomputable def NRM.biases (m : NRM) : List (List ℝ) :=
  (viewRows m.cats.length m.M (scatterMask 0 (freeMask m.M m.cats) m.bias)).map fun r =>
    match r with
    | [] => []
    | _ :: t => (-t.sum) :: t

/-- nominal_response.py 124-127 / 150-153: slopes per item and category, the first category being minus
the sum of the others. -/
noncomputable def NRM.weights (m : NRM) : List (List (List ℝ)) :=
  let rows := viewRows (m.cats.length * m.M) m.lv (scatterMask 0 m.freeWeights.flatten m.weight)
  (viewRows m.cats.length m.M rows).map fun r =>
    match r with
    | [] => []
    | _ :: t => (sumRows m.lv t).map (fun x => -x) :: t

/-- nominal_response.py 119-134 `forward` for one respondent. -/
noncomputable def NRM.forwardRow (m : NRM) (theta : List ℝ) : List Logit :=
  let wt := m.weights.flatten.map fun w => dot theta w
  let out := (List.zipWith (· + ·) wt m.biases.flatten).map Logit.fin
  maskFill (missingMask m.M m.cats) .negInf out

/-- `item_probabilities` for one respondent. -/
noncomputable def NRM.probs (m : NRM) (theta : List ℝ) : List (List ℝ) :=
  probabilitiesFromOutput m.cats.length m.M (m.forwardRow theta)

/-- nominal_response.py 145-163 `item_parameters`: slopes per category and intercepts of each item (the
data frame's column order is not represented). -/
noncomputable def NRM.itemParameters (m : NRM) : List (List (List ℝ) × List ℝ) :=
  List.zip m.weights m.biases

/-- Output of the graded response model: a real or ±inf. -/
inductive ELogit
  | negInf
  | fin (x : ℝ)
  | posInf

/-- `sigmoid` on extended logits: 0 at `-inf`, 1 at `+inf`. -/
noncomputable def sigmoidE : ELogit → ℝ
  | .negInf => 0
  | .fin x => sigmoid x
  | .posInf => 1

/-- State of `GradedResponse` (graded_response.py 53-98). -/
structure GRM where
  lv : ℕ
  cats : List ℕ
  rel : List (List Bool)
  weight : List ℝ
  bias : List ℝ

/-- `max_item_responses`. -/
def GRM.M (m : GRM) : ℕ := maxCats m.cats

/-- Parameter shapes created by the constructor and kept by training. -/
structure GRM.WF (m : GRM) : Prop where
  catsPos : ∀ c ∈ m.cats, 0 < c
  relLen : m.rel.length = m.cats.length
  relRow : ∀ r ∈ m.rel, r.length = m.lv
  weightLen : m.weight.length = countTrue m.rel.flatten
  biasLen : m.bias.length = countTrue (freeMask m.M m.cats)

/-- graded_response.py 136-137: the slope matrix. -/
noncomputable def GRM.weights (m : GRM) : List (List ℝ) :=
  viewRows m.cats.length m.lv (scatterMask 0 m.rel.flatten m.weight)

/-- graded_response.py 133-134: the flat intercept vector. -/
noncomputable def GRM.biases (m : GRM) : List ℝ := scatterMask 0 (freeMask m.M m.cats) m.bias

/-- graded_response.py 133-144 `forward` for one respondent. -/
noncomputable def GRM.forwardRow (m : GRM) (theta : List ℝ) : List ELogit :=
  let wt := repeatInterleave m.M (m.weights.map fun w => dot theta w)
  let out := (List.zipWith (· + ·) wt m.biases).map ELogit.fin
  let out := maskFill (missingMask m.M m.cats) .negInf out
  maskFill (firstMask m.M m.cats) .posInf out

/-- graded_response.py 164: `probs[:, :, :-1] -= geq_probs[:, :, 1:]` on one item. -/
noncomputable def adjacentDiff : List ℝ → List ℝ
  | [] => []
  | [x] => [x]
  | x :: y :: t => (x - y) :: adjacentDiff (y :: t)

/-- graded_response.py 161-165 `probabilities_from_output` for one respondent. -/
noncomputable def GRM.probs (m : GRM) (theta : List ℝ) : List (List ℝ) :=
  (viewRows m.cats.length m.M ((m.forwardRow theta).map sigmoidE)).map adjacentDiff

/-- graded_response.py 230-248 `item_parameters` (without `irt_format`): slopes and the intercepts
`d_1 .. d_{M-1}` of each item. -/
noncomputable def GRM.itemParameters (m : GRM) : List (List ℝ × List ℝ) :=
  List.zip m.weights ((viewRows m.cats.length m.M m.biases).map List.tail)

/-- graded_response.py 230-248 with `irt_format=True`: `b = -(d/a)` for one latent variable; otherwise the
flag is ignored and the `d` columns are returned. -/
noncomputable def GRM.itemParametersIrt (m : GRM) : List (List ℝ × List ℝ) :=
  if m.lv = 1 then m.itemParameters.map fun p => (p.1, p.2.map fun d => -(d / p.1.headD 0))
  else m.itemParameters

/-- graded_response.py 109-113: the `k` start values of one item, the interior points of
`linspace(1/(1+e^4), 1/(1+e^-4), k+2)` mapped by `log(1/p - 1)`. -/
noncomputable def grmStartBias (k : ℕ) : List ℝ :=
  let lo := 1 / (1 + Real.exp 4)
  let hi := 1 / (1 + Real.exp (-4))
  (List.range k).map fun i =>
    let p := lo + (hi - lo) * ((i + 1 : ℕ) : ℝ) / ((k + 1 : ℕ) : ℝ)
    Real.log (p⁻¹ - 1)

/-- graded_response.py 100-117 `reset_parameters`: the weights are the random draws `w`; each item's
start values are written to its free slots and all free slots are read back in order. -/
noncomputable def GRM.reset (m : GRM) (w : List ℝ) : GRM :=
  { m with
    weight := w
    bias := gatherMask (freeMask m.M m.cats)
      (m.cats.flatMap fun c =>
        scatterMask 0 (freeRow m.M c) (grmStartBias (countTrue (freeRow m.M c)))) }

end Irt
