import Verif.Model.Composite
import Verif.Model.Data
import Verif.Model.GradientFit

/-! # Constructors of the models, with all their arguments

The constructors take test data or the shape of the test, and a relationship matrix. Random starting values are arguments. Category counts
given by the user are natural numbers. -/

namespace Irt

/-- A two dimensional tensor of test data. -/
structure ResponseData where
  width : ℕ
  rows : List (List Num)

/-- `.int()` of `-inf`: the lowest 32 bit integer (what torch returns on x86-64 and ARM; the C++ standard leaves it open). -/
def lowestInt : ℤ := -2147483648

/-- generalized_partial_credit.py 56-61, graded_response.py 60-65, nominal_response.py 56-61, nested_logit.py 74-78,
surprisal_spline.py 66-70, monotone_polynomial.py 51-57, monotone_b_spline.py 66-72: the category counts. Given ones win over the data;
`max(dim=0)` over no rows raises. -/
noncomputable def chosenCategories (data : Option ResponseData) (cats : Option (List ℕ)) : Except PyErr (List ℤ) :=
  match cats, data with
  | some c, _ => .ok (c.map fun n : ℕ => (n : ℤ))
  | none, none => .error .valueError
  | none, some d =>
    if d.rows = [] then .error .indexError
    else .ok ((List.range d.width).map fun j => (inferredCategories (column d.rows j)).getD lowestInt)

/-- one_parameter_logistic.py 49-52, two_parameter_logistic.py 56-59, three_parameter_logistic.py 58-61: the number of items. The data win
over a given number. -/
def chosenItems (data : Option ResponseData) (items : Option ℕ) : Except PyErr ℕ :=
  match data, items with
  | some d, _ => .ok d.width
  | none, some n => .ok n
  | none, none => .error .valueError

/-- base_irt_model.py 36-49: the constructor of the base class, which checks the answer key and takes `max(item_categories)` (a
`ValueError` without items). Returns `max_item_responses`. -/
def baseInit (cats : List ℤ) (mc : Option (List ℤ)) : Except PyErr ℤ :=
  if (mc.elim true fun k => (List.zip cats k).all fun p => decide (p.1 ≥ p.2)) then
    match cats with
    | [] => .error .valueError
    | c :: t => .ok (t.foldl max c)
  else .error .valueError

/-- one_parameter_logistic.py 44-68: constructor and `reset_parameters`. -/
def OnePL.construct (data : Option ResponseData) (items : Option ℕ) : Except PyErr OnePL := do
  let n ← chosenItems data items
  let _ ← baseInit (List.replicate n 2) none
  return { items := n, bias := List.replicate n 0 }

/-- two_parameter_logistic.py 49-88. -/
noncomputable def TwoPL.construct (data : Option ResponseData) (lv : ℕ) (items : Option ℕ) (rel : Option (List (List Bool))) :
    Except PyErr TwoPL := do
  let n ← chosenItems data items
  let _ ← baseInit (List.replicate n 2) none
  TwoPL.init n lv rel

/-- three_parameter_logistic.py 51-85. -/
noncomputable def ThreePL.construct (data : Option ResponseData) (lv : ℕ) (items : Option ℕ) (rel : Option (List (List Bool))) :
    Except PyErr ThreePL := do
  let n ← chosenItems data items
  let _ ← baseInit (List.replicate n 2) none
  ThreePL.init n lv rel

/-- generalized_partial_credit.py 49-100. `torch.zeros` of the negative number `sum(item_categories) - items` raises; this also covers
`max_item_responses < 1`. In the masks the slice `item_cat:` of a negative count (only `lowestInt` occurs) starts at 0, as that of 0. -/
noncomputable def GPC.construct (data : Option ResponseData) (lv : ℕ) (cats : Option (List ℕ)) (rel : Option (List (List Bool))) :
    Except PyErr GPC := do
  let c ← chosenCategories data cats
  let _ ← baseInit c none
  let r ← checkRelationships c.length lv rel
  if c.sum - c.length < 0 then .error .runtimeError
  else .ok { lv, cats := c.map Int.toNat, rel := r, weight := List.replicate (countTrue r.flatten) 1,
             bias := List.replicate (c.sum - c.length).toNat 0 }

/-- nominal_response.py 48-103; `draw` are the normal draws for the slopes. -/
noncomputable def NRM.construct (data : Option ResponseData) (lv : ℕ) (cats : Option (List ℕ)) (rel : Option (List (List Bool)))
    (mc : Option (List ℤ)) (draw : ℕ → ℝ) : Except PyErr NRM := do
  let c ← chosenCategories data cats
  let _ ← baseInit c mc
  let r ← checkRelationships c.length lv rel
  if c.sum - c.length < 0 then .error .runtimeError
  else
    let m : NRM := { lv, cats := c.map Int.toNat, rel := r, weight := [], bias := List.replicate (c.sum - c.length).toNat 0 }
    .ok { m with weight := (List.range (countTrue m.freeWeights.flatten)).map draw }

/-- graded_response.py 53-117; `draw` are the uniform draws for the slopes. `torch.zeros(items, max_item_responses)` raises for a negative
maximum, `first_category[:, 0]` for the maximum 0. -/
noncomputable def GRM.construct (data : Option ResponseData) (lv : ℕ) (cats : Option (List ℕ)) (rel : Option (List (List Bool)))
    (draw : ℕ → ℝ) : Except PyErr GRM := do
  let c ← chosenCategories data cats
  let mx ← baseInit c none
  let r ← checkRelationships c.length lv rel
  if mx < 0 then .error .runtimeError
  else if mx = 0 then .error .indexError
  else
    let m : GRM := { lv, cats := c.map Int.toNat, rel := r, weight := [], bias := [] }
    .ok (m.reset ((List.range (countTrue r.flatten)).map draw))

/-! ## Evaluation of a model object with the checks of the masked assignment -/

/-- `x[mask] = vals` with `n` true entries in the mask: a tensor of one value is broadcast, any other wrong number raises. Returns the
assigned values. -/
def fillMask (n : ℕ) (vals : List ℝ) : Except PyErr (List ℝ) :=
  if vals.length = n then .ok vals
  else match vals with
    | [v] => .ok (List.replicate n v)
    | _ => .error .runtimeError

/-- generalized_partial_credit.py 116-130 `forward` with these checks, and `item_probabilities`, for one respondent. -/
noncomputable def GPC.run (m : GPC) (theta : List ℝ) : Except PyErr (List (List ℝ)) := do
  let b ← fillMask (countTrue (freeMask m.M m.cats)) m.bias
  let w ← fillMask (countTrue m.rel.flatten) m.weight
  return { m with bias := b, weight := w }.probs theta

/-- graded_response.py 133-165 with these checks. -/
noncomputable def GRM.run (m : GRM) (theta : List ℝ) : Except PyErr (List (List ℝ)) := do
  let b ← fillMask (countTrue (freeMask m.M m.cats)) m.bias
  let w ← fillMask (countTrue m.rel.flatten) m.weight
  return { m with bias := b, weight := w }.probs theta

/-- nominal_response.py 119-134 with these checks, and `item_probabilities`: the softmax of an item all whose category slots are `-inf` is
NaN (`none`). -/
noncomputable def NRM.run (m : NRM) (theta : List ℝ) : Except PyErr (List (Option (List ℝ))) := do
  let b ← fillMask (countTrue (freeMask m.M m.cats)) m.bias
  let w ← fillMask (countTrue m.freeWeights.flatten) m.weight
  let m' : NRM := { m with bias := b, weight := w }
  return List.zipWith (fun c p => if c = 0 then none else some p) m.cats (m'.probs theta)

/-! ## Nested logit and model mix -/

/-- State of a `NestedLogit` with the nominal model for incorrect answers (nested_logit.py 89-148). The correct-response model is given by
its probability table, as a function of the latent scores. -/
structure NestedNominal where
  lv : ℕ
  cats : List ℕ
  keys : List ℕ
  correct : List ℝ → List (List ℝ)
  incorrect : NRM

/-- nested_logit.py 81-97: the relationship matrix. A matrix of integers is converted; here it is boolean. -/
def nestedRelationships (items lv : ℕ) (rel : Option (List (List Bool))) : Except PyErr (List (List Bool)) :=
  match rel with
  | none => .ok (List.replicate items (List.replicate lv true))
  | some R =>
    if ¬ (R.length = items ∧ ∀ row ∈ R, row.length = lv) then .error .valueError
    else if ¬ (∀ row ∈ R, 0 < countTrue row) then .error .valueError
    else .ok R

/-- nested_logit.py 62-149 with `incorrect_response_model="nominal"`. Nothing is asked of the correct-response model. Item
counts below zero or a maximum of 0 fail in the key check. -/
noncomputable def NestedNominal.construct (keys : List ℤ) (correct : List ℝ → List (List ℝ)) (data : Option ResponseData) (lv : ℕ)
    (cats : Option (List ℕ)) (rel : Option (List (List Bool))) (draw : ℕ → ℝ) : Except PyErr NestedNominal := do
  let c ← chosenCategories data cats
  let _ ← baseInit c (some keys)
  let r ← nestedRelationships c.length lv rel
  let k ← nestedCheckKeys (c.map Int.toNat) keys
  let b ← NRM.construct none lv (some (c.map fun x => x.toNat - 1)) (some r) none draw
  return { lv, cats := c.map Int.toNat, keys := k, correct, incorrect := b }

/-- nested_logit.py 174-241 `forward` for one respondent, NaN rows of the incorrect model passed on (`none`). -/
noncomputable def NestedNominal.run (m : NestedNominal) (theta : List ℝ) : Except PyErr (List (Option (List ℝ))) := do
  let q ← m.incorrect.run theta
  if (m.correct theta).length ≠ m.cats.length then .error .runtimeError
  else .ok (List.zipWith (fun (kp : ℕ × List ℝ) q =>
      q.map fun q => nestedRow (maxCats m.cats) kp.1 (kp.2.getD 1 0) (kp.2.getD 0 0) q)
    (List.zip m.keys (m.correct theta)) q)

/-- model_mix.py 35-45: the constructor of `ModelMix` on the numbers of latent variables and the categories of its models: all must have
the same number of latent variables; `latent_variables[0]` raises without models. Returns both for the mix. -/
def mixConstruct (models : List (ℕ × List ℤ)) : Except PyErr (ℕ × List ℤ) :=
  match models with
  | [] => .error .indexError
  | (lv, c) :: t =>
    if t.all fun p => decide (lv = p.1) then do
      let _ ← baseInit (c ++ t.flatMap Prod.snd) none
      return (lv, c ++ t.flatMap Prod.snd)
    else .error .valueError

end Irt
