import Verif.Torch.Basic

/-!
# `irtorch/models/base_irt_model.py` — the parts shared by all models

Simplification: a 2D/3D tensor is a list of rows; a row of logits is the flat list torch holds.
-/

namespace Irt

/-- A data cell: `none` is NaN; responses are integer valued (they are cast by `data.long()`). -/
abbrev Cell := Option ℤ

/-- base_irt_model.py 42: `self.max_item_responses = max(self.item_categories)`.
(`max([])` raises in Python; models have at least one item.) -/
def maxCats (cats : List ℕ) : ℕ := cats.foldr max 0

/-- base_irt_model.py 37-39: the check of `mc_correct` in the constructor. `zip` stops at the shorter
list, and the comparison is `>=`. -/
def checkMcCorrect (cats : List ℕ) (mc : Option (List ℤ)) : Except PyErr Unit :=
  match mc with
  | none => .ok ()
  | some mc =>
    if (List.zip cats mc).all (fun p => decide ((p.1 : ℤ) ≥ p.2)) then .ok () else .error .valueError

/-- generalized_partial_credit.py 65-71, graded_response.py 69-75, nominal_response.py 67-73,
two_parameter_logistic.py 66-74, three_parameter_logistic.py 63-71: the check of
`item_theta_relationships`, returning the relationship mask used. The dtype assertion is implied by
the type `Bool`. -/
def checkRelationships (items lv : ℕ) (rel : Option (List (List Bool))) :
    Except PyErr (List (List Bool)) :=
  match rel with
  | none => .ok (List.replicate items (List.replicate lv true))
  | some rel =>
    if ¬ (rel.length = items ∧ ∀ r ∈ rel, r.length = lv) then .error .valueError
    else if ¬ (∀ r ∈ rel, 0 < countTrue r) then .error .assertionError
    else .ok rel

/-- `missing_category` of one item (generalized_partial_credit.py 87-90, graded_response.py 89-92,
nominal_response.py 88-91): slots `item_cat .. max-1`. -/
def missingRow (M c : ℕ) : List Bool := (List.range M).map fun k => decide (c ≤ k)

/-- `first_category` of one item (generalized_partial_credit.py 84-86): slot 0. -/
def firstRow (M : ℕ) : List Bool := (List.range M).map fun k => decide (k = 0)

/-- `free_bias` of one item, `(1 - first_category) * (1 - missing_category)`
(generalized_partial_credit.py 91). -/
def freeRow (M c : ℕ) : List Bool := (List.range M).map fun k => decide (k ≠ 0) && decide (k < c)

/-- The flat `missing_category` buffer. -/
def missingMask (M : ℕ) (cats : List ℕ) : List Bool := cats.flatMap (missingRow M)
/-- The flat `first_category` buffer. -/
def firstMask (M : ℕ) (cats : List ℕ) : List Bool := cats.flatMap fun _ => firstRow M
/-- The flat `free_bias` buffer. -/
def freeMask (M : ℕ) (cats : List ℕ) : List Bool := cats.flatMap (freeRow M)

/-- base_irt_model.py 200-201 `probabilities_from_output` for one respondent: reshape the flat row to
(items, max_item_responses) and take the softmax of each item. -/
noncomputable def probabilitiesFromOutput (items M : ℕ) (row : List Logit) : List (List ℝ) :=
  (viewRows items M row).map softmax

/-- `loss_reduction` arguments accepted by torch. -/
inductive Reduction
  | sum | mean | none
  deriving DecidableEq

/-- Result of a log likelihood: a scalar for `sum`/`mean`, one value per cell for `none` where
`Option.none` is NaN. -/
inductive LL
  | scalar (v : Logit)
  | cells (vs : List (Option Logit))

/-- `-F.cross_entropy` of one row of logits and one target class. torch raises for a target outside
`[0, C)` unless it equals `ignore_index = -100`, whose loss is zero. -/
noncomputable def negCrossEntropy (row : List Logit) (y : ℤ) : Except PyErr Logit :=
  if y = -100 then .ok (.fin 0)
  else if y < 0 then .error .indexError
  else match (logSoftmax row)[y.toNat]? with
    | some v => .ok v
    | none => .error .indexError

/-- Targets that `F.cross_entropy` counts in its mean. -/
def countedTargets (ys : List ℤ) : ℕ := (ys.filter (fun y => decide (y ≠ -100))).length

/-- Division of a log likelihood by a count (`reduction="mean"`). -/
noncomputable def Logit.divNat (x : Logit) (n : ℕ) : Logit :=
  match x with
  | .negInf => .negInf
  | .fin v => .fin (v / n)

/-- Cast of an observed cell by `data.long()`. NaN has no integer value; torch yields an arbitrary
one, modelled as an out-of-range class. -/
def cellLong : Cell → ℤ
  | some y => y
  | none => -9223372036854775808

/-- `ll_masked = full(nan); ll_masked[~missing_mask] = ll` (base_irt_model.py 260-262). -/
def scatterObserved : List Bool → List Logit → List (Option Logit)
  | [], _ => []
  | true :: m, vs => none :: scatterObserved m vs
  | false :: m, v :: vs => some v :: scatterObserved m vs
  | false :: m, [] => none :: scatterObserved m []

/-- base_irt_model.py 247-264 `log_likelihood`. `rows` is `output.reshape(-1, max_item_responses)`,
`data` and `mask` are the flattened (`view(-1)`) tensors. -/
noncomputable def baseLogLikelihood (rows : List (List Logit)) (data : List Cell)
    (mask : Option (List Bool)) (red : Reduction) : Except PyErr LL := do
  let ys := data.map cellLong
  let rowsK := match mask with | some m => gatherMask (m.map not) rows | none => rows
  let ysK := match mask with | some m => gatherMask (m.map not) ys | none => ys
  let ll ← (List.zip rowsK ysK).mapM (fun p => negCrossEntropy p.1 p.2)
  match red with
  | .sum => .ok (.scalar (Logit.sum ll))
  | .mean => .ok (.scalar ((Logit.sum ll).divNat (countedTargets ysK)))
  | .none =>
    match mask with
    | some m => .ok (.cells (scatterObserved m ll))
    | none => .ok (.cells (ll.map some))

/-- The item scores used by `expected_scores` (base_irt_model.py 283-287): with an answer key one for
the keyed category and zero otherwise, else the category index. `if self.mc_correct:` is false for an
empty key list. `scatter_` accepts fewer keys than items (the remaining rows stay zero) and raises for
more keys or a key outside the category slots. -/
noncomputable def itemScores (items M : ℕ) (mc : Option (List ℤ)) : Except PyErr (List (List ℝ)) :=
  match mc with
  | some (k :: ks) =>
    if items < (k :: ks).length then .error .runtimeError
    else if ¬ ∀ key ∈ k :: ks, 0 ≤ key ∧ key < (M : ℤ) then .error .runtimeError
    else .ok ((List.range items).map fun j =>
      (List.range M).map fun m : ℕ => if (k :: ks)[j]? = some (m : ℤ) then 1 else 0)
  | _ => .ok (List.replicate items ((List.range M).map fun m : ℕ => (m : ℝ)))

/-- base_irt_model.py 282-288: expected item scores of one respondent,
`(item_probabilities * item_scores).sum(dim=2)`. -/
noncomputable def expectedItemScores (probs : List (List ℝ)) (M : ℕ) (mc : Option (List ℤ)) :
    Except PyErr (List ℝ) := do
  let s ← itemScores probs.length M mc
  return List.zipWith dot probs s

/-- base_irt_model.py 290-292: expected sum score of one respondent. -/
noncomputable def expectedSumScore (probs : List (List ℝ)) (M : ℕ) (mc : Option (List ℤ)) :
    Except PyErr ℝ := do
  let e ← expectedItemScores probs M mc
  return e.sum

/-- base_irt_model.py 713-719: one respondent's contribution to `population_difficulty`. (For an item
with a single category torch divides by zero; theorems assume two categories.) -/
noncomputable def itemDifficulties (cats : List ℕ) (probs : List (List ℝ)) (M : ℕ)
    (mc : Option (List ℤ)) : Except PyErr (List ℝ) := do
  let e ← expectedItemScores probs M mc
  match mc with
  | some (_ :: _) => return e.map fun x => 1 - x
  | _ => return List.zipWith (fun x (c : ℕ) => 1 - x / ((c : ℝ) - 1)) e cats

/-- `.mean(dim=0)` over the respondents of one item's values (base_irt_model.py 719). -/
noncomputable def meanList (xs : List ℝ) : ℝ := xs.sum / xs.length

/-- base_irt_model.py 713-719 `population_difficulty` for item `j`: `tables` holds the probability table
of each respondent. -/
noncomputable def populationDifficulty (cats : List ℕ) (tables : List (List (List ℝ))) (M : ℕ)
    (mc : Option (List ℤ)) (j : ℕ) : Except PyErr (Option ℝ) := do
  let ds ← tables.mapM fun t => itemDifficulties cats t M mc
  match ds.mapM (fun d => d[j]?) with
  | some (x :: xs) => return some (meanList (x :: xs))
  | _ => return none

end Irt
