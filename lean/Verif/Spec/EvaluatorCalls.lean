import Verif.Model.EvaluatorCalls
import Verif.Model.ScoreSearch

/-! # C117: what a user expects of evaluations made one after the other -/

namespace Irt.Spec

/-- The values of cells that are marked as missing do not matter for the log likelihood. -/
def IgnoresMasked {d : ℕ} (m : Scorer d) : Prop :=
  ∀ (outs : List m.Out) (mask : List Bool) (cells cells' : List Cell), cells.length = cells'.length →
    (∀ i : ℕ, mask[i]? ≠ some true → cells[i]? = cells'[i]?) → m.logLik outs cells mask = m.logLik outs cells' mask

/-- The model looks at the answers through the log likelihood of the answers that are not missing: so does the search for
the most likely scores. -/
structure SeesAnswers {d : ℕ} (f : FittedModel d) : Prop where
  scorer : IgnoresMasked f.scorer
  search : ∃ g : Option (Matrix (Fin d) (Fin d) ℝ) → (Thetas d → Except PyErr Logit) → List ℕ → Thetas d → Thetas d,
    ∀ prior (data : List (List Cell)) start,
    f.optimise prior data start = g prior (scoreObjective f.scorer prior data) (data.map List.length) start

/-- A step attaches or detaches a scale. -/
def ChangesScale {d : ℕ} : EvalStep d → Prop
  | .add _ => True
  | .detach => True
  | _ => False

/-- The evaluation is on the transformed scale, if there is one. -/
def OnTransformedScale {d : ℕ} : Evaluation d → Prop
  | .latentGroupProbabilities _ _ rescale => rescale = true
  | .groupFitResiduals _ _ rescale _ => rescale = true
  | _ => False

/-- The evaluation is not one of the two that depend on how missing responses are coded: the mutual information
difference and the log likelihood of groups. -/
def IgnoresCode {d : ℕ} : Evaluation d → Prop
  | .mutualInformationDifference _ => False
  | .groupFitLogLikelihood _ _ => False
  | _ => True

/-- The tensor a call evaluates has a NaN. -/
def HasNaN {d : ℕ} (s : EvalSession d) (c : EvalCall d) : Prop :=
  ∃ i, (c.data = some i ∨ c.data = none ∧ s.train = some i) ∧ ∃ row ∈ s.store i, none ∈ row

/-- The cells of `now` are those of `before`, except that NaN may have become `-1`, the other code of a missing
response. -/
def OnlyCoding (before now : List (List Num)) : Prop :=
  List.Forall₂ (List.Forall₂ fun (x y : Num) => y = x ∨ x = none ∧ y = some (-1)) before now

end Irt.Spec
