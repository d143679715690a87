import Verif.Model.Dependence
import Verif.Model.EvaluatorCalls
import Verif.Model.Sampling

/-!
# The tests of local independence: `irtorch/evaluator.py` 757-783 and 901-924

With `sample_hypothesis_test=True` the methods `mutual_information_difference` and `q3` simulate data sets from the model
and report p-values. They are random programs: a distribution over results. The rounding of the p-values to three
decimals is not modelled.
-/

namespace Irt

/-- The loops 759-766 and 903-911: `samples` data sets drawn one after the other by
`self.model.sample_test_data(theta)`. Without samples the body of the loop does not run. -/
noncomputable def simulatedSets {d : ℕ} (probs : (Fin d → ℝ) → List (List ℝ)) (theta : Thetas d) (samples : ℕ) :
    Except PyErr (PMF (List (List (List ℝ)))) :=
  if samples = 0 then .ok (PMF.pure [])
  else (sampleTestData probs theta).map fun law => (List.replicate samples ()).mapM fun _ => law

/-- A sampled table of responses as data. -/
def sampledData (x : List (List ℝ)) : List (List Num) := x.map fun r => r.map some

/-- evaluator.py 881-924 `q3` with `sample_hypothesis_test=True`: the correlations and the p-values. -/
noncomputable def q3Test {d : ℕ} (p M : ℕ) (mc : Option (List ℤ)) (probs : (Fin d → ℝ) → List (List ℝ))
    (theta : Thetas d) (samples : ℕ) (data : List (List Num)) :
    PMF (Except PyErr ((Fin p → Fin p → Num) × (Fin p → Fin p → Num))) :=
  let statistic := fun data : List (List Num) => q3 theta.length p M mc (theta.map probs) (cellRows data)
  match statistic data with
  | .error e => PMF.pure (.error e)
  | .ok observed =>
    match simulatedSets probs theta samples with
    | .error e => PMF.pure (.error e)
    | .ok sets => sets.map fun draws => do
      let simulated ← draws.mapM fun x => statistic (sampledData x)
      return (observed, fun i j => q3PValue (decide (i = j)) (observed i j) (simulated.map fun s => s i j))

/-- The responses as a matrix. -/
noncomputable def cellMatrix {n p : ℕ} (data : List (List Num)) (r : Fin n) (i : Fin p) : Cell :=
  ((cellRows data).getD r []).getD i none

/-- evaluator.py 717-783 `mutual_information_difference` with `sample_hypothesis_test=True`: the absolute differences and
the p-values. The expected mutual information is computed once (733-747). -/
noncomputable def amidTest {d : ℕ} (p M : ℕ) (base : ℝ) (probs : (Fin d → ℝ) → List (List ℝ)) (theta : Thetas d)
    (samples : ℕ) (data : List (List Num)) : PMF (Except PyErr ((Fin p → Fin p → ℝ) × (Fin p → Fin p → Num))) :=
  let information := fun data : List (List Num) =>
    dataMutualInformation (n := theta.length) (p := p) base (cellMatrix data)
  match mutualInformationDifference (n := theta.length) (p := p) base M (cellMatrix data) (theta.map probs),
      expectedMutualInformation (p := p) base M (theta.map probs) with
  | .error e, _ => PMF.pure (.error e)
  | _, .error e => PMF.pure (.error e)
  | .ok (_, amid), .ok expected =>
    match simulatedSets probs theta samples with
    | .error e => PMF.pure (.error e)
    | .ok sets => sets.map fun draws => do
      let simulated ← draws.mapM fun x => information (sampledData x)
      return (amid, amidPValues amid (simulated.map fun s i j => |s i j - expected i j|))

end Irt
