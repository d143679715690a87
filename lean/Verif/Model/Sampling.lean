import Verif.Model.Information
import Verif.Model.LatentScores
import Verif.Model.Utils
import Verif.Model.Bit
import Mathlib.Probability.ProbabilityMassFunction.Constructions

/-!
# Simulated responses and population summaries

`sample_test_data` and `population_discrimination` of `irtorch/models/base_irt_model.py`, and
`bit_score_starting_theta_mc` of `irtorch/rescale/bit.py`. A program that draws random numbers is a probability
distribution over its results.
-/

namespace Irt

/-- The argument check of `torch.distributions.Categorical(probs)` for one distribution (the constraint `simplex`). -/
def ValidProbs (p : List ℝ) : Prop := (∀ x ∈ p, 0 ≤ x) ∧ |p.sum - 1| < 1e-6

theorem ValidProbs.weights {p : List ℝ} (h : ValidProbs p) :
    (∑' r : Fin p.length, ENNReal.ofReal p[r]) ≠ 0 ∧ (∑' r : Fin p.length, ENNReal.ofReal p[r]) ≠ ⊤ := by
  rw [tsum_fintype]
  constructor
  · intro h0
    have hz : ∀ x ∈ p, x = 0 := by
      intro x hx
      obtain ⟨r, hr, rfl⟩ := List.getElem_of_mem hx
      have := (Finset.sum_eq_zero_iff.1 h0) ⟨r, hr⟩ (Finset.mem_univ _)
      exact le_antisymm (ENNReal.ofReal_eq_zero.1 this) (h.1 _ (List.getElem_mem hr))
    have hs : p.sum = 0 := List.sum_eq_zero hz
    have := h.2
    rw [hs] at this
    norm_num at this
  · exact ENNReal.sum_ne_top.2 fun r _ => ENNReal.ofReal_ne_top

open Classical in
/-- `torch.distributions.Categorical(probs).sample().float()` for one distribution: the weights are divided by their
sum. The check of `Categorical` is made by the callers; `0` is never drawn from weights that fail it. -/
noncomputable def drawCategory (p : List ℝ) : PMF ℝ :=
  if h : ValidProbs p then
    (PMF.normalize (fun r : Fin p.length => ENNReal.ofReal p[r]) h.weights.1 h.weights.2).map
      fun r : Fin p.length => ((r : ℕ) : ℝ)
  else PMF.pure 0

open Classical in
/-- base_irt_model.py 503-505 `sample_test_data`: the distribution of the sampled table, one row for each row of
latent scores and one column for each item. -/
noncomputable def sampleTestData {d : ℕ} (probs : (Fin d → ℝ) → List (List ℝ)) (theta : Thetas d) :
    Except PyErr (PMF (List (List ℝ))) :=
  if ∀ t ∈ theta, ∀ p ∈ probs t, ValidProbs p then
    .ok (theta.mapM fun t => (probs t).mapM drawCategory)
  else .error .valueError

/-- base_irt_model.py 754-755 `population_discrimination`: for each item the mean of the gradients over the rows,
`none` (NaN) without rows. -/
noncomputable def populationDiscrimination {d : ℕ} (probs : (Fin d → ℝ) → List (List ℝ)) (cats : List ℕ)
    (mc : Option (List ℤ)) (scales : List (Scale d)) (rescale : Bool) (theta : Thetas d) :
    Except PyErr (Option (List (Fin d → ℝ))) := do
  let g ← expectedScoreGradients probs cats mc scales true rescale theta
  return if g.isEmpty then none else some ((List.range cats.length).map fun j k =>
    (g.map fun row => row.getD j 0 k).sum / (g.length : ℝ))

/-- bit.py 329-340: the items used and the probability of a correct guess on each. An empty list of items, like none,
is all items; an empty list of probabilities, like none, is one over the number of categories. An item outside the
test raises `IndexError`. -/
noncomputable def guessingSetup (cats : List ℕ) (items : Option (List ℕ)) (gs : Option (List ℝ)) :
    Except PyErr (List ℕ × List ℕ × List ℝ) :=
  let items := match items with
    | some (i :: is) => i :: is
    | _ => List.range cats.length
  let selected := items.map fun i => cats.getD i 0
  if ∃ i ∈ items, cats.length ≤ i then .error .indexError
  else match gs with
    | some (g :: gs) =>
      if (g :: gs).length ≠ items.length ∨ ¬ (∀ x ∈ g :: gs, 0 ≤ x ∧ x < 1) then .error .valueError
      else .ok (items, selected, g :: gs)
    | _ => .ok (items, selected, selected.map fun c : ℕ => 1 / (c : ℝ))

/-- bit.py 326-347: the distributions of the simulated responses, one for each selected item. `key` is
`model.mc_correct` (checked by the constructor of the model to be given for each item; a key that is missing raises in
`index_select`). -/
noncomputable def guessingLaws (cats : List ℕ) (key : Option (List ℕ)) (items : Option (List ℕ))
    (gs : Option (List ℝ)) : Except PyErr (List (ℕ → ℝ)) :=
  match key with
  | none => .error .valueError
  | some key => do
    let (items, selected, gs) ← guessingSetup cats items gs
    if ∃ i ∈ items, key.length ≤ i then .error .indexError
    else guessingData selected (some gs) (some (items.map fun i => key.getD i 0))

/-- bit.py 292-356 `bit_score_starting_theta_mc`: the new starting theta of the scale, and what the call returns.
`draw` gives the random responses for the distributions of the items (as many rows as `guessing_iterations`), `width`
is the number of columns of the responses. `latent_scores` raises if the width is not the number of items of the
model: the matrix multiplication of the encoder, or `log_likelihood` for ML, MAP and EAP, gets tensors of the wrong
size. -/
noncomputable def startingThetaMc {d : ℕ} (f : FittedModel d) (key : Option (List ℕ)) (items : Option (List ℕ))
    (gs : Option (List ℝ)) (method : String) (draw : List (ℕ → ℝ) → List (List Num)) :
    Except PyErr ((Fin d → ℝ) × Option (Fin d → ℝ)) := do
  let laws ← guessingLaws f.cats key items gs
  if laws.length ≠ f.cats.length then .error .runtimeError
  else
    let (theta, _) ← latentScores f laws.length (draw laws) method false false none
    match theta with
    | none => .error .runtimeError
    | some theta => .ok (fun k => lowerMedian (theta.map fun t => t k), none)

/-- bit.py 92-126 `__init__` with `mc_start_theta_approx=True`: a starting theta that is given is used; otherwise
`bit_score_starting_theta_mc(**kwargs)` is called. `items` is an argument of the constructor, so it is never among
`kwargs` and the guessers answer all items. -/
noncomputable def Bit.createGuessing {d : ℕ} (f : FittedModel d) (scoreSum : (Fin d → ℝ) → ℝ) (key : Option (List ℕ))
    (population : Option (Thetas d)) (startTheta : Option (List ℝ)) (items : Option (List ℕ)) (gridPoints : ℤ)
    (gs : Option (List ℝ)) (method : String) (draw : List (ℕ → ℝ) → List (List Num)) : Except PyErr (Bit d) :=
  if startTheta.isSome ∨ gridPoints ≤ 0 then
    Bit.create f.probs scoreSum f.cats.length population startTheta items gridPoints
  else if key = none then .error .valueError
  else do
    let (s, _) ← startingThetaMc f key none gs method draw
    return ⟨f.probs, scoreSum, items.getD (List.range f.cats.length), gridPoints.toNat, population, s⟩

end Irt
