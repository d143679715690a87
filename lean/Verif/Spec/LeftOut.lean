import Verif.Spec.LargeSample
import Mathlib.Data.Finset.Option
import Mathlib.Logic.Function.Iterate

/-!
# Specification: questions left out for reasons that can be seen in the answers

A respondent would give the answers `x`, but only the answers to the items in `T` are known. Which items these are may depend on chance
and on the known answers, but not on the others: this is how adaptive and branched tests work.
-/

namespace Irt.Spec

/-- What is seen of the answers `x` if the items in `T` are answered. -/
def seenOf {K : ℕ} (T : Finset (Fin K)) (x : Fin K → ℕ) : Fin K → Option ℕ := fun j => if j ∈ T then some (x j) else none

/-- The row of data with the answers `z`. -/
def seenRow {K : ℕ} (z : Fin K → Option ℕ) : ℕ → Cell := fun j => if h : j < K then (z ⟨j, h⟩).map fun r : ℕ => (r : ℤ) else none

/-- Everything that can be seen of a respondent. -/
def seenAnswers (cats : List ℕ) : Finset (Fin cats.length → Option ℕ) := Fintype.piFinset fun j => Finset.insertNone (Finset.range cats[j])

/-- `h z` is the probability that of a respondent whose answers agree with `z` just the answers `z` are seen. That it depends on nothing
else says that questions are left out only for reasons that can be seen. -/
structure Asking (cats : List ℕ) (h : (Fin cats.length → Option ℕ) → ℝ) : Prop where
  nonneg : ∀ z, 0 ≤ h z
  total : ∀ x ∈ fullAnswers cats, ∑ T : Finset (Fin cats.length), h (seenOf T x) = 1

/-- Expectation of what depends on the answers seen of a respondent whose full answers have probabilities `p`. -/
noncomputable def averageSeen (cats : List ℕ) (h : (Fin cats.length → Option ℕ) → ℝ) (p : (Fin cats.length → ℕ) → ℝ)
    (F : Finset (Fin cats.length) → (Fin cats.length → ℕ) → ℝ) : ℝ :=
  ∑ x ∈ fullAnswers cats, p x * ∑ T : Finset (Fin cats.length), h (seenOf T x) * F T x

/-- The probability that `z` is what is seen of a respondent drawn from the population. -/
noncomputable def seenProb {d : ℕ} (cats : List ℕ) (h : (Fin cats.length → Option ℕ) → ℝ) (P : (Fin d → ℝ) → ℕ → ℕ → ℝ)
    (pts : List (Fin d → ℝ)) (w : List ℝ) (z : Fin cats.length → Option ℕ) : ℝ :=
  ∑ x ∈ fullAnswers cats, populationProb P pts w x * ∑ T : Finset (Fin cats.length), if seenOf T x = z then h z else 0

open Classical in
/-- What is seen with a probability other than zero. -/
noncomputable def possiblySeen (cats : List ℕ) (h : (Fin cats.length → Option ℕ) → ℝ) : Finset (Fin cats.length → Option ℕ) :=
  {z ∈ seenAnswers cats | 0 < h z}

/-- The data matrix of a sample of `N` respondents. -/
def seenCells {N K : ℕ} (s : Fin N → Fin K → Option ℕ) : ℕ → ℕ → Cell := fun i => if h : i < N then seenRow (s ⟨i, h⟩) else fun _ => none

/-- One step of an adaptive test: the next question, chosen by the answers so far. -/
def askNext {K : ℕ} (next : (Fin K → Option ℕ) → Option (Fin K)) (x : Fin K → ℕ) (z : Fin K → Option ℕ) : Fin K → Option ℕ :=
  match next z with
  | none => z
  | some j => Function.update z j (some (x j))

/-- What is seen after an adaptive test of at most `n` questions. -/
def adaptiveTest {K : ℕ} (next : (Fin K → Option ℕ) → Option (Fin K)) (n : ℕ) (x : Fin K → ℕ) : Fin K → Option ℕ :=
  (askNext next x)^[n] fun _ => none

end Irt.Spec
