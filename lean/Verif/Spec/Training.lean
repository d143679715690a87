import Verif.Model.Training

/-! # Specification of training runs -/

namespace Irt

/-- One optimiser iteration: the batch, the learning rate, the parameters before, the loss evaluated at them, and
the parameters after the update. -/
structure TrainStep (S : Type) where
  batch : List ℕ
  lr : ℝ
  before : S
  loss : Num
  after : S

/-- `Run T s₀ steps s`: starting from `s₀` the optimiser went through `steps` and arrived at `s`. -/
inductive Run {S : Type} (T : Trainer S) (s₀ : S) : List (TrainStep S) → S → Prop
  | nil : Run T s₀ [] s₀
  | snoc {l s} (b : List ℕ) (lr : ℝ) (x : Num) : Run T s₀ l s → T.loss l.length b s = .ok x →
      Run T s₀ (l ++ [⟨b, lr, s, x, T.update l.length b lr s⟩]) (T.update l.length b lr s)

/-- `t` is the first step of the run with the smallest loss (NaN losses are not counted). -/
def IsFirstBest {S : Type} (l : List (TrainStep S)) (t : TrainStep S) : Prop :=
  ∃ pre post x, l = pre ++ t :: post ∧ t.loss = some x ∧ (∀ u ∈ pre, ∀ y, u.loss = some y → x < y) ∧
    ∀ u ∈ post, ∀ y, u.loss = some y → x ≤ y

/-- Mean loss of the `E` steps up to and including step number `t` (counted from 1). -/
noncomputable def intervalMean {S : Type} (l : List (TrainStep S)) (E t : ℕ) : ℝ :=
  (((l.take t).drop (t - E)).map fun u => u.loss.getD 0).sum / (E : ℝ)

/-- Numbers of the steps after which an autoencoder evaluates: the multiples of the interval, except step 1. -/
def evaluationSteps (E total : ℕ) : List ℕ :=
  (List.range (total + 1)).filter fun t => t % E = 0 ∧ t ≠ 0 ∧ t ≠ 1

/-- The batches of `n` epochs in order; with batch normalisation only those of at least four respondents. -/
def batchesInOrder (batchNorm : Bool) (batches : ℕ → List (List ℕ)) (n : ℕ) : List (List ℕ) :=
  ((List.range n).map fun e => (batches e).filter fun b => !(decide (b.length < 4) && batchNorm)).flatten

open Classical in
/-- The number of responses of `r` that equal the answer key. -/
noncomputable def numberRight (key : List ℤ) (r : List Num) : ℕ :=
  ((Finset.range key.length).filter fun j => ∃ k : ℤ, key[j]? = some k ∧ r[j]? = some (some (k : ℝ))).card

end Irt
