import Verif.Model.Data
import Verif.Model.Utils
import Mathlib.Analysis.SpecialFunctions.Pow.Real
import Mathlib.Analysis.SpecialFunctions.Trigonometric.DerivHyp

/-! # Values of the encoder networks, and the algorithm objects that own them

Modelled: what `nn.Linear`, `nn.BatchNorm1d` and a pointwise function compute for a batch, in training and in
evaluation mode, `Sequential.forward`, the forward methods of the three encoders, `theta_scores` of the two
autoencoder algorithms, the encoder part of `latent_scores`, and what calls of `fit` that complete, are rejected
or are interrupted leave behind. Not modelled: how training changes the parameters (they are arguments of the
events), `num_batches_tracked`, and the encoders' initial values. -/

namespace Irt

/-- The layers of the encoders (standard_encoder.py 18-36, variational_encoder.py 18-38, bounded_encoder.py 18-38)
with their parameters: a row of weights and a bias for each output of `nn.Linear`; weight, bias, running mean and
running variance of `nn.BatchNorm1d`; the function of a pointwise layer. -/
inductive NetLayer
  | linear (inSize : ℕ) (rows : List (List ℝ × ℝ))
  | batchNorm (size : ℕ) (scale shift mean var : ℕ → ℝ)
  | pointwise (φ : ℝ → ℝ)

/-- The layer as far as sizes are concerned (the layers of `Model/Utils.lean`). -/
def NetLayer.shape : NetLayer → Layer
  | .linear a rows => .linear a rows.length
  | .batchNorm k _ _ _ _ => .batchnorm k
  | .pointwise _ => .pointwise

/-- `nn.Linear` (used in standard_encoder.py 20-36) on one row. -/
def linearRow (rows : List (List ℝ × ℝ)) (x : List ℝ) : List ℝ :=
  rows.map fun p => (List.zipWith (· * ·) p.1 x).sum + p.2

/-- Normalisation of one row by `nn.BatchNorm1d` (`eps = 1e-5`, its default; standard_encoder.py 22, 31) with mean
`μ` and variance `v`. -/
noncomputable def normaliseRow (scale shift μ v : ℕ → ℝ) (x : List ℝ) : List ℝ :=
  x.mapIdx fun j t => (t - μ j) / Real.sqrt (v j + 1 / 100000) * scale j + shift j

/-- The mean of column `j` of a batch (`nn.BatchNorm1d` in training mode). -/
noncomputable def batchMean (batch : List (List ℝ)) (j : ℕ) : ℝ :=
  (batch.map fun r => r.getD j 0).sum / batch.length

/-- The sum of squares of column `j` of a batch about its mean. -/
noncomputable def batchSquares (batch : List (List ℝ)) (j : ℕ) : ℝ :=
  (batch.map fun r => (r.getD j 0 - batchMean batch j) ^ 2).sum

/-- One layer on a batch: the result, and the layer afterwards. Rows of a wrong size raise. `nn.BatchNorm1d`
normalises by the running statistics in evaluation mode; in training mode it raises for a single row ("Expected
more than 1 value per channel"), normalises by mean and biased variance of the batch, and moves the running
statistics by `momentum = 0.1` (its default) towards the mean and the unbiased variance of the batch. An empty
batch is passed through without any update. -/
noncomputable def NetLayer.run (training : Bool) (l : NetLayer) (batch : List (List ℝ)) :
    Except PyErr (List (List ℝ)) × NetLayer :=
  match l with
  | .linear a rows =>
    if batch.all fun r => decide (r.length = a) then (.ok (batch.map (linearRow rows)), l)
    else (.error .runtimeError, l)
  | .batchNorm k scale shift mean var =>
    if batch.all fun r => decide (r.length = k) then
      if training then
        if batch.length = 1 then (.error .valueError, l)
        else if batch.length = 0 then (.ok batch, l)
        else
          (.ok (batch.map (normaliseRow scale shift (batchMean batch) fun j => batchSquares batch j / batch.length)),
            .batchNorm k scale shift (fun j => 9 / 10 * mean j + 1 / 10 * batchMean batch j)
              (fun j => 9 / 10 * var j + 1 / 10 * (batchSquares batch j / (batch.length - 1))))
      else (.ok (batch.map (normaliseRow scale shift mean var)), l)
    else (.error .runtimeError, l)
  | .pointwise φ => (.ok (batch.map fun r => r.map φ), l)

/-- standard_encoder.py 43-44, bounded_encoder.py 45-46: `self.layers(x)`; the result and the layers afterwards. -/
noncomputable def runNet (training : Bool) : List NetLayer → List (List ℝ) → Except PyErr (List (List ℝ)) × List NetLayer
  | [], batch => (.ok batch, [])
  | l :: ls, batch =>
    match l.run training batch with
    | (.error e, l') => (.error e, l' :: ls)
    | (.ok y, l') => ((runNet training ls y).1, l' :: (runNet training ls y).2)

/-- variational_encoder.py 46-50: means and log variances; and the hidden layers afterwards. -/
noncomputable def runVariational (training : Bool) (body : List NetLayer) (mu sigma : NetLayer)
    (batch : List (List ℝ)) : Except PyErr (List (List ℝ) × List (List ℝ)) × List NetLayer :=
  ((do
    let encoded ← (runNet training body batch).1
    let m ← (mu.run training encoded).1
    let s ← (sigma.run training encoded).1
    return (m, s)), (runNet training body batch).2)

/-- vae.py 393-409 `latent_mean_se`: means and standard errors `exp(0.5 * logvar)`. -/
noncomputable def encoderMeanSe (training : Bool) (body : List NetLayer) (mu sigma : NetLayer)
    (batch : List (List ℝ)) : Except PyErr (List (List ℝ) × List (List ℝ)) × List NetLayer :=
  ((runVariational training body mu sigma batch).1.map fun p =>
      (p.1, p.2.map fun r => r.map fun v => Real.exp (1 / 2 * v)),
    (runVariational training body mu sigma batch).2)

/-! ## Algorithm objects -/

/-- What the NN scores use of an `AE` or `VAE` object (ae.py 104-127, vae.py): the network from input to scores
(for `VAE`, hidden layers and mean layer), its mode, and the two attributes about the input. -/
structure EncoderAlg where
  layers : List NetLayer
  training : Bool
  oneHot : Bool
  imputation : Option String

/-- The two algorithms with an encoder. -/
inductive EncoderKind
  | ae | vae
  deriving DecidableEq

/-- How the training loop of a call of `fit` ends: it completes with the given layers, or an exception
(a keyboard interrupt, for instance) leaves it with the given layers. -/
inductive FitCourse
  | completed (layers : List NetLayer)
  | interrupted (layers : List NetLayer)

/-- ae.py 102, vae.py 100-103: the imputation method stored by `fit`; `VAE.fit` stores none, so that the attribute
keeps the `None` of the constructor (ae.py 23). -/
def EncoderKind.stored (k : EncoderKind) (imputation : Option String) : Option String :=
  match k with
  | .ae => imputation
  | .vae => none

/-- ae.py 100-165, vae.py 99-162 `fit`, as far as the encoder is concerned. A new encoder (a module in training
mode) replaces the old one before the arguments are checked; `eval()` is called after the training loop. The
result is the exception raised, if any (`.runtimeError` stands for whatever interrupted the training). -/
def EncoderAlg.fit (kind : EncoderKind) (fresh : List NetLayer) (oneHot : Bool) (imputation : Option String)
    (course : FitCourse) : Except PyErr Unit × EncoderAlg :=
  if oneHot = false ∧ imputation = none then (.error .valueError, ⟨fresh, true, oneHot, kind.stored imputation⟩)
  else
    match course with
    | .interrupted layers => (.error .runtimeError, ⟨layers, true, oneHot, kind.stored imputation⟩)
    | .completed layers => (.ok (), ⟨layers, false, oneHot, kind.stored imputation⟩)

/-- A model and the algorithm objects that exist (by number); `model.algorithm` is `attached`. -/
structure EncoderSession where
  algs : ℕ → Option EncoderAlg
  attached : Option ℕ

/-- The calls of a session. -/
inductive EncoderCall
  /-- `model.fit(data, algorithm=i, …)`, `i` an object of class `kind`; `fresh` are the layers of the encoder it creates. -/
  | fit (i : ℕ) (kind : EncoderKind) (fresh : List NetLayer) (oneHot : Bool) (imputation : Option String) (course : FitCourse)
  /-- `model.latent_scores(data, theta_estimation="NN")`. -/
  | score (data : List (List Num)) (draw : ℕ → ℕ → ℕ)

/-- The numbers of the encoder input; `none` if there is a NaN (the network then gives NaN; not modelled further). -/
def numericRows (rows : List (List Num)) : Option (List (List ℝ)) := rows.mapM fun r => r.mapM id

/-- base_irt_model.py 597-615 with ae.py 326-340 / vae.py 306-324 `theta_scores`: the scores for
`theta_estimation="NN"`, and the algorithm afterwards. A NaN in the input is reported as `.typeError`, which stands
for scores that are not numbers. `cats` are the model's item categories, `width` the number of columns. -/
noncomputable def EncoderAlg.nnScores (a : EncoderAlg) (width : ℕ) (cats : List ℕ) (data : List (List Num))
    (draw : ℕ → ℕ → ℕ) : Except PyErr (List (List ℝ)) × EncoderAlg :=
  match (latentScoresEncoderInput width cats a.oneHot a.imputation data draw).1 with
  | .error e => (.error e, a)
  | .ok input =>
    match numericRows input with
    | none => (.error .typeError, a)
    | some rows =>
      ((runNet a.training a.layers rows).1, { a with layers := (runNet a.training a.layers rows).2 })

/-- base_irt_model.py 583-615: NN scores of the session's model; without an algorithm that has an encoder, an error. -/
noncomputable def EncoderSession.nnScores (s : EncoderSession) (cats : List ℕ) (data : List (List Num))
    (draw : ℕ → ℕ → ℕ) : Except PyErr (List (List ℝ)) × EncoderSession :=
  match s.attached with
  | none => (.error .valueError, s)
  | some i =>
    match s.algs i with
    | none => (.error .valueError, s)
    | some a =>
      let r := a.nnScores cats.length cats data draw
      (r.1, { s with algs := Function.update s.algs i (some r.2) })

/-- One call; base_irt_model.py 115-116: `self.algorithm` is set after `algorithm.fit` has returned. -/
noncomputable def EncoderSession.step (cats : List ℕ) (s : EncoderSession) : EncoderCall → EncoderSession
  | .fit i kind fresh oneHot imputation course =>
    let r := EncoderAlg.fit kind fresh oneHot imputation course
    { algs := Function.update s.algs i (some r.2)
      attached := if r.1.isOk then some i else s.attached }
  | .score data draw => (s.nnScores cats data draw).2

/-- A session from its start (no algorithm object yet). -/
noncomputable def EncoderSession.after (cats : List ℕ) (calls : List EncoderCall) : EncoderSession :=
  calls.foldl (EncoderSession.step cats) ⟨fun _ => none, none⟩

end Irt
