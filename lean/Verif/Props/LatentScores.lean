import Verif.Model.LatentScores
import Verif.Props.Scoring
import Verif.Props.Information
import Mathlib.Analysis.Matrix.PosDef

/-!
# C47, C74: options of `latent_scores` and standard errors
-/

namespace Irt

variable {d : ℕ}

/-! ## C47 -/

/-- C47: an unknown estimation method, standard errors with EAP or MAP, and NN without an encoder are refused with
`ValueError`, for every model, data and other option. -/
theorem C47_refused (f : FittedModel d) (width : ℕ) (data : List (List Num)) (method : String)
    (se rescale : Bool) (points : Option ℕ)
    (h : (method ≠ "NN" ∧ method ≠ "ML" ∧ method ≠ "EAP" ∧ method ≠ "MAP") ∨
      (se = true ∧ (method = "EAP" ∨ method = "MAP")) ∨ (method = "NN" ∧ f.attrs.hasEncoder = false)) :
    latentScores f width data method se rescale points = .error .valueError := by
  have key : rawScores f width data method se points = .error .valueError := by
    unfold rawScores
    by_cases h1 : method ∉ ["NN", "ML", "EAP", "MAP"]
    · rw [if_pos h1]
    · rw [if_neg h1]
      by_cases h2 : se = true ∧ method ∉ ["ML", "NN"]
      · rw [if_pos h2]
      · rw [if_neg h2]
        rcases h with h | ⟨h, h'⟩ | ⟨h, h'⟩
        · simp [h] at h1
        · rcases h' with rfl | rfl <;> exact absurd ⟨h, by decide⟩ h2
        · rw [if_pos ⟨h', h⟩]
  unfold latentScores
  rw [key]; rfl

/-- The data contains a missing response, coded NaN or -1. -/
def HasMissing (data : List (List Num)) : Prop := ∃ r ∈ data, ∃ x ∈ r, x = none ∨ x = some (-1)

theorem hasMissing_iff (data : List (List Num)) :
    (data.any fun r => r.any isMissing) = true ↔ HasMissing data := by
  simp only [List.any_eq_true, HasMissing]
  refine exists_congr fun r => and_congr_right fun _ => exists_congr fun x => and_congr_right fun _ => ?_
  cases x with
  | none => simp [isMissing]
  | some v => simp [isMissing]

/-- An encoder error of the preparation of the data is an error of `latent_scores`. -/
theorem latentScores_encoder_error (f : FittedModel d) (width : ℕ) (data : List (List Num)) (method : String)
    (hmethod : method = "NN" ∨ method = "ML" ∨ method = "MAP") (se rescale : Bool) (hse : se = false ∨ method ≠ "MAP")
    (points : Option ℕ) (henc : f.attrs.hasEncoder = true) (oneHot : Bool)
    (hoh : f.attrs.oneHotEncoded = some oneHot) (e : PyErr)
    (he : (latentScoresEncoderInput width f.cats oneHot (f.attrs.imputationMethod.getD none) data f.draw).1
      = .error e) :
    latentScores f width data method se rescale points = .error e := by
  have hs : startScores f width data = .error e := by
    unfold startScores
    rw [hoh]
    simp only
    rw [he]; rfl
  have key : rawScores f width data method se points = .error e := by
    unfold rawScores
    rw [if_neg (by rcases hmethod with rfl | rfl | rfl <;> simp), if_neg, if_neg (by simp [henc]), if_neg, hs]
    · rfl
    · rcases hmethod with rfl | rfl | rfl <;> simp
    · rintro ⟨h1, h2⟩
      rcases hmethod with rfl | rfl | rfl
      · simp at h2
      · simp at h2
      · rcases hse with h | h
        · rw [h1] at h; simp at h
        · exact h rfl
  unfold latentScores
  rw [key]; rfl

/-- C47: missing responses with an encoder that neither one-hot encodes nor imputes are refused. -/
theorem C47_missing_refused (f : FittedModel d) (width : ℕ) (data : List (List Num)) (hmiss : HasMissing data)
    (method : String) (hmethod : method = "NN" ∨ method = "ML" ∨ method = "MAP") (se rescale : Bool)
    (hse : se = false ∨ method ≠ "MAP") (points : Option ℕ) (henc : f.attrs.hasEncoder = true)
    (hoh : f.attrs.oneHotEncoded = some false) (himp : f.attrs.imputationMethod = some none) :
    latentScores f width data method se rescale points = .error .valueError := by
  apply latentScores_encoder_error f width data method hmethod se rescale hse points henc false hoh
  unfold latentScoresEncoderInput
  rw [if_pos ((hasMissing_iff data).2 hmiss), himp]
  rfl

/-- C47: with an encoder, NN and ML scores are returned whenever the data can be prepared for the encoder; NN
returns the scores of the encoder, ML what the optimiser makes of them. -/
theorem C47_encoder_accepted (f : FittedModel d) (width : ℕ) (data input : List (List Num)) (points : Option ℕ)
    (henc : f.attrs.hasEncoder = true) (oneHot : Bool) (hoh : f.attrs.oneHotEncoded = some oneHot)
    (hin : (latentScoresEncoderInput width f.cats oneHot (f.attrs.imputationMethod.getD none) data f.draw).1
      = .ok input) :
    latentScores f width data "NN" false false points = .ok (some (f.encode input), none) ∧
    latentScores f width data "ML" false false points
      = .ok (some (f.optimise none (data.map fun r => r.map numToCell) (f.encode input)), none) := by
  have hs : startScores f width data = .ok (f.encode input, some input) := by
    unfold startScores
    rw [hoh]
    simp only
    rw [hin]; rfl
  constructor
  · unfold latentScores rawScores
    rw [if_neg (by simp), if_neg (by simp), if_neg (by simp [henc]), if_neg (by decide), hs]
    rfl
  · unfold latentScores rawScores
    rw [if_neg (by simp), if_neg (by simp), if_neg (by simp), if_neg (by decide), hs]
    rfl

/-- C47 for an autoencoder fitted without one-hot encoding and with an imputation method that needs nothing but
the data: data with missing responses is accepted. Missing: the method "random incorrect"
(`C47_random_incorrect_false`), variational autoencoders (`C47_vae_false`), and MAP and EAP scores, which also
need a positive definite prior covariance. -/
theorem C47_imputed_partial (f : FittedModel d) (ts : Thetas d) (method : String)
    (hmethod : method = "zero" ∨ method = "mean")
    (hfit : f.attrs = Algorithm.ae.afterFit ts 1 false (some method)) (width : ℕ) (data : List (List Num))
    (points : Option ℕ) :
    ∃ input, latentScores f width data "NN" false false points = .ok (some (f.encode input), none) ∧
      latentScores f width data "ML" false false points
        = .ok (some (f.optimise none (data.map fun r => r.map numToCell) (f.encode input)), none) := by
  have hin : ∃ input, (latentScoresEncoderInput width f.cats false (some method) data f.draw).1 = .ok input := by
    unfold latentScoresEncoderInput
    by_cases hm : (data.any fun r => r.any isMissing) = true
    · rw [if_pos hm]
      rcases hmethod with rfl | rfl
      · exact ⟨_, by simp [imputeMissingInternal]; rfl⟩
      · exact ⟨_, by simp [imputeMissingInternal]; rfl⟩
    · rw [if_neg hm]
      exact ⟨data, rfl⟩
  obtain ⟨input, hin⟩ := hin
  exact ⟨input, C47_encoder_accepted f width data input points (by rw [hfit]; rfl) false (by rw [hfit]; rfl)
    (by rw [hfit]; exact hin)⟩

/-- C47 is false for variational autoencoders: although `fit` was given an imputation method, missing responses
are refused (the method is not stored). -/
theorem C47_vae_false (f : FittedModel d) (ts : Thetas d) (method : String)
    (hfit : f.attrs = Algorithm.vae.afterFit ts 1 false (some method)) (width : ℕ) (data : List (List Num))
    (hmiss : HasMissing data) (points : Option ℕ) (rescale : Bool) :
    latentScores f width data "NN" false rescale points = .error .valueError ∧
      latentScores f width data "ML" false rescale points = .error .valueError ∧
      latentScores f width data "MAP" false rescale points = .error .valueError := by
  have h := fun m hm => C47_missing_refused f width data hmiss m hm false rescale (Or.inl rfl) points
    (by rw [hfit]; rfl) (by rw [hfit]; rfl) (by rw [hfit]; rfl)
  exact ⟨h _ (Or.inl rfl), h _ (Or.inr (Or.inl rfl)), h _ (Or.inr (Or.inr rfl))⟩

/-- C47 is false for autoencoders fitted with the imputation method "random incorrect": `latent_scores` does not
pass the answer key on, and missing responses are refused. -/
theorem C47_random_incorrect_false (f : FittedModel d) (ts : Thetas d) (oneHot : Bool)
    (hfit : f.attrs = Algorithm.ae.afterFit ts 1 oneHot (some "random incorrect")) (width : ℕ)
    (data : List (List Num)) (hmiss : HasMissing data) (points : Option ℕ) (rescale : Bool) :
    latentScores f width data "NN" false rescale points = .error .valueError ∧
      latentScores f width data "ML" false rescale points = .error .valueError ∧
      latentScores f width data "MAP" false rescale points = .error .valueError := by
  have h := fun m hm => latentScores_encoder_error f width data m hm false rescale (Or.inl rfl) points
    (by rw [hfit]; rfl) oneHot (by rw [hfit]; rfl) .valueError (by
      unfold latentScoresEncoderInput
      rw [if_pos ((hasMissing_iff data).2 hmiss), hfit]
      simp [Algorithm.afterFit, imputeMissingInternal])
  exact ⟨h _ (Or.inl rfl), h _ (Or.inr (Or.inl rfl)), h _ (Or.inr (Or.inr rfl))⟩

/-- The fit that precedes `C47_random_incorrect_false` is accepted: the training set of an autoencoder with this
method can be built (one binary item with key 1, two respondents, one missing). -/
example : ∃ ds, (Dataset.init 1 [[some 1], [none]] false (some [2]) (some "random incorrect") (some [1])
    fun _ _ => 0).1 = .ok ds ∧ HasMissing [[some 1], [none]] := by
  refine ⟨⟨[[some 1], [none]], missingMaskOf [[some 1], [none]], [[some 1], [some 0]]⟩, ?_, ?_⟩
  · simp [Dataset.init, imputeMissingInternal, randomIncorrect, randomColumn, incorrectValues, column, negOneToNaN,
      ofColumns, filledValue, List.range_succ, List.range_zero, bind, Except.bind, pure, Except.pure]
    norm_num
  · exact ⟨[none], by simp, none, by simp, Or.inl rfl⟩

/-- C47, models without an encoder: ML scores are always returned, starting from zeros after MML and from the best
training scores after JML. -/
theorem C47_no_encoder (f : FittedModel d) (hoh : f.attrs.oneHotEncoded = none) (width : ℕ)
    (data : List (List Num)) (points : Option ℕ) :
    latentScores f width data "ML" false false points
      = .ok (some (f.optimise none (data.map fun r => r.map numToCell) (match f.attrs.trainingThetas with
        | some (some ts) => initialTheta f.scorer (data.map fun r => r.map numToCell) ts f.permutation
        | _ => List.replicate data.length fun _ => 0)), none) := by
  have hs : startScores f width data = .ok (match f.attrs.trainingThetas with
        | some (some ts) => initialTheta f.scorer (data.map fun r => r.map numToCell) ts f.permutation
        | _ => List.replicate data.length fun _ => 0, none) := by
    unfold startScores
    rw [hoh]
    rcases f.attrs.trainingThetas with _ | _ | ts <;> rfl
  unfold latentScores rawScores
  rw [if_neg (by simp), if_neg (by simp), if_neg (by simp), if_neg (by decide), hs]
  rfl

/-- C47, MAP: scores are returned exactly when the prior covariance (the sample covariance of the training scores
after JML or an autoencoder, the covariance of the fit after MML) is positive definite. -/
theorem C47_map (f : FittedModel d) (alg : Algorithm) (ts : Thetas d) (cov : Matrix (Fin d) (Fin d) ℝ)
    (oneHot : Bool) (imputation : Option String) (hfit : f.attrs = alg.afterFit ts cov oneHot imputation)
    (hno : alg = .mml ∨ alg = .jml) (width : ℕ) (data : List (List Num)) (points : Option ℕ) :
    (∃ r, latentScores f width data "MAP" false false points = .ok r) ↔
      (if alg = Algorithm.mml then cov else sampleCov ts).PosDef := by
  have hs : ∃ s, startScores f width data = .ok (s, none) := by
    unfold startScores
    rw [hfit]
    rcases hno with rfl | rfl <;> exact ⟨_, rfl⟩
  obtain ⟨s, hs⟩ := hs
  have hp : (∃ c, mapPrior f.attrs = .ok c) ↔ (if alg = Algorithm.mml then cov else sampleCov ts).PosDef := by
    unfold mapPrior
    rw [hfit]
    rcases hno with rfl | rfl
    · by_cases h : cov.PosDef <;> simp [Algorithm.afterFit, h]
    · by_cases h : (sampleCov ts).PosDef <;> simp [Algorithm.afterFit, h]
  rw [← hp]
  unfold latentScores rawScores
  rw [if_neg (by simp), if_neg (by simp), if_neg (by simp), if_neg (by decide), hs]
  cases h : mapPrior f.attrs with
  | ok c =>
    refine ⟨fun _ => ⟨c, rfl⟩, fun _ => ?_⟩
    simp only [bind_ok, mlMapScores, h]
    exact ⟨_, rfl⟩
  | error e =>
    refine ⟨?_, fun ⟨c, h'⟩ => by cases h'⟩
    rintro ⟨r, hr⟩
    simp only [bind_ok, mlMapScores, h] at hr
    cases hr

/-- C47, MAP: the prior the scores are computed with is that covariance, and the starting values are those of ML. -/
theorem C47_map_prior (f : FittedModel d) (alg : Algorithm) (ts : Thetas d) (cov : Matrix (Fin d) (Fin d) ℝ)
    (oneHot : Bool) (imputation : Option String) (hfit : f.attrs = alg.afterFit ts cov oneHot imputation)
    (hno : alg = .mml ∨ alg = .jml) (width : ℕ) (data : List (List Num)) (points : Option ℕ)
    (hpos : (if alg = Algorithm.mml then cov else sampleCov ts).PosDef) :
    latentScores f width data "MAP" false false points
      = .ok (some (f.optimise (some (if alg = Algorithm.mml then cov else sampleCov ts))
          (data.map fun r => r.map numToCell) (if alg = Algorithm.mml then List.replicate data.length fun _ => 0
            else initialTheta f.scorer (data.map fun r => r.map numToCell) ts f.permutation)), none) := by
  have hs : startScores f width data = .ok (if alg = Algorithm.mml then List.replicate data.length fun _ => 0
      else initialTheta f.scorer (data.map fun r => r.map numToCell) ts f.permutation, none) := by
    unfold startScores
    rw [hfit]
    rcases hno with rfl | rfl <;> rfl
  have hp : mapPrior f.attrs = .ok (if alg = Algorithm.mml then cov else sampleCov ts) := by
    unfold mapPrior
    rw [hfit]
    rcases hno with rfl | rfl
    · simp only [if_true] at hpos; simp [Algorithm.afterFit, hpos]
    · simp at hpos; simp [Algorithm.afterFit, hpos]
  unfold latentScores rawScores
  rw [if_neg (by simp), if_neg (by simp), if_neg (by simp), if_neg (by decide), hs]
  simp only [bind_ok, mlMapScores, hp]
  rfl

/-- C47, MAP without a prior: an algorithm with neither training scores nor a covariance matrix (a model that has
not been fitted, or one whose fit has not finished) gives no MAP scores; the call ends with a `NameError` whatever the
data, whereas ML scores are returned. -/
theorem C47_map_no_prior (f : FittedModel d) (hoh : f.attrs.oneHotEncoded = none)
    (hts : f.attrs.trainingThetas = none ∨ f.attrs.trainingThetas = some none)
    (hcov : f.attrs.covariance = none ∨ f.attrs.covariance = some none) (width : ℕ) (data : List (List Num))
    (rescale : Bool) (points : Option ℕ) :
    latentScores f width data "MAP" false rescale points = .error .nameError ∧
      latentScores f width data "ML" false false points
        = .ok (some (f.optimise none (data.map fun r => r.map numToCell)
            (List.replicate data.length fun _ => 0)), none) := by
  have hs : startScores f width data = .ok (List.replicate data.length fun _ => 0, none) := by
    unfold startScores
    rw [hoh]
    rcases hts with h | h <;> rw [h]
  have hp : mapPrior f.attrs = .error .nameError := by
    unfold mapPrior
    rcases hts with h | h <;> rcases hcov with h' | h' <;> rw [h, h']
  constructor
  · unfold latentScores rawScores
    rw [if_neg (by simp), if_neg (by simp), if_neg (by simp), if_neg (by decide), hs]
    simp only [bind_ok, mlMapScores, hp]
    rfl
  · rw [C47_no_encoder f hoh]
    rcases hts with h | h <;> rw [h]

/-! ### The hypotheses above are met

An autoencoder for two binary items, fitted without one-hot encoding and with the given imputation method. -/

noncomputable def exAE (alg : Algorithm) (imputation : Option String) : FittedModel 1 where
  scorer := tableScorer 2 fun _ => [[1 / 2, 1 / 2], [1 / 2, 1 / 2]]
  cats := [2, 2]
  attrs := alg.afterFit [fun _ => 0, fun _ => 2] 1 false imputation
  probs := fun _ => [[1 / 2, 1 / 2], [1 / 2, 1 / 2]]
  scales := []
  encode := fun data => data.map fun r _ => (r.map fun x => x.getD 0).sum
  meanSe := fun data => data.map fun _ => (fun _ => 0, fun _ => 1)
  optimise := fun _ _ start => start
  permutation := []
  draw := fun _ _ => 0

theorem exMissing : HasMissing [[some 1, none], [some 0, some 1]] := ⟨_, List.mem_cons_self, none, by simp, Or.inl rfl⟩

example : latentScores (exAE .ae none) 2 [[some 1, none], [some 0, some 1]] "ML" true true none
    = .error .valueError :=
  C47_missing_refused _ _ _ exMissing _ (Or.inr (Or.inl rfl)) _ _ (Or.inr (by decide)) _ rfl rfl rfl

example : latentScores (exAE .jml none) 2 [[some 1, some 0]] "NN" false false none = .error .valueError ∧
    latentScores (exAE .jml none) 2 [[some 1, some 0]] "MAP" true false none = .error .valueError ∧
    latentScores (exAE .jml none) 2 [[some 1, some 0]] "ml" false false none = .error .valueError :=
  ⟨C47_refused _ _ _ _ _ _ _ (Or.inr (Or.inr ⟨rfl, rfl⟩)), C47_refused _ _ _ _ _ _ _ (Or.inr (Or.inl ⟨rfl, Or.inr rfl⟩)),
    C47_refused _ _ _ _ _ _ _ (Or.inl (by decide))⟩

example : ∃ input, latentScores (exAE .ae (some "mean")) 2 [[some 1, none], [some 0, some 1]] "NN" false false none
    = .ok (some ((exAE .ae (some "mean")).encode input), none) :=
  (C47_imputed_partial (exAE .ae (some "mean")) _ "mean" (Or.inr rfl) rfl 2 _ none).imp fun _ h => h.1

example : latentScores (exAE .vae (some "mean")) 2 [[some 1, none], [some 0, some 1]] "NN" false false none
    = .error .valueError :=
  (C47_vae_false (exAE .vae (some "mean")) _ "mean" rfl 2 _ exMissing none false).1

example : latentScores (exAE .ae (some "random incorrect")) 2 [[some 1, none], [some 0, some 1]] "NN" false false none
    = .error .valueError :=
  (C47_random_incorrect_false (exAE .ae (some "random incorrect")) _ false rfl 2 _ exMissing none false).1

example : ∃ r, latentScores (exAE .jml none) 2 [[some 1, none], [some 0, some 1]] "MAP" false false none = .ok r :=
  (C47_map (exAE .jml none) .jml _ 1 false none rfl (Or.inr rfl) 2 _ none).2 exTraining_cov

example : ∃ r, latentScores (exAE .jml none) 2 [[some 1, none], [some 0, some 1]] "ML" false false none = .ok r :=
  ⟨_, C47_no_encoder (exAE .jml none) rfl 2 _ none⟩

/-- MML with prior covariance 1. -/
example : ∃ r, latentScores (exAE .mml none) 2 [[some 1, none], [some 0, some 1]] "MAP" false false none = .ok r :=
  ⟨_, C47_map_prior (exAE .mml none) .mml [fun _ => 0, fun _ => 2] 1 false none rfl (Or.inl rfl) 2 _ none
    (by rw [if_pos rfl]; exact Matrix.PosDef.one)⟩

/-- A model that has not been fitted. -/
example : latentScores { exAE .jml none with attrs := {} } 2 [[some 1, some 0]] "MAP" false false none
    = .error .nameError :=
  (C47_map_no_prior { exAE .jml none with attrs := {} } rfl (Or.inl rfl) (Or.inl rfl) 2 _ false none).1

/-! ## C74: standard errors -/

/-- C74, what is reported with ML (and with NN for encoders without their own standard errors): the reciprocal
square root of each diagonal entry of the test information at the scores; infinite where it is zero. -/
theorem C74_reported (f : FittedModel d) (width : ℕ) (data : List (List Num)) (rescale : Bool) (points : Option ℕ)
    (θ : Thetas d) (input : Option (List (List Num)))
    (hraw : rawScores f width data "ML" true points = .ok (some θ, input)) (out : Option (Thetas d))
    (hout : rescaleScores f rescale (some θ) = .ok out) (ms : List (Matrix (Fin d) (Fin d) ℝ))
    (hinfo : information f.probs f.cats.length (maxCats f.cats) f.scales false none rescale θ = .ok (.test ms)) :
    latentScores f width data "ML" true rescale points
      = .ok (out, some (ms.map fun I k => if I k k = 0 then none else some (1 / Real.sqrt (I k k)))) := by
  unfold latentScores
  rw [hraw]
  simp only [bind_ok]
  rw [hout]
  simp only [bind_ok, if_true, Option.getD_some]
  unfold standardErrorsOf
  rw [if_neg (by simp), hinfo]
  rfl

/-- C74: the reported standard error is never larger than the asymptotic standard error, the square root of the
diagonal of the inverse of the information matrix. -/
theorem C74_never_larger (I : Matrix (Fin d) (Fin d) ℝ) (hI : I.PosDef) (k : Fin d) :
    1 / Real.sqrt (I k k) ≤ Real.sqrt (I⁻¹ k k) := by
  have hk : 0 < I k k := hI.diag_pos
  have hdet : IsUnit I.det := hI.det_pos.ne'.isUnit
  set v : Fin d → ℝ := fun i => I⁻¹ i k - (1 / I k k) * (Pi.single k (1:ℝ) : Fin d → ℝ) i with hv
  have hIv : I.mulVec v = Pi.single k 1 - (1 / I k k) • (fun i => I i k) := by
    have e1 : v = (fun i => I⁻¹ i k) - (1 / I k k) • Pi.single k (1:ℝ) := by
      funext i; simp [hv]
    rw [e1, Matrix.mulVec_sub, Matrix.mulVec_smul]
    congr 1
    · funext i
      have := congrFun (congrFun (Matrix.mul_nonsing_inv I hdet) i) k
      rw [Matrix.mul_apply] at this
      simp only [Matrix.mulVec, dotProduct]
      rw [this, Matrix.one_apply, Pi.single_apply]
    · funext i
      simp [Matrix.mulVec, dotProduct, Pi.single_apply]
  have hq := hI.posSemidef.dotProduct_mulVec_nonneg v
  rw [hIv] at hq
  simp only [star_trivial] at hq
  have hsym : ∀ i, I i k = I k i := by
    intro i
    have := hI.isHermitian
    have := congrFun (congrFun this k) i
    simpa [Matrix.conjTranspose_apply] using this
  have e2 : v ⬝ᵥ (fun i => I i k) = 0 := by
    have : v ⬝ᵥ (fun i => I i k) = I.mulVec v k := by
      simp only [dotProduct, Matrix.mulVec]
      exact Finset.sum_congr rfl fun i _ => by rw [hsym i]; ring
    rw [this, hIv]
    simp
    field_simp
    simp
  rw [dotProduct_sub, dotProduct_smul, e2] at hq
  have hle : 1 / I k k ≤ I⁻¹ k k := by
    simp [hv] at hq
    simpa using hq
  calc 1 / Real.sqrt (I k k) = Real.sqrt (1 / I k k) := by rw [Real.sqrt_div zero_le_one]; simp
    _ ≤ _ := Real.sqrt_le_sqrt hle

/-- C74, where the reported standard error is the asymptotic one: one latent variable, or an information matrix
without off-diagonal entries. -/
theorem C74_diagonal_partial (I : Matrix (Fin d) (Fin d) ℝ) (hI : I.PosDef) (hdiag : ∀ i j, i ≠ j → I i j = 0)
    (k : Fin d) : 1 / Real.sqrt (I k k) = Real.sqrt (I⁻¹ k k) := by
  have hk : 0 < I k k := hI.diag_pos
  have hdet : IsUnit I.det := hI.det_pos.ne'.isUnit
  have h := congrFun (congrFun (Matrix.mul_nonsing_inv I hdet) k) k
  rw [Matrix.mul_apply, Finset.sum_eq_single k, Matrix.one_apply_eq] at h
  · have : I⁻¹ k k = 1 / I k k := by field_simp; linarith
    rw [this, Real.sqrt_div zero_le_one]; simp
  · intro j _ hj; rw [hdiag k j (Ne.symm hj), zero_mul]
  · simp

/-- C74, delta method of the variational autoencoder: the variance on the rescaled scale is the diagonal of
`J diag(se²) Jᵀ`, that is `Σ_j (J i j)² (se j)²`. -/
theorem C74_delta_method (J : Matrix (Fin d) (Fin d) ℝ) (se : Fin d → ℝ) (i : Fin d) :
    0 ≤ deltaSe J se i ∧ deltaSe J se i ^ 2 = ∑ j, (J i j) ^ 2 * (se j) ^ 2 ∧
      deltaSe J se i ^ 2 = (J * (Matrix.diagonal fun l => se l ^ 2) * J.transpose) i i := by
  have e : ∑ j, ∑ k, J i j * (Matrix.diagonal fun l => se l ^ 2 : Matrix (Fin d) (Fin d) ℝ) j k * J i k
      = ∑ j, (J i j) ^ 2 * (se j) ^ 2 := by
    refine Finset.sum_congr rfl fun j _ => ?_
    rw [Finset.sum_eq_single j]
    · rw [Matrix.diagonal_apply_eq]; ring
    · intro k _ hk; rw [Matrix.diagonal_apply_ne _ (Ne.symm hk)]; ring
    · simp
  have hnn : 0 ≤ ∑ j, (J i j) ^ 2 * (se j) ^ 2 := Finset.sum_nonneg fun j _ => by positivity
  refine ⟨Real.sqrt_nonneg _, ?_, ?_⟩
  · unfold deltaSe
    rw [e, Real.sq_sqrt hnn]
  · unfold deltaSe
    rw [e, Real.sq_sqrt hnn, Matrix.mul_apply]
    refine Finset.sum_congr rfl fun j _ => ?_
    rw [Matrix.mul_diagonal, Matrix.transpose_apply]; ring

/-- C74, the variational autoencoder: with NN scores the standard errors returned are the encoder's, those of a
rescaled theta by the delta method, with the Jacobian of the transformation taken at the encoder's means. -/
theorem C74_variational (f : FittedModel d) (hse : f.attrs.hasMeanSe = true) (width : ℕ) (data : List (List Num))
    (points : Option ℕ) (θ : Thetas d) (input : List (List Num))
    (hraw : rawScores f width data "NN" true points = .ok (some θ, some input)) :
    (∀ out, rescaleScores f false (some θ) = .ok out →
      latentScores f width data "NN" true false points
        = .ok (out, some ((f.meanSe input).map fun p k => some (p.2 k)))) ∧
    (∀ (out : Option (Thetas d)) (J : (Fin d → ℝ) → Matrix (Fin d) (Fin d) ℝ), f.scales ≠ [] →
      rescaleScores f true (some θ) = .ok out →
      thetaTransformJacobian f.scales ((f.meanSe input).map Prod.fst)
        = .ok (((f.meanSe input).map Prod.fst).map J) →
      latentScores f width data "NN" true true points
        = .ok (out, some ((f.meanSe input).map fun p k =>
            some (Real.sqrt (∑ j, (J p.1 k j) ^ 2 * (p.2 j) ^ 2))))) := by
  constructor
  · intro out hout
    unfold latentScores
    rw [hraw]
    simp only [bind_ok]
    rw [hout]
    simp only [bind_ok, if_true]
    unfold standardErrorsOf
    rw [if_pos ⟨hse, rfl⟩]
    rfl
  · intro out J hsc hout hJ
    have hne : f.scales.isEmpty = false := by simpa using hsc
    unfold latentScores
    rw [hraw]
    simp only [bind_ok]
    rw [hout]
    simp only [bind_ok, if_true]
    unfold standardErrorsOf
    rw [if_pos ⟨hse, rfl⟩]
    simp only [hne, Option.getD_some, Bool.not_false, Bool.and_self, if_true]
    rw [hJ]
    simp only [bind_ok, pure, Except.pure]
    congr 3
    generalize f.meanSe input = l
    induction l with
    | nil => rfl
    | cons p l ih =>
      simp only [List.map_cons, List.zipWith_cons_cons, ih, List.cons.injEq, and_true]
      funext k
      obtain ⟨h0, h1, -⟩ := C74_delta_method (J p.1) p.2 k
      rw [← h1, Real.sqrt_sq h0]

/-- A variational autoencoder on a reversed scale. -/
example : latentScores { exAE .vae none with scales := [reverseScale fun _ => true] } 2 [[some 1, some 0]] "NN" true
    true none = .ok (some [fun _ => -1], some [fun k => some (Real.sqrt (∑ j : Fin 1,
      ((Matrix.diagonal fun _ => (-1 : ℝ) : Matrix (Fin 1) (Fin 1) ℝ) k j) ^ 2 * (1 : ℝ) ^ 2))]) := by
  have hraw : rawScores { exAE .vae none with scales := [reverseScale fun _ => true] } 2 [[some 1, some 0]] "NN" true
      none = .ok (some [fun _ => 1], some [[some 1, some 0]]) := by
    simp [rawScores, startScores, exAE, Algorithm.afterFit, latentScoresEncoderInput, isMissing, bind, Except.bind,
      pure, Except.pure]
    norm_num
  have h := (C74_variational { exAE .vae none with scales := [reverseScale fun _ => true] } rfl 2 [[some 1, some 0]]
    none _ _ hraw).2 (some [fun _ => -1]) (fun _ => Matrix.diagonal fun _ => -1) (by simp) (by
      simp [rescaleScores, transformTheta, reverseScale, reverseSign, bind, Except.bind, pure, Except.pure]) (by
      simp [thetaTransformJacobian, jacobianLoop, reverseScale, reverseSign, exAE, bind, Except.bind, pure, Except.pure])
  exact h

/-! ### C74 is false for two latent variables

Four items with slopes (1, 0), (1, 0), (1, 1), (1, 1) and biases 0, fitted with MML, and one respondent with
responses 1, 0, 1, 0, whose maximum likelihood estimate is (0, 0). -/

noncomputable def exSe : TwoPL :=
  { items := 4, lv := 2, rel := [[true, false], [true, false], [true, true], [true, true]]
    weight := [1, 1, 1, 1, 1, 1], bias := [0, 0, 0, 0] }

theorem exSe_wf : exSe.WF where
  relLen := by simp [exSe]
  relRow := by simp [exSe]
  weightLen := by simp [exSe, countTrue]
  biasLen := by simp [exSe]

theorem exSe_parameters :
    exSe.itemParameters = [([1, 0], 0), ([1, 0], 0), ([1, 1], 0), ([1, 1], 0)] := by
  simp [TwoPL.itemParameters, TwoPL.weights, exSe, viewRows, scatterMask]

/-- The fitted model. The optimiser returns its starting values, the zeros that MML fits start from; they are the
maximum likelihood estimate (`exSe_maximum`). -/
noncomputable def exSeModel : FittedModel 2 where
  scorer := tableScorer 4 fun t => exSe.probs (List.ofFn t)
  cats := [2, 2, 2, 2]
  attrs := Algorithm.mml.afterFit [] 1 false none
  probs := fun t => exSe.probs (List.ofFn t)
  scales := []
  encode := fun _ => []
  meanSe := fun _ => []
  optimise := fun _ _ start => start
  permutation := []
  draw := fun _ _ => 0

/-- The responses of the respondent. -/
def exSeResponse : ℕ → Cell
  | 0 => some 1
  | 1 => some 0
  | 2 => some 1
  | _ => some 0

/-- (0, 0) maximises the likelihood of the responses 1, 0, 1, 0. -/
theorem exSe_maximum (t : Fin 2 → ℝ) :
    observedLikelihood (fun θ => tableProb (exSe.probs (List.ofFn θ))) 4 exSeResponse t
      ≤ observedLikelihood (fun θ => tableProb (exSe.probs (List.ofFn θ))) 4 exSeResponse
        (fun _ => 0 : Fin 2 → ℝ) := by
  have hrow : ∀ (θ : Fin 2 → ℝ) (i : ℕ) (a : List ℝ) (b : ℝ), exSe.itemParameters[i]? = some (a, b) →
      tableProb (exSe.probs (List.ofFn θ)) i 1 = logistic ((∑ x, θ x * a.getD x 0) + b) ∧
      tableProb (exSe.probs (List.ofFn θ)) i 0 = 1 - logistic ((∑ x, θ x * a.getD x 0) + b) := by
    intro θ i a b h
    have h2 := C03_twoPL_formula exSe exSe_wf (List.ofFn θ) i a b h
    rw [dot_ofFn] at h2
    unfold tableProb
    rw [h2]
    exact ⟨rfl, rfl⟩
  have h0 := fun θ => (hrow θ 0 [1, 0] 0 (by rw [exSe_parameters]; rfl)).1
  have h1 := fun θ => (hrow θ 1 [1, 0] 0 (by rw [exSe_parameters]; rfl)).2
  have h2 := fun θ => (hrow θ 2 [1, 1] 0 (by rw [exSe_parameters]; rfl)).1
  have h3 := fun θ => (hrow θ 3 [1, 1] 0 (by rw [exSe_parameters]; rfl)).2
  have e : ∀ θ : Fin 2 → ℝ, observedLikelihood (fun θ => tableProb (exSe.probs (List.ofFn θ))) 4 exSeResponse θ
      = (logistic (θ 0) * (1 - logistic (θ 0)))
        * (logistic (θ 0 + θ 1) * (1 - logistic (θ 0 + θ 1))) := by
    intro θ
    have g0 := h0 θ
    have g1 := h1 θ
    have g2 := h2 θ
    have g3 := h3 θ
    simp [Fin.sum_univ_two] at g0 g1 g2 g3
    simp [observedLikelihood, Finset.prod_range_succ, exSeResponse, cellMissing, responseOf]
    rw [g0, g1, g2, g3]; ring
  rw [e, e]
  have hhalf : logistic 0 = 1 / 2 := by simp [logistic]; norm_num
  have q : ∀ x : ℝ, 0 ≤ logistic x * (1 - logistic x) ∧ logistic x * (1 - logistic x) ≤ 1 / 4 := by
    intro x
    refine ⟨mul_nonneg (logistic_pos x).le (by linarith [logistic_lt_one x]), ?_⟩
    nlinarith [sq_nonneg (logistic x - 1 / 2)]
  have a1 := q (t 0)
  have a2 := q (t 0 + t 1)
  have hz : (logistic 0 * (1 - logistic 0)) * (logistic (0 + 0) * (1 - logistic (0 + 0))) = (1 / 4 : ℝ) * (1 / 4) := by
    rw [add_zero, hhalf]; norm_num
  rw [hz]
  exact mul_le_mul a1.2 a2.2 a2.1 (by norm_num)

/-- The test information of this model at (0, 0). -/
theorem exSe_information :
    information exSeModel.probs exSeModel.cats.length (maxCats exSeModel.cats) [] false none false [fun _ => 0]
      = .ok (.test [!![1, 1 / 2; 1 / 2, 1 / 2]]) := by
  obtain ⟨M, hM, hl, hrl, hr⟩ := C31_twoPL (d := 2) exSe exSe_wf [] false (Or.inl rfl) [fun _ => 0]
  have hs := C31_test_is_sum _ _ _ _ _ _ _ hM
  have hhalf : logistic 0 = 1 / 2 := by simp [logistic]; norm_num
  obtain ⟨r, I0, hr0, hI0, e0⟩ := hr 0 0 _ [1, 0] 0 rfl (by rw [exSe_parameters]; rfl)
  obtain ⟨r1, I1, hr1, hI1, e1⟩ := hr 0 1 _ [1, 0] 0 rfl (by rw [exSe_parameters]; rfl)
  obtain ⟨r2, I2, hr2, hI2, e2⟩ := hr 0 2 _ [1, 1] 0 rfl (by rw [exSe_parameters]; rfl)
  obtain ⟨r3, I3, hr3, hI3, e3⟩ := hr 0 3 _ [1, 1] 0 rfl (by rw [exSe_parameters]; rfl)
  rw [hr0] at hr1 hr2 hr3
  obtain rfl := Option.some.inj hr1
  obtain rfl := Option.some.inj hr2
  obtain rfl := Option.some.inj hr3
  have hMe : M = [r] := by
    match M, hl, hr0 with
    | [x], _, h => simp at h; rw [h]
  subst hMe
  have hre : r = [I0, I1, I2, I3] := by
    have := hrl r (by simp)
    match r, this, hI0, hI1, hI2, hI3 with
    | [a, b, c, e], _, h0, h1, h2, h3 => simp at h0 h1 h2 h3; rw [h0, h1, h2, h3]
  subst hre
  have hsum : [I0, I1, I2, I3].sum = !![1, 1 / 2; 1 / 2, 1 / 2] := by
    ext i k
    simp only [List.sum_cons, List.sum_nil, add_zero, Matrix.add_apply, e0, e1, e2, e3]
    fin_cases i <;> fin_cases k <;> simp [hhalf] <;> norm_num
  rw [← hsum]
  exact hs

theorem exSe_posDef : (!![1, 1 / 2; 1 / 2, 1 / 2] : Matrix (Fin 2) (Fin 2) ℝ).PosDef := by
  refine Matrix.PosDef.of_dotProduct_mulVec_pos (by ext i j; fin_cases i <;> fin_cases j <;> simp) ?_
  intro x hx
  have hne : x 0 ≠ 0 ∨ x 1 ≠ 0 := by
    by_contra h
    push Not at h
    exact hx (by funext i; fin_cases i <;> simp [h.1, h.2])
  simp [Matrix.mulVec, dotProduct, Fin.sum_univ_two]
  rcases hne with h | h
  · nlinarith [sq_nonneg (x 0 + x 1), sq_pos_of_ne_zero h, sq_nonneg (x 1)]
  · nlinarith [sq_nonneg (2 * x 0 + x 1), sq_pos_of_ne_zero h]

theorem exSe_inverse : (!![1, 1 / 2; 1 / 2, 1 / 2] : Matrix (Fin 2) (Fin 2) ℝ)⁻¹ = !![2, -2; -2, 4] := by
  apply Matrix.inv_eq_right_inv
  ext i j
  fin_cases i <;> fin_cases j <;> simp [Matrix.mul_apply, Fin.sum_univ_two] <;> norm_num

/-- C74 is false: at the maximum likelihood estimate (0, 0) the reported standard errors are `1/√1` and `1/√(1/2)`,
the asymptotic ones are the square roots of the diagonal of the inverse information, `√2` and `√4`. -/
theorem C74_false :
    ∃ I : Matrix (Fin 2) (Fin 2) ℝ,
      information exSeModel.probs exSeModel.cats.length (maxCats exSeModel.cats) [] false none false [fun _ => 0]
        = .ok (.test [I]) ∧ I.PosDef ∧
      ∃ se : Fin 2 → Option ℝ, ∃ a b : ℝ,
        latentScores exSeModel 4 [[some 1, some 0, some 1, some 0]] "ML" true false none
          = .ok (some [fun _ => 0], some [se]) ∧
        se 0 = some a ∧ se 1 = some b ∧ a < Real.sqrt (I⁻¹ 0 0) ∧ b < Real.sqrt (I⁻¹ 1 1) := by
  refine ⟨!![1, 1 / 2; 1 / 2, 1 / 2], exSe_information, ?_, _, 1 / Real.sqrt 1, 1 / Real.sqrt (1 / 2),
    C74_reported exSeModel 4 [[some 1, some 0, some 1, some 0]] false none [fun _ => 0] none ?_
      (some [fun _ => 0]) rfl _ exSe_information, ?_, ?_, ?_, ?_⟩
  · exact exSe_posDef
  · simp [rawScores, startScores, mlMapScores, exSeModel, Algorithm.afterFit, bind, Except.bind, pure, Except.pure]
  · simp
  · simp
  · rw [exSe_inverse]
    simp only [Matrix.of_apply, Matrix.cons_val', Matrix.cons_val_zero]
    rw [Real.sqrt_one, div_one, Real.lt_sqrt (by norm_num)]
    norm_num
  · rw [exSe_inverse]
    simp only [Matrix.of_apply, Matrix.cons_val', Matrix.cons_val_one]
    rw [one_div, ← Real.sqrt_inv]
    exact Real.sqrt_lt_sqrt (by norm_num) (by norm_num)

example : 1 / Real.sqrt ((!![1, 1 / 2; 1 / 2, 1 / 2] : Matrix (Fin 2) (Fin 2) ℝ) 0 0)
    ≤ Real.sqrt ((!![1, 1 / 2; 1 / 2, 1 / 2] : Matrix (Fin 2) (Fin 2) ℝ)⁻¹ 0 0) := C74_never_larger _ exSe_posDef 0

/-- One latent variable: the hypothesis on the off-diagonal entries is empty. -/
example (x : ℝ) (hx : 0 < x) : 1 / Real.sqrt ((Matrix.of fun _ _ => x : Matrix (Fin 1) (Fin 1) ℝ) 0 0)
    = Real.sqrt ((Matrix.of fun _ _ => x : Matrix (Fin 1) (Fin 1) ℝ)⁻¹ 0 0) :=
  C74_diagonal_partial _ (Matrix.PosDef.of_dotProduct_mulVec_pos (by ext i j; simp) (by
    intro v hv
    have : v 0 ≠ 0 := fun h => hv (by funext i; fin_cases i; exact h)
    simp [Matrix.mulVec, dotProduct]
    nlinarith [mul_pos hx (sq_pos_of_ne_zero this)])) (by intro i j h; exact absurd (Subsingleton.elim i j) h) 0

end Irt
