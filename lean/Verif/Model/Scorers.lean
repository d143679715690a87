import Verif.Model.Scoring
import Verif.Model.Logistic
import Verif.Model.Polytomous

/-!
# The parametric models as objects of latent score estimation

`latent_scores` (base_irt_model.py 583-969) uses a model through `forward` and `log_likelihood`. These are
the models of `irtorch/models` seen that way.
-/

namespace Irt

/-- `OneParameterLogistic` (one_parameter_logistic.py 84-89) with the base class's `log_likelihood`
(base_irt_model.py 247-264). It has one latent variable. -/
noncomputable def OnePL.scorer (m : OnePL) : Scorer 1 :=
  softmaxScorer m.items 2 fun θ => m.forwardRow (θ 0)

/-- `TwoParameterLogistic` (two_parameter_logistic.py 104-114) with the base class's `log_likelihood`. -/
noncomputable def TwoPL.scorer (m : TwoPL) (d : ℕ) : Scorer d :=
  softmaxScorer m.items 2 fun θ => m.forwardRow (List.ofFn θ)

/-- `ThreeParameterLogistic` (three_parameter_logistic.py 101-111, 128-129) with its own `log_likelihood`
(157-176), which looks the response up in the probabilities. -/
noncomputable def ThreePL.scorer (m : ThreePL) (d : ℕ) : Scorer d :=
  tableScorer m.items fun θ => m.probs (List.ofFn θ)

/-- `NominalResponse` (nominal_response.py 119-134) with the base class's `log_likelihood`. -/
noncomputable def NRM.scorer (m : NRM) (d : ℕ) : Scorer d :=
  softmaxScorer m.cats.length m.M fun θ => m.forwardRow (List.ofFn θ)

/-- `GeneralizedPartialCredit` (generalized_partial_credit.py 116-130) with the base class's `log_likelihood`. -/
noncomputable def GPC.scorer (m : GPC) (d : ℕ) : Scorer d :=
  softmaxScorer m.cats.length m.M fun θ => m.forwardRow (List.ofFn θ)

/-- `GradedResponse` (graded_response.py 133-144, 161-165) with its own `log_likelihood` (193-214). -/
noncomputable def GRM.scorer (m : GRM) (d : ℕ) : Scorer d :=
  tableScorer m.cats.length fun θ => m.probs (List.ofFn θ)

end Irt
