import Verif.Spec.Scoring

/-!
# Multinomial logit models, and orders between answers

`P θ j r` is the probability of response `r` on item `j` at latent scores `θ`.
-/

namespace Irt

/-- Multinomial logit: response `r` of item `j` has log odds affine in the latent scores, with slopes
`A j r` and intercept `B j r`. -/
def LogitModel {d : ℕ} (cats : List ℕ) (P : (Fin d → ℝ) → ℕ → ℕ → ℝ) (A : ℕ → ℕ → Fin d → ℝ)
    (B : ℕ → ℕ → ℝ) : Prop :=
  ∀ (θ : Fin d → ℝ) (j c r : ℕ), cats[j]? = some c → r < c →
    P θ j r = Real.exp (∑ k, A j r k * θ k + B j r)
      / ∑ s ∈ Finset.range c, Real.exp (∑ k, A j s k * θ k + B j s)

/-- The contribution of one answer to the likelihood: missing answers contribute nothing. -/
noncomputable def cellLik {d : ℕ} (P : (Fin d → ℝ) → ℕ → ℕ → ℝ) (j : ℕ) (c : Cell) (θ : Fin d → ℝ) : ℝ :=
  if cellMissing c then 1 else P θ j (responseOf c)

/-- Answer `c'` speaks at least as much for high latent scores as answer `c`: the likelihood ratio of `c'`
to `c` does not fall when the latent score rises. -/
def SpeaksForMore (P : (Fin 1 → ℝ) → ℕ → ℕ → ℝ) (j : ℕ) (c c' : Cell) : Prop :=
  ∀ θ θ' : Fin 1 → ℝ, θ 0 ≤ θ' 0 → cellLik P j c θ' * cellLik P j c' θ ≤ cellLik P j c θ * cellLik P j c' θ'

/-- The same with a ratio that rises strictly. -/
def SpeaksForStrictlyMore (P : (Fin 1 → ℝ) → ℕ → ℕ → ℝ) (j : ℕ) (c c' : Cell) : Prop :=
  ∀ θ θ' : Fin 1 → ℝ, θ 0 < θ' 0 → cellLik P j c θ' * cellLik P j c' θ < cellLik P j c θ * cellLik P j c' θ'

/-- Order of the answers to an item with ordered categories `0, ..., c - 1`: a higher category is better; a
missing answer lies between the lowest and the highest category and is not compared with the others. -/
def AnswerLE (c : ℕ) (x x' : Cell) : Prop :=
  match cellMissing x, cellMissing x' with
  | true, true => True
  | false, false => responseOf x ≤ responseOf x'
  | false, true => responseOf x = 0
  | true, false => responseOf x' = c - 1

/-- The strict order: a higher category, the highest category instead of no answer, or no answer instead of
the lowest category. -/
def AnswerLT (c : ℕ) (x x' : Cell) : Prop :=
  match cellMissing x, cellMissing x' with
  | true, true => False
  | false, false => responseOf x < responseOf x'
  | false, true => responseOf x = 0
  | true, false => responseOf x' = c - 1

/-- The categories of an item form a distribution and higher categories become relatively more likely, or
stay as likely, when the latent score rises. -/
structure RankedItem (P : (Fin 1 → ℝ) → ℕ → ℕ → ℝ) (j c : ℕ) : Prop where
  sum_one : ∀ θ, ∑ r ∈ Finset.range c, P θ j r = 1
  ratio : ∀ θ θ' : Fin 1 → ℝ, θ 0 ≤ θ' 0 → ∀ r r', r ≤ r' → r' < c → P θ' j r * P θ j r' ≤ P θ j r * P θ' j r'

/-- Higher categories become strictly more likely relative to lower ones. -/
def StrictlyRankedItem (P : (Fin 1 → ℝ) → ℕ → ℕ → ℝ) (j c : ℕ) : Prop :=
  ∀ θ θ' : Fin 1 → ℝ, θ 0 < θ' 0 → ∀ r r', r < r' → r' < c → P θ' j r * P θ j r' < P θ j r * P θ' j r'

end Irt
