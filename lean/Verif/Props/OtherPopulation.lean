import Verif.Spec.OtherPopulation
import Verif.Props.NormalPopulation
import Verif.Props.Convention

/-! # C153: calibrating with respondents from a population with another mean and covariance -/

namespace Irt
open Spec MeasureTheory Filter Topology

/-! ## The answers of another population -/

section Scale

variable {d : ℕ} {cats : List ℕ} {T : Matrix (Fin d) (Fin d) ℝ} {μ : Fin d → ℝ} {P Q : (Fin d → ℝ) → ℕ → ℕ → ℝ}

theorem mvn_shift (cov : Matrix (Fin d) (Fin d) ℝ) (θ : Fin d → ℝ) : mvnLogDensity μ cov θ = mvnLogDensity 0 cov (θ - μ) := by
  simp [mvnLogDensity]

/-- C153: what cannot be seen in the answers. A population with mean `μ` and covariance `T C Tᵀ` answers the items of a model as the population with
mean zero and covariance `C` answers those of the model that says the same on the scale with origin `μ` and units `T`. -/
theorem C153_population (h : SameOnNewScale cats T μ P Q) (hT : T.det ≠ 0) {C : Matrix (Fin d) (Fin d) ℝ} (hC : C.PosDef)
    {x : Fin cats.length → ℕ} (hx : x ∈ fullAnswers cats) :
    normalProbAt P μ (T * C * T.transpose) x = normalProb Q C x := by
  have hpos : 0 < |T.det| := abs_pos.2 hT
  have hans : ∀ φ, answerProb Q φ x = answerProb P (T.mulVec φ + μ) x := fun φ =>
    Finset.prod_congr rfl fun j _ => h φ j cats[j] (x j) (List.getElem?_eq_getElem j.2) (Finset.mem_range.1 (Fintype.mem_piFinset.1 hx j))
  unfold normalProbAt normalProb
  have e1 : (fun θ : Fin d → ℝ => Real.exp (mvnLogDensity μ (T * C * T.transpose) θ) * answerProb P θ x)
      = fun θ => (fun z => Real.exp (mvnLogDensity 0 (T * C * T.transpose) z) * answerProb P (z + μ) x) (θ - μ) := by
    funext θ
    rw [mvn_shift]
    simp only [sub_add_cancel]
  rw [e1, integral_sub_right_eq_self (fun z => Real.exp (mvnLogDensity 0 (T * C * T.transpose) z) * answerProb P (z + μ) x) μ]
  have e2 : (fun φ : Fin d → ℝ => Real.exp (mvnLogDensity 0 C φ) * answerProb Q φ x)
      = fun φ => |T.det| * (fun z => Real.exp (mvnLogDensity 0 (T * C * T.transpose) z) * answerProb P (z + μ) x) (T.mulVec φ) := by
    funext φ
    rw [hans, mvn_newScale hT C hC, Real.exp_add, Real.exp_log hpos]
    simp only [oldScores, add_zero]
    ring
  rw [e2, integral_const_mul, integral_comp_matrix T hT (fun z => Real.exp (mvnLogDensity 0 (T * C * T.transpose) z) * answerProb P (z + μ) x), ← mul_assoc, mul_inv_cancel₀ hpos.ne', one_mul]

theorem sampleProb_population (h : SameOnNewScale cats T μ P Q) (hT : T.det ≠ 0) {C : Matrix (Fin d) (Fin d) ℝ} (hC : C.PosDef)
    {N : ℕ} {s : Fin N → Fin cats.length → ℕ} (hs : s ∈ samples N cats) :
    sampleProb (normalProbAt P μ (T * C * T.transpose)) s = sampleProb (normalProb Q C) s :=
  Finset.prod_congr rfl fun i _ => C153_population h hT hC (Fintype.mem_piFinset.1 hs i)

end Scale

section Fit

variable {d : ℕ} {cats : List ℕ} {hg : ℕ → Except PyErr (List ℝ × List ℝ)} (hrules : ExactRules hg)
  {ch : Matrix (Fin d) (Fin d) ℝ → Except PyErr (Matrix (Fin d) (Fin d) ℝ)} (cov : Option CovArg)
  {C L : Matrix (Fin d) (Fin d) ℝ}
  (hC : cov = none ∧ C = 1 ∨ ∃ c, cov = some c ∧ c.rows = d ∧ c.cols = d ∧ C = Matrix.of fun i j : Fin d => c.entry i j)
  (hCpos : C.PosDef) (hL : ch C = .ok L) (hchol : IsCholesky C L)
  {T : Matrix (Fin d) (Fin d) ℝ} (hT : T.det ≠ 0) {μ : Fin d → ℝ}

include hrules hC hCpos hL hchol hT in
/-- C153: the population need not have the mean zero and the covariance assumed by the fit. With enough points and respondents, fits that are not worse
than the model that says on the scale of the fit what the true model says on its own scale give the distribution of the answers of the actual
population. -/
theorem C153_consistent {m : Scorer d} {P Q : (Fin d → ℝ) → ℕ → ℕ → ℝ} (hm : IsScorer m cats Q) (hpos : PositiveProbs Q cats)
    (hP : ProperProbs Q cats) (hcont : ContinuousProbs Q) (hle : ∀ θ j r, Q θ j r ≤ 1) (hsame : SameOnNewScale cats T μ P Q)
    (ε : ℝ) (hε : 0 < ε) :
    ∃ n₀ : ℕ, 1 ≤ n₀ ∧ ∀ risk : ℝ, 0 < risk → ∃ N₀ : ℕ, ∀ n, n₀ ≤ n → ∀ N, N₀ ≤ N →
      ∀ pts lw, mmlIntegration hg ch "gauss_hermite" (some n) cov = .ok (pts, lw) →
      ∀ (fit : (Fin N → Fin cats.length → ℕ) → Scorer d) (P' : (Fin N → Fin cats.length → ℕ) → (Fin d → ℝ) → ℕ → ℕ → ℝ),
      (∀ s ∈ samples N cats, IsScorer (fit s) cats (P' s) ∧ PositiveProbs (P' s) cats ∧ ProperProbs (P' s) cats ∧
        ∃ L L' : ℝ, mmlLoss m (rowsOf N cats.length (sampleCells s)) pts lw = .ok (some L) ∧
          mmlLoss (fit s) (rowsOf N cats.length (sampleCells s)) pts lw = .ok (some L') ∧ L' ≤ L) →
      ∀ far : Finset (Fin N → Fin cats.length → ℕ), far ⊆ samples N cats →
        (∀ s ∈ far, ε ≤ patternDistance cats (populationProb (P' s) pts (lw.map Real.exp)) (normalProbAt P μ (T * C * T.transpose))) →
        ∑ s ∈ far, sampleProb (normalProbAt P μ (T * C * T.transpose)) s ≤ risk := by
  obtain ⟨n₀, h1, h⟩ := C151_consistent (A := Unit) (fun _ => m) (fun _ => Q) (fun _ => hm) (fun _ => hpos) (fun _ => hP)
    (fun j r => (hcont j r).comp continuous_snd) (fun _ => hle) hrules cov hC hCpos hL hchol () ε hε
  refine ⟨n₀, h1, fun risk hrisk => ?_⟩
  obtain ⟨N₀, hN₀⟩ := h risk hrisk
  refine ⟨N₀, fun n hn N hN pts lw hok fit P' hfit far hfar hbad => ?_⟩
  rw [Finset.sum_congr rfl fun s hs => sampleProb_population hsame hT hCpos (hfar hs)]
  refine hN₀ n hn N hN pts lw hok fit P' hfit far hfar fun s hs => (hbad s hs).trans (le_of_eq ?_)
  unfold patternDistance
  exact Finset.sum_congr rfl fun x hx => by rw [C153_population hsame hT hCpos hx]

include hrules hC hCpos hL hchol hT in
/-- C153: in a family whose parameters are determined by the distribution of the answers, the estimates come to the parameters on the scale of
the fit. -/
theorem C153_parameters {A : Type*} [TopologicalSpace A] [FirstCountableTopology A] (m : A → Scorer d) (P : A → (Fin d → ℝ) → ℕ → ℕ → ℝ)
    (hm : ∀ a, IsScorer (m a) cats (P a)) (hpos : ∀ a, PositiveProbs (P a) cats) (hP : ∀ a, ProperProbs (P a) cats)
    (hcont : ∀ j r, Continuous fun p : A × (Fin d → ℝ) => P p.1 p.2 j r) (hle : ∀ a θ j r, P a θ j r ≤ 1)
    (K : Set A) (hK : IsCompact K) (η η₀ : A) (hsame : SameOnNewScale cats T μ (P η) (P η₀))
    (hident : ∀ η ∈ K, (∀ x ∈ fullAnswers cats, normalProb (P η) C x = normalProb (P η₀) C x) → η = η₀)
    (U : Set A) (hU : IsOpen U) (hU₀ : η₀ ∈ U) :
    ∃ n₀ : ℕ, 1 ≤ n₀ ∧ ∀ risk : ℝ, 0 < risk → ∃ N₀ : ℕ, ∀ n, n₀ ≤ n → ∀ N, N₀ ≤ N →
      ∀ pts lw, mmlIntegration hg ch "gauss_hermite" (some n) cov = .ok (pts, lw) →
      ∀ estimate : (Fin N → Fin cats.length → ℕ) → A,
      (∀ s ∈ samples N cats, estimate s ∈ K ∧
        ∃ L L' : ℝ, mmlLoss (m η₀) (rowsOf N cats.length (sampleCells s)) pts lw = .ok (some L) ∧
          mmlLoss (m (estimate s)) (rowsOf N cats.length (sampleCells s)) pts lw = .ok (some L') ∧ L' ≤ L) →
      ∀ far : Finset (Fin N → Fin cats.length → ℕ), far ⊆ samples N cats → (∀ s ∈ far, estimate s ∉ U) →
        ∑ s ∈ far, sampleProb (normalProbAt (P η) μ (T * C * T.transpose)) s ≤ risk := by
  obtain ⟨n₀, h1, h⟩ := C151_parameters m P hm hpos hP hcont hle hrules cov hC hCpos hL hchol K hK η₀ hident U hU hU₀
  refine ⟨n₀, h1, fun risk hrisk => ?_⟩
  obtain ⟨N₀, hN₀⟩ := h risk hrisk
  refine ⟨N₀, fun n hn N hN pts lw hok estimate hest far hfar hbad => ?_⟩
  rw [Finset.sum_congr rfl fun s hs => sampleProb_population hsame hT hCpos (hfar hs)]
  exact hN₀ n hn N hN pts lw hok estimate hest far hfar hbad

end Fit

/-! ## The generalized partial credit model -/

theorem GPC.table_le_one (m : GPC) (hwf : m.WF) {d : ℕ} (θ : Fin d → ℝ) (j r : ℕ) : tableProb (m.probs (List.ofFn θ)) j r ≤ 1 := by
  by_cases hr : ∃ n, m.cats[j]? = some n ∧ r < n
  · obtain ⟨n, hn, hrn⟩ := hr
    exact (m.logitModel hwf d).logConcave.le_one θ j n r hn hrn
  · have hp := isTable_gpc m hwf (List.ofFn θ)
    unfold tableProb
    cases hj : (m.probs (List.ofFn θ))[j]? with
    | none => exact zero_le_one
    | some row =>
      obtain ⟨n, hn⟩ := getElem?_of_lt m.cats j (by rw [← hp.1]; exact lt_of_getElem?_some hj)
      have hd := hp.2 j row n hj hn
      have hnr : n ≤ r := by
        by_contra hlt
        exact hr ⟨n, hn, by omega⟩
      rw [Option.bind_some]
      by_cases hrM : r < m.M
      · rw [hd.missing r hnr hrM]; exact zero_le_one
      · rw [List.getElem?_eq_none (by rw [hd.length]; omega)]; exact zero_le_one

/-- C153 for the generalized partial credit model: there is a partial credit model with the slopes multiplied by the units of the population and the same
probabilities for the same respondents, and fits that are not worse than it give the distribution of the answers of the population. -/
theorem C153_gpc (m : GPC) (hwf : m.WF) (hne : m.cats ≠ []) {hg : ℕ → Except PyErr (List ℝ × List ℝ)} (hrules : ExactRules hg)
    {ch : Matrix (Fin m.lv) (Fin m.lv) ℝ → Except PyErr (Matrix (Fin m.lv) (Fin m.lv) ℝ)} (cov : Option CovArg)
    {C L : Matrix (Fin m.lv) (Fin m.lv) ℝ}
    (hC : cov = none ∧ C = 1 ∨ ∃ c, cov = some c ∧ c.rows = m.lv ∧ c.cols = m.lv ∧ C = Matrix.of fun i j : Fin m.lv => c.entry i j)
    (hCpos : C.PosDef) (hL : ch C = .ok L) (hchol : IsCholesky C L)
    (T : Matrix (Fin m.lv) (Fin m.lv) ℝ) (hrel : RespectsRelations m.rel T) (hT : T.det ≠ 0) (μ : Fin m.lv → ℝ) :
    ∃ q : GPC, q.WF ∧ q.lv = m.lv ∧ q.cats = m.cats ∧ q.rel = m.rel ∧
      (∀ (j : ℕ) (k : Fin m.lv), j < m.cats.length → slopeOf q.itemParameters j k = ∑ l : Fin m.lv, slopeOf m.itemParameters j l * T l k) ∧
      SameOnNewScale m.cats T μ (fun θ => tableProb (m.probs (List.ofFn θ))) (fun θ => tableProb (q.probs (List.ofFn θ))) ∧
      ∀ ε : ℝ, 0 < ε → ∃ n₀ : ℕ, 1 ≤ n₀ ∧ ∀ risk : ℝ, 0 < risk → ∃ N₀ : ℕ, ∀ n, n₀ ≤ n → ∀ N, N₀ ≤ N →
        ∀ pts lw, mmlIntegration hg ch "gauss_hermite" (some n) cov = .ok (pts, lw) →
        ∀ fit : (Fin N → Fin m.cats.length → ℕ) → GPC,
        (∀ s ∈ samples N m.cats, (fit s).WF ∧ (fit s).cats = m.cats ∧
          ∃ L L' : ℝ, mmlLoss (q.scorer m.lv) (rowsOf N m.cats.length (sampleCells s)) pts lw = .ok (some L) ∧
            mmlLoss ((fit s).scorer m.lv) (rowsOf N m.cats.length (sampleCells s)) pts lw = .ok (some L') ∧ L' ≤ L) →
        ∀ far : Finset (Fin N → Fin m.cats.length → ℕ), far ⊆ samples N m.cats →
          (∀ s ∈ far, ε ≤ patternDistance m.cats (populationProb (fun θ : Fin m.lv → ℝ => tableProb ((fit s).probs (List.ofFn θ))) pts
            (lw.map Real.exp)) (normalProbAt (fun θ : Fin m.lv → ℝ => tableProb (m.probs (List.ofFn θ))) μ (T * C * T.transpose))) →
          ∑ s ∈ far, sampleProb (normalProbAt (fun θ : Fin m.lv → ℝ => tableProb (m.probs (List.ofFn θ))) μ (T * C * T.transpose)) s ≤ risk := by
  obtain ⟨q, hq, hlv, hcats, hr, hslope, hsame⟩ := C143_gpc m hwf T hrel μ
  refine ⟨q, hq, hlv, hcats, hr, hslope, hsame, fun ε hε => ?_⟩
  have sc : ∀ p : GPC, p.WF → p.cats = m.cats → IsScorer (p.scorer m.lv) m.cats (fun θ : Fin m.lv → ℝ => tableProb (p.probs (List.ofFn θ))) ∧
      PositiveProbs (fun θ : Fin m.lv → ℝ => tableProb (p.probs (List.ofFn θ))) m.cats ∧
      ProperProbs (fun θ : Fin m.lv → ℝ => tableProb (p.probs (List.ofFn θ))) m.cats := by
    intro p hp hpc
    have h1 := p.isScorer hp (by rw [hpc]; exact hne) m.lv
    have h2 := p.positive hp m.lv
    have h3 : ProperProbs (fun θ : Fin m.lv → ℝ => tableProb (p.probs (List.ofFn θ))) p.cats :=
      properProbs_of_isTable fun θ => isTable_gpc p hp (List.ofFn θ)
    rw [hpc] at h1 h2 h3
    exact ⟨h1, h2, h3⟩
  obtain ⟨g1, g2, g3⟩ := sc q hq hcats
  obtain ⟨n₀, h1, h⟩ := C153_consistent hrules cov hC hCpos hL hchol hT g1 g2 g3 (fun j r => (q.differentiable hq j r).continuous)
    (fun θ j r => q.table_le_one hq θ j r) hsame ε hε
  refine ⟨n₀, h1, fun risk hrisk => ?_⟩
  obtain ⟨N₀, hN₀⟩ := h risk hrisk
  refine ⟨N₀, fun n hn N hN pts lw hok fit hfit far hfar hbad => hN₀ n hn N hN pts lw hok (fun s => (fit s).scorer m.lv)
    (fun s θ => tableProb ((fit s).probs (List.ofFn θ))) (fun s hs => ?_) far hfar hbad⟩
  obtain ⟨f1, f2, f3⟩ := hfit s hs
  obtain ⟨k1, k2, k3⟩ := sc (fit s) f1 f2
  exact ⟨k1, k2, k3, f3⟩

/-! ## The 1PL model: means of groups and items that work differently -/

theorem onePLWith_shift {items : ℕ} (b : Fin items → ℝ) (μ : ℝ) :
    SameOnNewScale (List.replicate items 2) (1 : Matrix (Fin 1) (Fin 1) ℝ) (fun _ => μ) (fun θ => tableProb ((onePLWith b).probs (θ 0)))
      (fun θ => tableProb ((onePLWith fun j => b j + μ).probs (θ 0))) := by
  intro φ j c r _ _
  simp only [onePLWith_prob, oldScores, Matrix.one_mulVec, Pi.add_apply]
  by_cases hj : j < items
  · simp only [dif_pos hj, show φ 0 + (b ⟨j, hj⟩ + μ) = φ 0 + μ + b ⟨j, hj⟩ by ring]
  · simp only [dif_neg hj]

/-- C153 for the 1PL model: calibrated with respondents whose latent variable has mean `μ` and variance one, the intercepts come to the true ones plus
`μ`. -/
theorem C153_onePL {items : ℕ} (hitems : 0 < items) (β : ℝ) {hg : ℕ → Except PyErr (List ℝ × List ℝ)} (hrules : ExactRules hg)
    {ch : Matrix (Fin 1) (Fin 1) ℝ → Except PyErr (Matrix (Fin 1) (Fin 1) ℝ)} {L : Matrix (Fin 1) (Fin 1) ℝ}
    (hL : ch 1 = .ok L) (hchol : IsCholesky 1 L) (b₀ : Fin items → ℝ) (μ : ℝ) (ε : ℝ) (hε : 0 < ε) :
    ∃ n₀ : ℕ, 1 ≤ n₀ ∧ ∀ risk : ℝ, 0 < risk → ∃ N₀ : ℕ, ∀ n, n₀ ≤ n → ∀ N, N₀ ≤ N →
      ∀ pts lw, mmlIntegration hg ch "gauss_hermite" (some n) none = .ok (pts, lw) →
      ∀ estimate : (Fin N → Fin (List.replicate items 2).length → ℕ) → Fin items → ℝ,
      (∀ s ∈ samples N (List.replicate items 2), (∀ j, |estimate s j| ≤ β) ∧
        ∃ L L' : ℝ, mmlLoss (onePLWith fun j => b₀ j + μ).scorer (rowsOf N (List.replicate items 2).length (sampleCells s)) pts lw = .ok (some L) ∧
          mmlLoss (onePLWith (estimate s)).scorer (rowsOf N (List.replicate items 2).length (sampleCells s)) pts lw = .ok (some L') ∧ L' ≤ L) →
      ∀ far : Finset (Fin N → Fin (List.replicate items 2).length → ℕ), far ⊆ samples N (List.replicate items 2) →
        (∀ s ∈ far, ∃ j, ε ≤ |estimate s j - (b₀ j + μ)|) →
        ∑ s ∈ far, sampleProb (normalProbAt (fun θ : Fin 1 → ℝ => tableProb ((onePLWith b₀).probs (θ 0))) (fun _ => μ) 1) s ≤ risk := by
  obtain ⟨n₀, h1, h⟩ := C151_onePL hitems β hrules hL hchol (fun j => b₀ j + μ) ε hε
  refine ⟨n₀, h1, fun risk hrisk => ?_⟩
  obtain ⟨N₀, hN₀⟩ := h risk hrisk
  refine ⟨N₀, fun n hn N hN pts lw hok estimate hest far hfar hbad => ?_⟩
  have e : (1 : Matrix (Fin 1) (Fin 1) ℝ) * 1 * (1 : Matrix (Fin 1) (Fin 1) ℝ).transpose = 1 := by simp
  refine (le_of_eq (Finset.sum_congr rfl fun s hs => ?_)).trans (hN₀ n hn N hN pts lw hok estimate hest far hfar hbad)
  have := sampleProb_population (onePLWith_shift b₀ μ) (by simp) Matrix.PosDef.one (hfar hs)
  rwa [e] at this

/-- The probabilities of all samples add up to one. -/
theorem sampleProb_total {cats : List ℕ} (p : (Fin cats.length → ℕ) → ℝ) (hp : ∑ x ∈ fullAnswers cats, p x = 1) (N : ℕ) :
    ∑ s ∈ samples N cats, sampleProb p s = 1 := by
  unfold samples sampleProb
  rw [Finset.sum_prod_piFinset (fullAnswers cats) fun _ : Fin N => p]
  simp [hp]

/-- C153: two groups, calibrated separately. The groups have means `μ₁` and `μ₂` and may find the items differently hard (`b₁` and `b₂`). With enough points
and respondents in both groups the differences of the estimated intercepts are close to the difference of the means plus the difference of
the item's true intercepts, but for a risk as small as one likes. If all items work alike in the groups, every item shows the difference of
the means; two items show different differences only if one of them works differently. -/
theorem C153_two_groups {items : ℕ} (hitems : 0 < items) (β : ℝ) {hg : ℕ → Except PyErr (List ℝ × List ℝ)} (hrules : ExactRules hg)
    {ch : Matrix (Fin 1) (Fin 1) ℝ → Except PyErr (Matrix (Fin 1) (Fin 1) ℝ)} {L : Matrix (Fin 1) (Fin 1) ℝ}
    (hL : ch 1 = .ok L) (hchol : IsCholesky 1 L) (b₁ b₂ : Fin items → ℝ) (μ₁ μ₂ : ℝ) (ε : ℝ) (hε : 0 < ε) :
    ∃ n₀ : ℕ, 1 ≤ n₀ ∧ ∀ risk : ℝ, 0 < risk → ∃ N₀ : ℕ, ∀ n, n₀ ≤ n → ∀ N₁, N₀ ≤ N₁ → ∀ N₂, N₀ ≤ N₂ →
      ∀ pts lw, mmlIntegration hg ch "gauss_hermite" (some n) none = .ok (pts, lw) →
      ∀ (est₁ : (Fin N₁ → Fin (List.replicate items 2).length → ℕ) → Fin items → ℝ)
        (est₂ : (Fin N₂ → Fin (List.replicate items 2).length → ℕ) → Fin items → ℝ),
      (∀ s ∈ samples N₁ (List.replicate items 2), (∀ j, |est₁ s j| ≤ β) ∧
        ∃ L L' : ℝ, mmlLoss (onePLWith fun j => b₁ j + μ₁).scorer (rowsOf N₁ (List.replicate items 2).length (sampleCells s)) pts lw = .ok (some L) ∧
          mmlLoss (onePLWith (est₁ s)).scorer (rowsOf N₁ (List.replicate items 2).length (sampleCells s)) pts lw = .ok (some L') ∧ L' ≤ L) →
      (∀ t ∈ samples N₂ (List.replicate items 2), (∀ j, |est₂ t j| ≤ β) ∧
        ∃ L L' : ℝ, mmlLoss (onePLWith fun j => b₂ j + μ₂).scorer (rowsOf N₂ (List.replicate items 2).length (sampleCells t)) pts lw = .ok (some L) ∧
          mmlLoss (onePLWith (est₂ t)).scorer (rowsOf N₂ (List.replicate items 2).length (sampleCells t)) pts lw = .ok (some L') ∧ L' ≤ L) →
      ∀ far ⊆ samples N₁ (List.replicate items 2) ×ˢ samples N₂ (List.replicate items 2),
        (∀ st ∈ far, ∃ j, ε ≤ |(est₂ st.2 j - est₁ st.1 j) - ((μ₂ - μ₁) + (b₂ j - b₁ j))|) →
        ∑ st ∈ far, sampleProb (normalProbAt (fun θ : Fin 1 → ℝ => tableProb ((onePLWith b₁).probs (θ 0))) (fun _ => μ₁) 1) st.1
          * sampleProb (normalProbAt (fun θ : Fin 1 → ℝ => tableProb ((onePLWith b₂).probs (θ 0))) (fun _ => μ₂) 1) st.2 ≤ risk := by
  classical
  obtain ⟨n₁, h1, h⟩ := C153_onePL hitems β hrules hL hchol b₁ μ₁ (ε / 2) (by linarith)
  obtain ⟨n₂, h1', h'⟩ := C153_onePL hitems β hrules hL hchol b₂ μ₂ (ε / 2) (by linarith)
  refine ⟨max n₁ n₂, h1.trans (le_max_left _ _), fun risk hrisk => ?_⟩
  obtain ⟨k₁, hk₁⟩ := h (risk / 2) (by linarith)
  obtain ⟨k₂, hk₂⟩ := h' (risk / 2) (by linarith)
  refine ⟨max k₁ k₂, fun n hn N₁ hN₁ N₂ hN₂ pts lw hok est₁ est₂ hest₁ hest₂ far hfar hbad => ?_⟩
  have hpop : ∀ (b : Fin items → ℝ) (μ : ℝ), ∃ p : (Fin (List.replicate items 2).length → ℕ) → ℝ,
      (∀ x ∈ fullAnswers (List.replicate items 2), 0 ≤ p x) ∧ ∑ x ∈ fullAnswers (List.replicate items 2), p x = 1 ∧
      ∀ x ∈ fullAnswers (List.replicate items 2), normalProbAt (fun θ : Fin 1 → ℝ => tableProb ((onePLWith b).probs (θ 0))) (fun _ => μ) 1 x = p x := by
    intro b μ
    have hc : ContinuousProbs fun θ : Fin 1 → ℝ => tableProb ((onePLWith fun j => b j + μ).probs (θ 0)) := fun j r =>
      (onePLWith_jointly j r).comp (by fun_prop : Continuous fun θ : Fin 1 → ℝ => ((fun j => b j + μ), θ))
    have h0 := ((onePLWith fun j => b j + μ).isScorer (onePLWith_wf _) hitems).nonneg
    have h2 : ∀ (θ : Fin 1 → ℝ) j r, tableProb ((onePLWith fun j => b j + μ).probs (θ 0)) j r ≤ 1 := fun θ j r => onePLWith_le_one _ _ j r
    refine ⟨normalProb (fun θ : Fin 1 → ℝ => tableProb ((onePLWith fun j => b j + μ).probs (θ 0))) 1,
      fun x hx => (normalProb_pos ((onePLWith _).positive (onePLWith_wf _)) hc h0 h2 Matrix.PosDef.one hx).le,
      normalProb_sum (onePLWith_proper _) hc h0 h2 Matrix.PosDef.one, fun x hx => ?_⟩
    have := C153_population (onePLWith_shift b μ) (by simp) Matrix.PosDef.one hx
    simpa using this
  have hsample : ∀ (b : Fin items → ℝ) (μ : ℝ) (N : ℕ),
      (∀ s ∈ samples N (List.replicate items 2),
        0 ≤ sampleProb (normalProbAt (fun θ : Fin 1 → ℝ => tableProb ((onePLWith b).probs (θ 0))) (fun _ => μ) 1) s) ∧
      ∑ s ∈ samples N (List.replicate items 2),
        sampleProb (normalProbAt (fun θ : Fin 1 → ℝ => tableProb ((onePLWith b).probs (θ 0))) (fun _ => μ) 1) s = 1 := by
    intro b μ N
    obtain ⟨p, h0, hs, he⟩ := hpop b μ
    refine ⟨fun s hs => Finset.prod_nonneg fun i _ => ?_, sampleProb_total _ ?_ N⟩
    · rw [he _ (Fintype.mem_piFinset.1 hs i)]
      exact h0 _ (Fintype.mem_piFinset.1 hs i)
    · rw [← hs]
      exact Finset.sum_congr rfl he
  obtain ⟨a0, a1⟩ := hsample b₁ μ₁ N₁
  obtain ⟨c0, c1⟩ := hsample b₂ μ₂ N₂
  set w₁ : (Fin N₁ → Fin (List.replicate items 2).length → ℕ) → ℝ :=
    sampleProb (normalProbAt (fun θ : Fin 1 → ℝ => tableProb ((onePLWith b₁).probs (θ 0))) (fun _ => μ₁) 1)
  set w₂ : (Fin N₂ → Fin (List.replicate items 2).length → ℕ) → ℝ :=
    sampleProb (normalProbAt (fun θ : Fin 1 → ℝ => tableProb ((onePLWith b₂).probs (θ 0))) (fun _ => μ₂) 1)
  set F₁ := (samples N₁ (List.replicate items 2)).filter fun s => ∃ j, ε / 2 ≤ |est₁ s j - (b₁ j + μ₁)|
  set F₂ := (samples N₂ (List.replicate items 2)).filter fun t => ∃ j, ε / 2 ≤ |est₂ t j - (b₂ j + μ₂)|
  have r1 : ∑ s ∈ F₁, w₁ s ≤ risk / 2 := hk₁ n ((le_max_left _ _).trans hn) N₁ ((le_max_left _ _).trans hN₁) pts lw hok est₁ hest₁ F₁
    (Finset.filter_subset _ _) fun s hs => (Finset.mem_filter.1 hs).2
  have r2 : ∑ t ∈ F₂, w₂ t ≤ risk / 2 := hk₂ n ((le_max_right _ _).trans hn) N₂ ((le_max_right _ _).trans hN₂) pts lw hok est₂ hest₂ F₂
    (Finset.filter_subset _ _) fun s hs => (Finset.mem_filter.1 hs).2
  have hsub : far ⊆ F₁ ×ˢ samples N₂ (List.replicate items 2) ∪ samples N₁ (List.replicate items 2) ×ˢ F₂ := by
    intro st hst
    obtain ⟨m1, m2⟩ := Finset.mem_product.1 (hfar hst)
    obtain ⟨j, hj⟩ := hbad st hst
    by_cases g : ε / 2 ≤ |est₁ st.1 j - (b₁ j + μ₁)|
    · exact Finset.mem_union_left _ (Finset.mem_product.2 ⟨Finset.mem_filter.2 ⟨m1, j, g⟩, m2⟩)
    · refine Finset.mem_union_right _ (Finset.mem_product.2 ⟨m1, Finset.mem_filter.2 ⟨m2, j, ?_⟩⟩)
      have e : (est₂ st.2 j - est₁ st.1 j) - ((μ₂ - μ₁) + (b₂ j - b₁ j)) = (est₂ st.2 j - (b₂ j + μ₂)) - (est₁ st.1 j - (b₁ j + μ₁)) := by ring
      rw [e] at hj
      have := hj.trans (abs_sub _ _)
      linarith
  have hnn : ∀ st ∈ F₁ ×ˢ samples N₂ (List.replicate items 2) ∪ samples N₁ (List.replicate items 2) ×ˢ F₂, 0 ≤ w₁ st.1 * w₂ st.2 := by
    intro st hst
    rcases Finset.mem_union.1 hst with g | g <;> obtain ⟨g1, g2⟩ := Finset.mem_product.1 g
    · exact mul_nonneg (a0 _ (Finset.filter_subset _ _ g1)) (c0 _ g2)
    · exact mul_nonneg (a0 _ g1) (c0 _ (Finset.filter_subset _ _ g2))
  have q1 : ∑ st ∈ F₁ ×ˢ samples N₂ (List.replicate items 2), w₁ st.1 * w₂ st.2 = ∑ s ∈ F₁, w₁ s := by
    rw [Finset.sum_product, ← Finset.sum_mul_sum, c1, mul_one]
  have q2 : ∑ st ∈ samples N₁ (List.replicate items 2) ×ˢ F₂, w₁ st.1 * w₂ st.2 = ∑ t ∈ F₂, w₂ t := by
    rw [Finset.sum_product, ← Finset.sum_mul_sum, a1, one_mul]
  have hun := Finset.sum_union_inter (s₁ := F₁ ×ˢ samples N₂ (List.replicate items 2)) (s₂ := samples N₁ (List.replicate items 2) ×ˢ F₂)
    (f := fun st => w₁ st.1 * w₂ st.2)
  have hint : 0 ≤ ∑ st ∈ F₁ ×ˢ samples N₂ (List.replicate items 2) ∩ samples N₁ (List.replicate items 2) ×ˢ F₂, w₁ st.1 * w₂ st.2 :=
    Finset.sum_nonneg fun st hst => hnn st (Finset.mem_union_left _ (Finset.mem_inter.1 hst).1)
  have hmono := Finset.sum_le_sum_of_subset_of_nonneg hsub fun st hst _ => hnn st hst
  linarith

/-! ## The hypotheses are met -/

/-- Two groups with means 0 and 1/2 and two items, of which the second is easier in the second group: the best estimates of size at most 5 show
the differences 1/2 and 3/2, up to a tenth and with a risk of at most 5 percent. -/
example : ∃ (hg : ℕ → Except PyErr (List ℝ × List ℝ)) (n N : ℕ) (pts : Thetas 1) (lw : List ℝ)
    (est : (Fin N → Fin (List.replicate 2 2).length → ℕ) → Fin 2 → ℝ),
      mmlIntegration hg (fun _ => .ok (1 : Matrix (Fin 1) (Fin 1) ℝ)) "gauss_hermite" (some n) none = .ok (pts, lw) ∧
      ∀ far ⊆ samples N (List.replicate 2 2) ×ˢ samples N (List.replicate 2 2),
        (∀ st ∈ far, ∃ j, 1 / 10 ≤ |(est st.2 j - est st.1 j) - ((1 / 2 - 0) + ((![0, 2] : Fin 2 → ℝ) j - (![0, 1] : Fin 2 → ℝ) j))|) →
        ∑ st ∈ far, sampleProb (normalProbAt (fun θ : Fin 1 → ℝ => tableProb ((onePLWith ![0, 1]).probs (θ 0))) (fun _ => 0) 1) st.1
          * sampleProb (normalProbAt (fun θ : Fin 1 → ℝ => tableProb ((onePLWith ![0, 2]).probs (θ 0))) (fun _ => 1 / 2) 1) st.2 ≤ 1 / 20 := by
  classical
  obtain ⟨hg, hrules⟩ := C141_rules_exist
  obtain ⟨n, h1, h⟩ := C153_two_groups (items := 2) two_pos 5 hrules (ch := fun _ => .ok (1 : Matrix (Fin 1) (Fin 1) ℝ)) rfl
    (by simp [IsCholesky]) ![0, 1] ![0, 2] 0 (1 / 2) (1 / 10) (by norm_num)
  obtain ⟨N, hN⟩ := h (1 / 20) (by norm_num)
  obtain ⟨x, w, hx, hexact⟩ := hrules n h1
  obtain ⟨pts, lw, hok, hl, hne, _⟩ := integration_rule (ch := fun _ => .ok (1 : Matrix (Fin 1) (Fin 1) ℝ)) none (Or.inl ⟨rfl, rfl⟩) rfl h1 hx hexact
  choose! est hb hmin using C133_onePL_exists (items := 2) two_pos pts lw hl hne 5 (by norm_num) N
  refine ⟨hg, n, N, pts, lw, est, hok, hN n le_rfl N le_rfl N le_rfl pts lw hok est est (fun s hs => ⟨hb s hs, ?_⟩) fun s hs => ⟨hb s hs, ?_⟩⟩
  all_goals obtain ⟨L', hL', hbest⟩ := hmin s hs
  · obtain ⟨L, hL, hle⟩ := hbest (fun j => (![0, 1] : Fin 2 → ℝ) j + 0) fun j => by fin_cases j <;> norm_num
    exact ⟨L, L', hL, hL', hle⟩
  · obtain ⟨L, hL, hle⟩ := hbest (fun j => (![0, 2] : Fin 2 → ℝ) j + 1 / 2) fun j => by
      fin_cases j
      · norm_num [abs_of_pos]
      · norm_num [abs_of_pos]
    exact ⟨L, L', hL, hL', hle⟩

/-- Two items on two latent variables whose means are 1 and -1 and whose covariance is that of the units of the example of C143. -/
example : ∃ (hg : ℕ → Except PyErr (List ℝ × List ℝ)) (q : GPC) (n N : ℕ) (pts : Thetas exGPC.lv) (lw : List ℝ),
    mmlIntegration hg (fun _ => .ok (1 : Matrix (Fin exGPC.lv) (Fin exGPC.lv) ℝ)) "gauss_hermite" (some n) none = .ok (pts, lw) ∧
    ∀ far : Finset (Fin N → Fin exGPC.cats.length → ℕ), far ⊆ samples N exGPC.cats →
      (∀ s ∈ far, 1 / 10 ≤ patternDistance exGPC.cats (populationProb (fun θ : Fin exGPC.lv → ℝ => tableProb (q.probs (List.ofFn θ))) pts
        (lw.map Real.exp)) (normalProbAt (fun θ : Fin exGPC.lv → ℝ => tableProb (exGPC.probs (List.ofFn θ))) ![1, -1]
          (exUnits * 1 * exUnits.transpose))) →
      ∑ s ∈ far, sampleProb (normalProbAt (fun θ : Fin exGPC.lv → ℝ => tableProb (exGPC.probs (List.ofFn θ))) ![1, -1]
        (exUnits * 1 * exUnits.transpose)) s ≤ 1 / 20 := by
  obtain ⟨hg, hrules⟩ := C141_rules_exist
  obtain ⟨q, hq, _, hcats, _, _, _, h⟩ := C153_gpc exGPC exGPC_wf (by simp [exGPC]) hrules
    (ch := fun _ => .ok (1 : Matrix (Fin exGPC.lv) (Fin exGPC.lv) ℝ)) none (Or.inl ⟨rfl, rfl⟩) Matrix.PosDef.one rfl (by simp [IsCholesky])
    exUnits exUnits_respects exUnits_det ![1, -1]
  obtain ⟨n, h1, h⟩ := h (1 / 10) (by norm_num)
  obtain ⟨N, hN⟩ := h (1 / 20) (by norm_num)
  obtain ⟨x, w, hx, hexact⟩ := hrules n h1
  obtain ⟨pts, lw, hok, hl, hne, _⟩ := integration_rule (d := exGPC.lv) (ch := fun _ => .ok (1 : Matrix (Fin exGPC.lv) (Fin exGPC.lv) ℝ)) none
    (Or.inl ⟨rfl, rfl⟩) rfl h1 hx hexact
  refine ⟨hg, q, n, N, pts, lw, hok, hN n le_rfl N le_rfl pts lw hok (fun _ => q) fun s hs => ⟨hq, hcats, ?_⟩⟩
  have g1 := q.isScorer hq (by rw [hcats]; simp [exGPC]) exGPC.lv
  have g2 := q.positive hq exGPC.lv
  rw [hcats] at g1 g2
  exact ⟨_, _, sample_loss g1 g2 pts lw hl hne hs, sample_loss g1 g2 pts lw hl hne hs, le_rfl⟩

end Irt
