import Verif.Props.NormalPopulation
import Verif.Props.EapStability
import Verif.Props.LongTestsLogit
import Verif.Props.Stability

/-! # C152: scores of a model that was fitted to many respondents -/

namespace Irt
open Spec MeasureTheory Filter Topology

/-! ## Models with parameters near the true ones are close at the points of a grid -/

theorem closeOn_nearby {A : Type*} [TopologicalSpace A] {d : ℕ} {cats : List ℕ} (P : A → (Fin d → ℝ) → ℕ → ℕ → ℝ)
    (hpos : ∀ a, PositiveProbs (P a) cats) (hcont : ∀ j r, Continuous fun p : A × (Fin d → ℝ) => P p.1 p.2 j r) (grid : List (Fin d → ℝ))
    (η₀ : A) (δ : ℝ) (hδ : 0 < δ) : ∀ᶠ η in 𝓝 η₀, CloseOn grid cats (P η₀) (P η) δ := by
  have h : ∀ᶠ η in 𝓝 η₀, ∀ θ ∈ {θ | θ ∈ grid}, ∀ j ∈ Finset.range cats.length, ∀ r ∈ Finset.range (cats.getD j 0),
      |Real.log (P η₀ θ j r) - Real.log (P η θ j r)| < δ := by
    refine (eventually_all_finite (List.finite_toSet grid)).2 fun θ _ => ?_
    refine (eventually_all_finset _).2 fun j hj => (eventually_all_finset _).2 fun r hr => ?_
    have hp : 0 < P η₀ θ j r := by
      obtain ⟨c, hc⟩ := getElem?_of_lt cats j (Finset.mem_range.1 hj)
      refine hpos η₀ θ j c r hc ?_
      rwa [Finset.mem_range, List.getD_eq_getElem?_getD, hc, Option.getD_some] at hr
    have h1 : Tendsto (fun η => P η θ j r) (𝓝 η₀) (𝓝 (P η₀ θ j r)) :=
      ((hcont j r).comp (by fun_prop : Continuous fun η : A => (η, θ))).tendsto η₀
    have h2 := ((h1.log hp.ne').const_sub (Real.log (P η₀ θ j r))).abs
    rw [sub_self, abs_zero] at h2
    exact h2.eventually_lt_const hδ
  filter_upwards [h] with η hη θ hθ j c r hc hr
  exact (hη θ hθ j (Finset.mem_range.2 (lt_of_getElem?_some hc)) r (by
    rw [Finset.mem_range, List.getD_eq_getElem?_getD, hc, Option.getD_some]; exact hr)).le

section Family

variable {A : Type*} [TopologicalSpace A] {d : ℕ} {cats : List ℕ} (m : A → Scorer d) (P : A → (Fin d → ℝ) → ℕ → ℕ → ℝ)
  (hm : ∀ a, IsScorer (m a) cats (P a)) (hpos : ∀ a, PositiveProbs (P a) cats) (hP : ∀ a, ProperProbs (P a) cats)
  (hcont : ∀ j r, Continuous fun p : A × (Fin d → ℝ) => P p.1 p.2 j r) (hle : ∀ a θ j r, P a θ j r ≤ 1)
  {hg : ℕ → Except PyErr (List ℝ × List ℝ)} (hrules : ExactRules hg)
  {ch : Matrix (Fin d) (Fin d) ℝ → Except PyErr (Matrix (Fin d) (Fin d) ℝ)} (cov : Option CovArg)
  {C L : Matrix (Fin d) (Fin d) ℝ}
  (hC : cov = none ∧ C = 1 ∨ ∃ c, cov = some c ∧ c.rows = d ∧ c.cols = d ∧ C = Matrix.of fun i j : Fin d => c.entry i j)
  (hCpos : C.PosDef) (hL : ch C = .ok L) (hchol : IsCholesky C L)

include hm hpos hcont in
/-- C152: for every grid there is a neighbourhood of the true parameters in which the EAP scores of all respondents, whatever they
answered or left out, differ by less than `ε` from those of the true model. -/
theorem C152_neighbourhood (a : AlgAttrs d) (hd : d ≤ 4) (points : Option ℕ) (grid : Thetas d) (hgne : grid ≠ [])
    (gcov : Matrix (Fin d) (Fin d) ℝ) (hgcov : gcov.PosDef) (hgrid : eapGrid a (points.getD (eapDefaultPoints d)) = .ok (grid, gcov))
    (η₀ : A) (ε : ℝ) (hε : 0 < ε) :
    ∃ U : Set A, IsOpen U ∧ η₀ ∈ U ∧ ∀ η ∈ U, ∀ row, ValidResponses cats row →
      ∃ e e' : Fin d → ℝ, eapScores (m η₀) a (rowsOf 1 cats.length fun _ => row) points = .ok [some e] ∧
        eapScores (m η) a (rowsOf 1 cats.length fun _ => row) points = .ok [some e'] ∧ ∀ k, |e k - e' k| < ε := by
  obtain ⟨R, hR0, hR⟩ : ∃ R : ℝ, 0 < R ∧ ∀ θ ∈ grid, ∀ k, |θ k| ≤ R := by
    clear hgne hgrid
    induction grid with
    | nil => exact ⟨1, one_pos, by simp⟩
    | cons q g ih =>
      obtain ⟨R, h0, h⟩ := ih
      refine ⟨R + ∑ k, |q k|, by positivity, fun θ hθ k => ?_⟩
      rcases List.mem_cons.1 hθ with rfl | hθ
      · have := Finset.single_le_sum (f := fun k => |θ k|) (fun _ _ => abs_nonneg _) (Finset.mem_univ k)
        linarith
      · have : 0 ≤ ∑ k, |q k| := Finset.sum_nonneg fun _ _ => abs_nonneg _
        linarith [h θ hθ k]
  set δ := ε / (4 * (cats.length + 1) * R) / 2 with hδ
  have hδ0 : 0 < δ := by positivity
  obtain ⟨U, hU, hopen, hmem⟩ := mem_nhds_iff.1 (closeOn_nearby P hpos hcont grid η₀ δ hδ0)
  refine ⟨U, hopen, hmem, fun η hη row hrow => ?_⟩
  obtain ⟨e, e', h1, h2, h3⟩ := C146_models (hm η₀) (hm η) (hpos η₀) (hpos η) a hd points grid hgne gcov hgcov hgrid δ (hU hη) row hrow
  refine ⟨e, e', h1, h2, fun k => ?_⟩
  have h4 := C146_linear (by linarith : -R ≤ R) (h3 k (-R) R fun θ hθ => abs_le.1 (hR θ hθ k))
  have hcard : ((answeredItems cats.length row).card : ℝ) ≤ cats.length := by
    have : (answeredItems cats.length row).card ≤ (Finset.range cats.length).card := Finset.card_le_card (Finset.filter_subset _ _)
    rw [Finset.card_range] at this
    exact_mod_cast this
  refine h4.trans_lt ?_
  have h5 : 2 * ((answeredItems cats.length row).card : ℝ) * δ * (R - -R) ≤ 4 * (cats.length + 1) * R * δ := by
    have : ((answeredItems cats.length row).card : ℝ) * (δ * R) ≤ (cats.length + 1) * (δ * R) :=
      mul_le_mul_of_nonneg_right (by linarith) (by positivity)
    nlinarith
  have h6 : 4 * (cats.length + 1) * R * δ = ε / 2 := by rw [hδ]; field_simp
  linarith

include hm hpos hP hcont hle hrules hC hCpos hL hchol in
/-- C152: fitting and scoring. If the parameters of a family are determined by the distribution of the answers in the normal population from
which the respondents come, then with enough integration points and enough respondents the probability that the fitted model gives any
answers, complete or not, EAP scores that differ by `ε` or more from those of the true model is as small as one likes. -/
theorem C152_scores [FirstCountableTopology A] (K : Set A) (hK : IsCompact K) (η₀ : A)
    (hident : ∀ η ∈ K, (∀ x ∈ fullAnswers cats, normalProb (P η) C x = normalProb (P η₀) C x) → η = η₀)
    (a : AlgAttrs d) (hd : d ≤ 4) (points : Option ℕ) (grid : Thetas d) (hgne : grid ≠ [])
    (gcov : Matrix (Fin d) (Fin d) ℝ) (hgcov : gcov.PosDef) (hgrid : eapGrid a (points.getD (eapDefaultPoints d)) = .ok (grid, gcov))
    (ε : ℝ) (hε : 0 < ε) :
    ∃ n₀ : ℕ, 1 ≤ n₀ ∧ ∀ risk : ℝ, 0 < risk → ∃ N₀ : ℕ, ∀ n, n₀ ≤ n → ∀ N, N₀ ≤ N →
      ∀ pts lw, mmlIntegration hg ch "gauss_hermite" (some n) cov = .ok (pts, lw) →
      ∀ estimate : (Fin N → Fin cats.length → ℕ) → A,
      (∀ s ∈ samples N cats, estimate s ∈ K ∧
        ∃ L L' : ℝ, mmlLoss (m η₀) (rowsOf N cats.length (sampleCells s)) pts lw = .ok (some L) ∧
          mmlLoss (m (estimate s)) (rowsOf N cats.length (sampleCells s)) pts lw = .ok (some L') ∧ L' ≤ L) →
      ∀ far : Finset (Fin N → Fin cats.length → ℕ), far ⊆ samples N cats →
        (∀ s ∈ far, ∃ row, ValidResponses cats row ∧ ¬ ∃ e e' : Fin d → ℝ,
          eapScores (m η₀) a (rowsOf 1 cats.length fun _ => row) points = .ok [some e] ∧
          eapScores (m (estimate s)) a (rowsOf 1 cats.length fun _ => row) points = .ok [some e'] ∧ ∀ k, |e k - e' k| < ε) →
        ∑ s ∈ far, sampleProb (normalProb (P η₀) C) s ≤ risk := by
  obtain ⟨U, hU, hU₀, hin⟩ := C152_neighbourhood m P hm hpos hcont a hd points grid hgne gcov hgcov hgrid η₀ ε hε
  obtain ⟨n₀, h1, h⟩ := C151_parameters m P hm hpos hP hcont hle hrules cov hC hCpos hL hchol K hK η₀ hident U hU hU₀
  refine ⟨n₀, h1, fun risk hrisk => ?_⟩
  obtain ⟨N₀, hN₀⟩ := h risk hrisk
  refine ⟨N₀, fun n hn N hN pts lw hok estimate hest far hfar hbad => hN₀ n hn N hN pts lw hok estimate hest far hfar fun s hs hs' => ?_⟩
  obtain ⟨row, hrow, hno⟩ := hbad s hs
  exact hno (hin _ hs' row hrow)

end Family

/-! ## The 1PL model -/

/-- C152 for the 1PL model, fitted within bounds to respondents from a standard normal population. -/
theorem C152_onePL {items : ℕ} (hitems : 0 < items) (β : ℝ) {hg : ℕ → Except PyErr (List ℝ × List ℝ)} (hrules : ExactRules hg)
    {ch : Matrix (Fin 1) (Fin 1) ℝ → Except PyErr (Matrix (Fin 1) (Fin 1) ℝ)} {L : Matrix (Fin 1) (Fin 1) ℝ}
    (hL : ch 1 = .ok L) (hchol : IsCholesky 1 L) (b₀ : Fin items → ℝ)
    (a : AlgAttrs 1) (points : Option ℕ) (grid : Thetas 1) (hgne : grid ≠ [])
    (gcov : Matrix (Fin 1) (Fin 1) ℝ) (hgcov : gcov.PosDef) (hgrid : eapGrid a (points.getD (eapDefaultPoints 1)) = .ok (grid, gcov))
    (ε : ℝ) (hε : 0 < ε) :
    ∃ n₀ : ℕ, 1 ≤ n₀ ∧ ∀ risk : ℝ, 0 < risk → ∃ N₀ : ℕ, ∀ n, n₀ ≤ n → ∀ N, N₀ ≤ N →
      ∀ pts lw, mmlIntegration hg ch "gauss_hermite" (some n) none = .ok (pts, lw) →
      ∀ estimate : (Fin N → Fin (List.replicate items 2).length → ℕ) → Fin items → ℝ,
      (∀ s ∈ samples N (List.replicate items 2), (∀ j, |estimate s j| ≤ β) ∧
        ∃ L L' : ℝ, mmlLoss (onePLWith b₀).scorer (rowsOf N (List.replicate items 2).length (sampleCells s)) pts lw = .ok (some L) ∧
          mmlLoss (onePLWith (estimate s)).scorer (rowsOf N (List.replicate items 2).length (sampleCells s)) pts lw = .ok (some L') ∧ L' ≤ L) →
      ∀ far : Finset (Fin N → Fin (List.replicate items 2).length → ℕ), far ⊆ samples N (List.replicate items 2) →
        (∀ s ∈ far, ∃ row, ValidResponses (List.replicate items 2) row ∧ ¬ ∃ e e' : Fin 1 → ℝ,
          eapScores (onePLWith b₀).scorer a (rowsOf 1 (List.replicate items 2).length fun _ => row) points = .ok [some e] ∧
          eapScores (onePLWith (estimate s)).scorer a (rowsOf 1 (List.replicate items 2).length fun _ => row) points = .ok [some e'] ∧
            ∀ k, |e k - e' k| < ε) →
        ∑ s ∈ far, sampleProb (normalProb (fun θ : Fin 1 → ℝ => tableProb ((onePLWith b₀).probs (θ 0))) 1) s ≤ risk := by
  have hK : IsCompact {b : Fin items → ℝ | ∀ j, |b j| ≤ β} := by
    have : {b : Fin items → ℝ | ∀ j, |b j| ≤ β} = Set.univ.pi fun _ => Set.Icc (-β) β := by
      ext b; simp only [Set.mem_ofPred_eq, abs_le, Set.mem_univ_pi, Set.mem_Icc]
    rw [this]
    exact isCompact_univ_pi fun _ => isCompact_Icc
  exact C152_scores (fun b : Fin items → ℝ => (onePLWith b).scorer) (fun b θ => tableProb ((onePLWith b).probs (θ 0)))
    (fun b => (onePLWith b).isScorer (onePLWith_wf b) hitems) (fun b => (onePLWith b).positive (onePLWith_wf b)) onePLWith_proper onePLWith_jointly
    (fun b θ j r => onePLWith_le_one b _ j r) hrules none (Or.inl ⟨rfl, rfl⟩) Matrix.PosDef.one hL hchol _ hK b₀
    (fun b _ hb => onePLWith_normal_identified b b₀ hb) a (by norm_num) points grid hgne gcov hgcov hgrid ε hε

/-- Two items with intercepts 0 and 1, fitted within bounds to enough respondents: with a probability of at least 95 percent all EAP scores of the
fitted model (seven points from -3 to 3) are within a hundredth of those of the true model. -/
example : ∃ (hg : ℕ → Except PyErr (List ℝ × List ℝ)) (n₀ N₀ : ℕ), ExactRules hg ∧ ∀ n, n₀ ≤ n → ∀ N, N₀ ≤ N →
    ∃ (pts : Thetas 1) (lw : List ℝ) (estimate : (Fin N → Fin (List.replicate 2 2).length → ℕ) → Fin 2 → ℝ),
      mmlIntegration hg (fun _ => .ok (1 : Matrix (Fin 1) (Fin 1) ℝ)) "gauss_hermite" (some n) none = .ok (pts, lw) ∧
      ∀ far : Finset (Fin N → Fin (List.replicate 2 2).length → ℕ), far ⊆ samples N (List.replicate 2 2) →
        (∀ s ∈ far, ∃ row, ValidResponses (List.replicate 2 2) row ∧ ¬ ∃ e e' : Fin 1 → ℝ,
          eapScores (onePLWith ![0, 1]).scorer {} (rowsOf 1 (List.replicate 2 2).length fun _ => row) (some 7) = .ok [some e] ∧
          eapScores (onePLWith (estimate s)).scorer {} (rowsOf 1 (List.replicate 2 2).length fun _ => row) (some 7) = .ok [some e'] ∧
            ∀ k, |e k - e' k| < 1 / 100) →
        ∑ s ∈ far, sampleProb (normalProb (fun θ : Fin 1 → ℝ => tableProb ((onePLWith ![0, 1]).probs (θ 0))) 1) s ≤ 1 / 20 := by
  classical
  obtain ⟨hg, hrules⟩ := C141_rules_exist
  obtain ⟨n₀, h1, h⟩ := C152_onePL (items := 2) two_pos 5 hrules (ch := fun _ => .ok (1 : Matrix (Fin 1) (Fin 1) ℝ)) rfl (by simp [IsCholesky])
    ![0, 1] {} (some 7) (cartesianProd fun _ => linspace (-3) 3 7) exSeven_ne 1 Matrix.PosDef.one rfl (1 / 100) (by norm_num)
  obtain ⟨N₀, hN₀⟩ := h (1 / 20) (by norm_num)
  refine ⟨hg, n₀, N₀, hrules, fun n hn N hN => ?_⟩
  obtain ⟨x, w, hx, hexact⟩ := hrules n (h1.trans hn)
  obtain ⟨pts, lw, hok, hl, hne, _⟩ := integration_rule (ch := fun _ => .ok (1 : Matrix (Fin 1) (Fin 1) ℝ)) none (Or.inl ⟨rfl, rfl⟩) rfl (h1.trans hn)
    hx hexact
  choose! estimate hb hmin using C133_onePL_exists (items := 2) two_pos pts lw hl hne 5 (by norm_num) N
  refine ⟨pts, lw, estimate, hok, hN₀ n hn N hN pts lw hok estimate fun s hs => ⟨hb s hs, ?_⟩⟩
  obtain ⟨L', hL', hbest⟩ := hmin s hs
  obtain ⟨L, hL, hle⟩ := hbest ![0, 1] fun j => by fin_cases j <;> norm_num
  exact ⟨L, L', hL, hL', hle⟩

/-- C152 for MAP scores of the 1PL model, which are the modes of the posterior distribution (C102): with the fitted model they are close to those with
the true model, whatever the prior is and whatever is answered. -/
theorem C152_onePL_map {items : ℕ} (hitems : 0 < items) (β : ℝ) {hg : ℕ → Except PyErr (List ℝ × List ℝ)} (hrules : ExactRules hg)
    {ch : Matrix (Fin 1) (Fin 1) ℝ → Except PyErr (Matrix (Fin 1) (Fin 1) ℝ)} {L : Matrix (Fin 1) (Fin 1) ℝ}
    (hL : ch 1 = .ok L) (hchol : IsCholesky 1 L) (b₀ : Fin items → ℝ) (ε : ℝ) (hε : 0 < ε) :
    ∃ n₀ : ℕ, 1 ≤ n₀ ∧ ∀ risk : ℝ, 0 < risk → ∃ N₀ : ℕ, ∀ n, n₀ ≤ n → ∀ N, N₀ ≤ N →
      ∀ pts lw, mmlIntegration hg ch "gauss_hermite" (some n) none = .ok (pts, lw) →
      ∀ estimate : (Fin N → Fin (List.replicate items 2).length → ℕ) → Fin items → ℝ,
      (∀ s ∈ samples N (List.replicate items 2), (∀ j, |estimate s j| ≤ β) ∧
        ∃ L L' : ℝ, mmlLoss (onePLWith b₀).scorer (rowsOf N (List.replicate items 2).length (sampleCells s)) pts lw = .ok (some L) ∧
          mmlLoss (onePLWith (estimate s)).scorer (rowsOf N (List.replicate items 2).length (sampleCells s)) pts lw = .ok (some L') ∧ L' ≤ L) →
      ∀ far : Finset (Fin N → Fin (List.replicate items 2).length → ℕ), far ⊆ samples N (List.replicate items 2) →
        (∀ s ∈ far, ∃ (row : ℕ → Cell) (cov : Matrix (Fin 1) (Fin 1) ℝ) (θ θ' : Fin 1 → ℝ), ValidResponses (List.replicate items 2) row ∧
          cov.PosDef ∧ IsMode (posteriorWeight (fun θ : Fin 1 → ℝ => tableProb ((onePLWith b₀).probs (θ 0))) items cov row) θ ∧
          IsMode (posteriorWeight (fun θ : Fin 1 → ℝ => tableProb ((onePLWith (estimate s)).probs (θ 0))) items cov row) θ' ∧
          ε ≤ distSq cov θ θ') →
        ∑ s ∈ far, sampleProb (normalProb (fun θ : Fin 1 → ℝ => tableProb ((onePLWith b₀).probs (θ 0))) 1) s ≤ risk := by
  have hi : (0 : ℝ) < items := by exact_mod_cast hitems
  have hl0 : 0 < ε / (8 * items) := by positivity
  obtain ⟨n₀, h1, h⟩ := C151_onePL hitems β hrules hL hchol b₀ (ε / (8 * items)) hl0
  refine ⟨n₀, h1, fun risk hrisk => ?_⟩
  obtain ⟨N₀, hN₀⟩ := h risk hrisk
  refine ⟨N₀, fun n hn N hN pts lw hok estimate hest far hfar hbad => hN₀ n hn N hN pts lw hok estimate hest far hfar fun s hs => ?_⟩
  by_contra hall
  push Not at hall
  obtain ⟨row, cov, θ, θ', hrow, hcov, hθ, hθ', hge⟩ := hbad s hs
  have hlen : (List.replicate items 2).length = items := List.length_replicate
  have h2 := C140_parameters ((onePLWith b₀).logitModel (onePLWith_wf b₀)) ((onePLWith (estimate s)).logitModel (onePLWith_wf _)) cov hcov row hrow
    θ θ' (by rw [show (onePLWith b₀).items = items from rfl, hlen]; exact hθ) (by rw [show (onePLWith b₀).items = items from rfl, hlen]; exact hθ')
    (ε / (8 * items)) fun x _ j c r hc hr => by
      obtain ⟨hj, rfl⟩ := replicate_getElem? _ _ _ _ hc
      have hj' : j < items := hj
      have e1 : ∀ b : Fin items → ℝ, (onePLWith b).itemParameters.getD j 0 = b ⟨j, hj'⟩ := fun b => by
        show (List.ofFn b).getD j 0 = _
        simp [List.getD_eq_getElem?_getD, List.getElem?_ofFn, hj']
      rw [e1, e1, add_sub_add_left_eq_sub, ← mul_sub, abs_mul, abs_of_nonneg (Nat.cast_nonneg r), abs_sub_comm]
      have hr1 : (r : ℝ) ≤ 1 := by exact_mod_cast (by omega : r ≤ 1)
      have := (hall ⟨j, hj'⟩).le
      nlinarith [abs_nonneg (estimate s ⟨j, hj'⟩ - b₀ ⟨j, hj'⟩)]
  have hcard : (((Finset.range (List.replicate items 2).length).filter fun j => cellMissing (row j) = false).card : ℝ) ≤ items := by
    have := Finset.card_filter_le (Finset.range (List.replicate items 2).length) fun j => cellMissing (row j) = false
    rw [Finset.card_range, hlen] at this
    rw [hlen]
    exact_mod_cast this
  have h3 : distSq cov θ θ' ≤ 4 * (ε / (8 * items)) * items := h2.trans (mul_le_mul_of_nonneg_left hcard (by positivity))
  have h4 : 4 * (ε / (8 * items)) * items = ε / 2 := by field_simp; norm_num
  linarith

/-- The hypotheses are met as before, and the modes that are compared exist: here with the standard normal prior. -/
example : ∃ (hg : ℕ → Except PyErr (List ℝ × List ℝ)) (n N : ℕ) (pts : Thetas 1) (lw : List ℝ)
    (estimate : (Fin N → Fin (List.replicate 2 2).length → ℕ) → Fin 2 → ℝ),
      mmlIntegration hg (fun _ => .ok (1 : Matrix (Fin 1) (Fin 1) ℝ)) "gauss_hermite" (some n) none = .ok (pts, lw) ∧
      (∀ s row, ValidResponses (List.replicate 2 2) row → ∃ θ θ',
        IsMode (posteriorWeight (fun θ : Fin 1 → ℝ => tableProb ((onePLWith ![0, 1]).probs (θ 0))) 2 1 row) θ ∧
        IsMode (posteriorWeight (fun θ : Fin 1 → ℝ => tableProb ((onePLWith (estimate s)).probs (θ 0))) 2 1 row) θ') ∧
      ∀ far : Finset (Fin N → Fin (List.replicate 2 2).length → ℕ), far ⊆ samples N (List.replicate 2 2) →
        (∀ s ∈ far, ∃ (row : ℕ → Cell) (cov : Matrix (Fin 1) (Fin 1) ℝ) (θ θ' : Fin 1 → ℝ), ValidResponses (List.replicate 2 2) row ∧
          cov.PosDef ∧ IsMode (posteriorWeight (fun θ : Fin 1 → ℝ => tableProb ((onePLWith ![0, 1]).probs (θ 0))) 2 cov row) θ ∧
          IsMode (posteriorWeight (fun θ : Fin 1 → ℝ => tableProb ((onePLWith (estimate s)).probs (θ 0))) 2 cov row) θ' ∧
          1 / 100 ≤ distSq cov θ θ') →
        ∑ s ∈ far, sampleProb (normalProb (fun θ : Fin 1 → ℝ => tableProb ((onePLWith ![0, 1]).probs (θ 0))) 1) s ≤ 1 / 20 := by
  classical
  obtain ⟨hg, hrules⟩ := C141_rules_exist
  obtain ⟨n, h1, h⟩ := C152_onePL_map (items := 2) two_pos 5 hrules (ch := fun _ => .ok (1 : Matrix (Fin 1) (Fin 1) ℝ)) rfl
    (by simp [IsCholesky]) ![0, 1] (1 / 100) (by norm_num)
  obtain ⟨N, hN⟩ := h (1 / 20) (by norm_num)
  obtain ⟨x, w, hx, hexact⟩ := hrules n h1
  obtain ⟨pts, lw, hok, hl, hne, _⟩ := integration_rule (ch := fun _ => .ok (1 : Matrix (Fin 1) (Fin 1) ℝ)) none (Or.inl ⟨rfl, rfl⟩) rfl h1 hx hexact
  choose! estimate hb hmin using C133_onePL_exists (items := 2) two_pos pts lw hl hne 5 (by norm_num) N
  refine ⟨hg, n, N, pts, lw, estimate, hok, fun s row hrow => ?_, hN n le_rfl N le_rfl pts lw hok estimate fun s hs => ⟨hb s hs, ?_⟩⟩
  · obtain ⟨θ, hθ, _⟩ := C102_map ((onePLWith ![0, 1]).logitModel (onePLWith_wf _)).logConcave 1 Matrix.PosDef.one row hrow
    obtain ⟨θ', hθ', _⟩ := C102_map ((onePLWith (estimate s)).logitModel (onePLWith_wf _)).logConcave 1 Matrix.PosDef.one row hrow
    exact ⟨θ, θ', hθ, hθ'⟩
  · obtain ⟨L', hL', hbest⟩ := hmin s hs
    obtain ⟨L, hL, hle⟩ := hbest ![0, 1] fun j => by fin_cases j <;> norm_num
    exact ⟨L, L', hL, hL', hle⟩

/-! ## How precise the scores of the fitted model are -/

section Precision

variable {d : ℕ} {cats : List ℕ} {m m' : Scorer d} {P : (Fin d → ℝ) → ℕ → ℕ → ℝ} (hm : IsScorer m cats P) (hpos : PositiveProbs P cats)
  (hP : ProperProbs P cats) (a : AlgAttrs d) (hd : d ≤ 4) (points : Option ℕ) (grid : Thetas d) (hg : grid ≠ [])
  (cov : Matrix (Fin d) (Fin d) ℝ) (hcov : cov.PosDef) (hgrid : eapGrid a (points.getD (eapDefaultPoints d)) = .ok (grid, cov))

include hm hpos hP hd hg hcov hgrid in
/-- C152: EAP scores of another model that are within `ε` of those of the true model have a mean squared error that is larger by at most
`ε ^ 2`. -/
theorem C152_precision {ε : ℝ} (hclose : ∀ row, ValidResponses cats row → ∃ e e' : Fin d → ℝ,
      eapScores m a (rowsOf 1 cats.length fun _ => row) points = .ok [some e] ∧
      eapScores m' a (rowsOf 1 cats.length fun _ => row) points = .ok [some e'] ∧ ∀ k, |e k - e' k| < ε) (k : Fin d) :
    ∃ e e', EapOf m a points cats Finset.univ e ∧ EapOf m' a points cats Finset.univ e' ∧
      expectation P cats (fun θ => Real.exp (mvnLogDensity 0 cov θ)) grid (fun θ x => (θ k - e' x k) ^ 2)
        ≤ expectation P cats (fun θ => Real.exp (mvnLogDensity 0 cov θ)) grid (fun θ x => (θ k - e x k) ^ 2) + ε ^ 2 := by
  have hv : ∀ x ∈ fullAnswers cats, ValidResponses cats (answersTo Finset.univ x) := fun x hx => answersTo_valid Finset.univ hx
  have hx : ∀ x : Fin cats.length → ℕ, ∃ e e' : Fin d → ℝ, x ∈ fullAnswers cats →
      eapScores m a (rowsOf 1 cats.length fun _ => answersTo Finset.univ x) points = .ok [some e] ∧
      eapScores m' a (rowsOf 1 cats.length fun _ => answersTo Finset.univ x) points = .ok [some e'] ∧ ∀ k, |e k - e' k| < ε := by
    intro x
    by_cases h : x ∈ fullAnswers cats
    · obtain ⟨e, e', h1⟩ := hclose _ (hv x h)
      exact ⟨e, e', fun _ => h1⟩
    · exact ⟨0, 0, fun h' => absurd h' h⟩
  choose e e' hee using hx
  have he : EapOf m a points cats Finset.univ e := fun x hx => (hee x hx).1
  refine ⟨e, e', he, fun x hx => (hee x hx).2.1, ?_⟩
  rw [C128_pythagoras hm hpos hP a hd points grid hg cov hcov hgrid he k (fun x => e' x k) fun x hx x' hx' hj => by
    rw [show x = x' from funext fun j => hj j (Finset.mem_univ j)]]
  have hz := prior_sum_pos grid hg cov
  have hle : expectation P cats (fun θ => Real.exp (mvnLogDensity 0 cov θ)) grid (fun _ x => (e x k - e' x k) ^ 2)
      ≤ expectation P cats (fun θ => Real.exp (mvnLogDensity 0 cov θ)) grid (fun _ _ => ε ^ 2) := by
    unfold expectation
    refine div_le_div_of_nonneg_right (List.sum_le_sum fun θ _ => mul_le_mul_of_nonneg_left (Finset.sum_le_sum fun x hx => ?_)
      (Real.exp_pos _).le) hz.le
    refine mul_le_mul_of_nonneg_left ?_ (Finset.prod_nonneg fun j _ => (hpos θ j cats[j] (x j) (List.getElem?_eq_getElem j.2)
      (Finset.mem_range.1 (Fintype.mem_piFinset.1 hx j))).le)
    exact sq_le_sq' (by linarith [(abs_lt.1 ((hee x hx).2.2 k)).1]) (abs_lt.1 ((hee x hx).2.2 k)).2.le
  rw [expectation_const hP hz.ne'] at hle
  linarith

end Precision

/-- C152 with C132: a long 1PL test, calibrated on many respondents, measures exactly. For all bounds and every `ε` there is a number of items from
which on, with enough integration points and enough respondents in the sample for the calibration, the EAP scores of the fitted model
have a mean squared error below `ε`, but for a risk as small as one likes. -/
theorem C152_long_test (β : ℝ) {hg : ℕ → Except PyErr (List ℝ × List ℝ)} (hrules : ExactRules hg)
    {ch : Matrix (Fin 1) (Fin 1) ℝ → Except PyErr (Matrix (Fin 1) (Fin 1) ℝ)} {L : Matrix (Fin 1) (Fin 1) ℝ}
    (hL : ch 1 = .ok L) (hchol : IsCholesky 1 L) (a : AlgAttrs 1) (points : Option ℕ) (grid : Thetas 1) (hgne : grid ≠ [])
    (gcov : Matrix (Fin 1) (Fin 1) ℝ) (hgcov : gcov.PosDef) (hgrid : eapGrid a (points.getD (eapDefaultPoints 1)) = .ok (grid, gcov))
    (ε : ℝ) (hε : 0 < ε) :
    ∃ items₀ : ℕ, 0 < items₀ ∧ ∀ items, items₀ ≤ items → ∀ b₀ : Fin items → ℝ, (∀ j, |b₀ j| ≤ β) →
    ∃ n₀ : ℕ, 1 ≤ n₀ ∧ ∀ risk : ℝ, 0 < risk → ∃ N₀ : ℕ, ∀ n, n₀ ≤ n → ∀ N, N₀ ≤ N →
      ∀ pts lw, mmlIntegration hg ch "gauss_hermite" (some n) none = .ok (pts, lw) →
      ∀ estimate : (Fin N → Fin (List.replicate items 2).length → ℕ) → Fin items → ℝ,
      (∀ s ∈ samples N (List.replicate items 2), (∀ j, |estimate s j| ≤ β) ∧
        ∃ L L' : ℝ, mmlLoss (onePLWith b₀).scorer (rowsOf N (List.replicate items 2).length (sampleCells s)) pts lw = .ok (some L) ∧
          mmlLoss (onePLWith (estimate s)).scorer (rowsOf N (List.replicate items 2).length (sampleCells s)) pts lw = .ok (some L') ∧ L' ≤ L) →
      ∀ far : Finset (Fin N → Fin (List.replicate items 2).length → ℕ), far ⊆ samples N (List.replicate items 2) →
        (∀ s ∈ far, ¬ ∃ e, EapOf (onePLWith (estimate s)).scorer a points (List.replicate items 2) Finset.univ e ∧
          expectation (fun θ : Fin 1 → ℝ => tableProb ((onePLWith b₀).probs (θ 0))) (List.replicate items 2)
            (fun θ => Real.exp (mvnLogDensity 0 gcov θ)) grid (fun θ x => (θ 0 - e x 0) ^ 2) < ε) →
        ∑ s ∈ far, sampleProb (normalProb (fun θ : Fin 1 → ℝ => tableProb ((onePLWith b₀).probs (θ 0))) 1) s ≤ risk := by
  obtain ⟨k, hk⟩ := C132_onePL a points grid hgne gcov hgcov hgrid β (ε / 2) (by linarith)
  refine ⟨k + 1, k.succ_pos, fun items hitems b₀ hb₀ => ?_⟩
  have h0 : 0 < items := by omega
  obtain ⟨n₀, h1, h⟩ := C152_onePL h0 β hrules hL hchol b₀ a points grid hgne gcov hgcov hgrid (Real.sqrt (ε / 2)) (by positivity)
  refine ⟨n₀, h1, fun risk hrisk => ?_⟩
  obtain ⟨N₀, hN₀⟩ := h risk hrisk
  refine ⟨N₀, fun n hn N hN pts lw hok estimate hest far hfar hbad => hN₀ n hn N hN pts lw hok estimate hest far hfar fun s hs => ?_⟩
  by_contra hall
  push Not at hall
  obtain ⟨e, e', he, he', hle⟩ := C152_precision ((onePLWith b₀).isScorer (onePLWith_wf b₀) h0) ((onePLWith b₀).positive (onePLWith_wf b₀))
    (onePLWith_proper b₀) a (by norm_num) points grid hgne gcov hgcov hgrid hall 0
  refine hbad s hs ⟨e', he', hle.trans_lt ?_⟩
  have h2 := hk (onePLWith b₀) (onePLWith_wf b₀) h0 (by show k ≤ items; omega) (fun b hb => by
    obtain ⟨j, rfl⟩ := (List.mem_ofFn' _ _).1 hb
    exact hb₀ j) e he
  have h3 : Real.sqrt (ε / 2) ^ 2 = ε / 2 := Real.sq_sqrt (by linarith)
  rw [h3]
  have h4 := add_lt_add_left h2 (ε / 2)
  rw [add_halves] at h4
  exact h4

/-- Tests with all intercepts 0, fitted within bounds and scored with seven points from -3 to 3: some length, number of points and number
of respondents make the mean squared error of the fitted model's scores less than a hundredth with a probability of at least 95 percent. -/
example : ∃ (hg : ℕ → Except PyErr (List ℝ × List ℝ)) (items n N : ℕ) (pts : Thetas 1) (lw : List ℝ)
    (estimate : (Fin N → Fin (List.replicate items 2).length → ℕ) → Fin items → ℝ), 0 < items ∧
      mmlIntegration hg (fun _ => .ok (1 : Matrix (Fin 1) (Fin 1) ℝ)) "gauss_hermite" (some n) none = .ok (pts, lw) ∧
      ∀ far : Finset (Fin N → Fin (List.replicate items 2).length → ℕ), far ⊆ samples N (List.replicate items 2) →
        (∀ s ∈ far, ¬ ∃ e, EapOf (onePLWith (estimate s)).scorer {} (some 7) (List.replicate items 2) Finset.univ e ∧
          expectation (fun θ : Fin 1 → ℝ => tableProb ((onePLWith fun _ : Fin items => 0).probs (θ 0))) (List.replicate items 2)
            (fun θ => Real.exp (mvnLogDensity 0 1 θ)) (cartesianProd fun _ => linspace (-3) 3 7) (fun θ x => (θ 0 - e x 0) ^ 2) < 1 / 100) →
        ∑ s ∈ far, sampleProb (normalProb (fun θ : Fin 1 → ℝ => tableProb ((onePLWith fun _ : Fin items => 0).probs (θ 0))) 1) s ≤ 1 / 20 := by
  classical
  obtain ⟨hg, hrules⟩ := C141_rules_exist
  obtain ⟨items, hi, h⟩ := C152_long_test 5 hrules (ch := fun _ => .ok (1 : Matrix (Fin 1) (Fin 1) ℝ)) rfl (by simp [IsCholesky])
    {} (some 7) (cartesianProd fun _ => linspace (-3) 3 7) exSeven_ne 1 Matrix.PosDef.one rfl (1 / 100) (by norm_num)
  obtain ⟨n, h1, h⟩ := h items le_rfl (fun _ => 0) fun j => by norm_num
  obtain ⟨N, hN⟩ := h (1 / 20) (by norm_num)
  obtain ⟨x, w, hx, hexact⟩ := hrules n h1
  obtain ⟨pts, lw, hok, hl, hne, _⟩ := integration_rule (ch := fun _ => .ok (1 : Matrix (Fin 1) (Fin 1) ℝ)) none (Or.inl ⟨rfl, rfl⟩) rfl h1 hx hexact
  choose! estimate hb hmin using C133_onePL_exists (items := items) hi pts lw hl hne 5 (by norm_num) N
  refine ⟨hg, items, n, N, pts, lw, estimate, hi, hok, hN n le_rfl N le_rfl pts lw hok estimate fun s hs => ⟨hb s hs, ?_⟩⟩
  obtain ⟨L', hL', hbest⟩ := hmin s hs
  obtain ⟨L, hL, hle⟩ := hbest (fun _ => 0) fun j => by norm_num
  exact ⟨L, L', hL, hL', hle⟩

end Irt
