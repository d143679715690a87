import Verif.Spec.Booklets
import Verif.Props.LeftOut
import Verif.Props.NormalPopulation
import Verif.Props.SimpleStructure

/-! # C158: booklets with different items, handed out to respondents from a normal population -/

namespace Irt
open Spec MeasureTheory Filter Topology

/-! ## The distribution of what is seen -/

section Seen

open Finset

variable {cats : List ℕ} {h : (Fin cats.length → Option ℕ) → ℝ}

theorem mem_possiblySeen {z : Fin cats.length → Option ℕ} : z ∈ possiblySeen cats h ↔ z ∈ seenAnswers cats ∧ 0 < h z := by
  classical
  unfold possiblySeen
  exact mem_filter

theorem seenFrom_eq (p : (Fin cats.length → ℕ) → ℝ) {z : Fin cats.length → Option ℕ} (hz : z ∈ seenAnswers cats) :
    seenFrom cats h p z = h z * ∑ x ∈ completions cats (seenRow z), p x := by
  have e2 := averageSeen_eq h p fun z' => if z' = z then 1 else 0
  have e3 : averageSeen cats h p (fun T x => if seenOf T x = z then 1 else 0) = seenFrom cats h p z := by
    unfold averageSeen seenFrom
    refine sum_congr rfl fun x _ => ?_
    congr 1
    refine sum_congr rfl fun T _ => ?_
    dsimp only
    split_ifs with hT
    · rw [hT, mul_one]
    · rw [mul_zero]
  rw [← e3, e2]
  simp only [mul_ite, mul_one, mul_zero, sum_ite_eq', if_pos hz]

theorem seenFrom_sum (hask : Asking cats h) {p : (Fin cats.length → ℕ) → ℝ} (hp : ∑ x ∈ fullAnswers cats, p x = 1) :
    ∑ z ∈ possiblySeen cats h, seenFrom cats h p z = 1 := by
  classical
  have e := averageSeen_eq h p fun _ => 1
  have e1 : averageSeen cats h p (fun _ _ => 1) = 1 := by
    unfold averageSeen
    simp only [mul_one]
    rw [sum_congr rfl fun x hx => by rw [hask.total x hx, mul_one], hp]
  rw [e1] at e
  rw [e]
  have e2 : ∑ z ∈ seenAnswers cats, h z * (∑ x ∈ completions cats (seenRow z), p x) * 1 = ∑ z ∈ seenAnswers cats, seenFrom cats h p z :=
    sum_congr rfl fun z hz => by rw [seenFrom_eq p hz, mul_one]
  rw [e2]
  refine sum_subset (fun z hz => (mem_possiblySeen.1 hz).1) fun z hz hn => ?_
  have : h z = 0 := le_antisymm (not_lt.1 fun hp => hn (mem_possiblySeen.2 ⟨hz, hp⟩)) (hask.nonneg z)
  rw [seenFrom_eq p hz, this, zero_mul]

theorem seenFrom_pos {d : ℕ} {P : (Fin d → ℝ) → ℕ → ℕ → ℝ} (hpos : PositiveProbs P cats) (hP : ProperProbs P cats)
    {p : (Fin cats.length → ℕ) → ℝ} (hp : ∀ x ∈ fullAnswers cats, 0 < p x) {z : Fin cats.length → Option ℕ} (hz : z ∈ possiblySeen cats h) :
    0 < seenFrom cats h p z := by
  obtain ⟨hz, h0⟩ := mem_possiblySeen.1 hz
  rw [seenFrom_eq p hz]
  refine mul_pos h0 (sum_pos (fun x hx => hp x ((mem_completions_seenRow hz x).1 hx).1) ?_)
  by_contra hne
  rw [not_nonempty_iff_eq_empty] at hne
  have h1 := observedLikelihood_pos hpos (seenRow z) (seenRow_valid hz) 0
  rw [observedLikelihood_completions hP, hne, sum_empty] at h1
  exact lt_irrefl _ h1

end Seen

/-! ## A fit with an integration rule, a truth of any kind -/

section Truth

open Finset

variable {d : ℕ} {m : Scorer d} {cats : List ℕ} {h : (Fin cats.length → Option ℕ) → ℝ} (hask : Asking cats h) {P : (Fin d → ℝ) → ℕ → ℕ → ℝ}
  (hm : IsScorer m cats P) (hpos : PositiveProbs P cats) (hP : ProperProbs P cats)
  {p : (Fin cats.length → Option ℕ) → ℝ} (hp : ∀ z ∈ possiblySeen cats h, 0 < p z) (hps : ∑ z ∈ possiblySeen cats h, p z = 1)
  (pts : Thetas d) (lw : List ℝ) (hlen : lw.length = pts.length) (hne : pts ≠ []) (δ : ℝ)
  (hδ : ∀ z ∈ possiblySeen cats h, Real.log (p z) ≤ Real.log (seenProb cats h P pts (lw.map Real.exp) z) + δ)

include hask hm hpos hP hp hps hlen hne hδ in
/-- A model that fits a sample with questions left out at least as well as a model whose distribution, computed with the integration rule, is near
the truth. -/
theorem C158_sample {m' : Scorer d} {P' : (Fin d → ℝ) → ℕ → ℕ → ℝ} (hm' : IsScorer m' cats P') (hpos' : PositiveProbs P' cats)
    (hP' : ProperProbs P' cats) {N : ℕ} (hN : 0 < N) {s : Fin N → Fin cats.length → Option ℕ} (hs : s ∈ seenSamples N cats h) {L L' : ℝ}
    (hL : mmlLoss m (rowsOf N cats.length (seenCells s)) pts lw = .ok (some L))
    (hL' : mmlLoss m' (rowsOf N cats.length (seenCells s)) pts lw = .ok (some L')) (hbetter : L' ≤ L) :
    seenDistance cats h (seenProb cats h P' pts (lw.map Real.exp)) p ^ 2
      ≤ 16 * ∑ z ∈ possiblySeen cats h, (seenShare s z - p z) ^ 2 / p z + 8 * δ := by
  have hN' : (0:ℝ) < N := by exact_mod_cast hN
  have hshare : ∑ z ∈ possiblySeen cats h, seenShare s z = 1 := by
    have := seenShare_sum hs fun _ => 1
    simp only [mul_one] at this
    rw [this]
    simp [hN'.ne']
  have hnn : ∀ z ∈ possiblySeen cats h, 0 ≤ seenShare s z := fun z _ => by unfold seenShare; positivity
  refine distance_of_nearly_better (possiblySeen cats h) (seenShare s) p (seenProb cats h P' pts (lw.map Real.exp)) hnn hp
    (fun z hz => seenProb_pos hpos' pts lw hlen hne hP' hz) hshare hps (seenProb_sum pts lw hlen hne hask hP') δ ?_
  have h1 : ∑ z ∈ possiblySeen cats h, seenShare s z * Real.log (p z)
      ≤ ∑ z ∈ possiblySeen cats h, seenShare s z * Real.log (seenProb cats h P pts (lw.map Real.exp) z) + δ := by
    refine (sum_le_sum fun z hz => mul_le_mul_of_nonneg_left (hδ z hz) (hnn z hz)).trans_eq ?_
    simp only [mul_add, sum_add_distrib, ← sum_mul, hshare, one_mul]
  refine h1.trans (add_le_add ?_ le_rfl)
  rw [seenSample_loss hm hpos hP pts lw hlen hne hs] at hL
  rw [seenSample_loss hm' hpos' hP' pts lw hlen hne hs] at hL'
  have g1 := Option.some.inj (Except.ok.inj hL)
  have g2 := Option.some.inj (Except.ok.inj hL')
  rw [seenShare_sum hs fun z => Real.log (seenProb cats h P pts (lw.map Real.exp) z),
    seenShare_sum hs fun z => Real.log (seenProb cats h P' pts (lw.map Real.exp) z)]
  refine div_le_div_of_nonneg_right ?_ hN'.le
  linarith

include hask hm hpos hP hp hps hlen hne hδ in
/-- The probability of a sample whose fit is further than `ε` from the truth. -/
theorem C158_probability {N : ℕ} (hN : 0 < N) {fit : (Fin N → Fin cats.length → Option ℕ) → Scorer d}
    {P' : (Fin N → Fin cats.length → Option ℕ) → (Fin d → ℝ) → ℕ → ℕ → ℝ}
    (hfit : ∀ s ∈ seenSamples N cats h, IsScorer (fit s) cats (P' s) ∧ PositiveProbs (P' s) cats ∧ ProperProbs (P' s) cats ∧
      ∃ L L' : ℝ, mmlLoss m (rowsOf N cats.length (seenCells s)) pts lw = .ok (some L) ∧
        mmlLoss (fit s) (rowsOf N cats.length (seenCells s)) pts lw = .ok (some L') ∧ L' ≤ L)
    (ε : ℝ) (hε : 0 < ε) (hδε : 16 * δ ≤ ε ^ 2) (far : Finset (Fin N → Fin cats.length → Option ℕ)) (hfar : far ⊆ seenSamples N cats h)
    (hdist : ∀ s ∈ far, ε ≤ seenDistance cats h (seenProb cats h (P' s) pts (lw.map Real.exp)) p) :
    ∑ s ∈ far, seenSampleProb p s ≤ 32 * ((possiblySeen cats h).card - 1) / N / ε ^ 2 := by
  have hnn : ∀ s ∈ seenSamples N cats h, 0 ≤ seenSampleProb p s := fun s hs => prod_nonneg fun i _ => (hp _ (Fintype.mem_piFinset.1 hs i)).le
  have hchi : ∀ s : Fin N → Fin cats.length → Option ℕ, 0 ≤ ∑ z ∈ possiblySeen cats h, (seenShare s z - p z) ^ 2 / p z := fun s =>
    sum_nonneg fun z hz => div_nonneg (sq_nonneg _) (hp z hz).le
  rw [le_div_iff₀ (by positivity), sum_mul, mul_div_assoc, ← draws_chi hN _ hp hps, mul_sum]
  refine (sum_le_sum fun s hs => ?_).trans (sum_le_sum_of_subset_of_nonneg hfar fun s hs _ =>
    mul_nonneg (by norm_num) (mul_nonneg (hnn s hs) (hchi s)))
  obtain ⟨h1, h2, h3, L, L', hL, hL', hb⟩ := hfit s (hfar hs)
  have h4 := C158_sample hask hm hpos hP hp hps pts lw hlen hne δ hδ h1 h2 h3 hN (hfar hs) hL hL' hb
  have h5 := pow_le_pow_left₀ hε.le (hdist s hs) 2
  show seenSampleProb p s * ε ^ 2 ≤ 32 * (seenSampleProb p s * ∑ z ∈ possiblySeen cats h, (seenShare s z - p z) ^ 2 / p z)
  rw [mul_left_comm]
  exact mul_le_mul_of_nonneg_left (by linarith) (hnn s (hfar hs))

end Truth

/-! ## Parameters outside a neighbourhood of the truth -/

/-- Distances that converge along all converging parameters are bounded away from zero outside a neighbourhood of where their limit is zero. -/
theorem apart_of_limit {A : Type*} [TopologicalSpace A] [FirstCountableTopology A] {K U : Set A} (hK : IsCompact K) (hU : IsOpen U)
    (D : ℕ → A → ℝ) (D₀ : A → ℝ) (hlim : ∀ (a : ℕ → A) (a₀ : A), Tendsto a atTop (𝓝 a₀) → Tendsto (fun n => D n (a n)) atTop (𝓝 (D₀ a₀)))
    (hzero : ∀ a ∈ K, D₀ a ≤ 0 → a ∈ U) : ∃ ε : ℝ, 0 < ε ∧ ∃ n₀ : ℕ, ∀ n, n₀ ≤ n → ∀ η ∈ K, η ∉ U → ε ≤ D n η := by
  classical
  by_contra hno
  push Not at hno
  have hfreq : ∀ k : ℕ, ∃ᶠ n in atTop, ∃ η ∈ K \ U, D n η < 1 / (k + 1 : ℝ) := by
    intro k
    rw [frequently_atTop]
    intro n₀
    obtain ⟨n, hn, η, h1, h2, h3⟩ := hno (1 / (k + 1 : ℝ)) (by positivity) n₀
    exact ⟨n, hn, η, ⟨h1, h2⟩, h3⟩
  obtain ⟨φ, hφ, hφp⟩ := extraction_forall_of_frequently hfreq
  choose η hηK hηd using hφp
  obtain ⟨a₀, ha₀, χ, hχ, htend⟩ := (hK.diff hU).tendsto_subseq hηK
  have hψ : StrictMono fun k => φ (χ k) := hφ.comp hχ
  let a : ℕ → A := Function.extend (fun k => φ (χ k)) (fun k => η (χ k)) fun _ => a₀
  have haψ : ∀ k, a (φ (χ k)) = η (χ k) := fun k => hψ.injective.extend_apply _ _ k
  have ha : Tendsto a atTop (𝓝 a₀) := by
    intro V hV
    obtain ⟨k₀, hk₀⟩ := eventually_atTop.1 (htend.eventually hV)
    rw [Filter.mem_map, Filter.mem_atTop_sets]
    refine ⟨φ (χ k₀), fun n hn => ?_⟩
    by_cases h : ∃ k, φ (χ k) = n
    · obtain ⟨k, rfl⟩ := h
      show a (φ (χ k)) ∈ V
      rw [haψ]
      exact hk₀ k (hψ.le_iff_le.1 hn)
    · show a n ∈ V
      rw [show a n = a₀ from Function.extend_apply' _ _ _ h]
      exact mem_of_mem_nhds hV
  have hd2 := (hlim a a₀ ha).comp hψ.tendsto_atTop
  have hz : Tendsto (fun k : ℕ => 1 / ((χ k : ℕ) + 1 : ℝ)) atTop (𝓝 0) :=
    (tendsto_one_div_add_atTop_nhds_zero_nat (𝕜 := ℝ)).comp hχ.tendsto_atTop
  refine ha₀.2 (hzero a₀ ha₀.1 (le_of_tendsto_of_tendsto' hd2 hz fun k => ?_))
  simp only [Function.comp, haψ]
  exact (hηd (χ k)).le

section Family

variable {A : Type*} [TopologicalSpace A] {d : ℕ} {cats : List ℕ} {h : (Fin cats.length → Option ℕ) → ℝ} (hask : Asking cats h)
  (m : A → Scorer d) (P : A → (Fin d → ℝ) → ℕ → ℕ → ℝ)
  (hm : ∀ a, IsScorer (m a) cats (P a)) (hpos : ∀ a, PositiveProbs (P a) cats) (hP : ∀ a, ProperProbs (P a) cats)
  (hcont : ∀ j r, Continuous fun p : A × (Fin d → ℝ) => P p.1 p.2 j r) (hle : ∀ a θ j r, P a θ j r ≤ 1)
  {hg : ℕ → Except PyErr (List ℝ × List ℝ)} (hrules : ExactRules hg)
  {ch : Matrix (Fin d) (Fin d) ℝ → Except PyErr (Matrix (Fin d) (Fin d) ℝ)} (cov : Option CovArg)
  {C L : Matrix (Fin d) (Fin d) ℝ}
  (hC : cov = none ∧ C = 1 ∨ ∃ c, cov = some c ∧ c.rows = d ∧ c.cols = d ∧ C = Matrix.of fun i j : Fin d => c.entry i j)
  (hCpos : C.PosDef) (hL : ch C = .ok L) (hchol : IsCholesky C L)

include hask hm hpos hP hcont hle hrules hC hCpos hL hchol in
/-- C158: respondents from a normal population of whom some answers are left out for reasons visible in the others. If what is seen determines the
parameters and these range over a compact set, there is a number of points from which on the estimates are outside a given neighbourhood of
the truth with a probability that tends to zero as the number of respondents grows. -/
theorem C158_parameters [FirstCountableTopology A] (K : Set A) (hK : IsCompact K) (η₀ : A)
    (hident : ∀ η ∈ K, (∀ z ∈ possiblySeen cats h, seenFrom cats h (normalProb (P η) C) z = seenFrom cats h (normalProb (P η₀) C) z) → η = η₀)
    (U : Set A) (hU : IsOpen U) (hU₀ : η₀ ∈ U) :
    ∃ n₀ : ℕ, 1 ≤ n₀ ∧ ∀ risk : ℝ, 0 < risk → ∃ N₀ : ℕ, ∀ n, n₀ ≤ n → ∀ N, N₀ ≤ N →
      ∀ pts lw, mmlIntegration hg ch "gauss_hermite" (some n) cov = .ok (pts, lw) →
      ∀ estimate : (Fin N → Fin cats.length → Option ℕ) → A,
      (∀ s ∈ seenSamples N cats h, estimate s ∈ K ∧
        ∃ L L' : ℝ, mmlLoss (m η₀) (rowsOf N cats.length (seenCells s)) pts lw = .ok (some L) ∧
          mmlLoss (m (estimate s)) (rowsOf N cats.length (seenCells s)) pts lw = .ok (some L') ∧ L' ≤ L) →
      ∀ far : Finset (Fin N → Fin cats.length → Option ℕ), far ⊆ seenSamples N cats h → (∀ s ∈ far, estimate s ∉ U) →
        ∑ s ∈ far, seenSampleProb (seenFrom cats h (normalProb (P η₀) C)) s ≤ risk := by
  have hcont₀ : ContinuousProbs (P η₀) := fun j r => (hcont j r).comp (by fun_prop : Continuous fun θ : Fin d → ℝ => (η₀, θ))
  have hp₀ : ∀ x ∈ fullAnswers cats, 0 < normalProb (P η₀) C x := fun x hx => normalProb_pos (hpos η₀) hcont₀ (hm η₀).nonneg (hle η₀) hCpos hx
  have hp : ∀ z ∈ possiblySeen cats h, 0 < seenFrom cats h (normalProb (P η₀) C) z := fun z hz => seenFrom_pos (hpos η₀) (hP η₀) hp₀ hz
  have hps := seenFrom_sum hask (normalProb_sum (hP η₀) hcont₀ (hm η₀).nonneg (hle η₀) hCpos)
  obtain ⟨pts, lw, hrule, hlim⟩ := rules_exist m P hm hcont hle hrules cov hC hCpos hL hchol
  have hlimz : ∀ (a : ℕ → A) (a₀ : A), Tendsto a atTop (𝓝 a₀) → ∀ z : Fin cats.length → Option ℕ,
      Tendsto (fun n => seenProb cats h (P (a n)) (pts n) ((lw n).map Real.exp) z) atTop (𝓝 (seenFrom cats h (normalProb (P a₀) C) z)) := by
    intro a a₀ ha z
    unfold seenProb seenFrom
    exact tendsto_finsetSum _ fun x _ => (hlim a a₀ ha x).mul_const _
  obtain ⟨ε, hε, n₁, hapart⟩ := apart_of_limit hK hU
    (fun n a => seenDistance cats h (seenProb cats h (P a) (pts n) ((lw n).map Real.exp)) (seenFrom cats h (normalProb (P η₀) C)))
    (fun a => seenDistance cats h (seenFrom cats h (normalProb (P a) C)) (seenFrom cats h (normalProb (P η₀) C)))
    (fun a a₀ ha => by
      unfold seenDistance
      exact tendsto_finsetSum _ fun z _ => ((hlimz a a₀ ha z).sub_const _).abs)
    (fun a haK h0 => by
      rw [hident a haK fun z hz => ?_]
      · exact hU₀
      · have h1 : seenDistance cats h (seenFrom cats h (normalProb (P a) C)) (seenFrom cats h (normalProb (P η₀) C)) = 0 :=
          le_antisymm h0 (Finset.sum_nonneg fun _ _ => abs_nonneg _)
        have := (Finset.sum_eq_zero_iff_of_nonneg fun _ _ => abs_nonneg _).1 h1 z hz
        linarith [abs_eq_zero.1 this])
  have hev : ∀ᶠ n in atTop, ∀ z ∈ possiblySeen cats h, Real.log (seenFrom cats h (normalProb (P η₀) C) z) - ε ^ 2 / 16
      < Real.log (seenProb cats h (P η₀) (pts n) ((lw n).map Real.exp) z) := by
    rw [Filter.eventually_all_finset]
    intro z hz
    exact ((hlimz (fun _ => η₀) η₀ tendsto_const_nhds z).log (hp z hz).ne').eventually_const_lt (by
      have : 0 < ε ^ 2 := by positivity
      linarith)
  obtain ⟨n₀, hn₀⟩ := eventually_atTop.1 hev
  refine ⟨max (max n₀ n₁) 1, le_max_right _ _, fun risk hrisk => ?_⟩
  obtain ⟨k, hk⟩ := exists_nat_gt (32 * ((possiblySeen cats h).card - 1) / ε ^ 2 / risk)
  refine ⟨k + 1, fun n hn N hN pts' lw' hok estimate hest far hfar hout => ?_⟩
  have hn0 : n₀ ≤ n := (le_max_left _ _).trans ((le_max_left _ _).trans hn)
  have hn1 : n₁ ≤ n := (le_max_right _ _).trans ((le_max_left _ _).trans hn)
  obtain ⟨g1, g2, g3⟩ := hrule n ((le_max_right _ _).trans hn)
  rw [g1] at hok
  obtain ⟨rfl, rfl⟩ := Prod.mk.inj (Except.ok.inj hok)
  have hNpos : 0 < N := by omega
  have hN' : (0:ℝ) < N := by exact_mod_cast hNpos
  refine (C158_probability hask (hm η₀) (hpos η₀) (hP η₀) hp hps (pts n) (lw n) g2 g3 (ε ^ 2 / 16) (fun z hz => by
    linarith [hn₀ n hn0 z hz]) hNpos (fit := fun s => m (estimate s)) (P' := fun s => P (estimate s))
    (fun s hs => ⟨hm _, hpos _, hP _, (hest s hs).2⟩) ε hε (by linarith) far hfar
    fun s hs => hapart n hn1 _ (hest s (hfar hs)).1 (hout s hs)).trans ?_
  have h1 : (k:ℝ) ≤ N := by exact_mod_cast (by omega : k ≤ N)
  rw [div_div, mul_comm (N:ℝ), ← div_div, div_le_iff₀ hN']
  rw [div_lt_iff₀ hrisk] at hk
  nlinarith

end Family

/-! ## Booklets -/

section Design

open Finset

theorem booklet_seenOf {K : ℕ} (π : Finset (Fin K) → ℝ) (T : Finset (Fin K)) (x : Fin K → ℕ) : byBooklet π (seenOf T x) = π T := by
  unfold byBooklet seenOf
  congr 1
  ext j
  rw [mem_filter]
  by_cases hj : j ∈ T <;> simp [hj]

theorem byBooklet_asking (cats : List ℕ) {π : Finset (Fin cats.length) → ℝ} (h0 : ∀ T, 0 ≤ π T) (h1 : ∑ T, π T = 1) : Asking cats (byBooklet π) where
  nonneg := fun _ => h0 _
  total := fun x _ => by simp only [booklet_seenOf, h1]

/-- What is seen in a booklet that is handed out determines all averages of what depends on the answers to its items. -/
theorem booklet_average {cats : List ℕ} {π : Finset (Fin cats.length) → ℝ} {p q : (Fin cats.length → ℕ) → ℝ}
    (hpq : ∀ z ∈ possiblySeen cats (byBooklet π), seenFrom cats (byBooklet π) p z = seenFrom cats (byBooklet π) q z)
    {T : Finset (Fin cats.length)} (hT : 0 < π T) (F : (Fin cats.length → Option ℕ) → ℝ) :
    ∑ x ∈ fullAnswers cats, p x * F (seenOf T x) = ∑ x ∈ fullAnswers cats, q x * F (seenOf T x) := by
  classical
  set only : Finset (Fin cats.length) → ℝ := fun T' => if T' = T then 1 else 0 with honly
  have e : ∀ r : (Fin cats.length → ℕ) → ℝ, averageSeen cats (byBooklet only) r (fun T' x => F (seenOf T' x))
      = ∑ x ∈ fullAnswers cats, r x * F (seenOf T x) := by
    intro r
    unfold averageSeen
    refine sum_congr rfl fun x _ => ?_
    simp only [booklet_seenOf, honly, ite_mul, one_mul, zero_mul, sum_ite_eq', mem_univ, if_true]
  rw [← e p, ← e q, averageSeen_eq, averageSeen_eq]
  refine sum_congr rfl fun z hz => ?_
  by_cases hz0 : ({j | (z j).isSome} : Finset (Fin cats.length)) = T
  · have hpz : byBooklet π z = π T := by unfold byBooklet; rw [hz0]
    have := hpq z (mem_possiblySeen.2 ⟨hz, by rw [hpz]; exact hT⟩)
    rw [seenFrom_eq p hz, seenFrom_eq q hz, hpz] at this
    rw [mul_left_cancel₀ hT.ne' this]
  · have : byBooklet only z = 0 := by
      unfold byBooklet
      simp only [honly, if_neg hz0]
    rw [this, zero_mul, zero_mul, zero_mul, zero_mul]

end Design

theorem together_symm {K : ℕ} {π : Finset (Fin K) → ℝ} {j k : Fin K} (h : Together π j k) : Together π k j := by
  obtain ⟨T, hT, hj, hk⟩ := h
  exact ⟨T, hT, hk, hj⟩

/-! ## The 2PL model in booklets -/

section TwoPL

variable {items d : ℕ} (dim : Fin items → Fin d) {C : Matrix (Fin d) (Fin d) ℝ} (hC : C.PosDef)
  {π : Finset (Fin (List.replicate items 2).length) → ℝ} (hπ : ∀ T, 0 ≤ π T) (hsum : ∑ T, π T = 1)
  (hdesign : ∀ j : Fin items, ∃ k l, dim k = dim j ∧ dim l = dim j ∧ j ≠ k ∧ j ≠ l ∧ k ≠ l ∧
    Together π ⟨j, by simp⟩ ⟨k, by simp⟩ ∧ Together π ⟨j, by simp⟩ ⟨l, by simp⟩ ∧ Together π ⟨k, by simp⟩ ⟨l, by simp⟩)

include hC hdesign in
/-- If for every item there are two others that measure the same latent variable, such that each two of the three are together in some booklet that is
handed out, what is seen determines all slopes and intercepts. -/
theorem C158_identified (p q : (Fin items → ℝ) × (Fin items → ℝ)) (hp : ∀ j, 0 < p.1 j) (hq : ∀ j, 0 < q.1 j)
    (h : ∀ z ∈ possiblySeen (List.replicate items 2) (byBooklet π),
      seenFrom (List.replicate items 2) (byBooklet π) (normalProb (fun θ : Fin d → ℝ => tableProb ((simpleTwoPL dim p).probs (List.ofFn θ))) C) z
        = seenFrom (List.replicate items 2) (byBooklet π) (normalProb (fun θ : Fin d → ℝ => tableProb ((simpleTwoPL dim q).probs (List.ofFn θ))) C) z) :
    p = q := by
  have key : ∀ j, p.1 j = q.1 j ∧ p.2 j = q.2 j := by
    intro j
    obtain ⟨k, l, hk, hl, n1, n2, n3, tjk, tjl, tkl⟩ := hdesign j
    let u : Fin 3 → Fin items := ![j, k, l]
    have hdim : ∀ i, dim (u i) = dim j := by
      intro i
      fin_cases i
      exacts [rfl, hk, hl]
    have htog : ∀ i i', i ≠ i' → Together π (⟨u i, by simp⟩ : Fin (List.replicate items 2).length) ⟨u i', by simp⟩ := by
      intro i i' hne
      fin_cases i <;> fin_cases i'
      exacts [absurd rfl hne, tjk, tjl, together_symm tjk, absurd rfl hne, tkl, together_symm tjl, together_symm tkl, absurd rfl hne]
    have hu : ∀ i i', i ≠ i' → u i ≠ u i' := by
      intro i i' hne
      fin_cases i <;> fin_cases i'
      exacts [absurd rfl hne, n1, n2, n1.symm, absurd rfl hne, n3, n2.symm, n3.symm, absurd rfl hne]
    have hid := momentsAt_identified (ι := Fin 3) hC (dim j) (by decide)
      (fun i => p.1 (u i), fun i => p.2 (u i)) (fun i => q.1 (u i), fun i => q.2 (u i)) (fun i => hp _) (fun i => hq _)
      (fun i => by
        have e1 := simpleTwoPL_right dim hC p (u i)
        have e2 := simpleTwoPL_right dim hC q (u i)
        rw [hdim] at e1 e2
        dsimp only
        rw [← e1, ← e2]
        obtain ⟨T, hT, hm, _⟩ := htog i (i + 1) (by fin_cases i <;> decide)
        have := booklet_average h hT fun z => if z ⟨u i, by simp⟩ = some 1 then 1 else 0
        simpa only [seenOf, if_pos hm, Option.some.injEq] using this)
      (fun i i' hne => by
        have e1 := simpleTwoPL_both dim hC p (hu i i' hne) ((hdim i').trans (hdim i).symm)
        have e2 := simpleTwoPL_both dim hC q (hu i i' hne) ((hdim i').trans (hdim i).symm)
        rw [hdim] at e1 e2
        dsimp only
        rw [← e1, ← e2]
        obtain ⟨T, hT, hm, hm'⟩ := htog i i' hne
        have := booklet_average h hT fun z => (if z ⟨u i, by simp⟩ = some 1 then 1 else 0) * if z ⟨u i', by simp⟩ = some 1 then 1 else 0
        simpa only [seenOf, if_pos hm, if_pos hm', Option.some.injEq] using this)
    obtain ⟨g1, g2⟩ := Prod.mk.inj hid
    exact ⟨congrFun g1 0, congrFun g2 0⟩
  exact Prod.ext (funext fun j => (key j).1) (funext fun j => (key j).2)

variable {hg : ℕ → Except PyErr (List ℝ × List ℝ)} (hrules : ExactRules hg)
  {ch : Matrix (Fin d) (Fin d) ℝ → Except PyErr (Matrix (Fin d) (Fin d) ℝ)} (cov : Option CovArg) {L : Matrix (Fin d) (Fin d) ℝ}
  (hcov : cov = none ∧ C = 1 ∨ ∃ c, cov = some c ∧ c.rows = d ∧ c.cols = d ∧ C = Matrix.of fun i j : Fin d => c.entry i j)
  (hL : ch C = .ok L) (hchol : IsCholesky C L)

include hC hπ hsum hdesign hrules hcov hL hchol in
/-- C158: the 2PL model with booklets. Nobody answers all items, and two items need not be in a common booklet. With enough Gauss-Hermite points and
enough respondents all slopes and intercepts with the smallest loss within bounds are within `ε` of the true ones, but for a risk as small as
one likes. -/
theorem C158_twoPL (hitems : 0 < items) {α : ℝ} (hα : 0 < α) (β : ℝ) (p₀ : (Fin items → ℝ) × (Fin items → ℝ)) (h₀ : ∀ j, 0 < p₀.1 j)
    (ε : ℝ) (hε : 0 < ε) :
    ∃ n₀ : ℕ, 1 ≤ n₀ ∧ ∀ risk : ℝ, 0 < risk → ∃ N₀ : ℕ, ∀ n, n₀ ≤ n → ∀ N, N₀ ≤ N →
      ∀ pts lw, mmlIntegration hg ch "gauss_hermite" (some n) cov = .ok (pts, lw) →
      ∀ estimate : (Fin N → Fin (List.replicate items 2).length → Option ℕ) → (Fin items → ℝ) × (Fin items → ℝ),
      (∀ s ∈ seenSamples N (List.replicate items 2) (byBooklet π), estimate s ∈ TwoPLBounds items α β ∧
        ∃ L L' : ℝ, mmlLoss ((simpleTwoPL dim p₀).scorer d) (rowsOf N (List.replicate items 2).length (seenCells s)) pts lw = .ok (some L) ∧
          mmlLoss ((simpleTwoPL dim (estimate s)).scorer d) (rowsOf N (List.replicate items 2).length (seenCells s)) pts lw = .ok (some L') ∧ L' ≤ L) →
      ∀ far : Finset (Fin N → Fin (List.replicate items 2).length → Option ℕ), far ⊆ seenSamples N (List.replicate items 2) (byBooklet π) →
        (∀ s ∈ far, ∃ j, ε ≤ |(estimate s).1 j - p₀.1 j| ∨ ε ≤ |(estimate s).2 j - p₀.2 j|) →
        ∑ s ∈ far, seenSampleProb (seenFrom (List.replicate items 2) (byBooklet π)
          (normalProb (fun θ : Fin d → ℝ => tableProb ((simpleTwoPL dim p₀).probs (List.ofFn θ))) C)) s ≤ risk := by
  have hU : IsOpen {p : (Fin items → ℝ) × (Fin items → ℝ) | ∀ j, |p.1 j - p₀.1 j| < ε ∧ |p.2 j - p₀.2 j| < ε} := by
    rw [Set.ofPred_forall]
    refine isOpen_iInter_of_finite fun j => ?_
    rw [Set.ofPred_and]
    exact (isOpen_lt (by fun_prop) continuous_const).inter (isOpen_lt (by fun_prop) continuous_const)
  obtain ⟨n₀, h1, h⟩ := C158_parameters (byBooklet_asking _ hπ hsum) (fun p : (Fin items → ℝ) × (Fin items → ℝ) => (simpleTwoPL dim p).scorer d)
    (fun p θ => tableProb ((simpleTwoPL dim p).probs (List.ofFn θ))) (simpleTwoPL_isScorer dim hitems) (simpleTwoPL_positive dim)
    (simpleTwoPL_proper dim) (simpleTwoPL_jointly dim) (simpleTwoPL_le_one dim) hrules cov hcov hC hL hchol _ (twoPLBounds_compact items α β) p₀
    (fun p hp hb => C158_identified dim hC hdesign p p₀ (fun j => hα.trans_le (hp j).1) h₀ hb) _ hU (fun j => by simpa using hε)
  refine ⟨n₀, h1, fun risk hrisk => ?_⟩
  obtain ⟨N₀, hN₀⟩ := h risk hrisk
  refine ⟨N₀, fun n hn N hN pts lw hok estimate hest far hfar hout => hN₀ n hn N hN pts lw hok estimate hest far hfar fun s hs hin => ?_⟩
  obtain ⟨j, hj | hj⟩ := hout s hs
  · exact absurd (hin j).1 (not_lt.2 hj)
  · exact absurd (hin j).2 (not_lt.2 hj)

/-- Within bounds there are, for every sample, parameters with the smallest loss. -/
theorem C158_exists (hitems : 0 < items) (π : Finset (Fin (List.replicate items 2).length) → ℝ) (pts : Thetas d) (lw : List ℝ)
    (hlen : lw.length = pts.length) (hne : pts ≠ []) {α β : ℝ} (hα : 0 < α) (hβ : α ≤ β) (N : ℕ)
    (s : Fin N → Fin (List.replicate items 2).length → Option ℕ) (hs : s ∈ seenSamples N (List.replicate items 2) (byBooklet π)) :
    ∃ p ∈ TwoPLBounds items α β,
      ∃ L', mmlLoss ((simpleTwoPL dim p).scorer d) (rowsOf N (List.replicate items 2).length (seenCells s)) pts lw = .ok (some L') ∧
      ∀ q ∈ TwoPLBounds items α β,
        ∃ L, mmlLoss ((simpleTwoPL dim q).scorer d) (rowsOf N (List.replicate items 2).length (seenCells s)) pts lw = .ok (some L) ∧ L' ≤ L := by
  have hloss := fun p : (Fin items → ℝ) × (Fin items → ℝ) =>
    seenSample_loss (simpleTwoPL_isScorer dim hitems p) (simpleTwoPL_positive dim p) (simpleTwoPL_proper dim p) pts lw hlen hne hs
  have hc : Continuous fun p : (Fin items → ℝ) × (Fin items → ℝ) =>
      -(∑ i, Real.log (seenProb (List.replicate items 2) (byBooklet π) (fun θ : Fin d → ℝ => tableProb ((simpleTwoPL dim p).probs (List.ofFn θ))) pts
        (lw.map Real.exp) (s i)) - ∑ i, Real.log (byBooklet π (s i)) + N * Real.log (lw.map Real.exp).sum) := by
    refine Continuous.neg (Continuous.add (Continuous.sub (continuous_finsetSum _ fun i _ => Continuous.log ?_ fun p => ?_) continuous_const)
      continuous_const)
    · unfold seenProb
      refine continuous_finsetSum _ fun x _ => Continuous.mul ?_ continuous_const
      exact continuousOn_univ.1 (continuousOn_populationProb
        (fun (p : (Fin items → ℝ) × (Fin items → ℝ)) (θ : Fin d → ℝ) => tableProb ((simpleTwoPL dim p).probs (List.ofFn θ))) Set.univ
        (fun θ j r => Continuous.continuousOn (Continuous.comp (g := fun q : ((Fin items → ℝ) × (Fin items → ℝ)) × (Fin d → ℝ) =>
          tableProb ((simpleTwoPL dim q.1).probs (List.ofFn q.2)) j r) (f := fun p => (p, θ)) (simpleTwoPL_jointly dim j r) (by fun_prop))) pts _ _)
    · exact (seenProb_pos (simpleTwoPL_positive dim p) pts lw hlen hne (simpleTwoPL_proper dim p) (Fintype.mem_piFinset.1 hs i)).ne'
  obtain ⟨p, hp, hmin⟩ := (twoPLBounds_compact items α β).exists_isMinOn
    ⟨(fun _ => α, fun _ => 0), fun _ => ⟨le_rfl, hβ, by simpa using hα.le.trans hβ⟩⟩ hc.continuousOn
  exact ⟨p, hp, _, hloss p, fun q hq => ⟨_, hloss q, hmin hq⟩⟩

end TwoPL

/-! ## Two booklets of three items without a common item -/

/-- The first three items and the last three items. -/
def exBooklet (first : Bool) : Finset (Fin (List.replicate 6 2).length) := {j | ((j : ℕ) < 3) = first}

theorem exBooklet_ne : exBooklet true ≠ exBooklet false := by
  intro h
  have : (⟨0, by simp⟩ : Fin (List.replicate 6 2).length) ∈ exBooklet true := by simp [exBooklet]
  rw [h] at this
  simp [exBooklet] at this

/-- Half of the respondents get the first booklet, half the second. -/
noncomputable def exBooklets (T : Finset (Fin (List.replicate 6 2).length)) : ℝ :=
  (if T = exBooklet true then 1 / 2 else 0) + if T = exBooklet false then 1 / 2 else 0

theorem exBooklets_nonneg (T : Finset (Fin (List.replicate 6 2).length)) : 0 ≤ exBooklets T := by
  unfold exBooklets
  split_ifs <;> norm_num

theorem exBooklets_sum : ∑ T, exBooklets T = 1 := by
  unfold exBooklets
  rw [Finset.sum_add_distrib, Finset.sum_ite_eq', Finset.sum_ite_eq', if_pos (Finset.mem_univ _), if_pos (Finset.mem_univ _)]
  norm_num

theorem exBooklets_pos (b : Bool) : 0 < exBooklets (exBooklet b) := by
  unfold exBooklets
  cases b
  · rw [if_pos rfl]; split_ifs <;> norm_num
  · rw [if_pos rfl]; split_ifs <;> norm_num

theorem exBooklets_design : ∀ j : Fin 6, ∃ k l, (fun _ : Fin 6 => (0 : Fin 1)) k = (fun _ : Fin 6 => (0 : Fin 1)) j ∧
    (fun _ : Fin 6 => (0 : Fin 1)) l = (fun _ : Fin 6 => (0 : Fin 1)) j ∧ j ≠ k ∧ j ≠ l ∧ k ≠ l ∧
    Together exBooklets ⟨j, by simp⟩ ⟨k, by simp⟩ ∧ Together exBooklets ⟨j, by simp⟩ ⟨l, by simp⟩ ∧ Together exBooklets ⟨k, by simp⟩ ⟨l, by simp⟩ := by
  intro j
  have h : ∀ j : Fin 6, ∃ k l : Fin 6, j ≠ k ∧ j ≠ l ∧ k ≠ l ∧ decide ((k : ℕ) < 3) = decide ((j : ℕ) < 3) ∧ decide ((l : ℕ) < 3) = decide ((j : ℕ) < 3) := by
    decide
  obtain ⟨k, l, h1, h2, h3, h4, h5⟩ := h j
  simp only [decide_eq_decide] at h4 h5
  have mj : (⟨j, by simp⟩ : Fin (List.replicate 6 2).length) ∈ exBooklet (decide ((j : ℕ) < 3)) := by simp [exBooklet]
  have mk : (⟨k, by simp⟩ : Fin (List.replicate 6 2).length) ∈ exBooklet (decide ((j : ℕ) < 3)) := by simp [exBooklet, h4]
  have ml : (⟨l, by simp⟩ : Fin (List.replicate 6 2).length) ∈ exBooklet (decide ((j : ℕ) < 3)) := by simp [exBooklet, h5]
  have hpos := exBooklets_pos (decide ((j : ℕ) < 3))
  exact ⟨k, l, rfl, rfl, h1, h2, h3, ⟨_, hpos, mj, mk⟩, ⟨_, hpos, mj, ml⟩, ⟨_, hpos, mk, ml⟩⟩

/-- Half of the respondents answer the first three items, half the last three. For every sample there are best parameters within bounds, and with enough
points and respondents they are within a tenth of the truth with a probability of at least 95 percent. -/
example : ∃ (hg : ℕ → Except PyErr (List ℝ × List ℝ)) (n₀ N₀ : ℕ), ExactRules hg ∧ ∀ n, n₀ ≤ n → ∀ N, N₀ ≤ N →
    ∃ (pts : Thetas 1) (lw : List ℝ) (estimate : (Fin N → Fin (List.replicate 6 2).length → Option ℕ) → (Fin 6 → ℝ) × (Fin 6 → ℝ)),
      mmlIntegration hg (fun _ => .ok (1 : Matrix (Fin 1) (Fin 1) ℝ)) "gauss_hermite" (some n) none = .ok (pts, lw) ∧
      ∀ far : Finset (Fin N → Fin (List.replicate 6 2).length → Option ℕ), far ⊆ seenSamples N (List.replicate 6 2) (byBooklet exBooklets) →
        (∀ s ∈ far, ∃ j, 1 / 10 ≤ |(estimate s).1 j - exSimple.1 j| ∨ 1 / 10 ≤ |(estimate s).2 j - exSimple.2 j|) →
        ∑ s ∈ far, seenSampleProb (seenFrom (List.replicate 6 2) (byBooklet exBooklets)
          (normalProb (fun θ : Fin 1 → ℝ => tableProb ((simpleTwoPL (fun _ : Fin 6 => (0 : Fin 1)) exSimple).probs (List.ofFn θ))) 1)) s ≤ 1 / 20 := by
  classical
  obtain ⟨hg, hrules⟩ := C141_rules_exist
  obtain ⟨n₀, h1, h⟩ := C158_twoPL (fun _ : Fin 6 => (0 : Fin 1)) Matrix.PosDef.one exBooklets_nonneg exBooklets_sum exBooklets_design hrules
    (ch := fun _ => .ok (1 : Matrix (Fin 1) (Fin 1) ℝ)) none (Or.inl ⟨rfl, rfl⟩) rfl (by simp [IsCholesky]) (by norm_num) (α := 1 / 10) (by norm_num) 5
    exSimple exSimple_pos (1 / 10) (by norm_num)
  obtain ⟨N₀, hN₀⟩ := h (1 / 20) (by norm_num)
  refine ⟨hg, n₀, N₀, hrules, fun n hn N hN => ?_⟩
  obtain ⟨x, w, hx, hexact⟩ := hrules n (h1.trans hn)
  obtain ⟨pts, lw, hok, hl, hne, _⟩ := integration_rule (ch := fun _ => .ok (1 : Matrix (Fin 1) (Fin 1) ℝ)) none (Or.inl ⟨rfl, rfl⟩) rfl (h1.trans hn)
    hx hexact
  choose! estimate hb hmin using C158_exists (fun _ : Fin 6 => (0 : Fin 1)) (by norm_num) exBooklets pts lw hl hne (α := 1 / 10) (β := 5)
    (by norm_num) (by norm_num) N
  refine ⟨pts, lw, estimate, hok, hN₀ n hn N hN pts lw hok estimate fun s hs => ⟨hb s hs, ?_⟩⟩
  obtain ⟨L', hL', hbest⟩ := hmin s hs
  obtain ⟨L, hL, hle⟩ := hbest exSimple exSimple_mem
  exact ⟨L, L', hL, hL', hle⟩

/-! ## Booklets of two items -/

/-- One of the three pairs of three items, each with the same probability. -/
noncomputable def exPairs (T : Finset (Fin (List.replicate 3 2).length)) : ℝ := if T.card = 2 then 1 / 3 else 0

theorem exPairs_together (j k : Fin 3) (h : j ≠ k) : Together exPairs ⟨j, by simp⟩ ⟨k, by simp⟩ := by
  refine ⟨{⟨j, by simp⟩, ⟨k, by simp⟩}, ?_, by simp, by simp⟩
  have : (⟨j, by simp⟩ : Fin (List.replicate 3 2).length) ≠ ⟨k, by simp⟩ := fun e => h (Fin.ext (Fin.mk.inj e))
  rw [exPairs, if_pos (Finset.card_pair this)]
  norm_num

theorem exPairs_design : ∀ j : Fin 3, ∃ k l, (fun _ : Fin 3 => (0 : Fin 1)) k = (fun _ : Fin 3 => (0 : Fin 1)) j ∧
    (fun _ : Fin 3 => (0 : Fin 1)) l = (fun _ : Fin 3 => (0 : Fin 1)) j ∧ j ≠ k ∧ j ≠ l ∧ k ≠ l ∧
    Together exPairs ⟨j, by simp⟩ ⟨k, by simp⟩ ∧ Together exPairs ⟨j, by simp⟩ ⟨l, by simp⟩ ∧ Together exPairs ⟨k, by simp⟩ ⟨l, by simp⟩ := by
  intro j
  have h : ∀ j : Fin 3, ∃ k l : Fin 3, j ≠ k ∧ j ≠ l ∧ k ≠ l := by decide
  obtain ⟨k, l, h1, h2, h3⟩ := h j
  exact ⟨k, l, rfl, rfl, h1, h2, h3, exPairs_together _ _ h1, exPairs_together _ _ h2, exPairs_together _ _ h3⟩

theorem exPairs_sum : ∑ T, exPairs T = 1 := by
  unfold exPairs
  rw [← Finset.sum_filter, Finset.sum_const, ← Finset.powerset_univ, ← Finset.powersetCard_eq_filter, Finset.card_powersetCard, Finset.card_univ, Fintype.card_fin]
  norm_num [Nat.choose]

/-- Three items of which every respondent answers only two. -/
example {hg : ℕ → Except PyErr (List ℝ × List ℝ)} (hrules : ExactRules hg) :=
  C158_twoPL (fun _ : Fin 3 => (0 : Fin 1)) Matrix.PosDef.one (fun T => by unfold exPairs; split_ifs <;> norm_num) exPairs_sum exPairs_design hrules
    (ch := fun _ => .ok (1 : Matrix (Fin 1) (Fin 1) ℝ)) none (Or.inl ⟨rfl, rfl⟩) rfl (by simp [IsCholesky]) (by norm_num) (α := 1 / 10) (by norm_num) 5
    (fun _ => 1, fun _ => 0) (fun _ => one_pos) (1 / 10) (by norm_num)

/-- Two items do not suffice, whatever the booklets: there are different slopes with the same probabilities of all that can be seen. -/
theorem C158_two_items_false (π : Finset (Fin (List.replicate 2 2).length) → ℝ) :
    ∃ p q : (Fin 2 → ℝ) × (Fin 2 → ℝ), p ≠ q ∧ (∀ j, 0 < p.1 j) ∧ (∀ j, 0 < q.1 j) ∧ ∀ z,
      seenFrom (List.replicate 2 2) (byBooklet π)
          (normalProb (fun θ : Fin 1 → ℝ => tableProb ((simpleTwoPL (fun _ : Fin 2 => (0 : Fin 1)) p).probs (List.ofFn θ))) 1) z
        = seenFrom (List.replicate 2 2) (byBooklet π)
          (normalProb (fun θ : Fin 1 → ℝ => tableProb ((simpleTwoPL (fun _ : Fin 2 => (0 : Fin 1)) q).probs (List.ofFn θ))) 1) z := by
  have hf := C154_two_items_false
  unfold AnswersDetermineTwoPL at hf
  push Not at hf
  obtain ⟨p, q, hp, hq, h, hne⟩ := hf
  have e : ∀ r : (Fin 2 → ℝ) × (Fin 2 → ℝ), (fun θ : Fin 1 → ℝ => tableProb ((simpleTwoPL (fun _ : Fin 2 => (0 : Fin 1)) r).probs (List.ofFn θ)))
      = fun θ : Fin 1 → ℝ => tableProb ((twoPLWith r).probs (List.ofFn θ)) := by
    intro r
    funext θ j k
    rw [simpleTwoPL_prob, twoPLWith_prob]
  refine ⟨p, q, hne, hp, hq, fun z => ?_⟩
  rw [e, e]
  exact Finset.sum_congr rfl fun x hx => by rw [h x hx]

end Irt
