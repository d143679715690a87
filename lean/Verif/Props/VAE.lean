import Verif.Lemmas.VAE
import Verif.Props.Scoring

/-! # C62: the objective of the variational autoencoder -/

namespace Irt

open ProbabilityTheory MeasureTheory

/-! ## The divergence -/

/-- C62: the divergence used with one sample is the Kullback-Leibler divergence of the encoder's normal distribution
from the standard normal distribution (the expectation of the log density ratio), it is nonnegative, and it is zero
only at the prior. -/
theorem C62_divergence {d : ℕ} (μ l : Fin d → ℝ) :
    vaeKl μ l = ∫ θ, encoderDensity μ l θ * Real.log (encoderDensity μ l θ / priorDensity θ) ∧
    0 ≤ vaeKl μ l ∧ (vaeKl μ l = 0 ↔ ∀ k, μ k = 0 ∧ l k = 0) := by
  have hterm : ∀ k, 0 ≤ μ k ^ 2 + Real.exp (l k) - 1 - l k := by
    intro k; nlinarith [Real.add_one_le_exp (l k), sq_nonneg (μ k)]
  refine ⟨(integral_divergence μ l).symm, ?_, ?_⟩
  · exact mul_nonneg (by norm_num) (Finset.sum_nonneg fun k _ => hterm k)
  · unfold vaeKl
    rw [mul_eq_zero, or_iff_right (by norm_num), Finset.sum_eq_zero_iff_of_nonneg fun k _ => hterm k]
    constructor
    · intro h k
      have hk := h k (Finset.mem_univ k)
      by_cases hl : l k = 0
      · rw [hl, Real.exp_zero] at hk
        exact ⟨by simpa using hk, hl⟩
      · have := Real.add_one_lt_exp hl
        nlinarith [sq_nonneg (μ k)]
    · intro h k _
      rw [(h k).1, (h k).2]; simp

example : vaeKl (fun _ : Fin 1 => (1 : ℝ)) (fun _ => 0) = 0.5 := by
  norm_num [vaeKl]

/-- C62: with several samples the divergence of a sample is the log density ratio at the sample. -/
theorem C62_sample_divergence {d : ℕ} (μ l θ : Fin d → ℝ) :
    vaeSampleKl μ l θ = Real.log (encoderDensity μ l θ / priorDensity θ) := vaeSampleKl_eq μ l θ

/-- C62: standard normal draws are turned into draws from the encoder's normal distribution. -/
theorem C62_samples (μ l : ℝ) :
    (gaussianReal 0 1).map (fun e => reparameterize (fun _ : Fin 1 => μ) (fun _ => l) (fun _ => e) 0)
      = gaussianReal μ (varOf l) := by
  have h : (fun e => reparameterize (fun _ : Fin 1 => μ) (fun _ => l) (fun _ => e) 0)
      = (fun x => μ + x) ∘ fun e => Real.exp (0.5 * l) * e := by
    ext e; simp [reparameterize, mul_comm]
  rw [h, ← Measure.map_map (by fun_prop) (by fun_prop), gaussianReal_map_const_mul, gaussianReal_map_const_add]
  congr 1
  · simp
  · apply NNReal.coe_injective
    simp only [NNReal.coe_mul, NNReal.coe_mk, NNReal.coe_one, mul_one, varOf_coe]
    exact exp_half_sq l

/-! ## Annealing -/

/-- C62: with annealing over `K > 0` iterations the weight of the divergence starts at 0, stays in [0, 1], never
decreases, and is 1 exactly from iteration `K` on; without annealing it is 1. -/
theorem C62_annealing (K : ℕ) (hK : 0 < K) :
    (∃ f : ℕ → ℝ, (∀ t, annealingFactor true t K = .ok (f t)) ∧ f 0 = 0 ∧ (∀ t, 0 ≤ f t ∧ f t ≤ 1) ∧
      Monotone f ∧ ∀ t, f t = 1 ↔ K ≤ t) ∧
    ∀ t K', annealingFactor false t K' = .ok 1 := by
  have hK' : (0 : ℝ) < K := by exact_mod_cast hK
  refine ⟨⟨fun t => min 1 ((t : ℝ) / K), ?_, by simp, ?_, ?_, ?_⟩, fun t K' => rfl⟩
  · intro t; simp [annealingFactor, hK.ne']
  · intro t; exact ⟨le_min zero_le_one (by positivity), min_le_left _ _⟩
  · intro a b hab
    apply min_le_min le_rfl
    exact div_le_div_of_nonneg_right (by exact_mod_cast hab) hK'.le
  · intro t
    simp only [min_eq_left_iff]
    rw [le_div_iff₀ hK', one_mul]
    exact_mod_cast Iff.rfl

/-- C62: annealing over zero iterations raises `ZeroDivisionError` in the first iteration. -/
theorem C62_annealing_zero {d : ℕ} (m : Scorer d) (S t : ℕ) (data : List (List Cell)) (mean logvar eps : Thetas d) :
    vaeObjective m S true t 0 data mean logvar eps = .error .zeroDivision := rfl

example : annealingFactor true 3 5 = .ok 0.6 := by norm_num [annealingFactor]

/-! ## The bound of the objective -/

/-- C62: the importance weighted bound of a respondent lies between the average and the maximum of the values of the
samples. -/
theorem C62_between (S N : ℕ) (hS : 1 ≤ S) (w : ℕ → ℕ → ℝ) :
    ∃ b : ℕ → ℝ, vaeCombine N (rowsOf S N fun s i => .fin (w s i)) = (List.range N).map (fun i => .fin (b i)) ∧
      ∀ i, i < N → (∑ s ∈ Finset.range S, w s i) / S ≤ b i ∧ (∃ s, s < S ∧ b i ≤ w s i) := by
  have hS' : (0 : ℝ) < S := by exact_mod_cast hS
  have hlen : (rowsOf S N fun s i => Logit.fin (w s i)).length = S := by simp [rowsOf]
  rcases Nat.eq_or_lt_of_le hS with h1 | h1
  · subst h1
    refine ⟨w 0, ?_, ?_⟩
    · simp [vaeCombine, rowsOf]
    · intro i _
      exact ⟨by simp, 0, by norm_num, le_rfl⟩
  · refine ⟨fun i => Real.log ((∑ s ∈ Finset.range S, Real.exp (w s i)) / S), ?_, ?_⟩
    · unfold vaeCombine
      rw [if_neg (by rw [hlen]; omega), hlen]
      apply List.map_congr_left
      intro i hi
      have hi := List.mem_range.1 hi
      have e : ((rowsOf S N fun s i => Logit.fin (w s i)).map fun r => (r.getD i .negInf).exp).sum
          = ∑ s ∈ Finset.range S, Real.exp (w s i) := by
        rw [← list_sum_range]
        simp only [rowsOf, List.map_map]
        congr 1
        apply List.map_congr_left
        intro s _
        simp only [Function.comp]
        rw [List.getD_eq_getElem?_getD, List.getElem?_map, List.getElem?_range hi]
        rfl
      have hpos : 0 < ∑ s ∈ Finset.range S, Real.exp (w s i) :=
        Finset.sum_pos (fun _ _ => Real.exp_pos _) ⟨0, Finset.mem_range.2 hS⟩
      rw [e]
      simp only [logE, hpos.ne', if_false, Logit.add]
      rw [Real.log_div hpos.ne' hS'.ne', sub_eq_add_neg]
    · intro i _
      have hpos : 0 < ∑ s ∈ Finset.range S, Real.exp (w s i) :=
        Finset.sum_pos (fun _ _ => Real.exp_pos _) ⟨0, Finset.mem_range.2 hS⟩
      constructor
      · have hj := convexOn_exp.map_sum_le (t := Finset.range S) (w := fun _ => (1 : ℝ) / S) (p := fun s => w s i)
          (fun _ _ => by positivity) (by simp [hS'.ne']) (fun _ _ => Set.mem_univ _)
        simp only [smul_eq_mul, ← Finset.mul_sum] at hj
        rw [Real.le_log_iff_exp_le (div_pos hpos hS')]
        calc _ = Real.exp (1 / (S : ℝ) * ∑ s ∈ Finset.range S, w s i) := by congr 1; ring
          _ ≤ _ := hj
          _ = _ := by ring
      · obtain ⟨s, hs, hmax⟩ := Finset.exists_max_image (Finset.range S) (fun s => w s i) ⟨0, Finset.mem_range.2 hS⟩
        refine ⟨s, Finset.mem_range.1 hs, ?_⟩
        rw [Real.log_le_iff_le_exp (div_pos hpos hS'), div_le_iff₀ hS']
        calc _ ≤ ∑ _r ∈ Finset.range S, Real.exp (w s i) :=
              Finset.sum_le_sum fun r hr => Real.exp_le_exp.2 (hmax r hr)
          _ = _ := by simp [mul_comm]

example : vaeCombine 1 [[.fin 0], [.fin (Real.log 3)]] = [.fin (Real.log 2)] := by
  have h : (2 : ℝ) = 4 / 2 := by norm_num
  simp only [vaeCombine, List.length_cons, List.length_nil, List.range_one, List.map_cons, List.map_nil, List.getD_cons_zero,
    Logit.exp, List.sum_cons, List.sum_nil, Real.exp_zero]
  rw [Real.exp_log (by norm_num), if_neg (by norm_num)]
  simp only [logE, Logit.add]
  rw [if_neg (by norm_num)]
  congr 2
  rw [h, Real.log_div (by norm_num) (by norm_num)]
  norm_num
  ring

/-! ## The objective -/

/-- Helper: what the code computes for every sample and respondent. -/
theorem vaeSampleBounds_eq {d : ℕ} {m : Scorer d} {cats : List ℕ} {P : (Fin d → ℝ) → ℕ → ℕ → ℝ}
    (hm : IsScorer m cats P) (N S : ℕ) (hS : 1 ≤ S) (y : ℕ → ℕ → Cell) (hy : ∀ i, i < N → ValidResponses cats (y i))
    (a : ℝ) (μ l : ℕ → Fin d → ℝ) (ε : ℕ → ℕ → Fin d → ℝ) :
    vaeSampleBounds m S a (rowsOf N m.items y) ((List.range N).map μ) ((List.range N).map l) (flatTensor S N ε)
      = .ok (rowsOf S N fun s i => Logit.add (logLikAt P m.items (y i) (reparameterize (μ i) (l i) (ε s i)))
          (.fin (-(a * if S = 1 then vaeKl (μ i) (l i)
            else vaeSampleKl (μ i) (l i) (reparameterize (μ i) (l i) (ε s i)))))) := by
  have hth : vaeSamples S ((List.range N).map μ) ((List.range N).map l) (flatTensor S N ε)
      = flatTensor S N fun s i => reparameterize (μ i) (l i) (ε s i) := by
    unfold vaeSamples
    rw [tile_range, tile_range]
    unfold List.zip
    rw [zipWith_flatTensor, zipWith_flatTensor]
  have hc := table_core hm S N (fun s i => reparameterize (μ i) (l i) (ε s i)) (fun _ i => y i)
    (fun _ _ i hi => hy i hi)
  have e1 : tile S (rowsOf N m.items y) = flatTensor S N fun _ i => (List.range m.items).map (y i) :=
    tile_range S N fun i => (List.range m.items).map (y i)
  unfold vaeSampleBounds
  rw [hth, e1]
  simp only [map_flatTensor] at hc ⊢
  have hmul : S * m.items ≠ 0 := Nat.mul_ne_zero (by omega) (by have := hm.items_pos; omega)
  generalize hg : m.logLik _ _ _ = g at hc ⊢
  cases g with
  | error e => simp [Except.map] at hc
  | ok ll =>
    simp only [Except.map, Except.ok.injEq] at hc
    simp only [bind, Except.bind, if_neg hmul, hc, length_flatTensor, Nat.mul_div_cancel_left _ (show 0 < S by omega)]
    simp only [pure, Except.pure]
    congr 1
    by_cases h1 : S = 1
    · subst h1
      simp only [if_true]
      have e2 : List.zipWith vaeKl ((List.range N).map μ) ((List.range N).map l)
          = flatTensor 1 N fun _ i => vaeKl (μ i) (l i) := by
        simp [flatTensor, List.zipWith_map, List.zipWith_self]
      rw [e2, zipWith_flatTensor, viewRows_flatTensor]
    · simp only [if_neg h1]
      rw [tile_range, tile_range]
      unfold List.zip
      rw [zipWith_flatTensor, zipWith_flatTensor, zipWith_flatTensor, viewRows_flatTensor]

/-- Helper: sum of finite entries. -/
theorem logit_sum_fin (xs : List ℝ) : Logit.sum (xs.map Logit.fin) = .fin xs.sum := by
  induction xs with
  | nil => rfl
  | cons a t ih =>
    have : Logit.sum ((a :: t).map Logit.fin) = Logit.add (.fin a) (Logit.sum (t.map Logit.fin)) := rfl
    rw [this, ih]; rfl

theorem logit_sum_negInf (xs : List Logit) (h : Logit.negInf ∈ xs) : Logit.sum xs = .negInf := by
  induction xs with
  | nil => simp at h
  | cons a t ih =>
    have e : Logit.sum (a :: t) = Logit.add a (Logit.sum t) := rfl
    rw [e]
    rcases List.mem_cons.1 h with h | h
    · rw [← h]; rfl
    · rw [ih h]; cases a <;> rfl

theorem logit_eq_of_exp (a : Logit) (x : ℝ) (h : a.exp = x) : a = if x = 0 then .negInf else .fin (Real.log x) := by
  cases a with
  | negInf => simp only [Logit.exp] at h; simp [← h]
  | fin v =>
    simp only [Logit.exp] at h
    rw [← h, if_neg (Real.exp_pos v).ne', Real.log_exp]

theorem logit_of_exp (a : Logit) (x : ℝ) (h : a.exp = x) : a = logE x := logit_eq_of_exp a x h

theorem exp_neg_mul_divergence {d : ℕ} (a : ℝ) (μ l θ : Fin d → ℝ) :
    Real.exp (-(a * vaeSampleKl μ l θ)) = (priorDensity θ / encoderDensity μ l θ) ^ a := by
  rw [vaeSampleKl_eq, Real.rpow_def_of_pos (div_pos (priorDensity_pos _) (encoderDensity_pos _ _ _)),
    Real.log_div (encoderDensity_pos _ _ _).ne' (priorDensity_pos _).ne',
    Real.log_div (priorDensity_pos _).ne' (encoderDensity_pos _ _ _).ne']
  congr 1; ring

theorem negInf_or_fin (N : ℕ) (hN : 0 < N) (b : ℕ → ℝ) :
    ((∀ i, i < N → b i ≠ 0) → Logit.div (Logit.sum ((List.range N).map fun i => logE (b i))) N
      = .fin ((∑ i ∈ Finset.range N, Real.log (b i)) / N)) ∧
    ((∃ i, i < N ∧ b i = 0) → Logit.div (Logit.sum ((List.range N).map fun i => logE (b i))) N = .negInf) := by
  constructor
  · intro h
    have e : ((List.range N).map fun i => logE (b i)) = ((List.range N).map fun i => Real.log (b i)).map Logit.fin := by
      rw [List.map_map]
      apply List.map_congr_left
      intro i hi
      simp [logE, h i (List.mem_range.1 hi)]
    rw [e, logit_sum_fin, list_sum_range]; rfl
  · rintro ⟨i, hi, h⟩
    rw [logit_sum_negInf _ (List.mem_map.2 ⟨i, List.mem_range.2 hi, by simp [logE, h]⟩)]
    rfl

/-- C62, one sample: minus the loss of a batch is the mean over the respondents of the log likelihood of the observed
responses at the respondent's sample minus the weighted divergence; it is minus infinity exactly when the observed
responses of some respondent have probability zero. -/
theorem C62_objective_one {d : ℕ} {m : Scorer d} {cats : List ℕ} {P : (Fin d → ℝ) → ℕ → ℕ → ℝ}
    (hm : IsScorer m cats P) (N : ℕ) (hN : 0 < N) (y : ℕ → ℕ → Cell) (hy : ∀ i, i < N → ValidResponses cats (y i))
    (anneal : Bool) (t K : ℕ) (a : ℝ) (ha : annealingFactor anneal t K = .ok a)
    (μ l : ℕ → Fin d → ℝ) (ε : ℕ → Fin d → ℝ) (θ : ℕ → Fin d → ℝ)
    (hθ : ∀ i, θ i = fun k => μ i k + ε i k * Real.exp (l i k / 2)) :
    ((∀ i, i < N → observedLikelihood P cats.length (y i) (θ i) ≠ 0) →
      vaeObjective m 1 anneal t K (rowsOf N cats.length y) ((List.range N).map μ) ((List.range N).map l)
          ((List.range N).map ε)
        = .ok (some (.fin ((∑ i ∈ Finset.range N,
            (Real.log (observedLikelihood P cats.length (y i) (θ i)) - a * vaeKl (μ i) (l i))) / N)))) ∧
    ((∃ i, i < N ∧ observedLikelihood P cats.length (y i) (θ i) = 0) →
      vaeObjective m 1 anneal t K (rowsOf N cats.length y) ((List.range N).map μ) ((List.range N).map l)
          ((List.range N).map ε) = .ok (some .negInf)) := by
  have hθ' : ∀ i, reparameterize (μ i) (l i) (ε i) = θ i := by
    intro i; rw [hθ]; unfold reparameterize; ext k; congr 3; ring
  have e : (List.range N).map ε = flatTensor 1 N fun _ i => ε i := by simp [flatTensor]
  have hrow : vaeObjective m 1 anneal t K (rowsOf N m.items y) ((List.range N).map μ) ((List.range N).map l)
      ((List.range N).map ε) = .ok (some (Logit.div (Logit.sum ((List.range N).map fun i =>
        logE (observedLikelihood P m.items (y i) (θ i) * Real.exp (-(a * vaeKl (μ i) (l i)))))) N)) := by
    unfold vaeObjective
    rw [ha, e]
    simp only [bind, Except.bind]
    rw [vaeSampleBounds_eq hm N 1 le_rfl y hy a μ l fun _ i => ε i]
    have hl : (rowsOf N m.items y).length = N := by simp [rowsOf]
    simp only [hl, if_true, hθ']
    have hc : vaeCombine N (rowsOf 1 N fun _ i => Logit.add (logLikAt P m.items (y i) (θ i))
        (.fin (-(a * vaeKl (μ i) (l i))))) = (List.range N).map fun i =>
        logE (observedLikelihood P m.items (y i) (θ i) * Real.exp (-(a * vaeKl (μ i) (l i)))) := by
      simp only [vaeCombine, rowsOf, List.range_one, List.map_cons, List.map_nil, List.length_cons, List.length_nil,
        List.headD_cons, if_true, zero_add]
      apply List.map_congr_left
      intro i _
      apply logit_of_exp
      rw [exp_add, exp_logLikAt P hm.nonneg]; rfl
    rw [hc]
    simp [hN.ne', pure, Except.pure]
  rw [← hm.items, hrow]
  have hb := negInf_or_fin N hN fun i => observedLikelihood P m.items (y i) (θ i) * Real.exp (-(a * vaeKl (μ i) (l i)))
  constructor
  · intro h
    rw [hb.1 fun i hi => mul_ne_zero (h i hi) (Real.exp_pos _).ne']
    have hsum : ∑ i ∈ Finset.range N, Real.log (observedLikelihood P m.items (y i) (θ i) *
        Real.exp (-(a * vaeKl (μ i) (l i)))) = ∑ i ∈ Finset.range N,
          (Real.log (observedLikelihood P m.items (y i) (θ i)) - a * vaeKl (μ i) (l i)) := by
      refine Finset.sum_congr rfl fun i hi => ?_
      rw [Real.log_mul (h i (Finset.mem_range.1 hi)) (Real.exp_pos _).ne', Real.log_exp]; ring
    rw [hsum]
  · rintro ⟨i, hi, h⟩
    rw [hb.2 ⟨i, hi, by rw [h, zero_mul]⟩]

/-- C62, several samples: minus the loss of a batch is the mean over the respondents of the log of the average
importance weight of the respondent's samples, `ε s i` being the standard normal draws of sample `s`; it is minus
infinity exactly when for some respondent every sample has weight zero. -/
theorem C62_objective_many {d : ℕ} {m : Scorer d} {cats : List ℕ} {P : (Fin d → ℝ) → ℕ → ℕ → ℝ}
    (hm : IsScorer m cats P) (N : ℕ) (hN : 0 < N) (S : ℕ) (hS : 2 ≤ S) (y : ℕ → ℕ → Cell)
    (hy : ∀ i, i < N → ValidResponses cats (y i))
    (anneal : Bool) (t K : ℕ) (a : ℝ) (ha : annealingFactor anneal t K = .ok a)
    (μ l : ℕ → Fin d → ℝ) (ε θ : ℕ → ℕ → Fin d → ℝ)
    (hθ : ∀ s i, θ s i = fun k => μ i k + ε s i k * Real.exp (l i k / 2)) :
    ((∀ i, i < N → ∑ s ∈ Finset.range S, importanceWeight P cats.length (y i) a (μ i) (l i) (θ s i) ≠ 0) →
      vaeObjective m S anneal t K (rowsOf N cats.length y) ((List.range N).map μ) ((List.range N).map l)
          (flatTensor S N ε)
        = .ok (some (.fin ((∑ i ∈ Finset.range N, Real.log
            ((∑ s ∈ Finset.range S, importanceWeight P cats.length (y i) a (μ i) (l i) (θ s i)) / S)) / N)))) ∧
    ((∃ i, i < N ∧ ∑ s ∈ Finset.range S, importanceWeight P cats.length (y i) a (μ i) (l i) (θ s i) = 0) →
      vaeObjective m S anneal t K (rowsOf N cats.length y) ((List.range N).map μ) ((List.range N).map l)
          (flatTensor S N ε) = .ok (some .negInf)) := by
  have hS0 : (S : ℝ) ≠ 0 := by exact_mod_cast (show S ≠ 0 by omega)
  have hθ' : ∀ s i, reparameterize (μ i) (l i) (ε s i) = θ s i := by
    intro s i; rw [hθ]; unfold reparameterize; ext k; congr 3; ring
  have hrow : vaeObjective m S anneal t K (rowsOf N m.items y) ((List.range N).map μ) ((List.range N).map l)
      (flatTensor S N ε) = .ok (some (Logit.div (Logit.sum ((List.range N).map fun i =>
        logE ((∑ s ∈ Finset.range S, importanceWeight P m.items (y i) a (μ i) (l i) (θ s i)) / S))) N)) := by
    unfold vaeObjective
    rw [ha]
    simp only [bind, Except.bind]
    rw [vaeSampleBounds_eq hm N S (by omega) y hy a μ l ε]
    have hl : (rowsOf N m.items y).length = N := by simp [rowsOf]
    simp only [hl, if_neg (show S ≠ 1 by omega), hθ']
    have hc : vaeCombine N (rowsOf S N fun s i => Logit.add (logLikAt P m.items (y i) (θ s i))
        (.fin (-(a * vaeSampleKl (μ i) (l i) (θ s i))))) = (List.range N).map fun i =>
        logE ((∑ s ∈ Finset.range S, importanceWeight P m.items (y i) a (μ i) (l i) (θ s i)) / S) := by
      unfold vaeCombine
      have hlen : (rowsOf S N fun s i => Logit.add (logLikAt P m.items (y i) (θ s i))
        (.fin (-(a * vaeSampleKl (μ i) (l i) (θ s i))))).length = S := by simp [rowsOf]
      rw [hlen, if_neg (show S ≠ 1 by omega)]
      apply List.map_congr_left
      intro i hi
      have hi := List.mem_range.1 hi
      have e : ((rowsOf S N fun s i => Logit.add (logLikAt P m.items (y i) (θ s i))
          (.fin (-(a * vaeSampleKl (μ i) (l i) (θ s i))))).map fun r => (r.getD i .negInf).exp).sum
          = ∑ s ∈ Finset.range S, importanceWeight P m.items (y i) a (μ i) (l i) (θ s i) := by
        rw [← list_sum_range]
        simp only [rowsOf, List.map_map]
        congr 1
        apply List.map_congr_left
        intro s _
        simp only [Function.comp]
        rw [List.getD_eq_getElem?_getD, List.getElem?_map, List.getElem?_range hi]
        simp only [Option.map_some, Option.getD_some]
        rw [exp_add, exp_logLikAt P hm.nonneg]
        simp only [Logit.exp]
        rw [exp_neg_mul_divergence]; rfl
      rw [e]
      apply logit_of_exp
      have hpos : 0 ≤ ∑ s ∈ Finset.range S, importanceWeight P m.items (y i) a (μ i) (l i) (θ s i) :=
        Finset.sum_nonneg fun s _ => mul_nonneg (observedLikelihood_nonneg P hm.nonneg _ _ _)
          (Real.rpow_nonneg (div_pos (priorDensity_pos _) (encoderDensity_pos _ _ _)).le _)
      rw [exp_add, exp_logE hpos]
      simp only [Logit.exp]
      rw [Real.exp_neg, Real.exp_log (by exact_mod_cast (show 0 < S by omega))]
      rfl
    rw [hc]
    simp [hN.ne', pure, Except.pure]
  rw [← hm.items, hrow]
  have hb := negInf_or_fin N hN fun i =>
    (∑ s ∈ Finset.range S, importanceWeight P m.items (y i) a (μ i) (l i) (θ s i)) / S
  constructor
  · intro h
    rw [hb.1 fun i hi => div_ne_zero (h i hi) hS0]
  · rintro ⟨i, hi, h⟩
    rw [hb.2 ⟨i, hi, by rw [h, zero_div]⟩]

/-! ## The bound is valid -/

/-- C62, one sample and full weight: the expectation of the objective of a respondent over the encoder's distribution
does not exceed the log of the marginal likelihood of the observed responses under a standard normal prior. `L` is the
likelihood as a function of the latent scores. -/
theorem C62_bound_one {d : ℕ} (L : (Fin d → ℝ) → ℝ) (hL : ∀ θ, 0 < L θ)
    (hint : Integrable fun θ => priorDensity θ * L θ) (μ l : Fin d → ℝ)
    (hlog : Integrable fun θ => encoderDensity μ l θ * Real.log (L θ)) :
    (∫ θ, encoderDensity μ l θ * Real.log (L θ)) - vaeKl μ l ≤ Real.log (∫ θ, priorDensity θ * L θ) := by
  have hcancel : ∀ θ, encoderDensity μ l θ * (L θ * (priorDensity θ / encoderDensity μ l θ)) = priorDensity θ * L θ := by
    intro θ; have := (encoderDensity_pos μ l θ).ne'; field_simp
  have hW : ∀ θ, 0 < L θ * (priorDensity θ / encoderDensity μ l θ) := fun θ =>
    mul_pos (hL θ) (div_pos (priorDensity_pos _) (encoderDensity_pos _ _ _))
  have hsplit : ∀ θ, encoderDensity μ l θ * Real.log (L θ * (priorDensity θ / encoderDensity μ l θ))
      = encoderDensity μ l θ * Real.log (L θ)
        - encoderDensity μ l θ * Real.log (encoderDensity μ l θ / priorDensity θ) := by
    intro θ
    rw [Real.log_mul (hL θ).ne' (div_pos (priorDensity_pos _) (encoderDensity_pos _ _ _)).ne',
      Real.log_div (encoderDensity_pos _ _ _).ne' (priorDensity_pos _).ne',
      Real.log_div (priorDensity_pos _).ne' (encoderDensity_pos _ _ _).ne']
    ring
  have hpos : 0 < ∫ θ, priorDensity θ * L θ := by
    rw [integral_pos_iff_support_of_nonneg (fun θ => (mul_pos (priorDensity_pos θ) (hL θ)).le) hint]
    have : Function.support (fun θ : Fin d → ℝ => priorDensity θ * L θ) = Set.univ := by
      ext θ; simp [(priorDensity_pos θ).ne', (hL θ).ne']
    rw [this]
    exact NeZero.pos _
  have hj := integral_log_le (fun θ => encoderDensity μ l θ) (fun θ => L θ * (priorDensity θ / encoderDensity μ l θ))
    (fun θ => (encoderDensity_pos μ l θ).le) (integrable_encoderDensity μ l) (integral_encoderDensity μ l) hW
    (by simpa only [hcancel] using hint)
    (by simp only [hsplit]; exact hlog.sub (integrable_divergence μ l)) (by simpa only [hcancel] using hpos)
  simp only [hcancel, hsplit] at hj
  rwa [integral_sub hlog (integrable_divergence μ l), integral_divergence] at hj

/-- C62, `S` samples and full weight: the expectation of the importance weighted bound over `S` independent samples of
the encoder's distribution does not exceed the log marginal likelihood either. -/
theorem C62_bound_many {d : ℕ} (S : ℕ) (hS : 0 < S) (L : (Fin d → ℝ) → ℝ) (hL : ∀ θ, 0 < L θ)
    (hint : Integrable fun θ => priorDensity θ * L θ) (μ l : Fin d → ℝ)
    (hlog : Integrable fun θ : Fin S → Fin d → ℝ => (∏ s, encoderDensity μ l (θ s)) *
      Real.log ((∑ s, L (θ s) * (priorDensity (θ s) / encoderDensity μ l (θ s))) / S)) :
    ∫ θ : Fin S → Fin d → ℝ, (∏ s, encoderDensity μ l (θ s)) *
        Real.log ((∑ s, L (θ s) * (priorDensity (θ s) / encoderDensity μ l (θ s))) / S)
      ≤ Real.log (∫ θ, priorDensity θ * L θ) := by
  have hS' : (0 : ℝ) < S := by exact_mod_cast hS
  have hne : Nonempty (Fin S) := ⟨⟨0, hS⟩⟩
  let w : (Fin d → ℝ) → ℝ := fun θ => L θ * (priorDensity θ / encoderDensity μ l θ)
  have hw : ∀ θ, 0 < w θ := fun θ => mul_pos (hL θ) (div_pos (priorDensity_pos _) (encoderDensity_pos _ _ _))
  have hcancel : (fun θ => encoderDensity μ l θ * w θ) = fun θ => priorDensity θ * L θ := by
    ext θ; have := (encoderDensity_pos μ l θ).ne'; simp only [w]; field_simp
  have hpos : 0 < ∫ θ, priorDensity θ * L θ := by
    rw [integral_pos_iff_support_of_nonneg (fun θ => (mul_pos (priorDensity_pos θ) (hL θ)).le) hint]
    have : Function.support (fun θ : Fin d → ℝ => priorDensity θ * L θ) = Set.univ := by
      ext θ; simp [(priorDensity_pos θ).ne', (hL θ).ne']
    rw [this]
    exact NeZero.pos _
  have hone : ∀ s : Fin S, Integrable fun θ : Fin S → Fin d → ℝ => (∏ r, encoderDensity μ l (θ r)) * w (θ s) :=
    fun s => integrable_prod_density (fun _ : Fin S => encoderDensity μ l)
      (fun _ => integrable_encoderDensity μ l) s w (by rw [hcancel]; exact hint)
  have hval : ∀ s : Fin S, ∫ θ : Fin S → Fin d → ℝ, (∏ r, encoderDensity μ l (θ r)) * w (θ s)
      = ∫ θ, priorDensity θ * L θ := by
    intro s
    rw [integral_prod_density (fun _ : Fin S => encoderDensity μ l) (fun _ => integral_encoderDensity μ l) s w, hcancel]
  have hsplit : ∀ θ : Fin S → Fin d → ℝ, (∏ r, encoderDensity μ l (θ r)) * ((∑ s, w (θ s)) / S)
      = ∑ s, (∏ r, encoderDensity μ l (θ r)) * w (θ s) * (S : ℝ)⁻¹ := by
    intro θ; rw [← Finset.sum_mul, ← Finset.mul_sum]; ring
  have htot : ∫ θ : Fin S → Fin d → ℝ, (∏ r, encoderDensity μ l (θ r)) * ((∑ s, w (θ s)) / S)
      = ∫ θ, priorDensity θ * L θ := by
    simp only [hsplit]
    rw [integral_finsetSum _ fun s _ => (hone s).mul_const _]
    simp only [integral_mul_const, hval]
    rw [Finset.sum_const, Finset.card_univ, Fintype.card_fin, nsmul_eq_mul]
    field_simp
  have hI : Integrable fun θ : Fin S → Fin d → ℝ => (∏ r, encoderDensity μ l (θ r)) * ((∑ s, w (θ s)) / S) := by
    simp only [hsplit]
    exact integrable_finsetSum _ fun s _ => (hone s).mul_const _
  have hq1 : ∫ θ : Fin S → Fin d → ℝ, ∏ s, encoderDensity μ l (θ s) = 1 := by
    rw [integral_fintype_prod_volume_eq_prod fun (_ : Fin S) θ => encoderDensity μ l θ]
    exact Finset.prod_eq_one fun _ _ => integral_encoderDensity μ l
  have hq : Integrable fun θ : Fin S → Fin d → ℝ => ∏ s, encoderDensity μ l (θ s) :=
    Integrable.fintype_prod (f := fun (_ : Fin S) θ => encoderDensity μ l θ) fun _ => integrable_encoderDensity μ l
  have hj := integral_log_le (fun θ : Fin S → Fin d → ℝ => ∏ s, encoderDensity μ l (θ s))
    (fun θ => (∑ s, w (θ s)) / S) (fun θ => Finset.prod_nonneg fun s _ => (encoderDensity_pos μ l (θ s)).le) hq hq1
    (fun θ => div_pos (Finset.sum_pos (fun s _ => hw (θ s)) Finset.univ_nonempty) hS') hI hlog (by rw [htot]; exact hpos)
  rwa [htot] at hj

/-! ## The hypotheses are met -/

example : ∃ a, annealingFactor true 3 5 = .ok a ∧ a < 1 ∧
    IsScorer (exScore.scorer 1) exScore.cats (fun θ => tableProb (exScore.probs (List.ofFn θ))) ∧
    ∀ i, i < 2 → ValidResponses exScore.cats (exResponses i) :=
  ⟨0.6, by norm_num [annealingFactor], by norm_num, exScore_isScorer, fun i _ => exResponses_valid i⟩

example (μ l : Fin 1 → ℝ) : let L : (Fin 1 → ℝ) → ℝ := fun θ => if θ 0 < 0 then 1 / 4 else 3 / 4
    (∀ θ, 0 < L θ) ∧ Integrable (fun θ => priorDensity θ * L θ) ∧
      Integrable fun θ => encoderDensity μ l θ * Real.log (L θ) := by
  intro L
  have hset : MeasurableSet {θ : Fin 1 → ℝ | θ 0 < 0} := measurableSet_lt (by fun_prop) measurable_const
  have hLm : Measurable L := Measurable.ite hset measurable_const measurable_const
  have hp : Integrable fun θ : Fin 1 → ℝ => priorDensity θ :=
    Integrable.fintype_prod (f := fun _ x => gaussianPDFReal 0 1 x) fun _ => integrable_gaussianPDFReal _ _
  refine ⟨fun θ => ?_, ?_, ?_⟩
  · simp only [L]; split <;> norm_num
  · refine hp.mul_bdd (c := 1) hLm.aestronglyMeasurable (Filter.Eventually.of_forall fun θ => ?_)
    simp only [L]; split <;> norm_num
  · refine (integrable_encoderDensity μ l).mul_bdd (c := max |Real.log (1 / 4)| |Real.log (3 / 4)|)
      (Real.measurable_log.comp hLm).aestronglyMeasurable (Filter.Eventually.of_forall fun θ => ?_)
    simp only [L, Real.norm_eq_abs]; split
    · exact le_max_left _ _
    · exact le_max_right _ _

example : let L : (Fin 1 → ℝ) → ℝ := fun _ => 1 / 2
    (∀ θ, 0 < L θ) ∧ Integrable (fun θ => priorDensity θ * L θ) ∧
      Integrable fun θ : Fin 2 → Fin 1 → ℝ => (∏ s, encoderDensity 0 0 (θ s)) *
        Real.log ((∑ s, L (θ s) * (priorDensity (θ s) / encoderDensity 0 0 (θ s))) / (2 : ℕ)) := by
  intro L
  have hp : Integrable fun θ : Fin 1 → ℝ => priorDensity θ :=
    Integrable.fintype_prod (f := fun _ x => gaussianPDFReal 0 1 x) fun _ => integrable_gaussianPDFReal _ _
  have e : ∀ θ : Fin 1 → ℝ, priorDensity θ = encoderDensity 0 0 θ := by
    intro θ
    have : varOf 0 = 1 := by apply NNReal.coe_injective; rw [varOf_coe]; simp
    simp [priorDensity, encoderDensity, this]
  refine ⟨fun θ => by norm_num [L], hp.mul_const _, ?_⟩
  have hq : Integrable fun θ : Fin 2 → Fin 1 → ℝ => ∏ s, encoderDensity 0 0 (θ s) :=
    Integrable.fintype_prod (f := fun (_ : Fin 2) θ => encoderDensity 0 0 θ) fun _ => integrable_encoderDensity 0 0
  have e2 : ∀ θ : Fin 2 → Fin 1 → ℝ,
      (∑ s, L (θ s) * (priorDensity (θ s) / encoderDensity 0 0 (θ s))) / ((2 : ℕ) : ℝ) = 1 / 2 := by
    intro θ
    simp only [e, div_self (encoderDensity_pos 0 0 _).ne', L]
    norm_num
  simp only [e2]
  exact hq.mul_const _

end Irt
