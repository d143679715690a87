import Verif.Props.MixEvaluation
import Verif.Props.VAE

/-! # C131: fitting a mix of models with a variational autoencoder -/

namespace Irt
open Spec

variable {α : Type} {d : ℕ}

theorem length_mixCells (N : ℕ) (t : ℕ → Fin d → ℝ) (ps : List (Piece α d)) (y : ℕ → ℕ → Cell) :
    (mixCells N t ps y).length = N * (pieceCats ps).length := by
  rw [(mixCells_perm N t ps y).length_eq, length_flatTensor]

theorem exp_sumItems (N J : ℕ) (hJ : 0 < J) (ll : List (Option Logit)) (h : ll.length = N * J) :
    ((sumItems J ll).map Logit.exp).prod = (nansum ll).exp := by
  conv_rhs => rw [← view_all N J ll h hJ]
  rw [← List.flatMap_id, exp_nansum_flatMap, sumItems, List.map_map]
  rfl

theorem length_sumItems (N J : ℕ) (hJ : 0 < J) (ll : List (Option Logit)) (h : ll.length = N * J) : (sumItems J ll).length = N := by
  rw [sumItems, List.length_map, view, length_viewRows, h, Nat.mul_div_cancel _ hJ]

theorem zipWith_add_exp (xs : List Logit) (ks : List ℝ) (a : ℝ) (h : xs.length = ks.length) :
    ((List.zipWith (fun l (k : ℝ) => Logit.add l (.fin (-(a * k)))) xs ks).map Logit.exp).prod
      = (xs.map Logit.exp).prod * Real.exp (-(a * ks.sum)) := by
  induction xs generalizing ks with
  | nil =>
    cases ks with
    | nil => simp
    | cons => simp at h
  | cons x xs ih =>
    cases ks with
    | nil => simp at h
    | cons k ks =>
      simp only [List.zipWith_cons_cons, List.map_cons, List.prod_cons, List.sum_cons, ih ks (by simpa using h), exp_add]
      have e : (Logit.fin (-(a * k))).exp = Real.exp (-(a * k)) := rfl
      rw [e, show -(a * (k + ks.sum)) = -(a * k) + -(a * ks.sum) by ring, Real.exp_add]
      ring

/-- C131: with one sample per respondent (the default) the objective of a variational autoencoder is right for every mix: the mean of the log
likelihoods of the observed responses at the samples minus the weighted divergences. -/
theorem C131_vae_one_sample (ps : List (Piece α d)) (hps : ∀ p ∈ ps, p.Right) (hne : pieceCats ps ≠ []) (N : ℕ) (hN : 0 < N) (y : ℕ → ℕ → Cell)
    (hy : ∀ i, i < N → ValidResponses (pieceCats ps) (y i)) (anneal : Bool) (t K : ℕ) (a : ℝ) (ha : annealingFactor anneal t K = .ok a)
    (μ l ε θ : ℕ → Fin d → ℝ) (hθ : ∀ i, θ i = fun k => μ i k + ε i k * Real.exp (l i k / 2)) :
    ((∀ i, i < N → observedLikelihood (pieceProb ps) (pieceCats ps).length (y i) (θ i) ≠ 0) →
      vaeObjective (mixScorer d (ps.map Piece.comp)) 1 anneal t K (rowsOf N (pieceCats ps).length y) ((List.range N).map μ)
          ((List.range N).map l) ((List.range N).map ε)
        = .ok (some (.fin ((∑ i ∈ Finset.range N,
            (Real.log (observedLikelihood (pieceProb ps) (pieceCats ps).length (y i) (θ i)) - a * vaeKl (μ i) (l i))) / N)))) ∧
    ((∃ i, i < N ∧ observedLikelihood (pieceProb ps) (pieceCats ps).length (y i) (θ i) = 0) →
      vaeObjective (mixScorer d (ps.map Piece.comp)) 1 anneal t K (rowsOf N (pieceCats ps).length y) ((List.range N).map μ)
          ((List.range N).map l) ((List.range N).map ε) = .ok (some .negInf)) := by
  set J := (pieceCats ps).length with hJ
  have hJ0 : 0 < J := List.length_pos_iff.2 hne
  have hitems : (mixScorer d (ps.map Piece.comp)).items = J := pieceCats_length ps hps
  have hθ' : ∀ i, reparameterize (μ i) (l i) (ε i) = θ i := by
    intro i; rw [hθ]; unfold reparameterize; ext k; congr 3; ring
  have hth : vaeSamples 1 ((List.range N).map μ) ((List.range N).map l) ((List.range N).map ε) = (List.range N).map θ := by
    unfold vaeSamples
    simp only [tile, List.replicate_one, List.flatten_cons, List.flatten_nil, List.append_nil, List.zip, List.zipWith_map, List.zipWith_self, hθ']
  set ll := mixCells N θ ps y with hll
  have hlen : ll.length = N * J := length_mixCells N θ ps y
  have hmask : ((rowsOf N J y).map fun r => r.map cellMissing).flatten = flatTensor N J fun i j => cellMissing (y i j) := by
    simp [rowsOf, flatTensor, List.flatMap_def, Function.comp_def]
  set kl := (List.range N).map fun i => vaeKl (μ i) (l i) with hkl
  have hklz : List.zipWith vaeKl ((List.range N).map μ) ((List.range N).map l) = kl := by
    rw [List.zipWith_map, List.zipWith_self]
  set rows := List.zipWith (fun l (k : ℝ) => Logit.add l (.fin (-(a * k)))) (sumItems J ll) kl with hrows
  have hrl : rows.length = N := by
    rw [hrows, List.length_zipWith, length_sumItems N J hJ0 ll hlen]
    simp [hkl]
  have hb : vaeSampleBounds (mixScorer d (ps.map Piece.comp)) 1 a (rowsOf N J y) ((List.range N).map μ) ((List.range N).map l)
      ((List.range N).map ε) = .ok [rows] := by
    unfold vaeSampleBounds
    have ht : tile 1 (rowsOf N J y) = rowsOf N J y := by simp [tile]
    dsimp only
    rw [hth, ht, hmask, rowsOf_flatten, List.map_map]
    change (mixScorer d (ps.map Piece.comp)).logLik ((List.range N).map fun i => (mixScorer d (ps.map Piece.comp)).forward (θ i)) _ _ >>= _ = _
    rw [mix_logLik N θ ps hps y hy, bind_ok, hitems, if_neg (by omega)]
    simp only [if_true, hklz, length_sumItems N J hJ0 ll hlen, Nat.div_one]
    rw [← hrows]
    have : viewRows 1 N rows = [rows] := by
      simp [viewRows, List.range_one, ← hrl]
    rw [← hll, length_sumItems N J hJ0 ll hlen, this]
    rfl
  have hobj : vaeObjective (mixScorer d (ps.map Piece.comp)) 1 anneal t K (rowsOf N J y) ((List.range N).map μ) ((List.range N).map l)
      ((List.range N).map ε) = .ok (some (Logit.div (Logit.sum rows) N)) := by
    unfold vaeObjective
    rw [ha, bind_ok, hb, bind_ok]
    have hc : vaeCombine (rowsOf N J y).length [rows] = rows := by simp [vaeCombine]
    simp only [hc, hrl, if_neg (show N ≠ 0 by omega)]
    rfl
  have hexp : (Logit.sum rows).exp = (∏ i ∈ Finset.range N, observedLikelihood (pieceProb ps) J (y i) (θ i)) * Real.exp (-(a * kl.sum)) := by
    rw [exp_sum, hrows, zipWith_add_exp _ _ _ (by rw [length_sumItems N J hJ0 ll hlen]; simp [hkl]), exp_sumItems N J hJ0 ll hlen,
      mixCells_likelihood N θ ps hps y]
  have hs := logit_of_exp _ _ hexp
  rw [hobj, hs]
  constructor
  · intro h
    have hp : (∏ i ∈ Finset.range N, observedLikelihood (pieceProb ps) J (y i) (θ i)) ≠ 0 :=
      Finset.prod_ne_zero_iff.2 fun i hi => h i (Finset.mem_range.1 hi)
    rw [logE, if_neg (mul_ne_zero hp (Real.exp_pos _).ne'), Real.log_mul hp (Real.exp_pos _).ne', Real.log_exp, Real.log_prod (by
      intro i hi; exact h i (Finset.mem_range.1 hi)), hkl, list_sum_range, Finset.sum_sub_distrib, ← Finset.mul_sum]
    rfl
  · rintro ⟨i, hi, h⟩
    rw [logE, if_pos (by rw [Finset.prod_eq_zero (Finset.mem_range.2 hi) h, zero_mul])]
    rfl

/-- The claim for several samples: as for a single model (C62_objective_many). -/
def MixImportance : Prop := ∀ (ps : List (Piece Logit 1)), (∀ p ∈ ps, p.Right) → ∀ (N S : ℕ), 0 < N → 2 ≤ S → ∀ (y : ℕ → ℕ → Cell),
  (∀ i, i < N → ValidResponses (pieceCats ps) (y i)) → ∀ (μ l : ℕ → Fin 1 → ℝ) (ε θ : ℕ → ℕ → Fin 1 → ℝ),
  (∀ s i, θ s i = fun k => μ i k + ε s i k * Real.exp (l i k / 2)) →
  (∀ i, i < N → ∑ s ∈ Finset.range S, importanceWeight (pieceProb ps) (pieceCats ps).length (y i) 1 (μ i) (l i) (θ s i) ≠ 0) →
  vaeObjective (mixScorer 1 (ps.map Piece.comp)) S false 0 0 (rowsOf N (pieceCats ps).length y) ((List.range N).map μ) ((List.range N).map l)
      (flatTensor S N ε)
    = .ok (some (.fin ((∑ i ∈ Finset.range N, Real.log
        ((∑ s ∈ Finset.range S, importanceWeight (pieceProb ps) (pieceCats ps).length (y i) 1 (μ i) (l i) (θ s i)) / S)) / N)))

theorem exMixed_no_divergence (θ : Fin 1 → ℝ) : vaeSampleKl (fun _ => 0) (fun _ => 0) θ = 0 := by
  simp [vaeSampleKl]

theorem exMixed_bounds : vaeSampleBounds (mixScorer 1 (exMixed.map Piece.comp)) 2 1 [[some 1, some 1]] [fun _ => 0] [fun _ => 0]
    [fun _ => -3, fun _ => 3]
      = .ok [[.fin (Real.log (1 / (1 + Real.exp 3)) + Real.log (1 / (1 + Real.exp (-3))))], [.fin (Real.log (1 / 2) + Real.log (1 / 2))]] := by
  have h1 : cellMissing (some (1 : ℤ)) = false := by simp [cellMissing]
  have hi : (mixScorer 1 (exMixed.map Piece.comp)).items = 2 := rfl
  have hll := exMixed_logLik 1 (by norm_num)
  have hs := exMixed_sums 1 (by norm_num)
  have hth : vaeSamples 2 [fun _ : Fin 1 => (0 : ℝ)] [fun _ => 0] [fun _ => -3, fun _ => 3] = [fun _ => -3, fun _ => 3] := by
    simp [vaeSamples, tile, List.replicate]
    constructor <;> funext k <;> simp [reparameterize]
  simp only [Nat.cast_one] at hll hs
  unfold vaeSampleBounds
  simp only [hth, tile, List.replicate, List.flatten_cons, List.flatten_nil, List.append_nil, List.cons_append, List.nil_append, List.map_cons,
    List.map_nil, h1, hll, hi, bind, Except.bind, hs, if_neg (show ¬ 2 * 2 = 0 by norm_num), if_neg (show ¬ 2 = 1 by norm_num),
    List.zip, List.zipWith_cons_cons, List.zipWith_nil_left, exMixed_no_divergence, Logit.add, List.length_cons, List.length_nil]
  simp [viewRows, pure, Except.pure]

/-- C131: with several samples (`iw_samples > 1`) the objective of a mix is not the importance weighted bound, because log likelihoods of
different samples are added up. -/
theorem C131_vae_samples_false : ¬ MixImportance := by
  intro h
  have hone : (1 : ℝ) / (1 + Real.exp 3) + 1 / (1 + Real.exp (-3)) = 1 := by
    rw [Real.exp_neg]; field_simp; ring
  have hw : ∀ θ : Fin 1 → ℝ, importanceWeight (pieceProb exMixed) (pieceCats exMixed).length (fun j => if j = 0 then some ((1 : ℕ) : ℤ) else some 1) 1
      (fun _ => 0) (fun _ => 0) θ = 1 / (1 + Real.exp (-(θ 0))) * (1 / 2) := by
    intro θ
    rw [importanceWeight, ← exp_neg_mul_divergence, exMixed_no_divergence, exMixed_observed 1 (by norm_num)]
    simp
  have hsum : ∑ s ∈ Finset.range 2, importanceWeight (pieceProb exMixed) (pieceCats exMixed).length
      (fun j => if j = 0 then some ((1 : ℕ) : ℤ) else some 1) 1 (fun _ => 0) (fun _ => 0) (exSides s) = 1 / 2 := by
    rw [Finset.sum_range_succ, Finset.sum_range_one, hw, hw]
    simp only [exSides, one_ne_zero, if_false, if_true, neg_neg]
    linear_combination (1 / 2 : ℝ) * hone
  have key := h exMixed exMixed_right 1 2 (by norm_num) (by norm_num) (fun _ j => if j = 0 then some ((1 : ℕ) : ℤ) else some 1)
    (fun _ _ => exMixed_valid 1 (by norm_num)) (fun _ _ => 0) (fun _ _ => 0) (fun s _ => exSides s) (fun s _ => exSides s)
    (fun s i => by funext k; simp) (fun _ _ => by rw [hsum]; norm_num)
  have hrows : rowsOf 1 (pieceCats exMixed).length (fun _ j => if j = 0 then some ((1 : ℕ) : ℤ) else some (1 : ℤ)) = [[some 1, some 1]] := by
    rw [exMixed_cats]; simp [rowsOf, List.range_succ]
  have heps : flatTensor 2 1 (fun s _ => exSides s) = [fun _ => -3, fun _ => 3] := rfl
  have hz : (List.range 1).map (fun _ => fun _ : Fin 1 => (0 : ℝ)) = [fun _ => 0] := rfl
  rw [hrows, heps, hz, Finset.sum_range_one, hsum] at key
  have hq : (0 : ℝ) < 1 / (1 + Real.exp 3) * (1 / (1 + Real.exp (-3))) + 1 / 4 := by positivity
  have hval : ([[Logit.fin (Real.log (1 / (1 + Real.exp 3)) + Real.log (1 / (1 + Real.exp (-3))))],
      [Logit.fin (Real.log (1 / 2) + Real.log (1 / 2))]].map fun r : List Logit => (r.getD 0 .negInf).exp).sum
      = 1 / (1 + Real.exp 3) * (1 / (1 + Real.exp (-3))) + 1 / 4 := by
    simp only [List.map_cons, List.map_nil, List.sum_cons, List.sum_nil, Logit.exp, Real.exp_add, List.getD_cons_zero]
    rw [Real.exp_log (by positivity), Real.exp_log (by positivity), Real.exp_log (by positivity)]
    ring
  have hobj : vaeObjective (mixScorer 1 (exMixed.map Piece.comp)) 2 false 0 0 [[some 1, some 1]] [fun _ => 0] [fun _ => 0] [fun _ => -3, fun _ => 3]
      = .ok (some (.fin ((Real.log (1 / (1 + Real.exp 3) * (1 / (1 + Real.exp (-3))) + 1 / 4) + -Real.log 2 + 0) / 1))) := by
    unfold vaeObjective annealingFactor
    simp only [Bool.false_eq_true, if_false, bind_ok, exMixed_bounds]
    have hc : vaeCombine 1 [[Logit.fin (Real.log (1 / (1 + Real.exp 3)) + Real.log (1 / (1 + Real.exp (-3))))],
        [Logit.fin (Real.log (1 / 2) + Real.log (1 / 2))]]
        = [.fin (Real.log (1 / (1 + Real.exp 3) * (1 / (1 + Real.exp (-3))) + 1 / 4) + -Real.log 2)] := by
      rw [vaeCombine, if_neg (by simp), List.range_one, List.map_cons, List.map_nil, hval, logE, if_neg hq.ne']
      simp [Logit.add]
    simp only [List.length_cons, List.length_nil, Nat.zero_add, hc]
    simp [Logit.sum, Logit.add, Logit.div, pure, Except.pure]
  rw [hobj] at key
  simp only [Except.ok.injEq, Option.some.injEq, Logit.fin.injEq, add_zero, div_one, Nat.cast_one, Nat.cast_ofNat] at key
  rw [← sub_eq_add_neg, ← Real.log_div hq.ne' (by norm_num)] at key
  have he := Real.log_injOn_pos (Set.mem_Ioi.2 (by positivity)) (Set.mem_Ioi.2 (by norm_num)) key
  have hq4 : (1 : ℝ) / (1 + Real.exp 3) * (1 / (1 + Real.exp (-3))) = 1 / 4 := by linarith
  have ha : (1 : ℝ) < Real.exp 3 := Real.one_lt_exp_iff.2 (by norm_num)
  rw [Real.exp_neg] at hq4
  field_simp at hq4
  nlinarith [sq_nonneg (Real.exp 3 - 1)]

/-- The hypotheses of `C131_vae_one_sample` are met by a mix of two models, with a respondent who left out one item. -/
example : ∃ v : ℝ, vaeObjective (mixScorer 1 (exMixed.map Piece.comp)) 1 false 0 0
    (rowsOf 2 2 fun i j => if j = 0 then (if i = 0 then none else some ((1 : ℕ) : ℤ)) else some 1) ((List.range 2).map fun _ _ => 0)
    ((List.range 2).map fun _ _ => 0) ((List.range 2).map fun _ _ => 1) = .ok (some (.fin v)) := by
  have hpos : ∀ i, i < 2 → observedLikelihood (pieceProb exMixed) (pieceCats exMixed).length
      (fun j => if j = 0 then (if i = 0 then none else some ((1 : ℕ) : ℤ)) else some 1) (fun _ => 1) ≠ 0 := by
    intro i hi
    have e : (0 : ℝ) < 1 + Real.exp 1 := by positivity
    obtain rfl | rfl : i = 0 ∨ i = 1 := by omega
    · simp [observedLikelihood, exMixed_cats, exMixed_prob, Finset.prod_range_succ, cellMissing, responseOf, tableProb]
    · simp [observedLikelihood, exMixed_cats, exMixed_prob, Finset.prod_range_succ, cellMissing, responseOf, tableProb, e.ne']
  exact ⟨_, (C131_vae_one_sample exMixed exMixed_right (by simp [exMixed_cats]) 2 (by norm_num)
    (fun i j => if j = 0 then (if i = 0 then none else some ((1 : ℕ) : ℤ)) else some 1) (by
      intro i _ j c hc hm
      rw [exMixed_cats] at hc
      match j with
      | 0 =>
        by_cases h0 : i = 0
        · simp [h0, cellMissing] at hm
        · exact ⟨1, by simp [h0], by simp at hc; omega⟩
      | 1 => exact ⟨1, rfl, by simp at hc; omega⟩
      | j + 2 => simp at hc) false 0 0 1 rfl (fun _ _ => 0) (fun _ _ => 0) (fun _ _ => 1) (fun _ _ => 1)
    (fun i => by funext k; simp)).1 hpos⟩

end Irt
