import Verif.Model.MixScorer
import Verif.Model.Evaluator
import Verif.Spec.Mix
import Verif.Props.Mix
import Verif.Props.Joint
import Verif.Props.ScoreSearch
import Verif.Lemmas.ItemOrder

/-! # C131: fitting and scoring a mix of models -/

namespace Irt
open Spec

variable {α : Type} {d : ℕ}

/-! ## What the mix returns -/

/-- The cells of a mix, piece after piece. -/
noncomputable def mixCells (N : ℕ) (t : ℕ → Fin d → ℝ) : List (Piece α d) → (ℕ → ℕ → Cell) → List (Option Logit)
  | [], _ => []
  | p :: ps, y => flatTensor N p.cats.length (fun i j => if cellMissing (y i j) then none else some (logE (p.P (t i) j (responseOf (y i j)))))
      ++ mixCells N t ps fun i j => y i (p.cats.length + j)

/-- Each piece with its part of the data. -/
noncomputable def mixParts (t : ℕ → Fin d → ℝ) : List (Piece α d) → (ℕ → ℕ → Cell) → List (MixPart α)
  | [], _ => []
  | p :: ps, y => ⟨p.comp, fun i => p.comp.forward (List.ofFn (t i)), fun i => (List.range p.cats.length).map (y i),
      fun i => (List.range p.cats.length).map fun j => cellMissing (y i j)⟩ :: mixParts t ps fun i j => y i (p.cats.length + j)

theorem mixParts_comp (t : ℕ → Fin d → ℝ) (ps : List (Piece α d)) : ∀ y, (mixParts t ps y).map MixPart.comp = ps.map Piece.comp := by
  induction ps with
  | nil => intro y; rfl
  | cons p ps ih => intro y; simp [mixParts, ih]

theorem mixParts_out (t : ℕ → Fin d → ℝ) (i : ℕ) (ps : List (Piece α d)) :
    ∀ y, ((mixParts t ps y).map fun p => p.out i).flatten = mixForward (ps.map Piece.comp) (List.ofFn (t i)) := by
  induction ps with
  | nil => intro y; rfl
  | cons p ps ih =>
    intro y
    simp only [mixParts, List.map_cons, List.flatten_cons, ih]
    rfl

theorem range_append_map {β : Type} (a b : ℕ) (f : ℕ → β) :
    (List.range (a + b)).map f = (List.range a).map f ++ (List.range b).map fun j => f (a + j) := by
  rw [List.range_add, List.map_append, List.map_map]
  rfl

theorem mixParts_y (t : ℕ → Fin d → ℝ) (i : ℕ) (ps : List (Piece α d)) :
    ∀ y, ((mixParts t ps y).map fun p => p.y i).flatten = (List.range (pieceCats ps).length).map (y i) := by
  induction ps with
  | nil => intro y; rfl
  | cons p ps ih =>
    intro y
    simp only [mixParts, List.map_cons, List.flatten_cons, ih, pieceCats, List.length_append]
    rw [range_append_map]

theorem mixParts_mask (t : ℕ → Fin d → ℝ) (i : ℕ) (ps : List (Piece α d)) :
    ∀ y, ((mixParts t ps y).map fun p => p.μ i).flatten = (List.range (pieceCats ps).length).map fun j => cellMissing (y i j) := by
  induction ps with
  | nil => intro y; rfl
  | cons p ps ih =>
    intro y
    simp only [mixParts, List.map_cons, List.flatten_cons, ih, pieceCats, List.length_append]
    rw [range_append_map]

theorem valid_left {p : Piece α d} {ps : List (Piece α d)} {row : ℕ → Cell} (h : ValidResponses (pieceCats (p :: ps)) row) :
    ValidResponses p.cats row := by
  intro j c hc hm
  refine h j c ?_ hm
  rw [pieceCats, List.getElem?_append_left (lt_of_getElem?_some hc), hc]

theorem valid_right {p : Piece α d} {ps : List (Piece α d)} {row : ℕ → Cell} (h : ValidResponses (pieceCats (p :: ps)) row) :
    ValidResponses (pieceCats ps) fun j => row (p.cats.length + j) := by
  intro j c hc hm
  refine h (p.cats.length + j) c ?_ hm
  rw [pieceCats, List.getElem?_append_right (by omega), Nat.add_sub_cancel_left, hc]

/-- The value of a piece's own log likelihood. -/
noncomputable def ownValue (N : ℕ) (p : MixPart α) : LL :=
  match p.ownLL N true .none with
  | .ok v => v
  | .error _ => .cells []

theorem mixParts_right (N : ℕ) (t : ℕ → Fin d → ℝ) (ps : List (Piece α d)) (hps : ∀ p ∈ ps, p.Right) :
    ∀ y, (∀ i, i < N → ValidResponses (pieceCats ps) (y i)) →
      (∀ p ∈ mixParts t ps y, p.Fits N) ∧ (∀ p ∈ mixParts t ps y, p.ownLL N true .none = .ok (ownValue N p)) ∧
      ∃ vs, ((mixParts t ps y).map (ownValue N)).mapM LL.toCells = .ok vs ∧ vs.flatten = mixCells N t ps y := by
  induction ps with
  | nil => exact fun y _ => ⟨by simp [mixParts], by simp [mixParts], [], rfl, rfl⟩
  | cons p ps ih =>
    intro y hy
    obtain ⟨h1, h2, vs, h3, h4⟩ := ih (fun q hq => hps q (List.mem_cons_of_mem _ hq)) (fun i j => y i (p.cats.length + j))
      fun i hi => valid_right (hy i hi)
    have hp := hps p List.mem_cons_self
    have hown := hp.ll N t y fun i hi => valid_left (hy i hi)
    have hval : ownValue N ⟨p.comp, fun i => p.comp.forward (List.ofFn (t i)), fun i => (List.range p.cats.length).map (y i),
        fun i => (List.range p.cats.length).map fun j => cellMissing (y i j)⟩ = .cells (flatTensor N p.cats.length fun i j =>
          if cellMissing (y i j) then none else some (logE (p.P (t i) j (responseOf (y i j))))) := by
      unfold ownValue MixPart.ownLL
      rw [if_pos rfl]
      exact congrArg (fun e : Except PyErr LL => match e with | .ok v => v | .error _ => .cells []) hown
    refine ⟨?_, ?_, ?_⟩
    · intro q hq
      rcases List.mem_cons.1 hq with rfl | hq
      · exact fun i _ => ⟨hp.width _, by simp [hp.items], by simp [hp.items]⟩
      · exact h1 q hq
    · intro q hq
      rcases List.mem_cons.1 hq with rfl | hq
      · rw [hval]
        unfold MixPart.ownLL
        rw [if_pos rfl]
        exact hown
      · exact h2 q hq
    · refine ⟨flatTensor N p.cats.length (fun i j =>
          if cellMissing (y i j) then none else some (logE (p.P (t i) j (responseOf (y i j))))) :: vs, ?_, ?_⟩
      · rw [mixParts, List.map_cons, List.mapM_cons, hval, h3]
        rfl
      · rw [mixCells, List.flatten_cons, h4]

theorem pieceCats_length (ps : List (Piece α d)) (hps : ∀ p ∈ ps, p.Right) :
    ((ps.map Piece.comp).map fun m => m.items).sum = (pieceCats ps).length := by
  induction ps with
  | nil => rfl
  | cons p ps ih =>
    rw [List.map_cons, List.map_cons, List.sum_cons, ih fun q hq => hps q (List.mem_cons_of_mem _ hq), (hps p List.mem_cons_self).items,
      pieceCats, List.length_append]

/-- C131: what a mix returns for each response: all responses of the first model, then all of the second, and so on. -/
theorem mix_logLik (N : ℕ) (t : ℕ → Fin d → ℝ) (ps : List (Piece α d)) (hps : ∀ p ∈ ps, p.Right) (y : ℕ → ℕ → Cell)
    (hy : ∀ i, i < N → ValidResponses (pieceCats ps) (y i)) :
    (mixScorer d (ps.map Piece.comp)).logLik ((List.range N).map fun i => (mixScorer d (ps.map Piece.comp)).forward (t i))
        (flatTensor N (pieceCats ps).length y) (flatTensor N (pieceCats ps).length fun i j => cellMissing (y i j))
      = .ok (mixCells N t ps y) := by
  obtain ⟨h1, h2, vs, h3, h4⟩ := mixParts_right N t ps hps y hy
  have h := mix_lls N (mixParts t ps y) h1 true .none _ h2
  simp only [blockRows, mixParts_comp, mixParts_out, mixParts_y, mixParts_mask, maskArg, if_true, h3] at h
  change mixLogLikelihood (ps.map Piece.comp) ((List.range N).map fun i => mixForward (ps.map Piece.comp) (List.ofFn (t i)))
    (viewRows ((List.range N).map fun i => mixForward (ps.map Piece.comp) (List.ofFn (t i))).length
      ((ps.map Piece.comp).map fun m => m.items).sum (flatTensor N (pieceCats ps).length y))
    (some (viewRows ((List.range N).map fun i => mixForward (ps.map Piece.comp) (List.ofFn (t i))).length
      ((ps.map Piece.comp).map fun m => m.items).sum (flatTensor N (pieceCats ps).length fun i j => cellMissing (y i j)))) .none
      >>= LL.toCells = _
  rw [List.length_map, List.length_range, pieceCats_length ps hps, viewRows_flatTensor, viewRows_flatTensor]
  unfold rowsOf
  rw [h]
  show Except.ok vs.flatten = _
  rw [h4]

/-! ## Sums over all responses -/

theorem pieceProb_nonneg (ps : List (Piece α d)) (hps : ∀ p ∈ ps, p.Right) : ∀ θ j r, 0 ≤ pieceProb ps θ j r := by
  induction ps with
  | nil => intro θ j r; exact le_refl 0
  | cons p ps ih =>
    intro θ j r
    unfold pieceProb
    split
    · exact (hps p List.mem_cons_self).nonneg θ j r
    · exact ih (fun q hq => hps q (List.mem_cons_of_mem _ hq)) θ _ r

theorem pieceProb_cons (p : Piece α d) (ps : List (Piece α d)) (θ : Fin d → ℝ) (j r : ℕ) :
    pieceProb (p :: ps) θ j r = if j < p.cats.length then p.P θ j r else pieceProb ps θ (j - p.cats.length) r := rfl

/-- The responses are all there, in another order. -/
theorem mixCells_perm (N : ℕ) (t : ℕ → Fin d → ℝ) (ps : List (Piece α d)) : ∀ y,
    (mixCells N t ps y).Perm (flatTensor N (pieceCats ps).length fun i j =>
      if cellMissing (y i j) then none else some (logE (pieceProb ps (t i) j (responseOf (y i j))))) := by
  induction ps with
  | nil => intro y; simp [mixCells, pieceCats, flatTensor]
  | cons p ps ih =>
    intro y
    have hperm : ∀ (l : List ℕ) (f g : ℕ → List (Option Logit)), (l.flatMap f ++ l.flatMap g).Perm (l.flatMap fun i => f i ++ g i) := by
      intro l f g
      induction l with
      | nil => simp
      | cons a l ihl =>
        simp only [List.flatMap_cons]
        rw [List.append_assoc, List.append_assoc]
        refine List.Perm.append_left _ ?_
        rw [← List.append_assoc]
        refine ((List.perm_append_comm (l₁ := l.flatMap f) (l₂ := g a)).append_right _).trans ?_
        rw [List.append_assoc]
        exact List.Perm.append_left _ ihl
    rw [mixCells]
    refine (List.Perm.append_left _ (ih fun i j => y i (p.cats.length + j))).trans ?_
    refine (hperm _ _ _).trans ?_
    refine List.Perm.of_eq ?_
    unfold flatTensor
    refine List.flatMap_congr fun i _ => ?_
    rw [pieceCats, List.length_append, range_append_map]
    congr 1
    · refine List.map_congr_left fun j hj => ?_
      dsimp only
      rw [pieceProb_cons, if_pos (List.mem_range.1 hj)]
    · refine List.map_congr_left fun j hj => ?_
      dsimp only
      rw [pieceProb_cons, if_neg (c := p.cats.length + j < p.cats.length) (by omega), Nat.add_sub_cancel_left]

theorem mixCells_likelihood (N : ℕ) (t : ℕ → Fin d → ℝ) (ps : List (Piece α d)) (hps : ∀ p ∈ ps, p.Right) (y : ℕ → ℕ → Cell) :
    (nansum (mixCells N t ps y)).exp = ∏ i ∈ Finset.range N, observedLikelihood (pieceProb ps) (pieceCats ps).length (y i) (t i) := by
  rw [nansum_perm ((mixCells_perm N t ps y).filterMap id)]
  unfold flatTensor
  rw [exp_nansum_flatMap, list_prod_range]
  exact Finset.prod_congr rfl fun i _ => exp_logLikAt _ (pieceProb_nonneg ps hps) _ _ _

/-- C131: the quantity optimised for ML and MAP scores is, also for a mix, the likelihood of all observed responses at the respondents'
own scores, times the prior density for MAP. -/
theorem C131_scores (ps : List (Piece α d)) (hps : ∀ p ∈ ps, p.Right) (prior : Option (Matrix (Fin d) (Fin d) ℝ))
    (hprior : ∀ cov, prior = some cov → cov.PosDef) (N : ℕ) (y : ℕ → ℕ → Cell) (hy : ∀ i, i < N → ValidResponses (pieceCats ps) (y i))
    (t : ℕ → Fin d → ℝ) :
    scoreObjective (mixScorer d (ps.map Piece.comp)) prior (rowsOf N (pieceCats ps).length y) ((List.range N).map t)
      = .ok (logE (∏ i ∈ Finset.range N, scoreWeight (pieceProb ps) (pieceCats ps).length prior (y i) (t i))) := by
  have hll := mix_logLik N t ps hps y hy
  have hexp := mixCells_likelihood N t ps hps y
  have hmask : ((rowsOf N (pieceCats ps).length y).map fun r => r.map cellMissing).flatten
      = flatTensor N (pieceCats ps).length fun i j => cellMissing (y i j) := by
    simp [rowsOf, flatTensor, List.flatMap_def, Function.comp_def]
  unfold scoreObjective
  dsimp only
  rw [hmask, rowsOf_flatten, List.map_map]
  change (mixScorer d (ps.map Piece.comp)).logLik
    ((List.range N).map fun i => (mixScorer d (ps.map Piece.comp)).forward (t i)) _ _ >>= _ = _
  rw [hll, bind_ok]
  cases prior with
  | none => exact congrArg Except.ok (logit_of_exp _ _ hexp)
  | some cov =>
    dsimp only
    rw [mvnLogProbs, if_pos (hprior cov rfl), bind_ok]
    refine congrArg Except.ok (logit_of_exp _ _ ?_)
    rw [exp_add, hexp, List.map_map, list_sum_range]
    simp only [scoreWeight, posteriorWeight, Logit.exp, Function.comp]
    rw [Real.exp_sum, Finset.prod_mul_distrib, mul_comm]

/-- C131: the loss of JML for a batch `b` of respondents is, also for a mix, minus the log likelihood of all their observed responses. -/
theorem C131_joint (ps : List (Piece α d)) (hps : ∀ p ∈ ps, p.Right) (N : ℕ) (y : ℕ → ℕ → Cell)
    (hy : ∀ i, i < N → ValidResponses (pieceCats ps) (y i)) (θ : ℕ → Fin d → ℝ) (b : List ℕ) (hb : ∀ i ∈ b, i < N) :
    jmlObjective (mixScorer d (ps.map Piece.comp)) (b.map θ) (b.map fun i => (List.range (pieceCats ps).length).map fun j => codeOf (y i j))
        (b.map fun i => (List.range (pieceCats ps).length).map fun j => cellMissing (y i j))
      = .ok (logE (b.map fun i => observedLikelihood (pieceProb ps) (pieceCats ps).length (y i) (θ i)).prod) := by
  have hget : ∀ {β : Type} (f : ℕ → β), (List.range b.length).map (fun t => f (b.getD t 0)) = b.map f := by
    intro β f
    apply List.ext_getElem (by simp)
    intro t h1 h2
    simp only [List.length_map] at h2
    rw [List.getElem_map, List.getElem_map, List.getElem_range, List.getD_eq_getElem _ _ h2]
  have hlt : ∀ t, t < b.length → b.getD t 0 ∈ b := by
    intro t ht
    rw [List.getD_eq_getElem _ _ ht]
    exact List.getElem_mem ht
  have hflat : ∀ {β : Type} (g : ℕ → ℕ → β), (b.map fun i => (List.range (pieceCats ps).length).map (g i)).flatten
      = flatTensor b.length (pieceCats ps).length fun t j => g (b.getD t 0) j := by
    intro β g
    unfold flatTensor
    rw [List.flatMap_def, hget fun i => (List.range (pieceCats ps).length).map (g i)]
  have hll := mix_logLik b.length (fun t => θ (b.getD t 0)) ps hps (fun t => y (b.getD t 0)) fun t ht => hy _ (hb _ (hlt t ht))
  have hexp := mixCells_likelihood b.length (fun t => θ (b.getD t 0)) ps hps fun t => y (b.getD t 0)
  unfold jmlObjective
  have e4 : ((b.map fun i => (List.range (pieceCats ps).length).map fun j => codeOf (y i j)).map fun r => r.map numToCell)
      = b.map fun i => (List.range (pieceCats ps).length).map fun j => y i j := by
    rw [List.map_map]
    refine List.map_congr_left fun i _ => ?_
    simp only [Function.comp, List.map_map]
    exact List.map_congr_left fun j _ => numToCell_codeOf _
  have e5 : (b.map θ).map (mixScorer d (ps.map Piece.comp)).forward
      = (List.range b.length).map fun t => (mixScorer d (ps.map Piece.comp)).forward (θ (b.getD t 0)) := by
    rw [List.map_map]
    exact (hget fun i => (mixScorer d (ps.map Piece.comp)).forward (θ i)).symm
  rw [e4, hflat, hflat, e5, hll, bind_ok]
  refine congrArg Except.ok (logit_of_exp _ _ ?_)
  refine hexp.trans ?_
  rw [← list_prod_range, hget fun i => observedLikelihood (pieceProb ps) (pieceCats ps).length (y i) (θ i)]

/-! ## One model -/

/-- C131: a mix of one model is fitted and scored like the model. -/
theorem C131_one_model_partial (p : Piece α d) (hp : p.Right) (hne : p.cats ≠ []) : IsScorer (mixScorer d [p.comp]) p.cats p.P where
  items := by simp [mixScorer, hp.items]
  items_pos := by simp [mixScorer, hp.items, List.length_pos_iff.2 hne]
  nonneg := hp.nonneg
  logLik := by
    intro N t y hy
    have h := mix_logLik N t [p] (by simpa using hp) y (by simpa [pieceCats] using hy)
    have hi : (mixScorer d [p.comp]).items = p.cats.length := by simp [mixScorer, hp.items]
    rw [hi]
    simp only [pieceCats, mixCells, List.append_nil] at h
    exact h

/-! ## Models that can be mixed -/

/-- A generalized partial credit model as a piece. -/
noncomputable def gpcPiece (m : GPC) (d : ℕ) : Piece Logit d := ⟨m.component, m.cats, fun θ => tableProb (m.probs (List.ofFn θ))⟩

/-- A nominal response model as a piece. -/
noncomputable def nrmPiece (m : NRM) (d : ℕ) : Piece Logit d := ⟨m.component, m.cats, fun θ => tableProb (m.probs (List.ofFn θ))⟩

theorem of_toCells {x : Except PyErr LL} {c : List (Option Logit)} (h : x >>= LL.toCells = .ok c) : x = .ok (.cells c) := by
  cases x with
  | error e => cases h
  | ok v =>
    cases v with
    | scalar v => cases h
    | cells vs => obtain rfl := Except.ok.inj h; rfl

/-- C131: generalized partial credit models can be mixed. -/
theorem C131_gpc (m : GPC) (hwf : m.WF) (hne : m.cats ≠ []) : (gpcPiece m d).Right where
  items := rfl
  width := fun θ => (m.length_forwardRow _).trans (mul_comm _ _)
  nonneg := (m.isScorer hwf hne d).nonneg
  ll := fun N t y hy => of_toCells ((m.isScorer hwf hne d).logLik N t y hy)

/-- C131: nominal response models can be mixed. -/
theorem C131_nrm (m : NRM) (hwf : m.WF) (hne : m.cats ≠ []) : (nrmPiece m d).Right where
  items := rfl
  width := fun θ => (m.length_forwardRow _).trans (mul_comm _ _)
  nonneg := (m.isScorer hwf hne d).nonneg
  ll := fun N t y hy => of_toCells ((m.isScorer hwf hne d).logLik N t y hy)

/-! ## Sums over the responses of one respondent -/

/-- The claim that the MML loss of a mix is minus the log of the marginal likelihood of the responses of each respondent. -/
def MixMarginal : Prop :=
  ∀ (ps : List (Piece Logit 1)), (∀ p ∈ ps, p.Right) → ∀ (N G : ℕ) (y : ℕ → ℕ → Cell), (∀ i, i < N → ValidResponses (pieceCats ps) (y i)) →
    ∀ (θ : ℕ → Fin 1 → ℝ) (w : ℕ → ℝ), (∀ g, g < G → 0 < w g) →
    (∀ i, i < N → ∑ g ∈ Finset.range G, w g * observedLikelihood (pieceProb ps) (pieceCats ps).length (y i) (θ g) ≠ 0) →
    mmlLoss (mixScorer 1 (ps.map Piece.comp)) (rowsOf N (pieceCats ps).length y) ((List.range G).map θ)
        ((List.range G).map fun g => Real.log (w g))
      = .ok (some (-∑ i ∈ Finset.range N,
          Real.log (∑ g ∈ Finset.range G, w g * observedLikelihood (pieceProb ps) (pieceCats ps).length (y i) (θ g))))

/-- The claim that the EAP scores of a mix are the posterior means, on a grid and with the prior of the documentation. -/
def MixPosterior : Prop :=
  ∀ (ps : List (Piece Logit 1)), (∀ p ∈ ps, p.Right) → ∀ (N : ℕ) (y : ℕ → ℕ → Cell), (∀ i, i < N → ValidResponses (pieceCats ps) (y i)) →
    ∀ (a : AlgAttrs 1) (points : ℕ) (grid : Thetas 1) (cov : Matrix (Fin 1) (Fin 1) ℝ), cov.PosDef → grid ≠ [] →
    eapGrid a points = .ok (grid, cov) →
    (∀ i, i < N → (grid.map (posteriorWeight (pieceProb ps) (pieceCats ps).length cov (y i))).sum ≠ 0) →
    eapScores (mixScorer 1 (ps.map Piece.comp)) a (rowsOf N (pieceCats ps).length y) (some points)
      = .ok ((List.range N).map fun i => some (weightedMean (posteriorWeight (pieceProb ps) (pieceCats ps).length cov (y i)) grid))

/-- An item whose right answer is more probable for higher latent scores. -/
noncomputable def exRisingItem : GPC := { lv := 1, cats := [2], rel := [[true]], weight := [1], bias := [0] }

theorem exRisingItem_wf : exRisingItem.WF where
  catsPos := by simp [exRisingItem]
  relLen := by simp [exRisingItem]
  relRow := by simp [exRisingItem]
  weightLen := by simp [exRisingItem, countTrue]
  biasLen := by simp [exRisingItem]

theorem exRisingItem_probs (x : ℝ) : exRisingItem.probs [x] = [[1 / (1 + Real.exp x), Real.exp x / (1 + Real.exp x)]] := by
  simp [exRisingItem, GPC.probs, probabilitiesFromOutput, GPC.forwardRow, GPC.M, maxCats, GPC.weights, GPC.biases,
    viewRows, scatterMask, freeMask, freeRow, dot, repeatInterleave, tile, maskFill, missingMask, missingRow,
    firstMask, firstRow, List.range_succ, softmax, Logit.exp, List.replicate]

/-- A rising item and an item that says nothing about the latent variable. -/
noncomputable def exMixed : List (Piece Logit 1) := [gpcPiece exRisingItem 1, gpcPiece exHalf 1]

theorem exMixed_right : ∀ p ∈ exMixed, p.Right := by
  intro p hp
  simp only [exMixed, List.mem_cons, List.not_mem_nil, or_false] at hp
  rcases hp with rfl | rfl
  · exact C131_gpc _ exRisingItem_wf (by simp [exRisingItem])
  · exact C131_gpc _ exHalf_wf (by simp [exHalf])

theorem exMixed_cats : pieceCats exMixed = [2, 2] := rfl

theorem exRisingPiece_prob (θ : Fin 1 → ℝ) : (gpcPiece exRisingItem 1).P θ
    = tableProb [[1 / (1 + Real.exp (θ 0)), Real.exp (θ 0) / (1 + Real.exp (θ 0))]] := by
  have e : List.ofFn θ = [θ 0] := by simp
  rw [← exRisingItem_probs, ← e]; rfl

theorem exHalfPiece_prob (θ : Fin 1 → ℝ) : (gpcPiece exHalf 1).P θ = tableProb [[1 / 2, 1 / 2]] := by
  have e : List.ofFn θ = [θ 0] := by simp
  rw [← exHalf_probs (θ 0), ← e]; rfl

theorem exMixed_prob (θ : Fin 1 → ℝ) (j : ℕ) : pieceProb exMixed θ j
    = fun r => tableProb [[1 / (1 + Real.exp (θ 0)), Real.exp (θ 0) / (1 + Real.exp (θ 0))], [1 / 2, 1 / 2]] j r := by
  funext r
  rw [exMixed, pieceProb_cons, pieceProb_cons, exRisingPiece_prob, exHalfPiece_prob]
  match j with
  | 0 => rfl
  | 1 => rfl
  | j + 2 =>
    rw [if_neg (by simp [gpcPiece, exRisingItem]), if_neg (by simp [gpcPiece, exRisingItem, exHalf])]
    simp [pieceProb, tableProb]

/-- The latent scores of the examples. -/
def exSides : ℕ → Fin 1 → ℝ := fun g _ => if g = 0 then -3 else 3

theorem exMixed_valid (r : ℕ) (hr : r < 2) : ValidResponses (pieceCats exMixed) fun j => if j = 0 then some (r : ℤ) else some 1 := by
  intro j c hc _
  rw [exMixed_cats] at hc
  match j with
  | 0 => exact ⟨r, rfl, by simp at hc; omega⟩
  | 1 => exact ⟨1, rfl, by simp at hc; omega⟩
  | j + 2 => simp at hc

theorem exMixed_cells (r : ℕ) (hr : r < 2) :
    mixCells 2 exSides exMixed (fun _ j => if j = 0 then some (r : ℤ) else some 1)
      = [some (.fin (if r = 0 then Real.log (1 / (1 + Real.exp (-3))) else Real.log (1 / (1 + Real.exp 3)))),
         some (.fin (if r = 0 then Real.log (1 / (1 + Real.exp 3)) else Real.log (1 / (1 + Real.exp (-3))))),
         some (.fin (Real.log (1 / 2))), some (.fin (Real.log (1 / 2)))] := by
  have hl1 : (gpcPiece exRisingItem 1).cats.length = 1 := rfl
  have hl2 : (gpcPiece exHalf 1).cats.length = 1 := rfl
  have e3 : Real.exp (-3) / (1 + Real.exp (-3)) = 1 / (1 + Real.exp 3) := by
    rw [Real.exp_neg]; field_simp; ring
  have e4 : Real.exp 3 / (1 + Real.exp 3) = 1 / (1 + Real.exp (-3)) := by
    rw [Real.exp_neg]; field_simp; ring
  have p1 : (1 : ℝ) / (1 + Real.exp 3) ≠ 0 := by positivity
  have p2 : (1 : ℝ) / (1 + Real.exp (-3)) ≠ 0 := by positivity
  have p3 : (1 : ℝ) / 2 ≠ 0 := by norm_num
  simp only [mixCells, exMixed, hl1, hl2, exRisingPiece_prob, exHalfPiece_prob, flatTensor, List.range_succ, List.range_zero,
    List.nil_append, List.flatMap_cons, List.flatMap_nil, List.map_cons, List.map_nil, List.append_nil, List.cons_append, exSides]
  obtain rfl | rfl : r = 0 ∨ r = 1 := by omega
  · simp [cellMissing, tableProb, responseOf, logE]
    exact ⟨by positivity, by positivity⟩
  · simp [cellMissing, tableProb, responseOf, logE]
    rw [if_neg (by positivity), if_neg (by positivity), e3, e4]
    simp

/-- The two sums that the code takes for the log likelihoods of the responses of a single respondent at the two latent scores. -/
theorem exMixed_sums (r : ℕ) (hr : r < 2) :
    sumItems 2 (mixCells 2 exSides exMixed (fun _ j => if j = 0 then some (r : ℤ) else some 1))
      = [.fin (Real.log (1 / (1 + Real.exp 3)) + Real.log (1 / (1 + Real.exp (-3)))), .fin (Real.log (1 / 2) + Real.log (1 / 2))] := by
  rw [exMixed_cells r hr]
  obtain rfl | rfl : r = 0 ∨ r = 1 := by omega
  · simp [sumItems, view, viewRows, nansum, Logit.sum, Logit.add]
    ring
  · simp [sumItems, view, viewRows, nansum, Logit.sum, Logit.add]

theorem exMixed_logLik (r : ℕ) (hr : r < 2) :
    (mixScorer 1 (exMixed.map Piece.comp)).logLik
        [(mixScorer 1 (exMixed.map Piece.comp)).forward fun _ => -3, (mixScorer 1 (exMixed.map Piece.comp)).forward fun _ => 3]
        [some (r : ℤ), some 1, some (r : ℤ), some 1] [false, false, false, false]
      = .ok (mixCells 2 exSides exMixed (fun _ j => if j = 0 then some (r : ℤ) else some 1)) := by
  have h := mix_logLik 2 exSides exMixed exMixed_right (fun _ j => if j = 0 then some (r : ℤ) else some 1) fun _ _ => exMixed_valid r hr
  have hc : ((r : ℤ) = -1) = False := by simp
  have e0 : exSides 0 = fun _ => -3 := rfl
  have e1 : exSides 1 = fun _ => 3 := rfl
  rw [← h]
  simp [exMixed_cats, flatTensor, List.range_succ, e0, e1, cellMissing, hc]

theorem exMixed_respondentMajor (r : ℕ) (hr : r < 2) :
    respondentMajorLL (mixScorer 1 (exMixed.map Piece.comp)) [[some (r : ℤ), some 1]] [fun _ => -3, fun _ => 3]
      = .ok [.fin (Real.log (1 / (1 + Real.exp 3)) + Real.log (1 / (1 + Real.exp (-3)))), .fin (Real.log (1 / 2) + Real.log (1 / 2))] := by
  have hc : cellMissing (some (r : ℤ)) = false := by simp [cellMissing]
  have h1 : cellMissing (some (1 : ℤ)) = false := by simp [cellMissing]
  have hi : (mixScorer 1 (exMixed.map Piece.comp)).items = 2 := rfl
  rw [← exMixed_sums r hr]
  simp only [respondentMajorLL, repeatInterleave, tile, List.map_cons, List.map_nil, List.length_cons, List.length_nil, List.flatMap_cons,
    List.flatMap_nil, List.replicate, List.flatten_cons, List.flatten_nil, List.append_nil, List.cons_append, List.nil_append, hc, h1,
    exMixed_logLik r hr, hi]
  rfl

theorem exMixed_pointMajor (r : ℕ) (hr : r < 2) :
    pointMajorLL (mixScorer 1 (exMixed.map Piece.comp)) [[some (r : ℤ), some 1]] [fun _ => -3, fun _ => 3]
      = .ok [.fin (Real.log (1 / (1 + Real.exp 3)) + Real.log (1 / (1 + Real.exp (-3)))), .fin (Real.log (1 / 2) + Real.log (1 / 2))] := by
  have hc : cellMissing (some (r : ℤ)) = false := by simp [cellMissing]
  have h1 : cellMissing (some (1 : ℤ)) = false := by simp [cellMissing]
  have hi : (mixScorer 1 (exMixed.map Piece.comp)).items = 2 := rfl
  rw [← exMixed_sums r hr]
  simp only [pointMajorLL, repeatInterleave, tile, List.map_cons, List.map_nil, List.length_cons, List.length_nil, List.flatMap_cons,
    List.flatMap_nil, List.replicate, List.flatten_cons, List.flatten_nil, List.append_nil, List.cons_append, List.nil_append, hc, h1,
    exMixed_logLik r hr, hi]
  rfl

theorem exMixed_observed (r : ℕ) (hr : r < 2) (θ : Fin 1 → ℝ) :
    observedLikelihood (pieceProb exMixed) (pieceCats exMixed).length (fun j => if j = 0 then some (r : ℤ) else some 1) θ
      = (if r = 0 then 1 / (1 + Real.exp (θ 0)) else 1 / (1 + Real.exp (-(θ 0)))) * (1 / 2) := by
  have e4 : Real.exp (θ 0) / (1 + Real.exp (θ 0)) = 1 / (1 + Real.exp (-(θ 0))) := by
    rw [Real.exp_neg]; field_simp; ring
  obtain rfl | rfl : r = 0 ∨ r = 1 := by omega
  · simp [observedLikelihood, exMixed_cats, exMixed_prob, Finset.prod_range_succ, cellMissing, responseOf, tableProb]
  · rw [if_neg (by norm_num), ← e4]
    simp [observedLikelihood, exMixed_cats, exMixed_prob, Finset.prod_range_succ, cellMissing, responseOf, tableProb]

/-- C131: MML fitting of a mix minimises something else than minus the log marginal likelihood: the loss adds up log likelihoods
of different respondents and quadrature points. -/
theorem C131_mml_false : ¬ MixMarginal := by
  intro h
  have hone : (1 : ℝ) / (1 + Real.exp 3) + 1 / (1 + Real.exp (-3)) = 1 := by
    rw [Real.exp_neg]; field_simp; ring
  have hsum : ∑ g ∈ Finset.range 2, (1 / 2 : ℝ) * observedLikelihood (pieceProb exMixed) (pieceCats exMixed).length
      (fun j => if j = 0 then some ((1 : ℕ) : ℤ) else some 1) (exSides g) = 1 / 4 := by
    rw [Finset.sum_range_succ, Finset.sum_range_one, exMixed_observed 1 (by norm_num), exMixed_observed 1 (by norm_num)]
    simp only [exSides, one_ne_zero, if_false, if_true, neg_neg]
    linear_combination (1 / 4 : ℝ) * hone
  have key := h exMixed exMixed_right 1 2 (fun _ j => if j = 0 then some ((1 : ℕ) : ℤ) else some 1)
    (fun _ _ => exMixed_valid 1 (by norm_num)) exSides (fun _ => 1 / 2) (fun _ _ => by norm_num)
    (fun _ _ => by rw [hsum]; norm_num)
  have hrows : rowsOf 1 (pieceCats exMixed).length (fun _ j => if j = 0 then some ((1 : ℕ) : ℤ) else some (1 : ℤ))
      = [[some ((1 : ℕ) : ℤ), some 1]] := by
    rw [exMixed_cats]; simp [rowsOf, List.range_succ]
  have hpts : (List.range 2).map exSides = [fun _ => -3, fun _ => 3] := rfl
  rw [hrows, hpts, Finset.sum_range_one, hsum] at key
  simp only [mmlLoss, exMixed_pointMajor 1 (by norm_num)] at key
  have hs := shiftedLogSumExp_eq [Logit.fin (Real.log (1 / 2) + (Real.log (1 / (1 + Real.exp 3)) + Real.log (1 / (1 + Real.exp (-3))))),
    Logit.fin (Real.log (1 / 2) + (Real.log (1 / 2) + Real.log (1 / 2)))]
  have hval : (([Logit.fin (Real.log (1 / 2) + (Real.log (1 / (1 + Real.exp 3)) + Real.log (1 / (1 + Real.exp (-3))))),
      Logit.fin (Real.log (1 / 2) + (Real.log (1 / 2) + Real.log (1 / 2)))] : List Logit).map Logit.exp).sum
      = 1 / 2 * ((1 / (1 + Real.exp 3)) * (1 / (1 + Real.exp (-3)))) + 1 / 8 := by
    simp only [List.map_cons, List.map_nil, List.sum_cons, List.sum_nil, Logit.exp, Real.exp_add]
    rw [Real.exp_log (by positivity), Real.exp_log (by positivity), Real.exp_log (by positivity)]
    ring
  have hpos : (0 : ℝ) < 1 / 2 * ((1 / (1 + Real.exp 3)) * (1 / (1 + Real.exp (-3)))) + 1 / 8 := by positivity
  rw [hval, if_neg hpos.ne'] at hs
  simp [bind, Except.bind, pure, Except.pure, repeatInterleave, List.range_succ, viewRows, Logit.add] at key
  have hl : [Logit.fin (-Real.log 2 + (-Real.log (1 + Real.exp 3) + -Real.log (1 + Real.exp (-3)))),
      Logit.fin (-Real.log 2 + (-Real.log 2 + -Real.log 2))]
      = [Logit.fin (Real.log (1 / 2) + (Real.log (1 / (1 + Real.exp 3)) + Real.log (1 / (1 + Real.exp (-3))))),
        Logit.fin (Real.log (1 / 2) + (Real.log (1 / 2) + Real.log (1 / 2)))] := by simp
  rw [hl, hs, Option.bind_some, Option.some_inj, ← Real.log_inv] at key
  have he := Real.log_injOn_pos (Set.mem_Ioi.2 (inv_pos.2 hpos)) (Set.mem_Ioi.2 (by norm_num : (0 : ℝ) < 4)) key
  have hq : (1 : ℝ) / (1 + Real.exp 3) * (1 / (1 + Real.exp (-3))) = 1 / 4 := by
    have := inv_inj.1 (he.trans (inv_inv (4 : ℝ)).symm)
    linarith
  have ha : (1 : ℝ) < Real.exp 3 := Real.one_lt_exp_iff.2 (by norm_num)
  rw [Real.exp_neg] at hq
  field_simp at hq
  nlinarith [sq_nonneg (Real.exp 3 - 1)]

/-- C131: with the standard normal prior and the two grid points -3 and 3, a respondent who solves the informative item and one who does
not get the same EAP score. -/
theorem C131_eap_blind :
    eapScores (mixScorer 1 (exMixed.map Piece.comp)) {} [[some 0, some 1]] (some 2)
      = eapScores (mixScorer 1 (exMixed.map Piece.comp)) {} [[some 1, some 1]] (some 2) := by
  have cons : ∀ a : ℝ, (Fin.cons a Fin.elim0 : Fin 1 → ℝ) = fun _ => a := fun a => funext fun i => by fin_cases i; rfl
  have e : cartesianProd (fun _ : Fin 1 => linspace (-3) 3 2) = [fun _ => -3, fun _ => 3] := by
    simp [cartesianProd, linspace, List.range_succ, cons]
    norm_num
  have h0 := exMixed_respondentMajor 0 (by norm_num)
  have h1 := exMixed_respondentMajor 1 (by norm_num)
  simp only [Nat.cast_zero, Nat.cast_one] at h0 h1
  simp only [eapScores, eapGrid, Option.getD_some, e, eapOnGrid, bind, Except.bind, h0, h1]
  rfl

/-- C131: the EAP scores of a mix are not the posterior means. -/
theorem C131_eap_false : ¬ MixPosterior := by
  intro h
  have cons : ∀ a : ℝ, (Fin.cons a Fin.elim0 : Fin 1 → ℝ) = fun _ => a := fun a => funext fun i => by fin_cases i; rfl
  have e : cartesianProd (fun _ : Fin 1 => linspace (-3) 3 2) = [fun _ => -3, fun _ => 3] := by
    simp [cartesianProd, linspace, List.range_succ, cons]
    norm_num
  have e2 : mvnLogDensity 0 1 (fun _ : Fin 1 => (3 : ℝ)) = mvnLogDensity 0 1 fun _ : Fin 1 => -3 := by
    simp [mvnLogDensity, dotProduct]
  have hone : (1 : ℝ) / (1 + Real.exp 3) + 1 / (1 + Real.exp (-3)) = 1 := by
    rw [Real.exp_neg]; field_simp; ring
  have he := Real.exp_pos (mvnLogDensity 0 1 fun _ : Fin 1 => -3)
  have hrows : ∀ r : ℕ, rowsOf 1 (pieceCats exMixed).length (fun _ j => if j = 0 then some (r : ℤ) else some (1 : ℤ))
      = [[some (r : ℤ), some 1]] := by
    intro r
    rw [exMixed_cats]; simp [rowsOf, List.range_succ]
  have hw : ∀ r : ℕ, r < 2 → ([fun _ => -3, fun _ => 3].map (posteriorWeight (pieceProb exMixed) (pieceCats exMixed).length 1
      fun j => if j = 0 then some (r : ℤ) else some 1)).sum = Real.exp (mvnLogDensity 0 1 fun _ : Fin 1 => -3) * (1 / 2) := by
    intro r hr
    simp only [List.map_cons, List.map_nil, List.sum_cons, List.sum_nil, posteriorWeight, exMixed_observed r hr, e2, neg_neg]
    obtain rfl | rfl : r = 0 ∨ r = 1 := by omega
    · simp only [if_true]
      linear_combination (Real.exp (mvnLogDensity 0 1 fun _ : Fin 1 => -3) / 2) * hone
    · simp only [one_ne_zero, if_false]
      linear_combination (Real.exp (mvnLogDensity 0 1 fun _ : Fin 1 => -3) / 2) * hone
  have key : ∀ r : ℕ, r < 2 → eapScores (mixScorer 1 (exMixed.map Piece.comp)) {} [[some (r : ℤ), some 1]] (some 2)
      = .ok [some (weightedMean (posteriorWeight (pieceProb exMixed) (pieceCats exMixed).length 1
          fun j => if j = 0 then some (r : ℤ) else some 1) [fun _ => -3, fun _ => 3])] := by
    intro r hr
    have := h exMixed exMixed_right 1 (fun _ j => if j = 0 then some (r : ℤ) else some 1)
      (fun _ _ => exMixed_valid r hr) {} 2 [fun _ => -3, fun _ => 3] 1 Matrix.PosDef.one (by simp) (by simp [eapGrid, e])
      (fun _ _ => by rw [hw r hr]; positivity)
    rw [hrows] at this
    exact this
  have heq : weightedMean (posteriorWeight (pieceProb exMixed) (pieceCats exMixed).length 1
        fun j => if j = 0 then some ((0 : ℕ) : ℤ) else some 1) [fun _ => -3, fun _ => 3]
      = weightedMean (posteriorWeight (pieceProb exMixed) (pieceCats exMixed).length 1
        fun j => if j = 0 then some ((1 : ℕ) : ℤ) else some 1) [fun _ => -3, fun _ => 3] := by
    have := (key 0 (by norm_num)).symm.trans (C131_eap_blind.trans (key 1 (by norm_num)))
    simpa using this
  have h0 := congrFun heq 0
  simp only [weightedMean, hw 0 (by norm_num), hw 1 (by norm_num)] at h0
  rw [div_left_inj' (by positivity)] at h0
  simp only [List.map_cons, List.map_nil, List.sum_cons, List.sum_nil, posteriorWeight, exMixed_observed 0 (by norm_num : 0 < 2),
    exMixed_observed 1 (by norm_num : 1 < 2), e2, neg_neg, if_true, one_ne_zero, if_false] at h0
  have hs : (1 : ℝ) / (1 + Real.exp 3) = 1 / (1 + Real.exp (-3)) := by
    have h2 : Real.exp (mvnLogDensity 0 1 fun _ : Fin 1 => -3) * ((1 : ℝ) / (1 + Real.exp 3) - 1 / (1 + Real.exp (-3))) = 0 := by
      linear_combination (1 / 3 : ℝ) * h0
    rcases mul_eq_zero.1 h2 with h3 | h3
    · exact absurd h3 he.ne'
    · exact sub_eq_zero.1 h3
  have hlt : Real.exp (-3) < Real.exp 3 := Real.exp_lt_exp.2 (by norm_num)
  have : 1 + Real.exp 3 = 1 + Real.exp (-3) := by simpa using hs
  linarith

/-- The hypotheses of `C131_scores`: both pieces are fine, the responses are valid, and the prior is positive definite; the value is not
trivial. -/
example : scoreObjective (mixScorer 1 (exMixed.map Piece.comp)) (some 1)
    (rowsOf 2 2 fun _ j => if j = 0 then some ((1 : ℕ) : ℤ) else some 1) ((List.range 2).map exSides)
      = .ok (logE (∏ i ∈ Finset.range 2, scoreWeight (pieceProb exMixed) 2 (some 1)
          (fun j => if j = 0 then some ((1 : ℕ) : ℤ) else some 1) (exSides i))) :=
  C131_scores exMixed exMixed_right (some 1) (fun _ h => by obtain rfl := Option.some.inj h; exact Matrix.PosDef.one) 2
    (fun _ j => if j = 0 then some ((1 : ℕ) : ℤ) else some 1) (fun _ _ => exMixed_valid 1 (by norm_num)) exSides

/-- The hypotheses of `C131_joint`: a batch in which the second respondent comes first. -/
example : jmlObjective (mixScorer 1 (exMixed.map Piece.comp)) ([1, 0].map exSides)
    ([1, 0].map fun _ => (List.range 2).map fun j => codeOf (if j = 0 then some ((1 : ℕ) : ℤ) else some 1))
    ([1, 0].map fun _ => (List.range 2).map fun j => cellMissing (if j = 0 then some ((1 : ℕ) : ℤ) else some 1))
      = .ok (logE ([1, 0].map fun i : ℕ => observedLikelihood (pieceProb exMixed) 2
          (fun j => if j = 0 then some ((1 : ℕ) : ℤ) else some 1) (exSides i)).prod) :=
  C131_joint exMixed exMixed_right 2 (fun _ j => if j = 0 then some ((1 : ℕ) : ℤ) else some 1)
    (fun _ _ => exMixed_valid 1 (by norm_num)) exSides [1, 0] (by simp)

/-- The hypotheses of `C131_one_model_partial`, `C131_gpc` and `C131_nrm`. -/
example : IsScorer (mixScorer 1 [(gpcPiece exRisingItem 1).comp]) [2] (gpcPiece exRisingItem 1).P :=
  C131_one_model_partial _ (C131_gpc _ exRisingItem_wf (by simp [exRisingItem])) (by simp [gpcPiece, exRisingItem])

end Irt
