import Verif.Model.Autoencoder
import Verif.Spec.Data
import Verif.Props.VAE
import Verif.Props.GroupFit
import Verif.Props.Scoring
import Verif.Props.LatentScores
import Verif.Props.Training

/-! # Property C99: what fitting an autoencoder maximises and stores -/

namespace Irt

/-! ## The objective -/

theorem exp_nansum_flatMap {α : Type} (l : List α) (g : α → List (Option Logit)) :
    (nansum (l.flatMap g)).exp = (l.map fun i => (nansum (g i)).exp).prod := by
  induction l with
  | nil => simp [nansum, Logit.sum, Logit.exp]
  | cons a l ih =>
    rw [List.map_cons, List.prod_cons, ← ih]
    unfold nansum
    rw [List.flatMap_cons, List.filterMap_append, exp_sum, exp_sum, exp_sum, List.map_append, List.prod_append]

/-- The number that codes a response. -/
noncomputable def codeOf (c : Cell) : Num := c.map fun z : ℤ => (z : ℝ)

theorem numToCell_codeOf (c : Cell) : numToCell (codeOf c) = c := by
  cases c with
  | none => rfl
  | some z => simp [codeOf, numToCell, truncInt]

theorem isMissing_codeOf (c : Cell) : isMissing (codeOf c) = cellMissing c := by
  cases c with
  | none => rfl
  | some z =>
    simp only [codeOf, Option.map_some, isMissing, cellMissing]
    have : ((z : ℝ) = -1) ↔ z = -1 := by
      constructor
      · intro h; exact_mod_cast h
      · intro h; rw [h]; norm_num
    simp [this]

theorem mapM_encode {τ : Type} (net : List ℝ → τ) (l : List ℕ) (x : ℕ → List ℝ) :
    (l.map fun i => (x i).map some).mapM (encodeRow net) = some (l.map fun i => net (x i)) := by
  induction l with
  | nil => rfl
  | cons a l ih =>
    rw [List.map_cons, List.mapM_cons, ih]
    have : encodeRow net ((x a).map some) = some (net (x a)) := by
      unfold encodeRow; rw [mapM_some _ (x a) rfl]; rfl
    rw [this]
    rfl

theorem except_map_ok {ε α β : Type} {x : Except ε α} {f : α → β} {b : β} (h : x.map f = .ok b) : ∃ a, x = .ok a ∧ f a = b := by
  cases x with
  | error e => cases h
  | ok a => cases h; exact ⟨a, rfl, rfl⟩

/-- The data set keeps the responses and their missing mask, whatever is done to the input of the encoder. -/
theorem dataset_keeps (width : ℕ) (data : List (List Num)) (oneHot : Bool) (cats : List ℕ) (imputation : Option String)
    (mc : Option (List ℤ)) (draw : ℕ → ℕ → ℕ) (ds : Dataset)
    (h : (Dataset.init width data oneHot (some cats) imputation mc draw).1 = .ok ds) :
    ds.data = data ∧ ds.mask = missingMaskOf data := by
  unfold Dataset.init at h
  cases imputation with
  | none =>
    cases oneHot with
    | true =>
      obtain ⟨_, _, rfl⟩ := except_map_ok h
      exact ⟨rfl, rfl⟩
    | false => cases h; exact ⟨rfl, rfl⟩
  | some method =>
    simp only at h
    cases hi : imputeMissingInternal width data method mc (Option.map (fun cs => cs.map fun c : ℕ => (c : ℤ)) (some cats)) draw with
    | error e => rw [hi] at h; cases h
    | ok d =>
      rw [hi] at h
      cases oneHot with
      | true =>
        obtain ⟨_, _, rfl⟩ := except_map_ok h
        exact ⟨rfl, rfl⟩
      | false => cases h; exact ⟨rfl, rfl⟩

/-- C99, the objective: the loss of a batch is minus the mean over its respondents of the log likelihood of their observed
responses at the latent scores that the encoder gives to their input. Missing responses do not contribute, imputed or not. -/
theorem C99_objective {S : Type} {d : ℕ} (scorer : S → Scorer d) (net : S → List ℝ → Fin d → ℝ)
    (update : ℕ → List ℕ → ℝ → S → S) (s : S) {cats : List ℕ} {P : (Fin d → ℝ) → ℕ → ℕ → ℝ} (hm : IsScorer (scorer s) cats P)
    (N : ℕ) (y : ℕ → ℕ → Cell) (hy : ∀ i, i < N → ValidResponses cats (y i)) (x : ℕ → List ℝ) (width : ℕ) (oneHot : Bool)
    (imputation : Option String) (mc : Option (List ℤ)) (draw : ℕ → ℕ → ℕ) (ds : Dataset)
    (hds : (Dataset.init width (rowsOf N cats.length fun i j => codeOf (y i j)) oneHot (some cats) imputation mc draw).1 = .ok ds)
    (hin : ds.input = (List.range N).map fun i => (x i).map some) (b : List ℕ) (hb : ∀ i ∈ b, i < N) (hne : b ≠ [])
    (hpos : ∀ i ∈ b, observedLikelihood P cats.length (y i) (net s (x i)) ≠ 0) (k : ℕ) :
    (aeTrainer scorer net update ds).loss k b s
      = .ok (some (-((b.map fun i => Real.log (observedLikelihood P cats.length (y i) (net s (x i)))).sum / b.length))) := by
  obtain ⟨hd, hmask⟩ := dataset_keeps _ _ _ _ _ _ _ _ hds
  have hJ := hm.items
  have e1 : takeRows ds.data b = b.map fun i => (List.range cats.length).map fun j => codeOf (y i j) := by
    rw [hd]; exact takeRows_map_range N _ b hb
  have e2 : takeRows ds.mask b = b.map fun i => (List.range cats.length).map fun j => cellMissing (y i j) := by
    rw [hmask, missingMaskOf, rowsOf, List.map_map]
    refine (takeRows_map_range N _ b hb).trans (List.map_congr_left fun i _ => ?_)
    simp only [Function.comp, List.map_map]
    exact List.map_congr_left fun j _ => isMissing_codeOf _
  have e3 : takeRows ds.input b = b.map fun i => (x i).map some := by
    rw [hin]; exact takeRows_map_range N _ b hb
  have hget : ∀ {α : Type} (f : ℕ → α), (List.range b.length).map (fun t => f (b.getD t 0)) = b.map f := by
    intro α f
    apply List.ext_getElem (by simp)
    intro t h1 h2
    simp only [List.length_map] at h2
    rw [List.getElem_map, List.getElem_map, List.getElem_range, List.getD_eq_getElem _ _ h2]
  have hlt : ∀ t, t < b.length → b.getD t 0 ∈ b := by
    intro t ht
    rw [List.getD_eq_getElem _ _ ht]
    exact List.getElem_mem ht
  have hflat : ∀ {α : Type} (g : ℕ → ℕ → α), (b.map fun i => (List.range cats.length).map (g i)).flatten
      = flatTensor b.length cats.length fun t j => g (b.getD t 0) j := by
    intro α g
    unfold flatTensor
    rw [List.flatMap_def, hget fun i => (List.range cats.length).map (g i)]
  have hll := hm.logLik b.length (fun t => net s (x (b.getD t 0))) (fun t => y (b.getD t 0)) fun t ht => hy _ (hb _ (hlt t ht))
  rw [hJ] at hll
  have hsum : Logit.sum ((flatTensor b.length cats.length fun t j => if cellMissing (y (b.getD t 0) j) then none else
        some (logE (P (net s (x (b.getD t 0))) j (responseOf (y (b.getD t 0) j))))).filterMap id)
      = .fin (b.map fun i => Real.log (observedLikelihood P cats.length (y i) (net s (x i)))).sum := by
    have hexp := exp_nansum_flatMap (List.range b.length) fun t => (List.range cats.length).map fun j =>
      if cellMissing (y (b.getD t 0) j) then none else
        some (logE (P (net s (x (b.getD t 0))) j (responseOf (y (b.getD t 0) j))))
    have hrow : ∀ i, (nansum ((List.range cats.length).map fun j =>
        if cellMissing (y i j) then none else some (logE (P (net s (x i)) j (responseOf (y i j)))))).exp
        = observedLikelihood P cats.length (y i) (net s (x i)) := fun i => exp_logLikAt P hm.nonneg _ _ _
    simp only [hrow] at hexp
    rw [hget fun i => observedLikelihood P cats.length (y i) (net s (x i))] at hexp
    have := logit_of_exp _ _ hexp
    rw [show Logit.sum (List.filterMap id _) = nansum _ from rfl]
    unfold flatTensor
    rw [this]
    have hprod : ∀ l : List ℕ, (∀ i ∈ l, observedLikelihood P cats.length (y i) (net s (x i)) ≠ 0) →
        (l.map fun i => observedLikelihood P cats.length (y i) (net s (x i))).prod ≠ 0 ∧
        Real.log (l.map fun i => observedLikelihood P cats.length (y i) (net s (x i))).prod
          = (l.map fun i => Real.log (observedLikelihood P cats.length (y i) (net s (x i)))).sum := by
      intro l
      induction l with
      | nil => intro _; simp
      | cons a l ih =>
        intro h
        obtain ⟨h1, h2⟩ := ih fun i hi => h i (List.mem_cons_of_mem _ hi)
        have h0 := h a List.mem_cons_self
        rw [List.map_cons, List.map_cons, List.prod_cons, List.sum_cons, Real.log_mul h0 h1, h2]
        exact ⟨mul_ne_zero h0 h1, rfl⟩
    obtain ⟨h1, h2⟩ := hprod b hpos
    unfold logE
    rw [if_neg h1, h2]
  simp only [aeTrainer, aeObjective]
  rw [e1, e2, e3, mapM_encode]
  simp only [List.map_map]
  have e4 : (b.map ((fun r => List.map numToCell r) ∘ fun i => List.map (fun j => codeOf (y i j)) (List.range cats.length)))
      = b.map fun i => (List.range cats.length).map fun j => y i j := by
    refine List.map_congr_left fun i _ => ?_
    simp only [Function.comp, List.map_map]
    exact List.map_congr_left fun j _ => numToCell_codeOf _
  have e5 : b.map ((scorer s).forward ∘ fun i => net s (x i))
      = (List.range b.length).map fun t => (scorer s).forward (net s (x (b.getD t 0))) :=
    (hget fun i => (scorer s).forward (net s (x i))).symm
  rw [e4, hflat, hflat, e5, hll, bind_ok, hsum]
  have hlen : b.length ≠ 0 := by simpa using hne
  simp only [List.length_map, hlen, if_false]
  rfl

/-- A 1PL-like model with two items, two respondents and a missing response, zeros imputed. -/
example : ∃ ds, (Dataset.init 2 (rowsOf 2 exScore.cats.length fun i j => codeOf (exResponses i j)) false (some exScore.cats)
      (some "zero") none fun _ _ => 0).1 = .ok ds ∧
    ds.input = (List.range 2).map (fun i => (if i = 0 then [1, 0] else [1, 1]).map some) ∧
    IsScorer (exScore.scorer 1) exScore.cats (fun θ => tableProb (exScore.probs (List.ofFn θ))) ∧
    (∀ i, i < 2 → ValidResponses exScore.cats (exResponses i)) ∧
    ∀ (i : ℕ) (θ : Fin 1 → ℝ), observedLikelihood (fun θ => tableProb (exScore.probs (List.ofFn θ))) exScore.cats.length (exResponses i) θ ≠ 0 := by
  have hlen : exScore.cats.length = 2 := rfl
  have hn : ((1:ℝ) = -1) = False := by norm_num
  refine ⟨_, rfl, ?_, exScore_isScorer, fun i _ => exResponses_valid i, ?_⟩
  · simp [imputeMissingInternal, rowsOf, hlen, List.range_succ, exResponses, codeOf, negOneToNaN, fillRow, hn]
  · intro i θ
    rw [observedLikelihood, Finset.prod_ne_zero_iff]
    intro j hj
    rw [Finset.mem_range, hlen] at hj
    split
    · norm_num
    next h =>
      have h1 : responseOf (exResponses i j) = 1 := by
        unfold exResponses at h ⊢
        split
        next hh => simp [hh, cellMissing] at h
        · simp [responseOf]
      rw [h1]
      exact (exScore.tableProb_pos exScore_wf _ j 2 1 (by interval_cases j <;> rfl) (by norm_num)).ne'

/-! ## The order of the respondents -/

/-- C99: in every epoch each respondent belongs to exactly one batch. Batches have the requested size, the last one possibly fewer. -/
theorem C99_epoch (size N : ℕ) (hs : 0 < size) (perm : List ℕ) (hp : perm.Perm (List.range N)) :
    (loaderBatches size perm).flatten.Perm (List.range N) ∧ [] ∉ loaderBatches size perm ∧
      (∀ b ∈ loaderBatches size perm, b.length ≤ size) ∧ (loaderBatches size perm).length = (N + size - 1) / size := by
  unfold loaderBatches
  refine ⟨by rw [blocks_flatten]; exact hp, fun h => blocks_ne_nil _ _ _ h rfl, fun b hb => ?_, ?_⟩
  · have := blocks_length_le _ _ b hb
    omega
  · have hl : perm.length = N := by rw [hp.length_eq, List.length_range]
    rw [blocks_length, hl, Nat.sub_add_cancel hs, Nat.add_sub_assoc hs]

example : (loaderBatches 2 [2, 0, 4, 1, 3]) = [[2, 0], [4, 1], [3]] ∧ [2, 0, 4, 1, 3].Perm (List.range 5) := by
  refine ⟨by simp [loaderBatches, blocks], by decide⟩

/-! ## The stored scores -/

theorem negOneToNaN_of_observed (x : Num) (h : isMissing x = false) : negOneToNaN x = x ∧ ∃ v, x = some v := by
  cases x with
  | none => simp [isMissing] at h
  | some v =>
    have : v ≠ -1 := by simpa [isMissing] using h
    exact ⟨by simp [negOneToNaN, this], v, rfl⟩

theorem map_eq_self {α : Type} (l : List α) (f : α → α) (h : ∀ x ∈ l, f x = x) : l.map f = l := by
  conv_rhs => rw [← List.map_id l]
  exact List.map_congr_left h

theorem negOneToNaN_complete (data : List (List Num)) (hc : ∀ r ∈ data, ∀ x ∈ r, isMissing x = false) :
    (data.map fun r => r.map negOneToNaN) = data :=
  map_eq_self _ _ fun r hr => map_eq_self _ _ fun x hx => (negOneToNaN_of_observed x (hc r hr x hx)).1

theorem fillRow_complete (fill : ℕ → Num) (r : List Num) (hc : ∀ x ∈ r, isMissing x = false) : fillRow fill r = r := by
  unfold fillRow
  apply List.ext_getElem?
  intro i
  rw [List.getElem?_mapIdx]
  cases h : r[i]? with
  | none => rfl
  | some x =>
    obtain ⟨v, rfl⟩ := (negOneToNaN_of_observed x (hc x (List.mem_of_getElem? h))).2
    rfl

theorem randomColumn_complete (c : Option ℤ) (key : ℤ) (draw : ℕ → ℕ) (xs : List Num) (hc : ∀ x ∈ xs, isMissing x = false)
    (ys : List (Option (ℕ ⊕ ℝ))) (h : randomColumn c key draw xs = .ok ys) : ys.map filledValue = xs := by
  unfold randomColumn at h
  cases c with
  | none => cases h
  | some c =>
    simp only at h
    split at h
    · cases h
    · split at h
      · cases h
      · cases h
        apply List.ext_getElem?
        intro i
        rw [List.getElem?_map, List.getElem?_mapIdx]
        cases h : xs[i]? with
        | none => rfl
        | some x =>
          obtain ⟨v, rfl⟩ := (negOneToNaN_of_observed x (hc x (List.mem_of_getElem? h))).2
          rfl

theorem randomIncorrect_complete (width : ℕ) (data : List (List Num)) (cs : List (Option ℤ)) (mc : List ℤ) (draw : ℕ → ℕ → ℕ)
    (hw : ∀ r ∈ data, r.length = width) (hc : ∀ r ∈ data, ∀ x ∈ r, isMissing x = false) (d : List (List Num))
    (h : randomIncorrect width cs mc draw data = .ok d) : d = data := by
  unfold randomIncorrect at h
  split at h
  · cases h
  · split at h
    · cases h
    · obtain ⟨cols, h1, h2⟩ := bind_eq_ok h
      cases h2
      obtain ⟨hl, hcols⟩ := (mapM_ok_iff _ _ _).1 h1
      rw [List.length_range] at hl
      unfold ofColumns
      apply List.ext_getElem?
      intro i
      by_cases hi : i < data.length
      · rw [List.getElem?_map, List.getElem?_range hi, List.getElem?_eq_getElem hi, Option.map_some]
        congr 1
        have hr := List.getElem_mem hi
        apply List.ext_getElem?
        intro j
        by_cases hj : j < width
        · obtain ⟨col, hcol, hrun⟩ := hcols j j (by rw [List.getElem?_range hj])
          have hobs : ∀ x ∈ column data j, isMissing x = false := by
            intro x hx
            obtain ⟨r, hr, rfl⟩ := List.mem_map.1 hx
            rw [List.getD_eq_getElem _ _ (by rw [hw r hr]; exact hj)]
            exact hc r hr _ (List.getElem_mem _)
          have hcomp := randomColumn_complete _ _ _ _ hobs col hrun
          rw [List.getElem?_map, List.getElem?_map, hcol, Option.map_some, Option.map_some, hcomp]
          rw [List.getElem?_eq_getElem (by rw [hw _ hr]; exact hj)]
          unfold column
          rw [List.getD_eq_getElem _ _ (by simpa using hi), List.getElem_map,
            List.getD_eq_getElem _ _ (by rw [hw _ hr]; exact hj)]
        · rw [List.getElem?_eq_none (by simp; omega), List.getElem?_eq_none (by rw [hw _ hr]; omega)]
      · rw [List.getElem?_eq_none (by simp; omega), List.getElem?_eq_none (by omega)]

/-- Imputation leaves complete data as they are. -/
theorem impute_complete (width : ℕ) (data : List (List Num)) (method : String) (mc : Option (List ℤ)) (cats : Option (List ℤ))
    (draw : ℕ → ℕ → ℕ) (hw : ∀ r ∈ data, r.length = width) (hc : ∀ r ∈ data, ∀ x ∈ r, isMissing x = false)
    (d : List (List Num)) (h : imputeMissingInternal width data method mc cats draw = .ok d) : d = data := by
  unfold imputeMissingInternal at h
  simp only [negOneToNaN_complete data hc] at h
  have hfill : ∀ fill : ℕ → Num, data.map (fillRow fill) = data := fun fill =>
    map_eq_self _ _ fun r hr => fillRow_complete fill r (hc r hr)
  split at h
  · cases h; exact hfill _
  · split at h
    · cases h; exact hfill _
    · split at h
      · cases mc with
        | none => cases h
        | some mc =>
          exact randomIncorrect_complete width data _ mc draw hw hc d h
      · cases h

/-- What scoring does to the data before the encoder sees them, when an imputation method is stored. -/
theorem encoderInput_complete (width : ℕ) (cats : List ℕ) (oneHot : Bool) (stored : Option String) (data : List (List Num))
    (draw : ℕ → ℕ → ℕ) (hc : ∀ r ∈ data, ∀ x ∈ r, isMissing x = false) :
    (latentScoresEncoderInput width cats oneHot stored data draw).1
      = if oneHot then (oneHotEncode cats width data).1.map fun h => h.map fun r => r.map fun k : ℕ => some (k : ℝ) else .ok data := by
  have h0 : (data.any fun r => r.any isMissing) = false := by
    rw [List.any_eq_false]
    intro r hr
    simp only [Bool.not_eq_true, List.any_eq_false]
    exact fun x hx => by simpa using hc r hr x hx
  unfold latentScoresEncoderInput
  simp only [h0]
  cases oneHot <;> rfl

/-- The encoder input at scoring is the one used for fitting: for complete data; without imputation; and, if the method is stored,
for imputation with zeros or means. -/
theorem encoderInput_eq (width : ℕ) (data : List (List Num)) (oneHot : Bool) (cats : List ℕ) (imputation stored : Option String)
    (mc : Option (List ℤ)) (draw draw' : ℕ → ℕ → ℕ) (ds : Dataset) (hw : ∀ r ∈ data, r.length = width)
    (hfit : oneHot = true ∨ imputation ≠ none)
    (h : (Dataset.init width data oneHot (some cats) imputation mc draw).1 = .ok ds)
    (hcase : (∀ r ∈ data, ∀ x ∈ r, isMissing x = false) ∨ (imputation = none ∧ stored = none) ∨
      (stored = imputation ∧ imputation ≠ some "random incorrect")) :
    (latentScoresEncoderInput width cats oneHot stored data draw').1 = .ok ds.input := by
  by_cases hc : ∀ r ∈ data, ∀ x ∈ r, isMissing x = false
  · rw [encoderInput_complete width cats oneHot stored data draw' hc]
    unfold Dataset.init at h
    cases imputation with
    | none =>
      cases oneHot with
      | true =>
        obtain ⟨hh, h1, rfl⟩ := except_map_ok h
        rw [if_pos rfl, h1]; rfl
      | false => cases h; rfl
    | some method =>
      simp only at h
      cases hi : imputeMissingInternal width data method mc (Option.map (fun cs => cs.map fun c : ℕ => (c : ℤ)) (some cats)) draw with
      | error e => rw [hi] at h; cases h
      | ok d =>
        rw [hi] at h
        have hd := impute_complete width data method mc _ draw hw hc d hi
        subst hd
        cases oneHot with
        | true =>
          obtain ⟨hh, h1, rfl⟩ := except_map_ok h
          rw [if_pos rfl, h1]; rfl
        | false => cases h; rfl
  · have h0 : (data.any fun r => r.any isMissing) = true := by
      push Not at hc
      obtain ⟨r, hr, x, hx, hm⟩ := hc
      rw [List.any_eq_true]
      exact ⟨r, hr, List.any_eq_true.2 ⟨x, hx, by simpa using hm⟩⟩
    have hcase' : stored = imputation ∧ imputation ≠ some "random incorrect" := by
      rcases hcase with h | ⟨h1, h2⟩ | h
      · exact absurd h hc
      · exact ⟨by rw [h1, h2], by rw [h1]; simp⟩
      · exact h
    obtain ⟨rfl, hne⟩ := hcase'
    unfold latentScoresEncoderInput
    unfold Dataset.init at h
    simp only [h0, if_true]
    cases stored with
    | none =>
      have : oneHot = true := by rcases hfit with h | h; exact h; exact absurd rfl h
      subst this
      obtain ⟨hh, h1, rfl⟩ := except_map_ok h
      simp only [if_true, h1]; rfl
    | some method =>
      simp only at h
      have hind : imputeMissingInternal width data method none none draw'
          = imputeMissingInternal width data method mc (Option.map (fun cs => cs.map fun c : ℕ => (c : ℤ)) (some cats)) draw := by
        unfold imputeMissingInternal
        have : method ≠ "random incorrect" := fun e => hne (by rw [e])
        simp only [if_neg this]
      simp only [hind]
      cases hi : imputeMissingInternal width data method mc (Option.map (fun cs => cs.map fun c : ℕ => (c : ℤ)) (some cats)) draw with
      | error e => rw [hi] at h; cases h
      | ok d =>
        rw [hi] at h
        cases oneHot with
        | true =>
          obtain ⟨hh, h1, rfl⟩ := except_map_ok h
          simp only [if_true, h1]; rfl
        | false => cases h; rfl

theorem mapM_of_map_some {α β : Type} (l : List α) (g : α → Option β) (out : List β) (h : l.map g = out.map some) :
    l.mapM g = some out := by
  have := mapM_some (l.map g) out h
  rwa [List.mapM_map] at this

/-- A completed fit: the data set that was made, and the scores of its rows of encoder input. -/
theorem autoencoderFit_ok {S : Type} {d : ℕ} {trainer : Dataset → Trainer S} {score : S → List ℝ → Fin d → ℝ} {width : ℕ}
    {cats : List ℕ} {mc : Option (List ℤ)} {data : List (List Num)} {oneHot : Bool} {imputation : Option String}
    {batchSize : Option ℕ} {batchNorm : Bool} {c : TrainConfig} {interval : ℕ} {lr : ℝ} {maxEpochs : ℕ} {perm : ℕ → List ℕ}
    {draw : ℕ → ℕ → ℕ} {start : S} {fit : AEFit S d}
    (h : autoencoderFit trainer score width cats mc data oneHot imputation batchSize batchNorm c interval lr maxEpochs perm draw start
      = .ok fit) :
    (oneHot = true ∨ imputation ≠ none) ∧ ∃ ds st, (Dataset.init width data oneHot (some cats) imputation mc draw).1 = .ok ds ∧
      0 < batchSize.getD data.length ∧
      aeEpochs (trainer ds) c interval batchNorm (fun e => loaderBatches (batchSize.getD data.length) (perm e)) maxEpochs 0
        (AEState.start lr start) = .ok st ∧
      fit.params = st.final ∧ fit.scores = ds.input.map (encodeRow (score fit.params)) ∧ fit.history = st.history := by
  unfold autoencoderFit at h
  split at h
  · cases h
  next h0 =>
    obtain ⟨ds, h1, h2⟩ := bind_eq_ok h
    split at h2
    · cases h2
    next hb =>
      split at h2
      · cases h2
      next st hst =>
        cases h2
        refine ⟨?_, ds, st, h1, Nat.pos_of_ne_zero hb, hst, rfl, rfl, rfl⟩
        cases oneHot
        · exact Or.inr fun e => h0 ⟨rfl, e⟩
        · exact Or.inl rfl

/-- C99, the stored scores: scoring the training data with the network gives the training scores that the fit stored, if the
data are complete, if nothing was imputed, or after an autoencoder fit with zeros or means imputed. -/
theorem C99_scores_partial {S : Type} {d : ℕ} (trainer : Dataset → Trainer S) (score : S → List ℝ → Fin d → ℝ) (width : ℕ)
    (cats : List ℕ) (mc : Option (List ℤ)) (data : List (List Num)) (hw : ∀ r ∈ data, r.length = width) (oneHot : Bool)
    (imputation : Option String) (batchSize : Option ℕ) (batchNorm : Bool) (c : TrainConfig) (interval : ℕ) (lr : ℝ) (maxEpochs : ℕ)
    (perm : ℕ → List ℕ) (draw : ℕ → ℕ → ℕ) (start : S) (fit : AEFit S d)
    (h : autoencoderFit trainer score width cats mc data oneHot imputation batchSize batchNorm c interval lr maxEpochs perm draw start
      = .ok fit)
    (ts : Thetas d) (hts : fit.scores = ts.map some) (alg : Algorithm) (halg : alg = .ae ∨ alg = .vae)
    (cov : Matrix (Fin d) (Fin d) ℝ) (f : FittedModel d) (hcats : f.cats = cats)
    (hattrs : f.attrs = alg.afterFit ts cov oneHot imputation)
    (henc : ∀ input out, input.mapM (encodeRow (score fit.params)) = some out → f.encode input = out)
    (hcase : (∀ r ∈ data, ∀ x ∈ r, isMissing x = false) ∨ imputation = none ∨ (alg = .ae ∧ imputation ≠ some "random incorrect")) :
    latentScores f width data "NN" false false none = .ok (some ts, none) := by
  obtain ⟨hoh, ds, st, h1, -, -, -, h2, -⟩ := autoencoderFit_ok h
  obtain ⟨stored, hs1, hs2, hs3, hs4⟩ : ∃ stored, f.attrs.imputationMethod.getD none = stored ∧ f.attrs.oneHotEncoded = some oneHot ∧
      f.attrs.hasEncoder = true ∧ ((∀ r ∈ data, ∀ x ∈ r, isMissing x = false) ∨ (imputation = none ∧ stored = none) ∨
        (stored = imputation ∧ imputation ≠ some "random incorrect")) := by
    rcases halg with rfl | rfl
    · refine ⟨imputation, by rw [hattrs]; rfl, by rw [hattrs]; rfl, by rw [hattrs]; rfl, ?_⟩
      rcases hcase with h | h | ⟨-, h⟩
      · exact Or.inl h
      · exact Or.inr (Or.inl ⟨h, h⟩)
      · exact Or.inr (Or.inr ⟨rfl, h⟩)
    · refine ⟨none, by rw [hattrs]; rfl, by rw [hattrs]; rfl, by rw [hattrs]; rfl, ?_⟩
      rcases hcase with h | h | ⟨h, -⟩
      · exact Or.inl h
      · exact Or.inr (Or.inl ⟨h, rfl⟩)
      · cases h
  have hin := encoderInput_eq width data oneHot cats imputation stored mc draw f.draw ds hw hoh h1 hs4
  have hstart : startScores f width data = .ok (ts, some ds.input) := by
    unfold startScores
    simp only [hs2, hs1, hcats, hin]
    rw [bind_ok, henc ds.input ts (mapM_of_map_some _ _ _ (h2.symm.trans hts))]
    rfl
  have hraw : rawScores f width data "NN" false none = .ok (some ts, some ds.input) := by
    unfold rawScores
    rw [if_neg (by decide), if_neg (by simp), if_neg (by simp [hs3]), if_neg (by decide), hstart, bind_ok]
    simp only
    rw [if_neg (by decide)]
    rfl
  unfold latentScores
  rw [hraw]
  rfl

/-- C99 is false after an autoencoder fit with "random incorrect" imputation: if a response is missing, scoring the data is
refused, since the answer key is not passed on. -/
theorem C99_random_incorrect_false {d : ℕ} (f : FittedModel d) (ts : Thetas d) (cov : Matrix (Fin d) (Fin d) ℝ) (oneHot : Bool)
    (hattrs : f.attrs = Algorithm.ae.afterFit ts cov oneHot (some "random incorrect")) (width : ℕ) (data : List (List Num))
    (hm : ∃ r ∈ data, ∃ x ∈ r, isMissing x = true) (rescale : Bool) :
    latentScores f width data "NN" false rescale none = .error .valueError := by
  have h0 : (data.any fun r => r.any isMissing) = true := by
    obtain ⟨r, hr, x, hx, h⟩ := hm
    exact List.any_eq_true.2 ⟨r, hr, List.any_eq_true.2 ⟨x, hx, h⟩⟩
  have hin : (latentScoresEncoderInput width f.cats oneHot (some "random incorrect") data f.draw).1 = .error .valueError := by
    unfold latentScoresEncoderInput
    simp only [h0, if_true]
    have : imputeMissingInternal width data "random incorrect" none none f.draw = .error .valueError := by
      unfold imputeMissingInternal
      simp
    simp only [this]
  unfold latentScores rawScores
  rw [if_neg (by decide), if_neg (by simp), if_neg (by simp [hattrs, Algorithm.afterFit]), if_neg (by decide)]
  have hstart : startScores f width data = .error .valueError := by
    unfold startScores
    rw [hattrs]
    simp only [Algorithm.afterFit, Option.getD_some, hin]
    rfl
  rw [hstart]
  rfl

/-- C99 is false after a variational autoencoder fit on imputed responses: the method is not stored, so that scoring data with a
missing response is refused. -/
theorem C99_vae_imputation_false {d : ℕ} (f : FittedModel d) (ts : Thetas d) (cov : Matrix (Fin d) (Fin d) ℝ)
    (imputation : Option String) (hattrs : f.attrs = Algorithm.vae.afterFit ts cov false imputation) (width : ℕ)
    (data : List (List Num)) (hm : ∃ r ∈ data, ∃ x ∈ r, isMissing x = true) (rescale : Bool) :
    latentScores f width data "NN" false rescale none = .error .valueError := by
  have h0 : (data.any fun r => r.any isMissing) = true := by
    obtain ⟨r, hr, x, hx, h⟩ := hm
    exact List.any_eq_true.2 ⟨r, hr, List.any_eq_true.2 ⟨x, hx, h⟩⟩
  have hin : (latentScoresEncoderInput width f.cats false none data f.draw).1 = .error .valueError := by
    unfold latentScoresEncoderInput
    simp [h0]
  unfold latentScores rawScores
  rw [if_neg (by decide), if_neg (by simp), if_neg (by simp [hattrs, Algorithm.afterFit]), if_neg (by decide)]
  have hstart : startScores f width data = .error .valueError := by
    unfold startScores
    rw [hattrs]
    simp only [Algorithm.afterFit, Option.getD_some, hin]
    rfl
  rw [hstart]
  rfl

/-- The first input of the encoder as the latent score, whatever the parameters: a network with one linear layer. -/
noncomputable def exFirst : ℝ → List ℝ → Fin 1 → ℝ := fun _ r _ => r.headD 0

/-- A model whose encoder is `exFirst`. -/
noncomputable def exFirstModel (attrs : AlgAttrs 1) (cats : List ℕ) : FittedModel 1 where
  scorer := exScore.scorer 1
  cats := cats
  attrs := attrs
  probs := fun θ => exScore.probs (List.ofFn θ)
  scales := []
  encode := fun input => (input.mapM (encodeRow (exFirst 0))).getD []
  meanSe := fun _ => []
  optimise := fun _ _ ts => ts
  permutation := []
  draw := fun _ _ => 0

/-- C99 is false after a variational autoencoder fit on one-hot encoded responses with zeros imputed: scoring the training data
succeeds, but the respondent with the missing response gets another score than the one that the fit stored. -/
theorem C99_vae_one_hot_false : ∃ fit, autoencoderFit (fun _ => exTrainer) exFirst 1 [2] none [[none], [some 1]] true (some "zero")
      none false mmlConfig 1 (1 / 4) 0 (fun _ => [0, 1]) (fun _ _ => 0) 0 = .ok fit ∧
    fit.scores = [fun _ => (1 : ℝ), fun _ => 0].map some ∧
    ∀ cov, latentScores (exFirstModel (Algorithm.vae.afterFit [fun _ => (1 : ℝ), fun _ => 0] cov true (some "zero")) [2]) 1
      [[none], [some 1]] "NN" false false none = .ok (some [fun _ => (0 : ℝ), fun _ => 0], none) := by
  have hr0 : torchRound 0 = 0 := by simpa using torchRound_int 0
  have hr1 : torchRound 1 = 1 := by simpa using torchRound_int 1
  have hrm : torchRound (-1) = -1 := by simpa using torchRound_int (-1)
  refine ⟨⟨0, [some fun _ => 1, some fun _ => 0], []⟩, ?_, rfl, ?_⟩
  · unfold autoencoderFit
    rw [if_neg (by simp)]
    have : (Dataset.init 1 [[none], [some (1:ℝ)]] true (some [2]) (some "zero") none fun _ _ => 0).1
        = .ok ⟨[[none], [some 1]], missingMaskOf [[none], [some 1]], [[some 1, some 0], [some 0, some 1]]⟩ := by
      have hn : ((1:ℝ) = -1) = False := by norm_num
      simp [Dataset.init, imputeMissingInternal, negOneToNaN, hn, fillRow, oneHotEncode, anyNaN, oneHotBlock, roundedCell, hr0, hr1,
        pyIndex, bind, Except.bind, pure, Except.pure, Except.map, List.range_succ, List.mapM_cons]
    rw [this, bind_ok]
    simp [aeEpochs, encodeRow, AEState.final, AEState.start, pure, Except.pure]
    exact ⟨rfl, rfl⟩
  · intro cov
    have hn : ((1:ℝ) = -1) = False := by norm_num
    have hin : (latentScoresEncoderInput 1 [2] true none [[none], [some (1:ℝ)]] fun _ _ => 0).1
        = .ok [[some 0, some 0], [some 0, some 1]] := by
      simp [latentScoresEncoderInput, isMissing, hn, oneHotEncode, anyNaN, oneHotBlock, nanToNegOne, roundedCell, hrm, hr1,
        pyIndex, bind, Except.bind, pure, Except.pure, Except.map, List.range_succ, List.mapM_cons]
    have h := (C47_encoder_accepted (exFirstModel (Algorithm.vae.afterFit [fun _ => (1 : ℝ), fun _ => 0] cov true (some "zero")) [2]) 1
      [[none], [some 1]] _ none rfl true rfl hin).1
    rw [h]
    simp [exFirstModel, encodeRow, List.mapM_cons]
    exact ⟨rfl, rfl⟩

/-! ## An item without any response -/

theorem aeBatches_nan {S : Type} (T : Trainer S) (c : TrainConfig) (interval : ℕ) (bn : Bool) (bs : List (List ℕ)) (st : AEState S)
    (h : ∀ b ∈ bs, T.loss st.total b st.params = .ok none) : ∃ flag, aeBatches T c interval bn bs st = .ok (st, flag) := by
  induction bs with
  | nil => exact ⟨false, rfl⟩
  | cons b bs ih =>
    unfold aeBatches
    by_cases hb : b.length < 4 ∧ bn = true
    · rw [if_pos hb]
      exact ih fun b' hb' => h b' (List.mem_cons_of_mem _ hb')
    · rw [if_neg hb]
      have : aeBatch T c interval b st = .ok (st, .nan) := by
        unfold aeBatch
        rw [h b List.mem_cons_self]
      rw [this]
      exact ⟨true, rfl⟩

theorem encodeRow_nan {τ : Type} (net : List ℝ → τ) (r : List Num) (h : none ∈ r) : encodeRow net r = none := by
  unfold encodeRow
  rw [mapM_option_none r id ⟨none, h, rfl⟩]
  rfl

theorem map_encodeRow_nan {τ : Type} (net : List ℝ → τ) (input : List (List Num)) (h : ∀ r ∈ input, none ∈ r) :
    input.map (encodeRow net) = List.replicate input.length none := by
  induction input with
  | nil => rfl
  | cons r l ih =>
    rw [List.map_cons, encodeRow_nan _ r (h r List.mem_cons_self), List.length_cons, List.replicate_succ,
      ih fun q hq => h q (List.mem_cons_of_mem _ hq)]

theorem negOneToNaN_of_missing (x : Num) (h : isMissing x = true) : negOneToNaN x = none := by
  cases x with
  | none => rfl
  | some v =>
    have : v = -1 := by simpa [isMissing] using h
    simp [negOneToNaN, this]

/-- With means imputed, an item without any response is NaN in every row of the encoder input. -/
theorem mean_unobserved (width : ℕ) (data : List (List Num)) (hw : ∀ r ∈ data, r.length = width) (j : ℕ) (hj : j < width)
    (hmiss : ∀ r ∈ data, isMissing (r.getD j none) = true) (cats : List ℕ) (mc : Option (List ℤ)) (draw : ℕ → ℕ → ℕ) :
    ∃ input, (Dataset.init width data false (some cats) (some "mean") mc draw).1 = .ok ⟨data, missingMaskOf data, input⟩ ∧
      input.length = data.length ∧ ∀ r ∈ input, none ∈ r := by
  refine ⟨_, rfl, by simp, ?_⟩
  intro r hr
  obtain ⟨r', hr', rfl⟩ := List.mem_map.1 hr
  obtain ⟨r0, hr0, rfl⟩ := List.mem_map.1 hr'
  have hget : ∀ q ∈ data, (q.map negOneToNaN).getD j none = none := by
    intro q hq
    rw [List.getD_eq_getElem _ _ (by rw [List.length_map, hw q hq]; exact hj), List.getElem_map]
    have := hmiss q hq
    rw [List.getD_eq_getElem _ _ (by rw [hw q hq]; exact hj)] at this
    exact negOneToNaN_of_missing _ this
  have hcol : nanMean (column (data.map fun r => r.map negOneToNaN) j) = none := by
    have : (column (data.map fun r => r.map negOneToNaN) j).filterMap id = [] := by
      rw [List.filterMap_eq_nil_iff]
      intro x hx
      unfold column at hx
      rw [List.map_map] at hx
      obtain ⟨q, hq, rfl⟩ := List.mem_map.1 hx
      exact hget q hq
    unfold nanMean
    rw [this]
  apply List.mem_of_getElem? (i := j)
  unfold fillRow
  have h0 : (r0.map negOneToNaN)[j]? = some none := by
    have := hget r0 hr0
    have hl : j < (r0.map negOneToNaN).length := by rw [List.length_map, hw r0 hr0]; exact hj
    rw [List.getD_eq_getElem _ _ hl] at this
    rw [List.getElem?_eq_getElem hl, this]
  rw [List.getElem?_mapIdx, h0, Option.map_some]
  exact congrArg some hcol

/-- C99: if nobody answered one of the items and means are imputed, the first loss is NaN. The fit returns without an error and
without having changed the parameters; every training score is NaN. This holds for both autoencoders. -/
theorem C99_unobserved_item {S : Type} {d : ℕ} (trainer : Dataset → Trainer S) (score : S → List ℝ → Fin d → ℝ)
    (htr : (∃ scorer net update, trainer = aeTrainer (d := d) scorer net update) ∨
      ∃ scorer net samples anneal annealing eps update, trainer = vaeTrainer (d := d) scorer net samples anneal annealing eps update)
    (width : ℕ) (cats : List ℕ) (mc : Option (List ℤ)) (data : List (List Num)) (hne : data ≠ [])
    (hw : ∀ r ∈ data, r.length = width) (j : ℕ) (hj : j < width) (hmiss : ∀ r ∈ data, isMissing (r.getD j none) = true)
    (batchSize : Option ℕ) (hbs : batchSize ≠ some 0) (batchNorm : Bool) (c : TrainConfig) (interval : ℕ) (lr : ℝ) (maxEpochs : ℕ)
    (perm : ℕ → List ℕ) (hperm : ∀ e, (perm e).Perm (List.range data.length)) (draw : ℕ → ℕ → ℕ) (start : S) :
    autoencoderFit trainer score width cats mc data false (some "mean") batchSize batchNorm c interval lr maxEpochs perm draw start
      = .ok ⟨start, List.replicate data.length none, []⟩ := by
  obtain ⟨input, hds, hlen, hnan⟩ := mean_unobserved width data hw j hj hmiss cats mc draw
  set ds : Dataset := ⟨data, missingMaskOf data, input⟩ with hdsdef
  have hsize : 0 < batchSize.getD data.length := by
    cases batchSize with
    | none => exact List.length_pos_iff.2 hne
    | some k => exact Nat.pos_of_ne_zero fun h => hbs (by simpa using h)
  have hbatch : ∀ e, ∀ b ∈ loaderBatches (batchSize.getD data.length) (perm e), ∃ r ∈ takeRows input b, none ∈ r := by
    intro e b hb
    have hb0 : b ≠ [] := blocks_ne_nil _ _ b hb
    obtain ⟨i, hi⟩ := List.exists_mem_of_ne_nil b hb0
    have : i ∈ perm e := by
      rw [← blocks_flatten (batchSize.getD data.length - 1) (perm e)]
      exact List.mem_flatten.2 ⟨b, hb, hi⟩
    have hilt : i < input.length := by
      rw [hlen]
      exact List.mem_range.1 ((hperm e).mem_iff.1 this)
    refine ⟨input[i], ?_, hnan _ (List.getElem_mem hilt)⟩
    exact List.mem_filterMap.2 ⟨i, hi, List.getElem?_eq_getElem hilt⟩
  have hloss : ∀ (k : ℕ) (s : S) (e : ℕ), ∀ b ∈ loaderBatches (batchSize.getD data.length) (perm e), (trainer ds).loss k b s = .ok none := by
    intro k s e b hb
    obtain ⟨r, hr, hn⟩ := hbatch e b hb
    rcases htr with ⟨scorer, net, update, rfl⟩ | ⟨scorer, net, samples, anneal, annealing, eps, update, rfl⟩
    · simp only [aeTrainer, aeObjective, hdsdef]
      rw [mapM_option_none _ _ ⟨r, hr, encodeRow_nan _ r hn⟩]
      rfl
    · simp only [vaeTrainer, hdsdef]
      rw [mapM_option_none _ _ ⟨r, hr, encodeRow_nan _ r hn⟩]
  have hrun : ∀ n e, aeEpochs (trainer ds) c interval batchNorm (fun e => loaderBatches (batchSize.getD data.length) (perm e)) n e
      (AEState.start lr start) = .ok (AEState.start lr start) := by
    intro n
    induction n with
    | zero => intro e; rfl
    | succ n ih =>
      intro e
      obtain ⟨flag, hf⟩ := aeBatches_nan (trainer ds) c interval batchNorm _ (AEState.start lr start) (hloss _ _ e)
      unfold aeEpochs
      rw [hf]
      cases flag with
      | true => rfl
      | false =>
        have h1 : loaderBatches (batchSize.getD data.length) (perm e) ≠ [] := by
          intro h
          have h2 := (C99_epoch _ _ hsize _ (hperm e)).1
          rw [h] at h2
          have := h2.length_eq
          simp at this
          exact hne (List.length_eq_zero_iff.1 this.symm)
        by_cases h2 : c.limit ≤ (AEState.start lr start).lrUpdates
        · simp [h1, h2, bind, Except.bind, pure, Except.pure]
        · simp only [h1, h2, bind, Except.bind, if_false, Bool.false_eq_true]
          exact ih (e + 1)
  unfold autoencoderFit
  rw [if_neg (by simp), hds, bind_ok, if_neg hsize.ne', hrun]
  simp only
  congr 2
  rw [← hlen]
  exact map_encodeRow_nan _ input hnan

/-- The hypotheses of `C99_scores_partial` hold for an autoencoder with means imputed and a missing response. -/
example : ∃ fit, autoencoderFit (fun _ => exTrainer) exFirst 1 [2] none [[none], [some 1]] false (some "mean")
      none false mmlConfig 1 (1 / 4) 0 (fun _ => [0, 1]) (fun _ _ => 0) 0 = .ok fit ∧
    fit.scores = [fun _ => (1 : ℝ), fun _ => 1].map some ∧
    ∀ cov, latentScores (exFirstModel (Algorithm.ae.afterFit [fun _ => (1 : ℝ), fun _ => 1] cov false (some "mean")) [2]) 1
      [[none], [some 1]] "NN" false false none = .ok (some [fun _ => (1 : ℝ), fun _ => 1], none) := by
  have hn : ((1:ℝ) = -1) = False := by norm_num
  have hfit : autoencoderFit (fun _ => exTrainer) exFirst 1 [2] none [[none], [some 1]] false (some "mean")
      none false mmlConfig 1 (1 / 4) 0 (fun _ => [0, 1]) (fun _ _ => 0) 0 = .ok ⟨0, [some fun _ => 1, some fun _ => 1], []⟩ := by
    unfold autoencoderFit
    rw [if_neg (by simp)]
    have : (Dataset.init 1 [[none], [some (1:ℝ)]] false (some [2]) (some "mean") none fun _ _ => 0).1
        = .ok ⟨[[none], [some 1]], missingMaskOf [[none], [some 1]], [[some 1], [some 1]]⟩ := by
      simp [Dataset.init, imputeMissingInternal, negOneToNaN, hn, fillRow, nanMean, column]
    rw [this, bind_ok]
    simp [aeEpochs, encodeRow, AEState.final, AEState.start, pure, Except.pure]
    rfl
  refine ⟨_, hfit, rfl, fun cov => ?_⟩
  refine C99_scores_partial _ _ _ _ _ _ (by simp) _ _ _ _ _ _ _ _ _ _ _ _ hfit _ rfl .ae (Or.inl rfl) cov _ rfl rfl ?_
    (Or.inr (Or.inr ⟨rfl, by simp⟩))
  intro input out h
  show (input.mapM (encodeRow (exFirst 0))).getD [] = out
  rw [show input.mapM (encodeRow (exFirst 0)) = some out from h]
  rfl

/-- A fit with a missing response and "random incorrect" imputation, and a variational fit with means imputed, that succeed. -/
example : (∃ fit, autoencoderFit (fun _ => exTrainer) exFirst 1 [2] (some [1]) [[none], [some 1]] false (some "random incorrect")
      none false mmlConfig 1 (1 / 4) 0 (fun _ => [0, 1]) (fun _ _ => 0) 0 = .ok fit) ∧
    (∃ fit, autoencoderFit (fun _ => exTrainer) exFirst 1 [2] none [[none], [some 1]] false (some "mean")
      none false mmlConfig 1 (1 / 4) 0 (fun _ => [0, 1]) (fun _ _ => 0) 0 = .ok fit) ∧
    ∃ r ∈ [[none], [some (1 : ℝ)]], ∃ x ∈ r, isMissing x = true := by
  have hn : ((1:ℝ) = -1) = False := by norm_num
  refine ⟨?_, ?_, [none], by simp, none, by simp, rfl⟩
  · unfold autoencoderFit
    rw [if_neg (by simp)]
    have : ∃ ds, (Dataset.init 1 [[none], [some (1:ℝ)]] false (some [2]) (some "random incorrect") (some [1]) fun _ _ => 0).1 = .ok ds := by
      simp [Dataset.init, imputeMissingInternal, negOneToNaN, hn, randomIncorrect, randomColumn, bind, Except.bind, pure, Except.pure,
        column, incorrectValues, List.range_succ]
    obtain ⟨ds, hds⟩ := this
    rw [hds, bind_ok]
    exact ⟨_, by simp [aeEpochs, pure, Except.pure]; rfl⟩
  · unfold autoencoderFit
    rw [if_neg (by simp)]
    exact ⟨_, by simp [Dataset.init, imputeMissingInternal, bind, Except.bind, aeEpochs, pure, Except.pure]; rfl⟩

/-- Two items, the second never answered. -/
example : (∀ r ∈ [[some (1 : ℝ), none], [some 0, some (-1)]], r.length = 2) ∧
    (∀ r ∈ [[some (1 : ℝ), none], [some 0, some (-1)]], isMissing (r.getD 1 none) = true) ∧ [1, 0].Perm (List.range 2) := by
  refine ⟨by simp, by simp [isMissing], by decide⟩

end Irt
