import Verif.Spec.EncoderNet
import Verif.Props.OneHot
import Verif.Lemmas.Scoring

/-! # Lemmas about encoder networks -/

namespace Irt
open Spec

theorem mapM_some_iff {α β : Type*} (l : List α) (f : α → Option β) (out : List β) :
    l.mapM f = some out ↔ l.map f = out.map some := by
  induction l generalizing out with
  | nil => cases out <;> simp [List.mapM_nil, pure]
  | cons a l ih =>
    rw [List.mapM_cons]
    cases out with
    | nil =>
      simp only [List.map_cons, List.map_nil, reduceCtorEq, iff_false]
      cases f a with
      | none => simp
      | some b => cases h : l.mapM f <;> simp [h, pure]
    | cons o out =>
      simp only [List.map_cons, List.cons.injEq, ← ih out]
      cases f a with
      | none => simp
      | some b => cases h : l.mapM f <;> simp [h, pure]

theorem mapM_option_bind {α β γ : Type*} (l : List α) (f : α → Option β) (g : β → Option γ) (out : List γ) :
    l.mapM (fun x => (f x).bind g) = some out ↔ ∃ y, l.mapM f = some y ∧ y.mapM g = some out := by
  induction l generalizing out with
  | nil => simp [List.mapM_nil, pure]
  | cons a l ih =>
    simp only [mapM_some_iff, List.map_cons] at ih ⊢
    constructor
    · intro h
      cases out with
      | nil => simp at h
      | cons o out =>
        simp only [List.map_cons, List.cons.injEq] at h
        obtain ⟨y, h1, h2⟩ := (ih out).1 h.2
        obtain ⟨b, hb, hg⟩ := Option.bind_eq_some_iff.1 h.1
        exact ⟨b :: y, by simp [hb, h1], by simp [hg, h2]⟩
    · rintro ⟨y, h1, h2⟩
      cases y with
      | nil => simp at h1
      | cons b y =>
        cases out with
        | nil => simp at h2
        | cons o out =>
          simp only [List.map_cons, List.cons.injEq] at h1 h2 ⊢
          exact ⟨by rw [h1.1]; exact h2.1, (ih out).2 ⟨y, h1.2, h2.2⟩⟩

theorem mapM_ite_size (batch : List (List ℝ)) (k : ℕ) (f : List ℝ → List ℝ) (out : List (List ℝ)) :
    batch.mapM (fun x => if x.length = k then some (f x) else none) = some out ↔
      (batch.all fun r => decide (r.length = k)) = true ∧ batch.map f = out := by
  induction batch generalizing out with
  | nil => simp [List.mapM_nil, pure, eq_comm]
  | cons a l ih =>
    simp only [mapM_some_iff, List.map_cons, List.all_cons, Bool.and_eq_true, decide_eq_true_eq] at ih ⊢
    cases out with
    | nil => simp
    | cons o out =>
      simp only [List.map_cons, List.cons.injEq, ih out]
      by_cases h : a.length = k
      · simp [h]; tauto
      · simp [h]

/-- One layer in evaluation mode. -/
theorem NetLayer.run_eval (l : NetLayer) (batch : List (List ℝ)) :
    (l.run false batch).2 = l ∧
      ∀ out, (l.run false batch).1 = .ok out ↔ batch.mapM (layerValue l) = some out := by
  cases l with
  | linear a rows =>
    have key := fun out => mapM_ite_size batch a (fun x => rows.map fun p => (List.zipWith (· * ·) p.1 x).sum + p.2) out
    unfold NetLayer.run
    by_cases h : (batch.all fun r => decide (r.length = a)) = true
    · simp only [h, if_true]
      refine ⟨trivial, fun out => ?_⟩
      refine Iff.trans ?_ (key out).symm
      simp only [h, true_and, Except.ok.injEq]
      rfl
    · simp only [h]
      refine ⟨rfl, fun out => ?_⟩
      refine Iff.trans ?_ (key out).symm
      simp [h]
  | batchNorm k scale shift mean var =>
    have key := fun out => mapM_ite_size batch k
      (fun x => x.mapIdx fun j t => (t - mean j) / Real.sqrt (var j + 1 / 100000) * scale j + shift j) out
    unfold NetLayer.run
    by_cases h : (batch.all fun r => decide (r.length = k)) = true
    · simp only [h, if_true]
      refine ⟨rfl, fun out => ?_⟩
      refine Iff.trans ?_ (key out).symm
      simp only [h, true_and]
      simp only [Bool.false_eq_true, if_false, Except.ok.injEq]
      rfl
    · simp only [h]
      refine ⟨rfl, fun out => ?_⟩
      refine Iff.trans ?_ (key out).symm
      simp [h]
  | pointwise φ =>
    refine ⟨rfl, fun out => ?_⟩
    rw [mapM_some_iff]
    show Except.ok _ = Except.ok out ↔ _
    rw [Except.ok.injEq]
    show _ ↔ List.map (fun x => some (List.map φ x)) batch = _
    rw [show (fun x : List ℝ => some (List.map φ x)) = some ∘ fun x => List.map φ x from rfl, ← List.map_map]
    exact (List.map_injective_iff.2 (Option.some_injective _)).eq_iff.symm

/-- A network in evaluation mode. -/
theorem runNet_eval (layers : List NetLayer) (batch : List (List ℝ)) :
    (runNet false layers batch).2 = layers ∧
      ∀ out, (runNet false layers batch).1 = .ok out ↔ batch.mapM (netValue layers) = some out := by
  induction layers generalizing batch with
  | nil =>
    refine ⟨rfl, fun out => ?_⟩
    rw [mapM_some_iff]
    show Except.ok batch = _ ↔ List.map (fun x => some x) batch = _
    rw [Except.ok.injEq]
    exact (List.map_injective_iff.2 (Option.some_injective _)).eq_iff.symm
  | cons l ls ih =>
    have hv : netValue (l :: ls) = fun x => (layerValue l x).bind (netValue ls) := rfl
    obtain ⟨h2, h1⟩ := l.run_eval batch
    rw [hv]
    unfold runNet
    rcases hr : l.run false batch with ⟨r, l'⟩
    rw [hr] at h1 h2
    simp only at h1 h2
    subst h2
    cases r with
    | error e =>
      refine ⟨rfl, fun out => ?_⟩
      simp only [reduceCtorEq, false_iff]
      rw [mapM_option_bind]
      rintro ⟨y, hy, -⟩
      exact absurd ((h1 y).2 hy) (by simp)
    | ok y =>
      refine ⟨by simp [(ih y).1], fun out => ?_⟩
      simp only
      rw [(ih y).2 out, mapM_option_bind]
      constructor
      · intro h
        exact ⟨y, (h1 y).1 rfl, h⟩
      · rintro ⟨y', hy', h⟩
        have := (h1 y').2 hy'
        simp only [Except.ok.injEq] at this
        exact this ▸ h

/-! ## The encoder input -/

theorem except_mapM_ok_iff {α β : Type*} (l : List α) (f : α → Except PyErr β) (out : List β) :
    l.mapM f = .ok out ↔ l.mapM (fun x => (f x).toOption) = some out := by
  induction l generalizing out with
  | nil => simp [List.mapM_nil, pure, Except.pure]
  | cons a l ih =>
    rw [List.mapM_cons, List.mapM_cons]
    cases f a with
    | error e => simp [bind, Except.bind, Except.toOption]
    | ok b =>
      cases h : l.mapM f with
      | error e =>
        have : l.mapM (fun x => (f x).toOption) = none := by
          rcases h' : l.mapM (fun x => (f x).toOption) with - | o
          · rfl
          · exact absurd ((ih o).2 h') (by simp [h])
        rw [this]
        simp [bind, Except.bind, Except.toOption]
      | ok o =>
        rw [(ih o).1 h]
        simp [bind, Except.bind, Except.toOption, pure, Except.pure]

/-- The input of one respondent after imputation; nothing if it cannot be used. -/
noncomputable def ownFixed (oneHot : Bool) (imputation : Option String) (r : List Num) : Option (List Num) :=
  if r.any isMissing then
    match imputation with
    | some m => if m = "zero" then some (fillRow (fun _ => some 0) (r.map negOneToNaN)) else none
    | none => if oneHot then some r else none
  else some r

/-- The encoded input of one respondent. -/
noncomputable def ownEncoded (cats : List ℕ) (oneHot : Bool) (r : List Num) : Option (List Num) :=
  if oneHot then
    (((List.zip cats (r.map nanToNegOne)).mapM fun p => oneHotBlock p.1 (roundedCell p.2)).toOption).map fun b =>
      b.flatten.map fun k : ℕ => some (k : ℝ)
  else some r

theorem encode_iff (cats : List ℕ) (oneHot : Bool) (d : List (List Num)) (input : List (List Num)) :
    (if oneHot then
      (oneHotEncode cats cats.length d).1.map fun h => h.map fun r => r.map fun k : ℕ => (some (k : ℝ) : Num)
    else .ok d) = .ok input ↔ d.mapM (ownEncoded cats oneHot) = some input := by
  cases oneHot with
  | false =>
    simp only [Bool.false_eq_true, if_false, Except.ok.injEq]
    rw [mapM_some_iff]
    show _ ↔ d.map some = _
    exact (List.map_injective_iff.2 (Option.some_injective _)).eq_iff.symm
  | true =>
    simp only [if_true]
    have hd : (if anyNaN d then d.map (fun r => r.map nanToNegOne) else d) = d.map fun r => r.map nanToNegOne := by
      split_ifs with h
      · rfl
      · exact (map_nanToNegOne_of_noNaN d (by simpa using h)).symm
    unfold oneHotEncode
    simp only [ne_eq, not_true_eq_false, if_false, hd]
    rw [List.mapM_map]
    set F : List Num → Except PyErr (List ℕ) := fun r => do
      let blocks ← (List.zip cats (r.map nanToNegOne)).mapM fun p => oneHotBlock p.1 (roundedCell p.2)
      return blocks.flatten with hF
    have e1 : ownEncoded cats true = fun r => ((F r).toOption).bind fun b => some (b.map fun k : ℕ => (some (k : ℝ) : Num)) := by
      funext r
      unfold ownEncoded
      rw [if_pos rfl, hF]
      simp only
      cases (List.zip cats (r.map nanToNegOne)).mapM fun p => oneHotBlock p.1 (roundedCell p.2) <;> rfl
    rw [e1, mapM_option_bind]
    have e2 : (fun r => F r) = F := rfl
    change ((d.mapM F).map _ = _) ↔ _
    cases h : d.mapM F with
    | error e =>
      simp only [Except.map, reduceCtorEq, false_iff]
      rintro ⟨y, hy, -⟩
      exact absurd ((except_mapM_ok_iff d F y).2 hy) (by simp [h])
    | ok y =>
      have hy := (except_mapM_ok_iff d F y).1 h
      simp only [Except.map, Except.ok.injEq]
      constructor
      · intro hi
        refine ⟨y, hy, ?_⟩
        rw [mapM_some_iff, ← hi, List.map_map]
        rfl
      · rintro ⟨y', hy', h'⟩
        rw [hy] at hy'
        obtain rfl := Option.some.inj hy'
        rw [mapM_some_iff] at h'
        apply List.map_injective_iff.2 (Option.some_injective _)
        rw [← h', List.map_map]
        rfl

theorem mapM_bind_of_some {α β γ : Type*} (l : List α) (f : α → Option β) (h : α → β) (g : β → Option γ)
    (hf : ∀ x ∈ l, f x = some (h x)) (out : List γ) :
    l.mapM (fun x => (f x).bind g) = some out ↔ (l.map h).mapM g = some out := by
  rw [mapM_some_iff, mapM_some_iff, List.map_map]
  rw [List.map_congr_left (g := g ∘ h) fun x hx => by simp [hf x hx]]

theorem complete_row (r : List Num) (h : r.any isMissing = false) :
    fillRow (fun _ => some 0) (r.map negOneToNaN) = r := by
  rw [List.any_eq_false] at h
  apply List.ext_getElem?
  intro j
  unfold fillRow
  rw [List.getElem?_mapIdx, List.getElem?_map]
  rcases hj : r[j]? with - | x
  · rfl
  · have := h x (List.mem_of_getElem? hj)
    cases x with
    | none => simp [isMissing] at this
    | some v =>
      have hv : v ≠ -1 := by simpa [isMissing] using this
      simp [negOneToNaN, hv]

/-- The encoder input is made respondent by respondent, unless means are imputed. -/
theorem encoderInput_iff (cats : List ℕ) (oneHot : Bool) (imputation : Option String)
    (himp : imputation ≠ some "mean") (data : List (List Num)) (draw : ℕ → ℕ → ℕ) (input : List (List Num)) :
    (latentScoresEncoderInput cats.length cats oneHot imputation data draw).1 = .ok input ↔
      data.mapM (fun r => (ownFixed oneHot imputation r).bind (ownEncoded cats oneHot)) = some input := by
  have enc : ∀ (d : List (List Num)) (t : List (List Num)), ((if oneHot then
      ((oneHotEncode cats cats.length d).1.map fun h => h.map fun r => r.map fun k : ℕ => (some (k : ℝ) : Num),
        (oneHotEncode cats cats.length d).2)
    else (Except.ok d, t)).1 = Except.ok input) ↔ d.mapM (ownEncoded cats oneHot) = some input := by
    intro d t
    rw [← encode_iff]
    cases oneHot <;> simp
  have bad : ∀ r ∈ data, ownFixed oneHot imputation r = none →
      ¬ data.mapM (fun r => (ownFixed oneHot imputation r).bind (ownEncoded cats oneHot)) = some input := by
    intro r hr h0 h
    rw [mapM_option_none _ _ ⟨r, hr, by simp [h0]⟩] at h
    exact absurd h (by simp)
  unfold latentScoresEncoderInput
  by_cases hm : (data.any fun r => r.any isMissing) = true
  · simp only [hm, if_true]
    obtain ⟨r0, hr0, hr0m⟩ := List.any_eq_true.1 hm
    cases imputation with
    | some m =>
      by_cases hz : m = "zero"
      · subst hz
        have e : imputeMissingInternal cats.length data "zero" none none draw =
            .ok (data.map fun r => fillRow (fun _ => some 0) (r.map negOneToNaN)) := by
          simp [imputeMissingInternal, List.map_map, Function.comp_def]
        simp only [e]
        rw [enc, mapM_bind_of_some (h := fun r => fillRow (fun _ => some 0) (r.map negOneToNaN))]
        intro r _
        unfold ownFixed
        by_cases h : r.any isMissing = true
        · simp [h]
        · rw [if_neg h, complete_row r (Bool.not_eq_true _ ▸ h)]
      · have hmean : m ≠ "mean" := fun h => himp (by rw [h])
        have e : imputeMissingInternal cats.length data m none none draw = .error .valueError := by
          unfold imputeMissingInternal
          simp only [hz, hmean, if_false]
          split_ifs <;> rfl
        simp only [e, reduceCtorEq, false_iff]
        exact bad r0 hr0 (by unfold ownFixed; simp [hr0m, hz])
    | none =>
      cases oneHot with
      | true =>
        have := enc data data
        simp only [if_true] at this ⊢
        rw [this, mapM_bind_of_some (h := id), List.map_id]
        intro r _
        unfold ownFixed
        by_cases h : r.any isMissing = true
        · simp [h]
        · rw [if_neg h]; rfl
      | false =>
        simp only [Bool.false_eq_true, if_false, reduceCtorEq, false_iff]
        exact bad r0 hr0 (by unfold ownFixed; simp [hr0m])
  · simp only [hm]
    rw [if_neg (by simp), enc, mapM_bind_of_some (h := id), List.map_id]
    intro r hr
    unfold ownFixed
    rw [if_neg fun h => hm (List.any_eq_true.2 ⟨r, hr, h⟩)]
    rfl

/-- Complete data: no imputation takes place. -/
theorem nnInput_complete (cats : List ℕ) (oneHot : Bool) (imputation : Option String)
    (data : List (List Num)) (hd : ∀ r ∈ data, ∀ x ∈ r, isMissing x = false) (draw : ℕ → ℕ → ℕ) :
    (latentScoresEncoderInput cats.length cats oneHot imputation data draw).1 =
      (latentScoresEncoderInput cats.length cats oneHot none data draw).1 := by
  have hm : (data.any fun r => r.any isMissing) = false := by
    rw [List.any_eq_false]
    intro r hr h
    obtain ⟨x, hx, hxm⟩ := List.any_eq_true.1 h
    rw [hd r hr x hx] at hxm
    exact absurd hxm (by simp)
  unfold latentScoresEncoderInput
  simp [hm]

end Irt
