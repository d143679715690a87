import Mathlib.Tactic.IntervalCases
import Verif.Model.Utils
import Verif.Spec.Utils
import Mathlib.Data.List.GetD

/-!
# C67, C68: encoder networks and the Big Five data
-/

namespace Irt

/-! ## Encoders -/

theorem runLayers_append (s t : List (LayerName × Layer)) (w : ℕ) :
    runLayers (s ++ t) w = runLayers s w >>= runLayers t := by
  unfold runLayers
  rw [List.foldlM_append]

theorem runLayers_single (n : LayerName) (l : Layer) (w : ℕ) : runLayers [(n, l)] w = l.run w := by
  simp [runLayers]

theorem addModule_fresh (s : List (LayerName × Layer)) (n : LayerName) (l : Layer) (h : n ∉ s.map Prod.fst) :
    addModule s n l = s ++ [(n, l)] := by
  unfold addModule
  rw [if_neg]
  simp only [List.any_eq_true, decide_eq_true_eq, not_exists, not_and]
  intro p hp e
  exact h (List.mem_map.2 ⟨p, hp, e⟩)

/-- One round of the loop over the hidden layers. -/
def hiddenStep (own : Bool) (hidden : List ℕ) (bn : Bool) (s : List (LayerName × Layer)) (i : ℕ) :
    List (LayerName × Layer) :=
  let s := addModule s (.linear i) (.linear (hidden.getD (i - 1) 0) (hidden.getD i 0))
  let s := if bn then
      addModule s (.batchnorm (if own then some i else none)) (.batchnorm (hidden.getD i 0)) else s
  addModule s (.nonlinear i) .pointwise

/-- The names used in the first `m` rounds. -/
def EarlyName (m : ℕ) : LayerName → Prop
  | .linear i => i < m
  | .batchnorm none => True
  | .batchnorm (some i) => i < m
  | .nonlinear i => i < m
  | .tanh _ => False

theorem runLayers_snoc {s : List (LayerName × Layer)} {w v : ℕ} (h : runLayers s w = .ok v) (n : LayerName) (l : Layer) :
    runLayers (s ++ [(n, l)]) w = l.run v := by
  rw [runLayers_append, h]
  show runLayers [(n, l)] v = _
  exact runLayers_single n l v

theorem runLayers_snoc_error {s : List (LayerName × Layer)} {w : ℕ} {e : PyErr} (h : runLayers s w = .error e)
    (t : List (LayerName × Layer)) : runLayers (s ++ t) w = .error e := by
  rw [runLayers_append, h]; rfl

/-- A round with new names appends its layers. -/
theorem hiddenStep_fresh (own : Bool) (hidden : List ℕ) (bn : Bool) (s : List (LayerName × Layer)) (i : ℕ)
    (hs : ∀ n ∈ s.map Prod.fst, EarlyName i n) (hob : own = true ∨ bn = false) :
    hiddenStep own hidden bn s i = s ++ ([(LayerName.linear i, Layer.linear (hidden.getD (i - 1) 0) (hidden.getD i 0))] ++
      (if bn then [(LayerName.batchnorm (some i), Layer.batchnorm (hidden.getD i 0))] else []) ++
      [(LayerName.nonlinear i, Layer.pointwise)]) := by
  unfold hiddenStep
  have h1 : LayerName.linear i ∉ s.map Prod.fst := fun h => by simpa [EarlyName] using hs _ h
  have h2 : LayerName.batchnorm (some i) ∉ s.map Prod.fst := fun h => by simpa [EarlyName] using hs _ h
  have h3 : LayerName.nonlinear i ∉ s.map Prod.fst := fun h => by simpa [EarlyName] using hs _ h
  rw [addModule_fresh s _ _ h1]
  cases bn with
  | false =>
    simp only [Bool.false_eq_true, if_false]
    rw [addModule_fresh _ _ _ (by simpa using h3)]
    simp
  | true =>
    have ho : own = true := by simpa using hob
    subst ho
    simp only [if_true]
    rw [addModule_fresh _ (.batchnorm (some i)) _ (by simpa using h2), addModule_fresh _ (.nonlinear i) _ (by simpa using h3)]
    simp

theorem hiddenLayers_fold (own : Bool) (input : ℕ) (hidden : List ℕ) (bn : Bool) (hob : own = true ∨ bn = false)
    (s0 : List (LayerName × Layer)) (h0 : ∀ n ∈ s0.map Prod.fst, EarlyName 1 n)
    (hr : runLayers s0 input = .ok (hidden.getD 0 0)) (m : ℕ) :
    (∀ n ∈ ((List.range' 1 m).foldl (hiddenStep own hidden bn) s0).map Prod.fst, EarlyName (m + 1) n) ∧
    runLayers ((List.range' 1 m).foldl (hiddenStep own hidden bn) s0) input = .ok (hidden.getD m 0) := by
  induction m with
  | zero => exact ⟨h0, hr⟩
  | succ m ih =>
    obtain ⟨ihn, ihr⟩ := ih
    rw [List.range'_concat, List.foldl_append]
    simp only [List.foldl_cons, List.foldl_nil, one_mul]
    rw [show 1 + m = m + 1 by omega]
    set s := (List.range' 1 m).foldl (hiddenStep own hidden bn) s0 with hs
    rw [hiddenStep_fresh own hidden bn s (m + 1) ihn hob]
    refine ⟨?_, ?_⟩
    · intro n hn
      simp only [List.map_append, List.mem_append] at hn
      rcases hn with hn | hn
      · have := ihn n hn
        cases n with
        | linear i => simp only [EarlyName] at this ⊢; omega
        | batchnorm i => cases i <;> simp only [EarlyName] at this ⊢; omega
        | nonlinear i => simp only [EarlyName] at this ⊢; omega
        | tanh i => exact this
      · cases bn <;> simp at hn
        · rcases hn with rfl | rfl <;> simp [EarlyName]
        · rcases hn with (rfl | rfl) | rfl <;> simp [EarlyName]
    · rw [runLayers_append, ihr]
      show runLayers _ (hidden.getD m 0) = _
      cases bn <;> simp [runLayers, Layer.run, bind, Except.bind, pure, Except.pure]

theorem hiddenLayers_eq (own : Bool) (input : ℕ) (h0 : ℕ) (t : List ℕ) (bn : Bool) :
    hiddenLayers own input (h0 :: t) bn = .ok ((List.range' 1 t.length).foldl (hiddenStep own (h0 :: t) bn)
      ([(LayerName.linear 0, Layer.linear input h0)] ++
        (if bn then [(LayerName.batchnorm none, Layer.batchnorm h0)] else []) ++
        [(LayerName.nonlinear 0, Layer.pointwise)])) := by
  unfold hiddenLayers
  dsimp only
  congr 1
  cases bn <;> simp [addModule] <;> rfl

theorem getLastD_eq (h0 : ℕ) (t : List ℕ) : (h0 :: t).getLastD 0 = (h0 :: t).getD t.length 0 := by
  rw [List.getD_eq_getElem _ _ (by simp), List.getLastD_eq_getLast?, List.getLast?_eq_getElem?]
  simp

/-- The hidden layers of an encoder whose batch normalisations do not share a name. -/
theorem hiddenLayers_run (own : Bool) (input : ℕ) (h0 : ℕ) (t : List ℕ) (bn : Bool) (hob : own = true ∨ bn = false) :
    ∃ s, hiddenLayers own input (h0 :: t) bn = .ok s ∧ (∀ n ∈ s.map Prod.fst, EarlyName (t.length + 1) n) ∧
      runLayers s input = .ok ((h0 :: t).getLastD 0) := by
  refine ⟨_, hiddenLayers_eq own input h0 t bn, ?_⟩
  rw [getLastD_eq]
  apply hiddenLayers_fold own input (h0 :: t) bn hob
  · intro n hn
    cases bn <;> simp at hn
    · rcases hn with rfl | rfl <;> simp [EarlyName]
    · rcases hn with rfl | rfl | rfl <;> simp [EarlyName]
  · cases bn <;> simp [runLayers, Layer.run, bind, Except.bind, pure, Except.pure]

/-- C67: a standard encoder with any nonempty list of hidden sizes, with or without batch normalisation, turns inputs
of the given size into outputs of the given size. -/
theorem C67_standard (input latent : ℕ) (hidden : List ℕ) (hh : hidden ≠ []) (bn : Bool) :
    standardEncoder input latent hidden bn = .ok latent := by
  obtain ⟨h0, t, rfl⟩ := List.exists_cons_of_ne_nil hh
  obtain ⟨s, hs, hn, hr⟩ := hiddenLayers_run true input h0 t bn (Or.inl rfl)
  unfold standardEncoder
  rw [hs]
  show runLayers (addModule s _ _) input = _
  rw [addModule_fresh, runLayers_snoc hr]
  · simp [Layer.run]
  · intro h
    have := hn _ h
    simp [EarlyName] at this

theorem boundedEncoder_of_run (input latent : ℕ) (hidden : List ℕ) (bn : Bool) (s : List (LayerName × Layer))
    (hs : hiddenLayers false input hidden bn = .ok s) (hn : ∀ n ∈ s.map Prod.fst, EarlyName hidden.length n) :
    boundedEncoder input latent hidden bn = (runLayers s input >>= fun w =>
      if w = hidden.getLastD 0 then .ok latent else .error .runtimeError) := by
  unfold boundedEncoder
  rw [hs]
  show runLayers (addModule (addModule s _ _) _ _) input = _
  rw [addModule_fresh s, addModule_fresh, runLayers_append, runLayers_append]
  · cases runLayers s input with
    | error e => rfl
    | ok w =>
      show (runLayers [_] w >>= runLayers [_]) = _
      rw [runLayers_single]
      simp only [Layer.run]
      show _ = if w = hidden.getLastD 0 then _ else _
      split <;> simp [bind, Except.bind, runLayers, Layer.run, pure, Except.pure]
  · simp only [List.map_append, List.mem_append, not_or]
    refine ⟨fun h => ?_, by simp⟩
    have := hn _ h
    simp [EarlyName] at this
  · intro h
    have := hn _ h
    simp [EarlyName] at this

theorem variationalEncoder_of_run (input latent : ℕ) (hidden : List ℕ) (bn : Bool) (s : List (LayerName × Layer))
    (hs : hiddenLayers false input hidden bn = .ok s) :
    variationalEncoder input latent hidden bn = (runLayers s input >>= fun w =>
      if w = hidden.getLastD 0 then .ok (latent, latent) else .error .runtimeError) := by
  unfold variationalEncoder
  rw [hs]
  show (runLayers s input >>= _) = _
  cases runLayers s input with
  | error e => rfl
  | ok w =>
    show _ = if w = hidden.getLastD 0 then _ else _
    by_cases h : w = hidden.getLastD 0
    · have hl : (Layer.linear (hidden.getLastD 0) latent).run w = .ok latent := by simp only [Layer.run, if_pos h]
      rw [if_pos h]
      show ((Layer.linear (hidden.getLastD 0) latent).run w >>= fun mu =>
        (Layer.linear (hidden.getLastD 0) latent).run w >>= fun sigma => pure (mu, sigma)) = _
      rw [hl]; rfl
    · have hl : (Layer.linear (hidden.getLastD 0) latent).run w = .error .runtimeError := by
        simp only [Layer.run, if_neg h]
      rw [if_neg h]
      show ((Layer.linear (hidden.getLastD 0) latent).run w >>= fun mu =>
        (Layer.linear (hidden.getLastD 0) latent).run w >>= fun sigma => pure (mu, sigma)) = _
      rw [hl]; rfl

/-- C67 (partial: without batch normalisation): bounded and variational encoders with any nonempty list of hidden
sizes turn inputs of the given size into outputs of the given size. -/
theorem C67_bounded_variational_partial (input latent : ℕ) (hidden : List ℕ) (hh : hidden ≠ []) :
    boundedEncoder input latent hidden false = .ok latent ∧
    variationalEncoder input latent hidden false = .ok (latent, latent) := by
  obtain ⟨h0, t, rfl⟩ := List.exists_cons_of_ne_nil hh
  obtain ⟨s, hs, hn, hr⟩ := hiddenLayers_run false input h0 t false (Or.inr rfl)
  rw [boundedEncoder_of_run input latent _ false s hs (by simpa using hn),
    variationalEncoder_of_run input latent _ false s hs, hr]
  simp [bind, Except.bind]

/-! With batch normalisation, the normalisations of all layers have one name: the first is replaced. -/

theorem addModule_replace (a c : List (LayerName × Layer)) (n : LayerName) (l l' : Layer)
    (ha : n ∉ a.map Prod.fst) (hc : n ∉ c.map Prod.fst) :
    addModule (a ++ (n, l) :: c) n l' = a ++ (n, l') :: c := by
  unfold addModule
  rw [if_pos (by simp)]
  have key : ∀ b : List (LayerName × Layer), n ∉ b.map Prod.fst →
      b.map (fun p => if p.1 = n then (n, l') else p) = b := by
    intro b hb
    conv_rhs => rw [← List.map_id b]
    apply List.map_congr_left
    intro p hp
    rw [if_neg]
    · rfl
    · intro e; exact hb (List.mem_map.2 ⟨p, hp, e⟩)
  rw [List.map_append, List.map_cons, key a ha, key c hc, if_pos rfl]

theorem sharedFold (input : ℕ) (hidden : List ℕ) (m : ℕ) :
    ∃ c : List (LayerName × Layer),
      (List.range' 1 m).foldl (hiddenStep false hidden true)
        [(.linear 0, .linear input (hidden.getD 0 0)), (.batchnorm none, .batchnorm (hidden.getD 0 0)),
          (.nonlinear 0, .pointwise)]
        = [(LayerName.linear 0, Layer.linear input (hidden.getD 0 0))] ++
            (LayerName.batchnorm none, Layer.batchnorm (hidden.getD m 0)) :: c ∧
      (∀ n ∈ c.map Prod.fst, EarlyName (m + 1) n ∧ n ≠ .batchnorm none) ∧
      runLayers c (hidden.getD 0 0) = .ok (hidden.getD m 0) := by
  induction m with
  | zero =>
    refine ⟨[(.nonlinear 0, .pointwise)], rfl, ?_, ?_⟩
    · simp [EarlyName]
    · simp [runLayers, Layer.run]
  | succ m ih =>
    obtain ⟨c, hc, hn, hr⟩ := ih
    rw [List.range'_concat, List.foldl_append, hc]
    simp only [List.foldl_cons, List.foldl_nil, one_mul]
    rw [show 1 + m = m + 1 by omega]
    refine ⟨c ++ [(.linear (m + 1), .linear (hidden.getD m 0) (hidden.getD (m + 1) 0)),
      (.nonlinear (m + 1), .pointwise)], ?_, ?_, ?_⟩
    · have f1 : LayerName.linear (m + 1) ∉ c.map Prod.fst := fun h => by simpa [EarlyName] using (hn _ h).1
      have f2 : LayerName.nonlinear (m + 1) ∉ c.map Prod.fst := fun h => by simpa [EarlyName] using (hn _ h).1
      have f3 : LayerName.batchnorm none ∉ c.map Prod.fst := fun h => (hn _ h).2 rfl
      unfold hiddenStep
      rw [addModule_fresh _ (.linear (m + 1)) _ (by simpa using f1)]
      simp only [if_true, Bool.false_eq_true, if_false]
      rw [List.append_assoc, List.cons_append (bs := [(LayerName.linear (m + 1), _)]), addModule_replace _ _ _ _ _ (by simp) (by simpa using f3),
        addModule_fresh _ (.nonlinear (m + 1)) _ (by simpa using f2)]
      simp
    · intro n h
      rw [List.map_append, List.mem_append] at h
      rcases h with h | h
      · obtain ⟨h1, h2⟩ := hn n h
        refine ⟨?_, h2⟩
        cases n with
        | linear i => simp only [EarlyName] at h1 ⊢; omega
        | batchnorm i => cases i <;> simp only [EarlyName] at h1 ⊢; omega
        | nonlinear i => simp only [EarlyName] at h1 ⊢; omega
        | tanh i => exact h1
      · simp at h
        rcases h with rfl | rfl <;> simp [EarlyName]
    · rw [runLayers_append, hr]
      show runLayers _ (hidden.getD m 0) = _
      simp [runLayers, Layer.run, bind, Except.bind, pure, Except.pure]

theorem hiddenLayers_shared (input h0 : ℕ) (t : List ℕ) :
    ∃ s, hiddenLayers false input (h0 :: t) true = .ok s ∧ (∀ n ∈ s.map Prod.fst, EarlyName (t.length + 1) n) ∧
      runLayers s input = if h0 = (h0 :: t).getLastD 0 then .ok ((h0 :: t).getLastD 0) else .error .runtimeError := by
  obtain ⟨c, hc, hn, hr⟩ := sharedFold input (h0 :: t) t.length
  refine ⟨_, hiddenLayers_eq false input h0 t true, ?_, ?_⟩
  · simp only [if_true, List.cons_append, List.nil_append]
    rw [show (h0 : ℕ) = (h0 :: t).getD 0 0 from rfl]
    simp only [List.getD_cons_zero] at hc ⊢
    rw [hc]
    intro n h
    simp at h
    rcases h with rfl | rfl | ⟨l, h⟩
    · simp [EarlyName]
    · simp [EarlyName]
    · exact (hn n (List.mem_map.2 ⟨_, h, rfl⟩)).1
  · simp only [if_true, List.cons_append, List.nil_append]
    simp only [List.getD_cons_zero] at hc hr
    rw [hc, getLastD_eq, List.cons_append, List.nil_append]
    show (List.foldlM _ _ _) = _
    simp only [List.foldlM_cons, Layer.run, if_true, bind, Except.bind]
    by_cases h : h0 = (h0 :: t).getD t.length 0
    · rw [if_pos h]
      simp only [if_pos h]
      exact hr
    · rw [if_neg h]
      simp only [if_neg h]

/-- C67: with batch normalisation, bounded and variational encoders work exactly if the first and the last hidden layer
have the same size (in particular with one hidden layer); otherwise every call raises. -/
theorem C67_batch_normalisation (input latent : ℕ) (hidden : List ℕ) (hh : hidden ≠ []) :
    (hidden.headD 0 = hidden.getLastD 0 → boundedEncoder input latent hidden true = .ok latent ∧
      variationalEncoder input latent hidden true = .ok (latent, latent)) ∧
    (hidden.headD 0 ≠ hidden.getLastD 0 → boundedEncoder input latent hidden true = .error .runtimeError ∧
      variationalEncoder input latent hidden true = .error .runtimeError) := by
  obtain ⟨h0, t, rfl⟩ := List.exists_cons_of_ne_nil hh
  obtain ⟨s, hs, hn, hr⟩ := hiddenLayers_shared input h0 t
  rw [boundedEncoder_of_run input latent _ true s hs (by simpa using hn),
    variationalEncoder_of_run input latent _ true s hs, hr]
  constructor
  · intro h
    have h : h0 = (h0 :: t).getLastD 0 := h
    rw [if_pos h]
    simp [bind, Except.bind]
  · intro h
    have h : ¬ h0 = (h0 :: t).getLastD 0 := h
    rw [if_neg h]
    simp [bind, Except.bind]

/-- C67 is false of the code: a bounded or variational encoder with batch normalisation and hidden layers of sizes 4
and 5 can be built but not called. -/
theorem C67_two_layers_false :
    boundedEncoder 10 2 [4, 5] true = .error .runtimeError ∧
    variationalEncoder 10 2 [4, 5] true = .error .runtimeError :=
  (C67_batch_normalisation 10 2 [4, 5] (by simp)).2 (by simp)

/-- C67: an empty list of hidden sizes is refused by all encoders. -/
theorem C67_no_hidden (input latent : ℕ) (bn : Bool) :
    standardEncoder input latent [] bn = .error .indexError ∧
    boundedEncoder input latent [] bn = .error .indexError ∧
    variationalEncoder input latent [] bn = .error .indexError := ⟨rfl, rfl, rfl⟩

example : standardEncoder 10 2 [4, 5, 6] true = .ok 2 := C67_standard _ _ _ (by simp) _

/-! ## Big Five data -/

/-- The reverse keyed items of the questionnaire: even extraversion items, the first four odd agreeableness items, the
first four even conscientiousness items, the first two even emotional stability items and the first three even openness
items. -/
def ReverseKeyed (name : String) : Prop :=
  (∃ k, k < 5 ∧ name = "EXT" ++ toString (2 * k + 2)) ∨ (∃ k, k < 4 ∧ name = "AGR" ++ toString (2 * k + 1)) ∨
  (∃ k, k < 4 ∧ name = "CSN" ++ toString (2 * k + 2)) ∨ (∃ k, k < 2 ∧ name = "EST" ++ toString (2 * k + 2)) ∨
  (∃ k, k < 3 ∧ name = "OPN" ++ toString (2 * k + 2))

theorem reverseItems_iff (name : String) : name ∈ reverseItems ↔ ReverseKeyed name := by
  have h5 : ∀ p : ℕ → Prop, (∃ k, k < 5 ∧ p k) ↔ p 0 ∨ p 1 ∨ p 2 ∨ p 3 ∨ p 4 := by
    intro p
    constructor
    · rintro ⟨k, hk, h⟩
      interval_cases k <;> simp [h]
    · rintro (h | h | h | h | h)
      exacts [⟨0, by norm_num, h⟩, ⟨1, by norm_num, h⟩, ⟨2, by norm_num, h⟩, ⟨3, by norm_num, h⟩, ⟨4, by norm_num, h⟩]
  have h4 : ∀ p : ℕ → Prop, (∃ k, k < 4 ∧ p k) ↔ p 0 ∨ p 1 ∨ p 2 ∨ p 3 := by
    intro p
    constructor
    · rintro ⟨k, hk, h⟩
      interval_cases k <;> simp [h]
    · rintro (h | h | h | h)
      exacts [⟨0, by norm_num, h⟩, ⟨1, by norm_num, h⟩, ⟨2, by norm_num, h⟩, ⟨3, by norm_num, h⟩]
  have h3 : ∀ p : ℕ → Prop, (∃ k, k < 3 ∧ p k) ↔ p 0 ∨ p 1 ∨ p 2 := by
    intro p
    constructor
    · rintro ⟨k, hk, h⟩
      interval_cases k <;> simp [h]
    · rintro (h | h | h)
      exacts [⟨0, by norm_num, h⟩, ⟨1, by norm_num, h⟩, ⟨2, by norm_num, h⟩]
  have h2 : ∀ p : ℕ → Prop, (∃ k, k < 2 ∧ p k) ↔ p 0 ∨ p 1 := by
    intro p
    constructor
    · rintro ⟨k, hk, h⟩
      interval_cases k <;> simp [h]
    · rintro (h | h)
      exacts [⟨0, by norm_num, h⟩, ⟨1, by norm_num, h⟩]
  have e : ("EXT" ++ toString (2 * 0 + 2) = "EXT2" ∧ "EXT" ++ toString (2 * 1 + 2) = "EXT4" ∧
      "EXT" ++ toString (2 * 2 + 2) = "EXT6" ∧ "EXT" ++ toString (2 * 3 + 2) = "EXT8" ∧
      "EXT" ++ toString (2 * 4 + 2) = "EXT10") ∧
      ("AGR" ++ toString (2 * 0 + 1) = "AGR1" ∧ "AGR" ++ toString (2 * 1 + 1) = "AGR3" ∧
      "AGR" ++ toString (2 * 2 + 1) = "AGR5" ∧ "AGR" ++ toString (2 * 3 + 1) = "AGR7") ∧
      ("CSN" ++ toString (2 * 0 + 2) = "CSN2" ∧ "CSN" ++ toString (2 * 1 + 2) = "CSN4" ∧
      "CSN" ++ toString (2 * 2 + 2) = "CSN6" ∧ "CSN" ++ toString (2 * 3 + 2) = "CSN8") ∧
      ("EST" ++ toString (2 * 0 + 2) = "EST2" ∧ "EST" ++ toString (2 * 1 + 2) = "EST4") ∧
      ("OPN" ++ toString (2 * 0 + 2) = "OPN2" ∧ "OPN" ++ toString (2 * 1 + 2) = "OPN4" ∧
      "OPN" ++ toString (2 * 2 + 2) = "OPN6") := by decide
  obtain ⟨⟨a1, a2, a3, a4, a5⟩, ⟨b1, b2, b3, b4⟩, ⟨c1, c2, c3, c4⟩, ⟨d1, d2⟩, ⟨f1, f2, f3⟩⟩ := e
  unfold ReverseKeyed
  rw [h5, h4, h4, h2, h3, a1, a2, a3, a4, a5, b1, b2, b3, b4, c1, c2, c3, c4, d1, d2, f1, f2, f3]
  simp only [reverseItems, List.mem_cons, List.not_mem_nil, or_false, or_assoc]

/-- C68: an answer from 1 to 5 becomes a score from 0 to 4, in reverse order for the reverse keyed items; a missing
answer (coded 0) stays missing. The scores of a reverse keyed and another item with the same answer add to 4. -/
theorem C68_scores (name : String) (a : ℕ) (h1 : 1 ≤ a) (h5 : a ≤ 5) :
    (ReverseKeyed name → bigFiveCell name (some (a : ℝ)) = some ((5 - a : ℕ) : ℝ)) ∧
    (¬ ReverseKeyed name → bigFiveCell name (some (a : ℝ)) = some ((a - 1 : ℕ) : ℝ)) ∧
    bigFiveCell name (some 0) = none ∧ bigFiveCell name none = none := by
  have ha : (a : ℝ) ≠ 0 := by have : a ≠ 0 := by omega
                              exact_mod_cast this
  rw [← reverseItems_iff]
  refine ⟨fun h => ?_, fun h => ?_, ?_, ?_⟩
  · have hx : ((1 : ℝ) - a / 5) * 5 + 1 = 6 - a := by ring
    have hne : ((6 : ℝ) - a) ≠ 6 := by intro e; apply ha; linarith
    simp only [bigFiveCell, Option.some.injEq, if_neg ha, if_pos h, Option.map_some, hx, if_neg hne]
    rw [Nat.cast_sub h5]
    push_cast
    ring
  · simp only [bigFiveCell, Option.some.injEq, if_neg ha, if_neg h, Option.map_some]
    rw [Nat.cast_sub h1]
    push_cast
    ring
  · simp [bigFiveCell]
  · simp [bigFiveCell]

/-- The rows the documentation promises to keep: no response time below zero or above five minutes, one submission from
the address, and at least one answer. -/
def BigFiveValid (r : BigFiveRow) : Prop :=
  (∀ t, some t ∈ r.times → 0 ≤ t ∧ t ≤ 300000) ∧ r.ipc = some 1 ∧
  (∀ a ∈ r.answers, ∃ k : ℕ, k ≤ 5 ∧ a = some (k : ℝ)) ∧ ∃ a ∈ r.answers, a ≠ some 0

theorem all_nat_sum_pos (l : List Num) (h : ∀ a ∈ l, ∃ k : ℕ, k ≤ 5 ∧ a = some (k : ℝ)) :
    ∃ v : List ℝ, l.mapM id = some v ∧ 0 ≤ v.sum ∧ (0 < v.sum ↔ ∃ a ∈ l, a ≠ some 0) := by
  induction l with
  | nil => exact ⟨[], rfl, by simp, by simp⟩
  | cons a t ih =>
    obtain ⟨v, hv, h0, hp⟩ := ih fun b hb => h b (List.mem_cons_of_mem _ hb)
    obtain ⟨k, -, rfl⟩ := h a (List.mem_cons_self ..)
    refine ⟨(k : ℝ) :: v, ?_, ?_, ?_⟩
    · rw [List.mapM_cons, hv]; rfl
    · rw [List.sum_cons]; positivity
    · rw [List.sum_cons]
      have hk : (0 : ℝ) ≤ k := by positivity
      constructor
      · intro hs
        by_cases hk0 : (k : ℝ) = 0
        · rw [hk0, zero_add] at hs
          obtain ⟨b, hb, hb'⟩ := hp.1 hs
          exact ⟨b, List.mem_cons_of_mem _ hb, hb'⟩
        · exact ⟨some (k : ℝ), List.mem_cons_self .., by simpa using hk0⟩
      · rintro ⟨b, hb, hb'⟩
        rcases List.mem_cons.1 hb with rfl | hb
        · have : (k : ℝ) ≠ 0 := by simpa using hb'
          have : (0 : ℝ) < k := lt_of_le_of_ne hk (Ne.symm this)
          linarith
        · linarith [hp.2 ⟨b, hb, hb'⟩]

theorem mapM_id_none (l : List Num) (h : none ∈ l) : l.mapM id = none := by
  induction l with
  | nil => simp at h
  | cons a t ih =>
    rw [List.mapM_cons]
    rcases List.mem_cons.1 h with h | h
    · rw [← h]; rfl
    · rw [ih h]; cases a <;> rfl

theorem bigFiveKeep_iff (r : BigFiveRow) (hna : ∀ a ∈ r.answers, a = none ∨ ∃ k : ℕ, k ≤ 5 ∧ a = some (k : ℝ)) :
    bigFiveKeep r = true ↔ BigFiveValid r := by
  by_cases hnone : none ∈ r.answers
  · constructor
    · intro hk
      unfold bigFiveKeep at hk
      rw [mapM_id_none _ hnone] at hk
      simp at hk
    · rintro ⟨-, -, h, -⟩
      obtain ⟨k, -, hk⟩ := h _ hnone
      simp at hk
  have h : ∀ a ∈ r.answers, ∃ k : ℕ, k ≤ 5 ∧ a = some (k : ℝ) := by
    intro a ha
    rcases hna a ha with rfl | h
    · exact absurd ha hnone
    · exact h
  obtain ⟨v, hv, h0, hp⟩ := all_nat_sum_pos r.answers h
  unfold bigFiveKeep BigFiveValid
  rw [hv]
  simp only [Bool.and_eq_true, List.all_eq_true, decide_eq_true_eq, hp]
  constructor
  · rintro ⟨⟨ht, hi⟩, ha⟩
    refine ⟨fun t htm => ?_, hi, h, ha⟩
    have := ht _ htm
    simp at this
    constructor
    · have := this.1
      by_contra hc
      push Not at hc
      have : t / 1000 < 0 := by linarith
      linarith
    · have := this.2
      linarith
  · rintro ⟨ht, hi, -, ha⟩
    refine ⟨⟨fun t htm => ?_, hi⟩, ha⟩
    cases t with
    | none => rfl
    | some t =>
      obtain ⟨h1, h2⟩ := ht t htm
      simp
      constructor <;> linarith

/-- C68: the processed data are the scores of the valid rows, in order. -/
theorem C68_rows (names : List String) (raw : List BigFiveRow)
    (hraw : ∀ r ∈ raw, ∀ a ∈ r.answers, a = none ∨ ∃ k : ℕ, k ≤ 5 ∧ a = some (k : ℝ)) :
    ∃ kept : List BigFiveRow, kept.Sublist raw ∧ (∀ r, r ∈ kept ↔ r ∈ raw ∧ BigFiveValid r) ∧
      (bigFive names raw).length = kept.length ∧
      ∀ (i : ℕ) (r : BigFiveRow), kept[i]? = some r → ∀ (j : ℕ) name a, names[j]? = some name → r.answers[j]? = some a →
        ((bigFive names raw)[i]?.bind fun row => row[j]?) = some (bigFiveCell name a) := by
  refine ⟨raw.filter bigFiveKeep, List.filter_sublist, ?_, by simp [bigFive], ?_⟩
  · intro r
    rw [List.mem_filter]
    constructor
    · rintro ⟨h1, h2⟩; exact ⟨h1, (bigFiveKeep_iff r (hraw r h1)).1 h2⟩
    · rintro ⟨h1, h2⟩; exact ⟨h1, (bigFiveKeep_iff r (hraw r h1)).2 h2⟩
  · intro i r hr j name a hn ha
    simp [bigFive, List.getElem?_map, hr, List.getElem?_zipWith, hn, ha]

example : bigFiveCell "EXT2" (some 5) = some 0 ∧ bigFiveCell "EXT1" (some 5) = some 4 := by
  constructor
  · have := (C68_scores "EXT2" 5 (by norm_num) (by norm_num)).1 ((reverseItems_iff _).1 (by decide))
    simpa using this
  · have := (C68_scores "EXT1" 5 (by norm_num) (by norm_num)).2.1 (fun h => absurd ((reverseItems_iff _).2 h) (by decide))
    norm_num at this; exact this

/-- A valid row. -/
example : BigFiveValid ⟨[some 0, some 3], [some 1200, some 800], some 1⟩ := by
  refine ⟨?_, rfl, ?_, some 3, by simp, by norm_num⟩
  · intro t ht
    simp at ht
    rcases ht with rfl | rfl <;> norm_num
  · intro a ha
    simp at ha
    rcases ha with rfl | rfl
    · exact ⟨0, by norm_num, by simp⟩
    · exact ⟨3, by norm_num, by norm_num⟩

end Irt
