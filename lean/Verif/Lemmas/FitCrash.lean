import Verif.Spec.FitCrash

/-!
# Invariants and relations of interruptible programs
-/

namespace Irt

open Spec

namespace Crash

variable {W α β : Type}

/-- `P` holds at every crash point if it holds at the start. -/
def Keeps (P : W → Prop) (m : Crash W α) : Prop := ∀ k w, P w → P (m k w).2

/-- From `P`, at every crash point `Q` holds, and `R` at the regular end. -/
def Triple (P Q : W → Prop) (R : α → W → Prop) (m : Crash W α) : Prop :=
  ∀ k w, P w → Q (m k w).2 ∧ ∀ a k', (m k w).1 = .ok (a, k') → R a (m k w).2

theorem triple_pure {P Q : W → Prop} {R : α → W → Prop} (a : α) (h1 : ∀ w, P w → Q w) (h2 : ∀ w, P w → R a w) :
    Triple P Q R (Crash.pure a) := by
  intro k w hw
  refine ⟨h1 w hw, fun a' k' h => ?_⟩
  simp only [Crash.pure, Except.ok.injEq, Prod.mk.injEq] at h
  rw [← h.1]; exact h2 w hw

theorem triple_bind {P Q : W → Prop} {R : α → W → Prop} {R' : β → W → Prop} {m : Crash W α} {f : α → Crash W β}
    (hm : Triple P Q R m) (hf : ∀ a, Triple (R a) Q R' (f a)) : Triple P Q R' (m >>= f) := by
  intro k w hw
  obtain ⟨h1, h2⟩ := hm k w hw
  show Q (Crash.bind m f k w).2 ∧ ∀ a k', (Crash.bind m f k w).1 = .ok (a, k') → R' a (Crash.bind m f k w).2
  unfold Crash.bind
  rcases hmk : m k w with ⟨r, w'⟩
  rw [hmk] at h1 h2
  rcases r with e | ⟨a, k'⟩
  · exact ⟨h1, fun _ _ h => by simp at h⟩
  · exact hf a k' w' (h2 a k' rfl)

theorem triple_stmt {P Q : W → Prop} {R : Unit → W → Prop} (f : W → W) (h0 : ∀ w, P w → Q w) (h1 : ∀ w, P w → Q (f w))
    (h2 : ∀ w, P w → R () (f w)) : Triple P Q R (stmt f) := by
  intro k w hw
  unfold stmt
  rcases k with _ | _ | k
  · exact ⟨h1 w hw, fun _ _ _ => h2 w hw⟩
  · exact ⟨h0 w hw, fun _ _ h => by simp at h⟩
  · exact ⟨h1 w hw, fun _ _ _ => h2 w hw⟩

theorem triple_eval {P Q : W → Prop} {R : α → W → Prop} (f : W → Except PyErr α) (h1 : ∀ w, P w → Q w)
    (h2 : ∀ w a, P w → f w = .ok a → R a w) : Triple P Q R (eval f) := by
  intro k w hw
  unfold eval
  cases h : f w with
  | error e => exact ⟨h1 w hw, fun _ _ h => by simp at h⟩
  | ok a =>
    refine ⟨h1 w hw, fun a' k' h' => ?_⟩
    simp only [Except.ok.injEq, Prod.mk.injEq] at h'
    rw [← h'.1]; exact h2 w a hw h

theorem triple_weaken {P P' Q Q' : W → Prop} {R R' : α → W → Prop} {m : Crash W α} (h : Triple P Q R m)
    (hp : ∀ w, P' w → P w) (hq : ∀ w, Q w → Q' w) (hr : ∀ a w, R a w → R' a w) : Triple P' Q' R' m :=
  fun k w hw => ⟨hq _ (h k w (hp w hw)).1, fun a k' he => hr _ _ ((h k w (hp w hw)).2 a k' he)⟩

theorem triple_pull {P Q : W → Prop} {R : α → W → Prop} {φ : Prop} {m : Crash W α} (h : φ → Triple P Q R m) :
    Triple (fun w => P w ∧ φ) Q R m :=
  fun k w hw => h hw.2 k w hw.1

/-- Two uninterrupted runs from related states end alike and in related states. -/
def Rel (R R' : W → W → Prop) (m : Crash W α) : Prop :=
  ∀ w w', R w w' →
    (∃ a v v', m none w = (.ok (a, none), v) ∧ m none w' = (.ok (a, none), v') ∧ R' v v') ∨
    ∃ e v v', m none w = (.error (.raised e), v) ∧ m none w' = (.error (.raised e), v')

theorem rel_pure {R : W → W → Prop} (a : α) : Rel R R (Crash.pure a : Crash W α) :=
  fun w w' h => .inl ⟨a, w, w', rfl, rfl, h⟩

theorem rel_bind {R R' R'' : W → W → Prop} {m : Crash W α} {f : α → Crash W β} (hm : Rel R R' m)
    (hf : ∀ a, Rel R' R'' (f a)) : Rel R R'' (m >>= f) := by
  intro w w' h
  rcases hm w w' h with ⟨a, v, v', h1, h2, h3⟩ | ⟨e, v, v', h1, h2⟩
  · rcases hf a v v' h3 with ⟨b, u, u', g1, g2, g3⟩ | ⟨e, u, u', g1, g2⟩
    · refine .inl ⟨b, u, u', ?_, ?_, g3⟩
      · show Crash.bind m f none w = _
        simp only [Crash.bind, h1, g1]
      · show Crash.bind m f none w' = _
        simp only [Crash.bind, h2, g2]
    · refine .inr ⟨e, u, u', ?_, ?_⟩
      · show Crash.bind m f none w = _
        simp only [Crash.bind, h1, g1]
      · show Crash.bind m f none w' = _
        simp only [Crash.bind, h2, g2]
  · refine .inr ⟨e, v, v', ?_, ?_⟩
    · show Crash.bind m f none w = _
      simp only [Crash.bind, h1]
    · show Crash.bind m f none w' = _
      simp only [Crash.bind, h2]

theorem rel_stmt {R R' : W → W → Prop} (f : W → W) (h : ∀ w w', R w w' → R' (f w) (f w')) : Rel R R' (stmt f) :=
  fun w w' hw => .inl ⟨(), f w, f w', rfl, rfl, h w w' hw⟩

theorem rel_eval {R : W → W → Prop} (f : W → Except PyErr α) (h : ∀ w w', R w w' → f w = f w') : Rel R R (eval f) := by
  intro w w' hw
  have := h w w' hw
  unfold eval
  simp only [← this]
  cases f w with
  | error e => exact .inr ⟨e, w, w', rfl, rfl⟩
  | ok a => exact .inl ⟨a, w, w', rfl, rfl, hw⟩

theorem rel_weaken {R R' Q Q' : W → W → Prop} {m : Crash W α} (h : Rel R R' m) (h1 : ∀ w w', Q w w' → R w w')
    (h2 : ∀ w w', R' w w' → Q' w w') : Rel Q Q' m := by
  intro w w' hw
  rcases h w w' (h1 _ _ hw) with ⟨a, v, v', g1, g2, g3⟩ | h
  · exact .inl ⟨a, v, v', g1, g2, h2 _ _ g3⟩
  · exact .inr h

/-- An uninterrupted run ends regularly. -/
def Ends (P : W → Prop) (R : α → W → Prop) (m : Crash W α) : Prop :=
  ∀ w, P w → ∃ a v, m none w = (.ok (a, none), v) ∧ R a v

theorem ends_pure {P : W → Prop} {R : α → W → Prop} (a : α) (h : ∀ w, P w → R a w) : Ends P R (Crash.pure a) :=
  fun w hw => ⟨a, w, rfl, h w hw⟩

theorem ends_bind {P : W → Prop} {R : α → W → Prop} {R' : β → W → Prop} {m : Crash W α} {f : α → Crash W β}
    (hm : Ends P R m) (hf : ∀ a, Ends (R a) R' (f a)) : Ends P R' (m >>= f) := by
  intro w hw
  obtain ⟨a, v, h1, h2⟩ := hm w hw
  obtain ⟨b, u, g1, g2⟩ := hf a v h2
  refine ⟨b, u, ?_, g2⟩
  show Crash.bind m f none w = _
  simp only [Crash.bind, h1, g1]

theorem ends_stmt {P : W → Prop} {R : Unit → W → Prop} (f : W → W) (h : ∀ w, P w → R () (f w)) : Ends P R (stmt f) :=
  fun w hw => ⟨(), f w, rfl, h w hw⟩

theorem ends_eval {P : W → Prop} {R : α → W → Prop} (f : W → Except PyErr α) (h : ∀ w, P w → ∃ a, f w = .ok a ∧ R a w) :
    Ends P R (eval f) := by
  intro w hw
  obtain ⟨a, h1, h2⟩ := h w hw
  exact ⟨a, w, by unfold eval; rw [h1], h2⟩

/-- The program cannot end regularly, and `Q` holds when it ends. -/
def FailsWith (P Q : W → Prop) (m : Crash W α) : Prop := ∀ k w, P w → (∃ e, (m k w).1 = .error e) ∧ Q (m k w).2

theorem failsWith_false {P Q : W → Prop} {m : Crash W α} (h : ∀ w, ¬ P w) : FailsWith P Q m :=
  fun _ w hw => absurd hw (h w)

theorem failsWith_bind {P Q : W → Prop} {R : α → W → Prop} {m : Crash W α} {f : α → Crash W β} (hm : Triple P Q R m)
    (hf : ∀ a, FailsWith (R a) Q (f a)) : FailsWith P Q (m >>= f) := by
  intro k w hw
  obtain ⟨h1, h2⟩ := hm k w hw
  show (∃ e, (Crash.bind m f k w).1 = .error e) ∧ Q (Crash.bind m f k w).2
  unfold Crash.bind
  rcases hmk : m k w with ⟨r, w'⟩
  rw [hmk] at h1 h2
  rcases r with e | ⟨a, k'⟩
  · exact ⟨⟨e, rfl⟩, h1⟩
  · exact hf a k' w' (h2 a k' rfl)

theorem failsWith_eval {P Q : W → Prop} (f : W → Except PyErr α) {g : α → Crash W β} (h1 : ∀ w, P w → Q w)
    (hf : ∀ a, FailsWith (fun w => P w ∧ f w = .ok a) Q (g a)) : FailsWith P Q (eval f >>= g) :=
  failsWith_bind (triple_eval f h1 fun w a hw he => ⟨hw, he⟩) hf

end Crash

end Irt
