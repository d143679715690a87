import Verif.Lemmas.Categorical

/-! # Lemmas about the log likelihood -/

namespace Irt

variable {α β : Type*}

theorem mapM_ok (l : List α) (f : α → Except PyErr β) (g : α → β)
    (h : ∀ x ∈ l, f x = .ok (g x)) : l.mapM f = .ok (l.map g) := by
  induction l with
  | nil => rfl
  | cons a l ih =>
    rw [List.mapM_cons, h a (by simp), ih (fun x hx => h x (by simp [hx]))]
    rfl

theorem mapM_ok_iff {ε α β : Type*} (l : List α) (f : α → Except ε β) (ys : List β) :
    l.mapM f = .ok ys ↔ ys.length = l.length ∧
      ∀ (i : ℕ) x, l[i]? = some x → ∃ y, ys[i]? = some y ∧ f x = .ok y := by
  induction l generalizing ys with
  | nil =>
    simp only [List.mapM_nil, pure, Except.pure, Except.ok.injEq, List.length_nil, List.getElem?_nil,
      reduceCtorEq, false_imp_iff, implies_true, and_true]
    constructor
    · rintro rfl; rfl
    · intro h; exact (List.length_eq_zero_iff.1 h).symm
  | cons a l ih =>
    rw [List.mapM_cons]
    cases hf : f a with
    | error e =>
      simp only [bind, Except.bind, reduceCtorEq, false_iff, not_and, not_forall]
      intro _
      refine ⟨0, a, rfl, ?_⟩
      rintro ⟨y, _, hy⟩
      rw [hf] at hy; cases hy
    | ok b =>
      simp only [bind, Except.bind]
      cases hm : l.mapM f with
      | error e =>
        simp only [reduceCtorEq, false_iff]
        rintro ⟨hl, hx⟩
        cases ys with
        | nil => simp at hl
        | cons y ys =>
          have := (ih ys).2 ⟨by simpa using hl, fun i x h => by
            obtain ⟨y', h1, h2⟩ := hx (i + 1) x (by simpa using h)
            exact ⟨y', by simpa using h1, h2⟩⟩
          rw [hm] at this; cases this
      | ok bs =>
        simp only [pure, Except.pure, Except.ok.injEq]
        have hbs := (ih bs).1 hm
        constructor
        · rintro rfl
          refine ⟨by simp [hbs.1], ?_⟩
          intro i x h
          cases i with
          | zero =>
            have : a = x := by simpa using h
            subst this
            exact ⟨b, rfl, hf⟩
          | succ i => simpa using hbs.2 i x (by simpa using h)
        · rintro ⟨hl, hx⟩
          cases ys with
          | nil => simp at hl
          | cons y ys =>
            have h2 := (ih ys).2 ⟨by simpa using hl, fun i x h => by
              obtain ⟨y', h1, h2⟩ := hx (i + 1) x (by simpa using h)
              exact ⟨y', by simpa using h1, h2⟩⟩
            rw [hm] at h2
            obtain ⟨y', h3, h4⟩ := hx 0 a rfl
            rw [hf] at h4
            have e1 : bs = ys := by simpa using h2
            have e2 : b = y' := by simpa using h4
            have e3 : y = y' := by simpa using h3
            rw [e1, e2, e3]

theorem mapM_error (l : List α) (f : α → Except PyErr β) (e : PyErr)
    (hall : ∀ x ∈ l, f x = .error e ∨ ∃ y, f x = .ok y) (hex : ∃ x ∈ l, f x = .error e) :
    l.mapM f = .error e := by
  induction l with
  | nil => obtain ⟨x, hx, _⟩ := hex; simp at hx
  | cons a l ih =>
    rw [List.mapM_cons]
    rcases hall a (by simp) with h | ⟨y, h⟩
    · rw [h]; rfl
    · rw [h]
      have : l.mapM f = .error e := by
        apply ih (fun x hx => hall x (by simp [hx]))
        obtain ⟨x, hx, hxe⟩ := hex
        rcases List.mem_cons.1 hx with rfl | hx
        · rw [h] at hxe; simp at hxe
        · exact ⟨x, hx, hxe⟩
      show (do let bs ← l.mapM f; pure (y :: bs)) = _
      rw [this]; rfl

theorem zip_gatherMask (m : List Bool) (xs : List α) (ys : List β) (hx : xs.length = m.length)
    (hy : ys.length = m.length) :
    List.zip (gatherMask m xs) (gatherMask m ys) = gatherMask m (List.zip xs ys) := by
  induction m generalizing xs ys with
  | nil => simp [gatherMask]
  | cons b m ih =>
    cases xs with
    | nil => simp at hx
    | cons x xs =>
      cases ys with
      | nil => simp at hy
      | cons y ys =>
        cases b
        · simp only [gatherMask, List.zip_cons_cons]
          exact ih xs ys (by simpa using hx) (by simpa using hy)
        · simp only [gatherMask, List.zip_cons_cons]
          rw [ih xs ys (by simpa using hx) (by simpa using hy)]

theorem mem_gatherMask (m : List Bool) (xs : List α) (x : α) (h : x ∈ gatherMask m xs) :
    ∃ i : ℕ, m[i]? = some true ∧ xs[i]? = some x := by
  induction m generalizing xs with
  | nil => simp [gatherMask] at h
  | cons b m ih =>
    cases xs with
    | nil => simp [gatherMask] at h
    | cons a xs =>
      cases b
      · simp only [gatherMask] at h
        obtain ⟨i, h1, h2⟩ := ih xs h
        exact ⟨i + 1, by simpa using h1, by simpa using h2⟩
      · simp only [gatherMask, List.mem_cons] at h
        rcases h with rfl | h
        · exact ⟨0, by simp, by simp⟩
        · obtain ⟨i, h1, h2⟩ := ih xs h
          exact ⟨i + 1, by simpa using h1, by simpa using h2⟩

theorem mem_gatherMask_of (m : List Bool) (xs : List α) (i : ℕ) (x : α) (h1 : m[i]? = some true)
    (h2 : xs[i]? = some x) : x ∈ gatherMask m xs := by
  induction m generalizing xs i with
  | nil => simp at h1
  | cons b m ih =>
    cases xs with
    | nil => simp at h2
    | cons a xs =>
      cases i with
      | zero =>
        simp at h1 h2
        subst h1; subst h2
        simp [gatherMask]
      | succ i =>
        have := ih xs i (by simpa using h1) (by simpa using h2)
        cases b <;> simp [gatherMask, this]

theorem gatherMask_map (m : List Bool) (xs : List α) (f : α → β) :
    (gatherMask m xs).map f = gatherMask m (xs.map f) := by
  induction m generalizing xs with
  | nil => simp [gatherMask]
  | cons b m ih => cases xs with
    | nil => cases b <;> simp [gatherMask]
    | cons x xs => cases b <;> simp [gatherMask, ih]

theorem length_scatterObserved (m : List Bool) (v : List Logit) :
    (scatterObserved m v).length = m.length := by
  induction m generalizing v with
  | nil => simp [scatterObserved]
  | cons b m ih => cases b <;> cases v <;> simp [scatterObserved, ih]

/-- Scattering the observed values back restores the alignment. -/
theorem scatterObserved_gather (m : List Bool) (v : List Logit) (hv : v.length = m.length) :
    scatterObserved m (gatherMask (m.map not) v)
      = List.zipWith (fun b x => if b then none else some x) m v := by
  induction m generalizing v with
  | nil => simp [scatterObserved]
  | cons b m ih =>
    cases v with
    | nil => simp at hv
    | cons x v =>
      cases b <;> simp [scatterObserved, gatherMask, ih v (by simpa using hv)]

theorem logSoftmax_eq (row : List Logit) (v : ℝ) (hv : Logit.fin v ∈ row) :
    logSoftmax row = (softmax row).map logE := by
  have hp := sum_exp_pos row v hv
  unfold logSoftmax softmax
  rw [List.map_map]
  apply List.map_congr_left
  intro x _
  cases x with
  | negInf => simp [Logit.exp, logE]
  | fin y =>
    have : Real.exp y / (row.map Logit.exp).sum ≠ 0 := (div_pos (Real.exp_pos _) hp).ne'
    simp only [Function.comp, Logit.exp, logE, this, if_false]
    rw [Real.log_div (Real.exp_pos _).ne' hp.ne', Real.log_exp]

theorem negCrossEntropy_ok (row : List Logit) (v : ℝ) (hv : Logit.fin v ∈ row) (y : ℕ) (p : ℝ)
    (hp : (softmax row)[y]? = some p) : negCrossEntropy row (y : ℤ) = .ok (logE p) := by
  unfold negCrossEntropy
  rw [if_neg (by omega), if_neg (by omega)]
  rw [logSoftmax_eq row v hv, Int.toNat_natCast, List.getElem?_map, hp]
  rfl

theorem Logit.sum_fin (xs : List ℝ) : Logit.sum (xs.map Logit.fin) = Logit.fin xs.sum := by
  induction xs with
  | nil => rfl
  | cons x xs ih =>
    simp only [Logit.sum, List.map_cons, List.foldr_cons, List.sum_cons] at *
    rw [ih]; rfl

theorem Logit.sum_negInf (xs : List Logit) (h : Logit.negInf ∈ xs) : Logit.sum xs = Logit.negInf := by
  induction xs with
  | nil => simp at h
  | cons x xs ih =>
    simp only [Logit.sum, List.foldr_cons] at *
    rcases List.mem_cons.1 h with rfl | h
    · rfl
    · rw [ih h]; cases x <;> rfl

theorem gather_sum (m : List Bool) (xs : List ℝ) (h : xs.length = m.length) :
    (gatherMask (m.map not) xs).sum
      = (List.zipWith (fun b x => if b then (0:ℝ) else x) m xs).sum := by
  induction m generalizing xs with
  | nil => simp [gatherMask]
  | cons b m ih =>
    cases xs with
    | nil => simp at h
    | cons x xs => cases b <;> simp [gatherMask, ih xs (by simpa using h)]

theorem gatherMask_congr (m : List Bool) (xs ys : List α) (hx : xs.length = m.length)
    (hy : ys.length = m.length) (h : ∀ i : ℕ, m[i]? = some true → xs[i]? = ys[i]?) :
    gatherMask m xs = gatherMask m ys := by
  induction m generalizing xs ys with
  | nil => simp [gatherMask]
  | cons b m ih =>
    cases xs with
    | nil => simp at hx
    | cons x xs =>
      cases ys with
      | nil => simp at hy
      | cons y ys =>
        have := ih xs ys (by simpa using hx) (by simpa using hy)
          (fun i hi => by simpa using h (i + 1) (by simpa using hi))
        cases b
        · simpa [gatherMask] using this
        · have h0 := h 0 (by simp)
          simp at h0
          simp [gatherMask, this, h0]

theorem negCrossEntropy_cases (row : List Logit) (y : ℤ) :
    negCrossEntropy row y = .error .indexError ∨ ∃ v, negCrossEntropy row y = .ok v := by
  unfold negCrossEntropy
  split
  · exact Or.inr ⟨_, rfl⟩
  · split
    · exact Or.inl rfl
    · split
      · exact Or.inr ⟨_, rfl⟩
      · exact Or.inl rfl

theorem lookupLog_cases (row : List ℝ) (y : ℤ) :
    lookupLog row y = .error .indexError ∨ ∃ v, lookupLog row y = .ok v := by
  unfold lookupLog
  dsimp only
  generalize (if y < 0 then y + (row.length : ℤ) else y) = idx
  split
  · exact Or.inl rfl
  · split
    · exact Or.inr ⟨_, rfl⟩
    · exact Or.inl rfl

theorem lookupLog_ok (row : List ℝ) (y : ℕ) (p : ℝ) (hp : row[y]? = some p) :
    lookupLog row (y : ℤ) = .ok (logE p) := by
  unfold lookupLog
  have h1 : ¬ ((y : ℤ) < 0) := by omega
  simp only [h1, if_false, Int.toNat_natCast, hp]

end Irt
