import Verif.Spec.Frequencies
import Verif.Lemmas.EvaluationOrder
import Verif.Lemmas.Scoring
import Verif.Lemmas.FitOrder
import Verif.Props.Entropy

/-! # Lists that are the same up to order and repetition -/

namespace Irt
open Spec

variable {α β γ : Type}

/-- The list, `k` times. -/
def timesOver (k : ℕ) (l : List α) : List α := (List.replicate k l).flatten

theorem timesOver_succ (k : ℕ) (l : List α) : timesOver (k + 1) l = l ++ timesOver k l := by
  simp [timesOver, List.replicate_succ]

theorem length_timesOver (k : ℕ) (l : List α) : (timesOver k l).length = k * l.length := by
  simp [timesOver]

theorem map_timesOver (f : α → β) (k : ℕ) (l : List α) : (timesOver k l).map f = timesOver k (l.map f) := by
  induction k with
  | zero => rfl
  | succ k ih => rw [timesOver_succ, timesOver_succ, List.map_append, ih]

theorem filterMap_timesOver (f : α → Option β) (k : ℕ) (l : List α) : (timesOver k l).filterMap f = timesOver k (l.filterMap f) := by
  induction k with
  | zero => rfl
  | succ k ih => rw [timesOver_succ, timesOver_succ, List.filterMap_append, ih]

theorem flatten_timesOver (k : ℕ) (l : List (List α)) : (timesOver k l).flatten = timesOver k l.flatten := by
  induction k with
  | zero => rfl
  | succ k ih => rw [timesOver_succ, timesOver_succ, List.flatten_append, ih]

theorem sum_timesOver (k : ℕ) (l : List ℝ) : (timesOver k l).sum = k * l.sum := by
  induction k with
  | zero => simp [timesOver]
  | succ k ih => rw [timesOver_succ, List.sum_append, ih]; push_cast; ring

theorem countP_timesOver (p : α → Bool) (k : ℕ) (l : List α) : (timesOver k l).countP p = k * l.countP p := by
  induction k with
  | zero => simp [timesOver]
  | succ k ih => rw [timesOver_succ, List.countP_append, ih]; ring

theorem mem_timesOver {k : ℕ} (hk : 0 < k) {l : List α} {a : α} : a ∈ timesOver k l ↔ a ∈ l := by
  simp only [timesOver, List.mem_flatten, List.mem_replicate]
  constructor
  · rintro ⟨_, ⟨_, rfl⟩, h⟩; exact h
  · exact fun h => ⟨l, ⟨by omega, rfl⟩, h⟩

/-- The lists are the same up to order and repetition. -/
def Alike (l l' : List α) : Prop := ∃ a b, 0 < a ∧ 0 < b ∧ (timesOver a l).Perm (timesOver b l')

theorem Alike.symm {l l' : List α} (h : Alike l l') : Alike l' l := by
  obtain ⟨a, b, ha, hb, h⟩ := h
  exact ⟨b, a, hb, ha, h.symm⟩

theorem Alike.map (f : α → β) {l l' : List α} (h : Alike l l') : Alike (l.map f) (l'.map f) := by
  obtain ⟨a, b, ha, hb, h⟩ := h
  exact ⟨a, b, ha, hb, by rw [← map_timesOver, ← map_timesOver]; exact h.map f⟩

theorem Alike.filterMap (f : α → Option β) {l l' : List α} (h : Alike l l') : Alike (l.filterMap f) (l'.filterMap f) := by
  obtain ⟨a, b, ha, hb, h⟩ := h
  exact ⟨a, b, ha, hb, by rw [← filterMap_timesOver, ← filterMap_timesOver]; exact h.filterMap f⟩

theorem Alike.flatten {l l' : List (List α)} (h : Alike l l') : Alike l.flatten l'.flatten := by
  obtain ⟨a, b, ha, hb, h⟩ := h
  exact ⟨a, b, ha, hb, by rw [← flatten_timesOver, ← flatten_timesOver]; exact flatten_perm h⟩

theorem Alike.mem {l l' : List α} (h : Alike l l') (x : α) : x ∈ l ↔ x ∈ l' := by
  obtain ⟨a, b, ha, hb, h⟩ := h
  rw [← mem_timesOver ha, h.mem_iff, mem_timesOver hb]

/-- What does not depend on order and repetition is the same for both lists. -/
theorem Alike.eq {F : List α → β} (hperm : ∀ l l', l.Perm l' → F l = F l') (hrep : ∀ k l, 0 < k → F (timesOver k l) = F l) {l l' : List α}
    (h : Alike l l') : F l = F l' := by
  obtain ⟨a, b, ha, hb, h⟩ := h
  rw [← hrep a l ha, hperm _ _ h, hrep b l' hb]

open Classical in
theorem alike_of_frequencies {l l' : List α} (h : SameFrequencies l l') : Alike l l' := by
  obtain ⟨h1, h2, h⟩ := h
  refine ⟨l'.length, l.length, List.length_pos_iff.2 h2, List.length_pos_iff.2 h1, List.perm_iff_count.2 fun a => ?_⟩
  have e : ∀ (k : ℕ) (x : List α), (timesOver k x).count a = k * x.count a := fun k x => countP_timesOver _ _ _
  rw [e, e]
  exact h a

/-! ## Sums and means -/

theorem Alike.sums {l l' : List α} (h : Alike l l') : ∃ a b : ℝ, 0 < a ∧ 0 < b ∧ (∀ f : α → ℝ, a * (l.map f).sum = b * (l'.map f).sum) ∧
    a * l.length = b * l'.length := by
  obtain ⟨a, b, ha, hb, h⟩ := h
  refine ⟨a, b, by exact_mod_cast ha, by exact_mod_cast hb, fun f => ?_, ?_⟩
  · have := (h.map f).sum_eq
    rwa [map_timesOver, map_timesOver, sum_timesOver, sum_timesOver] at this
  · have := h.length_eq
    rw [length_timesOver, length_timesOver] at this
    exact_mod_cast this

theorem floatDiv_scale (k x y : ℝ) (hk : k ≠ 0) : floatDiv (k * x) (k * y) = floatDiv x y := by
  unfold floatDiv
  by_cases hy : y = 0
  · simp [hy]
  · rw [if_neg hy, if_neg (mul_ne_zero hk hy), mul_div_mul_left _ _ hk]

theorem nanMean_eq_floatDiv (xs : List Num) : nanMean xs = floatDiv (xs.filterMap id).sum (xs.filterMap id).length := by
  unfold nanMean floatDiv
  split
  · next h => rw [h, if_pos (by simp)]
  · next y ys h =>
    rw [h, if_neg (by rw [List.length_cons]; positivity)]

theorem nanMean_timesOver (k : ℕ) (xs : List Num) (hk : 0 < k) : nanMean (timesOver k xs) = nanMean xs := by
  rw [nanMean_eq_floatDiv, nanMean_eq_floatDiv, filterMap_timesOver, sum_timesOver, length_timesOver, Nat.cast_mul,
    floatDiv_scale _ _ _ (by positivity)]

theorem nanMean_alike {xs ys : List Num} (h : Alike xs ys) : nanMean xs = nanMean ys :=
  h.eq (fun _ _ => nanMean_perm) nanMean_timesOver

theorem infitOf_timesOver (k : ℕ) (xs : List (Option FitCell)) (hk : 0 < k) : infitOf (timesOver k xs) = infitOf xs := by
  unfold infitOf
  rw [filterMap_timesOver, map_timesOver, map_timesOver, sum_timesOver, sum_timesOver, floatDiv_scale _ _ _ (by positivity)]

theorem mapM_timesOver (f : α → Option β) (k : ℕ) (hk : 0 < k) (l : List α) : (timesOver k l).mapM f = (l.mapM f).map (timesOver k) := by
  by_cases h : ∃ x ∈ l, f x = none
  · obtain ⟨x, hx, hf⟩ := h
    rw [mapM_option_none l f ⟨x, hx, hf⟩, mapM_option_none _ f ⟨x, (mem_timesOver hk).2 hx, hf⟩]
    rfl
  · rcases l with _ | ⟨x₀, l⟩
    · have : timesOver k ([] : List α) = [] := List.eq_nil_of_length_eq_zero (by rw [length_timesOver]; rfl)
      rw [this]
      have h2 : timesOver k ([] : List β) = [] := List.eq_nil_of_length_eq_zero (by rw [length_timesOver]; rfl)
      simp [h2]
    · have hsome : ∀ x ∈ x₀ :: l, ∃ y, f x = some y := fun x hx => by
        cases hf : f x with
        | none => exact absurd ⟨x, hx, hf⟩ h
        | some y => exact ⟨y, rfl⟩
      obtain ⟨y₀, _⟩ := hsome x₀ List.mem_cons_self
      have hg : ∀ x ∈ x₀ :: l, f x = some ((f x).getD y₀) := fun x hx => by
        obtain ⟨y, hy⟩ := hsome x hx
        rw [hy]; rfl
      rw [mapM_option_some _ f _ hg, mapM_option_some _ f _ fun x hx => hg x ((mem_timesOver hk).1 hx), Option.map_some, map_timesOver]

theorem outfitOf_timesOver (k : ℕ) (xs : List (Option FitCell)) (hk : 0 < k) : outfitOf (timesOver k xs) = outfitOf xs := by
  unfold outfitOf
  rw [filterMap_timesOver, mapM_timesOver _ k hk]
  cases (xs.filterMap id).mapM weightedError with
  | none => rfl
  | some ws =>
    show floatDiv (timesOver k ws).sum (timesOver k ws).length = floatDiv ws.sum ws.length
    rw [sum_timesOver, length_timesOver, Nat.cast_mul, floatDiv_scale _ _ _ (by positivity)]

theorem infitOf_alike {xs ys : List (Option FitCell)} (h : Alike xs ys) : infitOf xs = infitOf ys :=
  h.eq (fun _ _ => infitOf_perm) infitOf_timesOver

theorem outfitOf_alike {xs ys : List (Option FitCell)} (h : Alike xs ys) : outfitOf xs = outfitOf ys :=
  h.eq (fun _ _ => outfitOf_perm) outfitOf_timesOver

theorem itemMetrics_timesOver (cats k : ℕ) (p : List (ℕ × ℤ)) (hk : 0 < k) : itemMetrics cats (timesOver k p) = itemMetrics cats p := by
  have hk0 : (k : ℝ) ≠ 0 := by positivity
  have h1 : ∀ r, truePos r (timesOver k p) = k * truePos r p := fun r => countP_timesOver _ _ _
  have h2 : ∀ r, falsePos r (timesOver k p) = k * falsePos r p := fun r => countP_timesOver _ _ _
  have h3 : ∀ r, falseNeg r (timesOver k p) = k * falseNeg r p := fun r => countP_timesOver _ _ _
  have h4 : ∀ r, responseWeight r (timesOver k p) = responseWeight r p := fun r => by
    unfold responseWeight
    rw [countP_timesOver, length_timesOver, Nat.cast_mul, Nat.cast_mul, floatDiv_scale _ _ _ hk0]
  have h0 : ∀ r, k * truePos r p = 0 ↔ truePos r p = 0 := fun r => by
    rw [Nat.mul_eq_zero]; constructor
    · rintro (h | h)
      · omega
      · exact h
    · exact Or.inr
  have h5 : ∀ r, categoryPrecision r (timesOver k p) = categoryPrecision r p := fun r => by
    unfold categoryPrecision
    rw [h1, h2]
    by_cases ht : truePos r p = 0
    · rw [if_pos ht, if_pos ((h0 r).2 ht)]
    · rw [if_neg ht, if_neg (fun h => ht ((h0 r).1 h)), Nat.cast_mul, Nat.cast_mul, ← mul_add, mul_div_mul_left _ _ hk0]
  have h6 : ∀ r, categoryRecall r (timesOver k p) = categoryRecall r p := fun r => by
    unfold categoryRecall
    rw [h1, h3]
    by_cases ht : truePos r p = 0
    · rw [if_pos ht, if_pos ((h0 r).2 ht)]
    · rw [if_neg ht, if_neg (fun h => ht ((h0 r).1 h)), Nat.cast_mul, Nat.cast_mul, ← mul_add, mul_div_mul_left _ _ hk0]
  have h7 : ∀ r, categoryF1 r (timesOver k p) = categoryF1 r p := fun r => by
    unfold categoryF1; rw [h5, h6]
  unfold itemMetrics weightedAverage
  simp only [h4, h5, h6, h7]

theorem itemMetrics_alike (cats : ℕ) {p q : List (ℕ × ℤ)} (h : Alike p q) : itemMetrics cats p = itemMetrics cats q :=
  h.eq (fun _ _ => itemMetrics_perm cats) (itemMetrics_timesOver cats)

theorem reduceDim_alike (items : ℕ) {dim : Option ℕ} (hdim : dim = none ∨ dim = some 0) {rows rows' : List (List Num)}
    (h : Alike rows rows') : reduceDim nanMean items dim rows = reduceDim nanMean items dim rows' := by
  rcases hdim with rfl | rfl
  · simp only [reduceDim]
    rw [nanMean_alike h.flatten]
  · simp only [reduceDim]
    congr 1
    refine List.map_congr_left fun j _ => nanMean_alike ?_
    exact h.map _

/-! ## Results that may be errors -/

theorem mapM_alike (f : α → Except PyErr β) {l l' : List α} (h : Alike l l') {v : List β} (hv : l.mapM f = .ok v) :
    ∃ v', l'.mapM f = .ok v' ∧ Alike v v' := by
  have hall : ∀ x ∈ l, ∃ y, f x = .ok y := by
    intro x hx
    obtain ⟨i, hi⟩ := List.mem_iff_getElem?.1 hx
    obtain ⟨y, -, hy⟩ := ((mapM_ok_iff l f v).1 hv).2 i x hi
    exact ⟨y, hy⟩
  rcases l with _ | ⟨x₀, l⟩
  · have hnil : l' = [] := List.eq_nil_iff_forall_not_mem.2 fun a ha => by
      have := (h.mem a).2 ha
      simp at this
    exact ⟨v, by rw [hnil, hv], ⟨1, 1, one_pos, one_pos, List.Perm.refl _⟩⟩
  · obtain ⟨y₀, _⟩ := hall x₀ List.mem_cons_self
    let g : α → β := fun x => match f x with
      | .ok y => y
      | .error _ => y₀
    have hg : ∀ x ∈ x₀ :: l, f x = .ok (g x) := fun x hx => by
      obtain ⟨y, hy⟩ := hall x hx
      simp only [g, hy]
    have hg' : ∀ x ∈ l', f x = .ok (g x) := fun x hx => hg x ((h.mem x).2 hx)
    rw [mapM_ok _ f g hg] at hv
    exact ⟨l'.map g, mapM_ok _ f g hg', Except.ok.inj hv ▸ h.map g⟩

theorem unchanged_alike (f : α → Except PyErr β) (G : List β → Except PyErr γ) (hG : ∀ v v', Alike v v' → G v = G v') {l l' : List α}
    (h : Alike l l') : Unchanged (l.mapM f >>= G) (l'.mapM f >>= G) := by
  have key : ∀ {l l' : List α}, Alike l l' → ∀ x, l.mapM f >>= G = .ok x → l'.mapM f >>= G = .ok x := by
    intro l l' h x hx
    obtain ⟨v, hv, hxv⟩ := (bind_ok_iff _ _ _).1 hx
    obtain ⟨v', hv', ha⟩ := mapM_alike f h hv
    rw [hv', bind_ok, ← hG _ _ ha]
    exact hxv
  exact fun x => ⟨key h x, key h.symm x⟩

/-! ## Correlations -/

theorem sum_rows (rows : List β) (e : β) (F : β → ℝ) : ∑ i : Fin rows.length, F (rows.getD i e) = (rows.map F).sum := by
  rw [← List.sum_ofFn]
  congr 1
  apply List.ext_getElem
  · simp
  · intro i h1 h2
    have hi : i < rows.length := by simpa using h1
    simp [hi]

theorem finRange_rows (rows : List β) (e : β) (h : β → Option γ) :
    ((List.finRange rows.length).filterMap fun i : Fin rows.length => h (rows.getD i e)) = rows.filterMap h := by
  have e2 : rows = (List.finRange rows.length).map fun i : Fin rows.length => rows.getD i e := by
    apply List.ext_getElem
    · simp
    · intro i h1 h2
      simp [h1]
  conv_rhs => rw [e2, List.filterMap_map]
  rfl

theorem floatDiv_corr (k C V W : ℝ) (hk : 0 < k) : floatDiv (k * C) (Real.sqrt (k * V) * Real.sqrt (k * W)) = floatDiv C (Real.sqrt V * Real.sqrt W) := by
  rw [Real.sqrt_mul hk.le, Real.sqrt_mul hk.le, show Real.sqrt k * Real.sqrt V * (Real.sqrt k * Real.sqrt W)
    = (Real.sqrt k * Real.sqrt k) * (Real.sqrt V * Real.sqrt W) by ring, Real.mul_self_sqrt hk.le, floatDiv_scale _ _ _ hk.ne']

/-- Correlations computed from sums that are proportional. -/
theorem floatDiv_sums {l l' : List α} (h : Alike l l') (F G H : α → ℝ) (c c' : ℝ) (hc : 0 < c) (hc' : 0 < c') :
    floatDiv ((l.map F).sum / c) (Real.sqrt ((l.map G).sum / c) * Real.sqrt ((l.map H).sum / c))
      = floatDiv ((l'.map F).sum / c') (Real.sqrt ((l'.map G).sum / c') * Real.sqrt ((l'.map H).sum / c')) := by
  obtain ⟨a, b, ha, hb, hs, -⟩ := h.sums
  have e : ∀ f : α → ℝ, (l.map f).sum / c = (b / a * (c' / c)) * ((l'.map f).sum / c') := fun f => by
    have := hs f
    field_simp
    linarith
  rw [e, e, e, floatDiv_corr _ _ _ _ (by positivity)]

theorem mean_alike {l l' : List α} (h : Alike l l') (f : α → ℝ) : (l.map f).sum / l.length = (l'.map f).sum / l'.length := by
  obtain ⟨a, b, ha, hb, hs, hl⟩ := h.sums
  have h1 := hs f
  by_cases h0 : (l.length : ℝ) = 0
  · have h2 : (l'.length : ℝ) = 0 := by
      rw [h0, mul_zero] at hl
      exact (mul_eq_zero.1 hl.symm).resolve_left hb.ne'
    rw [h0, h2]; simp
  · rw [← mul_div_mul_left _ _ ha.ne', h1, hl, mul_div_mul_left _ _ hb.ne']

theorem covComplete_rows (rows : List β) (e : β) (f g : β → ℝ) :
    covComplete (fun i : Fin rows.length => f (rows.getD i e)) (fun i => g (rows.getD i e))
      = (rows.map fun x => (f x - (rows.map f).sum / rows.length) * (g x - (rows.map g).sum / rows.length)).sum / ((rows.length : ℝ) - 1) := by
  unfold covComplete colMean
  rw [sum_rows rows e f, sum_rows rows e g,
    sum_rows rows e fun x => (f x - (rows.map f).sum / rows.length) * (g x - (rows.map g).sum / rows.length)]

/-- Correlations of complete columns. -/
theorem corrComplete_alike {rows rows' : List β} (h : Alike rows rows') (h1 : 1 < rows.length) (h1' : 1 < rows'.length) (e : β) (f g : β → ℝ) :
    floatDiv (covComplete (fun i : Fin rows.length => f (rows.getD i e)) fun i => g (rows.getD i e))
        (Real.sqrt (covComplete (fun i : Fin rows.length => f (rows.getD i e)) fun i => f (rows.getD i e)) *
          Real.sqrt (covComplete (fun i : Fin rows.length => g (rows.getD i e)) fun i => g (rows.getD i e)))
      = floatDiv (covComplete (fun i : Fin rows'.length => f (rows'.getD i e)) fun i => g (rows'.getD i e))
        (Real.sqrt (covComplete (fun i : Fin rows'.length => f (rows'.getD i e)) fun i => f (rows'.getD i e)) *
          Real.sqrt (covComplete (fun i : Fin rows'.length => g (rows'.getD i e)) fun i => g (rows'.getD i e))) := by
  simp only [covComplete_rows, mean_alike h f, mean_alike h g]
  have hc : (0 : ℝ) < (rows.length : ℝ) - 1 := by
    have : (1 : ℝ) < rows.length := by exact_mod_cast h1
    linarith
  have hc' : (0 : ℝ) < (rows'.length : ℝ) - 1 := by
    have : (1 : ℝ) < rows'.length := by exact_mod_cast h1'
    linarith
  exact floatDiv_sums h _ _ _ _ _ hc hc'

/-- One entry of a row with its value, in both columns. -/
def jointValue (f g : β → Num) (x : β) : Option (ℝ × ℝ) := (f x).bind fun u => (g x).map fun v => (u, v)

theorem length_jointValue (f g : β → Num) (rs : List β) :
    (rs.filterMap (jointValue f g)).length = (rs.filter fun x => (f x).isSome && (g x).isSome).length := by
  induction rs with
  | nil => rfl
  | cons x rs ih =>
    rw [List.filterMap_cons, List.filter_cons]
    cases hx : f x with
    | none => simpa [jointValue, hx] using ih
    | some u =>
      cases hy : g x with
      | none => simpa [jointValue, hx, hy] using ih
      | some v => simpa [jointValue, hx, hy] using ih

theorem centredMean_rows (rows : List β) (e : β) (f : β → Num) :
    nanColMean (fun i : Fin rows.length => f (rows.getD i e)) = nanMean (rows.map f) := by
  rw [nanMean_eq_floatDiv, List.filterMap_map]
  unfold nanColMean
  rw [finRange_rows rows e f]
  rfl

/-- Correlations of columns with missing entries: from at least two joint entries. -/
theorem corrMissing_alike {rows rows' : List β} (h : Alike rows rows') (e : β) (f g : β → Num)
    (h1 : 1 < (rows.filterMap (jointValue f g)).length) (h1' : 1 < (rows'.filterMap (jointValue f g)).length) :
    corrMissing (fun i : Fin rows.length => f (rows.getD i e)) (fun i => g (rows.getD i e))
      = corrMissing (fun i : Fin rows'.length => f (rows'.getD i e)) fun i => g (rows'.getD i e) := by
  have hp : ∀ rs : List β, pairRows (fun i : Fin rs.length => f (rs.getD i e)) (fun i => g (rs.getD i e)) = rs.filterMap (jointValue f g) :=
    fun rs => finRange_rows rs e (jointValue f g)
  have hcov : ∀ rs : List β, 1 < (rs.filterMap (jointValue f g)).length →
      covMissing (fun i : Fin rs.length => f (rs.getD i e)) (fun i => g (rs.getD i e))
        = (rs.map fun x => (match f x with | some u => u - (nanMean (rs.map f)).getD 0 | none => 0) *
            (match g x with | some u => u - (nanMean (rs.map g)).getD 0 | none => 0)).sum / (((rs.filterMap (jointValue f g)).length : ℝ) - 1) := by
    intro rs hrs
    unfold covMissing
    rw [hp rs]
    dsimp only
    rw [if_pos hrs]
    congr 1
    unfold centred
    rw [centredMean_rows, centredMean_rows]
    exact sum_rows rs e fun x => (match f x with | some u => u - (nanMean (rs.map f)).getD 0 | none => 0) *
      (match g x with | some u => u - (nanMean (rs.map g)).getD 0 | none => 0)
  unfold corrMissing
  dsimp only
  rw [hp, hp, if_pos h1, if_pos h1', hcov rows h1, hcov rows' h1', nanMean_alike (h.map f), nanMean_alike (h.map g)]
  have hj := h.filterMap (jointValue f g)
  have hm1 := mean_alike hj Prod.fst
  have hm2 := mean_alike hj Prod.snd
  unfold listStd
  simp only [List.map_map, List.length_map, hm1, hm2]
  have hc : (0 : ℝ) < ((rows.filterMap (jointValue f g)).length : ℝ) - 1 := by
    have : (1 : ℝ) < ((rows.filterMap (jointValue f g)).length : ℝ) := by exact_mod_cast h1
    linarith
  have hc' : (0 : ℝ) < ((rows'.filterMap (jointValue f g)).length : ℝ) - 1 := by
    have : (1 : ℝ) < ((rows'.filterMap (jointValue f g)).length : ℝ) := by exact_mod_cast h1'
    linarith
  -- all sums as sums over the rows
  generalize ((rows'.filterMap (jointValue f g)).map Prod.fst).sum / ((rows'.filterMap (jointValue f g)).length : ℝ) = m1
  generalize ((rows'.filterMap (jointValue f g)).map Prod.snd).sum / ((rows'.filterMap (jointValue f g)).length : ℝ) = m2
  have hsum : ∀ (rs : List β) (G : ℝ × ℝ → ℝ), ((rs.filterMap (jointValue f g)).map G).sum
      = (rs.map fun x => match jointValue f g x with | some v => G v | none => 0).sum := by
    intro rs G
    induction rs with
    | nil => rfl
    | cons x rs ih =>
      rw [List.filterMap_cons, List.map_cons, List.sum_cons, ← ih]
      cases jointValue f g x with
      | none => simp
      | some v => simp
  rw [hsum rows, hsum rows', hsum rows, hsum rows']
  exact floatDiv_sums h _ _ _ _ _ hc hc'

theorem correlationMatrix_alike {p : ℕ} {rows rows' : List (List Num)} (h : Alike rows rows') (i j : Fin p) (hij : i ≠ j)
    (h1 : 1 < (jointRows rows i j).length) (h1' : 1 < (jointRows rows' i j).length) :
    correlationMatrix (numMatrix (n := rows.length) (p := p) rows) i j = correlationMatrix (numMatrix (n := rows'.length) rows') i j := by
  have hcompl : (∀ (r : Fin rows.length) (c : Fin p), numMatrix rows r c ≠ none) ↔ ∀ (r : Fin rows'.length) (c : Fin p), numMatrix rows' r c ≠ none := by
    have key : ∀ rs : List (List Num), (∀ (r : Fin rs.length) (c : Fin p), numMatrix rs r c ≠ none) ↔ ∀ x ∈ rs, ∀ c : Fin p, x.getD c none ≠ none := by
      intro rs
      constructor
      · intro hh x hx c
        obtain ⟨r, hr, rfl⟩ := List.mem_iff_getElem.1 hx
        have := hh ⟨r, hr⟩ c
        simpa [numMatrix, hr] using this
      · intro hh r c
        have := hh _ (List.getElem_mem r.isLt) c
        simpa [numMatrix] using this
    rw [key, key]
    exact ⟨fun hh x hx => hh x ((h.mem x).2 hx), fun hh x hx => hh x ((h.mem x).1 hx)⟩
  have hle : ∀ rs : List (List Num), 1 < (jointRows rs i j).length → 1 < rs.length := fun rs hrs => lt_of_lt_of_le hrs (List.length_filter_le _ _)
  have hjoint : ∀ (rs : List (List Num)) (a b : Fin p), ((a = i ∧ b = j) ∨ (a = j ∧ b = i)) → 1 < (jointRows rs i j).length →
      1 < (rs.filterMap (jointValue (fun r => r.getD a none) fun r => r.getD b none)).length := by
    intro rs a b hab hrs
    have e : (rs.filterMap (jointValue (fun r : List Num => r.getD a none) fun r => r.getD b none)).length = (jointRows rs i j).length := by
      rw [length_jointValue]
      rcases hab with ⟨rfl, rfl⟩ | ⟨rfl, rfl⟩
      · rfl
      · unfold jointRows
        congr 2
        funext r
        rw [Bool.and_comm]
    rw [e]
    exact hrs
  unfold correlationMatrix
  by_cases hc : ∀ (r : Fin rows.length) (c : Fin p), numMatrix rows r c ≠ none
  · rw [if_pos hc, if_pos (hcompl.1 hc)]
    have := hle rows h1
    have := hle rows' h1'
    rw [if_neg (by omega), if_neg (by omega)]
    exact corrComplete_alike h (hle rows h1) (hle rows' h1') [] (fun r => (r.getD i none).getD 0) fun r => (r.getD j none).getD 0
  · rw [if_neg hc, if_neg (fun hh => hc (hcompl.2 hh))]
    rw [if_neg hij, if_neg hij]
    by_cases hlt : i < j
    · rw [if_pos hlt, if_pos hlt]
      exact corrMissing_alike h [] (fun r => r.getD i none) (fun r => r.getD j none) (hjoint _ _ _ (Or.inl ⟨rfl, rfl⟩) h1)
        (hjoint _ _ _ (Or.inl ⟨rfl, rfl⟩) h1')
    · rw [if_neg hlt, if_neg hlt]
      exact corrMissing_alike h [] (fun r => r.getD j none) (fun r => r.getD i none) (hjoint _ _ _ (Or.inr ⟨rfl, rfl⟩) h1)
        (hjoint _ _ _ (Or.inr ⟨rfl, rfl⟩) h1')

/-! ## Entropies -/

theorem pairProportions_alike (m : ℕ) {xs ys : List (ℤ × ℤ)} (h : Alike xs ys) (h1 : 1 < xs.length) (h2 : 1 < ys.length) :
    SameOr List.Perm (pairProportions m xs) (pairProportions m ys) := by
  have hd : xs.dedup.Perm ys.dedup := (List.perm_ext_iff_of_nodup (List.nodup_dedup _) (List.nodup_dedup _)).2 fun a => by
    rw [List.mem_dedup, List.mem_dedup, h.mem a]
  have hu : ((uniqueCounts xs).map fun c : ℕ => (c : ℝ) / ((xs.length : ℕ) : ℝ)).Perm ((uniqueCounts ys).map fun c : ℕ => (c : ℝ) / ((ys.length : ℕ) : ℝ)) := by
    unfold uniqueCounts
    rw [List.map_map, List.map_map]
    have e : xs.dedup.map ((fun c : ℕ => (c : ℝ) / ((xs.length : ℕ) : ℝ)) ∘ fun r => xs.count r)
        = xs.dedup.map ((fun c : ℕ => (c : ℝ) / ((ys.length : ℕ) : ℝ)) ∘ fun r => ys.count r) := by
      refine List.map_congr_left fun r _ => ?_
      have hm := mean_alike h fun x => if x = r then (1 : ℝ) else 0
      have hcount : ∀ l : List (ℤ × ℤ), (l.map fun x => if x = r then (1 : ℝ) else 0).sum = l.count r := by
        intro l
        induction l with
        | nil => simp
        | cons x l ih =>
          rw [List.map_cons, List.sum_cons, ih, List.count_cons]
          by_cases hx : x = r
          · simp [hx, add_comm]
          · simp [hx]
      rw [hcount, hcount] at hm
      exact hm
    exact (List.Perm.of_eq (by convert e)).trans (hd.map _)
  have hl : (uniqueCounts xs).length = (uniqueCounts ys).length := by
    unfold uniqueCounts
    rw [List.length_map, List.length_map, hd.length_eq]
  unfold pairProportions
  rw [if_pos h1, if_pos h2]
  dsimp only
  rw [sum_uniqueCounts, sum_uniqueCounts, hl]
  by_cases hm : (uniqueCounts ys).length > m
  · rw [if_pos hm, if_pos hm]
    exact Or.inl ⟨_, rfl, rfl⟩
  · rw [if_neg hm, if_neg hm]
    exact Or.inr ⟨_, _, rfl, rfl, hu.append_right _⟩

theorem max?_congr {xs ys : List ℤ} (h : ∀ a, a ∈ xs ↔ a ∈ ys) : xs.max? = ys.max? := by
  cases hx : xs.max? with
  | none =>
    rw [List.max?_eq_none_iff] at hx
    subst hx
    have : ys = [] := List.eq_nil_iff_forall_not_mem.2 fun a ha => by simpa using (h a).2 ha
    rw [this]
    rfl
  | some a =>
    symm
    rw [List.max?_eq_some_iff] at hx ⊢
    exact ⟨(h a).1 hx.1, fun b hb => hx.2 b ((h b).2 hb)⟩

theorem jointEntropyMatrix_alike {p : ℕ} (base : ℝ) {rows rows' : List (List Cell)} (h : Alike rows rows')
    (h1 : ∀ i j : Fin p, 1 < (rows.filterMap fun r => (r.getD i none).bind fun u => (r.getD j none).map fun v => (u, v)).length)
    (h1' : ∀ i j : Fin p, 1 < (rows'.filterMap fun r => (r.getD i none).bind fun u => (r.getD j none).map fun v => (u, v)).length) :
    jointEntropyMatrix base (fun (r : Fin rows.length) (j : Fin p) => (rows.getD r []).getD j none)
      = jointEntropyMatrix base fun (r : Fin rows'.length) (j : Fin p) => (rows'.getD r []).getD j none := by
  have hcells : ∀ rs : List (List Cell), ((List.finRange rs.length).flatMap fun r : Fin rs.length => (List.finRange p).map fun j : Fin p =>
      (rs.getD r []).getD j none) = rs.flatMap fun x => (List.finRange p).map fun j : Fin p => x.getD j none := by
    intro rs
    have e2 : rs = (List.finRange rs.length).map fun i : Fin rs.length => rs.getD i [] := by
      apply List.ext_getElem
      · simp
      · intro i h1 h2
        simp [h1]
    conv_rhs => rw [e2, List.flatMap_map]
  have hmem : ∀ a, (a ∈ rows.flatMap fun x => (List.finRange p).map fun j : Fin p => x.getD j none)
      ↔ a ∈ rows'.flatMap fun x => (List.finRange p).map fun j : Fin p => x.getD j none := by
    intro a
    simp only [List.mem_flatMap]
    exact ⟨fun ⟨x, hx, hh⟩ => ⟨x, (h.mem x).1 hx, hh⟩, fun ⟨x, hx, hh⟩ => ⟨x, (h.mem x).2 hx, hh⟩⟩
  have hmax : maxCombos (rows.flatMap fun x => (List.finRange p).map fun j : Fin p => x.getD j none)
      = maxCombos (rows'.flatMap fun x => (List.finRange p).map fun j : Fin p => x.getD j none) := by
    unfold maxCombos
    rw [max?_congr fun a => ?_]
    simp only [List.mem_filterMap, hmem]
  have hpairs : ∀ (rs : List (List Cell)) (i j : Fin p), pairCells (fun r : Fin rs.length => (rs.getD r []).getD i none) (fun r => (rs.getD r []).getD j none)
      = rs.filterMap fun r => (r.getD i none).bind fun u => (r.getD j none).map fun v => (u, v) := fun rs i j =>
    finRange_rows rs [] fun r => (r.getD i none).bind fun u => (r.getD j none).map fun v => (u, v)
  unfold jointEntropyMatrix
  simp only [hcells, hmax, hpairs]
  by_cases h0 : (rows.flatMap fun x => (List.finRange p).map fun j : Fin p => x.getD j none) = []
  · have h0' : (rows'.flatMap fun x => (List.finRange p).map fun j : Fin p => x.getD j none) = [] :=
      List.eq_nil_iff_forall_not_mem.2 fun a ha => by
        have := (hmem a).2 ha
        rw [h0] at this
        simp at this
    rw [if_pos h0, if_pos h0']
    rfl
  · have h0' : (rows'.flatMap fun x => (List.finRange p).map fun j : Fin p => x.getD j none) ≠ [] := fun hn =>
      h0 (List.eq_nil_iff_forall_not_mem.2 fun a ha => by
        have := (hmem a).1 ha
        rw [hn] at this
        simp at this)
    rw [if_neg h0, if_neg h0']
    have hprops := mapM_sameOr (List.Forall₂ List.Perm)
      (fun i : Fin p => (List.finRange p).mapM fun j =>
        pairProportions (maxCombos (rows'.flatMap fun x => (List.finRange p).map fun j : Fin p => x.getD j none))
          (if i ≤ j then rows.filterMap fun r => (r.getD i none).bind fun u => (r.getD j none).map fun v => (u, v)
            else rows.filterMap fun r => (r.getD j none).bind fun u => (r.getD i none).map fun v => (u, v)))
      (fun i : Fin p => (List.finRange p).mapM fun j =>
        pairProportions (maxCombos (rows'.flatMap fun x => (List.finRange p).map fun j : Fin p => x.getD j none))
          (if i ≤ j then rows'.filterMap fun r => (r.getD i none).bind fun u => (r.getD j none).map fun v => (u, v)
            else rows'.filterMap fun r => (r.getD j none).bind fun u => (r.getD i none).map fun v => (u, v)))
      (List.finRange p) fun i _ => mapM_sameOr _ _ _ _ fun j _ => by
        by_cases hle : i ≤ j
        · rw [if_pos hle, if_pos hle]
          exact pairProportions_alike _ (h.filterMap _) (h1 i j) (h1' i j)
        · rw [if_neg hle, if_neg hle]
          exact pairProportions_alike _ (h.filterMap _) (h1 j i) (h1' j i)
    rcases hprops with ⟨e, h3, h4⟩ | ⟨v, w, h3, h4, h5⟩
    · rw [h3, h4]
    · rw [h3, h4]
      have hrow : ∀ a b : List (List ℝ), List.Forall₂ List.Perm a b → a.mapM (entropy base) = b.mapM (entropy base) :=
        fun a b hab => mapM_forall₂ (entropy base) (fun c d hcd => entropy_perm base hcd) hab
      exact mapM_forall₂ (fun row : List (List ℝ) => row.mapM (entropy base)) hrow h5

theorem expectedMutualInformation_alike {p : ℕ} (base : ℝ) (M : ℕ) {tables tables' : List (List (List ℝ))} (h : Alike tables tables') :
    expectedMutualInformation (p := p) base M tables = expectedMutualInformation base M tables' := by
  have hm : ∀ f : List (List ℝ) → ℝ, meanOver (tables.map f) = meanOver (tables'.map f) := fun f => by
    unfold meanOver
    rw [List.length_map, List.length_map]
    exact mean_alike h f
  have h1 : ∀ i, expectedItem M tables i = expectedItem M tables' i := fun i => List.map_congr_left fun k _ => hm _
  have h2 : ∀ i j, expectedPair M tables i j = expectedPair M tables' i j := fun i j => by
    unfold expectedPair
    simp only [hm]
  unfold expectedMutualInformation
  simp only [h1, h2]

/-! ## Training on a loss that is multiplied by a number -/

/-- Two trainings that do the same, the losses of the second being `k` times those of the first. -/
structure LoopScaled {S S' : Type} (k : ℝ) (R : S → S' → Prop) (st : LoopState S) (st' : LoopState S') : Prop where
  params : R st.params st'.params
  lr : st.sched.lr = st'.sched.lr
  bad : st.sched.bad = st'.sched.bad
  schedBest : st'.sched.best = st.sched.best.map (k * ·)
  prevLr : st.prevLr = st'.prevLr
  lrUpdates : st.lrUpdates = st'.lrUpdates
  bestLoss : st'.bestLoss = st.bestLoss.map (k * ·)
  history : st.history.length = st'.history.length
  best : Option.Rel R st.bestState st'.bestState

theorem improves_scaled {k : ℝ} (hk : 0 < k) (x : Num) (b : Option ℝ) : improves (x.map (k * ·)) (b.map (k * ·)) = improves x b := by
  cases x with
  | none => rfl
  | some x =>
    cases b with
    | none => rfl
    | some b => simp [improves, mul_lt_mul_iff_right₀ hk]

theorem plateau_scaled {k : ℝ} (hk : 0 < k) (c : TrainConfig) (p p' : Plateau) (h1 : p.lr = p'.lr) (h2 : p.bad = p'.bad)
    (h3 : p'.best = p.best.map (k * ·)) (x : Num) :
    (p.step c x).lr = (p'.step c (x.map (k * ·))).lr ∧ (p.step c x).bad = (p'.step c (x.map (k * ·))).bad ∧
      (p'.step c (x.map (k * ·))).best = (p.step c x).best.map (k * ·) := by
  obtain ⟨lr, best, bad⟩ := p
  obtain ⟨lr', best', bad'⟩ := p'
  simp only at h1 h2 h3
  subst h1 h2 h3
  have e : ((best.map (k * ·)).map fun b => b * (1 - c.threshold)) = (best.map fun b => b * (1 - c.threshold)).map (k * ·) := by
    cases best with
    | none => rfl
    | some b => simp only [Option.map_some, Option.some.injEq]; ring
  unfold Plateau.step
  dsimp only
  rw [e, improves_scaled hk]
  cases improves x (best.map fun b => b * (1 - c.threshold)) with
  | false =>
    simp only [Bool.false_eq_true, if_false]
    by_cases hb : bad + 1 > c.patience
    · rw [if_pos hb, if_pos hb]
      exact ⟨rfl, rfl, rfl⟩
    · rw [if_neg hb, if_neg hb]
      exact ⟨rfl, rfl, rfl⟩
  | true =>
    simp only [if_true]
    by_cases hb : 0 > c.patience
    · omega
    · rw [if_neg hb, if_neg hb]
      exact ⟨rfl, rfl, rfl⟩

theorem LoopScaled.final {S S' : Type} {k : ℝ} {R : S → S' → Prop} {st : LoopState S} {st' : LoopState S'} (h : LoopScaled k R st st') :
    R st.final st'.final := by
  unfold LoopState.final
  have := h.best
  cases h1 : st.bestState with
  | none =>
    cases h2 : st'.bestState with
    | none => exact h.params
    | some s => rw [h1, h2] at this; cases this
  | some s =>
    cases h2 : st'.bestState with
    | none => rw [h1, h2] at this; cases this
    | some s' => rw [h1, h2] at this; cases this; assumption

theorem mmlEpochs_scaled {S S' : Type} (T : Trainer S) (T' : Trainer S') (c : TrainConfig) (b b' : List ℕ) {k : ℝ} (hk : 0 < k)
    (R : S → S' → Prop) (hstep : ∀ i lr s s', R s s' → R (T.update i b lr s) (T'.update i b' lr s'))
    (hloss : ∀ i s s', R s s' → ∃ x : Num, T.loss i b s = .ok x ∧ T'.loss i b' s' = .ok (x.map (k * ·))) (n : ℕ) (st : LoopState S)
    (st' : LoopState S') (h : LoopScaled k R st st') :
    ∃ u u', mmlEpochs T c b n st = .ok u ∧ mmlEpochs T' c b' n st' = .ok u' ∧ LoopScaled k R u u' := by
  induction n generalizing st st' with
  | zero => exact ⟨st, st', rfl, rfl, h⟩
  | succ n ih =>
    obtain ⟨x, hx, hx'⟩ := hloss st.history.length st.params st'.params h.params
    have hnew := hstep st.history.length st.sched.lr st.params st'.params h.params
    have hsched := plateau_scaled hk c st.sched st'.sched h.lr h.bad h.schedBest x
    have hit : ∃ u u', trainIteration T c b st = .ok u ∧ trainIteration T' c b' st' = .ok u' ∧ LoopScaled k R u u' := by
      unfold trainIteration
      rw [← h.history, ← h.lr, hx, hx']
      refine ⟨_, _, rfl, rfl, ?_⟩
      rw [h.bestLoss, improves_scaled hk, ← h.prevLr, ← h.lrUpdates]
      refine ⟨hnew, hsched.1, hsched.2.1, hsched.2.2, hsched.1, ?_, ?_, ?_, ?_⟩
      · dsimp only
        rw [hsched.1]
      · dsimp only
        cases improves x st.bestLoss <;> rfl
      · simp [h.history]
      · dsimp only
        cases improves x st.bestLoss with
        | false => exact h.best
        | true => exact Option.Rel.some hnew
    obtain ⟨u, u', h1, h2, h3⟩ := hit
    unfold mmlEpochs
    rw [h1, h2]
    simp only [bind_ok]
    rw [← h3.lrUpdates]
    by_cases hl : c.limit ≤ u.lrUpdates
    · rw [if_pos hl, if_pos hl]
      exact ⟨u, u', rfl, rfl, h3⟩
    · rw [if_neg hl, if_neg hl]
      exact ih u u' h3

/-- The same values, with related optimiser states. -/
def SameValues {A : Type} (R : A → A → Prop) (n : ℕ) (l l' : List (ℝ × A)) : Prop :=
  l.length = n ∧ List.Forall₂ (fun x x' => x.1 = x'.1 ∧ R x.2 x'.2) l l'

theorem SameValues.fst {A : Type} {R : A → A → Prop} {n : ℕ} {l l' : List (ℝ × A)} (h : SameValues R n l l') : l'.map Prod.fst = l.map Prod.fst := by
  obtain ⟨-, h⟩ := h
  induction h with
  | nil => rfl
  | cons hx _ ih => rw [List.map_cons, List.map_cons, ih, hx.1]

theorem forall₂_mapIdx {α α' : Type} {P Q : α → α' → Prop} (f : ℕ → α → α) (f' : ℕ → α' → α') (hf : ∀ i x x', P x x' → Q (f i x) (f' i x'))
    {l : List α} {l' : List α'} (h : List.Forall₂ P l l') : List.Forall₂ Q (l.mapIdx f) (l'.mapIdx f') := by
  induction h generalizing f f' with
  | nil => exact List.Forall₂.nil
  | cons hx _ ih =>
    rw [List.mapIdx_cons, List.mapIdx_cons]
    exact List.Forall₂.cons (hf 0 _ _ hx) (ih _ _ fun i x x' h => hf (i + 1) x x' h)

theorem gradientFit_scaled {A : Type} (loss loss' : List ℝ → List ℝ → Except PyErr Num) (rule : ℕ → EntryRule A) (a₀ : A)
    (hfree : ScaleFree rule a₀) (c : TrainConfig) (lr : ℝ) (N N' epochs : ℕ) {k : ℝ} (hk : 0 < k) (weight rest : List ℝ)
    (hloss : ∀ w r : List ℝ, w.length = weight.length → r.length = rest.length → ∃ x : ℝ, loss w r = .ok (some x) ∧ loss' w r = .ok (some (k * x))) :
    ∃ w r, gradientFit loss rule a₀ c lr N epochs weight rest = .ok (w, r) ∧ gradientFit loss' rule a₀ c lr N' epochs weight rest = .ok (w, r) := by
  obtain ⟨R, hR0, hR⟩ := hfree k hk
  let Rel : FitState A → FitState A → Prop := fun s s' => SameValues R weight.length s.weight s'.weight ∧ SameValues R rest.length s.rest s'.rest
  have hpart : ∀ (l l' : List ℝ → Except PyErr Num) (p : List ℝ) (i : ℕ),
      (∀ q : List ℝ, q.length = p.length → ∃ x : ℝ, l q = .ok (some x) ∧ l' q = .ok (some (k * x))) → partialAt l' p i = k * partialAt l p i := by
    intro l l' p i hl
    unfold partialAt
    have e : (fun x => lossValue (l' (p.set i x))) = fun x => k * lossValue (l (p.set i x)) := by
      funext x
      obtain ⟨y, h1, h2⟩ := hl (p.set i x) (by simp)
      rw [h1, h2]
      rfl
    rw [e]
    exact deriv_const_mul_field k
  have hstart : ∀ l : List ℝ, SameValues R l.length (l.map fun v => (v, a₀)) (l.map fun v => (v, a₀)) := fun l =>
    ⟨by simp, by
      rw [List.forall₂_map_left_iff, List.forall₂_map_right_iff]
      exact List.forall₂_same.2 fun x _ => ⟨rfl, hR0⟩⟩
  obtain ⟨u, u', h1, h2, h3⟩ := mmlEpochs_scaled (gradientTrainer loss rule) (gradientTrainer loss' rule) c (List.range N) (List.range N') hk Rel
    (by
      intro i lr s s' hs
      refine ⟨⟨?_, ?_⟩, ⟨?_, ?_⟩⟩
      · simp [gradientTrainer, hs.1.1]
      · refine forall₂_mapIdx _ _ (fun j x x' hx => ?_) hs.1.2
        dsimp only
        rw [hs.1.fst, hs.2.fst, hpart (fun p => loss p (s.rest.map Prod.fst)) (fun p => loss' p (s.rest.map Prod.fst)) _ j fun q hq =>
          hloss q _ (by rw [hq]; simp [hs.1.1]) (by simp [hs.2.1]), ← hx.1]
        exact ⟨(hR i lr x.2 x'.2 x.1 _ hx.2).2.symm, (hR i lr x.2 x'.2 x.1 _ hx.2).1⟩
      · simp [gradientTrainer, hs.2.1]
      · refine forall₂_mapIdx _ _ (fun j x x' hx => ?_) hs.2.2
        dsimp only
        rw [hs.1.fst, hs.2.fst, hpart (fun p => loss (s.weight.map Prod.fst) p) (fun p => loss' (s.weight.map Prod.fst) p) _ j fun q hq =>
          hloss _ q (by simp [hs.1.1]) (by rw [hq]; simp [hs.2.1]), ← hx.1]
        exact ⟨(hR i lr x.2 x'.2 x.1 _ hx.2).2.symm, (hR i lr x.2 x'.2 x.1 _ hx.2).1⟩)
    (by
      intro i s s' hs
      obtain ⟨x, h1, h2⟩ := hloss (s.weight.map Prod.fst) (s.rest.map Prod.fst) (by simp [hs.1.1]) (by simp [hs.2.1])
      refine ⟨some x, h1, ?_⟩
      show loss' (s'.weight.map Prod.fst) (s'.rest.map Prod.fst) = _
      rw [hs.1.fst, hs.2.fst, h2]
      rfl)
    epochs _ _ (show LoopScaled k Rel (LoopState.start lr ⟨weight.map fun v => (v, a₀), rest.map fun v => (v, a₀)⟩)
      (LoopState.start lr ⟨weight.map fun v => (v, a₀), rest.map fun v => (v, a₀)⟩) from
      ⟨⟨hstart weight, hstart rest⟩, rfl, rfl, rfl, rfl, rfl, rfl, rfl, Option.Rel.none⟩)
  refine ⟨u.final.weight.map Prod.fst, u.final.rest.map Prod.fst, ?_, ?_⟩
  · unfold gradientFit
    rw [h1]
  · unfold gradientFit
    rw [h2]
    dsimp only
    rw [h3.final.1.fst, h3.final.2.fst]

theorem adamWithoutEps_scaleFree : ScaleFree (fun _ => adamWithoutEps) {} := by
  intro k hk
  refine ⟨fun a a' => a'.step = a.step ∧ a'.avg = k * a.avg ∧ a'.avgSq = k ^ 2 * a.avgSq ∧ a'.maxSq = k ^ 2 * a.maxSq, by simp, ?_⟩
  rintro _ lr ⟨step, avg, avgSq, maxSq⟩ ⟨step', avg', avgSq', maxSq'⟩ v g ⟨h1, h2, h3, h4⟩
  simp only at h1 h2 h3 h4
  subst h1 h2 h3 h4
  have e1 : 0.9 * (k * avg) + 0.1 * (k * g) = k * (0.9 * avg + 0.1 * g) := by ring
  have e2 : 0.999 * (k ^ 2 * avgSq) + 0.001 * (k * g) ^ 2 = k ^ 2 * (0.999 * avgSq + 0.001 * g ^ 2) := by ring
  have e3 : max (k ^ 2 * maxSq) (k ^ 2 * (0.999 * avgSq + 0.001 * g ^ 2)) = k ^ 2 * max maxSq (0.999 * avgSq + 0.001 * g ^ 2) :=
    (mul_max_of_nonneg _ _ (by positivity)).symm
  unfold adamWithoutEps
  simp only [e1, e2, e3, and_self, true_and]
  rw [Real.sqrt_mul (by positivity), Real.sqrt_sq hk.le, mul_div_assoc k (Real.sqrt _), mul_div_mul_left _ _ hk.ne']

end Irt
