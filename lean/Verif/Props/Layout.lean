import Verif.Spec.Layout
import Verif.Lemmas.Scoring
import Verif.Lemmas.Layout
import Verif.Lemmas.Composite
import Verif.Props.Mix
import Verif.Lemmas.LogitModel

/-! # C137: the answers count, not the memory layout of the tensor that holds them -/

namespace Irt
open Spec

variable {α : Type*} [Inhabited α]

theorem strided_rows {t : Strided α} {N K : ℕ} {f : ℕ → ℕ → α} (h : Holds t N K f) : t.rows = rowsOf N K f := by
  unfold Strided.rows rowsOf
  rw [h.rows, h.columns]
  refine List.map_congr_left fun i hi => List.map_congr_left fun j hj => ?_
  rw [List.getD_eq_getElem?_getD, Strided.pos, h.entry i j (List.mem_range.1 hi) (List.mem_range.1 hj)]
  rfl

theorem fresh_holds (N K : ℕ) (f : ℕ → ℕ → α) : Holds (Strided.fresh K (rowsOf N K f)) N K f where
  rows := by simp [Strided.fresh, rowsOf]
  columns := rfl
  entry := fun i j hi hj => by
    show (rowsOf N K f).flatten[0 + i * K + j * 1]? = _
    rw [rowsOf_flatten, zero_add, mul_one]
    unfold flatTensor
    rw [flatMap_getElem? K _ _ (by simp) i j hj]
    simp [hi, hj]

theorem transpose_holds {t : Strided α} {N K : ℕ} {f : ℕ → ℕ → α} (h : Holds t N K f) :
    Holds t.transpose K N (fun i j => f j i) where
  rows := h.columns
  columns := h.rows
  entry := fun i j hi hj => by
    show t.storage[t.offset + i * t.s1 + j * t.s0]? = _
    rw [add_right_comm]
    exact h.entry j i hj hi

theorem columns_holds {t : Strided α} {N K : ℕ} {f : ℕ → ℕ → α} (h : Holds t N K f) (a k : ℕ) (hk : a + k ≤ K) :
    Holds (t.columns a k) N k (fun i j => f i (a + j)) where
  rows := h.rows
  columns := rfl
  entry := fun i j hi hj => by
    show t.storage[t.offset + a * t.s1 + i * t.s0 + j * t.s1]? = _
    rw [← h.entry i (a + j) hi (by omega)]
    congr 1
    ring

theorem slice_holds {t : Strided α} {N K : ℕ} {f : ℕ → ℕ → α} (h : Holds t N K f) (a k : ℕ) (hk : a + k ≤ N) :
    Holds (t.slice a k) k K (fun i j => f (a + i) j) where
  rows := rfl
  columns := h.columns
  entry := fun i j hi hj => by
    show t.storage[t.offset + a * t.s0 + i * t.s0 + j * t.s1]? = _
    rw [← h.entry (a + i) j (by omega) hj]
    congr 1
    ring

theorem contiguous_holds {t : Strided α} {N K : ℕ} {f : ℕ → ℕ → α} (h : Holds t N K f) : Holds t.contiguous N K f := by
  unfold Strided.contiguous
  split
  · exact h
  · rw [strided_rows h, h.columns]
    exact fresh_holds N K f

theorem long_holds {t : Strided α} {N K : ℕ} {f : ℕ → ℕ → α} (h : Holds t N K f) (int64 : Bool) :
    Holds (t.long int64) N K f := by
  unfold Strided.long
  split
  · exact h
  · split
    · exact h
    · rw [strided_rows h, h.columns]
      exact fresh_holds N K f

/-- A contiguous tensor with entries is walked through with one stride. -/
theorem contiguous_iff (t : Strided α) (h : IsTable2D t) : t.isContiguous = true ↔ t.s1 = 1 ∧ t.s0 = t.m := by
  obtain ⟨hn, hm⟩ := h
  unfold Strided.isContiguous
  simp only [Bool.or_eq_true, Bool.and_eq_true, decide_eq_true_eq]
  constructor
  · rintro ((h | h) | ⟨h1 | h1, h2 | h2⟩) <;> first | omega | exact ⟨h1, h2⟩
  · rintro ⟨h1, h2⟩
    exact .inr ⟨.inr h1, .inr h2⟩

theorem isDense_iff (t : Strided α) (h : IsTable2D t) :
    t.isDense = true ↔ (t.s1 = 1 ∧ t.s0 = t.m) ∨ ColumnAfterColumn t := by
  unfold Strided.isDense
  rw [Bool.or_eq_true, contiguous_iff t h, contiguous_iff t.transpose ⟨h.2, h.1⟩]
  rfl

theorem flat_value {t : Strided α} {N K : ℕ} {f : ℕ → ℕ → α} (h : Holds t N K f) (hs : IsTable2D t → OneStride t) :
    t.flat = .ok (flatTensor N K f) := by
  unfold Strided.flat
  by_cases h0 : t.n = 0 ∨ t.m = 0
  · rw [if_pos h0]
    unfold flatTensor
    rcases h0 with h0 | h0
    · rw [← h.rows, h0]; rfl
    · rw [← h.columns, h0]; simp
  rw [if_neg h0]
  push Not at h0
  by_cases h1 : t.m = 1
  · rw [if_pos h1]
    unfold flatTensor
    rw [← h.columns, h1, h.rows, List.flatMap_def]
    simp only [List.range_one, List.map_cons, List.map_nil]
    congr 1
    have hp : ((List.range N).map fun i => [f i 0]).flatten = (List.range N).map fun i => f i 0 := by
      generalize List.range N = L
      induction L with
      | nil => rfl
      | cons x L ih => simpa using ih
    rw [hp]
    refine List.map_congr_left fun i hi => ?_
    have he := h.entry i 0 (List.mem_range.1 hi) (by rw [← h.columns, h1]; exact one_pos)
    rw [zero_mul, add_zero] at he
    rw [List.getD_eq_getElem?_getD, he]
    rfl
  rw [if_neg h1]
  have h2 : t.n = 1 ∨ t.s0 = t.m * t.s1 := by
    by_cases hn : t.n = 1
    · exact .inl hn
    · exact .inr (hs ⟨by omega, by omega⟩)
  rw [if_pos h2, flatTensor_eq, ← h.rows, ← h.columns]
  congr 1
  refine List.map_congr_left fun k hk => ?_
  have hk := List.mem_range.1 hk
  have hKpos : 0 < t.m := by omega
  have hi : k / t.m < t.n := Nat.div_lt_of_lt_mul (by rwa [mul_comm] at hk)
  have he := h.entry (k / t.m) (k % t.m) (by rw [← h.rows]; exact hi) (by rw [← h.columns]; exact Nat.mod_lt _ hKpos)
  rw [List.getD_eq_getElem?_getD]
  have hpos : t.offset + k * t.s1 = t.offset + k / t.m * t.s0 + k % t.m * t.s1 := by
    rcases h2 with h2 | h2
    · have hkm : k < t.m := by rw [h2, one_mul] at hk; exact hk
      rw [Nat.div_eq_of_lt hkm, Nat.mod_eq_of_lt hkm]
      ring
    · have hd := Nat.div_add_mod k t.m
      calc t.offset + k * t.s1 = t.offset + (t.m * (k / t.m) + k % t.m) * t.s1 := by rw [hd]
        _ = _ := by rw [h2]; ring
  rw [hpos, he]
  rfl

theorem flat_refused {t : Strided α} (h : IsTable2D t) (hs : ¬ OneStride t) : t.flat = .error .runtimeError := by
  obtain ⟨hn, hm⟩ := h
  unfold Strided.flat
  rw [if_neg (by omega), if_neg (by omega), if_neg]
  rintro (h | h)
  · omega
  · exact hs h

omit [Inhabited α] in
theorem fresh_stride (K : ℕ) (rows : List (List α)) : OneStride (Strided.fresh K rows) := (mul_one K).symm

omit [Inhabited α] in
theorem fresh_oneStride (N K : ℕ) (f : ℕ → ℕ → α) : OneStride (Strided.fresh K (rowsOf N K f)) := (mul_one K).symm

theorem contiguous_oneStride (t : Strided α) (h : IsTable2D t.contiguous) : OneStride t.contiguous := by
  unfold Strided.contiguous at h ⊢
  split
  · rename_i hc
    rw [if_pos hc] at h
    obtain ⟨h1, h0⟩ := (contiguous_iff t h).1 hc
    unfold OneStride
    rw [h0, h1, mul_one]
  · exact (mul_one _).symm

/-! ## A call of `log_likelihood` -/

theorem long_flat {t : Strided α} {N K : ℕ} {f : ℕ → ℕ → α} (h : Holds t N K f) (int64 : Bool) :
    (¬ LayoutRefused int64 t → (t.long int64).flat = .ok (flatTensor N K f))
      ∧ (LayoutRefused int64 t → (t.long int64).flat = .error .runtimeError) := by
  unfold LayoutRefused
  cases int64 with
  | true =>
    have hl : t.long true = t := rfl
    rw [hl]
    simp only [if_true]
    refine ⟨fun hr => flat_value h fun h2 => ?_, fun hr => flat_refused hr.1 hr.2⟩
    by_contra hs
    exact hr ⟨h2, hs⟩
  | false =>
    simp only [Bool.false_eq_true, if_false]
    by_cases h2 : IsTable2D t
    · have hd := isDense_iff t h2
      have hl : t.long false = if t.isDense then t else Strided.fresh t.m t.rows := rfl
      rw [hl]
      constructor
      · intro hr
        have hc : ¬ ColumnAfterColumn t := fun hc => hr ⟨h2, hc⟩
        by_cases hdense : t.isDense = true
        · rw [if_pos hdense]
          refine flat_value h fun _ => ?_
          rcases hd.1 hdense with ⟨h1, h0⟩ | h'
          · unfold OneStride
            rw [h0, h1, mul_one]
          · exact absurd h' hc
        · rw [if_neg hdense, strided_rows h, h.columns]
          exact flat_value (fresh_holds N K f) fun _ => fresh_oneStride N K f
      · rintro ⟨_, hc⟩
        rw [if_pos (hd.2 (.inr hc))]
        refine flat_refused h2 fun hs => ?_
        obtain ⟨hn, hm⟩ := h2
        have hs : t.s0 = t.m * t.s1 := hs
        rw [hc.1, hc.2] at hs
        have : 2 * 2 ≤ t.m * t.n := Nat.mul_le_mul hm hn
        omega
    · refine ⟨fun _ => ?_, fun hr => absurd hr.1 h2⟩
      have hh := long_holds h false
      refine flat_value hh fun h2' => absurd ?_ h2
      unfold IsTable2D at h2' ⊢
      rw [hh.rows, hh.columns] at h2'
      rw [h.rows, h.columns]
      exact h2'

variable (ll : List Cell → Option (List Bool) → Except PyErr LL)

/-- C137: a call of `log_likelihood` without a mask gives what the table of answers gives, or it is refused. It is refused exactly if
there are several respondents and several items and the numbers are floats stored column after column, or 64-bit integers that are not
reached in order with one stride. -/
theorem C137_log_likelihood {t : Strided Cell} {N K : ℕ} {y : ℕ → ℕ → Cell} (h : Holds t N K y) (int64 : Bool) :
    (¬ LayoutRefused int64 t → tensorLogLikelihood ll int64 t none = ll (flatTensor N K y) none)
      ∧ (LayoutRefused int64 t → tensorLogLikelihood ll int64 t none = .error .runtimeError) := by
  obtain ⟨h1, h2⟩ := long_flat h int64
  unfold tensorLogLikelihood
  exact ⟨fun hr => by rw [h1 hr]; rfl, fun hr => by rw [h2 hr]; rfl⟩

/-- C137: with a mask, whose layout has to allow one stride too. -/
theorem C137_log_likelihood_masked {t : Strided Cell} {N K : ℕ} {y : ℕ → ℕ → Cell} (h : Holds t N K y) (int64 : Bool)
    {mk : Strided Bool} {b : ℕ → ℕ → Bool} (hm : Holds mk N K b) :
    (¬ LayoutRefused int64 t → (IsTable2D mk → OneStride mk) →
        tensorLogLikelihood ll int64 t (some mk) = ll (flatTensor N K y) (some (flatTensor N K b)))
      ∧ (LayoutRefused int64 t ∨ (IsTable2D mk ∧ ¬ OneStride mk) → tensorLogLikelihood ll int64 t (some mk) = .error .runtimeError) := by
  obtain ⟨h1, h2⟩ := long_flat h int64
  unfold tensorLogLikelihood
  constructor
  · intro hr hs
    rw [h1 hr]
    simp only [flat_value hm hs]
    rfl
  · intro hr
    by_cases hd : LayoutRefused int64 t
    · rw [h2 hd]
      rfl
    · rw [h1 hd]
      obtain ⟨h2, hs⟩ := hr.resolve_left hd
      simp only [flat_refused h2 hs]
      rfl

/-- C137: whatever their layouts, two tensors with the same answers never give two different log likelihoods: if neither call is
refused for the layout, the results are the same. -/
theorem C137_same_answers_partial {t u : Strided Cell} {N K : ℕ} {y : ℕ → ℕ → Cell} (ht : Holds t N K y) (hu : Holds u N K y) (a b : Bool)
    (hrt : ¬ LayoutRefused a t) (hru : ¬ LayoutRefused b u) : tensorLogLikelihood ll a t none = tensorLogLikelihood ll b u none := by
  rw [(C137_log_likelihood ll ht a).1 hrt, (C137_log_likelihood ll hu b).1 hru]

/-! ## Scoring, evaluation and fitting -/

omit [Inhabited α] in
theorem not_refused_of_oneStride {t : Strided α} (h : IsTable2D t → OneStride t) (int64 : Bool) : ¬ LayoutRefused int64 t := by
  rintro ⟨h2, hr⟩
  have hs := h h2
  cases int64 with
  | true => exact hr hs
  | false =>
    obtain ⟨hn, hm⟩ := h2
    have hr : ColumnAfterColumn t := hr
    have hs : t.s0 = t.m * t.s1 := hs
    rw [hr.1, hr.2] at hs
    have : 2 * 2 ≤ t.m * t.n := Nat.mul_le_mul hm hn
    omega

/-- C137: `latent_scores` and the evaluations call `contiguous` first, and what they pass on is never refused and gives what the table
of answers gives. -/
theorem C137_contiguous {t : Strided Cell} {N K : ℕ} {y : ℕ → ℕ → Cell} (h : Holds t N K y) (int64 : Bool) :
    tensorLogLikelihood ll int64 t.contiguous none = ll (flatTensor N K y) none :=
  (C137_log_likelihood ll (contiguous_holds h) int64).1 (not_refused_of_oneStride (contiguous_oneStride t) int64)

/-- C137: marginal maximum likelihood repeats the table once per integration point; the copies are never refused. -/
theorem C137_repeated {t : Strided Cell} {N K : ℕ} {y : ℕ → ℕ → Cell} (h : Holds t N K y) (int64 : Bool) (q : ℕ) :
    tensorLogLikelihood ll int64 (t.repeatRows q) none = ll (flatTensor (q * N) K fun i j => y (i % N) j) none := by
  have hh : Holds (t.repeatRows q) (q * N) K fun i j => y (i % N) j := by
    unfold Strided.repeatRows
    rw [strided_rows h, h.columns]
    have he : (List.replicate q (rowsOf N K y)).flatten = rowsOf (q * N) K fun i j => y (i % N) j := by
      induction q with
      | zero => simp [rowsOf]
      | succ q ih =>
        rw [List.replicate_succ, List.flatten_cons, ih, Nat.succ_mul, Nat.add_comm (q * N) N]
        unfold rowsOf
        rw [List.range_add, List.map_append, List.map_map]
        congr 1
        · refine List.map_congr_left fun i hi => ?_
          simp only [Nat.mod_eq_of_lt (List.mem_range.1 hi)]
        · refine List.map_congr_left fun i _ => ?_
          simp
    rw [he]
    exact fresh_holds _ K _
  exact (C137_log_likelihood ll hh int64).1 (not_refused_of_oneStride (fun _ => fresh_stride _ _) int64)

/-- C137: the batches of a data loader are stacked rows, so they are never refused. -/
theorem C137_batches {t : Strided Cell} {N K : ℕ} {y : ℕ → ℕ → Cell} (h : Holds t N K y) (int64 : Bool) (n : ℕ) (idx : ℕ → ℕ)
    (hidx : ∀ b, b < n → idx b < N) :
    tensorLogLikelihood ll int64 (t.batch ((List.range n).map idx)) none = ll (flatTensor n K fun b j => y (idx b) j) none := by
  have hh : Holds (t.batch ((List.range n).map idx)) n K fun b j => y (idx b) j := by
    unfold Strided.batch
    rw [strided_rows h, h.columns, List.map_map]
    have he : ((List.range n).map ((fun i => (rowsOf N K y).getD i []) ∘ idx)) = rowsOf n K fun b j => y (idx b) j := by
      refine List.map_congr_left fun b hb => ?_
      have := hidx b (List.mem_range.1 hb)
      simp [rowsOf, List.getD_eq_getElem?_getD, this]
    rw [he]
    exact fresh_holds _ K _
  exact (C137_log_likelihood ll hh int64).1 (not_refused_of_oneStride (fun _ => fresh_stride _ _) int64)

/-! ## Where the layout matters after all -/

/-- Four answers of two respondents to two items, all in the first category. -/
def exZeros : Strided Cell := Strided.fresh 2 (rowsOf 2 2 fun _ _ => some 0)

theorem exZeros_holds : Holds exZeros 2 2 (fun _ _ => some 0) := fresh_holds 2 2 _

theorem exZeros_columns : LayoutRefused false exZeros.transpose := by
  refine ⟨⟨by decide, by decide⟩, ?_⟩
  simp only [Bool.false_eq_true, if_false]
  exact ⟨by decide, by decide⟩

theorem exZeros_rows (int64 : Bool) : ¬ LayoutRefused int64 exZeros := not_refused_of_oneStride (fun _ => fresh_stride _ _) int64

/-- The claim for direct calls of `log_likelihood` of a softmax model. -/
def LayoutFree : Prop :=
  ∀ (out : List (List Logit)) (red : Reduction) (t u : Strided Cell) (N K : ℕ) (y : ℕ → ℕ → Cell), Holds t N K y → Holds u N K y →
    tensorLogLikelihood (fun ys mk => baseLogLikelihood out ys mk red) false t none
      = tensorLogLikelihood (fun ys mk => baseLogLikelihood out ys mk red) false u none

/-- C137 is false for direct calls: a table stored column after column (as `torch.from_numpy` of a data frame gives it) is refused. -/
theorem C137_columns_false : ¬ LayoutFree := by
  intro h
  have hu : Holds exZeros.transpose 2 2 (fun _ _ => some 0) := transpose_holds exZeros_holds
  have h1 := h (List.replicate 4 [.fin 0, .fin 0]) .sum exZeros exZeros.transpose 2 2 _ exZeros_holds hu
  rw [(C137_log_likelihood _ exZeros_holds false).1 (exZeros_rows false), (C137_log_likelihood _ hu false).2 exZeros_columns] at h1
  simp [flatTensor, List.range_succ, baseLogLikelihood, cellLong, negCrossEntropy, logSoftmax, List.replicate, List.mapM_cons] at h1
  cases h1

/-! ### Mixes of models -/

section Mixes

variable {β : Type}

theorem mix_parts (data : Strided Cell) {N K : ℕ} {y : ℕ → ℕ → Cell} (h : Holds data N K y) (hc : data.isContiguous = true)
    (red : Reduction) (cs : List (MixComponent β)) (outs : List (List (List β))) (a : ℕ) (ha : a + (cs.map fun c => c.items).sum ≤ K) :
    mixTensorParts false data red a cs outs
      = (List.zip cs (List.zip (splitCols (cs.map fun c => c.items) ((rowsOf N K y).map (List.drop a)))
          (List.zip (List.replicate cs.length none) outs))).mapM
        fun (p : MixComponent β × List (List Cell) × Option (List (List Bool)) × List (List β)) => p.1.ll p.2.2.2 p.2.1 p.2.2.1 red := by
  induction cs generalizing a outs with
  | nil => cases outs <;> rfl
  | cons c cs ih =>
    cases outs with
    | nil => rfl
    | cons out outs =>
      rw [List.map_cons, List.sum_cons] at ha
      have hcol := columns_holds h a c.items (by omega)
      have hr : ¬ LayoutRefused false (data.columns a c.items) := by
        rintro ⟨h2, hr⟩
        obtain ⟨hn, hm⟩ := h2
        have hn : 2 ≤ data.n := hn
        have hm : 2 ≤ c.items := hm
        have h2' : IsTable2D data := ⟨hn, by rw [h.columns]; omega⟩
        obtain ⟨h1, h0⟩ := (contiguous_iff data h2').1 hc
        have hr : data.s0 = 1 ∧ data.s1 = data.n := hr
        omega
      simp only [mixTensorParts, List.map_cons, splitCols, List.length_cons, List.replicate_succ, List.zip_cons_cons, List.mapM_cons]
      rw [(C137_log_likelihood _ hcol false).1 hr, ih outs (a + c.items) (by omega), h.rows, viewRows_flatTensor]
      have e1 : ((rowsOf N K y).map (List.drop a)).map (List.take c.items) = rowsOf N c.items fun i j => y i (a + j) := by
        unfold rowsOf
        rw [List.map_map, List.map_map]
        refine List.map_congr_left fun i _ => ?_
        apply List.ext_getElem?
        intro k
        simp only [Function.comp, List.getElem?_take, List.getElem?_drop, List.getElem?_map]
        by_cases hk : k < c.items
        · have : a + k < K := by omega
          simp [hk, this]
        · simp [hk]
      have e2 : ((rowsOf N K y).map (List.drop a)).map (List.drop c.items) = (rowsOf N K y).map (List.drop (a + c.items)) := by
        rw [List.map_map]
        refine List.map_congr_left fun r _ => ?_
        simp only [Function.comp, List.drop_drop]
      rw [e1, e2]

/-- C137: a mix of models takes a contiguous tensor of floats as what it holds. -/
theorem C137_mix_floats_partial (ms : List (MixComponent β)) (output : List (List β)) (data : Strided Cell) {N K : ℕ} {y : ℕ → ℕ → Cell}
    (h : Holds data N K y) (hN : 0 < N) (hc : data.isContiguous = true) (red : Reduction) :
    mixTensorLogLikelihood ms output false data red = mixLogLikelihood ms output (rowsOf N K y) none red := by
  unfold mixTensorLogLikelihood mixLogLikelihood
  by_cases hK : data.m = (ms.map fun c => c.items).sum
  · have hs : splitChecked (ms.map fun c => c.items) (rowsOf N K y) = .ok (splitCols (ms.map fun c => c.items) (rowsOf N K y)) := by
      unfold splitChecked
      rw [if_pos]
      intro r hr
      obtain ⟨i, _, rfl⟩ := List.mem_map.1 hr
      rw [List.length_map, List.length_range, ← hK, h.columns]
    cases splitChecked (ms.map fun c => c.M * c.items) output with
    | error e => rfl
    | ok outs =>
      have hp := mix_parts data h hc red ms outs 0 (by rw [← hK, h.columns]; omega)
      have e0 : (rowsOf N K y).map (List.drop 0) = rowsOf N K y := (List.map_congr_left fun r _ => List.drop_zero).trans (List.map_id _)
      rw [e0] at hp
      simp only [bind, Except.bind, hs, mixMasks, if_pos hK, hp]
      rfl
  · have hs : splitChecked (ms.map fun c => c.items) (rowsOf N K y) = .error .runtimeError := by
      unfold splitChecked
      rw [if_neg]
      intro hall
      have := hall ((List.range K).map (y 0)) (List.mem_map.2 ⟨0, List.mem_range.2 hN, rfl⟩)
      rw [List.length_map, List.length_range, ← h.columns] at this
      exact hK this
    cases splitChecked (ms.map fun c => c.M * c.items) output with
    | error e => rfl
    | ok outs =>
      simp only [bind, Except.bind, hs, if_neg hK]

/-- C137: but integers are refused as soon as the first model has several, but not all, of the items and there are several respondents. -/
theorem C137_mix_integers (c : MixComponent β) (cs : List (MixComponent β)) (output : List (List β)) (data : Strided Cell) {N K : ℕ}
    {y : ℕ → ℕ → Cell} (h : Holds data N K y) (hN : 2 ≤ N) (hc : data.isContiguous = true) (hi : 2 ≤ c.items) (hK : c.items < K)
    (red : Reduction) : mixTensorLogLikelihood (c :: cs) output true data red = .error .runtimeError := by
  unfold mixTensorLogLikelihood
  by_cases ho : ∀ r ∈ output, r.length = (((c :: cs).map fun c => c.M * c.items)).sum
  · have hs : splitChecked ((c :: cs).map fun c => c.M * c.items) output = .ok (splitCols ((c :: cs).map fun c => c.M * c.items) output) :=
      if_pos ho
    rw [hs]
    have hr : LayoutRefused true (data.columns 0 c.items) := by
      have h2 : IsTable2D data := ⟨by rw [h.rows]; exact hN, by rw [h.columns]; omega⟩
      obtain ⟨h1, h0⟩ := (contiguous_iff data h2).1 hc
      refine ⟨⟨by show 2 ≤ data.n; rw [h.rows]; exact hN, hi⟩, ?_⟩
      simp only [if_true]
      intro hs
      have hs : data.s0 = c.items * data.s1 := hs
      rw [h0, h1, h.columns, mul_one] at hs
      omega
    have hcol := columns_holds h 0 c.items (by omega)
    simp only [bind, Except.bind, List.map_cons, splitCols, mixTensorParts, (C137_log_likelihood _ hcol true).2 hr]
    split <;> rfl
  · have hs : splitChecked ((c :: cs).map fun c => c.M * c.items) output = .error .runtimeError := if_neg ho
    rw [hs]
    rfl

end Mixes

/-- The claim for mixes: integers count as the same floats. -/
def IntegersAsFloats : Prop :=
  ∀ (a b : GPC) (data : Strided Cell) (N : ℕ) (y : ℕ → ℕ → Cell) (θ : ℕ → List ℝ), a.WF → b.WF →
    Holds data N (a.cats.length + b.cats.length) y → data.isContiguous = true →
    mixTensorLogLikelihood [a.component, b.component] ((List.range N).map fun i => a.forwardRow (θ i) ++ b.forwardRow (θ i)) true data .sum
      = mixTensorLogLikelihood [a.component, b.component] ((List.range N).map fun i => a.forwardRow (θ i) ++ b.forwardRow (θ i)) false
        data .sum

/-- The answers of two respondents to the four items of two models. -/
def exZerosMix : Strided Cell := Strided.fresh 4 (rowsOf 2 4 fun _ _ => some 0)

/-- C137 is false for mixes: the log likelihood of integers is refused, that of the same floats is computed. -/
theorem C137_integers_false : ¬ IntegersAsFloats := by
  intro h
  have hh : Holds exZerosMix 2 4 (fun _ _ => some 0) := fresh_holds 2 4 _
  have h1 := h exGPC exGPC exZerosMix 2 (fun _ _ => some 0) (fun _ => [0, 0]) exGPC_wf exGPC_wf hh (by decide)
  have e2 : exGPC.component.items = 2 := rfl
  rw [C137_mix_integers _ _ _ _ hh (le_refl 2) (by decide) (le_of_eq e2.symm) (by rw [e2]; norm_num),
    C137_mix_floats_partial _ _ _ hh (by norm_num) (by decide)] at h1
  have hv : ∀ i, i < 2 → ∀ j c, exGPC.cats[j]? = some c →
      ∃ r : ℕ, (some 0 : Cell) = some (r : ℤ) ∧ r < c ∧ ∃ p, (exGPC.probs [0, 0])[j]? = some p
        ∧ p[r]? = some (tableProb (exGPC.probs [0, 0]) j 0) := by
    intro i _ j c hc
    obtain ⟨p, hp, -, hpos⟩ := (C01_gpc_distribution exGPC exGPC_wf [0, 0]).2 j c hc
    have hcpos : 0 < c := exGPC_wf.catsPos c (List.mem_of_getElem? hc)
    obtain ⟨x, hx, -⟩ := hpos 0 hcpos
    refine ⟨0, rfl, hcpos, p, hp, ?_⟩
    rw [hx, tableProb_row _ _ _ _ hp, List.getD_eq_getElem?_getD, hx]
    rfl
  have h2 := C09_mix_two_gpc_ll_no_mask exGPC exGPC exGPC_wf exGPC_wf 2 (fun _ => [0, 0]) (fun _ _ => some 0) (fun _ _ => some 0)
    (fun _ j => tableProb (exGPC.probs [0, 0]) j 0) (fun _ j => tableProb (exGPC.probs [0, 0]) j 0) hv hv
  have e3 : (List.range 2).map (fun _ => exGPC.forwardRow [0, 0] ++ exGPC.forwardRow [0, 0])
      = blockRows 2 [gpcPart exGPC (fun _ => [0, 0]) (fun _ _ => some 0) fun _ _ => false,
          gpcPart exGPC (fun _ => [0, 0]) (fun _ _ => some 0) fun _ _ => false] MixPart.out := by
    simp [blockRows, gpcPart]
  rw [e3] at h1
  have h3 := h1.trans h2
  cases h3

/-! ## What a call writes -/

omit [Inhabited α] in
/-- C137: an assignment to masked entries writes to the entries of the tensor ... -/
theorem C137_written {t : Strided α} {N K : ℕ} {f : ℕ → ℕ → α} (h : Holds t N K f) (g : α → α) :
    Holds (t.write g) N K (fun i j => g (f i j)) where
  rows := h.rows
  columns := h.columns
  entry := fun i j hi hj => by
    show (t.write g).storage[t.offset + i * t.s0 + j * t.s1]? = _
    unfold Strided.write
    simp only [List.getElem?_mapIdx, h.entry i j hi hj, Option.map_some]
    rw [if_pos]
    rw [List.any_eq_true]
    refine ⟨i, by rw [List.mem_range, h.rows]; exact hi, ?_⟩
    rw [List.any_eq_true]
    exact ⟨j, by rw [List.mem_range, h.columns]; exact hj, by simp [Strided.pos]⟩

omit [Inhabited α] in
/-- ... and to nothing else in the memory it shares with other tensors. -/
theorem C137_not_written (t : Strided α) (g : α → α) (p : ℕ) (hp : ∀ i j, i < t.n → j < t.m → t.offset + i * t.s0 + j * t.s1 ≠ p) :
    (t.write g).storage[p]? = t.storage[p]? := by
  unfold Strided.write
  simp only [List.getElem?_mapIdx]
  cases t.storage[p]? with
  | none => rfl
  | some x =>
    rw [Option.map_some, if_neg]
    intro hany
    obtain ⟨i, hi, hany⟩ := List.any_eq_true.1 hany
    obtain ⟨j, hj, hany⟩ := List.any_eq_true.1 hany
    exact hp i j (List.mem_range.1 hi) (List.mem_range.1 hj) (of_decide_eq_true hany)

/-- C137: `residuals`, and `latent_scores` with one-hot encoding, turn the missing answers of the caller's tensor into -1 exactly if the
tensor is contiguous; the answers in another tensor are left as they are. -/
theorem C137_caller {t : Strided Num} {N K : ℕ} {f : ℕ → ℕ → Num} (h : Holds t N K f) :
    Holds { t with storage := afterContiguousWrite t } N K (fun i j => if t.isContiguous then nanToNegOne (f i j) else f i j) := by
  unfold afterContiguousWrite
  by_cases hc : t.isContiguous = true
  · simp only [hc, if_true]
    exact C137_written h nanToNegOne
  · simp only [hc]
    exact h

/-- C137: a fit that one-hot encodes writes to the caller's tensor whatever its layout. -/
theorem C137_fit_caller {t : Strided Num} {N K : ℕ} {f : ℕ → ℕ → Num} (h : Holds t N K f) :
    Holds { t with storage := afterFitWrite t } N K (fun i j => nanToNegOne (f i j)) := C137_written h nanToNegOne

/-- The claim for the caller's tensors: if two hold the same answers, they do so after an evaluation. -/
def SameAfterwards : Prop :=
  ∀ (t u : Strided Num) (N K : ℕ) (f : ℕ → ℕ → Num), Holds t N K f → Holds u N K f →
    ∃ g, Holds { t with storage := afterContiguousWrite t } N K g ∧ Holds { u with storage := afterContiguousWrite u } N K g

/-- C137 is false for what is left in the caller's tensors: a missing answer in a tensor stored row after row becomes -1, in one stored
column after column it does not. -/
theorem C137_caller_false : ¬ SameAfterwards := by
  intro h
  have ht : Holds (Strided.fresh 2 (rowsOf 2 2 fun _ _ => (none : Num))) 2 2 (fun _ _ => none) := fresh_holds 2 2 _
  obtain ⟨g, h1, h2⟩ := h _ _ 2 2 _ ht (transpose_holds ht)
  have e1 := h1.entry 0 0 (by norm_num) (by norm_num)
  have e2 := h2.entry 0 0 (by norm_num) (by norm_num)
  have f1 := (C137_caller ht).entry 0 0 (by norm_num) (by norm_num)
  have f2 := (C137_caller (transpose_holds ht)).entry 0 0 (by norm_num) (by norm_num)
  rw [f1] at e1
  rw [f2] at e2
  have hc1 : (Strided.fresh 2 (rowsOf 2 2 fun _ _ => (none : Num))).isContiguous = true := rfl
  have hc2 : (Strided.fresh 2 (rowsOf 2 2 fun _ _ => (none : Num))).transpose.isContiguous = false := rfl
  rw [hc1] at e1
  rw [hc2] at e2
  have := e1.trans e2.symm
  simp [nanToNegOne] at this

/-! ## The hypotheses are met -/

/-- A table stored column after column: refused directly, scored like any other. -/
example : LayoutRefused false exZeros.transpose
    ∧ tensorLogLikelihood (fun ys mk => baseLogLikelihood (List.replicate 4 [.fin 0, .fin 0]) ys mk .sum) false
        exZeros.transpose.contiguous none
      = baseLogLikelihood (List.replicate 4 [.fin 0, .fin 0]) [some 0, some 0, some 0, some 0] none .sum :=
  ⟨exZeros_columns, C137_contiguous (fun ys mk => baseLogLikelihood (List.replicate 4 [.fin 0, .fin 0]) ys mk .sum)
    (transpose_holds exZeros_holds) false⟩

/-- Two columns of a table of four, for two respondents: floats are accepted, integers are not. -/
example : ¬ LayoutRefused false (exZerosMix.columns 1 2) ∧ LayoutRefused true (exZerosMix.columns 1 2) := by
  constructor
  · rintro ⟨_, h⟩
    have h : ColumnAfterColumn (exZerosMix.columns 1 2) := h
    exact absurd h.1 (by decide)
  · refine ⟨⟨by decide, by decide⟩, ?_⟩
    simp only [if_true]
    intro h
    have h : (exZerosMix.columns 1 2).s0 = (exZerosMix.columns 1 2).m * (exZerosMix.columns 1 2).s1 := h
    exact absurd h (by decide)

/-- An assignment through a slice of rows: the rest of the memory stays. -/
example : ((⟨[none, some 1, none, some 0], 0, 1, 2, 2, 1⟩ : Strided Num).write nanToNegOne).storage[2]? = some none :=
  C137_not_written _ _ 2 fun i j hi hj => by
    have hi : i < 1 := hi
    have hj : j < 2 := hj
    show 0 + i * 2 + j * 1 ≠ 2
    omega

end Irt
