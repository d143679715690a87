import Verif.Model.Datasets
import Verif.Lemmas.LogLik
import Mathlib.Tactic.IntervalCases

/-!
# C88 the Swedish SAT data, C91 the cache of the Big Five data
-/

namespace Irt

/-- The digit that the answer key file shows for the alternative `k` (counted from zero): `k + 1`. -/
def keyDigit (k : ℕ) : Char := Char.ofNat (48 + (k + 1))

theorem keyDigit_isDigit (k : ℕ) (hk : k < 9) : (keyDigit k).isDigit = true ∧ (keyDigit k).toNat = 49 + k ∧
    keyDigit k ≠ '\n' := by
  interval_cases k <;> decide

theorem answerKey_append (a b : List Char) : answerKey (a ++ b) = answerKey a ++ answerKey b := by
  simp [answerKey]

theorem answerKey_filler (l : List Char) (h : ∀ c ∈ l, c.isDigit = false) : answerKey l = [] := by
  unfold answerKey
  rw [List.map_eq_nil_iff, List.filter_eq_nil_iff]
  intro c hc
  rw [h c (List.mem_filter.1 hc).1]
  simp

/-- C88: the key is read from a file that lists the correct alternative of every item, counted from one, as a digit,
with any other characters without digits (line breaks, blanks) in between; the returned key has the alternatives in the
order of the items, counted from zero, as the responses in the data are. -/
theorem C88_key (items : List (ℕ × List Char)) (before : List Char) (hb : ∀ c ∈ before, c.isDigit = false)
    (hk : ∀ p ∈ items, p.1 < 9) (hf : ∀ p ∈ items, ∀ c ∈ p.2, c.isDigit = false) :
    answerKey (before ++ items.flatMap fun p => keyDigit p.1 :: p.2) = items.map fun p => (p.1 : ℤ) := by
  rw [answerKey_append, answerKey_filler before hb, List.nil_append]
  induction items with
  | nil => rfl
  | cons p items ih =>
    rw [List.flatMap_cons, answerKey_append, ih (fun q hq => hk q (by simp [hq])) fun q hq => hf q (by simp [hq]),
      List.map_cons]
    obtain ⟨h1, h2, h3⟩ := keyDigit_isDigit p.1 (hk p (by simp))
    have h4 : answerKey (keyDigit p.1 :: p.2) = [(p.1 : ℤ)] := by
      rw [show keyDigit p.1 :: p.2 = [keyDigit p.1] ++ p.2 from rfl, answerKey_append,
        answerKey_filler p.2 (hf p (by simp))]
      simp [answerKey, h1, h3, h2]
      omega
    rw [h4]; rfl

example : answerKey "34\n12".toList = [2, 3, 0, 1] := by
  have := C88_key [(2, []), (3, ['\n']), (0, []), (1, [])] [] (by simp) (by simp) (by simp)
  simpa [keyDigit] using this

/-- The two parts of the test with their keys, for the same respondents. -/
structure SatFiles (q v : Table2D) (tq tv : List Char) : Prop where
  wfq : q.WF
  wfv : v.WF
  same : q.rows.length = v.rows.length
  keyq : (answerKey tq).length = q.width
  keyv : (answerKey tv).length = v.width

/-- C88: the complete data have the items of the quantitative part, in order, followed by those of the verbal part, for
every respondent, and the key is the key of the quantitative part followed by that of the verbal part; the key of each
column is the key that belongs to the item in the column. -/
theorem C88_columns (q v : Table2D) (tq tv : List Char) (h : SatFiles q v tq tv) :
    ∃ data key, swedishSat (.ok q, .ok tq) (.ok v, .ok tv) = .ok (data, key) ∧
      data.width = q.width + v.width ∧ key.length = data.width ∧ data.WF ∧ data.rows.length = q.rows.length ∧
      ∀ (p : ℕ) (r rq rv : List Num), data.rows[p]? = some r → q.rows[p]? = some rq → v.rows[p]? = some rv →
        (∀ j, j < q.width → r[j]? = rq[j]? ∧ key[j]? = (answerKey tq)[j]?) ∧
        ∀ j, j < v.width → r[q.width + j]? = rv[j]? ∧ key[q.width + j]? = (answerKey tv)[j]? := by
  refine ⟨⟨q.width + v.width, List.zipWith (· ++ ·) q.rows v.rows⟩, answerKey tq ++ answerKey tv, ?_, rfl, ?_, ?_, ?_, ?_⟩
  · simp [swedishSat, loadSatPart, catColumns, h.same, bind, Except.bind, pure, Except.pure]
  · simp [h.keyq, h.keyv]
  · intro r hr
    obtain ⟨n, hn, rfl⟩ := List.mem_iff_getElem.1 hr
    simp only [List.length_zipWith, lt_min_iff] at hn
    simp [h.wfq _ (List.getElem_mem hn.1), h.wfv _ (List.getElem_mem hn.2)]
  · simp [h.same]
  · intro p r rq rv hr hq hv
    rw [List.getElem?_zipWith, hq, hv] at hr
    simp only [Option.some.injEq] at hr
    subst hr
    have lq : rq.length = q.width := h.wfq _ (List.mem_of_getElem? hq)
    refine ⟨fun j hj => ⟨?_, ?_⟩, fun j hj => ⟨?_, ?_⟩⟩
    · rw [List.getElem?_append_left (by omega)]
    · rw [List.getElem?_append_left (by rw [h.keyq]; exact hj)]
    · rw [List.getElem?_append_right (by omega), lq, Nat.add_sub_cancel_left]
    · rw [List.getElem?_append_right (by rw [h.keyq]; omega), h.keyq, Nat.add_sub_cancel_left]

/-- C88: the binary data have the same respondents and items as the complete data; an entry is 1 exactly if the response
was recorded and equals the key of its column, and 0 otherwise, also for a missing response. -/
theorem C88_binary (q v : Table2D) (tq tv : List Char) (h : SatFiles q v tq tv) (data : Table2D) (key : List ℤ)
    (hd : swedishSat (.ok q, .ok tq) (.ok v, .ok tv) = .ok (data, key)) :
    ∃ b, swedishSatBinary (.ok q, .ok tq) (.ok v, .ok tv) = .ok b ∧ b.width = data.width ∧ b.WF ∧
      b.rows.length = data.rows.length ∧
      ∀ (p j : ℕ) (r s : List Num) (x : Num) (k : ℤ), data.rows[p]? = some r → b.rows[p]? = some s → r[j]? = some x →
        key[j]? = some k →
        (s[j]? = some (some 1) ↔ x = some (k : ℝ)) ∧ (s[j]? = some (some 0) ↔ x ≠ some (k : ℝ)) := by
  obtain ⟨data', key', h1, h2, h3, h4, h5, -⟩ := C88_columns q v tq tv h
  rw [hd] at h1
  obtain ⟨rfl, rfl⟩ := Prod.mk.inj (Except.ok.inj h1)
  have hb : swedishSatBinary (.ok q, .ok tq) (.ok v, .ok tv) = scoreTable data key := by
    simp only [swedishSat, loadSatPart, catColumns, h.same, bind, Except.bind, pure, Except.pure, ne_eq, not_true,
      if_false, Except.ok.injEq, Prod.mk.injEq] at hd
    obtain ⟨e1, e2⟩ := hd
    simp [swedishSatBinary, loadSatPart, catColumns, h.same, bind, Except.bind, ← e1, ← e2]
  refine ⟨⟨data.width, data.rows.map fun r => List.zipWith scoreCell r key⟩, ?_, rfl, ?_, by simp, ?_⟩
  · rw [hb]; unfold scoreTable; rw [if_pos h3]
  · intro r hr
    obtain ⟨r0, hr0, rfl⟩ := List.mem_map.1 hr
    simp [h4 r0 hr0, h3]
  · intro p j r s x k hr hs hx hk
    rw [List.getElem?_map, hr] at hs
    simp only [Option.map_some, Option.some.injEq] at hs
    subst hs
    rw [List.getElem?_zipWith, hx, hk]
    cases x with
    | none => simp [scoreCell]
    | some y =>
      by_cases hy : y = k
      · simp [scoreCell, hy]
      · simp [scoreCell, hy]

/-- C88: if a file cannot be read, or the two parts have different numbers of respondents, the loaders raise
`RuntimeError`, whatever the original exception, and return nothing. -/
theorem C88_failure (quant verb : Except PyErr Table2D × Except PyErr (List Char))
    (h : (∃ e, quant.1 = .error e ∨ quant.2 = .error e ∨ verb.1 = .error e ∨ verb.2 = .error e) ∨
      ∃ q v, quant.1 = .ok q ∧ verb.1 = .ok v ∧ q.rows.length ≠ v.rows.length) :
    swedishSat quant verb = .error .runtimeError ∧ swedishSatBinary quant verb = .error .runtimeError := by
  obtain ⟨q1, q2⟩ := quant
  obtain ⟨v1, v2⟩ := verb
  simp only at h
  cases q1 <;> cases q2 <;> cases v1 <;> cases v2 <;>
    simp_all [swedishSat, swedishSatBinary, loadSatPart, bind, Except.bind, catColumns]

/-- C88 as documented: "The correct item responses start from one, and thus a 1 corresponds to a response of 0 in the
data", that is, the response that the loader itself scores as correct is the returned key minus one. -/
def KeyStartsFromOne : Prop :=
  ∀ (q v : Table2D) (tq tv : List Char), SatFiles q v tq tv → ∀ data key b,
    swedishSat (.ok q, .ok tq) (.ok v, .ok tv) = .ok (data, key) →
    swedishSatBinary (.ok q, .ok tq) (.ok v, .ok tv) = .ok b →
    ∀ (p j : ℕ) (r s : List Num) (x : ℝ) (k : ℤ), data.rows[p]? = some r → b.rows[p]? = some s → r[j]? = some (some x) →
      key[j]? = some k → s[j]? = some (some 1) → x = k - 1

theorem exSat_files : SatFiles ⟨2, [[some 0, none], [some 3, some 1]]⟩ ⟨1, [[some 2], [some 0]]⟩ ['1', '2'] ['3'] where
  wfq := by simp [Table2D.WF]
  wfv := by simp [Table2D.WF]
  same := rfl
  keyq := rfl
  keyv := rfl

theorem exSat_data : swedishSat (.ok ⟨2, [[some 0, none], [some 3, some 1]]⟩, .ok ['1', '2'])
    (.ok ⟨1, [[some 2], [some 0]]⟩, .ok ['3']) =
      .ok (⟨3, [[some 0, none, some 2], [some 3, some 1, some 0]]⟩, [0, 1, 2]) := by
  simp [swedishSat, loadSatPart, catColumns, bind, Except.bind, pure, Except.pure, answerKey, Char.isDigit, List.filter]

/-- This is false: the returned key is the correct response itself. -/
theorem C88_key_from_one_false : ¬ KeyStartsFromOne := by
  intro h
  obtain ⟨b, h1, -, -, h4, h5⟩ := C88_binary _ _ _ _ exSat_files _ _ exSat_data
  have hb : 0 < b.rows.length := by rw [h4]; decide
  have h6 := (h5 0 0 _ _ (some 0) 0 rfl (List.getElem?_eq_getElem hb) rfl rfl).1.2 (by norm_num)
  have := h _ _ _ _ exSat_files _ _ b exSat_data h1 0 0 _ _ 0 0 rfl (List.getElem?_eq_getElem hb) rfl rfl h6
  norm_num at this

/-! ## C91 -/

/-- The first call of a history that has data to store and finishes writing them stores them. -/
theorem history_complete {α : Type} (v : α) : ∀ es : List (LoadEnv α),
    (bigFiveHistory es (.complete v)).2 = .complete v ∧
    (bigFiveHistory es (.complete v)).1 = es.map fun e => if e.itemsOk then .ok v else .error .items
  | [] => ⟨rfl, rfl⟩
  | e :: es => by
    obtain ⟨h1, h2⟩ := history_complete v es
    simp [bigFiveHistory, bigFiveCall, h1, h2, readItems]

/-- C91: once a call has returned data, every later call, whatever its environment (no network, other data on the
server, a full disk), returns the same data, as long as the list of items can be read. -/
theorem C91_cached {α : Type} (es : List (LoadEnv α)) : ∀ (cache : CacheFile α) (i j : ℕ) (v : α) (o : Except LoadErr α),
    (bigFiveHistory es cache).1[i]? = some (.ok v) → i ≤ j → (bigFiveHistory es cache).1[j]? = some o →
    o = .ok v ∨ (o = .error .items ∧ ∃ e, es[j]? = some e ∧ e.itemsOk = false) := by
  induction es with
  | nil => intro cache i j v o h; simp [bigFiveHistory] at h
  | cons e es ih =>
    intro cache i j v o hi hij hj
    cases i with
    | succ i =>
      obtain ⟨j, rfl⟩ : ∃ j', j = j' + 1 := ⟨j - 1, by omega⟩
      simp only [bigFiveHistory, List.getElem?_cons_succ] at hi hj ⊢
      exact ih _ i j v o hi (by omega) hj
    | zero =>
      simp only [bigFiveHistory, List.getElem?_cons_zero, Option.some.injEq] at hi
      have hc : (bigFiveCall e cache).2 = .complete v := by
        cases cache with
        | complete w =>
          simp only [bigFiveCall, readItems] at hi ⊢
          split_ifs at hi
          rw [Except.ok.inj hi]
        | truncated => simp [bigFiveCall] at hi
        | absent =>
          unfold bigFiveCall at hi ⊢
          cases hd : e.download with
          | none => simp [hd] at hi
          | some w =>
            simp only [hd] at hi ⊢
            split_ifs at hi ⊢ with h1
            · simp only [readItems] at hi ⊢
              split_ifs at hi
              rw [Except.ok.inj hi]
      cases j with
      | zero =>
        simp only [bigFiveHistory, List.getElem?_cons_zero, Option.some.injEq] at hj
        left; rw [← hj, hi]
      | succ j =>
        simp only [bigFiveHistory, List.getElem?_cons_succ, hc, (history_complete v es).2, List.getElem?_map] at hj ⊢
        cases he : es[j]? with
        | none => simp [he] at hj
        | some e' =>
          simp only [he, Option.map_some, Option.some.injEq] at hj
          by_cases hit : e'.itemsOk = true
          · left; simp [← hj, hit]
          · right; exact ⟨by simp [← hj, hit], e', rfl, by simpa using hit⟩

/-- C91: calls whose download failed leave no trace: after any number of them the next call behaves as a first call. -/
theorem C91_retry {α : Type} (es : List (LoadEnv α)) (h : ∀ e ∈ es, e.download = none) :
    (bigFiveHistory es .absent).2 = .absent ∧ ∀ o ∈ (bigFiveHistory es .absent).1, o = .error .download := by
  induction es with
  | nil => exact ⟨rfl, by simp [bigFiveHistory]⟩
  | cons e es ih =>
    obtain ⟨h1, h2⟩ := ih fun e' he => h e' (by simp [he])
    have hc : bigFiveCall e (.absent : CacheFile α) = (.error .download, .absent) := by
      simp [bigFiveCall, h e (by simp)]
    simp only [bigFiveHistory, hc]
    exact ⟨h1, by simpa using h2⟩

/-- C91: a call that returns returns what it has just downloaded and processed, or what an earlier call stored. -/
theorem C91_source {α : Type} (es : List (LoadEnv α)) : ∀ (i : ℕ) (v : α),
    (bigFiveHistory es .absent).1[i]? = some (.ok v) → ∃ j e, j ≤ i ∧ es[j]? = some e ∧ e.download = some v := by
  induction es with
  | nil => intro i v h; simp [bigFiveHistory] at h
  | cons e es ih =>
    intro i v hi
    cases hd : e.download with
    | none =>
      have hc : bigFiveCall e (.absent : CacheFile α) = (.error .download, .absent) := by simp [bigFiveCall, hd]
      simp only [bigFiveHistory, hc] at hi
      cases i with
      | zero => simp at hi
      | succ i =>
        obtain ⟨j, e', h1, h2, h3⟩ := ih i v (by simpa using hi)
        exact ⟨j + 1, e', by omega, by simpa using h2, h3⟩
    | some w =>
      by_cases hw : e.dumpOk = true
      · have hc : bigFiveCall e (.absent : CacheFile α) = (readItems e.itemsOk w, .complete w) := by
          simp [bigFiveCall, hd, hw]
        simp only [bigFiveHistory, hc, (history_complete w es).2] at hi
        refine ⟨0, e, by omega, rfl, ?_⟩
        rw [hd]
        cases i with
        | zero =>
          simp only [List.getElem?_cons_zero, Option.some.injEq, readItems] at hi
          split_ifs at hi
          rw [Except.ok.inj hi]
        | succ i =>
          simp only [List.getElem?_cons_succ, List.getElem?_map] at hi
          cases he : es[i]? with
          | none => simp [he] at hi
          | some e' =>
            simp only [he, Option.map_some, Option.some.injEq] at hi
            split_ifs at hi
            rw [Except.ok.inj hi]
      · exfalso
        have hc : bigFiveCall e (.absent : CacheFile α) = (.error .pickle, .truncated) := by
          simp [bigFiveCall, hd, hw]
        have ht : ∀ es' : List (LoadEnv α), ∀ o ∈ (bigFiveHistory es' (.truncated : CacheFile α)).1,
            o = .error .pickle := by
          intro es'
          induction es' with
          | nil => simp [bigFiveHistory]
          | cons a as ih' => simpa [bigFiveHistory, bigFiveCall] using ih'
        simp only [bigFiveHistory, hc] at hi
        cases i with
        | zero => simp at hi
        | succ i =>
          have := ht es (.ok v) (List.mem_of_getElem? (by simpa using hi))
          simp at this

/-- C91 as a user would want it: after any history, a call with a working network, disk and installation returns data. -/
def LoaderRecovers : Prop :=
  ∀ (es : List (LoadEnv ℕ)) (e : LoadEnv ℕ) (v : ℕ), e.download = some v → e.dumpOk = true → e.itemsOk = true →
    ∃ w, (bigFiveHistory (es ++ [e]) .absent).1[es.length]? = some (.ok w)

/-- This is false: a call that was interrupted while it wrote the cache leaves an incomplete file, and every later call
tries to read it and fails. -/
theorem C91_interrupted_false : ¬ LoaderRecovers := by
  intro h
  obtain ⟨w, hw⟩ := h [⟨some 1, false, true⟩] ⟨some 1, true, true⟩ 1 rfl rfl rfl
  simp [bigFiveHistory, bigFiveCall] at hw

/-- C91 where it holds: if no earlier call was interrupted while writing the cache, a call with a working network, disk
and installation returns data. -/
theorem C91_recovers_partial {α : Type} (es : List (LoadEnv α)) (hes : ∀ e ∈ es, e.dumpOk = true) (e : LoadEnv α) (v : α)
    (h1 : e.download = some v) (h2 : e.dumpOk = true) (h3 : e.itemsOk = true) :
    ∃ w, (bigFiveHistory (es ++ [e]) .absent).1[es.length]? = some (.ok w) := by
  induction es with
  | nil => exact ⟨v, by simp [bigFiveHistory, bigFiveCall, h1, h2, h3, readItems]⟩
  | cons a as ih =>
    cases hd : a.download with
    | none =>
      obtain ⟨w, hw⟩ := ih fun e' he => hes e' (by simp [he])
      refine ⟨w, ?_⟩
      have hc : bigFiveCall a (.absent : CacheFile α) = (.error .download, .absent) := by simp [bigFiveCall, hd]
      simpa [bigFiveHistory, hc] using hw
    | some u =>
      refine ⟨u, ?_⟩
      have hc : bigFiveCall a (.absent : CacheFile α) = (readItems a.itemsOk u, .complete u) := by
        simp [bigFiveCall, hd, hes a (by simp)]
      simp [bigFiveHistory, hc, (history_complete u (as ++ [e])).2, h3]

example : (bigFiveHistory [⟨none, true, true⟩, ⟨some 5, true, false⟩, ⟨some 7, true, true⟩, ⟨none, true, true⟩]
    (.absent : CacheFile ℕ)).1 = [.error .download, .error .items, .ok 5, .ok 5] := by
  simp [bigFiveHistory, bigFiveCall, readItems]

end Irt
