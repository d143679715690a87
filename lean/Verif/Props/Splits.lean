import Verif.Lemmas.Splits
import Mathlib.Tactic.NormNum
import Mathlib.Tactic.IntervalCases

/-!
# C39, C40, C41, C69: splitting and cross-validation
-/

namespace Irt

/-! ## C39 -/

/-- C39: for a ratio in `[0, 1]`, train and test together contain every row exactly once, and the training
set has `⌊n * ratio⌋` rows, whatever permutation was drawn. -/
theorem C39_split_partitions {α : Type} (data : List α) (ratio : ℝ) (shuffle : Bool) (perm : List ℕ)
    (hp : perm.Perm (List.range data.length)) (h0 : 0 ≤ ratio) (h1 : ratio ≤ 1) :
    ((splitData data ratio shuffle perm).1 ++ (splitData data ratio shuffle perm).2).Perm data ∧
    (splitData data ratio shuffle perm).1.length = ⌊(data.length : ℝ) * ratio⌋₊ ∧
    (splitData data ratio shuffle perm).2.length = data.length - ⌊(data.length : ℝ) * ratio⌋₊ := by
  set sh := if shuffle then takeRows data perm else data with hsh
  have hperm : sh.Perm data := by
    rw [hsh]; cases shuffle
    · exact List.Perm.refl _
    · exact takeRows_perm data perm hp
  have hlen := hperm.length_eq
  have hnn : (0 : ℝ) ≤ (data.length : ℝ) * ratio := by positivity
  have hsize : truncInt ((data.length : ℝ) * ratio) = (⌊(data.length : ℝ) * ratio⌋₊ : ℤ) := by
    rw [truncInt, if_pos hnn, Int.natCast_floor_eq_floor hnn]
  have hle : ⌊(data.length : ℝ) * ratio⌋₊ ≤ data.length := by
    apply Nat.floor_le_of_le
    calc (data.length : ℝ) * ratio ≤ data.length * 1 := by gcongr
      _ = data.length := mul_one _
  have e1 : (splitData data ratio shuffle perm).1 = sh.take ⌊(data.length : ℝ) * ratio⌋₊ := by
    simp only [splitData, hsize, pySliceTo, ← hsh]
    rw [if_neg (by omega), Int.toNat_natCast]
  have e2 : (splitData data ratio shuffle perm).2 = sh.drop ⌊(data.length : ℝ) * ratio⌋₊ := by
    simp only [splitData, hsize, pySliceFrom, ← hsh]
    rw [if_neg (by omega), Int.toNat_natCast]
  refine ⟨?_, ?_, ?_⟩
  · rw [e1, e2, List.take_append_drop]; exact hperm
  · rw [e1, List.length_take]; omega
  · rw [e2, List.length_drop]; omega

/-- C39: without shuffling the order of the rows is kept. -/
theorem C39_no_shuffle {α : Type} (data : List α) (ratio : ℝ) (perm : List ℕ) :
    (splitData data ratio false perm).1 ++ (splitData data ratio false perm).2 = data := by
  simp only [splitData, pySliceTo, pySliceFrom]
  split <;> simp

/-- C39: train and test are a partition for any ratio at all, also negative or above one. -/
theorem C39_any_ratio {α : Type} (data : List α) (ratio : ℝ) (shuffle : Bool) (perm : List ℕ)
    (hp : perm.Perm (List.range data.length)) :
    ((splitData data ratio shuffle perm).1 ++ (splitData data ratio shuffle perm).2).Perm data := by
  cases shuffle
  · rw [C39_no_shuffle]
  · have := takeRows_perm data perm hp
    simp only [splitData, pySliceTo, pySliceFrom, if_true]
    split <;> simpa using this

example : (splitData [10, 11, 12, 13, 14] (4 / 5) true [3, 1, 0, 4, 2]).1.length = 4 := by
  rw [(C39_split_partitions [10, 11, 12, 13, 14] (4 / 5) true [3, 1, 0, 4, 2] (by decide) (by norm_num)
    (by norm_num)).2.1]
  norm_num

/-! ## C40 -/

/-- The fold size `torch.chunk` uses: `ceil (n / folds)`. -/
def foldSize (n folds : ℕ) : ℕ := (n + folds - 1) / folds

theorem cvFolds_eq {α : Type} (data : List α) (folds : ℕ) (perm : List ℕ)
    (hp : perm.Perm (List.range data.length)) (hf : 0 < folds) (hd : data ≠ []) :
    cvFolds data (folds : ℤ) perm = .ok (blocks (foldSize data.length folds - 1) (takeRows data perm)) := by
  have hperm := takeRows_perm data perm hp
  have hne : takeRows data perm ≠ [] := fun h => by
    rw [h] at hperm; exact hd (hperm.nil_eq).symm
  unfold cvFolds torchChunk
  rw [if_neg (by omega), if_neg hne, hperm.length_eq, Int.toNat_natCast]
  rfl

theorem foldSize_pos (n folds : ℕ) (hn : 0 < n) (hf : 0 < folds) : 0 < foldSize n folds :=
  Nat.div_pos (by omega) hf

/-- C40: for any data with a row, any positive number of folds and any permutation: the folds are nonempty and
together contain every row exactly once, none holds more than `⌈n/folds⌉` rows, and for every fold the
training set used with it together with the fold is again the whole data. -/
theorem C40_folds_partition {α : Type} (data : List α) (folds : ℕ) (perm : List ℕ)
    (hp : perm.Perm (List.range data.length)) (hf : 0 < folds) (hd : data ≠ []) :
    ∃ fs, cvFolds data (folds : ℤ) perm = .ok fs ∧ fs.flatten.Perm data ∧
      (∀ f ∈ fs, f ≠ [] ∧ f.length ≤ foldSize data.length folds) ∧
      (2 ≤ fs.length → ∀ (i : ℕ) f, fs[i]? = some f →
        ∃ t, cvTrain fs i = .ok t ∧ (t ++ f).Perm data) := by
  have hperm := takeRows_perm data perm hp
  have hn : 0 < data.length := List.length_pos_of_ne_nil hd
  have hs := foldSize_pos data.length folds hn hf
  refine ⟨_, cvFolds_eq data folds perm hp hf hd, ?_, ?_, ?_⟩
  · rw [blocks_flatten]; exact hperm
  · intro f hfm
    refine ⟨blocks_ne_nil _ _ f hfm, ?_⟩
    have := blocks_length_le _ _ f hfm
    omega
  · intro h2 i f hi
    have hlt := (List.getElem?_eq_some_iff.1 hi).1
    refine ⟨((blocks (foldSize data.length folds - 1) (takeRows data perm)).eraseIdx i).flatten, ?_, ?_⟩
    · unfold cvTrain
      simp only
      rw [if_neg]
      intro h0
      have := congrArg List.length h0
      rw [List.length_eraseIdx_of_lt hlt] at this
      simp only [List.length_nil] at this
      omega
    · refine (eraseIdx_flatten_perm _ _ _ hi).trans ?_
      rw [blocks_flatten]; exact hperm

/-- C40: the number of folds, exactly. -/
theorem C40_fold_count {α : Type} (data : List α) (folds : ℕ) (perm : List ℕ)
    (hp : perm.Perm (List.range data.length)) (hf : 0 < folds) (hd : data ≠ []) (fs : List (List α))
    (h : cvFolds data (folds : ℤ) perm = .ok fs) :
    fs.length ≤ folds ∧ (fs.length = folds ↔ (folds - 1) * foldSize data.length folds < data.length) := by
  rw [cvFolds_eq data folds perm hp hf hd] at h
  injection h with h
  have hperm := takeRows_perm data perm hp
  have hn : 0 < data.length := List.length_pos_of_ne_nil hd
  have hs := foldSize_pos data.length folds hn hf
  have hlen : fs.length = (data.length + (foldSize data.length folds - 1)) / foldSize data.length folds := by
    rw [← h, blocks_length, hperm.length_eq, Nat.sub_add_cancel hs]
  set n := data.length
  set s := foldSize n folds with hsdef
  have hcover : n ≤ folds * s := by
    have := Nat.lt_mul_div_succ (n + folds - 1) hf
    have e : (n + folds - 1) / folds = s := rfl
    rw [e] at this
    have h3 : folds * (s + 1) = folds * s + folds := by ring
    omega
  have hub : (n + (s - 1)) / s ≤ folds := by
    have : (n + (s - 1)) / s < folds + 1 := by
      rw [Nat.div_lt_iff_lt_mul hs]
      have h3 : (folds + 1) * s = folds * s + s := by ring
      omega
    omega
  rw [hlen]
  refine ⟨hub, ?_⟩
  constructor
  · intro he
    have h4 : folds ≤ (n + (s - 1)) / s := he.ge
    rw [Nat.le_div_iff_mul_le hs] at h4
    have h5 : folds * s = (folds - 1) * s + s := by
      obtain ⟨k, rfl⟩ : ∃ k, folds = k + 1 := ⟨folds - 1, by omega⟩
      simp only [Nat.add_sub_cancel]; ring
    omega
  · intro hlt
    refine le_antisymm hub ?_
    rw [Nat.le_div_iff_mul_le hs]
    have h5 : folds * s = (folds - 1) * s + s := by
      obtain ⟨k, rfl⟩ : ∃ k, folds = k + 1 := ⟨folds - 1, by omega⟩
      simp only [Nat.add_sub_cancel]; ring
    omega

/-- The full property about the count. -/
def RequestedNumberOfFolds : Prop :=
  ∀ (data : List ℕ) (folds : ℕ) (perm : List ℕ), perm.Perm (List.range data.length) → 2 ≤ folds →
    folds ≤ data.length → ∀ fs, cvFolds data (folds : ℤ) perm = .ok fs → fs.length = folds

/-- C40 is false of the code: ten folds of eleven rows come out as six. -/
theorem C40_fold_count_false : ¬ RequestedNumberOfFolds := by
  intro h
  have hp : (List.range 11).Perm (List.range (List.range 11).length) := by decide
  have e := cvFolds_eq (List.range 11) 10 (List.range 11) hp (by norm_num) (by decide)
  have h1 := h (List.range 11) 10 (List.range 11) hp (by norm_num) (by decide) _ e
  have h2 := (C40_fold_count (List.range 11) 10 (List.range 11) hp (by norm_num) (by decide) _ e).2.1 h1
  revert h2
  decide

/-- C40, the part that holds: with more than `(folds-1)²` rows, or a number of rows divisible by the number of
folds, there are as many folds as requested. -/
theorem C40_fold_count_partial {α : Type} (data : List α) (folds : ℕ) (perm : List ℕ)
    (hp : perm.Perm (List.range data.length)) (hf : 0 < folds) (hd : data ≠ [])
    (hbig : (folds - 1) * (folds - 1) < data.length ∨ folds ∣ data.length) (fs : List (List α))
    (h : cvFolds data (folds : ℤ) perm = .ok fs) : fs.length = folds := by
  rw [(C40_fold_count data folds perm hp hf hd fs h).2]
  have hn : 0 < data.length := List.length_pos_of_ne_nil hd
  obtain ⟨k, rfl⟩ : ∃ k, folds = k + 1 := ⟨folds - 1, by omega⟩
  simp only [Nat.add_sub_cancel] at hbig ⊢
  have hdm := Nat.div_mul_le_self (data.length + (k + 1) - 1) (k + 1)
  have hs : (data.length + (k + 1) - 1) / (k + 1) = foldSize data.length (k + 1) := rfl
  rw [hs] at hdm
  set s := foldSize data.length (k + 1)
  have e : s * (k + 1) = k * s + s := by ring
  rcases hbig with hbig | ⟨q, hq⟩
  · by_contra hcon
    push Not at hcon
    -- s ≤ k, hence n ≤ k * s ≤ k * k
    have hsk : s ≤ k := by omega
    have : k * s ≤ k * k := Nat.mul_le_mul_left k hsk
    omega
  · have hsq : s = q := by
      change (data.length + (k + 1) - 1) / (k + 1) = q
      rw [hq, show (k + 1) * q + (k + 1) - 1 = k + (k + 1) * q by omega, Nat.add_mul_div_left _ _ (Nat.succ_pos k),
        Nat.div_eq_of_lt (by omega), zero_add]
    rw [hsq, hq]
    have hq0 : 0 < q := by
      rcases Nat.eq_zero_or_pos q with h0 | h0
      · rw [h0] at hq; omega
      · exact h0
    have : (k + 1) * q = k * q + q := by ring
    omega

/-- C40: nonpositive fold counts are refused, and a single fold leaves nothing to train on. -/
theorem C40_degenerate_refused {α : Type} (data : List α) (perm : List ℕ) :
    (∀ folds : ℤ, folds ≤ 0 → ∃ e, cvFolds data folds perm = .error e) ∧
    (∀ f : List α, ∃ e, cvTrain [f] 0 = .error e) := by
  constructor
  · intro folds h
    exact ⟨.runtimeError, by rw [cvFolds, torchChunk, if_pos h]⟩
  · intro f
    exact ⟨.runtimeError, rfl⟩

example : ∃ fs, cvFolds [7, 8, 9, 10, 11] 2 [4, 0, 3, 1, 2] = .ok fs ∧ fs.length = 2 := by
  obtain ⟨fs, h, _⟩ := C40_folds_partition [7, 8, 9, 10, 11] 2 [4, 0, 3, 1, 2] (by decide) (by norm_num)
    (by decide)
  exact ⟨fs, h, C40_fold_count_partial _ 2 _ (by decide) (by norm_num) (by decide) (by decide) fs h⟩

/-! ## C41 -/

/-- Specification: the dictionary `r` reported for fold `i` comes from a model fitted, from the initial
state `m`, on the other folds only, and evaluated on fold `i`. -/
def HonestFold {Model Row : Type} (P : CvProcedure Model Row) (m : Model) (params : PyDict)
    (folds : List (List Row)) (i : ℕ) (r : PyDict) : Prop :=
  ∃ m' ll, P.fit (params.filter fun p => p.1 ≠ "algorithm") (params.lookup "algorithm") m
      (folds.eraseIdx i).flatten = .ok m' ∧
    P.eval m' (folds.getD i []) = .ok ll ∧
    r = foldResult (params.filter fun p => p.1 ≠ "algorithm") (params.lookup "algorithm") ll

/-- The full property. -/
def NoLeakage : Prop :=
  ∀ (P : CvProcedure ℝ ℝ) (m : ℝ) (params : PyDict) (folds : List (List ℝ)) (results : List PyDict),
    cvLoop P params folds (List.range folds.length) m = .ok results →
    ∀ (i : ℕ) r, results[i]? = some r → HonestFold P m params folds i r

/-- The state in which the loop arrives at an entry, and what it does there. -/
theorem cvLoop_spec {Model Row : Type} (P : CvProcedure Model Row) (params : PyDict)
    (folds : List (List Row)) (idx : List ℕ) (m : Model) (results : List PyDict)
    (h : cvLoop P params folds idx m = .ok results) :
    results.length = idx.length ∧ ∀ (j i : ℕ), idx[j]? = some i → ∃ r m0, results[j]? = some r ∧
      HonestFold P m0 params folds i r ∧ (j = 0 → m0 = m) := by
  induction idx generalizing m results with
  | nil =>
    simp only [cvLoop, Except.ok.injEq] at h
    subst h
    simp
  | cons a idx ih =>
    rw [cvLoop] at h
    rcases ht : cvTrain folds a with e | train
    · rw [ht] at h; simp [bind, Except.bind] at h
    rw [ht] at h
    simp only [bind_ok] at h
    rcases hf : P.fit (params.filter fun p => p.1 ≠ "algorithm") (params.lookup "algorithm") m train with e | m'
    · rw [hf] at h; simp [bind, Except.bind] at h
    rw [hf] at h
    simp only [bind_ok] at h
    rcases he : P.eval m' (folds.getD a []) with e | ll
    · rw [he] at h; simp [bind, Except.bind] at h
    rw [he] at h
    simp only [bind_ok] at h
    rcases hl : cvLoop P params folds idx m' with e | rest
    · rw [hl] at h; simp [bind, Except.bind] at h
    rw [hl] at h
    simp only [bind_ok, pure, Except.pure, Except.ok.injEq] at h
    obtain ⟨hlen, hrest⟩ := ih m' rest hl
    subst h
    refine ⟨by simp [hlen], ?_⟩
    intro j i hj
    cases j with
    | zero =>
      simp only [List.getElem?_cons_zero, Option.some.injEq] at hj
      subst hj
      refine ⟨_, m, rfl, ⟨m', ll, ?_, he, rfl⟩, fun _ => rfl⟩
      have : train = (folds.eraseIdx a).flatten := by
        unfold cvTrain at ht
        simp only at ht
        split at ht
        · simp at ht
        · injection ht with ht; exact ht.symm
      rw [← this]; exact hf
    | succ j =>
      simp only [List.getElem?_cons_succ] at hj ⊢
      obtain ⟨r, m0, h1, h2, _⟩ := hrest j i hj
      exact ⟨r, m0, h1, h2, by simp⟩

/-- C41, the part that holds: the first fold is honest, and all folds are when fitting does not depend on
the state it starts from. Missing: the other folds for the warm-starting `fit` of the package. -/
theorem C41_partial {Model Row : Type} (P : CvProcedure Model Row) (m : Model) (params : PyDict)
    (folds : List (List Row)) (results : List PyDict)
    (h : cvLoop P params folds (List.range folds.length) m = .ok results) :
    (∀ r, results[0]? = some r → HonestFold P m params folds 0 r) ∧
    ((∀ fp alg m₁ m₂ d, P.fit fp alg m₁ d = P.fit fp alg m₂ d) →
      ∀ (i : ℕ) r, results[i]? = some r → HonestFold P m params folds i r) := by
  obtain ⟨hlen, hs⟩ := cvLoop_spec P params folds _ m results h
  have hidx : ∀ (i : ℕ) r, results[i]? = some r → (List.range folds.length)[i]? = some i := by
    intro i r hr
    have := (List.getElem?_eq_some_iff.1 hr).1
    rw [hlen] at this
    exact List.getElem?_range (by simpa using this)
  constructor
  · intro r hr
    obtain ⟨r', m0, h1, h2, h3⟩ := hs 0 0 (hidx 0 r hr)
    rw [hr] at h1
    injection h1 with h1
    subst h1
    rw [h3 rfl] at h2
    exact h2
  · intro hind i r hr
    obtain ⟨r', m0, h1, ⟨m', ll, h4, h5, h6⟩, _⟩ := hs i i (hidx i r hr)
    rw [hr] at h1
    injection h1 with h1
    subst h1
    exact ⟨m', ll, (hind _ _ _ m0 _).trans h4, h5, h6⟩

/-- One step of half length towards the sum of the training rows: a fit that, like the package's, starts
from the parameters the model already has. -/
noncomputable def warmStart : CvProcedure ℝ ℝ where
  fit _ _ m d := .ok ((m + d.sum) / 2)
  eval m d := .ok (-(m - d.sum) ^ 2)

/-- C41 is false of the code: the model object is reused across folds, so for the second fold it has already
been fitted to that fold's own rows. -/
theorem C41_false : ¬ NoLeakage := by
  intro h
  have hrun : cvLoop warmStart [] [[1], [2]] (List.range 2) 0 =
      .ok [foldResult [] none (-(((0 + ([2] : List ℝ).sum) / 2) - ([1] : List ℝ).sum) ^ 2),
        foldResult [] none (-((((0 + ([2] : List ℝ).sum) / 2) + ([1] : List ℝ).sum) / 2 -
          ([2] : List ℝ).sum) ^ 2)] := by
    simp [cvLoop, List.range_succ, cvTrain, warmStart, bind_ok, pure, Except.pure]
  obtain ⟨m', ll, h1, h2, h3⟩ := h warmStart 0 [] [[1], [2]] _ hrun 1 _ rfl
  simp only [warmStart, List.filter_nil, List.lookup_nil, Except.ok.injEq] at h1 h2
  simp only [foldResult, PyDict.set, List.filter_nil, List.lookup_nil, List.map_nil, List.not_mem_nil,
    if_false, List.nil_append, List.cons.injEq, and_true, Prod.mk.injEq, true_and, PyVal.num.injEq] at h3
  norm_num at h1 h2 h3
  subst h1
  norm_num at h2
  linarith

/-! ## C69 -/

/-- C69, the grid: the dictionaries evaluated correspond one to one, in order, to the combinations of one
value per grid parameter; each combination occurs (once, for duplicate-free value lists); a keyword
argument overrides, and every other parameter has the value of the combination. -/
theorem C69_grid {grid : List (String × List PyVal)} {kwargs : PyDict} (hk : (kwargs.map Prod.fst).Nodup) :
    ∃ combos : List (List PyVal),
      (∀ vs, vs ∈ combos ↔ List.Forall₂ (fun v l => v ∈ l) vs (grid.map Prod.snd)) ∧
      ((∀ g ∈ grid, g.2.Nodup) → combos.Nodup) ∧
      combos.length = (grid.map fun g => g.2.length).prod ∧
      (createParamGrid grid kwargs).length = combos.length ∧
      ∀ (i : ℕ) vs, combos[i]? = some vs → ∃ d, (createParamGrid grid kwargs)[i]? = some d ∧
        ∀ k, List.lookup k d = (List.lookup k kwargs).or (List.lookup k ((grid.map Prod.fst).zip vs)) := by
  refine ⟨pyProduct (grid.map Prod.snd), fun vs => mem_pyProduct _ vs, ?_, ?_, by simp [createParamGrid], ?_⟩
  · intro h
    refine nodup_pyProduct _ ?_
    intro l hl
    obtain ⟨g, hg, rfl⟩ := List.mem_map.1 hl
    exact h g hg
  · rw [length_pyProduct, List.map_map]; rfl
  · intro i vs hi
    refine ⟨_, by rw [createParamGrid, List.getElem?_map, hi]; rfl, fun k => ?_⟩
    exact lookup_update _ _ hk k

/-- C69, the table: one row per dictionary of the grid, in order, each from its own copy of the model, with
the keyword arguments' columns removed. -/
theorem C69_rows {Model Row : Type} (P : CvProcedure Model Row) (m : Model) (data : List Row) (folds : ℤ)
    (grid : List (String × List PyVal)) (kwargs : PyDict) (perm : List ℕ) (rows : List PyDict)
    (h : crossValidation P m data folds grid kwargs perm = .ok rows) :
    ∃ fs, cvFolds data folds perm = .ok fs ∧ rows.length = (createParamGrid grid kwargs).length ∧
      ∀ (i : ℕ) d, (createParamGrid grid kwargs)[i]? = some d →
        ∃ full, cvCombination P m fs d = .ok full ∧
          rows[i]? = some (full.filter fun q => !(kwargs.map Prod.fst).contains q.1) := by
  unfold crossValidation at h
  rcases hfs : cvFolds data folds perm with e | fs
  · rw [hfs] at h; simp [bind, Except.bind] at h
  rw [hfs] at h
  simp only [bind_ok] at h
  rcases hr : (createParamGrid grid kwargs).mapM (cvCombination P m fs) with e | results
  · rw [hr] at h; simp [bind, Except.bind] at h
  rw [hr] at h
  simp only [bind_ok] at h
  split at h
  · simp only [pure, Except.pure, Except.ok.injEq] at h
    obtain ⟨hl, hg⟩ := (mapM_ok_iff _ _ _).1 hr
    refine ⟨fs, rfl, by rw [← h, List.length_map, hl], ?_⟩
    intro i d hd
    obtain ⟨y, hy1, hy2⟩ := hg i d hd
    exact ⟨y, hy2, by rw [← h, List.getElem?_map, hy1]; rfl⟩
  · simp at h

theorem foldResult_lookup (fp : PyDict) (alg : Option PyVal) (ll : ℝ) (k : String) (hk : k ≠ "algorithm") :
    List.lookup k (foldResult fp alg ll) =
      if k = "log_likelihood" then some (.num ll) else List.lookup k fp := by
  unfold foldResult
  rcases alg with _ | (_ | x | s)
  · exact lookup_set _ _ _ _
  · exact lookup_set _ _ _ _
  · simp only [lookup_set, hk, if_false]
  · simp only [lookup_set, hk, if_false]

theorem getItem_mapM (rs : List PyDict) (k : String) (v : ℕ → PyVal)
    (h : ∀ (i : ℕ) r, rs[i]? = some r → List.lookup k r = some (v i)) :
    rs.mapM (fun d => PyDict.getItem d k) = .ok ((List.range rs.length).map v) := by
  rw [mapM_ok_iff]
  refine ⟨by simp, ?_⟩
  intro i r hr
  have hi := (List.getElem?_eq_some_iff.1 hr).1
  refine ⟨v i, by simp [List.getElem?_range hi], ?_⟩
  simp only [PyDict.getItem, h i r hr]

theorem cvLoop_results {Model Row : Type} (P : CvProcedure Model Row) (params : PyDict)
    (folds : List (List Row)) (m : Model) (results : List PyDict)
    (h : cvLoop P params folds (List.range folds.length) m = .ok results) :
    ∃ lls : List ℝ, lls.length = folds.length ∧ results = lls.map
      (foldResult (params.filter fun p => p.1 ≠ "algorithm") (params.lookup "algorithm")) := by
  obtain ⟨hlen, hs⟩ := cvLoop_spec P params folds _ m results h
  rw [List.length_range] at hlen
  have : ∀ i, i < folds.length → ∃ ll, results[i]? = some
      (foldResult (params.filter fun p => p.1 ≠ "algorithm") (params.lookup "algorithm") ll) := by
    intro i hi
    obtain ⟨r, m0, h1, ⟨m', ll, _, _, h6⟩, _⟩ := hs i i (List.getElem?_range hi)
    exact ⟨ll, by rw [h1, h6]⟩
  choose! g hg using this
  refine ⟨(List.range folds.length).map g, by simp, ?_⟩
  apply List.ext_getElem?
  intro i
  rcases lt_or_ge i folds.length with hi | hi
  · rw [hg i hi]
    simp [List.getElem?_range hi]
  · rw [List.getElem?_eq_none (by omega), List.getElem?_eq_none (by simp; omega)]

/-- C69, the averages: when every fit succeeds and the parameters other than the algorithm are numbers, the
row reports as log likelihood the average of the folds' log likelihoods, and every parameter unchanged. -/
theorem C69_average {Model Row : Type} (P : CvProcedure Model Row) (m : Model) (folds : List (List Row))
    (params : PyDict) (results : List PyDict) (hne : folds ≠ [])
    (hnum : ∀ p ∈ params, p.1 ≠ "algorithm" → ∃ x, p.2 = .num x)
    (h : cvLoop P params folds (List.range folds.length) m = .ok results) :
    ∃ (row : PyDict) (lls : List ℝ), cvCombination P m folds params = .ok row ∧
      lls.length = folds.length ∧
      (∀ (i : ℕ) r, results[i]? = some r → ∃ ll, lls[i]? = some ll ∧
        List.lookup "log_likelihood" r = some (.num ll)) ∧
      List.lookup "log_likelihood" row = some (.num (lls.sum / lls.length)) ∧
      ∀ k, k ≠ "log_likelihood" → k ≠ "algorithm" → List.lookup k row = List.lookup k params := by
  obtain ⟨lls, hl, hres⟩ := cvLoop_results P params folds m results h
  set fp := params.filter fun p => p.1 ≠ "algorithm" with hfp
  set alg := params.lookup "algorithm"
  have hfl : 0 < folds.length := List.length_pos_of_ne_nil hne
  have hlen : results.length = folds.length := by rw [hres, List.length_map, hl]
  have hget : ∀ (i : ℕ) r, results[i]? = some r → ∃ ll, lls[i]? = some ll ∧ r = foldResult fp alg ll := by
    intro i r hr
    rw [hres, List.getElem?_map] at hr
    rcases hli : lls[i]? with _ | ll
    · rw [hli] at hr; simp at hr
    · rw [hli] at hr
      simp only [Option.map_some, Option.some.injEq] at hr
      exact ⟨ll, rfl, hr.symm⟩
  -- averages
  have havgLL : ∀ v, averageEntry results ("log_likelihood", v) =
      .ok ("log_likelihood", .num (lls.sum / lls.length)) := by
    intro v
    unfold averageEntry
    rw [if_neg (by simp), getItem_mapM results "log_likelihood" (fun i => .num (lls.getD i 0))]
    · have e : (List.range results.length).map (fun i => PyVal.num (lls.getD i 0)) =
          lls.map fun x : ℝ => PyVal.num x := by
        apply List.ext_getElem?
        intro i
        rcases lt_or_ge i folds.length with hi | hi
        · have hi' : i < lls.length := by omega
          simp [List.getElem?_range (show i < results.length by omega), List.getElem?_eq_getElem hi',
            List.getD_eq_getElem?_getD]
        · rw [List.getElem?_eq_none (by simp; omega), List.getElem?_eq_none (by simp; omega)]
      simp only [bind_ok]
      rw [e, pyAverage_nums]
      rfl
    · intro i r hr
      obtain ⟨ll, h1, h2⟩ := hget i r hr
      rw [h2, foldResult_lookup _ _ _ _ (by decide), if_pos rfl, List.getD_eq_getElem?_getD, h1]
      rfl
  have havgP : ∀ k x, k ≠ "log_likelihood" → k ≠ "algorithm" → List.lookup k fp = some (.num x) → ∀ v,
      averageEntry results (k, v) = .ok (k, .num x) := by
    intro k x hk1 hk2 hx v
    unfold averageEntry
    rw [if_neg hk2, getItem_mapM results k (fun _ => .num x)]
    · have e : (List.range results.length).map (fun _ => PyVal.num x) =
          (List.replicate results.length x).map fun x : ℝ => PyVal.num x := by
        simp
      simp only [bind_ok]
      rw [e, pyAverage_nums]
      have hpos : ((results.length : ℕ) : ℝ) ≠ 0 := by
        rw [hlen]; exact_mod_cast hfl.ne'
      simp only [List.sum_replicate, List.length_replicate, nsmul_eq_mul, bind_ok, pure, Except.pure]
      rw [mul_div_cancel_left₀ _ hpos]
    · intro i r hr
      obtain ⟨ll, _, h2⟩ := hget i r hr
      rw [h2, foldResult_lookup _ _ _ _ hk2, if_neg hk1, hx]
  -- the first result
  obtain ⟨r0, hr0⟩ : ∃ r0, results[0]? = some r0 :=
    ⟨_, List.getElem?_eq_getElem (by omega)⟩
  obtain ⟨rest, hcons⟩ : ∃ rest, results = r0 :: rest := by
    cases hrr : results with
    | nil => rw [hrr] at hr0; simp at hr0
    | cons a l =>
      rw [hrr] at hr0
      simp only [List.getElem?_cons_zero, Option.some.injEq] at hr0
      exact ⟨l, by rw [hr0]⟩
  obtain ⟨ll0, _, hr0'⟩ := hget 0 r0 hr0
  have hkeys : ∀ p ∈ r0, ∃ q, averageEntry results p = .ok q := by
    intro p hp
    by_cases ha : p.1 = "algorithm"
    · exact ⟨p, by rw [averageEntry, if_pos ha]⟩
    by_cases hlk : p.1 = "log_likelihood"
    · have := havgLL p.2
      rw [← hlk] at this
      exact ⟨_, this⟩
    · have hlook : List.lookup p.1 r0 ≠ none := by
        rw [Ne, lookup_eq_none]
        simp only [not_not]
        exact List.mem_map_of_mem hp
      rw [hr0', foldResult_lookup _ _ _ _ ha, if_neg hlk] at hlook
      obtain ⟨v, hv⟩ := Option.ne_none_iff_exists'.1 hlook
      have hmem := mem_of_lookup _ _ _ hv
      rw [hfp, List.mem_filter] at hmem
      obtain ⟨x, hx⟩ := hnum _ hmem.1 ha
      simp only at hx
      subst hx
      exact ⟨_, havgP p.1 x hlk ha hv p.2⟩
  choose! g hg using hkeys
  have hrow : r0.mapM (averageEntry results) = .ok (r0.map g) := mapM_ok _ _ _ hg
  refine ⟨r0.map g, lls, ?_, hl, ?_, ?_, ?_⟩
  · unfold cvCombination
    rw [h]
    simp only [bind_ok]
    rw [hcons] at hrow ⊢
    exact hrow
  · intro i r hr
    obtain ⟨ll, h1, h2⟩ := hget i r hr
    exact ⟨ll, h1, by rw [h2, foldResult_lookup _ _ _ _ (by decide), if_pos rfl]⟩
  · obtain ⟨w, h1, h2⟩ := lookup_mapM _ (averageEntry_fst results) r0 _ hrow "log_likelihood" (.num ll0)
      (by rw [hr0', foldResult_lookup _ _ _ _ (by decide), if_pos rfl])
    rw [havgLL] at h1
    injection h1 with h1
    rw [h2, ← (Prod.mk.inj h1).2]
  · intro k hk1 hk2
    have hl0 : List.lookup k r0 = List.lookup k fp := by
      rw [hr0', foldResult_lookup _ _ _ _ hk2, if_neg hk1]
    have hfpk : List.lookup k fp = List.lookup k params := lookup_filter_ne params "algorithm" k hk2
    rcases hv : List.lookup k fp with _ | v
    · rw [lookup_mapM_none _ (averageEntry_fst results) r0 _ hrow k (by rw [hl0, hv]), ← hfpk, hv]
    · obtain ⟨x, hx⟩ : ∃ x, v = .num x := by
        have hmem := mem_of_lookup _ _ _ hv
        rw [hfp, List.mem_filter] at hmem
        exact hnum _ hmem.1 hk2
      subst hx
      obtain ⟨w, h1, h2⟩ := lookup_mapM _ (averageEntry_fst results) r0 _ hrow k (.num x) (by rw [hl0, hv])
      rw [havgP k x hk1 hk2 hv] at h1
      injection h1 with h1
      rw [h2, ← (Prod.mk.inj h1).2, ← hfpk, hv]

/-- The full property: a search whose fits all succeed reports a row. -/
def SearchReports : Prop :=
  ∀ (P : CvProcedure ℝ ℝ) (m : ℝ) (folds : List (List ℝ)) (params : PyDict) (results : List PyDict),
    folds ≠ [] → cvLoop P params folds (List.range folds.length) m = .ok results →
    ∃ row, cvCombination P m folds params = .ok row

/-- C69, a gap: a parameter that is not a number (a string such as an imputation method, or `None`) makes the
averaging raise although all fits succeeded. -/
theorem C69_non_numeric_refused {Model Row : Type} (P : CvProcedure Model Row) (m : Model)
    (folds : List (List Row)) (params : PyDict) (k : String) (v : PyVal) (hne : folds ≠ [])
    (hk1 : k ≠ "log_likelihood") (hk2 : k ≠ "algorithm") (hv : List.lookup k params = some v)
    (hnn : ∀ x, v ≠ .num x) : ∀ row, cvCombination P m folds params ≠ .ok row := by
  intro row hrow
  unfold cvCombination at hrow
  rcases hr : cvLoop P params folds (List.range folds.length) m with e | results
  · rw [hr] at hrow; simp [bind, Except.bind] at hrow
  rw [hr] at hrow
  simp only [bind_ok] at hrow
  obtain ⟨lls, hl, hres⟩ := cvLoop_results P params folds m results hr
  cases lls with
  | nil => simp only [List.length_nil] at hl; exact hne (List.length_eq_zero_iff.1 hl.symm)
  | cons ll0 lls =>
    rw [hres] at hrow
    simp only [List.map_cons] at hrow
    have hlk : ∀ ll, List.lookup k (foldResult (params.filter fun p => p.1 ≠ "algorithm")
        (params.lookup "algorithm") ll) = some v := by
      intro ll
      rw [foldResult_lookup _ _ _ _ hk2, if_neg hk1, lookup_filter_ne _ _ _ hk2, hv]
    obtain ⟨w, h1, _⟩ := lookup_mapM _ (averageEntry_fst _) _ _ hrow k v (hlk ll0)
    unfold averageEntry at h1
    rw [if_neg hk2, getItem_mapM _ k (fun _ => v)] at h1
    · simp only [bind_ok] at h1
      rcases ha : pyAverage ((List.range (foldResult (params.filter fun p => p.1 ≠ "algorithm")
          (params.lookup "algorithm") ll0 :: lls.map (foldResult (params.filter fun p => p.1 ≠ "algorithm")
          (params.lookup "algorithm"))).length).map fun _ => v) with e | w'
      · rw [ha] at h1; simp [bind, Except.bind] at h1
      · obtain ⟨xs, hxs⟩ := pyAverage_ok _ _ ha
        cases xs with
        | nil => simp at hxs
        | cons x xs =>
          rw [List.length_cons, List.range_succ_eq_map, List.map_cons, List.map_cons] at hxs
          exact hnn x (List.cons.inj hxs).1
    · intro i r hir
      rw [← List.map_cons, List.getElem?_map] at hir
      rcases hli : (ll0 :: lls)[i]? with _ | ll
      · rw [hli] at hir; simp at hir
      · rw [hli] at hir
        simp only [Option.map_some, Option.some.injEq] at hir
        rw [← hir]; exact hlk ll

/-- C69 is false of the code for grids with a non-numeric parameter. -/
theorem C69_false : ¬ SearchReports := by
  intro h
  have hrun : ∃ rs, cvLoop warmStart [("imputation_method", .other "zero")] [[1], [2]] (List.range 2) 0 =
      .ok rs := by
    simp [cvLoop, List.range_succ, cvTrain, warmStart, bind_ok, pure, Except.pure]
  obtain ⟨rs, hrs⟩ := hrun
  obtain ⟨row, hrow⟩ := h warmStart 0 [[1], [2]] _ rs (by simp) hrs
  exact C69_non_numeric_refused warmStart 0 [[1], [2]] [("imputation_method", .other "zero")]
    "imputation_method" (.other "zero") (by simp) (by decide) (by decide) rfl (by simp) row hrow

example : ∃ (row : PyDict) (lls : List ℝ), cvCombination warmStart 0 [[1], [2]] [("learning_rate", .num 3)] = .ok row ∧
    List.lookup "log_likelihood" row = some (.num (lls.sum / lls.length)) ∧
    List.lookup "learning_rate" row = some (.num 3) := by
  have hrun : ∃ rs, cvLoop warmStart [("learning_rate", .num 3)] [[1], [2]] (List.range 2) 0 = .ok rs := by
    simp [cvLoop, List.range_succ, cvTrain, warmStart, bind_ok, pure, Except.pure]
  obtain ⟨rs, hrs⟩ := hrun
  obtain ⟨row, lls, h1, _, _, h4, h5⟩ := C69_average warmStart 0 [[1], [2]] [("learning_rate", .num 3)] rs
    (by simp) (by simp) hrs
  exact ⟨row, lls, h1, h4, h5 _ (by decide) (by decide)⟩

end Irt
