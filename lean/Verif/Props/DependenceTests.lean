import Verif.Lemmas.DependenceTests
import Verif.Props.Dependence
import Verif.Lemmas.LogitModel
import Verif.Lemmas.Data

/-!
# C118: the tests of local independence find dependence no more often than their level says

The data are drawn from the model at latent scores that are known and passed to the test.
-/

namespace Irt

open Spec

/-! ## The level, up to ties -/

theorem halves_le (a : ℝ) (n m : ℕ) (h : (m : ℝ) * 2 ≤ a * n) : m ≤ ⌊a * n / 2⌋₊ :=
  Nat.le_floor (by linarith)

theorem level_le (a : ℝ) (ha : 0 ≤ a) (n : ℕ) :
    ((⌊a * n / 2⌋₊ + 1 : ℕ) : ENNReal) / ((n + 1 : ℕ) : ENNReal) + ((⌊a * n / 2⌋₊ + 1 : ℕ) : ENNReal) / ((n + 1 : ℕ) : ENNReal)
      ≤ ENNReal.ofReal ((a * n + 2) / (n + 1)) := by
  have hf : (⌊a * n / 2⌋₊ : ℝ) ≤ a * n / 2 := Nat.floor_le (by positivity)
  rw [ENNReal.ofReal_div_of_pos (by positivity), ← ENNReal.add_div]
  have e : ENNReal.ofReal ((n : ℝ) + 1) = ((n + 1 : ℕ) : ENNReal) := by
    rw [← ENNReal.ofReal_natCast]; push_cast; rfl
  rw [e]
  gcongr
  rw [← Nat.cast_add, ← ENNReal.ofReal_natCast]
  apply ENNReal.ofReal_le_ofReal
  push_cast
  linarith

/-- C118 for Q3, up to ties: if the model is true, the probability that two different items get a p-value of at most `a` is
at most `(a S + 2) / (S + 1)` for `S` simulated data sets, plus the probability that the Q3 of the data equals that of a
simulated data set or is undefined in one of them. -/
theorem C118_q3_level_partial {d p : ℕ} (M : ℕ) (mc : Option (List ℤ)) (probs : (Fin d → ℝ) → List (List ℝ)) (theta : Thetas d)
    (law : PMF (List (List ℝ))) (hlaw : sampleTestData probs theta = .ok law) (S : ℕ) (i j : Fin p) (hij : i ≠ j)
    (a : ℝ) (ha : 0 ≤ a) :
    (study law fun x => q3Test p M mc probs theta S (sampledData x)).toOuterMeasure (Rejects a i j)
      ≤ ENNReal.ofReal ((a * S + 2) / (S + 1))
        + (copies law (S + 1)).toOuterMeasure (TiedOrUndefined fun x =>
          (q3 theta.length p M mc (theta.map probs) (cellRows (sampledData x))).toOption.bind fun Q => Q i j) := by
  set stat : List (List ℝ) → Except PyErr (Fin p → Fin p → Num) := fun x =>
    q3 theta.length p M mc (theta.map probs) (cellRows (sampledData x)) with hstat
  set t : List (List ℝ) → Num := fun x => (stat x).toOption.bind fun Q => Q i j with ht
  rw [study_eq law S stat (fun o s => (o, fun i j => q3PValue (decide (i = j)) (o i j) (s.map fun s => s i j))) _ (by
    intro x
    unfold q3Test
    simp only [simulatedSets_ok probs theta law hlaw S]
    rw [show q3 theta.length p M mc (theta.map probs) (cellRows (sampledData x)) = stat x from rfl]
    cases stat x <;> rfl), PMF.toOuterMeasure_map_apply]
  set k := ⌊a * S / 2⌋₊ with hk
  let ok : List (List ℝ) → List (List ℝ) → Prop := fun x y => ∃ q r : ℝ, t x = some q ∧ t y = some r ∧ q ≠ r
  have hlow := rank_bound law S k ok (fun x y => numLt (t y) (t x)) (by
    intro f B hne hok
    obtain ⟨i, hi, hmax⟩ := B.exists_max_image (fun i => (t (f i)).getD 0) hne
    refine ⟨i, hi, fun j hj hji => ?_⟩
    obtain ⟨q, r, h1, h2, h3⟩ := hok i hi j hji
    have := hmax j hj
    simp only [h1, h2, Option.getD_some] at this
    simp only [h1, h2, numLt, decide_eq_true_eq]
    exact lt_of_le_of_ne this (Ne.symm h3))
  have hhigh := rank_bound law S k ok (fun x y => numGe (t y) (t x)) (by
    intro f B hne hok
    obtain ⟨i, hi, hmin⟩ := B.exists_min_image (fun i => (t (f i)).getD 0) hne
    refine ⟨i, hi, fun j hj hji => ?_⟩
    obtain ⟨q, r, h1, h2, h3⟩ := hok i hi j hji
    have := hmin j hj
    simp only [h1, h2, Option.getD_some] at this
    simp only [h1, h2, numGe, decide_eq_true_eq]
    exact this)
  refine le_trans ?_ (add_le_add (le_trans (add_le_add hlow hhigh) (level_le a ha S)) le_rfl)
  refine le_trans ?_ (add_comm _ _).le
  refine le_trans (PMF.toOuterMeasure_mono _ ?_) (le_trans (MeasureTheory.measure_union_le _ _)
    (add_le_add le_rfl (MeasureTheory.measure_union_le _ _)))
  rintro l ⟨⟨s, P, v, hr, hP, hv⟩, hsup⟩
  cases l with
  | nil => cases hr
  | cons x xs =>
    simp only at hr
    obtain ⟨o, ho, hr⟩ := bind_eq_ok hr
    obtain ⟨sims, hs, hr⟩ := bind_eq_ok hr
    cases hr
    simp only [hij, decide_false] at hP
    have hsims : sims.map (fun s => s i j) = xs.map t :=
      map_of_mapM stat _ t xs sims hs fun y q hq => by simp only [ht, hq]; rfl
    have hx : t x = s i j := by simp only [ht, ho]; rfl
    by_cases htied : ∃ y ∈ xs, t x = none ∨ t y = none ∨ t x = t y
    · exact Or.inl ⟨x, xs, rfl, htied⟩
    · right
      push Not at htied
      have hok : ∀ y ∈ xs, ok x y := by
        intro y hy
        obtain ⟨h1, h2, h3⟩ := htied y hy
        obtain ⟨q, hq⟩ := Option.ne_none_iff_exists'.1 h1
        obtain ⟨r, hr⟩ := Option.ne_none_iff_exists'.1 h2
        exact ⟨q, r, hq, hr, fun e => h3 (by rw [hq, hr, e])⟩
      unfold q3PValue at hP
      rw [if_neg (by simp), hsims, ← hx, List.countP_map, List.countP_map, List.length_map] at hP
      have hlen : (xs.length : ℝ) ≠ 0 := by
        intro h0
        rw [floatDiv, if_pos h0] at hP
        cases hP
      rw [floatDiv, if_neg hlen] at hP
      have hS : xs.length = S := by
        have := copies_mem_length law (S + 1) _ hsup
        simpa using this
      have hpos : (0 : ℝ) < xs.length := by positivity
      rw [← Option.some.inj hP, div_le_iff₀ hpos, hS] at hv
      have hle := halves_le a S _ hv
      rcases min_le_iff.1 hle with h | h
      · exact Or.inl ⟨x, xs, rfl, hok, h⟩
      · exact Or.inr ⟨x, xs, rfl, hok, h⟩

/-- C118 for the mutual information difference, up to ties. -/
theorem C118_amid_level_partial {d p : ℕ} (M : ℕ) (base : ℝ) (probs : (Fin d → ℝ) → List (List ℝ)) (theta : Thetas d)
    (law : PMF (List (List ℝ))) (hlaw : sampleTestData probs theta = .ok law) (S : ℕ) (i j : Fin p) (hij : i ≠ j)
    (a : ℝ) (ha : 0 ≤ a) :
    (study law fun x => amidTest p M base probs theta S (sampledData x)).toOuterMeasure (Rejects a i j)
      ≤ ENNReal.ofReal ((a * S + 1) / (S + 1))
        + (copies law (S + 1)).toOuterMeasure (TiedOrUndefined fun x =>
          (mutualInformationDifference (n := theta.length) (p := p) base M (cellMatrix (sampledData x))
            (theta.map probs)).toOption.map fun r => r.2 i j) := by
  set stat : List (List ℝ) → Except PyErr (Fin p → Fin p → ℝ) := fun x =>
    dataMutualInformation (n := theta.length) (p := p) base (cellMatrix (sampledData x)) with hstat
  cases hE : expectedMutualInformation (p := p) base M (theta.map probs) with
  | error e =>
    have h0 : (study law fun x => amidTest p M base probs theta S (sampledData x)).toOuterMeasure (Rejects a i j) = 0 := by
      rw [PMF.toOuterMeasure_apply_eq_zero_iff, Set.disjoint_left]
      rintro r hr ⟨s, P, v, rfl, -⟩
      unfold study at hr
      rw [PMF.mem_support_bind_iff] at hr
      obtain ⟨x, -, hr⟩ := hr
      unfold amidTest at hr
      simp only [hE] at hr
      cases hm : mutualInformationDifference (n := theta.length) (p := p) base M (cellMatrix (sampledData x)) (theta.map probs) with
      | error e => rw [hm] at hr; simp at hr
      | ok o => rw [hm] at hr; simp at hr
    rw [h0]
    exact zero_le
  | ok E =>
    have hmid : ∀ x, mutualInformationDifference (n := theta.length) (p := p) base M (cellMatrix (sampledData x)) (theta.map probs)
        = stat x >>= fun o => .ok (fun i j => o i j - E i j, fun i j => |o i j - E i j|) := by
      intro x
      unfold mutualInformationDifference
      simp only [hE]
      cases h : stat x with
      | error e => simp only [hstat] at h; rw [h]; rfl
      | ok o => simp only [hstat] at h; rw [h]; rfl
    set t : List (List ℝ) → Num := fun x => (stat x).toOption.map fun Q => |Q i j - E i j| with ht
    have htt : (fun x => (mutualInformationDifference (n := theta.length) (p := p) base M (cellMatrix (sampledData x))
            (theta.map probs)).toOption.map fun r => r.2 i j) = t := by
      funext x
      rw [hmid, ht]
      simp only
      cases stat x <;> rfl
    rw [htt, study_eq law S stat (fun o s => ((fun i j => |o i j - E i j|),
      amidPValues (fun i j => |o i j - E i j|) (s.map fun s i j => |s i j - E i j|))) _ (by
      intro x
      unfold amidTest
      simp only [simulatedSets_ok probs theta law hlaw S, hE, hmid]
      cases stat x <;> rfl), PMF.toOuterMeasure_map_apply]
    set k := ⌊a * S⌋₊ with hk
    let ok : List (List ℝ) → List (List ℝ) → Prop := fun x y => ∃ q r : ℝ, t x = some q ∧ t y = some r ∧ q ≠ r
    have hhigh := rank_bound law S k ok (fun x y => decide ((t y).getD 0 > (t x).getD 0)) (by
      intro f B hne hok
      obtain ⟨i, hi, hmin⟩ := B.exists_min_image (fun i => (t (f i)).getD 0) hne
      refine ⟨i, hi, fun j hj hji => ?_⟩
      obtain ⟨q, r, h1, h2, h3⟩ := hok i hi j hji
      have := hmin j hj
      simp only [h1, h2, Option.getD_some] at this
      simp only [h1, h2, Option.getD_some, decide_eq_true_eq]
      exact lt_of_le_of_ne this h3)
    have hlevel : ((k + 1 : ℕ) : ENNReal) / ((S + 1 : ℕ) : ENNReal) ≤ ENNReal.ofReal ((a * S + 1) / (S + 1)) := by
      have hf : (⌊a * S⌋₊ : ℝ) ≤ a * S := Nat.floor_le (by positivity)
      have e : ENNReal.ofReal ((S : ℝ) + 1) = ((S + 1 : ℕ) : ENNReal) := by
        rw [← ENNReal.ofReal_natCast]; push_cast; rfl
      rw [ENNReal.ofReal_div_of_pos (by positivity), e]
      gcongr
      rw [← ENNReal.ofReal_natCast]
      apply ENNReal.ofReal_le_ofReal
      push_cast
      linarith
    refine le_trans ?_ (add_le_add (le_trans hhigh hlevel) le_rfl)
    refine le_trans ?_ (add_comm _ _).le
    refine le_trans (PMF.toOuterMeasure_mono _ ?_) (MeasureTheory.measure_union_le _ _)
    rintro l ⟨⟨s, P, v, hr, hP, hv⟩, hsup⟩
    cases l with
    | nil => cases hr
    | cons x xs =>
      simp only at hr
      obtain ⟨o, ho, hr⟩ := bind_eq_ok hr
      obtain ⟨sims, hs, hr⟩ := bind_eq_ok hr
      cases hr
      have hsims : sims.map (fun s => some |s i j - E i j|) = xs.map t :=
        map_of_mapM stat _ t xs sims hs fun y q hq => by simp only [ht, hq]; rfl
      have hx : t x = some |o i j - E i j| := by simp only [ht, ho]; rfl
      by_cases htied : ∃ y ∈ xs, t x = none ∨ t y = none ∨ t x = t y
      · exact Or.inl ⟨x, xs, rfl, htied⟩
      · right
        push Not at htied
        have hok : ∀ y ∈ xs, ok x y := by
          intro y hy
          obtain ⟨h1, h2, h3⟩ := htied y hy
          obtain ⟨q, hq⟩ := Option.ne_none_iff_exists'.1 h1
          obtain ⟨r, hr⟩ := Option.ne_none_iff_exists'.1 h2
          exact ⟨q, r, hq, hr, fun e => h3 (by rw [hq, hr, e])⟩
        have hcount : (sims.map fun s i j => |s i j - E i j|).countP (fun s => decide (s i j > |o i j - E i j|))
            = xs.countP fun y => decide ((t y).getD 0 > (t x).getD 0) := by
          have h1 : xs.countP (fun y => decide ((t y).getD 0 > (t x).getD 0))
              = (xs.map t).countP fun y => decide (y.getD 0 > (t x).getD 0) := by
            rw [List.countP_map]; rfl
          rw [h1, ← hsims, List.countP_map, List.countP_map, hx]
          rfl
        have hlen' : sims.length = xs.length := by
          have := congrArg List.length hsims
          simpa using this
        unfold amidPValues at hP
        rw [if_neg hij, hcount, List.length_map, hlen'] at hP
        have hlen : (xs.length : ℝ) ≠ 0 := by
          intro h0
          rw [floatDiv, if_pos h0] at hP
          cases hP
        rw [floatDiv, if_neg hlen] at hP
        have hS : xs.length = S := by
          have := copies_mem_length law (S + 1) _ hsup
          simpa using this
        have hpos : (0 : ℝ) < xs.length := by positivity
        rw [← Option.some.inj hP, div_le_iff₀ hpos, hS] at hv
        exact ⟨x, xs, rfl, hok, Nat.le_floor hv⟩

/-! ## The tests run -/

section Runs

variable {d : ℕ} (probs : (Fin d → ℝ) → List (List ℝ)) (cats : List ℕ) (h : ∀ t, IsTable cats (maxCats cats) (probs t))

include h

theorem tables_eq (theta : Thetas d) : theta.map probs = tablesOf theta.length cats.length (maxCats cats)
    fun i j k => tableProb (probs (theta.getD i 0)) j k := by
  unfold tablesOf
  apply List.ext_getElem (by simp)
  intro i hi _
  have hi' : i < theta.length := by simpa using hi
  have e : theta.getD i 0 = theta[i] := by simp [List.getD_eq_getElem?_getD, hi']
  simp only [List.getElem_map, List.getElem_range, e]
  apply List.ext_getElem (by simp [(h theta[i]).1])
  intro j hj hj'
  have hjc : j < cats.length := (h theta[i]).1 ▸ hj
  have hd := (h theta[i]).2 j _ _ (List.getElem?_eq_getElem hj) (List.getElem?_eq_getElem hjc)
  simp only [List.getElem_map, List.getElem_range]
  apply List.ext_getElem (by simp [hd.length])
  intro k hk _
  simp only [List.getElem_map, List.getElem_range]
  rw [tableProb_row _ _ _ _ (List.getElem?_eq_getElem hj)]
  simp [List.getD_eq_getElem?_getD, hk]

theorem sampled_support (hM : 0 < maxCats cats) (theta : Thetas d) (law : PMF (List (List ℝ)))
    (hlaw : sampleTestData probs theta = .ok law) (x : List (List ℝ)) (hx : x ∈ law.support) :
    ∃ y : ℕ → ℕ → ℕ, x = responseTable theta.length cats.length y ∧ ∀ i j, y i j < maxCats cats := by
  obtain ⟨law', hlaw', hv⟩ := C85_valid probs cats (maxCats cats) h theta
  obtain rfl : law' = law := Except.ok.inj (hlaw'.symm.trans hlaw)
  obtain ⟨hlen, hrows⟩ := hv x hx
  have key : ∀ i j, ∃ r : ℕ, r < maxCats cats ∧ ∀ (hi : i < x.length) (hj : j < (x[i]).length), (x[i])[j] = r := by
    intro i j
    by_cases hi : i < x.length
    · by_cases hj : j < (x[i]).length
      · obtain ⟨h1, h2⟩ := hrows x[i] (List.getElem_mem hi)
        have hjc : j < cats.length := h1 ▸ hj
        obtain ⟨r, hr, hrc⟩ := h2 j _ _ (List.getElem?_eq_getElem hj) (List.getElem?_eq_getElem hjc)
        exact ⟨r, hrc.trans_le (le_maxCats cats _ (List.getElem_mem hjc)), fun _ _ => hr⟩
      · exact ⟨0, hM, fun _ hj' => absurd hj' hj⟩
    · exact ⟨0, hM, fun hi' => absurd hi' hi⟩
  choose y hy1 hy2 using key
  refine ⟨y, ?_, hy1⟩
  unfold responseTable rowsOf
  apply List.ext_getElem (by simp [hlen])
  intro i hi _
  simp only [List.getElem_map, List.getElem_range]
  apply List.ext_getElem (by simp [(hrows x[i] (List.getElem_mem hi)).1])
  intro j hj _
  simp only [List.getElem_map, List.getElem_range]
  exact hy2 i j hi hj

omit h in
theorem sampled_cells (n p : ℕ) (y : ℕ → ℕ → ℕ) :
    cellRows (sampledData (responseTable n p y)) = dataOf n p fun i j => some (y i j : ℤ) := by
  simp [cellRows, sampledData, responseTable, rowsOf, dataOf, numToCell, truncInt_nat, Function.comp_def]

omit h in
theorem sampled_matrix (n p : ℕ) (y : ℕ → ℕ → ℕ) :
    cellMatrix (n := n) (p := p) (sampledData (responseTable n p y)) = fun (i : Fin n) (j : Fin p) => some (y i j : ℤ) := by
  funext i j
  unfold cellMatrix
  rw [sampled_cells]
  simp [dataOf, List.getD_eq_getElem?_getD]

/-- The statistic of a sampled data set. -/
theorem q3_sampled (hM : 0 < maxCats cats) (mc : Option (List ℤ)) (theta : Thetas d) (y : ℕ → ℕ → ℕ)
    (hy : ∀ i j, y i j < maxCats cats) :
    ∃ Q, q3 theta.length cats.length (maxCats cats) mc (theta.map probs)
      (cellRows (sampledData (responseTable theta.length cats.length y))) = .ok Q := by
  rw [tables_eq probs cats h, sampled_cells]
  exact ⟨_, q3_eq _ _ _ hM mc _ _ fun i _ j _ v hv _ => by
    rw [← Option.some.inj hv]
    exact ⟨by positivity, by exact_mod_cast hy i j⟩⟩

theorem amid_sampled (base : ℝ) (hb : 1 < base) (hp : cats ≠ []) (theta : Thetas d) (hn : 2 ≤ theta.length)
    (y : ℕ → ℕ → ℕ) (hy : ∀ i j, y i j < maxCats cats) :
    ∃ O : Fin cats.length → Fin cats.length → ℝ,
      dataMutualInformation (n := theta.length) base (cellMatrix (sampledData (responseTable theta.length cats.length y))) = .ok O := by
  rw [sampled_matrix]
  obtain ⟨O, hO, -⟩ := C76_observed (n := theta.length) (p := cats.length) base hb (List.length_pos_of_ne_nil hp) hn
    (fun r i => y r i) fun r i => hy r i
  exact ⟨O, hO⟩

theorem expected_sampled (base : ℝ) (hb : 1 < base) (theta : Thetas d) (hn : 2 ≤ theta.length) :
    ∃ E : Fin cats.length → Fin cats.length → ℝ, expectedMutualInformation base (maxCats cats) (theta.map probs) = .ok E := by
  have e : theta.map probs = (List.finRange theta.length).map fun r => probs theta[r] := by
    apply List.ext_getElem (by simp)
    intro i hi _
    simp
  rw [e]
  obtain ⟨E, hE, -⟩ := C76_expected (n := theta.length) (p := cats.length) (M := maxCats cats) (by omega) cats rfl
    (fun r => probs theta[r]) (fun r => h _) base hb
  exact ⟨E, hE⟩

end Runs

theorem copies_mem {α : Type} (law : PMF α) (n : ℕ) (l : List α) (hl : l ∈ (copies law n).support) : ∀ x ∈ l, x ∈ law.support := by
  intro x hx
  have hlen := copies_mem_length law n l hl
  subst hlen
  have e := copies_ofFn law l.length l.get
  rw [List.ofFn_get] at e
  rw [PMF.mem_support_iff, e] at hl
  obtain ⟨i, hi, rfl⟩ := List.getElem_of_mem hx
  rw [PMF.mem_support_iff]
  exact (Finset.prod_ne_zero_iff.1 hl) ⟨i, hi⟩ (Finset.mem_univ _)

/-- C118: with probabilities that form distributions the Q3 test returns a p-value between 0 and 1 for all pairs of
different items. -/
theorem C118_q3_runs {d : ℕ} (probs : (Fin d → ℝ) → List (List ℝ)) (cats : List ℕ)
    (h : ∀ t, IsTable cats (maxCats cats) (probs t)) (hM : 0 < maxCats cats) (mc : Option (List ℤ)) (theta : Thetas d)
    (S : ℕ) (hS : 0 < S) :
    ∃ law, sampleTestData probs theta = .ok law ∧ ∀ x ∈ law.support,
      ∀ r ∈ (q3Test cats.length (maxCats cats) mc probs theta S (sampledData x)).support,
        ∃ Q P, r = .ok (Q, P) ∧ ∀ i j, i ≠ j → ∃ v, P i j = some v ∧ 0 ≤ v ∧ v ≤ 1 := by
  refine ⟨_, sampleTestData_ok probs cats _ h theta, ?_⟩
  set law := theta.mapM fun t => (probs t).mapM drawCategory with hlaw
  have hl := sampleTestData_ok probs cats _ h theta
  have hstat : ∀ x ∈ law.support, ∃ Q, q3 theta.length cats.length (maxCats cats) mc (theta.map probs)
      (cellRows (sampledData x)) = .ok Q := by
    intro x hx
    obtain ⟨y, rfl, hy⟩ := sampled_support probs cats h hM theta law hl x hx
    exact q3_sampled probs cats h hM mc theta y hy
  intro x hx r hr
  obtain ⟨Q, hQ⟩ := hstat x hx
  unfold q3Test at hr
  simp only [hQ, simulatedSets_ok probs theta law hl S] at hr
  rw [PMF.support_map] at hr
  obtain ⟨draws, hdraws, rfl⟩ := hr
  obtain ⟨sims, hsims, hslen⟩ := mapM_all_ok (fun x => q3 theta.length cats.length (maxCats cats) mc (theta.map probs)
    (cellRows (sampledData x))) draws fun x hx => hstat x (copies_mem law S draws hdraws x hx)
  refine ⟨Q, _, by simp only [hsims]; rfl, fun i j hij => ?_⟩
  have hlen := copies_mem_length law S draws hdraws
  have hpos : (0 : ℝ) < (sims.map fun s => s i j).length := by
    rw [List.length_map, hslen, hlen]
    exact_mod_cast hS
  unfold q3PValue
  rw [if_neg (by simpa using hij), floatDiv, if_neg hpos.ne']
  refine ⟨_, rfl, by positivity, ?_⟩
  rw [div_le_one hpos]
  have hdisj : (sims.map fun s => s i j).countP (fun s => numLt s (Q i j)) + (sims.map fun s => s i j).countP (fun s => numGe s (Q i j))
      ≤ (sims.map fun s => s i j).length := by
    generalize (sims.map fun s => s i j) = l
    induction l with
    | nil => simp
    | cons a l ih =>
      rw [List.countP_cons, List.countP_cons, List.length_cons]
      have : (if numLt a (Q i j) = true then 1 else 0) + (if numGe a (Q i j) = true then 1 else 0) ≤ 1 := by
        cases a with
        | none => simp [numLt, numGe]
        | some u =>
          cases Q i j with
          | none => simp [numLt, numGe]
          | some w =>
            simp only [numLt, numGe, decide_eq_true_eq]
            split_ifs with h1 h2
            · exact absurd h1 (not_lt.2 h2)
            all_goals omega
      omega
  have hmin : min ((sims.map fun s => s i j).countP fun s => numLt s (Q i j)) ((sims.map fun s => s i j).countP fun s => numGe s (Q i j)) * 2
      ≤ (sims.map fun s => s i j).length := by omega
  exact_mod_cast hmin

/-- C118: likewise for the test of the mutual information difference, with at least two respondents. -/
theorem C118_amid_runs {d : ℕ} (probs : (Fin d → ℝ) → List (List ℝ)) (cats : List ℕ)
    (h : ∀ t, IsTable cats (maxCats cats) (probs t)) (hM : 0 < maxCats cats) (base : ℝ) (hb : 1 < base) (theta : Thetas d)
    (hn : 2 ≤ theta.length) (S : ℕ) (hS : 0 < S) :
    ∃ law, sampleTestData probs theta = .ok law ∧ ∀ x ∈ law.support,
      ∀ r ∈ (amidTest cats.length (maxCats cats) base probs theta S (sampledData x)).support,
        ∃ A P, r = .ok (A, P) ∧ ∀ i j, i ≠ j → ∃ v, P i j = some v ∧ 0 ≤ v ∧ v ≤ 1 := by
  have hne : cats ≠ [] := by rintro rfl; simp [maxCats] at hM
  refine ⟨_, sampleTestData_ok probs cats _ h theta, ?_⟩
  set law := theta.mapM fun t => (probs t).mapM drawCategory with hlaw
  have hl := sampleTestData_ok probs cats _ h theta
  have hstat : ∀ x ∈ law.support, ∃ O : Fin cats.length → Fin cats.length → ℝ,
      dataMutualInformation (n := theta.length) base (cellMatrix (sampledData x)) = .ok O := by
    intro x hx
    obtain ⟨y, rfl, hy⟩ := sampled_support probs cats h hM theta law hl x hx
    exact amid_sampled probs cats h base hb hne theta hn y hy
  obtain ⟨E, hE⟩ := expected_sampled probs cats h base hb theta hn
  intro x hx r hr
  obtain ⟨O, hO⟩ := hstat x hx
  unfold amidTest mutualInformationDifference at hr
  simp only [hO, hE, bind_ok, simulatedSets_ok probs theta law hl S, pure, Except.pure] at hr
  rw [PMF.support_map] at hr
  obtain ⟨draws, hdraws, rfl⟩ := hr
  obtain ⟨sims, hsims, hslen⟩ := mapM_all_ok (fun x => dataMutualInformation (n := theta.length) (p := cats.length) base
    (cellMatrix (sampledData x))) draws fun x hx => hstat x (copies_mem law S draws hdraws x hx)
  refine ⟨_, _, by simp only [hsims]; rfl, fun i j hij => ?_⟩
  have hlen := copies_mem_length law S draws hdraws
  obtain ⟨v, h1, h2, h3, -⟩ := (C76_p_values (fun i j => |O i j - E i j|) (sims.map fun s i j => |s i j - E i j|) i j).2.2 hij
    (by intro e; have := congrArg List.length e; simp [hslen, hlen] at this; omega)
  exact ⟨v, h1, h2, h3⟩

/-! ## The level, with ties -/

/-- The claim without ties: with `S` simulated data sets the Q3 test finds dependence where there is none with probability
at most `a` at level `a`. -/
def Q3TestKeepsLevel (S : ℕ) : Prop :=
  ∀ (d : ℕ) (probs : (Fin d → ℝ) → List (List ℝ)) (cats : List ℕ), (∀ t, IsTable cats (maxCats cats) (probs t)) →
    ∀ (mc : Option (List ℤ)) (theta : Thetas d) (law : PMF (List (List ℝ))), sampleTestData probs theta = .ok law →
    ∀ (i j : Fin cats.length), i ≠ j → ∀ a : ℝ, 0 ≤ a →
      (study law fun x => q3Test cats.length (maxCats cats) mc probs theta S (sampledData x)).toOuterMeasure (Rejects a i j)
        ≤ ENNReal.ofReal a

/-- The same claim for the mutual information difference. -/
def AmidTestKeepsLevel (S : ℕ) : Prop :=
  ∀ (d : ℕ) (probs : (Fin d → ℝ) → List (List ℝ)) (cats : List ℕ), (∀ t, IsTable cats (maxCats cats) (probs t)) →
    ∀ (base : ℝ), 1 < base → ∀ (theta : Thetas d) (law : PMF (List (List ℝ))), sampleTestData probs theta = .ok law →
    ∀ (i j : Fin cats.length), i ≠ j → ∀ a : ℝ, 0 ≤ a →
      (study law fun x => amidTest cats.length (maxCats cats) base probs theta S (sampledData x)).toOuterMeasure (Rejects a i j)
        ≤ ENNReal.ofReal a

/-- Two items that everyone answers by tossing a coin. -/
noncomputable def coinProbs : (Fin 1 → ℝ) → List (List ℝ) := fun _ => [[1 / 2, 1 / 2], [1 / 2, 1 / 2]]

theorem coinProbs_table (t : Fin 1 → ℝ) : IsTable [2, 2] (maxCats [2, 2]) (coinProbs t) := by
  refine ⟨rfl, ?_⟩
  intro j p c hp hc
  have hd := two_isDistribution (1 / 2) (1 / 2) (by norm_num) (by norm_num) (by norm_num)
  match j, hp, hc with
  | 0, hp, hc => simp [coinProbs] at hp hc; subst hp hc; simpa [maxCats] using hd
  | 1, hp, hc => simp [coinProbs] at hp hc; subst hp hc; simpa [maxCats] using hd
  | j + 2, hp, hc => simp at hc

/-- Two respondents. -/
def exPair : Thetas 1 := (List.range 2).map fun _ => 0

/-- Every table of answers of the two respondents has probability 1/16. -/
theorem coin_sixteenth : ∃ law, sampleTestData coinProbs exPair = .ok law ∧
    ∀ y : ℕ → ℕ → ℕ, (∀ i j, y i j < 2) → law (responseTable 2 2 y) = ENNReal.ofReal (1 / 16) := by
  obtain ⟨law, hlaw, hp⟩ := C85_probability coinProbs [2, 2] _ coinProbs_table 2 fun _ => 0
  refine ⟨law, hlaw, fun y hy => ?_⟩
  have hhalf : ∀ j r, j < 2 → r < 2 → tableProb (coinProbs 0) j r = 1 / 2 := by
    intro j r hj hr
    interval_cases j <;> interval_cases r <;> simp [tableProb, coinProbs]
  have h2 : ([2, 2] : List ℕ).length = 2 := rfl
  have := hp y
  rw [h2] at this
  rw [this]
  congr 1
  simp only [Finset.prod_range_succ, Finset.prod_range_zero, one_mul]
  rw [hhalf 0 _ (by norm_num) (hy 0 0), hhalf 1 _ (by norm_num) (hy 0 1), hhalf 0 _ (by norm_num) (hy 1 0),
    hhalf 1 _ (by norm_num) (hy 1 1)]
  norm_num

/-- A data set that always leads to a rejection makes rejections at least as likely as itself. -/
theorem study_ge {α β : Type} (law : PMF α) (test : α → PMF β) (A : Set β) (x : α) (hx : (test x).support ⊆ A) :
    law x ≤ (study law test).toOuterMeasure A := by
  unfold study
  rw [PMF.toOuterMeasure_bind_apply]
  refine le_trans ?_ (ENNReal.le_tsum x)
  rw [(PMF.toOuterMeasure_apply_eq_one_iff _ _).2 hx, mul_one]

theorem twentieth_lt : ¬ ENNReal.ofReal (1 / 16) ≤ ENNReal.ofReal (1 / 20) := by
  rw [ENNReal.ofReal_le_ofReal_iff (by norm_num)]
  norm_num

/-- C118 is false for Q3 however many data sets are simulated: two respondents who toss coins. If both answer alike, Q3 is
undefined and its p-value is zero, so the test at the five per cent level rejects with probability at least 1/16. -/
theorem C118_q3_level_false (S : ℕ) (hS : 0 < S) : ¬ Q3TestKeepsLevel S := by
  intro claim
  obtain ⟨law, hlaw, hmass⟩ := coin_sixteenth
  have h := claim 1 coinProbs [2, 2] coinProbs_table none exPair law hlaw ⟨0, by simp⟩ ⟨1, by simp⟩ (by simp) (1 / 20) (by norm_num)
  refine twentieth_lt (le_trans (le_trans (hmass (fun _ _ => 0) fun _ _ => by norm_num).ge ?_) h)
  refine study_ge law _ _ _ ?_
  intro r hr
  obtain ⟨law', hlaw', hruns⟩ := C118_q3_runs coinProbs [2, 2] coinProbs_table (by simp [maxCats]) none exPair S hS
  obtain rfl : law' = law := Except.ok.inj (hlaw'.symm.trans hlaw)
  obtain ⟨Q, hQ, hnone⟩ := C77_constant 2 2 2 (by norm_num) none (fun i j k => tableProb (coinProbs (exPair.getD i 0)) j k)
    (fun _ _ => 0) (fun _ _ _ _ => by norm_num) 0 1 (by
      rintro ⟨u, hu, w, hw, hne⟩
      obtain ⟨a, -, rfl⟩ := List.mem_map.1 hu
      obtain ⟨b, -, rfl⟩ := List.mem_map.1 hw
      refine hne ?_
      simp [responseResidual, coinProbs])
  have hstat : q3 exPair.length [2, 2].length (maxCats [2, 2]) none (exPair.map coinProbs)
      (cellRows (sampledData (responseTable 2 2 fun _ _ => 0))) = .ok Q := by
    rw [tables_eq coinProbs [2, 2] coinProbs_table, sampled_cells]
    exact hQ
  unfold q3Test at hr
  simp only [hstat, simulatedSets_ok coinProbs exPair law' hlaw S] at hr
  rw [PMF.support_map] at hr
  obtain ⟨draws, hdraws, rfl⟩ := hr
  obtain ⟨sims, hsims, hslen⟩ := mapM_all_ok (fun x => q3 exPair.length [2, 2].length (maxCats [2, 2]) none (exPair.map coinProbs)
    (cellRows (sampledData x))) draws fun x hx => by
      obtain ⟨y, rfl, hy⟩ := sampled_support coinProbs [2, 2] coinProbs_table (by simp [maxCats]) exPair law' hlaw x
        (copies_mem law' S draws hdraws x hx)
      exact q3_sampled coinProbs [2, 2] coinProbs_table (by simp [maxCats]) none exPair y hy
  have hlen := copies_mem_length law' S draws hdraws
  refine ⟨Q, _, 0, by simp only [hsims]; rfl, ?_, by norm_num⟩
  have e : Q ⟨0, by simp⟩ ⟨1, by simp⟩ = none := hnone
  simp only [e]
  exact C77_undefined_false _ (by intro e; have := congrArg List.length e; simp [hslen, hlen] at this; omega)

/-- C118 is false for the mutual information difference, too: ties count as evidence, so that the data with the largest
possible difference have the p-value zero. -/
theorem C118_amid_level_false (S : ℕ) (hS : 0 < S) : ¬ AmidTestKeepsLevel S := by
  intro claim
  obtain ⟨law, hlaw, hmass⟩ := coin_sixteenth
  have h := claim 1 coinProbs [2, 2] coinProbs_table 2 (by norm_num) exPair law hlaw ⟨0, by simp⟩ ⟨1, by simp⟩ (by simp)
    (1 / 20) (by norm_num)
  obtain ⟨E, hE⟩ := expected_sampled coinProbs [2, 2] coinProbs_table 2 (by norm_num) exPair (by simp [exPair])
  have hO : ∀ y : ℕ → ℕ → ℕ, (∀ i j, y i j < 2) → ∃ O : Fin [2, 2].length → Fin [2, 2].length → ℝ,
      dataMutualInformation (n := exPair.length) 2 (cellMatrix (sampledData (responseTable 2 2 y))) = .ok O := fun y hy =>
    amid_sampled coinProbs [2, 2] coinProbs_table 2 (by norm_num) (by simp) exPair (by simp [exPair]) y hy
  let ext : (Fin 2 → Fin 2 → Fin 2) → ℕ → ℕ → ℕ := fun f i j => if h : i < 2 ∧ j < 2 then f ⟨i, h.1⟩ ⟨j, h.2⟩ else 0
  have hext : ∀ f i j, ext f i j < 2 := by
    intro f i j
    simp only [ext]
    split
    · exact (f _ _).2
    · norm_num
  choose O hO using hO
  let value : (Fin 2 → Fin 2 → Fin 2) → ℝ := fun f =>
    |O (ext f) (hext f) ⟨0, by simp⟩ ⟨1, by simp⟩ - E ⟨0, by simp⟩ ⟨1, by simp⟩|
  obtain ⟨g, -, hmax⟩ := Finset.univ.exists_max_image value Finset.univ_nonempty
  refine twentieth_lt (le_trans (le_trans (hmass (ext g) (hext g)).ge ?_) h)
  refine study_ge law _ _ _ ?_
  intro r hr
  unfold amidTest mutualInformationDifference at hr
  simp only [hO (ext g) (hext g), hE, bind_ok, simulatedSets_ok coinProbs exPair law hlaw S, pure, Except.pure] at hr
  rw [PMF.support_map] at hr
  obtain ⟨draws, hdraws, rfl⟩ := hr
  have hdraw : ∀ x ∈ draws, ∃ f, x = responseTable 2 2 (ext f) := by
    intro x hx
    obtain ⟨y, rfl, hy⟩ := sampled_support coinProbs [2, 2] coinProbs_table (by simp [maxCats]) exPair law hlaw x
      (copies_mem law S draws hdraws x hx)
    refine ⟨fun i j => ⟨y i j, hy i j⟩, ?_⟩
    simp [responseTable, rowsOf, exPair, ext, List.range_succ]
  obtain ⟨sims, hsims, hslen⟩ := mapM_all_ok (fun x => dataMutualInformation (n := exPair.length) (p := [2, 2].length) 2
    (cellMatrix (sampledData x))) draws fun x hx => by
      obtain ⟨f, rfl⟩ := hdraw x hx
      exact ⟨_, hO (ext f) (hext f)⟩
  have hlen := copies_mem_length law S draws hdraws
  refine ⟨_, _, 0, by simp only [hsims]; rfl, ?_, by norm_num⟩
  unfold amidPValues
  rw [if_neg (by simp)]
  have hcount : (sims.map fun (s : Fin [2, 2].length → Fin [2, 2].length → ℝ) i j => |s i j - E i j|).countP (fun s =>
      decide (s ⟨0, by simp⟩ ⟨1, by simp⟩ > |O (ext g) (hext g) ⟨0, by simp⟩ ⟨1, by simp⟩ - E ⟨0, by simp⟩ ⟨1, by simp⟩|)) = 0 := by
    rw [List.countP_eq_zero]
    intro s hs
    obtain ⟨s', hs', rfl⟩ := List.mem_map.1 hs
    obtain ⟨x, hx, hxs⟩ := mapM_mem_ok _ _ _ hsims s' hs'
    obtain ⟨f, rfl⟩ := hdraw x hx
    rw [hO (ext f) (hext f)] at hxs
    cases hxs
    simp only [gt_iff_lt, decide_eq_true_eq, not_lt]
    exact hmax f (Finset.mem_univ _)
  simp only [hcount]
  rw [floatDiv, if_neg (by rw [List.length_map, hslen, hlen]; positivity)]
  simp

/-! ## Examples -/

example : ∃ law, sampleTestData coinProbs exPair = .ok law ∧
    (study law fun x => q3Test 2 2 none coinProbs exPair 999 (sampledData x)).toOuterMeasure (Rejects (1 / 20) 0 1)
      ≤ ENNReal.ofReal ((1 / 20 * (999 : ℕ) + 2) / ((999 : ℕ) + 1))
        + (copies law (999 + 1)).toOuterMeasure (TiedOrUndefined fun x =>
          (q3 exPair.length 2 2 none (exPair.map coinProbs) (cellRows (sampledData x))).toOption.bind fun Q => Q 0 1) := by
  obtain ⟨law, hlaw, -⟩ := coin_sixteenth
  exact ⟨law, hlaw, C118_q3_level_partial 2 none coinProbs exPair law hlaw 999 0 1 (by decide) (1 / 20) (by norm_num)⟩

example : ∃ law, sampleTestData coinProbs exPair = .ok law ∧
    (study law fun x => amidTest 2 2 2 coinProbs exPair 999 (sampledData x)).toOuterMeasure (Rejects (1 / 20) 0 1)
      ≤ ENNReal.ofReal ((1 / 20 * (999 : ℕ) + 1) / ((999 : ℕ) + 1))
        + (copies law (999 + 1)).toOuterMeasure (TiedOrUndefined fun x =>
          (mutualInformationDifference (n := exPair.length) (p := 2) 2 2 (cellMatrix (sampledData x))
            (exPair.map coinProbs)).toOption.map fun r => r.2 0 1) := by
  obtain ⟨law, hlaw, -⟩ := coin_sixteenth
  exact ⟨law, hlaw, C118_amid_level_partial 2 2 coinProbs exPair law hlaw 999 0 1 (by decide) (1 / 20) (by norm_num)⟩

/-- Three data sets that are all different in the statistic are not tied. -/
example : [0, 1, 2] ∉ TiedOrUndefined fun n : ℕ => some (n : ℝ) := by
  rintro ⟨x, xs, h, y, hy, h'⟩
  obtain ⟨rfl, rfl⟩ := List.cons.inj h
  simp at hy
  rcases hy with rfl | rfl <;> simp at h'

end Irt
