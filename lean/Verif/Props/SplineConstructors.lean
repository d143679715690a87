import Verif.Model.SplineConstructors
import Verif.Props.Constructors
import Verif.Props.Splines

/-! # Property C109 for the monotone models and the surprisal spline -/

namespace Irt
open Spec

/-- What the constructors find in data in which every item was answered. -/
theorem dataCats {d : ResponseData} (hd : TestData d) (ha : EachItemAnswered d) :
    ∃ cats : List ℕ, chosenCategories (some d) none = .ok (cats.map fun n : ℕ => (n : ℤ)) ∧ CountsOf d cats ∧ cats ≠ [] ∧
      (∀ c ∈ cats, 0 < c) ∧ ∃ mx, baseInit (cats.map fun n : ℕ => (n : ℤ)) none = .ok mx ∧ 1 ≤ mx := by
  obtain ⟨cats, hcats, hcount⟩ := chosenCategories_data hd ha
  have hpos := countsOf_pos hcount
  have hne : cats ≠ [] := by
    rintro rfl
    have := hd.items
    rw [← hcount.1] at this
    simp at this
  obtain ⟨mx, hmx⟩ := baseInit_none (cats := cats.map fun n : ℕ => (n : ℤ)) (by simpa using hne)
  obtain ⟨c, hc⟩ := List.exists_mem_of_ne_nil _ hne
  have := baseInit_ge hmx (c : ℤ) (List.mem_map.2 ⟨c, hc, rfl⟩)
  have := hpos c hc
  exact ⟨cats, hcats, hcount, hne, hpos, mx, hmx, by omega⟩

/-- A monotone polynomial model after training: the shapes are kept. -/
def MonoPolyTrained (m m' : MonoPolyModel) : Prop :=
  m'.k = m.k ∧ m'.lv = m.lv ∧ m'.cats = m.cats ∧ m'.sep = m.sep ∧ m'.rel = m.rel ∧ m'.bias.length = m.bias.length

/-- C109, monotone polynomial of odd degree. -/
theorem C109_monotone_polynomial (d : ResponseData) (hd : TestData d) (ha : EachItemAnswered d) (lv degree : ℕ) (hdeg : Odd degree)
    (rel : Option (List (List Bool))) (hr : GoodRelationships d.width lv rel) (sep : Separate) (negative : Bool) (dirs : ℕ → ℕ → ℝ) :
    ∃ m, MonoPolyModel.construct (some d) lv none degree rel sep negative dirs = .ok m ∧ m.lv = lv ∧ CountsOf d m.cats ∧
      ValidData m.cats d.rows ∧ ∀ m', MonoPolyTrained m m' → m'.WF ∧ ∀ θ, IsTable m.cats m.M (m'.probs θ) ∧ Explains d (m'.probs θ) := by
  obtain ⟨cats, hcats, hcount, hne, hpos, mx, hmx, -⟩ := dataCats hd ha
  obtain ⟨r, hrok, hr1, hr2, hr3⟩ := checkRelationships_good (items := cats.length) (by rw [hcount.1]; exact hr)
  have hM : 0 < maxCats cats := by
    obtain ⟨c, hc⟩ := List.exists_mem_of_ne_nil _ hne
    exact (hpos c hc).trans_le (le_maxCats _ _ hc)
  have hdeg' : degree % 2 = 1 := Nat.odd_iff.1 hdeg
  have hk : ∃ k, MonoPoly.checkInit degree (sep.count cats.length (maxCats cats)) true negative
      (match sep with | .categories => maxCats cats | .items => 1) = .ok k := by
    refine ⟨(degree - 1) / 2, ?_⟩
    cases sep <;> cases negative <;> simp [MonoPoly.checkInit, hdeg', Separate.count, hM.ne', Nat.mod_one]
  obtain ⟨k, hk⟩ := hk
  have hm : ∃ m, MonoPolyModel.construct (some d) lv none degree rel sep negative dirs = .ok m ∧ m.lv = lv ∧ m.cats = cats ∧ m.WF := by
    refine ⟨⟨k, lv, cats, sep, r, fun _ _ => 0, fun _ _ _ => 0, fun _ _ _ => -5, if negative then some dirs else none,
      List.replicate cats.sum 0⟩, ?_, rfl, rfl, ⟨hpos, hr1, hr2, by simp⟩⟩
    simp only [MonoPolyModel.construct, hcats, bind_ok, hmx, List.length_map, hrok, castSum, toNat_cast]
    rw [if_neg (by omega)]
    simp only [MonoPolyModel.init, hrok, bind_ok]
    cases sep <;> simp only at hk ⊢ <;> rw [hk] <;> rfl
  obtain ⟨m, hm, hlv, hc, hwf⟩ := hm
  refine ⟨m, hm, hlv, hc ▸ hcount, hc ▸ countsOf_valid hd hcount, fun m' ⟨e1, e2, e3, e4, e5, e6⟩ => ?_⟩
  have hwf' : m'.WF := ⟨by rw [e3]; exact hwf.catsPos, by rw [e5, e3]; exact hwf.relLen, by rw [e5, e2]; exact hwf.relRow,
    by rw [e6, e3]; exact hwf.biasLen⟩
  refine ⟨hwf', fun θ => ?_⟩
  obtain ⟨h1, h2⟩ := C01_monotone_polynomial m' hwf' θ
  rw [e3] at h1 h2
  refine ⟨⟨h1, fun j p c hp hc => ?_⟩, explains_of_positive hd hcount fun j c hj => ?_⟩
  · obtain ⟨p', hp', hd', -⟩ := h2 j c hc
    rw [hp] at hp'
    rw [Option.some_inj.1 hp', MonoPolyModel.M, ← e3]
    exact hd'
  · obtain ⟨p, hp, -, h⟩ := h2 j c (by rw [hc]; exact hj)
    exact ⟨p, hp, h⟩

/-- A monotone B-spline model after training. -/
def MonoBSplineTrained (m m' : MonoBSpline) : Prop :=
  m'.lv = m.lv ∧ m'.nb = m.nb ∧ m'.cats = m.cats ∧ m'.sep = m.sep ∧ m'.coefCats.length = m.coefCats.length ∧ m'.bias.length = m.bias.length

/-- C109, monotone B-spline. With separate functions for the categories only one latent variable is possible. -/
theorem C109_monotone_bspline_partial (d : ResponseData) (hd : TestData d) (ha : EachItemAnswered d) (lv degree : ℕ)
    (knots : Option (List ℝ)) (sep : Separate) (hsep : sep = .categories → lv = 1) :
    ∃ m, MonoBSpline.construct (some d) lv none knots degree sep = .ok m ∧ m.lv = lv ∧ CountsOf d m.cats ∧ ValidData m.cats d.rows ∧
      ∀ m', MonoBSplineTrained m m' → m'.WF ∧ ∀ basis, ∃ t, m'.probs basis = .ok t ∧ IsTable m.cats m.M t ∧ Explains d t := by
  obtain ⟨cats, hcats, hcount, hne, hpos, mx, hmx, h1⟩ := dataCats hd ha
  let m₀ : MonoBSpline := ⟨lv, splineBases (chosenKnots knots) degree, cats, sep, fun _ _ _ => -2.5, [], []⟩
  let m : MonoBSpline := { m₀ with
    coefCats := List.replicate (countTrue m₀.splineMask) (-2.5), bias := List.replicate (countTrue (freeMask m₀.M m₀.cats)) 0 }
  have hm : MonoBSpline.construct (some d) lv none knots degree sep = .ok m := by
    simp only [MonoBSpline.construct, hcats, bind_ok, hmx, toNat_cast]
    rw [if_neg (by omega), if_neg (by omega)]
  have hwf : m.WF := ⟨hpos, by simp [m]; rfl, by simp [m]; rfl⟩
  refine ⟨m, hm, rfl, hcount, countsOf_valid hd hcount, fun m' ⟨e1, e2, e3, e4, e5, e6⟩ => ?_⟩
  have hmask : m'.splineMask = m.splineMask := by simp only [MonoBSpline.splineMask, MonoBSpline.M, e2, e3]
  have hwf' : m'.WF := ⟨by rw [e3]; exact hwf.catsPos, by rw [hmask, e5]; exact hwf.coefLen, by
    rw [e6, MonoBSpline.M, e3]; exact hwf.biasLen⟩
  refine ⟨hwf', fun basis => ?_⟩
  have hok : ∃ t, m'.probs basis = .ok t := by
    simp only [MonoBSpline.probs, MonoBSpline.forwardRow]
    rw [if_neg]
    · exact ⟨_, rfl⟩
    · rintro ⟨hs, hl⟩
      rw [e4] at hs
      rw [e1] at hl
      exact hl (hsep hs)
  obtain ⟨t, ht⟩ := hok
  obtain ⟨g1, g2⟩ := C01_monotone_bspline m' hwf' basis t ht
  rw [e3] at g1 g2
  refine ⟨t, ht, ⟨g1, fun j p c hp hc => ?_⟩, explains_of_positive hd hcount fun j c hj => ?_⟩
  · obtain ⟨p', hp', hd', -⟩ := g2 j c hc
    rw [hp] at hp'
    rw [Option.some_inj.1 hp', MonoBSpline.M, ← e3]
    exact hd'
  · obtain ⟨p, hp, -, h⟩ := g2 j c hj
    exact ⟨p, hp, h⟩

/-- C109 claim: a monotone B-spline model built for data can be evaluated. -/
def MonotoneBSplineEvaluates : Prop :=
  ∀ (d : ResponseData) (lv degree : ℕ) (sep : Separate) (m : MonoBSpline), TestData d → EachItemAnswered d →
    MonoBSpline.construct (some d) lv none none degree sep = .ok m → ∀ basis, ∃ t, m.probs basis = .ok t

theorem C109_monotone_bspline_false : ¬ MonotoneBSplineEvaluates := by
  intro h
  have ha : EachItemAnswered exAnswered := fun j hj => by obtain ⟨k, -, h⟩ := exAnswered_each j hj; exact ⟨k, h⟩
  obtain ⟨cats, hcats, hcount, hne, hpos, mx, hmx, h1⟩ := dataCats exAnswered_data ha
  let m₀ : MonoBSpline := ⟨2, splineBases (chosenKnots none) 3, cats, .categories, fun _ _ _ => -2.5, [], []⟩
  have hm : MonoBSpline.construct (some exAnswered) 2 none none 3 .categories = .ok { m₀ with
      coefCats := List.replicate (countTrue m₀.splineMask) (-2.5), bias := List.replicate (countTrue (freeMask m₀.M m₀.cats)) 0 } := by
    simp only [MonoBSpline.construct, hcats, bind_ok, hmx, toNat_cast]
    rw [if_neg (by omega), if_neg (by omega)]
  obtain ⟨t, ht⟩ := h _ 2 3 .categories _ exAnswered_data ha hm fun _ _ => 0
  simp [MonoBSpline.probs, MonoBSpline.forwardRow, m₀, bind_error] at ht

/-- A surprisal spline model after training. -/
def SurprisalTrained (m m' : Surprisal) : Prop :=
  m'.lv = m.lv ∧ m'.cats = m.cats ∧ m'.nb = m.nb ∧ m'.rel = m.rel ∧ m'.coef.length = m.coef.length

/-- C109, surprisal spline with sorted knots. -/
theorem C109_surprisal (d : ResponseData) (hd : TestData d) (ha : EachItemAnswered d) (lv degree : ℕ) (hlv : 0 < lv)
    (rel : Option (List (List Bool))) (hr : GoodRelationships d.width lv rel) (knots : Option (List ℝ))
    (hs : ∀ k, knots = some k → k.Pairwise (· ≤ ·)) :
    ∃ m, Surprisal.construct (some d) lv none rel knots degree = .ok m ∧ m.lv = lv ∧ CountsOf d m.cats ∧ ValidData m.cats d.rows ∧
      ∀ m', SurprisalTrained m m' → m'.WF ∧ ∀ θ : ℕ → ℝ, IsTable m.cats m.M (m'.probs (splineBasis (chosenKnots knots) degree θ)) ∧
        Explains d (m'.probs (splineBasis (chosenKnots knots) degree θ)) := by
  obtain ⟨cats, hcats, hcount, hne, hpos, mx, hmx, h1⟩ := dataCats hd ha
  obtain ⟨r, hrok, hr1, hr2, hr3⟩ := checkRelationships_good (items := cats.length) (by rw [hcount.1]; exact hr)
  have hrel : ∀ row ∈ r, ∃ l, l < lv ∧ row.getD l false = true := by
    intro row hrow
    have ht : true ∈ row := by
      cases rel with
      | none =>
        obtain rfl := Except.ok.inj hrok
        rw [List.eq_of_mem_replicate hrow]
        exact List.mem_replicate.2 ⟨by omega, rfl⟩
      | some R =>
        rw [hr3 R rfl] at hrow
        exact (hr R rfl).2.2 row hrow
    obtain ⟨l, hl⟩ := List.mem_iff_getElem?.1 ht
    exact ⟨l, by rw [← hr2 row hrow]; exact lt_of_getElem?_some hl, by rw [List.getD_eq_getElem?_getD, hl]; rfl⟩
  let m₀ : Surprisal := ⟨lv, cats, splineBases (chosenKnots knots) degree, r, []⟩
  let m : Surprisal := { m₀ with coef := List.replicate (countTrue m₀.mask) (-2.5) }
  have hm : Surprisal.construct (some d) lv none rel knots degree = .ok m := by
    simp only [Surprisal.construct, hcats, bind_ok, hmx, List.length_map, hrok, toNat_cast]
    rw [if_neg (by omega)]
  have hwf : m.WF := ⟨hpos, hr1, by simp [m]; rfl⟩
  have hsort : (chosenKnots knots).Pairwise (· ≤ ·) := by
    cases knots with
    | none => simp [chosenKnots]; norm_num
    | some k => exact hs k rfl
  refine ⟨m, hm, rfl, hcount, countsOf_valid hd hcount, fun m' ⟨e1, e2, e3, e4, e5⟩ => ?_⟩
  have hmask : m'.mask = m.mask := by
    obtain ⟨a, b, c, dd, e⟩ := m'
    simp only at e1 e2 e3 e4
    subst e1 e2 e3 e4
    rfl
  have hwf' : m'.WF := ⟨by rw [e2]; exact hwf.catsPos, by rw [e4, e2]; exact hwf.relLen, by rw [hmask, e5]; exact hwf.coefLen⟩
  refine ⟨hwf', fun θ => ?_⟩
  obtain ⟨g1, g2⟩ := C08_distribution_theta m' hwf' (chosenKnots knots) degree e3 hsort θ
  have eM : m'.M = m.M := by rw [Surprisal.M, e2]; rfl
  rw [e2, eM] at g1
  refine ⟨g1, explains_of_positive hd hcount fun j c hj => ?_⟩
  obtain ⟨p, hp⟩ := getElem?_of_lt (m'.probs (splineBasis (chosenKnots knots) degree θ)) j (by rw [g1.1]; exact lt_of_getElem?_some hj)
  obtain ⟨row, hrow⟩ := getElem?_of_lt m'.rel j (by rw [hwf'.relLen, e2]; exact lt_of_getElem?_some hj)
  exact ⟨p, hp, g2 j c p row (by rw [e2]; exact hj) hp hrow (by rw [e1]; exact hrel row (by rw [← show m'.rel = r from e4]; exact List.mem_of_getElem? hrow))⟩

/-! ## The monotone network -/

theorem length_nnZeroOut (sep : Separate) (cats : List ℕ) (r : List Bool) (hr : r.length = cats.length) (h : ℕ) :
    (nnZeroOut sep (maxCats cats) cats r h).length = sep.count cats.length (maxCats cats) * h := by
  cases sep with
  | items =>
    simp only [nnZeroOut, repeatInterleave, Separate.count]
    rw [length_flatMap_const h _ _ (fun b _ => by simp), List.length_map, hr]
  | categories =>
    have h1 : (missingMask (maxCats cats) cats).length = cats.length * maxCats cats := by
      rw [missingMask, length_flatMap_const (maxCats cats) _ _ (fun c _ => by simp [missingRow])]
    simp only [nnZeroOut, repeatInterleave, Separate.count, List.length_zipWith]
    rw [length_flatMap_const h _ _ (fun b _ => by simp), length_flatMap_const (h * maxCats cats) _ _ (fun b _ => by simp), h1,
      List.length_map, hr, show cats.length * (h * maxCats cats) = cats.length * maxCats cats * h by ring, min_self]

theorem nnHiddenLayers_ok (sep : Separate) (cats : List ℕ) (r : List Bool) (hr : r.length = cats.length) (prev : ℕ) (hs : List ℕ) :
    ∃ ls, nnHiddenLayers sep (maxCats cats) cats r prev hs = .ok ls := by
  induction hs generalizing prev with
  | nil => exact ⟨_, rfl⟩
  | cons h hs ih =>
    obtain ⟨ls, hls⟩ := ih h
    simp only [nnHiddenLayers, hls]
    have e : ∃ l, SoftplusLinear.init (prev * sep.count cats.length (maxCats cats)) (sep.count cats.length (maxCats cats) * h)
        (some (List.replicate (sep.count cats.length (maxCats cats)) prev)) (some (List.replicate (sep.count cats.length (maxCats cats)) h))
        (some (nnZeroOut sep (maxCats cats) cats r prev)) (some (nnZeroOut sep (maxCats cats) cats r h)) true = .ok l := by
      simp only [SoftplusLinear.init, Option.getD_some, List.sum_replicate, smul_eq_mul, length_nnZeroOut sep cats r hr]
      rw [if_neg (by simp [mul_comm]), if_neg (by simp), if_neg (by simp), if_neg (by simp [mul_comm])]
      exact ⟨_, rfl⟩
    obtain ⟨l, hl⟩ := e
    rw [hl]
    exact ⟨_, rfl⟩

theorem nnLayers_ok (sep : Separate) (cats : List ℕ) (r : List Bool) (hr : r.length = cats.length) (hs : List ℕ) (hne : hs ≠ []) :
    ∃ ls, nnLayers sep (maxCats cats) cats r hs = .ok ls := by
  cases hs with
  | nil => exact absurd rfl hne
  | cons h hs =>
    obtain ⟨ls, hls⟩ := nnHiddenLayers_ok sep cats r hr h hs
    simp only [nnLayers, hls]
    have e : ∃ l, SoftplusLinear.init 1 (sep.count cats.length (maxCats cats) * h) none none none
        (some (nnZeroOut sep (maxCats cats) cats r h)) true = .ok l := by
      simp only [SoftplusLinear.init, Option.getD_some, Option.getD_none, List.length_replicate, length_nnZeroOut sep cats r hr]
      rw [if_neg (by simp), if_neg (by simp)]
      exact ⟨_, rfl⟩
    obtain ⟨l, hl⟩ := e
    rw [hl]
    exact ⟨_, rfl⟩

/-- Acceptable widths of the hidden layers. -/
def GoodWidths (hidden : Option (List ℕ)) (bounded : Bool) : Prop :=
  ∀ h, hidden = some h → h ≠ [] ∧ ∀ x ∈ h, (if bounded then 3 else 2) ∣ x

theorem checkHidden_good {hidden : Option (List ℕ)} {bounded : Bool} (h : GoodWidths hidden bounded) :
    ∃ ws, checkHidden hidden bounded = .ok ws ∧ ws ≠ [] := by
  cases hidden with
  | none => cases bounded <;> exact ⟨_, rfl, by simp⟩
  | some ws =>
    obtain ⟨h1, h2⟩ := h ws rfl
    refine ⟨ws, ?_, h1⟩
    have h3 : ∀ x ∈ ws, x % (if bounded then 3 else 2) = 0 := fun x hx => Nat.mod_eq_zero_of_dvd (h2 x hx)
    cases bounded <;> simp [checkHidden] at h3 ⊢ <;> assumption

/-- C109, monotone network, with any answer key among the observed categories. -/
theorem C109_monotone_nn (d : ResponseData) (hd : TestData d) (ha : EachItemAnswered d) (lv : ℕ) (hidden mc : Option (List ℕ))
    (rel : Option (List (List Bool))) (hr : GoodRelationships d.width lv rel) (sep : Separate) (negative bounded : Bool)
    (hh : GoodWidths hidden bounded) (hmc : ∀ keys, mc = some keys → keys.length = d.width ∧
      ∀ j k, keys[j]? = some k → ∃ k', k ≤ k' ∧ Observed d j k') :
    ∃ m, MonoNN.construct (some d) lv none hidden mc rel sep negative bounded = .ok m ∧ m.lv = lv ∧ CountsOf d m.cats ∧
      ValidData m.cats d.rows ∧ ∀ m', m.Trained m' → ∀ (ov : ℝ), 0 ≤ ov → ∀ θ,
        IsTable m.cats m.M (m'.probs ov θ) ∧ Explains d (m'.probs ov θ) := by
  obtain ⟨cats, hcats, hcount, hne, hpos, -⟩ := dataCats hd ha
  obtain ⟨r, hrok, hr1, hr2, hr3⟩ := checkRelationships_good (items := cats.length) (by rw [hcount.1]; exact hr)
  obtain ⟨ws, hws, hwne⟩ := checkHidden_good hh
  have hkeys : ∀ keys, mc = some keys → ∀ j k c : ℕ, keys[j]? = some k → cats[j]? = some c → k < c := by
    intro keys hk j k c hjk hc
    obtain ⟨k', hkk, ho⟩ := (hmc keys hk).2 j k hjk
    obtain ⟨k'', rfl, hk''⟩ := hcount.2 j c hc
    have : k' ≤ k'' := hk''.2 ho
    omega
  have hall : ∀ keys, mc = some keys →
      ((List.zip (cats.map fun n : ℕ => (n : ℤ)) (keys.map fun k : ℕ => (k : ℤ))).all fun p => decide (p.1 ≥ p.2)) = true := by
    intro keys hk
    rw [List.all_eq_true]
    intro p hp
    obtain ⟨j, hj⟩ := List.mem_iff_getElem?.1 hp
    rw [List.getElem?_zip_eq_some, List.getElem?_map, List.getElem?_map] at hj
    obtain ⟨c, hc, hc'⟩ := Option.map_eq_some_iff.1 hj.1
    obtain ⟨k, hk', hk''⟩ := Option.map_eq_some_iff.1 hj.2
    have := hkeys keys hk j k c hk' hc
    rw [decide_eq_true_eq]
    omega
  have hbase : ∃ mx, baseInit (cats.map fun n : ℕ => (n : ℤ)) (mc.map fun ks => ks.map fun k : ℕ => (k : ℤ)) = .ok mx := by
    obtain ⟨c, t, rfl⟩ := List.exists_cons_of_ne_nil hne
    cases mc with
    | none => exact ⟨_, rfl⟩
    | some keys =>
      simp only [baseInit, Option.map_some, Option.elim_some, hall keys rfl, if_true]
      exact ⟨_, rfl⟩
  obtain ⟨mx, hmx⟩ := hbase
  have hcheck : checkMcCorrect cats (mc.map fun ks => ks.map fun k : ℕ => (k : ℤ)) = .ok () := by
    cases mc with
    | none => rfl
    | some keys =>
      have h := hall keys rfl
      rw [List.zip_map_left, List.all_map] at h
      simp only [checkMcCorrect, Option.map_some]
      rw [if_pos]
      exact h
  have hlay : ∃ layers, (List.range lv).mapM (fun i => nnLayers sep (maxCats cats) cats (r.map fun row => row.getD i false) ws) = .ok layers := by
    have : ∀ i, ∃ ls, nnLayers sep (maxCats cats) cats (r.map fun row => row.getD i false) ws = .ok ls := fun i =>
      nnLayers_ok sep cats _ (by simpa using hr1) ws hwne
    choose f hf using this
    exact ⟨_, mapM_ok _ _ f fun i _ => hf i⟩
  obtain ⟨layers, hlay⟩ := hlay
  obtain ⟨m, hm⟩ : ∃ m, MonoNN.init lv cats hidden mc rel sep negative bounded = .ok m := by
    simp only [MonoNN.init, hcheck, hrok, hws, bind_ok, hlay]
    exact ⟨_, rfl⟩
  have hself : m.lv = lv ∧ m.cats = cats := by
    simp only [MonoNN.init, hcheck, hrok, hws, bind_ok, hlay] at hm
    obtain rfl := Except.ok.inj hm
    exact ⟨rfl, rfl⟩
  have hcon : MonoNN.construct (some d) lv none hidden mc rel sep negative bounded = .ok m := by
    simp only [MonoNN.construct, hcats, bind_ok, hmx, List.length_map, hrok, castSum, toNat_cast]
    rw [if_neg (by omega), hm]
  have hfit : KeysFit cats mc := by
    intro keys hk
    refine ⟨by rw [(hmc keys hk).1, hcount.1], fun k hkm => ?_⟩
    obtain ⟨j, hj⟩ := List.mem_iff_getElem?.1 hkm
    obtain ⟨c, hc⟩ := getElem?_of_lt cats j (by rw [hcount.1, ← (hmc keys hk).1]; exact lt_of_getElem?_some hj)
    exact (hkeys keys hk j k c hj hc).trans_le (le_maxCats _ _ (List.mem_of_getElem? hc))
  refine ⟨m, hcon, hself.1, hself.2 ▸ hcount, hself.2 ▸ countsOf_valid hd hcount, fun m' ht ov hov θ => ?_⟩
  obtain ⟨g1, g2⟩ := C01_monotone_nn hm ht hpos hfit ov hov θ
  rw [MonoNN.M, hself.2]
  refine ⟨⟨g1, fun j p c hp hc => ?_⟩, explains_of_positive hd hcount fun j c hj => ?_⟩
  · obtain ⟨p', hp', hd', -⟩ := g2 j c hc
    rw [hp] at hp'
    rw [Option.some_inj.1 hp']
    exact hd'
  · obtain ⟨p, hp, -, h⟩ := g2 j c hj
    exact ⟨p, hp, h⟩

/-- The hypotheses of the theorems of this file are met by the data of `Props/Constructors`. -/
example : TestData exAnswered ∧ EachItemAnswered exAnswered ∧ GoodWidths (some [3, 6]) true ∧ Odd 3 ∧
    (∀ j k, ([2, 1] : List ℕ)[j]? = some k → ∃ k', k ≤ k' ∧ Observed exAnswered j k') :=
  ⟨exAnswered_data, fun j hj => by obtain ⟨k, -, h⟩ := exAnswered_each j hj; exact ⟨k, h⟩, by
    rintro h ⟨⟩
    exact ⟨by simp, by simp⟩, by decide, fun j k hk => by
    match j, hk with
    | 0, hk => cases hk; exact ⟨2, le_rfl, [some 2, none], by simp [exAnswered], by simp⟩
    | 1, hk => cases hk; exact ⟨1, le_rfl, [some 0, some 1], by simp [exAnswered], by simp⟩⟩

end Irt
