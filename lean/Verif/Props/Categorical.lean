import Verif.Model.Logistic
import Verif.Lemmas.Graded
import Verif.Lemmas.Tensor
import Mathlib.Tactic.IntervalCases

/-!
# Properties C01, C03, C05, C06, C16, C63: response functions of the item models
-/

namespace Irt

/-! ## Concrete models used to show that hypotheses can be met -/

/-- Two items with 3 and 2 categories, two latent variables, item 0 unrelated to variable 1. -/
noncomputable def exGPC : GPC :=
  { lv := 2, cats := [3, 2], rel := [[true, false], [true, true]], weight := [1, 2, -1],
    bias := [1 / 2, -1, 3 / 10] }

theorem exGPC_wf : exGPC.WF where
  catsPos := by simp [exGPC]
  relLen := by simp [exGPC]
  relRow := by simp [exGPC]
  weightLen := by simp [exGPC, countTrue]
  biasLen := by simp [exGPC]

noncomputable def exNRM : NRM :=
  { lv := 2, cats := [3, 2], rel := [[true, false], [true, true]], weight := [1, 2, -1, 4],
    bias := [1 / 2, -1, 3 / 10] }

theorem exNRM_wf : exNRM.WF where
  catsPos := by simp [exNRM]
  relLen := by simp [exNRM]
  relRow := by simp [exNRM]
  weightLen := by
    simp [exNRM, countTrue, NRM.freeWeights, NRM.M, maxCats, nrmFreeRows, freeRow, List.range_succ]
  biasLen := by simp [exNRM]

noncomputable def exGRM : GRM :=
  { lv := 2, cats := [3, 2], rel := [[true, false], [true, true]], weight := [1, 2, -1],
    bias := [1, -1, 3 / 10] }

theorem exGRM_wf : exGRM.WF where
  catsPos := by simp [exGRM]
  relLen := by simp [exGRM]
  relRow := by simp [exGRM]
  weightLen := by simp [exGRM, countTrue]
  biasLen := by simp [exGRM, countTrue, GRM.M, maxCats, freeMask, freeRow, List.range_succ]

noncomputable def exTwoPL : TwoPL :=
  { items := 2, lv := 2, rel := [[true, false], [true, true]], weight := [1, 2, -1], bias := [1 / 2, -1] }

theorem exTwoPL_wf : exTwoPL.WF where
  relLen := by simp [exTwoPL]
  relRow := by simp [exTwoPL]
  weightLen := by simp [exTwoPL, countTrue]
  biasLen := by simp [exTwoPL]

noncomputable def exThreePL : ThreePL :=
  { items := 2, lv := 2, rel := [[true, false], [true, true]], weight := [1, 2, -1],
    bias := [1 / 2, -1], guessing := [-1, 0] }

theorem exThreePL_wf : exThreePL.WF where
  relLen := by simp [exThreePL]
  relRow := by simp [exThreePL]
  weightLen := by simp [exThreePL, countTrue]
  biasLen := by simp [exThreePL]
  guessLen := by simp [exThreePL]

noncomputable def exOnePL : OnePL := { items := 2, bias := [1 / 2, -1] }

theorem exOnePL_wf : exOnePL.WF := by simp [OnePL.WF, exOnePL]

/-! ## C01: category probabilities are distributions -/

theorem logistic_pos (x : ℝ) : 0 < logistic x := by
  unfold logistic; have := Real.exp_pos x; positivity

theorem logistic_lt_one (x : ℝ) : logistic x < 1 := by
  unfold logistic
  have := Real.exp_pos x
  rw [div_lt_one (by linarith)]; linarith

theorem logistic_eq_sigmoid (x : ℝ) : logistic x = sigmoid x := (sigmoid_eq x).symm

theorem logistic_strictMono : StrictMono logistic := by
  have : logistic = sigmoid := funext logistic_eq_sigmoid
  rw [this]; exact sigmoid_strictMono

theorem pair_isDistribution (q : ℝ) (h0 : 0 < q) (h1 : q < 1) :
    IsDistribution 2 2 [1 - q, q] ∧ AllPositive 2 [1 - q, q] := by
  refine ⟨⟨rfl, ?_, ?_, ?_, ?_⟩, ?_⟩
  · intro x hx
    simp only [List.mem_cons, List.not_mem_nil, or_false] at hx
    rcases hx with rfl | rfl <;> linarith
  · intro x hx
    simp only [List.mem_cons, List.not_mem_nil, or_false] at hx
    rcases hx with rfl | rfl <;> linarith
  · simp
  · intro k h2 h3; omega
  · intro k hk
    interval_cases k
    · exact ⟨1 - q, rfl, by linarith⟩
    · exact ⟨q, rfl, h0⟩

/-- C01 for the 1PL model. -/
theorem C01_onePL_distribution (m : OnePL) (hwf : m.WF) (θ : ℝ) :
    (m.probs θ).length = m.items ∧
    ∀ j, j < m.items → ∃ p, (m.probs θ)[j]? = some p ∧ IsDistribution 2 2 p ∧ AllPositive 2 p := by
  refine ⟨by simp [OnePL.probs, probabilitiesFromOutput, length_viewRows], ?_⟩
  intro j hj
  obtain ⟨b, hb⟩ := getElem?_of_lt m.bias j (by rw [hwf]; exact hj)
  refine ⟨[1 - logistic (θ + b), logistic (θ + b)], ?_, pair_isDistribution _ (logistic_pos _) (logistic_lt_one _)⟩
  rw [OnePL.probs, probabilitiesFromOutput, List.getElem?_map, m.forward_row hwf θ j b hb,
    Option.map_some, softmax_pair]

example : exOnePL.WF := exOnePL_wf

theorem TwoPL.exists_params (m : TwoPL) (hwf : m.WF) (j : ℕ) (hj : j < m.items) :
    ∃ w b, m.itemParameters[j]? = some (w, b) := by
  obtain ⟨w, hw⟩ := getElem?_of_lt m.weights j (by rw [TwoPL.weights, length_viewRows]; exact hj)
  obtain ⟨b, hb⟩ := getElem?_of_lt m.bias j (by rw [hwf.biasLen]; exact hj)
  exact ⟨w, b, by rw [TwoPL.itemParameters, List.getElem?_zip_eq_some]; exact ⟨hw, hb⟩⟩

/-- C01 for the 2PL model. -/
theorem C01_twoPL_distribution (m : TwoPL) (hwf : m.WF) (θ : List ℝ) :
    (m.probs θ).length = m.items ∧
    ∀ j, j < m.items → ∃ p, (m.probs θ)[j]? = some p ∧ IsDistribution 2 2 p ∧ AllPositive 2 p := by
  refine ⟨by simp [TwoPL.probs, probabilitiesFromOutput, length_viewRows], ?_⟩
  intro j hj
  obtain ⟨w, b, hp⟩ := m.exists_params hwf j hj
  refine ⟨[1 - logistic (dot θ w + b), logistic (dot θ w + b)], ?_,
    pair_isDistribution _ (logistic_pos _) (logistic_lt_one _)⟩
  rw [TwoPL.probs, probabilitiesFromOutput, List.getElem?_map, m.forward_row hwf θ j w b hp,
    Option.map_some, softmax_pair]

example : exTwoPL.WF := exTwoPL_wf

theorem GPC.exists_params (m : GPC) (j : ℕ) (hj : j < m.cats.length) :
    ∃ w dl, m.itemParameters[j]? = some (w, dl) ∧ dl.length = m.M := by
  obtain ⟨w, hw⟩ := getElem?_of_lt m.weights j (by rw [GPC.weights, length_viewRows]; exact hj)
  obtain ⟨dl, hdl⟩ := getElem?_of_lt (viewRows m.cats.length m.M m.biases) j
    (by rw [length_viewRows]; exact hj)
  refine ⟨w, dl, by rw [GPC.itemParameters, List.getElem?_zip_eq_some]; exact ⟨hw, hdl⟩, ?_⟩
  apply mem_viewRows_length _ _ _ _ dl (List.mem_of_getElem? hdl)
  rw [GPC.biases, length_scatterMask, length_freeMask]

/-- C01 for the generalized partial credit model. -/
theorem C01_gpc_distribution (m : GPC) (hwf : m.WF) (θ : List ℝ) :
    (m.probs θ).length = m.cats.length ∧
    ∀ j c : ℕ, m.cats[j]? = some c →
      ∃ p, (m.probs θ)[j]? = some p ∧ IsDistribution c m.M p ∧ AllPositive c p := by
  refine ⟨by simp [GPC.probs, probabilitiesFromOutput, length_viewRows], ?_⟩
  intro j c hc
  obtain ⟨w, dl, hp, hl⟩ := m.exists_params j (lt_of_getElem?_some hc)
  obtain ⟨d, hd⟩ := exists_entry_fun dl
  have hmem := List.mem_of_getElem? hc
  exact ⟨_, m.probs_row hwf θ j c w dl d hc hp (fun k hk => hd k (by omega)),
    multinomialLogit_isDistribution c m.M (hwf.catsPos c hmem) (le_maxCats _ _ hmem) _⟩

example : exGPC.WF := exGPC_wf

theorem NRM.exists_params (m : NRM) (j : ℕ) (hj : j < m.cats.length) :
    ∃ wl dl, m.itemParameters[j]? = some (wl, dl) ∧ wl.length = m.M ∧ dl.length = m.M := by
  obtain ⟨w, hw⟩ := getElem?_of_lt m.weights j (by rw [NRM.length_weights]; exact hj)
  obtain ⟨dl, hdl⟩ := getElem?_of_lt m.biases j (by rw [NRM.length_biases]; exact hj)
  exact ⟨w, dl, by rw [NRM.itemParameters, List.getElem?_zip_eq_some]; exact ⟨hw, hdl⟩,
    m.weights_rows_length w (List.mem_of_getElem? hw), m.biases_rows_length dl (List.mem_of_getElem? hdl)⟩

/-- C01 for the nominal response model. -/
theorem C01_nrm_distribution (m : NRM) (hwf : m.WF) (θ : List ℝ) :
    (m.probs θ).length = m.cats.length ∧
    ∀ j c : ℕ, m.cats[j]? = some c →
      ∃ p, (m.probs θ)[j]? = some p ∧ IsDistribution c m.M p ∧ AllPositive c p := by
  refine ⟨by simp [NRM.probs, probabilitiesFromOutput, length_viewRows], ?_⟩
  intro j c hc
  obtain ⟨wl, dl, hp, hwl, hdl⟩ := m.exists_params j (lt_of_getElem?_some hc)
  obtain ⟨w, hw⟩ := exists_entry_fun wl
  obtain ⟨d, hd⟩ := exists_entry_fun dl
  have hmem := List.mem_of_getElem? hc
  exact ⟨_, m.probs_row θ j c wl dl w d hc hp (fun k hk => hw k (by omega)) (fun k hk => hd k (by omega)),
    multinomialLogit_isDistribution c m.M (hwf.catsPos c hmem) (le_maxCats _ _ hmem) _⟩

example : exNRM.WF := exNRM_wf

/-! ## C03: the logistic models -/

/-- C03: the 1PL probabilities in the reported parameters. -/
theorem C03_onePL_formula (m : OnePL) (hwf : m.WF) (θ : ℝ) (j : ℕ) (d : ℝ)
    (hd : m.itemParameters[j]? = some d) :
    (m.probs θ)[j]? = some [1 - logistic (θ + d), logistic (θ + d)] := by
  rw [OnePL.probs, probabilitiesFromOutput, List.getElem?_map, m.forward_row hwf θ j d hd,
    Option.map_some, softmax_pair]

example : exOnePL.WF ∧ exOnePL.itemParameters[1]? = some (-1 : ℝ) :=
  ⟨exOnePL_wf, by simp [OnePL.itemParameters, exOnePL]⟩

/-- C03: the 1PL success probability strictly increases with the latent trait. -/
theorem C03_onePL_increasing (m : OnePL) (hwf : m.WF) (θ₁ θ₂ : ℝ) (h : θ₁ < θ₂) (j : ℕ)
    (hj : j < m.items) :
    ∃ q₁ q₂, (m.probs θ₁)[j]? = some [1 - q₁, q₁] ∧ (m.probs θ₂)[j]? = some [1 - q₂, q₂] ∧ q₁ < q₂ := by
  obtain ⟨b, hb⟩ := getElem?_of_lt m.bias j (by rw [hwf]; exact hj)
  exact ⟨_, _, C03_onePL_formula m hwf θ₁ j b hb, C03_onePL_formula m hwf θ₂ j b hb,
    logistic_strictMono (by linarith)⟩

/-- C03: the 2PL probabilities in the reported parameters. -/
theorem C03_twoPL_formula (m : TwoPL) (hwf : m.WF) (θ : List ℝ) (j : ℕ) (a : List ℝ) (d : ℝ)
    (hp : m.itemParameters[j]? = some (a, d)) :
    (m.probs θ)[j]? = some [1 - logistic (dot θ a + d), logistic (dot θ a + d)] := by
  rw [TwoPL.probs, probabilitiesFromOutput, List.getElem?_map, m.forward_row hwf θ j a d hp,
    Option.map_some, softmax_pair]

example : exTwoPL.WF ∧ exTwoPL.itemParameters[0]? = some ([1, 0], 1 / 2) :=
  ⟨exTwoPL_wf, by simp [TwoPL.itemParameters, TwoPL.weights, exTwoPL, viewRows, scatterMask]⟩

/-- Raising one coordinate with a positive coefficient raises the inner product. -/
theorem dot_lt_dot_set (θ a : List ℝ) (r : ℕ) (x x' s : ℝ) (hx : θ[r]? = some x)
    (ha : a[r]? = some s) (hs : 0 < s) (hxx : x < x') : dot θ a < dot (θ.set r x') a := by
  induction θ generalizing a r with
  | nil => simp at hx
  | cons t θ ih =>
    cases a with
    | nil => simp at ha
    | cons b a =>
      cases r with
      | zero =>
        simp at hx ha
        subst hx ha
        simp only [dot, List.set_cons_zero, List.zipWith_cons_cons, List.sum_cons]
        have := mul_lt_mul_of_pos_right hxx hs
        linarith
      | succ r =>
        have := ih a r (by simpa using hx) (by simpa using ha)
        simp only [dot, List.set_cons_succ, List.zipWith_cons_cons, List.sum_cons] at this ⊢
        linarith

/-- Changing a coordinate with coefficient zero leaves the inner product unchanged. -/
theorem dot_set_zero (θ a : List ℝ) (r : ℕ) (x' : ℝ) (ha : a[r]? = some 0) :
    dot (θ.set r x') a = dot θ a := by
  induction θ generalizing a r with
  | nil => simp
  | cons t θ ih =>
    cases a with
    | nil => simp at ha
    | cons b a =>
      cases r with
      | zero =>
        simp at ha
        subst ha
        simp [dot]
      | succ r =>
        have := ih a r (by simpa using ha)
        simp only [dot, List.set_cons_succ, List.zipWith_cons_cons, List.sum_cons] at this ⊢
        linarith

/-- C03: the 2PL success probability strictly increases with a latent trait of positive slope. -/
theorem C03_twoPL_increasing (m : TwoPL) (hwf : m.WF) (θ : List ℝ) (j r : ℕ) (a : List ℝ)
    (d x x' s : ℝ) (hp : m.itemParameters[j]? = some (a, d)) (hs : a[r]? = some s) (hpos : 0 < s)
    (hx : θ[r]? = some x) (hxx : x < x') :
    ∃ q₁ q₂, (m.probs θ)[j]? = some [1 - q₁, q₁] ∧ (m.probs (θ.set r x'))[j]? = some [1 - q₂, q₂]
      ∧ q₁ < q₂ :=
  ⟨_, _, C03_twoPL_formula m hwf θ j a d hp, C03_twoPL_formula m hwf _ j a d hp,
    logistic_strictMono (by have := dot_lt_dot_set θ a r x x' s hx hs hpos hxx; linarith)⟩

example : exTwoPL.WF ∧ exTwoPL.itemParameters[0]? = some ([1, 0], 1 / 2) ∧
    ([1, 0] : List ℝ)[0]? = some 1 ∧ (0:ℝ) < 1 ∧ ([3, 4] : List ℝ)[0]? = some 3 ∧ (3:ℝ) < 5 :=
  ⟨exTwoPL_wf, by simp [TwoPL.itemParameters, TwoPL.weights, exTwoPL, viewRows, scatterMask],
    by simp, by norm_num, by simp, by norm_num⟩

/-- C03: the 3PL probabilities in the reported parameters: `c + (1-c) logistic(aθ + d)`. -/
theorem C03_threePL_formula (m : ThreePL) (θ : List ℝ) (j : ℕ) (a : List ℝ) (d c : ℝ)
    (hp : m.itemParameters[j]? = some (a, d, c)) :
    (m.probs θ)[j]? = some [1 - (c + (1 - c) * logistic (dot θ a + d)), c + (1 - c) * logistic (dot θ a + d)] := by
  rw [ThreePL.itemParameters, List.getElem?_zip_eq_some, List.getElem?_zip_eq_some,
    List.getElem?_map] at hp
  obtain ⟨hw, hb, hg⟩ := hp
  simp only at hw hb hg
  cases hgr : m.guessing[j]? with
  | none => rw [hgr] at hg; simp at hg
  | some g =>
    rw [hgr] at hg
    have hgc : sigmoid g = c := by simpa using hg
    have : (m.forwardRow θ)[j]? = some (sigmoid (dot θ a + d) * (1 - c) + c) := by
      simp only [ThreePL.forwardRow, List.getElem?_zipWith, List.getElem?_map, hw, hb, hgr,
        Option.map_some, hgc]
    rw [ThreePL.probs, List.getElem?_map, this, Option.map_some, logistic_eq_sigmoid]
    congr 2
    · ring
    · congr 1; ring

/-- C03: the reported guessing parameter lies strictly between 0 and 1 and the 3PL success probability
strictly between the guessing parameter and 1. -/
theorem C03_threePL_bounds (m : ThreePL) (θ : List ℝ) (j : ℕ) (a : List ℝ) (d c : ℝ)
    (hp : m.itemParameters[j]? = some (a, d, c)) :
    0 < c ∧ c < 1 ∧ ∃ q, (m.probs θ)[j]? = some [1 - q, q] ∧ c < q ∧ q < 1 := by
  have hc : 0 < c ∧ c < 1 := by
    rw [ThreePL.itemParameters, List.getElem?_zip_eq_some, List.getElem?_zip_eq_some,
      List.getElem?_map] at hp
    obtain ⟨_, _, hg⟩ := hp
    simp only at hg
    cases hgr : m.guessing[j]? with
    | none => rw [hgr] at hg; simp at hg
    | some g =>
      rw [hgr] at hg
      have hgc : sigmoid g = c := by simpa using hg
      rw [← hgc]; exact ⟨sigmoid_pos g, sigmoid_lt_one g⟩
  refine ⟨hc.1, hc.2, _, C03_threePL_formula m θ j a d c hp, ?_, ?_⟩
  · have := mul_pos (sub_pos.2 hc.2) (logistic_pos (dot θ a + d)); linarith
  · have := mul_lt_mul_of_pos_left (logistic_lt_one (dot θ a + d)) (sub_pos.2 hc.2); linarith

/-- C03: the 3PL success probability strictly increases with a latent trait of positive slope. -/
theorem C03_threePL_increasing (m : ThreePL) (θ : List ℝ) (j r : ℕ) (a : List ℝ)
    (d c x x' s : ℝ) (hp : m.itemParameters[j]? = some (a, d, c)) (hs : a[r]? = some s) (hpos : 0 < s)
    (hx : θ[r]? = some x) (hxx : x < x') :
    ∃ q₁ q₂, (m.probs θ)[j]? = some [1 - q₁, q₁] ∧ (m.probs (θ.set r x'))[j]? = some [1 - q₂, q₂]
      ∧ q₁ < q₂ := by
  have hb := C03_threePL_bounds m θ j a d c hp
  refine ⟨_, _, C03_threePL_formula m θ j a d c hp, C03_threePL_formula m _ j a d c hp, ?_⟩
  have h1 := logistic_strictMono (a := dot θ a + d) (b := dot (θ.set r x') a + d)
    (by have := dot_lt_dot_set θ a r x x' s hx hs hpos hxx; linarith)
  have := mul_lt_mul_of_pos_left h1 (sub_pos.2 hb.2.1)
  linarith

example : exThreePL.itemParameters[0]? = some ([1, 0], 1 / 2, sigmoid (-1)) := by
  simp [ThreePL.itemParameters, ThreePL.weights, exThreePL, viewRows, scatterMask]

/-! ## C05: generalized partial credit -/

/-- The documented formula (generalized_partial_credit.py 22-33):
`P(X = x) ∝ exp(x a·θ + Σ_{m=1}^{x} d_m)`. -/
noncomputable def gpcDocumented (c M : ℕ) (t : ℝ) (d : ℕ → ℝ) : List ℝ :=
  multinomialLogit c M fun x => x * t + ∑ m ∈ Finset.range x, d (m + 1)

/-- C05, the part that holds: the model is a generalized partial credit model whose reported `d_x` is
the intercept of category `x` itself, `P(X = x) ∝ exp(x a·θ + d_x)`, `d_0 = 0`. Missing with respect to
C05: the documented cumulative sum over `d`, which is false (`C05_gpc_doc_formula_false`). -/
theorem C05_gpc_formula_partial (m : GPC) (hwf : m.WF) (θ : List ℝ) (j c : ℕ) (a dl : List ℝ)
    (d : ℕ → ℝ) (hc : m.cats[j]? = some c) (hp : m.itemParameters[j]? = some (a, dl))
    (hd : ∀ k, k < m.M → dl[k]? = some (d k)) :
    d 0 = 0 ∧ (m.probs θ)[j]? = some (multinomialLogit c m.M fun x => x * dot θ a + d x) := by
  refine ⟨?_, m.probs_row hwf θ j c a dl d hc hp hd⟩
  have hmem := List.mem_of_getElem? hc
  have hM : 0 < m.M := lt_of_lt_of_le (hwf.catsPos c hmem) (le_maxCats _ _ hmem)
  rw [GPC.itemParameters, List.getElem?_zip_eq_some] at hp
  have h0 := hd 0 hM
  rw [← viewRows_row_entry _ _ _ (by rw [GPC.biases, length_scatterMask, length_freeMask]) j dl hp.2 0 hM,
    GPC.biases, scatterMask_false 0 (freeMask m.M m.cats) m.bias _
      (by rw [freeMask_getElem? m.M m.cats j 0 c hc hM]; simp)] at h0
  simpa using h0.symm

theorem exGPC_params : exGPC.itemParameters[0]? = some (([1, 0] : List ℝ), ([0, 1 / 2, -1] : List ℝ)) := by
  simp [GPC.itemParameters, GPC.weights, GPC.biases, exGPC, viewRows, scatterMask, GPC.M, maxCats,
    freeMask, freeRow, List.range_succ]

example : exGPC.WF ∧ exGPC.cats[0]? = some 3 ∧
    exGPC.itemParameters[0]? = some (([1, 0] : List ℝ), ([0, 1 / 2, -1] : List ℝ)) :=
  ⟨exGPC_wf, by simp [exGPC], exGPC_params⟩

theorem multinomialLogit_eq_iff (c M : ℕ) (hc : 0 < c) (h : c ≤ M) (l₁ l₂ : ℕ → ℝ) (h0 : l₁ 0 = l₂ 0) :
    multinomialLogit c M l₁ = multinomialLogit c M l₂ ↔ ∀ k, k < c → l₁ k = l₂ k := by
  constructor
  · intro heq k hk
    have hS1 := sum_exp_range_pos c hc l₁
    have hS2 := sum_exp_range_pos c hc l₂
    have hent : ∀ k, k < c → Real.exp (l₁ k) / ∑ x ∈ Finset.range c, Real.exp (l₁ x)
        = Real.exp (l₂ k) / ∑ x ∈ Finset.range c, Real.exp (l₂ x) := by
      intro k hk
      have := congrArg (fun l : List ℝ => l[k]?) heq
      simpa [multinomialLogit, List.getElem?_range (show k < M by omega), hk] using this
    have e0 := hent 0 hc
    have ek := hent k hk
    rw [h0, div_eq_div_iff hS1.ne' hS2.ne'] at e0
    have hSS := mul_left_cancel₀ (Real.exp_pos (l₂ 0)).ne' e0
    rw [hSS, div_left_inj' hS1.ne'] at ek
    exact Real.exp_injective ek
  · intro hk
    unfold multinomialLogit
    apply List.map_congr_left
    intro k _
    split
    · rw [hk k (by assumption)]
      congr 1
      apply Finset.sum_congr rfl
      intro x hx
      rw [hk x (Finset.mem_range.1 hx)]
    · rfl

/-- C05: the documented formula holds for an item exactly when all its intercepts but the last are zero
(in particular for binary items). -/
theorem C05_gpc_doc_formula_iff (m : GPC) (hwf : m.WF) (θ : List ℝ) (j c : ℕ) (a dl : List ℝ)
    (d : ℕ → ℝ) (hc : m.cats[j]? = some c) (hp : m.itemParameters[j]? = some (a, dl))
    (hd : ∀ k, k < m.M → dl[k]? = some (d k)) :
    (m.probs θ)[j]? = some (gpcDocumented c m.M (dot θ a) d) ↔ ∀ k, 0 < k → k + 1 < c → d k = 0 := by
  obtain ⟨h0, hpr⟩ := C05_gpc_formula_partial m hwf θ j c a dl d hc hp hd
  have hmem := List.mem_of_getElem? hc
  rw [hpr, Option.some_inj, gpcDocumented,
    multinomialLogit_eq_iff c m.M (hwf.catsPos c hmem) (le_maxCats _ _ hmem) _ _ (by simp [h0])]
  constructor
  · intro h k hk hkc
    have h1 := h k (by omega)
    have h2 := h (k + 1) hkc
    rw [Finset.sum_range_succ] at h2
    push_cast at h2 h1
    linarith
  · intro h k hk
    have : ∑ i ∈ Finset.range k, d (i + 1) = d k := by
      cases k with
      | zero => simp [h0]
      | succ k =>
        rw [Finset.sum_range_succ]
        rw [Finset.sum_eq_zero (fun i hi => h (i + 1) (by omega) (by have := Finset.mem_range.1 hi; omega))]
        simp
    rw [this]

/-- C05 is false of the code: a three-category item, at `θ = (0,0)`, with the reported parameters does
not follow the documented formula. -/
theorem C05_gpc_doc_formula_false :
    ∃ (m : GPC) (θ : List ℝ) (j c : ℕ) (a dl : List ℝ) (d : ℕ → ℝ), m.WF ∧ m.cats[j]? = some c ∧
      m.itemParameters[j]? = some (a, dl) ∧ (∀ k, k < m.M → dl[k]? = some (d k)) ∧
      (m.probs θ)[j]? ≠ some (gpcDocumented c m.M (dot θ a) d) := by
  obtain ⟨d, hd⟩ := exists_entry_fun ([0, 1 / 2, -1] : List ℝ)
  have hM : exGPC.M = 3 := by simp [GPC.M, exGPC, maxCats]
  have hd' : ∀ k, k < exGPC.M → ([0, 1 / 2, -1] : List ℝ)[k]? = some (d k) := by
    intro k hk; exact hd k (by rw [hM] at hk; simpa using hk)
  refine ⟨exGPC, [0, 0], 0, 3, [1, 0], [0, 1 / 2, -1], d, exGPC_wf, by simp [exGPC], exGPC_params, hd', ?_⟩
  rw [Ne, C05_gpc_doc_formula_iff exGPC exGPC_wf [0, 0] 0 3 [1, 0] [0, 1 / 2, -1] d (by simp [exGPC])
    exGPC_params hd']
  intro h
  have h1 := h 1 (by norm_num) (by norm_num)
  have h2 := hd 1 (by simp)
  rw [h1] at h2
  norm_num at h2

/-! ## C06: nominal response model -/

/-- C06: in every nominal response model the reported intercepts of an item sum to zero and so do its
reported slopes on every latent variable. -/
theorem C06_nrm_sum_to_zero (m : NRM) (hwf : m.WF) (j : ℕ) (wl : List (List ℝ)) (dl : List ℝ)
    (hp : m.itemParameters[j]? = some (wl, dl)) :
    dl.sum = 0 ∧ ∀ i, i < m.lv → (wl.map fun w => w.getD i 0).sum = 0 := by
  rw [NRM.itemParameters, List.getElem?_zip_eq_some] at hp
  have hj : j < m.cats.length := by rw [← m.length_weights]; exact lt_of_getElem?_some hp.1
  obtain ⟨c, hc⟩ := getElem?_of_lt m.cats j hj
  have hmem := List.mem_of_getElem? hc
  have hM : 0 < m.M := lt_of_lt_of_le (hwf.catsPos c hmem) (le_maxCats _ _ hmem)
  exact ⟨m.sum_bias j dl hM hp.2, fun i hi => m.sum_weight hwf j wl hM hp.1 i hi⟩

/-- C06: every slope row of an item has one entry per latent variable (so `getD` above never uses its
default), and the probabilities are multinomial logits of `aₓ·θ + dₓ` in the reported parameters. -/
theorem C06_nrm_formula (m : NRM) (hwf : m.WF) (θ : List ℝ) (j c : ℕ)
    (wl : List (List ℝ)) (dl : List ℝ) (w : ℕ → List ℝ) (d : ℕ → ℝ)
    (hc : m.cats[j]? = some c) (hp : m.itemParameters[j]? = some (wl, dl))
    (hw : ∀ k, k < m.M → wl[k]? = some (w k)) (hd : ∀ k, k < m.M → dl[k]? = some (d k)) :
    (∀ r ∈ wl, r.length = m.lv) ∧
    (m.probs θ)[j]? = some (multinomialLogit c m.M fun k => dot θ (w k) + d k) := by
  refine ⟨?_, m.probs_row θ j c wl dl w d hc hp hw hd⟩
  have hmem := List.mem_of_getElem? hc
  have hM : 0 < m.M := lt_of_lt_of_le (hwf.catsPos c hmem) (le_maxCats _ _ hmem)
  rw [NRM.itemParameters, List.getElem?_zip_eq_some] at hp
  exact m.weight_row_length hwf j wl hM hp.1

/-- C06: two parameter vectors of one model structure that give the same probabilities everywhere are
equal. -/
theorem C06_nrm_identified (m₁ m₂ : NRM) (h₁ : m₁.WF) (h₂ : m₂.WF) (hlv : m₁.lv = m₂.lv)
    (hcats : m₁.cats = m₂.cats) (hrel : m₁.rel = m₂.rel)
    (h : ∀ θ : List ℝ, θ.length = m₁.lv → m₁.probs θ = m₂.probs θ) :
    m₁.weight = m₂.weight ∧ m₁.bias = m₂.bias :=
  NRM.identified m₁ m₂ h₁ h₂ hlv hcats hrel h

theorem exNRM_params : exNRM.itemParameters[0]?
    = some (([[-3, 0], [1, 0], [2, 0]] : List (List ℝ)), ([1 / 2, 1 / 2, -1] : List ℝ)) := by
  simp [NRM.itemParameters, NRM.weights, NRM.biases, exNRM, viewRows, scatterMask, NRM.M, maxCats,
    freeMask, freeRow, List.range_succ, NRM.freeWeights, nrmFreeRows, sumRows]
  norm_num

example : exNRM.WF ∧ exNRM.itemParameters[0]? = some (([[-3, 0], [1, 0], [2, 0]] : List (List ℝ)), ([1 / 2, 1 / 2, -1] : List ℝ)) :=
  ⟨exNRM_wf, exNRM_params⟩

/-! ## C16: item–latent variable relationships -/

theorem weightTable_zero (n lv : ℕ) (rel : List (List Bool)) (p : List ℝ) (hlen : rel.length = n)
    (hrow : ∀ r ∈ rel, r.length = lv) (j i : ℕ) (r : List Bool) (hr : rel[j]? = some r)
    (hi : r[i]? = some false) (w : List ℝ)
    (hw : (viewRows n lv (scatterMask 0 rel.flatten p))[j]? = some w) : w[i]? = some 0 := by
  have hil : i < lv := by
    rw [← hrow r (List.mem_of_getElem? hr)]; exact lt_of_getElem?_some hi
  rw [← viewRows_row_entry n lv _ (by rw [length_scatterMask, length_flatten_const lv rel hrow, hlen])
    j w hw i hil]
  apply scatterMask_false
  rw [flatten_getElem? lv rel hrow j i hil, hr, Option.bind_some, hi]

/-- C16 (2PL): an item not related to latent variable `i` reports a zero slope for it and its
probabilities do not depend on it. -/
theorem C16_twoPL_unrelated (m : TwoPL) (hwf : m.WF) (θ : List ℝ) (x : ℝ) (j i : ℕ) (r : List Bool)
    (hr : m.rel[j]? = some r) (hi : r[i]? = some false) :
    (∃ a d, m.itemParameters[j]? = some (a, d) ∧ a[i]? = some 0) ∧
    (m.probs (θ.set i x))[j]? = (m.probs θ)[j]? := by
  have hj : j < m.items := by rw [← hwf.relLen]; exact lt_of_getElem?_some hr
  obtain ⟨w, b, hp⟩ := m.exists_params hwf j hj
  have hw : w[i]? = some 0 := by
    have hp' := hp
    rw [TwoPL.itemParameters, List.getElem?_zip_eq_some] at hp'
    exact weightTable_zero m.items m.lv m.rel m.weight hwf.relLen hwf.relRow j i r hr hi w hp'.1
  refine ⟨⟨w, b, hp, hw⟩, ?_⟩
  rw [C03_twoPL_formula m hwf _ j w b hp, C03_twoPL_formula m hwf _ j w b hp, dot_set_zero θ w i x hw]

example : exTwoPL.WF ∧ exTwoPL.rel[0]? = some [true, false] ∧ ([true, false] : List Bool)[1]? = some false :=
  ⟨exTwoPL_wf, by simp [exTwoPL], by simp⟩

/-- C16 (3PL). -/
theorem C16_threePL_unrelated (m : ThreePL) (hwf : m.WF) (θ : List ℝ) (x : ℝ) (j i : ℕ) (r : List Bool)
    (hr : m.rel[j]? = some r) (hi : r[i]? = some false) :
    (∃ a d c, m.itemParameters[j]? = some (a, d, c) ∧ a[i]? = some 0) ∧
    (m.probs (θ.set i x))[j]? = (m.probs θ)[j]? := by
  have hj : j < m.items := by rw [← hwf.relLen]; exact lt_of_getElem?_some hr
  obtain ⟨w, hw⟩ := getElem?_of_lt m.weights j (by rw [ThreePL.weights, length_viewRows]; exact hj)
  obtain ⟨b, hb⟩ := getElem?_of_lt m.bias j (by rw [hwf.biasLen]; exact hj)
  obtain ⟨g, hg⟩ := getElem?_of_lt m.guessing j (by rw [hwf.guessLen]; exact hj)
  have hp : m.itemParameters[j]? = some (w, b, sigmoid g) := by
    rw [ThreePL.itemParameters, List.getElem?_zip_eq_some, List.getElem?_zip_eq_some, List.getElem?_map, hg]
    exact ⟨hw, hb, rfl⟩
  have hw0 := weightTable_zero m.items m.lv m.rel m.weight hwf.relLen hwf.relRow j i r hr hi w hw
  refine ⟨⟨w, b, _, hp, hw0⟩, ?_⟩
  rw [C03_threePL_formula m _ j w b _ hp, C03_threePL_formula m _ j w b _ hp, dot_set_zero θ w i x hw0]

example : exThreePL.WF ∧ exThreePL.rel[0]? = some [true, false] := ⟨exThreePL_wf, by simp [exThreePL]⟩

/-- C16 (generalized partial credit). -/
theorem C16_gpc_unrelated (m : GPC) (hwf : m.WF) (θ : List ℝ) (x : ℝ) (j i : ℕ) (r : List Bool)
    (hr : m.rel[j]? = some r) (hi : r[i]? = some false) :
    (∃ a d, m.itemParameters[j]? = some (a, d) ∧ a[i]? = some 0) ∧
    (m.probs (θ.set i x))[j]? = (m.probs θ)[j]? := by
  have hj : j < m.cats.length := by rw [← hwf.relLen]; exact lt_of_getElem?_some hr
  obtain ⟨c, hc⟩ := getElem?_of_lt m.cats j hj
  obtain ⟨w, dl, hp, hl⟩ := m.exists_params j hj
  obtain ⟨d, hd⟩ := exists_entry_fun dl
  have hw : w[i]? = some 0 := by
    have hp' := hp
    rw [GPC.itemParameters, List.getElem?_zip_eq_some] at hp'
    exact weightTable_zero m.cats.length m.lv m.rel m.weight hwf.relLen hwf.relRow j i r hr hi w hp'.1
  refine ⟨⟨w, dl, hp, hw⟩, ?_⟩
  rw [m.probs_row hwf _ j c w dl d hc hp (fun k hk => hd k (by omega)),
    m.probs_row hwf _ j c w dl d hc hp (fun k hk => hd k (by omega)), dot_set_zero θ w i x hw]

example : exGPC.WF ∧ exGPC.rel[0]? = some [true, false] := ⟨exGPC_wf, by simp [exGPC]⟩

theorem GRM.exists_params (m : GRM) (j : ℕ) (hj : j < m.cats.length) :
    ∃ w dl, m.itemParameters[j]? = some (w, dl) ∧ dl.length = m.M - 1 := by
  obtain ⟨w, hw⟩ := getElem?_of_lt m.weights j (by rw [GRM.weights, length_viewRows]; exact hj)
  obtain ⟨row, hrow⟩ := getElem?_of_lt (viewRows m.cats.length m.M m.biases) j
    (by rw [length_viewRows]; exact hj)
  refine ⟨w, row.tail, ?_, ?_⟩
  · rw [GRM.itemParameters, List.getElem?_zip_eq_some, List.getElem?_map, hrow]
    exact ⟨hw, rfl⟩
  · rw [List.length_tail, mem_viewRows_length _ _ _ _ row (List.mem_of_getElem? hrow)]
    rw [GRM.biases, length_scatterMask, length_freeMask]

theorem GRM.exists_thresholds (m : GRM) (dl : List ℝ) (h : dl.length = m.M - 1) :
    ∃ d : ℕ → ℝ, ∀ k, k + 1 < m.M → dl[k]? = some (d (k + 1)) := by
  obtain ⟨d, hd⟩ := exists_entry_fun dl
  exact ⟨fun k => d (k - 1), fun k hk => hd k (by omega)⟩

/-- C16 (graded response). -/
theorem C16_grm_unrelated (m : GRM) (hwf : m.WF) (θ : List ℝ) (x : ℝ) (j i : ℕ) (r : List Bool)
    (hr : m.rel[j]? = some r) (hi : r[i]? = some false) :
    (∃ a d, m.itemParameters[j]? = some (a, d) ∧ a[i]? = some 0) ∧
    (m.probs (θ.set i x))[j]? = (m.probs θ)[j]? := by
  have hj : j < m.cats.length := by rw [← hwf.relLen]; exact lt_of_getElem?_some hr
  obtain ⟨c, hc⟩ := getElem?_of_lt m.cats j hj
  obtain ⟨w, dl, hp, hl⟩ := m.exists_params j hj
  obtain ⟨d, hd⟩ := m.exists_thresholds dl hl
  have hw : w[i]? = some 0 := by
    have hp' := hp
    rw [GRM.itemParameters, List.getElem?_zip_eq_some] at hp'
    exact weightTable_zero m.cats.length m.lv m.rel m.weight hwf.relLen hwf.relRow j i r hr hi w hp'.1
  refine ⟨⟨w, dl, hp, hw⟩, ?_⟩
  rw [m.probs_row _ j c w dl d hc hp hd, m.probs_row _ j c w dl d hc hp hd, dot_set_zero θ w i x hw]

example : exGRM.WF ∧ exGRM.rel[0]? = some [true, false] := ⟨exGRM_wf, by simp [exGRM]⟩

/-- C16 (nominal response): every category's slope is zero and the probabilities do not change. -/
theorem C16_nrm_unrelated (m : NRM) (hwf : m.WF) (θ : List ℝ) (x : ℝ) (j i : ℕ) (r : List Bool)
    (hr : m.rel[j]? = some r) (hi : r[i]? = some false) :
    (∃ wl dl, m.itemParameters[j]? = some (wl, dl) ∧ ∀ w ∈ wl, w[i]? = some 0) ∧
    (m.probs (θ.set i x))[j]? = (m.probs θ)[j]? := by
  have hj : j < m.cats.length := by rw [← hwf.relLen]; exact lt_of_getElem?_some hr
  have hil : i < m.lv := by
    rw [← hwf.relRow r (List.mem_of_getElem? hr)]; exact lt_of_getElem?_some hi
  obtain ⟨c, hc⟩ := getElem?_of_lt m.cats j hj
  have hmem := List.mem_of_getElem? hc
  have hcpos := hwf.catsPos c hmem
  have hM : 0 < m.M := lt_of_lt_of_le hcpos (le_maxCats _ _ hmem)
  obtain ⟨wl, dl, hp, hwl, hdl⟩ := m.exists_params j hj
  obtain ⟨w, hw⟩ := exists_entry_fun wl
  obtain ⟨d, hd⟩ := exists_entry_fun dl
  have hp' := hp
  rw [NRM.itemParameters, List.getElem?_zip_eq_some] at hp'
  have hz : ∀ k, k < m.M → (w k)[i]? = some 0 := by
    intro k hk
    have h1 := m.weight_zero hwf j c k i r wl hc hr hp'.1 hk hil hcpos (Or.inr hi) (w k) (hw k (by omega))
    have h2 := m.weight_row_length hwf j wl hM hp'.1 (w k) (List.mem_of_getElem? (hw k (by omega)))
    obtain ⟨y, hy⟩ := getElem?_of_lt (w k) i (by omega)
    rw [List.getD_eq_getElem?_getD, hy] at h1
    rw [hy]; simpa using h1
  refine ⟨⟨wl, dl, hp, ?_⟩, ?_⟩
  · intro v hv
    obtain ⟨k, hk⟩ := List.mem_iff_getElem?.1 hv
    have hkM : k < m.M := by rw [← hwl]; exact lt_of_getElem?_some hk
    have := hw k (by omega)
    rw [hk] at this
    rw [Option.some.inj this]; exact hz k hkM
  · rw [m.probs_row _ j c wl dl w d hc hp (fun k hk => hw k (by omega)) (fun k hk => hd k (by omega)),
      m.probs_row _ j c wl dl w d hc hp (fun k hk => hw k (by omega)) (fun k hk => hd k (by omega))]
    have hcM := le_maxCats _ _ hmem
    rw [Option.some_inj, multinomialLogit, multinomialLogit]
    apply List.map_congr_left
    intro k hk
    have hkM := List.mem_range.1 hk
    rw [dot_set_zero θ (w k) i x (hz k hkM)]
    split
    · congr 1
      apply Finset.sum_congr rfl
      intro y hy
      have hyc := Finset.mem_range.1 hy
      have : c ≤ m.M := hcM
      rw [dot_set_zero θ (w y) i x (hz y (by omega))]
    · rfl

example : exNRM.WF ∧ exNRM.rel[0]? = some [true, false] := ⟨exNRM_wf, by simp [exNRM]⟩

/-- C16: every free slope is used exactly once: reading the reported slope matrix at the related
(item, latent variable) pairs in order gives the parameter vector back (2PL, 3PL, GPC, GRM share this
table). -/
theorem C16_parameters_used_once (m : GPC) (hwf : m.WF) :
    gatherMask m.rel.flatten (m.itemParameters.map Prod.fst).flatten = m.weight := by
  have hl : (scatterMask (0:ℝ) m.rel.flatten m.weight).length = m.cats.length * m.lv := by
    rw [length_scatterMask, length_flatten_const m.lv m.rel hwf.relRow, hwf.relLen]
  have e : m.itemParameters.map Prod.fst = m.weights := by
    rw [GPC.itemParameters, List.map_fst_zip]
    rw [GPC.weights, length_viewRows, length_viewRows]
  rw [e, GPC.weights, flatten_viewRows _ _ _ hl, gather_scatterMask 0 _ _ hwf.weightLen]

/-! ## C63: `irt_format` -/

/-- C63 (2PL): with `irt_format=True` the reported `(a, b)` satisfies `P(X=1) = logistic(a (θ - b))`
for a nonzero slope. -/
theorem C63_twoPL_irt_format (m : TwoPL) (hwf : m.WF) (hlv : m.lv = 1) (t : ℝ) (j : ℕ) (hj : j < m.items) :
    ∃ ps, m.itemParametersIrt = .ok ps ∧ ∃ a b, ps[j]? = some ([a], [b]) ∧
      (a ≠ 0 → (m.probs [t])[j]? = some [1 - logistic (a * (t - b)), logistic (a * (t - b))]) := by
  obtain ⟨w, d, hp⟩ := m.exists_params hwf j hj
  have hp' := hp
  rw [TwoPL.itemParameters, List.getElem?_zip_eq_some] at hp'
  have hwl : w.length = 1 := by
    rw [← hlv]
    apply mem_viewRows_length m.items m.lv _ _ w (List.mem_of_getElem? hp'.1)
    rw [length_scatterMask, length_flatten_const m.lv m.rel hwf.relRow, hwf.relLen]
  obtain ⟨a, rfl⟩ := List.length_eq_one_iff.1 hwl
  refine ⟨_, by simp [TwoPL.itemParametersIrt, hlv]; rfl, a, -(d / a), ?_, ?_⟩
  · rw [List.getElem?_map]
    have : (m.weights.zip m.bias)[j]? = some ([a], d) := hp
    rw [this]; rfl
  · intro ha
    rw [C03_twoPL_formula m hwf [t] j [a] d hp]
    have : dot [t] [a] + d = a * (t - -(d / a)) := by
      simp only [dot, List.zipWith_cons_cons, List.zipWith_nil_left, List.sum_cons, List.sum_nil]
      field_simp
      ring
    rw [this]

/-- C63 (2PL): refused for several latent variables. -/
theorem C63_twoPL_irt_format_refused (m : TwoPL) (hlv : 1 < m.lv) :
    m.itemParametersIrt = .error .valueError := by
  simp [TwoPL.itemParametersIrt, hlv]

example : ∃ m : TwoPL, m.WF ∧ m.lv = 1 ∧ 0 < m.items ∧ m.weight = [2] :=
  ⟨{ items := 1, lv := 1, rel := [[true]], weight := [2], bias := [3] },
    ⟨rfl, by simp, by simp [countTrue], rfl⟩, rfl, by norm_num, rfl⟩
example : 1 < exTwoPL.lv := by simp [exTwoPL]

end Irt
