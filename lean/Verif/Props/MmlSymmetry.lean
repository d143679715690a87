import Verif.Lemmas.GradientFit

/-! # Property C105: the latent variables in marginal maximum likelihood -/

namespace Irt
open Spec

/-! ## What the objective can tell apart -/

/-- C105: with the default covariance matrix the objective does not depend on the names of the latent variables: models whose
probabilities are the same after renaming have the same loss. -/
theorem C105_relabel {d : ℕ} {hg : ℕ → Except PyErr (List ℝ × List ℝ)}
    {ch : Matrix (Fin d) (Fin d) ℝ → Except PyErr (Matrix (Fin d) (Fin d) ℝ)} {method : String} {points : Option ℕ} {q : ℕ}
    (hrule : MmlRule hg ch method points q) {m' m : Scorer d} {cats : List ℕ} {P' P : (Fin d → ℝ) → ℕ → ℕ → ℝ}
    (hm' : IsScorer m' cats P') (hm : IsScorer m cats P) (hpos : PositiveProbs P cats) (σ : Equiv.Perm (Fin d))
    (hσ : SameUpTo (relabel σ) P' P) (N : ℕ) (y : ℕ → ℕ → Cell) (hy : ∀ i, i < N → ValidResponses cats (y i)) :
    ∃ pts lw x, mmlIntegration hg ch method points none = .ok (pts, lw) ∧
      mmlLoss m' (rowsOf N cats.length y) pts lw = .ok (some x) ∧ mmlLoss m (rowsOf N cats.length y) pts lw = .ok (some x) := by
  obtain ⟨pts, lw, hok, hne, hlen, hperm, _⟩ := mmlIntegration_symmetric hrule
  exact ⟨pts, lw, _, hok, (mmlLoss_symmetric hm' hm hpos hσ N y hy pts lw hlen hne (hperm σ)).trans
    (mmlLoss_weighted hm hpos N y hy pts lw hlen hne), mmlLoss_weighted hm hpos N y hy pts lw hlen hne⟩

/-- C105: nor does it depend on the direction of a latent variable, if the Gauss-Hermite rule is symmetric and the equidistant grid
has at least two points per latent variable. -/
theorem C105_turn_round {d : ℕ} {hg : ℕ → Except PyErr (List ℝ × List ℝ)}
    {ch : Matrix (Fin d) (Fin d) ℝ → Except PyErr (Matrix (Fin d) (Fin d) ℝ)} {method : String} {points : Option ℕ} {q : ℕ}
    (hrule : MmlRule hg ch method points q) (hsym : method = "gauss_hermite" → ∃ x w, hg q = .ok (x, w) ∧ SymmetricRule x w)
    (hq : method ≠ "gauss_hermite" → 2 ≤ q) {m' m : Scorer d} {cats : List ℕ} {P' P : (Fin d → ℝ) → ℕ → ℕ → ℝ}
    (hm' : IsScorer m' cats P') (hm : IsScorer m cats P) (hpos : PositiveProbs P cats) (s : Fin d → Bool)
    (hs : SameUpTo (turnRound s) P' P) (N : ℕ) (y : ℕ → ℕ → Cell) (hy : ∀ i, i < N → ValidResponses cats (y i)) :
    ∃ pts lw x, mmlIntegration hg ch method points none = .ok (pts, lw) ∧
      mmlLoss m' (rowsOf N cats.length y) pts lw = .ok (some x) ∧ mmlLoss m (rowsOf N cats.length y) pts lw = .ok (some x) := by
  obtain ⟨pts, lw, hok, hne, hlen, _, hturn⟩ := mmlIntegration_symmetric hrule
  exact ⟨pts, lw, _, hok, (mmlLoss_symmetric hm' hm hpos hs N y hy pts lw hlen hne (hturn hsym hq s)).trans
    (mmlLoss_weighted hm hpos N y hy pts lw hlen hne), mmlLoss_weighted hm hpos N y hy pts lw hlen hne⟩

/-! ## The parametric models as functions of their slope tables -/

theorem TwoPL.positive (m : TwoPL) (hwf : m.WF) (d : ℕ) :
    PositiveProbs (fun θ : Fin d → ℝ => tableProb (m.probs (List.ofFn θ))) (List.replicate m.items 2) := by
  intro θ j c r hc hr
  exact (m.logitModel hwf d).pos θ j c r hc hr

theorem GPC.positive (m : GPC) (hwf : m.WF) (d : ℕ) :
    PositiveProbs (fun θ : Fin d → ℝ => tableProb (m.probs (List.ofFn θ))) m.cats := by
  intro θ j c r hc hr
  exact (m.logitModel hwf d).pos θ j c r hc hr

theorem ThreePL.positive (m : ThreePL) (hwf : m.WF) (d : ℕ) :
    PositiveProbs (fun θ : Fin d → ℝ => tableProb (m.probs (List.ofFn θ))) (List.replicate m.items 2) := by
  intro θ j c r hc hr
  obtain ⟨hj, rfl⟩ := replicate_getElem? _ _ _ _ hc
  obtain ⟨w, b, g, hpar⟩ := m.exists_params hwf j hj
  obtain ⟨h0, h1, p, hp, hcp, hp1⟩ := C03_threePL_bounds m (List.ofFn θ) j w b g hpar
  dsimp only
  rw [tableProb_row _ _ _ _ hp]
  interval_cases r
  · simp only [List.getD_cons_zero]; linarith
  · simp only [List.getD_cons_succ, List.getD_cons_zero]; linarith

/-- The model a constructor makes with every relationship allowed and the given parameters. -/
def TwoPL.free (items d : ℕ) (w b : List ℝ) : TwoPL :=
  { items, lv := d, rel := List.replicate items (List.replicate d true), weight := w, bias := b }

theorem free_relRow {items d : ℕ} : ∀ r ∈ List.replicate items (List.replicate d true), r.length = d := by
  intro r hr
  rw [List.eq_of_mem_replicate hr, List.length_replicate]

theorem TwoPL.free_wf (items d : ℕ) (w b : List ℝ) (hw : w.length = items * d) (hb : b.length = items) :
    (TwoPL.free items d w b).WF :=
  ⟨List.length_replicate, free_relRow, by rw [TwoPL.free, countTrue_free, hw], hb⟩

theorem TwoPL.free_weights (items d : ℕ) (w b : List ℝ) (hw : w.length = items * d) :
    (TwoPL.free items d w b).weights = viewRows items d w := by
  rw [TwoPL.weights, TwoPL.free, freeSlopes items d w hw]

theorem TwoPL.free_probs (items d : ℕ) (w w' b : List ℝ) (hw : w.length = items * d) (hw' : w'.length = items * d)
    (θ θ' : List ℝ) (h : (viewRows items d w').map (fun r => dot θ' r) = (viewRows items d w).map fun r => dot θ r) :
    (TwoPL.free items d w' b).probs θ' = (TwoPL.free items d w b).probs θ := by
  unfold TwoPL.probs TwoPL.forwardRow
  rw [TwoPL.free_weights _ _ _ _ hw, TwoPL.free_weights _ _ _ _ hw', h]
  rfl

/-- The three parameter logistic model with every relationship allowed. -/
def ThreePL.free (items d : ℕ) (w b g : List ℝ) : ThreePL :=
  { items, lv := d, rel := List.replicate items (List.replicate d true), weight := w, bias := b, guessing := g }

theorem ThreePL.free_wf (items d : ℕ) (w b g : List ℝ) (hw : w.length = items * d) (hb : b.length = items)
    (hg : g.length = items) : (ThreePL.free items d w b g).WF :=
  ⟨List.length_replicate, free_relRow, by rw [ThreePL.free, countTrue_free, hw], hb, hg⟩

theorem ThreePL.free_weights (items d : ℕ) (w b g : List ℝ) (hw : w.length = items * d) :
    (ThreePL.free items d w b g).weights = viewRows items d w := by
  rw [ThreePL.weights, ThreePL.free, freeSlopes items d w hw]

theorem ThreePL.free_probs (items d : ℕ) (w w' b g : List ℝ) (hw : w.length = items * d) (hw' : w'.length = items * d)
    (θ θ' : List ℝ) (h : (viewRows items d w').map (fun r => dot θ' r) = (viewRows items d w).map fun r => dot θ r) :
    (ThreePL.free items d w' b g).probs θ' = (ThreePL.free items d w b g).probs θ := by
  unfold ThreePL.probs ThreePL.forwardRow
  rw [ThreePL.free_weights _ _ _ _ _ hw, ThreePL.free_weights _ _ _ _ _ hw', h]
  rfl

/-- The generalized partial credit model with every relationship allowed. -/
def GPC.free (cats : List ℕ) (d : ℕ) (w b : List ℝ) : GPC :=
  { lv := d, cats, rel := List.replicate cats.length (List.replicate d true), weight := w, bias := b }

theorem GPC.free_wf (cats : List ℕ) (hc : ∀ c ∈ cats, 0 < c) (d : ℕ) (w b : List ℝ) (hw : w.length = cats.length * d)
    (hb : b.length = cats.sum - cats.length) : (GPC.free cats d w b).WF :=
  ⟨hc, List.length_replicate, free_relRow, by rw [GPC.free, countTrue_free, hw], hb⟩

theorem GPC.free_weights (cats : List ℕ) (d : ℕ) (w b : List ℝ) (hw : w.length = cats.length * d) :
    (GPC.free cats d w b).weights = viewRows cats.length d w := by
  rw [GPC.weights, GPC.free, freeSlopes cats.length d w hw]

theorem GPC.free_probs (cats : List ℕ) (d : ℕ) (w w' b : List ℝ) (hw : w.length = cats.length * d)
    (hw' : w'.length = cats.length * d) (θ θ' : List ℝ)
    (h : (viewRows cats.length d w').map (fun r => dot θ' r) = (viewRows cats.length d w).map fun r => dot θ r) :
    (GPC.free cats d w' b).probs θ' = (GPC.free cats d w b).probs θ := by
  unfold GPC.probs GPC.forwardRow
  rw [GPC.free_weights _ _ _ _ hw, GPC.free_weights _ _ _ _ hw', h]
  rfl

/-! ## Fits that start with equal slopes -/

theorem equalColumns_replicate (n d : ℕ) (v : ℝ) : EqualColumns n d (List.replicate (n * d) v) := by
  intro j hj k k' hk hk'
  rw [List.getElem?_replicate, List.getElem?_replicate, if_pos (index_lt hj hk), if_pos (index_lt hj hk')]

theorem slopeOf_equal {β : Type} (n d : ℕ) (w : List ℝ) (hw : w.length = n * d) (heq : EqualColumns n d w) (bs : List β)
    (hbs : bs.length = n) (j : ℕ) (hj : j < n) (k k' : ℕ) (hk : k < d) (hk' : k' < d) :
    slopeOf (List.zip (viewRows n d w) bs) j k = slopeOf (List.zip (viewRows n d w) bs) j k' := by
  obtain ⟨r, hr⟩ := getElem?_of_lt (viewRows n d w) j (by rw [length_viewRows]; exact hj)
  obtain ⟨b, hb⟩ := getElem?_of_lt bs j (by omega)
  have hp : (List.zip (viewRows n d w) bs)[j]? = some (r, b) := by rw [List.getElem?_zip_eq_some]; exact ⟨hr, hb⟩
  rw [slopeOf_eq _ _ _ _ hp, slopeOf_eq _ _ _ _ hp, row_entry n d w hw j r hr k hk, row_entry n d w hw j r hr k' hk',
    List.getD_eq_getElem?_getD, List.getD_eq_getElem?_getD, heq j hj k k' hk hk']

/-- C105: a two parameter logistic model for any number of latent variables, fitted by MML: whatever the data, the optimiser, the
number of epochs and the integration method, the fit ends without an error, every item has the same slope on all latent variables, and
the probabilities depend on the latent scores only through their sum. -/
theorem C105_twoPL_equal_slopes {d : ℕ} {A : Type} (S : MmlSettings d A) {q : ℕ}
    (hrule : MmlRule S.hermgauss S.cholesky S.method S.points q) (items : ℕ) (hitems : 0 < items) (N : ℕ) (y : ℕ → ℕ → Cell)
    (hy : ∀ i, i < N → ValidResponses (List.replicate items 2) (y i)) :
    ∃ m, TwoPL.fitMml S items (rowsOf N items y) = .ok m ∧ m.items = items ∧ m.lv = d ∧ m.WF ∧
      (∀ j k k', j < items → k < d → k' < d → slopeOf m.itemParameters j k = slopeOf m.itemParameters j k') ∧
      ∀ θ θ' : Fin d → ℝ, ∑ k, θ k = ∑ k, θ' k → m.probs (List.ofFn θ) = m.probs (List.ofFn θ') := by
  obtain ⟨w, b, hfit, hw, hb, heq⟩ := mmlFit_equal S hrule (fun w b => (TwoPL.free items d w b).scorer d) (List.replicate items 2)
    (fun w b θ => tableProb ((TwoPL.free items d w b).probs (List.ofFn θ))) items items
    (fun w b hw hb => (TwoPL.free items d w b).isScorer (TwoPL.free_wf items d w b hw hb) hitems d)
    (fun w b hw hb => (TwoPL.free items d w b).positive (TwoPL.free_wf items d w b hw hb) d)
    (fun σ w' w b hw' hw _ h θ => by
      dsimp only
      rw [TwoPL.free_probs items d w w' b hw hw' _ _ (slopes_renamed items d σ w' w hw' hw h θ)])
    N y hy (List.replicate (items * d) 1) (List.replicate items 0) List.length_replicate List.length_replicate
    (equalColumns_replicate items d 1)
  rw [List.length_replicate] at hfit
  refine ⟨TwoPL.free items d w b, ?_, rfl, rfl, TwoPL.free_wf items d w b hw hb, ?_, ?_⟩
  · unfold TwoPL.fitMml TwoPL.init
    simp only [checkRelationships, bind_ok, pure, Except.pure, countTrue_free]
    have hfit' : S.fit (fun w b => ({ items, lv := d, rel := List.replicate items (List.replicate d true), weight := w, bias := b } :
        TwoPL).scorer d) (rowsOf N items y) (List.replicate (items * d) 1) (List.replicate items 0) = .ok (w, b) := hfit
    simp only [hfit', bind_ok]
    rfl
  · intro j k k' hj hk hk'
    rw [TwoPL.itemParameters, TwoPL.free_weights _ _ _ _ hw]
    exact slopeOf_equal items d w hw heq _ hb j hj k k' hk hk'
  · intro θ θ' h
    exact TwoPL.free_probs items d w w b hw hw _ _ (slopes_equal items d w hw heq θ θ' h)

/-- C105: the same for the three parameter logistic model. -/
theorem C105_threePL_equal_slopes {d : ℕ} {A : Type} (S : MmlSettings d A) {q : ℕ}
    (hrule : MmlRule S.hermgauss S.cholesky S.method S.points q) (items : ℕ) (hitems : 0 < items) (N : ℕ) (y : ℕ → ℕ → Cell)
    (hy : ∀ i, i < N → ValidResponses (List.replicate items 2) (y i)) :
    ∃ m, ThreePL.fitMml S items (rowsOf N items y) = .ok m ∧ m.items = items ∧ m.lv = d ∧ m.WF ∧
      (∀ j k k', j < items → k < d → k' < d → slopeOf m.itemParameters j k = slopeOf m.itemParameters j k') ∧
      ∀ θ θ' : Fin d → ℝ, ∑ k, θ k = ∑ k, θ' k → m.probs (List.ofFn θ) = m.probs (List.ofFn θ') := by
  have htake : ∀ r : List ℝ, r.length = items + items → (r.take items).length = items := by
    intro r hr; rw [List.length_take]; omega
  have hdrop : ∀ r : List ℝ, r.length = items + items → (r.drop items).length = items := by
    intro r hr; rw [List.length_drop]; omega
  obtain ⟨w, r, hfit, hw, hr, heq⟩ := mmlFit_equal S hrule
    (fun w r => (ThreePL.free items d w (r.take items) (r.drop items)).scorer d) (List.replicate items 2)
    (fun w r θ => tableProb ((ThreePL.free items d w (r.take items) (r.drop items)).probs (List.ofFn θ))) items (items + items)
    (fun w r hw hr => ThreePL.isScorer _ (ThreePL.free_wf items d w _ _ hw (htake r hr) (hdrop r hr)) hitems d)
    (fun w r hw hr => ThreePL.positive _ (ThreePL.free_wf items d w _ _ hw (htake r hr) (hdrop r hr)) d)
    (fun σ w' w b hw' hw _ h θ => by
      dsimp only
      rw [ThreePL.free_probs items d w w' _ _ hw hw' _ _ (slopes_renamed items d σ w' w hw' hw h θ)])
    N y hy (List.replicate (items * d) 1) (List.replicate items 0 ++ List.replicate items (-1.1)) List.length_replicate
    (by simp) (equalColumns_replicate items d 1)
  rw [List.length_replicate] at hfit
  refine ⟨ThreePL.free items d w (r.take items) (r.drop items), ?_, rfl, rfl,
    ThreePL.free_wf items d w _ _ hw (htake r hr) (hdrop r hr), ?_, ?_⟩
  · unfold ThreePL.fitMml ThreePL.init
    simp only [checkRelationships, bind_ok, pure, Except.pure, countTrue_free]
    have hfit' : S.fit (fun w r => (⟨items, d, List.replicate items (List.replicate d true), w, r.take items, r.drop items⟩ : ThreePL).scorer d) (rowsOf N items y) (List.replicate (items * d) 1)
        (List.replicate items 0 ++ List.replicate items (-1.1)) = .ok (w, r) := hfit
    simp only [hfit', bind_ok]
    rfl
  · intro j k k' hj hk hk'
    rw [ThreePL.itemParameters, ThreePL.free_weights _ _ _ _ _ hw]
    refine slopeOf_equal items d w hw heq _ ?_ j hj k k' hk hk'
    rw [List.length_zip, List.length_map]
    show min (r.take items).length (r.drop items).length = items
    rw [htake r hr, hdrop r hr, min_self]
  · intro θ θ' h
    exact ThreePL.free_probs items d w w _ _ hw hw _ _ (slopes_equal items d w hw heq θ θ' h)

/-- C105: the same for the generalized partial credit model. -/
theorem C105_gpc_equal_slopes {d : ℕ} {A : Type} (S : MmlSettings d A) {q : ℕ}
    (hrule : MmlRule S.hermgauss S.cholesky S.method S.points q) (cats : List ℕ) (hcats : cats ≠ []) (hc : ∀ c ∈ cats, 0 < c) (N : ℕ)
    (y : ℕ → ℕ → Cell) (hy : ∀ i, i < N → ValidResponses cats (y i)) :
    ∃ m, GPC.fitMml S cats (rowsOf N cats.length y) = .ok m ∧ m.cats = cats ∧ m.lv = d ∧ m.WF ∧
      (∀ j k k', j < cats.length → k < d → k' < d → slopeOf m.itemParameters j k = slopeOf m.itemParameters j k') ∧
      ∀ θ θ' : Fin d → ℝ, ∑ k, θ k = ∑ k, θ' k → m.probs (List.ofFn θ) = m.probs (List.ofFn θ') := by
  obtain ⟨w, b, hfit, hw, hb, heq⟩ := mmlFit_equal S hrule (fun w b => (GPC.free cats d w b).scorer d) cats
    (fun w b θ => tableProb ((GPC.free cats d w b).probs (List.ofFn θ))) cats.length (cats.sum - cats.length)
    (fun w b hw hb => (GPC.free cats d w b).isScorer (GPC.free_wf cats hc d w b hw hb) hcats d)
    (fun w b hw hb => (GPC.free cats d w b).positive (GPC.free_wf cats hc d w b hw hb) d)
    (fun σ w' w b hw' hw _ h θ => by
      dsimp only
      rw [GPC.free_probs cats d w w' b hw hw' _ _ (slopes_renamed cats.length d σ w' w hw' hw h θ)])
    N y hy (List.replicate (cats.length * d) 1) (List.replicate (cats.sum - cats.length) 0) List.length_replicate
    List.length_replicate (equalColumns_replicate cats.length d 1)
  refine ⟨GPC.free cats d w b, ?_, rfl, rfl, GPC.free_wf cats hc d w b hw hb, ?_, ?_⟩
  · unfold GPC.fitMml GPC.init
    simp only [checkRelationships, bind_ok, pure, Except.pure, countTrue_free]
    have hfit' : S.fit (fun w b => ({ lv := d, cats, rel := List.replicate cats.length (List.replicate d true), weight := w, bias := b } :
        GPC).scorer d) (rowsOf N cats.length y) (List.replicate (cats.length * d) 1) (List.replicate (cats.sum - cats.length) 0)
        = .ok (w, b) := hfit
    simp only [hfit', bind_ok]
    rfl
  · intro j k k' hj hk hk'
    rw [GPC.itemParameters, GPC.free_weights _ _ _ _ hw]
    exact slopeOf_equal cats.length d w hw heq _ (length_viewRows _ _ _) j hj k k' hk hk'
  · intro θ θ' h
    exact GPC.free_probs cats d w w b hw hw _ _ (slopes_equal cats.length d w hw heq θ θ' h)

/-! ## The claim -/

/-- The full claim: there are data for which fitting a two parameter logistic model with several latent variables by MML gives the
latent variables different roles, that is, some item has different slopes on two of them. -/
def MmlTellsApart : Prop :=
  ∃ (d : ℕ) (A : Type) (S : MmlSettings d A) (q items N : ℕ) (y : ℕ → ℕ → Cell) (m : TwoPL) (j k k' : ℕ),
    MmlRule S.hermgauss S.cholesky S.method S.points q ∧ 0 < items ∧ (∀ i, i < N → ValidResponses (List.replicate items 2) (y i)) ∧
    TwoPL.fitMml S items (rowsOf N items y) = .ok m ∧ j < items ∧ k < d ∧ k' < d ∧
    slopeOf m.itemParameters j k ≠ slopeOf m.itemParameters j k'

/-- C105: it does not hold. -/
theorem C105_tells_apart_false : ¬ MmlTellsApart := by
  rintro ⟨d, A, S, q, items, N, y, m, j, k, k', hrule, hitems, hy, hfit, hj, hk, hk', hne⟩
  obtain ⟨m', hfit', _, _, _, heq, _⟩ := C105_twoPL_equal_slopes S hrule items hitems N y hy
  rw [hfit'] at hfit
  obtain rfl := Except.ok.inj hfit
  exact hne (heq j k k' hj hk hk')

/-! ## Instances -/

/-- Two latent variables, the default integration, Adam with learning rate 0.05, ten epochs. -/
noncomputable def exTwoTraitFit : MmlSettings 2 AdamState where
  hermgauss := fun _ => .error .valueError
  cholesky := fun _ => .error .runtimeError
  rule := fun _ => adamRule
  start := {}
  config := { factor := 0.6, patience := 4, threshold := 5e-5, limit := 2 }
  lr := 0.05
  maxEpochs := 10
  method := "quasi_mc"
  points := none

theorem exTwoTraitFit_rule : MmlRule exTwoTraitFit.hermgauss exTwoTraitFit.cholesky exTwoTraitFit.method exTwoTraitFit.points 7 :=
  ⟨rfl, by norm_num, fun h => absurd h (by decide)⟩

/-- Data in which two items are always answered alike and two others unlike them. -/
def exTwoClusters (i j : ℕ) : Cell := if j < 2 then some (if i % 2 = 0 then 1 else 0) else some (if i % 3 = 0 then 1 else 0)

theorem exTwoClusters_valid (i : ℕ) : ValidResponses (List.replicate 4 2) (exTwoClusters i) := by
  intro j c hc _
  obtain ⟨_, rfl⟩ := replicate_getElem? _ _ _ _ hc
  unfold exTwoClusters
  split
  · by_cases h : i % 2 = 0
    · exact ⟨1, by simp [h], by norm_num⟩
    · exact ⟨0, by simp [h], by norm_num⟩
  · by_cases h : i % 3 = 0
    · exact ⟨1, by simp [h], by norm_num⟩
    · exact ⟨0, by simp [h], by norm_num⟩

example : ∃ m, TwoPL.fitMml exTwoTraitFit 4 (rowsOf 6 4 exTwoClusters) = .ok m ∧
    slopeOf m.itemParameters 0 0 = slopeOf m.itemParameters 0 1 := by
  obtain ⟨m, h, _, _, _, heq, _⟩ := C105_twoPL_equal_slopes exTwoTraitFit exTwoTraitFit_rule 4 (by norm_num) 6 exTwoClusters
    fun i _ => exTwoClusters_valid i
  exact ⟨m, h, heq 0 0 1 (by norm_num) (by norm_num) (by norm_num)⟩

/-- Two models with different slopes that the objective cannot tell apart: the names of the latent variables are exchanged. -/
example : ∃ pts lw x, mmlIntegration exTwoTraitFit.hermgauss exTwoTraitFit.cholesky "quasi_mc" none none = .ok (pts, lw) ∧
    mmlLoss ((TwoPL.free 2 2 [2, 0, 0, 3] [0, 1]).scorer 2) (rowsOf 3 2 fun _ _ => some 1) pts lw = .ok (some x) ∧
    mmlLoss ((TwoPL.free 2 2 [0, 2, 3, 0] [0, 1]).scorer 2) (rowsOf 3 2 fun _ _ => some 1) pts lw = .ok (some x) := by
  have hwf : ∀ w : List ℝ, w.length = 4 → (TwoPL.free 2 2 w [0, 1]).WF := fun w hw => TwoPL.free_wf 2 2 w [0, 1] hw rfl
  refine C105_relabel (cats := List.replicate 2 2) exTwoTraitFit_rule
    ((TwoPL.free 2 2 [2, 0, 0, 3] [0, 1]).isScorer (hwf _ rfl) (by norm_num [TwoPL.free]) 2)
    ((TwoPL.free 2 2 [0, 2, 3, 0] [0, 1]).isScorer (hwf _ rfl) (by norm_num [TwoPL.free]) 2)
    ((TwoPL.free 2 2 [0, 2, 3, 0] [0, 1]).positive (hwf _ rfl) 2) (Equiv.swap 0 1) ?_ 3 _ ?_
  · intro θ
    dsimp only
    rw [TwoPL.free_probs 2 2 [0, 2, 3, 0] [2, 0, 0, 3] [0, 1] rfl rfl (List.ofFn (relabel (Equiv.swap 0 1) θ)) (List.ofFn θ)]
    simp [viewRows, dot, relabel]
  · intro i _ j c hc _
    obtain ⟨_, rfl⟩ := replicate_getElem? _ _ _ _ hc
    exact ⟨1, rfl, by norm_num⟩

/-- The same with the second latent variable turned round. -/
example : ∃ pts lw x, mmlIntegration exTwoTraitFit.hermgauss exTwoTraitFit.cholesky "quasi_mc" none none = .ok (pts, lw) ∧
    mmlLoss ((TwoPL.free 2 2 [2, 1, 0, 3] [0, 1]).scorer 2) (rowsOf 3 2 fun _ _ => some 1) pts lw = .ok (some x) ∧
    mmlLoss ((TwoPL.free 2 2 [2, -1, 0, -3] [0, 1]).scorer 2) (rowsOf 3 2 fun _ _ => some 1) pts lw = .ok (some x) := by
  have hwf : ∀ w : List ℝ, w.length = 4 → (TwoPL.free 2 2 w [0, 1]).WF := fun w hw => TwoPL.free_wf 2 2 w [0, 1] hw rfl
  refine C105_turn_round (cats := List.replicate 2 2) exTwoTraitFit_rule (fun h => absurd h (by decide)) (fun _ => by norm_num)
    ((TwoPL.free 2 2 [2, 1, 0, 3] [0, 1]).isScorer (hwf _ rfl) (by norm_num [TwoPL.free]) 2)
    ((TwoPL.free 2 2 [2, -1, 0, -3] [0, 1]).isScorer (hwf _ rfl) (by norm_num [TwoPL.free]) 2)
    ((TwoPL.free 2 2 [2, -1, 0, -3] [0, 1]).positive (hwf _ rfl) 2) (fun k => k = 1) ?_ 3 _ ?_
  · intro θ
    dsimp only
    rw [TwoPL.free_probs 2 2 [2, -1, 0, -3] [2, 1, 0, 3] [0, 1] rfl rfl (List.ofFn (turnRound (fun k => k = 1) θ)) (List.ofFn θ)]
    simp [viewRows, dot, turnRound]
  · intro i _ j c hc _
    obtain ⟨_, rfl⟩ := replicate_getElem? _ _ _ _ hc
    exact ⟨1, rfl, by norm_num⟩

/-- A Gauss-Hermite rule that meets the hypotheses: two nodes. -/
example : MmlRule (d := 2) (fun _ => .ok ([-1, 1], [1, 1])) (fun c => .ok c) "gauss_hermite" (some 2) 2 ∧ SymmetricRule [-1, 1] [1, 1] :=
  ⟨⟨rfl, by norm_num, fun _ => ⟨_, _, rfl, rfl, rfl, by simp, rfl⟩⟩, by simp [SymmetricRule]⟩

end Irt
