import Verif.Model.SplineBatch
import Verif.Lemmas.Layout
import Verif.Props.Splines
import Verif.Props.BitJacobian
import Mathlib.Analysis.Calculus.FDeriv.Pi
import Mathlib.Analysis.Calculus.Deriv.Prod

/-!
# C89 the spline models on a batch and precomputed bases, C90 the backward pass of the spline basis

Specification: the output row of respondent `p` is the output of the model at the latent scores of respondent `p`, with
the basis values of the specification `splineBasis`.
-/

namespace Irt

/-- A row of `d` latent scores as a function on all indices. -/
def extRow {d : ℕ} (r : Fin d → ℝ) (l : ℕ) : ℝ := if h : l < d then r ⟨l, h⟩ else 0

theorem length_flatScores {d : ℕ} (theta : Thetas d) : (flatScores theta).length = d * theta.length := by
  unfold flatScores
  rw [length_flatMap_const theta.length _ _ (by simp)]
  simp

theorem flatScores_getElem? {d : ℕ} (theta : Thetas d) (p l : ℕ) (r : Fin d → ℝ) (hr : theta[p]? = some r) (hl : l < d) :
    (flatScores theta)[l * theta.length + p]? = some (sigmoid (extRow r l)) := by
  have hp : p < theta.length := by
    by_contra h
    rw [List.getElem?_eq_none (by omega)] at hr
    exact absurd hr (by simp)
  unfold flatScores
  rw [flatMap_getElem? theta.length _ _ (by simp) l p hp]
  simp [hl, hr, extRow]

theorem length_basisTensor (interior : List ℝ) (degree : ℕ) (xs : List ℝ) :
    (basisTensor interior degree xs).length = xs.length * splineBases interior degree := by
  unfold basisTensor
  rw [length_flatMap_const (splineBases interior degree) _ _ (by simp)]

theorem splineBases_pos (interior : List ℝ) (degree : ℕ) : 0 < splineBases interior degree := by
  rw [splineBases_eq]; omega

theorem basisBatch_eq {d : ℕ} (hd : 0 < d) (interior : List ℝ) (degree : ℕ) (theta : Thetas d) :
    basisBatch d (splineBases interior degree) (basisTensor interior degree (flatScores theta)) = theta.length := by
  unfold basisBatch
  rw [length_basisTensor, length_flatScores]
  have h : 0 < d * splineBases interior degree := Nat.mul_pos hd (splineBases_pos _ _)
  rw [show d * theta.length * splineBases interior degree = theta.length * (d * splineBases interior degree) by ring]
  exact Nat.mul_div_cancel _ h

/-- C89: the basis tensor has one row for each latent variable and respondent, and its entry for latent variable `l`,
respondent `p` and basis function `b` is the value of basis function `b` at the score of respondent `p` on latent variable
`l`: flattening and reshaping do not mix respondents or latent variables. -/
theorem C89_layout {d : ℕ} (hd : 0 < d) (interior : List ℝ) (degree : ℕ) (theta : Thetas d) :
    basisBatch d (splineBases interior degree) (basisTensor interior degree (flatScores theta)) = theta.length ∧
    ∀ (p l b : ℕ) (r : Fin d → ℝ), theta[p]? = some r → l < d → b < splineBases interior degree →
      basisAt d (splineBases interior degree) (basisTensor interior degree (flatScores theta)) p l b =
        splineBasis interior degree (extRow r) l b := by
  refine ⟨basisBatch_eq hd interior degree theta, fun p l b r hr hl hb => ?_⟩
  unfold basisAt
  rw [basisBatch_eq hd, List.getD_eq_getElem?_getD]
  unfold basisTensor
  rw [flatMap_getElem? (splineBases interior degree) _ _ (by simp) _ b hb, flatScores_getElem? theta p l r hr hl]
  simp [hb, splineBasis]

example : basisAt 2 (splineBases [] 0) (basisTensor [] 0 (flatScores [![1, 2], ![3, 4], ![5, 6]])) 2 1 0 =
    splineBasis [] 0 (extRow ![5, 6]) 1 0 :=
  (C89_layout (by norm_num) [] 0 [![1, 2], ![3, 4], ![5, 6]]).2 2 1 0 _ rfl (by norm_num) (splineBases_pos _ _)

/-- The output of a row depends only on the basis values that exist. -/
def UsesBasis {d : ℕ} {Out : Type} (m : SplineModel d Out) : Prop :=
  ∀ (r : Fin d → ℝ) (B B' : ℕ → ℕ → ℝ),
    (∀ l b, l < d → b < splineBases m.interior m.degree → B l b = B' l b) → m.row r B = m.row r B'

theorem mapM_congr_list {α β : Type} (l : List α) (f g : α → Except PyErr β) (h : ∀ x ∈ l, f x = g x) :
    l.mapM f = l.mapM g := by
  induction l with
  | nil => rfl
  | cons a l ih =>
    rw [List.mapM_cons, List.mapM_cons, h a (by simp), ih fun x hx => h x (by simp [hx])]

theorem mapM_map_list {α β γ : Type} (l : List α) (f : α → β) (g : β → Except PyErr γ) :
    (l.map f).mapM g = l.mapM fun x => g (f x) := by
  induction l with
  | nil => rfl
  | cons a l ih => rw [List.map_cons, List.mapM_cons, List.mapM_cons, ih]

theorem mapM_range_list {α β : Type} (l : List α) (a0 : α) (f : α → Except PyErr β) :
    ((List.range l.length).mapM fun p => f (l.getD p a0)) = l.mapM f := by
  have h : l = (List.range l.length).map fun p => l.getD p a0 := by
    apply List.ext_getElem (by simp)
    intro n h1 h2
    simp [List.getD_eq_getElem?_getD, List.getElem?_eq_getElem h1]
  conv_rhs => rw [h]
  rw [mapM_map_list]

theorem forward_rows {d : ℕ} {Out : Type} (hd : 0 < d) (m : SplineModel d Out) (hu : UsesBasis m) (hb : m.basis = none)
    (theta : Thetas d) :
    m.forward theta = theta.mapM fun r => m.row (fun _ => 0) (splineBasis m.interior m.degree (extRow r)) := by
  obtain ⟨h1, h2⟩ := C89_layout hd m.interior m.degree theta
  simp only [SplineModel.forward, SplineModel.usedBasis, hb]
  rw [h1, ← mapM_range_list theta (fun _ => 0)]
  refine mapM_congr_list _ _ _ fun p hp => hu _ _ _ fun l b hl hb' => ?_
  have hp' : p < theta.length := List.mem_range.1 hp
  rw [h2 p l b theta[p] (List.getElem?_eq_getElem hp') hl hb', List.getD_eq_getElem?_getD,
    List.getElem?_eq_getElem hp']
  rfl

theorem forwardNested_rows {d : ℕ} {Out : Type} (hd : 0 < d) (m : SplineModel d Out) (hu : UsesBasis m)
    (hb : m.basis = none) (theta : Thetas d) :
    m.forwardNested theta = theta.mapM fun r => m.row r (splineBasis m.interior m.degree (extRow r)) := by
  obtain ⟨h1, h2⟩ := C89_layout hd m.interior m.degree theta
  simp only [SplineModel.forwardNested, SplineModel.usedBasis, hb]
  rw [h1, if_neg (by simp)]
  have h : theta = (List.zip theta (List.range theta.length)).map Prod.fst := by
    rw [List.map_fst_zip (by simp)]
  conv_rhs => rw [h]
  rw [mapM_map_list]
  refine mapM_congr_list _ _ _ fun rp hrp => hu _ _ _ fun l b hl hb' => ?_
  obtain ⟨n, hn, he⟩ := List.mem_iff_getElem.1 hrp
  have hn' : n < theta.length := by simpa using hn
  rw [List.getElem_zip] at he
  subst he
  rw [List.getElem_range]
  exact h2 n l b theta[n] (List.getElem?_eq_getElem hn') hl hb'

theorem monotone_uses (m : MonoBSpline) (d : ℕ) (interior : List ℝ) (degree : ℕ) (hd : 0 < d) (hlv : m.lv = d)
    (hnb : m.nb = splineBases interior degree) : UsesBasis (m.asSpline d interior degree) := by
  intro r B B' h
  have h' : ∀ l b, l < m.lv → b < m.nb → B l b = B' l b := by rw [hlv, hnb]; exact h
  have hi : ∀ item, m.itemLogits B item = m.itemLogits B' item := by
    intro item
    unfold MonoBSpline.itemLogits
    refine List.map_congr_left fun c _ => ?_
    cases m.sep with
    | items =>
      refine congrArg List.sum (List.map_congr_left fun l hl => ?_)
      refine congrArg (fun x => x * (c : ℝ)) (congrArg List.sum (List.map_congr_left fun b hb => ?_))
      rw [h' l b (List.mem_range.1 hl) (List.mem_range.1 hb)]
    | categories =>
      refine congrArg List.sum (List.map_congr_left fun c' _ => congrArg List.sum (List.map_congr_left fun b hb => ?_))
      rw [h' 0 b (by omega) (List.mem_range.1 hb)]
  change m.forwardRow B = m.forwardRow B'
  unfold MonoBSpline.forwardRow
  rw [show m.itemLogits B = m.itemLogits B' from funext hi]

theorem surprisal_uses (m : Surprisal) (d : ℕ) (interior : List ℝ) (degree : ℕ) (hlv : m.lv = d)
    (hnb : m.nb = splineBases interior degree) : UsesBasis (m.asSpline d interior degree) := by
  intro r B B' h
  have h' : ∀ l b, l < m.lv → b < m.nb → B l b = B' l b := by rw [hlv, hnb]; exact h
  have hi : ∀ item, m.surprisal B item = m.surprisal B' item := by
    intro item
    unfold Surprisal.surprisal
    refine List.map_congr_left fun k _ => congrArg List.sum (List.map_congr_left fun l hl => ?_)
    refine congrArg List.sum (List.map_congr_left fun b hb => ?_)
    rw [h' l b (List.mem_range.1 hl) (List.mem_range.1 hb)]
  change Except.ok (m.probs B) = Except.ok (m.probs B')
  unfold Surprisal.probs
  rw [show m.surprisal B = m.surprisal B' from funext hi]

theorem nested_uses (d : ℕ) (interior : List ℝ) (degree : ℕ) (cats keys : List ℕ) (correct : (Fin d → ℝ) → List (List ℝ))
    (coef : ℕ → ℕ → ℕ → ℕ → ℝ) : UsesBasis (nestedSpline d interior degree cats keys correct coef) := by
  intro r B B' h
  simp only [nestedSpline]
  refine congrArg (fun x => Except.ok (nestedProbs (maxCats cats) keys (correct r) x)) ?_
  refine List.map_congr_left fun i _ => congrArg (nestedBsplineRow _ _) (funext fun k => ?_)
  refine congrArg List.sum (List.map_congr_left fun l hl => congrArg List.sum (List.map_congr_left fun b hb => ?_))
  rw [h l b (List.mem_range.1 hl) (List.mem_range.1 hb)]

/-- C89: the output of the monotone B-spline model for a batch is the list of the outputs of the respondents, each
computed from the respondent's own latent scores. -/
theorem C89_rows_monotone (m : MonoBSpline) (d : ℕ) (interior : List ℝ) (degree : ℕ) (hd : 0 < d) (hlv : m.lv = d)
    (hnb : m.nb = splineBases interior degree) (theta : Thetas d) :
    (m.asSpline d interior degree).forward theta =
      theta.mapM fun r => m.forwardRow (splineBasis interior degree (extRow r)) :=
  forward_rows hd _ (monotone_uses m d interior degree hd hlv hnb) rfl theta

/-- C89: the same for the surprisal spline model. -/
theorem C89_rows_surprisal (m : Surprisal) (d : ℕ) (interior : List ℝ) (degree : ℕ) (hd : 0 < d) (hlv : m.lv = d)
    (hnb : m.nb = splineBases interior degree) (theta : Thetas d) :
    (m.asSpline d interior degree).forward theta =
      .ok (theta.map fun r => m.probs (splineBasis interior degree (extRow r))) := by
  rw [forward_rows hd _ (surprisal_uses m d interior degree hlv hnb) rfl theta]
  exact mapM_ok _ _ _ fun r _ => rfl

/-- C89: the same for the nested logit model with B-spline incorrect responses: respondent by respondent, the
probabilities are assembled from the correct response model and the spline logits at the respondent's own scores. -/
theorem C89_rows_nested (d : ℕ) (interior : List ℝ) (degree : ℕ) (hd : 0 < d) (cats keys : List ℕ)
    (correct : (Fin d → ℝ) → List (List ℝ)) (coef : ℕ → ℕ → ℕ → ℕ → ℝ) (theta : Thetas d) :
    (nestedSpline d interior degree cats keys correct coef).forwardNested theta =
      .ok (theta.map fun r => nestedProbs (maxCats cats) keys (correct r)
        ((List.range cats.length).map fun i => nestedBsplineRow (maxCats cats) (cats.getD i 0) fun k =>
          ((List.range d).map fun l => ((List.range (splineBases interior degree)).map fun b =>
            splineBasis interior degree (extRow r) l b * coef l b i k).sum).sum)) := by
  rw [forwardNested_rows hd _ (nested_uses d interior degree cats keys correct coef) rfl theta]
  exact mapM_ok _ _ _ fun r _ => rfl

/-- C89: a model whose basis was precomputed for some latent scores gives for these scores exactly the output of the
model without precomputed basis, whatever the kind of spline model. -/
theorem C89_precompute {d : ℕ} {Out : Type} (m : SplineModel d Out) (hb : m.basis = none) (k : SplineKind)
    (theta : Thetas d) : (m.precomputeBasis theta).call k theta = m.call k theta := by
  obtain ⟨i, g, bs, row⟩ := m
  simp only at hb
  subst hb
  cases k <;> rfl

/-- C89: during an MML fit every evaluation at the quadrature points gives the output of the plain model, whether or not
the fit precomputes the basis for this kind of model, also after the parameters were replaced by the optimiser; and
after the fit the model has no stored basis, so that it evaluates the scores it is given. -/
theorem C89_mml {d : ℕ} {Out : Type} (m : SplineModel d Out) (hb : m.basis = none) (k : SplineKind)
    (points : Thetas d) (step : (Fin d → ℝ) → (ℕ → ℕ → ℝ) → Except PyErr Out) :
    ({ m.duringMml k points with row := step }).call k points = ({ m with row := step }).call k points ∧
    ({ m.duringMml k points with row := step }).afterMml k = { m with row := step } := by
  obtain ⟨i, g, bs, row⟩ := m
  simp only at hb
  subst hb
  constructor <;> cases k <;> rfl

/-- A monotone B-spline model with one item, used as an example: degree 0 and the knot 0. -/
noncomputable def exStepSpline : MonoBSpline where
  lv := 1
  nb := 2
  cats := [2]
  sep := .items
  coefItems := fun _ _ _ => 0
  coefCats := []
  bias := [0]

/-- C89 as a user would want it: after `precompute_basis` the model still evaluates the scores it is called with. -/
def PrecomputeKeepsForward : Prop :=
  ∀ (m : MonoBSpline) (interior : List ℝ) (degree : ℕ), m.lv = 1 → m.nb = splineBases interior degree →
    ∀ theta theta' : Thetas 1, theta.length = theta'.length →
      ((m.asSpline 1 interior degree).precomputeBasis theta').forward theta = (m.asSpline 1 interior degree).forward theta

theorem exStepSpline_nb : exStepSpline.nb = splineBases [0] 0 := by rw [splineBases_eq]; rfl

theorem step_basis (x : ℝ) : splineBasis [0] 0 (extRow (fun _ : Fin 1 => x)) 0 0 = (if x < 0 then 1 else 0) ∧
    splineBasis [0] 0 (extRow (fun _ : Fin 1 => x)) 0 1 = if 0 ≤ x then 1 else 0 := by
  have h0 : sigmoid 0 = 1 / 2 := by simp [sigmoid]; norm_num
  have h1 : ∀ y : ℝ, sigmoid y < 1 / 2 ↔ y < 0 := fun y => by rw [← h0]; exact sigmoid_strictMono.lt_iff_lt
  have h2 : ∀ y : ℝ, 1 / 2 ≤ sigmoid y ↔ 0 ≤ y := fun y => by rw [← h0]; exact sigmoid_strictMono.le_iff_le
  have hp := sigmoid_pos x
  have hl := sigmoid_lt_one x
  constructor <;>
  simp [splineBasis, splineKnots, bspline, extRow, h0, hp.le, hl]
  · simp only [← one_div, h1]
  · simp only [← one_div, h2]

theorem exStep_row (x : ℝ) : exStepSpline.forwardRow (splineBasis [0] 0 (extRow (fun _ : Fin 1 => x))) =
    .ok [Logit.fin 0, Logit.fin (if x < 0 then softplus 0 else softplus 0 + softplus 0)] := by
  obtain ⟨h1, h2⟩ := step_basis x
  rcases lt_or_ge x 0 with hx | hx
  · simp [MonoBSpline.forwardRow, exStepSpline, MonoBSpline.itemLogits, MonoBSpline.M, maxCats, List.range_succ, freeMask,
      freeRow, scatterMask, missingMask, missingRow, maskFill, h1, h2, hx, not_le.2 hx]
  · simp [MonoBSpline.forwardRow, exStepSpline, MonoBSpline.itemLogits, MonoBSpline.M, maxCats, List.range_succ, freeMask,
      freeRow, scatterMask, missingMask, missingRow, maskFill, h1, h2, hx, not_lt.2 hx]

/-- This is false: a stored basis replaces the scores. -/
theorem C89_stored_basis_false : ¬ PrecomputeKeepsForward := by
  intro h
  have h1 := h exStepSpline [0] 0 rfl exStepSpline_nb [fun _ => 1] [fun _ => -1] rfl
  have h2 : (((exStepSpline.asSpline 1 [0] 0).precomputeBasis [fun _ => -1]).forward [fun _ => 1]) =
      ((exStepSpline.asSpline 1 [0] 0).precomputeBasis [fun _ => -1]).forward [fun _ => -1] := rfl
  have h3 : ((exStepSpline.asSpline 1 [0] 0).precomputeBasis [fun _ => -1]).forward [fun _ => -1] =
      (exStepSpline.asSpline 1 [0] 0).forward [fun _ => -1] :=
    C89_precompute (exStepSpline.asSpline 1 [0] 0) rfl .monotone [fun _ => -1]
  rw [h2, h3, C89_rows_monotone exStepSpline 1 [0] 0 (by norm_num) rfl exStepSpline_nb,
    C89_rows_monotone exStepSpline 1 [0] 0 (by norm_num) rfl exStepSpline_nb] at h1
  simp only [List.mapM_cons, List.mapM_nil, exStep_row] at h1
  simp [bind, Except.bind, pure, Except.pure] at h1
  have := softplus_pos 0
  linarith

example : (exStepSpline.asSpline 1 [0] 0).forward [fun _ => -1, fun _ => 2] =
    .ok [[Logit.fin 0, Logit.fin (softplus 0)], [Logit.fin 0, Logit.fin (softplus 0 + softplus 0)]] := by
  rw [C89_rows_monotone exStepSpline 1 [0] 0 (by norm_num) rfl exStepSpline_nb]
  simp only [List.mapM_cons, List.mapM_nil, exStep_row]
  norm_num [bind, Except.bind, pure, Except.pure]

example : exSurprisal.nb = splineBases [] 1 ∧ 0 < exSurprisal.lv := by
  refine ⟨by rw [splineBases_eq]; rfl, by simp [exSurprisal]⟩

/-! ## C90 -/

/-- Derivative of the B-spline basis function (textbook formula). -/
noncomputable def bsplineDeriv (t : ℕ → ℝ) : ℕ → ℕ → ℝ → ℝ
  | 0, _, _ => 0
  | p + 1, i, x => (p + 1 : ℝ) * (bspline t p i x / (t (i + p + 1) - t i) -
      bspline t p (i + 1) x / (t (i + p + 2) - t (i + 1)))

theorem bspline_hasDerivAt (t : ℕ → ℝ) (hm : Monotone t) (x : ℝ) (hx : ∀ i, t i ≠ x) (p : ℕ) :
    ∀ i, HasDerivAt (bspline t p i) (bsplineDeriv t p i x) x := by
  induction p with
  | zero =>
    intro i
    have h1 : ∀ j, ∀ᶠ y in nhds x, (t j ≤ y ↔ t j ≤ x) ∧ (y < t j ↔ x < t j) := by
      intro j
      rcases lt_or_gt_of_ne (hx j) with h | h
      · filter_upwards [lt_mem_nhds h] with y hy
        simp [hy.le, h.le, not_lt.2 hy.le, not_lt.2 h.le]
      · filter_upwards [gt_mem_nhds h] with y hy
        simp [hy, h, not_le.2 hy, not_le.2 h]
    have hc : bspline t 0 i =ᶠ[nhds x] fun _ => bspline t 0 i x := by
      filter_upwards [h1 i, h1 (i + 1)] with y hy hy'
      simp only [bspline, hy.1, hy'.2]
    exact (hasDerivAt_const x (bspline t 0 i x)).congr_of_eventuallyEq hc
  | succ p ih =>
    intro i
    have hd : HasDerivAt (bspline t (p + 1) i)
        ((1 / (t (i + p + 1) - t i) * bspline t p i x +
          (x - t i) / (t (i + p + 1) - t i) * bsplineDeriv t p i x) +
        (-1 / (t (i + p + 2) - t (i + 1)) * bspline t p (i + 1) x +
          (t (i + p + 2) - x) / (t (i + p + 2) - t (i + 1)) * bsplineDeriv t p (i + 1) x)) x :=
      ((((hasDerivAt_id x).sub_const (t i)).div_const _).mul (ih i)).add
        ((((hasDerivAt_id x).const_sub (t (i + p + 2))).div_const _).mul (ih (i + 1)))
    refine hd.congr_deriv ?_
    cases p with
    | zero => simp only [bsplineDeriv]; push_cast; ring
    | succ q =>
      simp only [bsplineDeriv, bspline]
      have e1 : i + 1 + q + 1 = i + q + 2 := by omega
      have e2 : i + 1 + q + 2 = i + q + 3 := by omega
      have e3 : i + (q + 1) + 1 = i + q + 2 := by omega
      have e4 : i + (q + 1) + 2 = i + q + 3 := by omega
      have e5 : i + 1 + 1 = i + 2 := by omega
      simp only [e1, e2, e3, e4, e5]
      have m1 : t i ≤ t (i + 1) := hm (by omega)
      have m2 : t (i + 1) ≤ t (i + q + 2) := hm (by omega)
      have m3 : t (i + q + 2) ≤ t (i + q + 3) := hm (by omega)
      generalize bspline t q i x = B0
      generalize bspline t q (i + 1) x = B1
      generalize bspline t q (i + 2) x = B2
      generalize t i = a0 at *
      generalize t (i + 1) = a1 at *
      generalize t (i + 2) = a2 at *
      generalize t (i + q + 1) = b0 at *
      generalize t (i + q + 2) = b1 at *
      generalize t (i + q + 3) = b2 at *
      have r0 : ∀ y, y / (b0 - a0) * B0 = y * (B0 / (b0 - a0)) := fun y => by ring
      have r1 : ∀ y, y / (b1 - a1) * B1 = y * (B1 / (b1 - a1)) := fun y => by ring
      have r2 : ∀ y, y / (b2 - a2) * B2 = y * (B2 / (b2 - a2)) := fun y => by ring
      simp only [r0, r1, r2]
      have hu : B1 / (b1 - a1) = 0 ∨ (b1 - a0 ≠ 0 ∧ b2 - a1 ≠ 0) := by
        by_cases h : b1 - a1 = 0
        · left; rw [h, div_zero]
        · right
          have : 0 < b1 - a1 := lt_of_le_of_ne (by linarith) (Ne.symm h)
          exact ⟨by linarith, by linarith⟩
      generalize B0 / (b0 - a0) = u0
      generalize B2 / (b2 - a2) = u2
      generalize B1 / (b1 - a1) = u1 at *
      rcases hu with hu | ⟨h1, h2⟩
      · subst hu; push_cast; ring
      · push_cast; field_simp; ring

theorem splineKnots_sorted_off (interior : List ℝ) (degree : ℕ) (y : ℝ) (hy : ∀ k ∈ interior, k ≠ y) (i : ℕ) :
    knotSeq interior degree i ≠ sigmoid y := by
  rw [knotSeq_eq]
  split_ifs with h1 h2
  · exact (sigmoid_pos y).ne
  · intro h
    exact hy _ (List.getElem_mem h2) (sigmoid_strictMono.injective h)
  · exact (sigmoid_lt_one y).ne'

/-- C90: for every function of the basis values that is differentiable (any loss computed from the output of a spline
model), with gradient `grad` at the basis values, the backward pass returns the gradient of the same function of the
points at which the basis was evaluated, for any number of points and basis functions, provided the derivatives
supplied by the external package are the derivatives of the basis functions. -/
theorem C90_gradient (nb : ℕ) (B dB : ℕ → ℝ → ℝ) (xs : List ℝ)
    (hB : ∀ x ∈ xs, ∀ b, b < nb → HasDerivAt (B b) (dB b x) x)
    (loss : (Fin xs.length → Fin nb → ℝ) → ℝ) (loss' : (Fin xs.length → Fin nb → ℝ) →L[ℝ] ℝ)
    (hloss : HasFDerivAt loss loss' fun p b => B b xs[p]) (grad : ℕ → ℕ → ℝ)
    (hgrad : ∀ (p : Fin xs.length) (b : Fin nb), grad p b = loss' (Pi.single p (Pi.single b 1))) :
    (splineBackward nb dB xs grad).length = xs.length ∧
    ∀ p : Fin xs.length, ∀ g, (splineBackward nb dB xs grad)[(p : ℕ)]? = some g →
      HasDerivAt (fun y => loss fun q b => B b (Function.update (fun q : Fin xs.length => xs[q]) p y q)) g xs[p] := by
  refine ⟨by simp [splineBackward], fun p g hg => ?_⟩
  have hg' : g = ∑ b : Fin nb, grad p b * dB b xs[p] := by
    simp only [splineBackward, List.getElem?_map, List.getElem?_range p.2, Option.map_some, Option.some.injEq] at hg
    rw [← hg, list_sum_range, Finset.sum_range]
    refine Finset.sum_congr rfl fun b _ => ?_
    rw [List.getD_eq_getElem?_getD, List.getElem?_eq_getElem p.2]; rfl
  have hin : HasDerivAt (fun y : ℝ => fun (q : Fin xs.length) (b : Fin nb) =>
      B b (Function.update (fun q : Fin xs.length => xs[q]) p y q))
      (Pi.single p fun b : Fin nb => dB b xs[p]) xs[p] := by
    rw [hasDerivAt_pi]
    intro q
    rw [hasDerivAt_pi]
    intro b
    by_cases hq : q = p
    · subst hq
      simp only [Function.update_self, Pi.single_eq_same]
      exact hB _ (List.getElem_mem _) b b.2
    · simp only [Function.update_of_ne hq, Pi.single_eq_of_ne hq, Pi.zero_apply]
      exact hasDerivAt_const _ _
  have hpt : (fun (q : Fin xs.length) (b : Fin nb) =>
      B b (Function.update (fun q : Fin xs.length => xs[q]) p xs[p] q)) =
      fun (q : Fin xs.length) (b : Fin nb) => B b xs[q] := by
    funext q b
    rw [show xs[p] = (fun q : Fin xs.length => xs[q]) p from rfl, Function.update_eq_self]
  have hcomp := HasFDerivAt.comp_hasDerivAt (x := xs[p]) (l := loss) (l' := loss') (hpt ▸ hloss) hin
  refine hcomp.congr_deriv ?_
  rw [hg']
  have hs : (Pi.single p fun b : Fin nb => dB b xs[p] : Fin xs.length → Fin nb → ℝ) =
      ∑ b : Fin nb, dB b xs[p] • (Pi.single p (Pi.single b 1) : Fin xs.length → Fin nb → ℝ) := by
    funext q c
    rw [Finset.sum_apply, Finset.sum_apply]
    by_cases hq : q = p
    · subst hq
      simp [Pi.single_apply]
    · simp [Pi.single_eq_of_ne hq]
  rw [hs, map_sum]
  refine Finset.sum_congr rfl fun b _ => ?_
  rw [map_smul, hgrad, smul_eq_mul, mul_comm]

/-- C90: the hypothesis on the external package is satisfiable: at every latent score that is not a knot, for every
degree and sorted knots, the basis functions used by the models have a derivative with respect to the rescaled score, and
hence with respect to the score itself. -/
theorem C90_basis_derivative (interior : List ℝ) (degree : ℕ) (hs : interior.Pairwise (· ≤ ·)) (y : ℝ)
    (hy : ∀ k ∈ interior, k ≠ y) (b : ℕ) :
    HasDerivAt (bspline (knotSeq interior degree) degree b) (bsplineDeriv (knotSeq interior degree) degree b (sigmoid y))
      (sigmoid y) ∧
    HasDerivAt (fun s => bspline (knotSeq interior degree) degree b (sigmoid s))
      (bsplineDeriv (knotSeq interior degree) degree b (sigmoid y) * (sigmoid y * (1 - sigmoid y))) y := by
  have h := bspline_hasDerivAt (knotSeq interior degree) (knotSeq_mono interior degree hs) (sigmoid y)
    (splineKnots_sorted_off interior degree y hy) degree b
  exact ⟨h, h.comp y (sigmoid_hasDerivAt y)⟩

example : ∃ B dB : ℕ → ℝ → ℝ, (∀ x ∈ [sigmoid 1, sigmoid (-1)], ∀ b, b < 4 → HasDerivAt (B b) (dB b x) x) ∧
    B = bspline (knotSeq [] 3) 3 := by
  refine ⟨bspline (knotSeq [] 3) 3, bsplineDeriv (knotSeq [] 3) 3, fun x hx b _ => ?_, rfl⟩
  simp only [List.mem_cons, List.not_mem_nil, or_false] at hx
  rcases hx with rfl | rfl
  · exact (C90_basis_derivative [] 3 List.Pairwise.nil 1 (by simp) b).1
  · exact (C90_basis_derivative [] 3 List.Pairwise.nil (-1) (by simp) b).1

end Irt
