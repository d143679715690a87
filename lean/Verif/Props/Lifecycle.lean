import Verif.Spec.Lifecycle
import Verif.Props.Bit
import Verif.Props.LatentScores

/-! # C110: a model object over its life -/

namespace Irt

open Spec

variable {d : ℕ}

theorem ModelLife.run_append (m : ModelLife d) (h h' : List (LifeStep d)) : m.run (h ++ h') = (m.run h).run h' :=
  List.foldl_append

theorem run_fitted (m : ModelLife d) (h : List (LifeStep d)) : (m.run h).fitted = lastFitted m.fitted h := by
  induction h using List.reverseRecOn with
  | nil => rfl
  | append_singleton h s ih =>
    rw [ModelLife.run_append]
    cases s <;> simp_all [ModelLife.run, LifeStep.run, lastFitted, trained]

theorem run_scales (m : ModelLife d) (h : List (LifeStep d)) (hd : .detach ∉ h) :
    (m.run h).scales = m.scales ++ h.filterMap addedScale := by
  induction h using List.reverseRecOn with
  | nil => simp [ModelLife.run]
  | append_singleton h s ih =>
    rw [ModelLife.run_append]
    have := ih fun h' => hd (List.mem_append_left _ h')
    cases s with
    | fit f => simpa [ModelLife.run, LifeStep.run, addedScale, List.filterMap_cons] using this
    | add a => simp [ModelLife.run, LifeStep.run, addedScale] at this ⊢; rw [this]; simp
    | detach => exact absurd (by simp) hd

theorem attached_exists (h : List (LifeStep d)) : ∃ scales, AttachedSince h scales := by
  induction h using List.reverseRecOn with
  | nil => exact ⟨_, [], [], rfl, Or.inl rfl, by simp, rfl⟩
  | append_singleton h s ih =>
    obtain ⟨_, b, c, rfl, hb, hc, rfl⟩ := ih
    cases s with
    | detach => exact ⟨_, _, [], (List.append_nil _).symm, Or.inr ⟨_, rfl⟩, by simp, rfl⟩
    | fit f => exact ⟨_, b, c ++ [.fit f], by simp, hb, by simpa using hc, rfl⟩
    | add a => exact ⟨_, b, c ++ [.add a], by simp, hb, by simpa using hc, rfl⟩

theorem run_attached (f : FittedModel d) (h : List (LifeStep d)) (scales : List (LiveScale d))
    (ha : AttachedSince h scales) : ((ModelLife.new f).run h).scales = scales := by
  obtain ⟨b, c, rfl, hb, hc, rfl⟩ := ha
  rw [ModelLife.run_append, run_scales _ _ hc]
  suffices ((ModelLife.new f).run b).scales = [] by rw [this, List.nil_append]
  rcases hb with rfl | ⟨e, rfl⟩
  · rfl
  · rw [ModelLife.run_append]
    rfl

theorem through_iff (scales : List (Scale d)) (t u : Thetas d) :
    Irt.transformTheta scales t = .ok u ↔ Through scales t u := by
  induction scales generalizing t with
  | nil =>
    constructor
    · intro h
      cases h
      exact .done _
    · intro h
      cases h
      rfl
  | cons s ss ih =>
    unfold Irt.transformTheta at ih ⊢
    rw [List.foldlM_cons]
    constructor
    · intro h
      obtain ⟨v, hv, h⟩ := bind_eq_ok h
      exact .next s ss t v u hv ((ih v).1 h)
    · intro h
      cases h with
      | next _ _ _ v _ hv hr => rw [hv, bind_ok]; exact (ih v).2 hr

theorem transform_single (s : Scale d) (t : Thetas d) : Irt.transformTheta [s] t = s.transform t := by
  unfold Irt.transformTheta
  rw [List.foldlM_cons]
  cases s.transform t <;> rfl

theorem transform_pair (s s' : Scale d) (t : Thetas d) :
    Irt.transformTheta [s, s'] t = s.transform t >>= s'.transform := by
  unfold Irt.transformTheta
  rw [List.foldlM_cons]
  congr 1
  funext v
  exact transform_single s' v

/-- C110: after any history of training, attaching and detaching, `transform_theta` sends latent scores through the
transformations attached since the last detachment, in the order of attachment, each used with the model as the last
training left it. -/
theorem C110_transform (f : FittedModel d) (history : List (LifeStep d)) :
    ∃ scales, AttachedSince history scales ∧ ∀ t u,
      ((ModelLife.new f).run history).transformTheta t = .ok u ↔
        Through (scales.map fun s => s (lastFitted f history)) t u := by
  obtain ⟨scales, h⟩ := attached_exists history
  refine ⟨scales, h, fun t u => ?_⟩
  unfold ModelLife.transformTheta ModelLife.now
  simp only
  rw [through_iff, run_attached f history scales h, run_fitted]
  rfl

/-- C110: the attached transformations are determined by the history. -/
theorem C110_attached_unique (history : List (LifeStep d)) (s s' : List (LiveScale d))
    (h : AttachedSince history s) (h' : AttachedSince history s') (f : FittedModel d) : s = s' := by
  rw [← run_attached f history s h, run_attached f history s' h']

/-- C110: item probabilities depend only on the last training: attaching and detaching scales never changes them. -/
theorem C110_probabilities (f : FittedModel d) (history : List (LifeStep d)) (t : Fin d → ℝ) :
    ((ModelLife.new f).run history).itemProbabilities t = (lastFitted f history).probs t := by
  unfold ModelLife.itemProbabilities ModelLife.now
  simp only
  rw [run_fitted]
  rfl

theorem rawScores_scales (f : FittedModel d) (s : List (Scale d)) (width : ℕ) (data : List (List Num))
    (method : String) (se : Bool) (points : Option ℕ) :
    rawScores { f with scales := s } width data method se points = rawScores f width data method se points := rfl

/-- C110: scores on the original scale depend only on the last training, and rescaled scores are these scores
transformed, for every history. Without an attached transformation both are the same. -/
theorem C110_scores (f : FittedModel d) (history : List (LifeStep d)) (width : ℕ) (data : List (List Num))
    (method : String) (points : Option ℕ) :
    let m := (ModelLife.new f).run history
    let plain := (ModelLife.new (lastFitted f history)).latentScores width data method false points
    m.latentScores width data method false points = plain ∧
    m.latentScores width data method true points = (do
      match ← plain with
      | none => .ok none
      | some t => return some (← m.transformTheta t)) ∧
    (AttachedSince history [] → m.latentScores width data method true points = plain) := by
  intro m plain
  have hm : m.fitted = lastFitted f history := run_fitted _ _
  have hraw : ∀ se, rawScores m.now width data method se points
      = rawScores (ModelLife.new (lastFitted f history)).now width data method se points := by
    intro se
    rw [← hm]
    rfl
  have hplain : plain = (rawScores m.now width data method false points).map Prod.fst := by
    change ((Irt.latentScores _ width data method false false points).bind fun r => Except.ok r.1) = _
    unfold Irt.latentScores
    rw [hraw false]
    cases rawScores (ModelLife.new (lastFitted f history)).now width data method false points with
    | error e => rfl
    | ok r =>
      obtain ⟨t, i⟩ := r
      cases t <;> rfl
  have htrue : m.latentScores width data method true points = (do
      match ← plain with
      | none => .ok none
      | some t => return some (← m.transformTheta t)) := by
    rw [hplain]
    change ((Irt.latentScores _ width data method false true points).bind fun r => Except.ok r.1) = _
    unfold Irt.latentScores
    cases rawScores m.now width data method false points with
    | error e => rfl
    | ok r =>
      obtain ⟨t, i⟩ := r
      cases t with
      | none => rfl
      | some t =>
        change ((rescaleScores m.now true (some t)).bind _).bind _ = (m.transformTheta t).bind _
        unfold rescaleScores ModelLife.transformTheta
        cases hs : m.now.scales with
        | nil => rfl
        | cons a as =>
          simp only [List.isEmpty_cons, Bool.not_false, Bool.and_self, if_true]
          cases Irt.transformTheta (a :: as) t <;> rfl
  refine ⟨?_, htrue, ?_⟩
  · rw [hplain]
    change ((Irt.latentScores _ width data method false false points).bind fun r => Except.ok r.1) = _
    unfold Irt.latentScores
    cases rawScores m.now width data method false points with
    | error e => rfl
    | ok r =>
      obtain ⟨t, i⟩ := r
      cases t <;> rfl
  · intro ha
    rw [htrue]
    have hs : m.scales = [] := run_attached f history [] ha
    have : ∀ t, m.transformTheta t = .ok t := by
      intro t
      unfold ModelLife.transformTheta ModelLife.now
      rw [hs]
      rfl
    simp only [this]
    cases plain with
    | error e => rfl
    | ok t => cases t <;> rfl

/-! ## Bit scales -/

theorem dot_positions (p : List ℝ) (n : ℕ) (hp : p.length = n) :
    dot p ((List.range n).map fun m : ℕ => (m : ℝ)) = (p.mapIdx fun k x => (k : ℝ) * x).sum := by
  unfold dot
  congr 1
  apply List.ext_getElem
  · simp [hp]
  · intro i h1 h2
    simp [mul_comm]

theorem testScore_eq (f : FittedModel d) (hf : ProperTable f) (t : Fin d → ℝ) : testScore f t = expectedTest f t := by
  unfold testScore expectedSumScore expectedItemScores itemScores expectedTest
  simp only [bind_ok, pure, Except.pure]
  congr 1
  apply List.ext_getElem
  · simp
  · intro i h1 h2
    simp only [List.getElem_zipWith, List.getElem_replicate, List.getElem_map]
    exact dot_positions _ _ ((hf.2 t).2 _ (List.getElem_mem _)).1

/-- Items and population a bit scale can be built with. -/
def BitArguments (f : FittedModel 1) (population : Option (Thetas 1)) (items : Option (List ℕ)) : Prop :=
  (∀ p, population = some p → p ≠ []) ∧ ∀ l, items = some l → ∀ i ∈ l, i < f.cats.length

theorem bit_usable (m : ModelLife 1) (g : FittedModel 1) (hf : ProperTable g) (hc : g.cats.length = m.fitted.cats.length)
    (population : Option (Thetas 1)) (start : Option (List ℝ)) (items : Option (List ℕ)) (n : ℤ)
    (ha : BitArguments m.fitted population items) (b : Bit 1) (hb : m.bit population start items n = .ok b) :
    ({ b with probs := g.probs } : Bit 1).Usable ∧ b.scoreSum = testScore m.fitted ∧ b.probs = m.fitted.probs := by
  unfold ModelLife.bit Bit.create at hb
  split_ifs at hb with hn
  have key : ∀ s, (⟨g.probs, testScore m.fitted, items.getD (List.range m.fitted.cats.length), n.toNat, population, s⟩
      : Bit 1).Usable := by
    intro s
    refine ⟨fun t p hp => ((hf.2 t).2 p hp).2, ?_, ?_, ha.1⟩
    · intro t i hi
      rw [(hf.2 t).1, hc]
      cases items with
      | none => simpa using hi
      | some l => exact ha.2 l rfl i hi
    · simp only
      omega
  cases start with
  | none =>
    cases hb
    exact ⟨key _, rfl, rfl⟩
  | some s =>
    simp only at hb
    split_ifs at hb
    cases hb
    exact ⟨key _, rfl, rfl⟩

/-- C110: for a unidimensional model along whose latent variable expected test scores rise, or fall, a bit scale built
from the model and attached when nothing else is attached orders respondents as their expected test scores do, after
any history. Missing: a model trained again after the scale was built, and a bit scale attached
after another scale, for which the claim is false (`C110_bit_refit_false`, `C110_bit_second_false`). -/
theorem C110_bit_partial (f : FittedModel 1) (history : List (LifeStep 1)) (hnone : AttachedSince history [])
    (hp : ProperTable (lastFitted f history)) (hdir : OneDirection (lastFitted f history))
    (population : Option (Thetas 1)) (start : Option (List ℝ)) (items : Option (List ℕ)) (n : ℤ)
    (ha : BitArguments (lastFitted f history) population items) (b : Bit 1)
    (hb : ((ModelLife.new f).run history).bit population start items n = .ok b)
    (grads : FittedModel 1 → (Fin 1 → ℝ) → List (List ℝ)) :
    FollowsScores (lastFitted f history)
      ((ModelLife.new f).run (history ++ [.add (b.live grads)])).transformTheta := by
  intro theta hne
  set m := (ModelLife.new f).run history with hm
  have hfit : m.fitted = lastFitted f history := run_fitted _ _
  obtain ⟨hu, hs, hpr⟩ := bit_usable m (lastFitted f history) hp (by rw [hfit]) population start items n
    (by rw [hfit]; exact ha) b hb
  have hbb : ({ b with probs := (lastFitted f history).probs } : Bit 1) = b := by
    rw [← hfit, ← hpr]
  rw [hbb] at hu
  obtain ⟨B, med, hB, hprop⟩ := C28_scores b hu theta hne
  have htr : ((ModelLife.new f).run (history ++ [.add (b.live grads)])).transformTheta theta = b.transform theta := by
    rw [ModelLife.run_append]
    change Irt.transformTheta ((m.scales ++ [b.live grads]).map fun s => s m.fitted) theta = _
    rw [show m.scales = [] from run_attached f history [] hnone]
    change ((b.live grads m.fitted).transform theta).bind pure = _
    unfold Bit.live
    simp only [hfit]
    rw [hbb]
    cases b.transform theta <;> rfl
  refine ⟨B, htr.trans hB, fun t ht u hu' hle => ?_⟩
  refine (hprop t ht 0).2.2.1 u hu' ?_
  have hconst : ∀ t : Fin 1 → ℝ, t = fun _ => t 0 := fun t => funext fun i => by rw [Fin.eq_zero i]
  have hmul := C28_orientation b 0
  rw [hs, hfit, testScore_eq _ hp, testScore_eq _ hp, hconst (Pi.single 0 1), hconst (Pi.single 0 (-1))] at hmul
  simp only [Pi.single_eq_same] at hmul
  rw [hconst t, hconst u] at hle
  rcases hdir with hup | hdown
  · rw [if_neg (not_lt.2 (hup (-1) 1 (by norm_num)).le)] at hmul
    rw [hmul, mul_one, mul_one]
    by_contra h
    exact absurd hle (not_le.2 (hup _ _ (not_le.1 h)))
  · rw [if_pos (hdown (-1) 1 (by norm_num))] at hmul
    rw [hmul]
    have : u 0 ≤ t 0 := by
      by_contra h
      exact absurd hle (not_le.2 (hdown _ _ (not_le.1 h)))
    linarith

/-- The claim that a bit scale goes on ordering respondents by expected test scores when the model is trained again. -/
def BitSurvivesTraining : Prop :=
  ∀ (f g : FittedModel 1), ProperTable f → OneDirection f → ProperTable g → OneDirection g → g.cats = f.cats →
    ∀ (b : Bit 1), (ModelLife.new f).bit none none none 300 = .ok b →
    ∀ grads : FittedModel 1 → (Fin 1 → ℝ) → List (List ℝ),
      FollowsScores g ((ModelLife.new f).run [.add (b.live grads), .fit g]).transformTheta

/-- The claim that a bit scale orders respondents by expected test scores also when another scale is attached. -/
def BitAfterScale : Prop :=
  ∀ (f : FittedModel 1) (s : Scale 1), ProperTable f → OneDirection f →
    ∀ (b : Bit 1), (ModelLife.new f).bit none none none 300 = .ok b →
    ∀ grads : FittedModel 1 → (Fin 1 → ℝ) → List (List ℝ),
      FollowsScores f ((ModelLife.new f).run [.add (.fixed s), .add (b.live grads)]).transformTheta

/-- A model with one two-parameter logistic item with slope `a` and intercept 0. -/
noncomputable def exSlope (a : ℝ) : FittedModel 1 :=
  { exAE .mml none with
    scorer := tableScorer 1 fun t => [[1 - sigmoid (a * t 0), sigmoid (a * t 0)]]
    cats := [2]
    probs := fun t => [[1 - sigmoid (a * t 0), sigmoid (a * t 0)]] }

theorem exSlope_proper (a : ℝ) : ProperTable (exSlope a) := by
  refine ⟨by simp [exSlope], fun t => ⟨rfl, ?_⟩⟩
  intro p hp
  simp only [exSlope, List.mem_singleton] at hp
  subst hp
  exact ⟨rfl, by simp⟩

theorem exSlope_test (a : ℝ) (t : Fin 1 → ℝ) : expectedTest (exSlope a) t = sigmoid (a * t 0) := by
  simp [expectedTest, exSlope, List.mapIdx_cons]

theorem exSlope_direction (a : ℝ) (ha : a ≠ 0) : OneDirection (exSlope a) := by
  rcases lt_or_gt_of_ne ha with h | h
  · right
    intro x y hxy
    rw [exSlope_test, exSlope_test]
    exact sigmoid_strictMono (by nlinarith)
  · left
    intro x y hxy
    rw [exSlope_test, exSlope_test]
    exact sigmoid_strictMono (by nlinarith)

/-- The bit scale built from the model with slope 1. -/
noncomputable def exSlopeBit : Bit 1 := ⟨(exSlope 1).probs, testScore (exSlope 1), [0], 300, none, fun _ => -10000⟩

theorem exSlopeBit_multiplier (p : (Fin 1 → ℝ) → List (List ℝ)) (k : Fin 1) :
    ({ exSlopeBit with probs := p } : Bit 1).multiplier k = 1 := by
  change invertMultiplier (testScore (exSlope 1)) k = 1
  unfold invertMultiplier
  rw [testScore_eq _ (exSlope_proper 1), testScore_eq _ (exSlope_proper 1), exSlope_test, exSlope_test,
    Fin.eq_zero k, if_neg]
  simp only [if_true]
  exact not_lt.2 (sigmoid_strictMono (by norm_num)).le

theorem exSlopeBit_created : (ModelLife.new (exSlope 1)).bit none none none 300 = .ok exSlopeBit := by
  have h : ∀ k, invertMultiplier (testScore (exSlope 1)) k = 1 := fun k => exSlopeBit_multiplier exSlopeBit.probs k
  unfold ModelLife.bit Bit.create
  rw [if_neg (by norm_num)]
  simp only [Except.ok.injEq]
  unfold exSlopeBit
  congr 1
  funext k
  rw [show (ModelLife.new (exSlope 1)).fitted = exSlope 1 from rfl, h k, one_mul]

/-- With slope 1 or -1 the scale gives 0 at -10000 and a positive score at 0. -/
theorem exSlopeBit_scores (a : ℝ) (ha : a ≠ 0) :
    ∃ B : (Fin 1 → ℝ) → Fin 1 → ℝ, ({ exSlopeBit with probs := (exSlope a).probs } : Bit 1).transform
        [fun _ => -10000, fun _ => 0] = .ok ([fun _ => -10000, fun _ => 0].map B) ∧
      B (fun _ => -10000) 0 = 0 ∧ 0 < B (fun _ => 0) 0 := by
  have hu : ({ exSlopeBit with probs := (exSlope a).probs } : Bit 1).Usable := by
    refine ⟨fun t p hp => (((exSlope_proper a).2 t).2 p hp).2, ?_, by norm_num [exSlopeBit], by simp [exSlopeBit]⟩
    intro t i hi
    simp only [exSlopeBit, List.mem_singleton] at hi
    subst hi
    simp [exSlope]
  obtain ⟨B, med, hB, h⟩ := C28_scores _ hu [fun _ => -10000, fun _ => 0] (by simp)
  refine ⟨B, hB, ?_, ?_⟩
  · refine (h (fun _ => -10000) (by simp) 0).2.1 ?_
    rw [exSlopeBit_multiplier]
    exact le_rfl
  · have h4 := (h (fun _ => 0) (by simp) 0).2.2.2
    refine lt_of_lt_of_le ?_ h4
    have hcurve : ∀ x, ({ exSlopeBit with probs := (exSlope a).probs } : Bit 1).itemEntropy 0
        (({ exSlopeBit with probs := (exSlope a).probs } : Bit 1).curve med 0 x)
        = smoothEntropy [1 - sigmoid (a * x), sigmoid (a * x)] := by
      intro x
      simp [Bit.itemEntropy, Bit.curve, exSlopeBit_multiplier, exSlope]
    change 0 < (([0] : List ℕ).map _).sum
    simp only [List.map_cons, List.map_nil, List.sum_cons, List.sum_nil, add_zero]
    rw [hcurve, hcurve]
    simp only [exSlopeBit_multiplier, mul_one]
    change 0 < |smoothEntropy [1 - sigmoid (a * -10000), sigmoid (a * -10000)]
      - smoothEntropy [1 - sigmoid (a * max 0 (-10000)), sigmoid (a * max 0 (-10000))]|
    rw [max_eq_left (by norm_num), mul_zero]
    have h0 : sigmoid 0 = 1 / 2 := by unfold sigmoid; norm_num
    rw [h0, show (1 : ℝ) - 1 / 2 = 1 / 2 by norm_num]
    apply abs_pos.2
    have hne : sigmoid (a * -10000) ≠ 1 / 2 := by
      rw [← h0]
      intro h
      have := sigmoid_strictMono.injective h
      simp [ha] at this
    have := smoothEntropy_lt_half _ (sigmoid_pos (a * -10000)) (sigmoid_lt_one _) hne
    linarith

/-- C110: false when the model is trained again: a bit scale keeps the orientation and the starting theta of the
parameters it was built with, but reads the new item probabilities. When training turns the latent variable around, the
respondents with the highest expected test scores get bit score zero. -/
theorem C110_bit_refit_false : ¬ BitSurvivesTraining := by
  intro h
  obtain ⟨B, hB, h1, h2⟩ := exSlopeBit_scores (-1) (by norm_num)
  obtain ⟨C, hC, hle⟩ := h (exSlope 1) (exSlope (-1)) (exSlope_proper 1) (exSlope_direction 1 (by norm_num))
    (exSlope_proper _) (exSlope_direction _ (by norm_num)) rfl exSlopeBit exSlopeBit_created (fun _ _ => [])
    [fun _ => -10000, fun _ => 0] (by simp)
  have : ((ModelLife.new (exSlope 1)).run [.add (exSlopeBit.live fun _ _ => []), .fit (exSlope (-1))]).transformTheta
      [fun _ => -10000, fun _ => 0]
      = ({ exSlopeBit with probs := (exSlope (-1)).probs } : Bit 1).transform [fun _ => -10000, fun _ => 0] := by
    rw [show ((ModelLife.new (exSlope 1)).run [.add (exSlopeBit.live fun _ _ => []), .fit (exSlope (-1))])
      = ⟨exSlope (-1), [exSlopeBit.live fun _ _ => []]⟩ from rfl]
    unfold ModelLife.transformTheta ModelLife.now
    rw [List.map_singleton, transform_single]
    rfl
  rw [this, hB] at hC
  simp only [List.map_cons, List.map_nil, Except.ok.injEq, List.cons.injEq, and_true] at hC
  have := hle (fun _ => 0) (by simp) (fun _ => -10000) (by simp) (by
    rw [exSlope_test, exSlope_test]
    exact sigmoid_strictMono.monotone (by norm_num))
  rw [← hC.1, ← hC.2, h1] at this
  linarith

/-- C110: false after another scale: attached transformations are applied one after the other, so the bit scale reads
the item probabilities at scores that are already transformed. After `Reverse` the respondents with the highest expected
test scores get bit score zero. -/
theorem C110_bit_second_false : ¬ BitAfterScale := by
  intro h
  obtain ⟨B, hB, h1, h2⟩ := exSlopeBit_scores 1 (by norm_num)
  obtain ⟨C, hC, hle⟩ := h (exSlope 1) (reverseScale fun _ => true) (exSlope_proper 1)
    (exSlope_direction 1 (by norm_num)) exSlopeBit exSlopeBit_created (fun _ _ => [])
    [fun _ => 10000, fun _ => 0] (by simp)
  have : ((ModelLife.new (exSlope 1)).run [.add (.fixed (reverseScale fun _ => true)),
      .add (exSlopeBit.live fun _ _ => [])]).transformTheta [fun _ => 10000, fun _ => 0]
      = ({ exSlopeBit with probs := (exSlope 1).probs } : Bit 1).transform [fun _ => -10000, fun _ => 0] := by
    rw [show ((ModelLife.new (exSlope 1)).run [.add (.fixed (reverseScale fun _ => true)),
      .add (exSlopeBit.live fun _ _ => [])])
      = ⟨exSlope 1, [.fixed (reverseScale fun _ => true), exSlopeBit.live fun _ _ => []]⟩ from rfl]
    unfold ModelLife.transformTheta ModelLife.now
    rw [List.map_cons, List.map_singleton, transform_pair]
    have : (reverseScale fun _ => true).transform [fun _ => 10000, fun _ => 0]
        = .ok [fun _ : Fin 1 => (-10000 : ℝ), fun _ => 0] := by
      simp [reverseScale, reverseSign]
    unfold LiveScale.fixed
    rw [this, bind_ok]
    rfl
  rw [this, hB] at hC
  simp only [List.map_cons, List.map_nil, Except.ok.injEq, List.cons.injEq, and_true] at hC
  have := hle (fun _ => 0) (by simp) (fun _ => 10000) (by simp) (by
    rw [exSlope_test, exSlope_test]
    exact sigmoid_strictMono.monotone (by norm_num))
  rw [← hC.1, ← hC.2, h1] at this
  linarith

/-! ### The hypotheses above are met -/

/-- A history with two trainings, two scales, a detachment and one more scale. -/
noncomputable def exLife : List (LifeStep 1) :=
  [.fit (exSlope 1), .add (.fixed (reverseScale fun _ => true)), .add (.fixed (reverseScale fun _ => true)), .detach,
    .fit (exSlope 2), .add (.fixed (reverseScale fun _ => true))]

example : AttachedSince exLife [.fixed (reverseScale fun _ => true)] ∧ lastFitted (exSlope 3) exLife = exSlope 2 ∧
    ((ModelLife.new (exSlope 3)).run exLife).transformTheta [fun _ => 1] = .ok [fun _ => 1 * reverseSign true] :=
  ⟨⟨exLife.take 4, exLife.drop 4, rfl, Or.inr ⟨exLife.take 3, rfl⟩, by simp [exLife], rfl⟩, rfl, rfl⟩

example : ∃ (history : List (LifeStep 1)) (b : Bit 1), history.length = 5 ∧ AttachedSince history [] ∧
    ProperTable (lastFitted (exSlope 3) history) ∧ OneDirection (lastFitted (exSlope 3) history) ∧
    BitArguments (lastFitted (exSlope 3) history) none none ∧
    ((ModelLife.new (exSlope 3)).run history).bit none none none 300 = .ok b :=
  ⟨[.fit (exSlope 2), .add (.fixed (reverseScale fun _ => true)), .fit (exSlope 1), .detach, .fit (exSlope 1)],
    exSlopeBit, rfl, ⟨[.fit (exSlope 2), .add (.fixed (reverseScale fun _ => true)), .fit (exSlope 1), .detach],
      [.fit (exSlope 1)], rfl, Or.inr ⟨[.fit (exSlope 2), .add (.fixed (reverseScale fun _ => true)),
      .fit (exSlope 1)], rfl⟩, by simp, rfl⟩, exSlope_proper 1,
    exSlope_direction 1 (by norm_num), ⟨by simp, by simp⟩, exSlopeBit_created⟩

end Irt
