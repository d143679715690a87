import Verif.Spec.Identify
import Verif.Lemmas.LogitModel
import Verif.Props.Graded
import Verif.Props.Directions
import Mathlib.Analysis.SpecialFunctions.Exp

/-! # Property C107: item parameters are determined by the response curves -/

namespace Irt
open Spec Filter

theorem probe_length {lv : ℕ} {θ : List ℝ} (h : ProbeScores lv θ) : θ.length = lv := by
  rcases h with rfl | ⟨i, _, rfl⟩ <;> simp [originScores, unitScores]

theorem dot_origin (lv : ℕ) (a : List ℝ) : dot (originScores lv) a = 0 := by
  unfold originScores
  induction lv generalizing a with
  | zero => simp [dot]
  | succ n ih =>
    cases a with
    | nil => simp [dot]
    | cons x a =>
      have := ih a
      simp only [dot] at this ⊢
      simp [List.replicate_succ, this]

theorem dot_unit (lv i : ℕ) (hi : i < lv) (a : List ℝ) (s : ℝ) (ha : a[i]? = some s) : dot (unitScores lv i) a = s := by
  unfold unitScores
  rw [dot_set_eq (List.replicate lv 0) a i 0 1 s (by simp [hi]) ha]
  have := dot_origin lv a
  unfold originScores at this
  rw [this]; ring

/-- Two affine functions that agree at the probe scores are the same. -/
theorem affine_identified (lv : ℕ) (a a' : List ℝ) (b b' : ℝ) (ha : a.length = lv) (ha' : a'.length = lv)
    (h : ∀ θ, ProbeScores lv θ → dot θ a + b = dot θ a' + b') : a = a' ∧ b = b' := by
  have h0 := h _ (Or.inl rfl)
  rw [dot_origin, dot_origin, zero_add, zero_add] at h0
  refine ⟨List.ext_getElem? fun i => ?_, h0⟩
  by_cases hi : i < lv
  · obtain ⟨s, hs⟩ := getElem?_of_lt a i (by omega)
    obtain ⟨s', hs'⟩ := getElem?_of_lt a' i (by omega)
    have := h _ (Or.inr ⟨i, hi, rfl⟩)
    rw [dot_unit lv i hi a s hs, dot_unit lv i hi a' s' hs', h0] at this
    rw [hs, hs', add_right_cancel this]
  · rw [List.getElem?_eq_none (by omega), List.getElem?_eq_none (by omega)]

theorem logistic_injective : Function.Injective logistic := logistic_strictMono.injective

/-! ## One-, two- and three-parameter logistic models -/

/-- C107, 1PL: one latent score determines the parameters. -/
theorem C107_onePL (m₁ m₂ : OnePL) (h₁ : m₁.WF) (h₂ : m₂.WF) (θ : ℝ) (h : m₁.probs θ = m₂.probs θ) :
    m₁.itemParameters = m₂.itemParameters := by
  have hit : m₁.items = m₂.items := by
    have := congrArg List.length h
    simpa [OnePL.probs, probabilitiesFromOutput, length_viewRows] using this
  refine List.ext_getElem? fun j => ?_
  have l₁ : m₁.itemParameters.length = m₁.items := h₁
  have l₂ : m₂.itemParameters.length = m₂.items := h₂
  by_cases hj : j < m₁.items
  · obtain ⟨b, hb⟩ := getElem?_of_lt m₁.itemParameters j (by omega)
    obtain ⟨b', hb'⟩ := getElem?_of_lt m₂.itemParameters j (by omega)
    have := C03_onePL_formula m₁ h₁ θ j b hb
    rw [h, C03_onePL_formula m₂ h₂ θ j b' hb'] at this
    simp only [Option.some.injEq, List.cons.injEq, and_true] at this
    rw [hb, hb', add_left_cancel (logistic_injective this.2)]
  · rw [List.getElem?_eq_none (by omega), List.getElem?_eq_none (by omega)]

theorem TwoPL.slopes_length (m : TwoPL) (hwf : m.WF) (j : ℕ) (a : List ℝ) (b : ℝ) (hp : m.itemParameters[j]? = some (a, b)) :
    a.length = m.lv := by
  rw [TwoPL.itemParameters, List.getElem?_zip_eq_some] at hp
  refine mem_viewRows_length _ _ _ ?_ a (List.mem_of_getElem? hp.1)
  rw [length_scatterMask, List.length_flatten]
  rw [← hwf.relLen]
  have : ∀ l : List (List Bool), (∀ r ∈ l, r.length = m.lv) → (l.map List.length).sum = l.length * m.lv := by
    intro l hl
    induction l with
    | nil => simp
    | cons r l ih => simp [hl r (by simp), ih (fun r hr => hl r (by simp [hr]))]; ring
  exact this _ hwf.relRow

/-- C107, 2PL: the success probability of an item at one more latent score vector than there are latent variables determines its slopes
and intercept. -/
theorem C107_twoPL (m₁ m₂ : TwoPL) (h₁ : m₁.WF) (h₂ : m₂.WF) (hlv : m₁.lv = m₂.lv) (j : ℕ) (hj : j < m₁.items)
    (h : ∀ θ, ProbeScores m₁.lv θ → (m₁.probs θ)[j]? = (m₂.probs θ)[j]?) :
    m₁.itemParameters[j]? = m₂.itemParameters[j]? := by
  obtain ⟨a, b, hp⟩ := m₁.exists_params h₁ j hj
  have hj₂ : j < m₂.items := by
    have := h _ (Or.inl rfl)
    rw [C03_twoPL_formula m₁ h₁ _ j a b hp] at this
    have := lt_of_getElem?_some this.symm
    rwa [TwoPL.probs, probabilitiesFromOutput, List.length_map, length_viewRows] at this
  obtain ⟨a', b', hp'⟩ := m₂.exists_params h₂ j hj₂
  obtain ⟨rfl, rfl⟩ := affine_identified m₁.lv a a' b b' (m₁.slopes_length h₁ j a b hp)
    (by rw [hlv]; exact m₂.slopes_length h₂ j a' b' hp') (by
      intro θ hθ
      have := h θ hθ
      rw [C03_twoPL_formula m₁ h₁ _ j a b hp, C03_twoPL_formula m₂ h₂ _ j a' b' hp'] at this
      simp only [Option.some.injEq, List.cons.injEq, and_true] at this
      exact logistic_injective this.2)
  rw [hp, hp']

theorem logistic_atBot : Tendsto logistic atBot (nhds 0) := by
  have h : Tendsto (fun x => Real.exp x / (1 + Real.exp x)) atBot (nhds (0 / (1 + 0))) :=
    Real.tendsto_exp_atBot.div (tendsto_const_nhds.add Real.tendsto_exp_atBot) (by norm_num)
  rw [zero_div] at h
  exact h

theorem logistic_atTop : Tendsto logistic atTop (nhds 1) := by
  have h := (logistic_atBot.comp tendsto_neg_atTop_atBot).const_sub 1
  rw [sub_zero] at h
  refine h.congr fun x => ?_
  simp only [Function.comp_apply, logistic]
  rw [Real.exp_neg]
  have := Real.exp_pos x
  field_simp
  ring

/-- Two curves with lower asymptotes that agree along a line on which the first one rises have the same lower asymptote. -/
theorem guess_identified (c c' α β d d' : ℝ) (hc1 : c < 1) (hc1' : c' < 1) (hα : 0 < α)
    (h : ∀ s : ℝ, c + (1 - c) * logistic (s * α + d) = c' + (1 - c') * logistic (s * β + d')) : c = c' := by
  have lin : ∀ x e : ℝ, 0 < x → Tendsto (fun s : ℝ => s * x + e) atBot atBot := fun x e hx =>
    tendsto_atBot_add_const_right _ _ (tendsto_id.atBot_mul_const hx)
  have hl : Tendsto (fun s : ℝ => c + (1 - c) * logistic (s * α + d)) atBot (nhds (c + (1 - c) * 0)) :=
    ((logistic_atBot.comp (lin α d hα)).const_mul _).const_add _
  rw [mul_zero, add_zero] at hl
  simp only [h] at hl
  rcases lt_trichotomy β 0 with hβ | hβ | hβ
  · have hr : Tendsto (fun s : ℝ => c' + (1 - c') * logistic (s * β + d')) atBot (nhds (c' + (1 - c') * 1)) :=
      ((logistic_atTop.comp (tendsto_atTop_add_const_right _ _ (tendsto_id.atBot_mul_const_of_neg hβ))).const_mul _).const_add _
    have := tendsto_nhds_unique hl hr
    linarith
  · exfalso
    subst hβ
    simp only [mul_zero] at h
    have h2 : (1 - c) * logistic (0 * α + d) = (1 - c) * logistic (1 * α + d) := by linarith [h 0, h 1]
    have := logistic_injective (mul_left_cancel₀ (by linarith) h2)
    linarith
  · have hr : Tendsto (fun s : ℝ => c' + (1 - c') * logistic (s * β + d')) atBot (nhds (c' + (1 - c') * 0)) :=
      ((logistic_atBot.comp (lin β d' hβ)).const_mul _).const_add _
    have := tendsto_nhds_unique hl hr
    linarith

theorem dot_smul (s : ℝ) (a b : List ℝ) : dot (a.map fun x => s * x) b = s * dot a b := by
  unfold dot
  induction a generalizing b with
  | nil => simp
  | cons x a ih =>
    cases b with
    | nil => simp
    | cons y b => simp [ih b]; ring

theorem dot_self_pos (a : List ℝ) (h : ∃ x ∈ a, x ≠ 0) : 0 < dot a a := by
  unfold dot
  have hnn : ∀ l : List ℝ, 0 ≤ (List.zipWith (· * ·) l l).sum := by
    intro l
    induction l with
    | nil => simp
    | cons x l ih => simp only [List.zipWith_cons_cons, List.sum_cons]; exact add_nonneg (mul_self_nonneg x) ih
  induction a with
  | nil => simp at h
  | cons x a ih =>
    simp only [List.zipWith_cons_cons, List.sum_cons]
    by_cases hx : x = 0
    · subst hx
      obtain ⟨y, hy, hne⟩ := h
      have := ih ⟨y, by simpa [hne] using hy, hne⟩
      linarith
    · have := hnn a
      have := mul_self_pos.2 hx
      linarith

theorem ThreePL.slopes_length (m : ThreePL) (hwf : m.WF) (j : ℕ) (a : List ℝ) (b : ℝ × ℝ)
    (hp : m.itemParameters[j]? = some (a, b)) : a.length = m.lv := by
  rw [ThreePL.itemParameters, List.getElem?_zip_eq_some] at hp
  obtain ⟨b', hb'⟩ := getElem?_of_lt m.bias j (by
    rw [hwf.biasLen]; have := lt_of_getElem?_some hp.1; rwa [ThreePL.weights, length_viewRows] at this)
  exact TwoPL.slopes_length ⟨m.items, m.lv, m.rel, m.weight, m.bias⟩ ⟨hwf.relLen, hwf.relRow, hwf.weightLen, hwf.biasLen⟩ j a b'
    (by rw [TwoPL.itemParameters, List.getElem?_zip_eq_some]; exact ⟨hp.1, hb'⟩)

/-- The claim for the 3PL. -/
def ThreePLIdentified : Prop :=
  ∀ (m₁ m₂ : ThreePL) (j : ℕ), m₁.WF → m₂.WF → m₁.lv = m₂.lv → j < m₁.items →
    (∀ θ : List ℝ, θ.length = m₁.lv → (m₁.probs θ)[j]? = (m₂.probs θ)[j]?) → m₁.itemParameters[j]? = m₂.itemParameters[j]?

/-- C107, 3PL: the success probabilities of an item determine its slopes, intercept and guessing parameter when one slope of one of the
two models is not zero. -/
theorem C107_threePL_partial (m₁ m₂ : ThreePL) (h₁ : m₁.WF) (h₂ : m₂.WF) (hlv : m₁.lv = m₂.lv) (j : ℕ) (a : List ℝ) (b c : ℝ)
    (hp : m₁.itemParameters[j]? = some (a, b, c)) (ha : ∃ x ∈ a, x ≠ 0)
    (h : ∀ θ : List ℝ, θ.length = m₁.lv → (m₁.probs θ)[j]? = (m₂.probs θ)[j]?) :
    m₂.itemParameters[j]? = some (a, b, c) := by
  have hla := m₁.slopes_length h₁ j a (b, c) hp
  have hj₂ : j < m₂.items := by
    have := h a hla
    rw [C03_threePL_formula m₁ _ j a b c hp] at this
    have := lt_of_getElem?_some this.symm
    simp only [ThreePL.probs, ThreePL.forwardRow, ThreePL.weights, List.length_map, List.length_zipWith, length_viewRows] at this
    omega
  obtain ⟨a', b', c', hp'⟩ := m₂.exists_params h₂ j hj₂
  have hla' : a'.length = m₁.lv := by rw [hlv]; exact m₂.slopes_length h₂ j a' (b', c') hp'
  have hc := (C03_threePL_bounds m₁ a j a b c hp).2.1
  have hc' := (C03_threePL_bounds m₂ a j a' b' c' hp').2.1
  have hq : ∀ θ : List ℝ, θ.length = m₁.lv →
      c + (1 - c) * logistic (dot θ a + b) = c' + (1 - c') * logistic (dot θ a' + b') := by
    intro θ hθ
    have := h θ hθ
    rw [C03_threePL_formula m₁ _ j a b c hp, C03_threePL_formula m₂ _ j a' b' c' hp'] at this
    simp only [Option.some.injEq, List.cons.injEq, and_true] at this
    exact this.2
  obtain rfl := guess_identified c c' (dot a a) (dot a a') b b' hc hc' (dot_self_pos a ha) (by
    intro s
    have := hq (a.map fun x => s * x) (by simpa using hla)
    rwa [dot_smul, dot_smul] at this)
  obtain ⟨rfl, rfl⟩ := affine_identified m₁.lv a a' b b' hla hla' (by
    intro θ hθ
    have := hq θ (probe_length hθ)
    have h1 : (1 - c) * logistic (dot θ a + b) = (1 - c) * logistic (dot θ a' + b') := by linarith
    exact logistic_injective (mul_left_cancel₀ (by linarith) h1))
  exact hp'

/-! ## Generalized partial credit and graded response -/

/-- The claim for the generalized partial credit model. -/
def GPCIdentified : Prop :=
  ∀ (m₁ m₂ : GPC) (j : ℕ), m₁.WF → m₂.WF → m₁.lv = m₂.lv → m₁.cats = m₂.cats → j < m₁.cats.length →
    (∀ θ : List ℝ, θ.length = m₁.lv → (m₁.probs θ)[j]? = (m₂.probs θ)[j]?) → m₁.itemParameters[j]? = m₂.itemParameters[j]?

theorem GPC.slopes_length (m : GPC) (hwf : m.WF) (j : ℕ) (a dl : List ℝ) (hp : m.itemParameters[j]? = some (a, dl)) :
    a.length = m.lv := by
  rw [GPC.itemParameters, List.getElem?_zip_eq_some] at hp
  have hj : j < m.cats.length := by have := lt_of_getElem?_some hp.1; rwa [GPC.weights, length_viewRows] at this
  exact TwoPL.slopes_length ⟨m.cats.length, m.lv, m.rel, m.weight, List.replicate m.cats.length 0⟩
    ⟨hwf.relLen, hwf.relRow, hwf.weightLen, by simp⟩ j a 0
    (by rw [TwoPL.itemParameters, List.getElem?_zip_eq_some]; exact ⟨hp.1, by simp [hj]⟩)

theorem GPC.unused_zero (m : GPC) (j c : ℕ) (a dl : List ℝ) (hc : m.cats[j]? = some c)
    (hp : m.itemParameters[j]? = some (a, dl)) (k : ℕ) (hk : k < m.M) (hck : c ≤ k) : dl[k]? = some 0 := by
  rw [GPC.itemParameters, List.getElem?_zip_eq_some] at hp
  rw [← viewRows_row_entry _ _ _ (by rw [GPC.biases, length_scatterMask, length_freeMask]) j dl hp.2 k hk,
    GPC.biases, scatterMask_false 0 (freeMask m.M m.cats) m.bias _
      (by rw [freeMask_getElem? m.M m.cats j k c hc hk]; simp; omega)]

/-- C107, generalized partial credit: the probabilities of an item with at least two categories at one more latent score vector than there
are latent variables determine its slopes and intercepts. -/
theorem C107_gpc_partial (m₁ m₂ : GPC) (h₁ : m₁.WF) (h₂ : m₂.WF) (hlv : m₁.lv = m₂.lv) (hcats : m₁.cats = m₂.cats) (j c : ℕ)
    (hc : m₁.cats[j]? = some c) (h2 : 2 ≤ c) (h : ∀ θ, ProbeScores m₁.lv θ → (m₁.probs θ)[j]? = (m₂.probs θ)[j]?) :
    m₁.itemParameters[j]? = m₂.itemParameters[j]? := by
  have hj := lt_of_getElem?_some hc
  have hM : m₁.M = m₂.M := by simp [GPC.M, hcats]
  have hcM : c ≤ m₁.M := le_maxCats _ _ (List.mem_of_getElem? hc)
  obtain ⟨a, dl, hp, hdl⟩ := m₁.exists_params j hj
  obtain ⟨a', dl', hp', hdl'⟩ := m₂.exists_params j (by rwa [← hcats])
  obtain ⟨d, hd⟩ := exists_entry_fun dl
  obtain ⟨d', hd'⟩ := exists_entry_fun dl'
  have hc' : m₂.cats[j]? = some c := by rw [← hcats]; exact hc
  have heq : ∀ θ, ProbeScores m₁.lv θ → ∀ k : ℕ, k < c → (k : ℝ) * dot θ a + d k = k * dot θ a' + d' k := by
    intro θ hθ
    obtain ⟨z, f⟩ := C05_gpc_formula_partial m₁ h₁ θ j c a dl d hc hp (fun k hk => hd k (by omega))
    obtain ⟨z', f'⟩ := C05_gpc_formula_partial m₂ h₂ θ j c a' dl' d' hc' hp' (fun k hk => hd' k (by omega))
    have := h θ hθ
    rw [f, f', ← hM, Option.some_inj, multinomialLogit_eq_iff c m₁.M (by omega) hcM _ _ (by simp [z, z'])] at this
    exact this
  have hdd : ∀ k, k < c → d k = d' k := by
    intro k hk
    have := heq _ (Or.inl rfl) k hk
    rwa [dot_origin, dot_origin, mul_zero, zero_add, zero_add] at this
  obtain ⟨rfl, -⟩ := affine_identified m₁.lv a a' (d 1) (d' 1) (m₁.slopes_length h₁ j a dl hp)
    (by rw [hlv]; exact m₂.slopes_length h₂ j a' dl' hp') (by
      intro θ hθ
      simpa using heq θ hθ 1 (by omega))
  have : dl = dl' := by
    refine List.ext_getElem? fun k => ?_
    by_cases hk : k < m₁.M
    · by_cases hkc : k < c
      · rw [hd k (by omega), hd' k (by omega), hdd k hkc]
      · rw [m₁.unused_zero j c a dl hc hp k hk (by omega), m₂.unused_zero j c a dl' hc' hp' k (by omega) (by omega)]
    · rw [List.getElem?_eq_none (by omega), List.getElem?_eq_none (by omega)]
  rw [hp, hp', this]

/-- C107, nominal response: the probabilities of an item at one more latent score vector than there are latent variables determine all its
slopes and intercepts, for any number of categories. -/
theorem C107_nrm (m₁ m₂ : NRM) (h₁ : m₁.WF) (h₂ : m₂.WF) (hlv : m₁.lv = m₂.lv) (hcats : m₁.cats = m₂.cats) (j : ℕ)
    (hj : j < m₁.cats.length) (h : ∀ θ, ProbeScores m₁.lv θ → (m₁.probs θ)[j]? = (m₂.probs θ)[j]?) :
    m₁.itemParameters[j]? = m₂.itemParameters[j]? := by
  obtain ⟨c, hc⟩ := getElem?_of_lt m₁.cats j hj
  have hc' : m₂.cats[j]? = some c := by rw [← hcats]; exact hc
  have hM : m₁.M = m₂.M := by simp [NRM.M, hcats]
  have hcM : c ≤ m₁.M := le_maxCats _ _ (List.mem_of_getElem? hc)
  have hcpos : 0 < c := h₁.catsPos c (List.mem_of_getElem? hc)
  obtain ⟨wl, dl, hp, hwl, hdl⟩ := m₁.exists_params j hj
  obtain ⟨wl', dl', hp', hwl', hdl'⟩ := m₂.exists_params j (by rwa [← hcats])
  obtain ⟨w, hw⟩ := exists_entry_fun wl
  obtain ⟨w', hw'⟩ := exists_entry_fun wl'
  obtain ⟨d, hd⟩ := exists_entry_fun dl
  obtain ⟨d', hd'⟩ := exists_entry_fun dl'
  obtain ⟨r, hr⟩ := getElem?_of_lt m₁.rel j (by rw [h₁.relLen]; exact hj)
  obtain ⟨r', hr'⟩ := getElem?_of_lt m₂.rel j (by rw [h₂.relLen, ← hcats]; exact hj)
  have hq := hp
  have hq' := hp'
  rw [NRM.itemParameters, List.getElem?_zip_eq_some] at hq hq'
  have hlen : ∀ k, k < m₁.M → (w k).length = m₁.lv := fun k hk =>
    m₁.weight_row_length h₁ j wl (by omega) hq.1 _ (List.mem_of_getElem? (hw k (by omega)))
  have hlen' : ∀ k, k < m₁.M → (w' k).length = m₁.lv := fun k hk => by
    rw [hlv]; exact m₂.weight_row_length h₂ j wl' (by omega) hq'.1 _ (List.mem_of_getElem? (hw' k (by omega)))
  have heq : ∀ θ, ProbeScores m₁.lv θ → ∀ k, k < c → dot θ (w k) + d k = dot θ (w' k) + d' k := by
    intro θ hθ
    have e := h θ hθ
    rw [m₁.probs_row θ j c wl dl w d hc hp (fun k hk => hw k (by omega)) (fun k hk => hd k (by omega)),
      m₂.probs_row θ j c wl' dl' w' d' hc' hp' (fun k hk => hw' k (by omega)) (fun k hk => hd' k (by omega)), ← hM, Option.some_inj] at e
    exact multinomialLogit_inj c m₁.M hcpos hcM _ _
      (m₁.sum_logits h₁ θ (probe_length hθ) j c wl dl w d hc hp (fun k hk => hw k (by omega)) (fun k hk => hd k (by omega)))
      (m₂.sum_logits h₂ θ (by rw [← hlv]; exact probe_length hθ) j c wl' dl' w' d' hc' hp' (fun k hk => hw' k (by omega))
        (fun k hk => hd' k (by omega))) e
  have hkey : ∀ k, k < m₁.M → w k = w' k ∧ d k = d' k := by
    intro k hk
    by_cases hkc : k < c
    · exact affine_identified m₁.lv _ _ _ _ (hlen k hk) (hlen' k hk) fun θ hθ => heq θ hθ k hkc
    · constructor
      · have hl := hlen k hk
        have hl' := hlen' k hk
        refine List.ext_getElem (by rw [hl, hl']) fun i hi hi' => ?_
        have z := m₁.weight_zero h₁ j c k i r wl hc hr hq.1 hk (by omega) hcpos (Or.inl (by omega)) _ (hw k (by omega))
        have z' := m₂.weight_zero h₂ j c k i r' wl' hc' hr' hq'.1 (by omega) (by omega) hcpos (Or.inl (by omega)) _ (hw' k (by omega))
        rw [List.getD_eq_getElem _ _ hi] at z
        rw [List.getD_eq_getElem _ _ hi'] at z'
        rw [z, z']
      · have z := m₁.bias_missing j c k dl hc hcpos hq.2 (by omega) hk
        have z' := m₂.bias_missing j c k dl' hc' hcpos hq'.2 (by omega) (by omega)
        rw [hd k (by omega)] at z
        rw [hd' k (by omega)] at z'
        rw [Option.some_inj.1 z, Option.some_inj.1 z']
  have e1 : wl = wl' := List.ext_getElem? fun k => by
    by_cases hk : k < m₁.M
    · rw [hw k (by omega), hw' k (by omega), (hkey k hk).1]
    · rw [List.getElem?_eq_none (by omega), List.getElem?_eq_none (by omega)]
  have e2 : dl = dl' := List.ext_getElem? fun k => by
    by_cases hk : k < m₁.M
    · rw [hd k (by omega), hd' k (by omega), (hkey k hk).2]
    · rw [List.getElem?_eq_none (by omega), List.getElem?_eq_none (by omega)]
  rw [hp, hp', e1, e2]

theorem GRM.slopes_length (m : GRM) (hwf : m.WF) (j : ℕ) (a dl : List ℝ) (hp : m.itemParameters[j]? = some (a, dl)) :
    a.length = m.lv := by
  rw [GRM.itemParameters, List.getElem?_zip_eq_some] at hp
  have hj : j < m.cats.length := by have := lt_of_getElem?_some hp.1; rwa [GRM.weights, length_viewRows] at this
  exact TwoPL.slopes_length ⟨m.cats.length, m.lv, m.rel, m.weight, List.replicate m.cats.length 0⟩
    ⟨hwf.relLen, hwf.relRow, hwf.weightLen, by simp⟩ j a 0
    (by rw [TwoPL.itemParameters, List.getElem?_zip_eq_some]; exact ⟨hp.1, by simp [hj]⟩)

theorem GRM.unused_zero (m : GRM) (j c : ℕ) (a dl : List ℝ) (hc : m.cats[j]? = some c)
    (hp : m.itemParameters[j]? = some (a, dl)) (k : ℕ) (hk : k + 1 < m.M) (hck : c ≤ k + 1) : dl[k]? = some 0 := by
  rw [GRM.itemParameters, List.getElem?_zip_eq_some, List.getElem?_map] at hp
  obtain ⟨row, hrow, rfl⟩ := Option.map_eq_some_iff.1 hp.2
  rw [List.getElem?_tail, ← viewRows_row_entry _ _ _ (by rw [GRM.biases, length_scatterMask, length_freeMask]) j row hrow (k + 1) hk,
    GRM.biases, scatterMask_false 0 (freeMask m.M m.cats) m.bias _
      (by rw [freeMask_getElem? m.M m.cats j (k + 1) c hc hk]; simp; omega)]

/-- C107, graded response. -/
theorem C107_grm_partial (m₁ m₂ : GRM) (h₁ : m₁.WF) (h₂ : m₂.WF) (hlv : m₁.lv = m₂.lv) (hcats : m₁.cats = m₂.cats) (j c : ℕ)
    (hc : m₁.cats[j]? = some c) (h2 : 2 ≤ c) (h : ∀ θ, ProbeScores m₁.lv θ → (m₁.probs θ)[j]? = (m₂.probs θ)[j]?) :
    m₁.itemParameters[j]? = m₂.itemParameters[j]? := by
  have hj := lt_of_getElem?_some hc
  have hM : m₁.M = m₂.M := by simp [GRM.M, hcats]
  have hcM : c ≤ m₁.M := le_maxCats _ _ (List.mem_of_getElem? hc)
  obtain ⟨a, dl, hp, hdl⟩ := m₁.exists_params j hj
  obtain ⟨a', dl', hp', hdl'⟩ := m₂.exists_params j (by rwa [← hcats])
  obtain ⟨d, hd⟩ := m₁.exists_thresholds dl hdl
  obtain ⟨d', hd'⟩ := m₂.exists_thresholds dl' hdl'
  have hc' : m₂.cats[j]? = some c := by rw [← hcats]; exact hc
  have heq : ∀ θ, ProbeScores m₁.lv θ → ∀ k : ℕ, 0 < k → k < c → dot θ a + d k = dot θ a' + d' k := by
    intro θ hθ k hk0 hkc
    have e := h θ hθ
    rw [m₁.probs_row' θ j c a dl d hc hp hd, m₂.probs_row' θ j c a' dl' d' hc' hp' hd', ← hM, Option.some_inj] at e
    have hstep : ∀ i, i < m₁.M → grmGeq c (dot θ a) d i - grmGeq c (dot θ a) d (i + 1)
        = grmGeq c (dot θ a') d' i - grmGeq c (dot θ a') d' (i + 1) := by
      intro i hi
      have := congrArg (fun l : List ℝ => l[i]?) e
      simpa [List.getElem?_range hi] using this
    have hall : ∀ i, i ≤ m₁.M → grmGeq c (dot θ a) d (m₁.M - i) = grmGeq c (dot θ a') d' (m₁.M - i) := by
      intro i
      induction i with
      | zero => intro _; rw [Nat.sub_zero, grmGeq_last c _ (by omega) hcM, grmGeq_last c _ (by omega) hcM]
      | succ i ih =>
        intro hi
        have e1 := hstep (m₁.M - (i + 1)) (by omega)
        rw [show m₁.M - (i + 1) + 1 = m₁.M - i by omega] at e1
        have e2 := ih (by omega)
        linarith
    have := hall (m₁.M - k) (by omega)
    rw [show m₁.M - (m₁.M - k) = k by omega] at this
    unfold grmGeq at this
    simp only [hk0.ne', hkc, if_true, if_false] at this
    exact sigmoid_strictMono.injective this
  have hdd : ∀ k, 0 < k → k < c → d k = d' k := by
    intro k hk hkc
    have := heq _ (Or.inl rfl) k hk hkc
    rwa [dot_origin, dot_origin, zero_add, zero_add] at this
  obtain ⟨rfl, -⟩ := affine_identified m₁.lv a a' (d 1) (d' 1) (m₁.slopes_length h₁ j a dl hp)
    (by rw [hlv]; exact m₂.slopes_length h₂ j a' dl' hp') (fun θ hθ => heq θ hθ 1 (by omega) (by omega))
  have : dl = dl' := by
    refine List.ext_getElem? fun k => ?_
    by_cases hk : k + 1 < m₁.M
    · by_cases hkc : k + 1 < c
      · rw [hd k hk, hd' k (by omega), hdd (k + 1) (by omega) hkc]
      · rw [m₁.unused_zero j c a dl hc hp k hk (by omega), m₂.unused_zero j c a dl' hc' hp' k (by omega) (by omega)]
    · rw [List.getElem?_eq_none (by omega), List.getElem?_eq_none (by omega)]
  rw [hp, hp', this]

/-! ## Parameters that the response curves do not determine -/

/-- An item of the 3PL with slope 0 and success probability 3/4: guessing 1/2 and intercept 0. -/
noncomputable def exFlatItem : ThreePL := { items := 1, lv := 1, rel := [[true]], weight := [0], bias := [0], guessing := [0] }

/-- The same success probability with guessing 1/4 and intercept log 2. -/
noncomputable def exFlatItem' : ThreePL :=
  { items := 1, lv := 1, rel := [[true]], weight := [0], bias := [Real.log 2], guessing := [-Real.log 3] }

theorem exFlat_guess : sigmoid 0 = 1 / 2 ∧ sigmoid (-Real.log 3) = 1 / 4 ∧ logistic 0 = 1 / 2 ∧ logistic (Real.log 2) = 2 / 3 := by
  refine ⟨?_, ?_, ?_, ?_⟩ <;>
    simp only [sigmoid_eq, logistic, neg_neg, Real.exp_neg, Real.exp_zero,
      Real.exp_log (show (0 : ℝ) < 3 by norm_num), Real.exp_log (show (0 : ℝ) < 2 by norm_num)] <;> norm_num

/-- C107 is false for 3PL items with slope zero: guessing and intercept have the same effect. -/
theorem C107_threePL_false : ¬ ThreePLIdentified := by
  intro h
  obtain ⟨g1, g2, l1, l2⟩ := exFlat_guess
  have hp : exFlatItem.itemParameters[0]? = some ([0], 0, 1 / 2) := by
    simp [ThreePL.itemParameters, ThreePL.weights, exFlatItem, viewRows, scatterMask, g1]
  have hp' : exFlatItem'.itemParameters[0]? = some ([0], Real.log 2, 1 / 4) := by
    simp [ThreePL.itemParameters, ThreePL.weights, exFlatItem', viewRows, scatterMask, g2]
  have hdot : ∀ θ : List ℝ, dot θ [0] = 0 := by
    intro θ
    cases θ <;> simp [dot]
  have := h exFlatItem exFlatItem' 0 ⟨by simp [exFlatItem], by simp [exFlatItem], by simp [exFlatItem, countTrue], by simp [exFlatItem],
    by simp [exFlatItem]⟩ ⟨by simp [exFlatItem'], by simp [exFlatItem'], by simp [exFlatItem', countTrue], by simp [exFlatItem'],
    by simp [exFlatItem']⟩ rfl (by simp [exFlatItem]) (by
      intro θ _
      rw [C03_threePL_formula _ θ 0 _ _ _ hp, C03_threePL_formula _ θ 0 _ _ _ hp', hdot, zero_add, zero_add, l1, l2]
      norm_num)
  rw [hp, hp'] at this
  simp only [Option.some.injEq, Prod.mk.injEq] at this
  norm_num at this

/-- Two items, the first with a single category. -/
noncomputable def exLoneItem (a : ℝ) : GPC := { lv := 1, cats := [1, 2], rel := [[true], [true]], weight := [a, 1], bias := [0] }

theorem exLoneItem_wf (a : ℝ) : (exLoneItem a).WF := by
  refine ⟨?_, ?_, ?_, ?_, ?_⟩ <;> simp [exLoneItem, countTrue]

/-- C107 is false for items with a single category: their slopes have no effect. -/
theorem C107_gpc_false : ¬ GPCIdentified := by
  intro h
  have hM : ∀ a, (exLoneItem a).M = 2 := by intro a; simp [GPC.M, exLoneItem, maxCats]
  have hp : ∀ a, (exLoneItem a).itemParameters[0]? = some ([a], [0, 0]) := by
    intro a
    simp [GPC.itemParameters, GPC.weights, GPC.biases, exLoneItem, viewRows, scatterMask, GPC.M, maxCats, freeMask, freeRow,
      List.range_succ]
  have hf : ∀ a θ, ((exLoneItem a).probs θ)[0]? = some [1, 0] := by
    intro a θ
    have := (C05_gpc_formula_partial (exLoneItem a) (exLoneItem_wf a) θ 0 1 [a] [0, 0] (fun _ => 0) (by simp [exLoneItem]) (hp a) (by
      intro k hk; rw [hM] at hk; interval_cases k <;> rfl)).2
    rw [this, hM]
    simp [multinomialLogit, List.range_succ]
  have := h (exLoneItem 1) (exLoneItem 2) 0 (exLoneItem_wf 1) (exLoneItem_wf 2) rfl rfl (by simp [exLoneItem]) (by
    intro θ _; rw [hf, hf])
  rw [hp, hp] at this
  norm_num at this

/-! ## Non-vacuity: reparametrised models that have the same response curves -/

/-- The 2PL example and the same model with every relationship free and explicit zero slopes. -/
example (m : TwoPL) (hwf : m.WF) (hlv : m.lv = 2) (h : ∀ θ, ProbeScores 2 θ → (m.probs θ)[0]? = (exTwoPL.probs θ)[0]?) (h0 : 0 < m.items) :
    m.itemParameters[0]? = some ([1, 0], 1 / 2) := by
  rw [C107_twoPL m exTwoPL hwf exTwoPL_wf hlv 0 h0 (by rw [hlv]; exact h)]
  simp [TwoPL.itemParameters, TwoPL.weights, exTwoPL, viewRows, scatterMask]

/-- The slope is determined whichever relationship mask it is stored under. -/
example : ∃ m₁ m₂ : TwoPL, m₁.WF ∧ m₂.WF ∧ m₁.rel ≠ m₂.rel ∧ ∀ θ, (m₁.probs θ)[0]? = (m₂.probs θ)[0]? := by
  refine ⟨⟨1, 2, [[true, false]], [1], [3]⟩, ⟨1, 2, [[true, true]], [1, 0], [3]⟩, ⟨by simp, by simp, by simp [countTrue], by simp⟩,
    ⟨by simp, by simp, by simp [countTrue], by simp⟩, by simp, fun θ => ?_⟩
  rw [C03_twoPL_formula _ ⟨by simp, by simp, by simp [countTrue], by simp⟩ θ 0 [1, 0] 3
      (by simp [TwoPL.itemParameters, TwoPL.weights, viewRows, scatterMask]),
    C03_twoPL_formula _ ⟨by simp, by simp, by simp [countTrue], by simp⟩ θ 0 [1, 0] 3
      (by simp [TwoPL.itemParameters, TwoPL.weights, viewRows, scatterMask])]

/-- The hypothesis of the 3PL theorem is met by its example. -/
example : exThreePL.WF ∧ exThreePL.itemParameters[0]? = some ([1, 0], 1 / 2, sigmoid (-1)) ∧ ∃ x ∈ ([1, 0] : List ℝ), x ≠ 0 :=
  ⟨exThreePL_wf, by simp [ThreePL.itemParameters, ThreePL.weights, exThreePL, viewRows, scatterMask], 1, by simp⟩

example (m : ThreePL) (hwf : m.WF) (hlv : m.lv = 2)
    (h : ∀ θ : List ℝ, θ.length = 2 → (exThreePL.probs θ)[0]? = (m.probs θ)[0]?) :
    m.itemParameters[0]? = some ([1, 0], 1 / 2, sigmoid (-1)) :=
  C107_threePL_partial exThreePL m exThreePL_wf hwf hlv.symm 0 _ _ _
    (by simp [ThreePL.itemParameters, ThreePL.weights, exThreePL, viewRows, scatterMask]) ⟨1, by simp⟩ h

example (m : GPC) (hwf : m.WF) (hlv : m.lv = 2) (hcats : m.cats = exGPC.cats)
    (h : ∀ θ, ProbeScores 2 θ → (m.probs θ)[0]? = (exGPC.probs θ)[0]?) :
    m.itemParameters[0]? = some (([1, 0] : List ℝ), ([0, 1 / 2, -1] : List ℝ)) :=
  (C107_gpc_partial m exGPC hwf exGPC_wf hlv hcats 0 3 (by rw [hcats]; simp [exGPC]) (by norm_num) (by rw [hlv]; exact h)).trans
    exGPC_params

example (m : GRM) (hwf : m.WF) (hlv : m.lv = exGRM.lv) (hcats : m.cats = exGRM.cats) (c : ℕ) (hc : exGRM.cats[0]? = some c) (h2 : 2 ≤ c)
    (h : ∀ θ, (m.probs θ)[0]? = (exGRM.probs θ)[0]?) : m.itemParameters[0]? = exGRM.itemParameters[0]? :=
  C107_grm_partial m exGRM hwf exGRM_wf hlv hcats 0 c (by rw [hcats]; exact hc) h2 fun θ _ => h θ

example (m : OnePL) (hwf : m.WF) (h : m.probs 0 = exOnePL.probs 0) : m.itemParameters = exOnePL.itemParameters :=
  C107_onePL m exOnePL hwf exOnePL_wf 0 h

/-- A nominal item with three categories: no other parameters give the same curves. -/
example (m : NRM) (hm : m.WF) (hlv : m.lv = 2) (hc : m.cats = exNRM.cats) (h : ∀ θ, exNRM.probs θ = m.probs θ) :
    m.itemParameters = exNRM.itemParameters := by
  refine List.ext_getElem? fun j => ?_
  by_cases hj : j < exNRM.cats.length
  · exact (C107_nrm exNRM m exNRM_wf hm (by rw [hlv]; rfl) hc.symm j hj fun θ _ => by rw [h θ]).symm
  · rw [List.getElem?_eq_none (by simp [NRM.itemParameters, NRM.length_weights, NRM.length_biases, hc]; omega),
      List.getElem?_eq_none (by simp [NRM.itemParameters, NRM.length_weights, NRM.length_biases]; omega)]

end Irt
