import Verif.Props.LinkRecovery
import Verif.Props.MmlSymmetry

/-! # C135 for models whose common items tell scores apart, generalized partial credit included -/

namespace Irt
open Finset

/-- C135: if the answers to a common item at the right scores and at scores that are off by `δ` or more have probabilities with a sum of
squared differences of at least `s`, a link whose loss is at most `η` above that of the true relation `g` is off by `δ` or more for at most
a share `K (10 η + 11 M 1e-10) / s` of the respondents, for `K` common items. -/
theorem C135_share {catsF catsT : List ℕ} {M : ℕ} (tF tT : ℝ → List (List ℝ)) (hF : ∀ θ, IsTable catsF M (tF θ))
    (hT : ∀ θ, IsTable catsT M (tT θ)) (N : ℕ) (hN : 0 < N) (x : ℕ → ℝ) (pairs : List (ℕ × ℕ))
    (hpairs : ∀ p ∈ pairs, p.1 < catsF.length ∧ p.2 < catsT.length) (g f : ℝ → ℝ)
    (hg : ∀ i, i < N → ∀ p ∈ pairs, ∀ c, tableProb (tF (x i)) p.1 c = tableProb (tT (g (x i))) p.2 c) (lf lg η : ℝ)
    (hlf : linkLoss M M ((List.range N).map fun i => tF (x i)) ((List.range N).map fun i => tT (f (x i))) (pairs.map Prod.fst)
      (pairs.map Prod.snd) = .ok lf)
    (hlg : linkLoss M M ((List.range N).map fun i => tF (x i)) ((List.range N).map fun i => tT (g (x i))) (pairs.map Prod.fst)
      (pairs.map Prod.snd) = .ok lg) (hle : lf ≤ lg + η) (p : ℕ × ℕ) (hp : p ∈ pairs) (δ s : ℝ) (hs : 0 < s)
    (hapart : ∀ i, i < N → ∀ t, δ ≤ |t - g (x i)| → s ≤ ∑ c ∈ range M, (tableProb (tT t) p.2 c - tableProb (tT (g (x i))) p.2 c) ^ 2) :
    shareOff N x f g δ ≤ pairs.length * (10 * η + 11 * (M * 1e-10)) / s := by
  have havg := C135_probabilities tF tT hF hT N hN x pairs (List.ne_nil_of_mem hp) hpairs g f hg lf lg η hlf hlg hle
  have hK : (0 : ℝ) < pairs.length := by exact_mod_cast List.length_pos_of_mem hp
  have hN' : (0 : ℝ) < N := by exact_mod_cast hN
  have hnn : ∀ i q, 0 ≤ ∑ c ∈ range M, (tableProb (tT (f (x i))) q c - tableProb (tT (g (x i))) q c) ^ 2 :=
    fun i q => Finset.sum_nonneg fun c _ => sq_nonneg _
  have hlow : ((range N).filter fun i => δ ≤ |f (x i) - g (x i)|).card * s
      ≤ ∑ i ∈ range N, (pairs.map fun q => ∑ c ∈ range M, (tableProb (tT (f (x i))) q.2 c - tableProb (tT (g (x i))) q.2 c) ^ 2).sum := by
    rw [← nsmul_eq_mul, ← Finset.sum_const]
    refine (Finset.sum_le_sum fun i hi => ?_).trans (Finset.sum_le_sum_of_subset_of_nonneg (Finset.filter_subset _ _) fun i _ _ => ?_)
    · obtain ⟨hi1, hi2⟩ := Finset.mem_filter.1 hi
      refine (hapart i (Finset.mem_range.1 hi1) _ hi2).trans ?_
      exact List.single_le_sum (fun y hy => by
        obtain ⟨q, -, rfl⟩ := List.mem_map.1 hy
        exact hnn i q.2) _ (List.mem_map.2 ⟨p, hp, rfl⟩)
    · exact List.sum_nonneg fun y hy => by
        obtain ⟨q, -, rfl⟩ := List.mem_map.1 hy
        exact hnn i q.2
  unfold averageOver at havg
  rw [div_le_iff₀ (by positivity)] at havg
  unfold shareOff
  rw [div_le_div_iff₀ hN' hs]
  refine hlow.trans (havg.trans (le_of_eq ?_))
  ring

/-- A continuous, strictly monotone function takes values that differ by some fixed amount at points that differ by `δ` or more, if one of the
points lies in a bounded interval. -/
theorem strictMono_apart (F : ℝ → ℝ) (hF : Continuous F) (hmono : StrictMono F) (R δ : ℝ) (hδ : 0 < δ) :
    ∃ s, 0 < s ∧ ∀ u t, |u| ≤ R → δ ≤ |t - u| → s ≤ |F t - F u| := by
  have hpos : ∀ e : ℝ, 0 < e → ∀ u, 0 < F (u + e) - F u := fun e he u => sub_pos.2 (hmono (by linarith))
  have key : ∀ G : ℝ → ℝ, Continuous G → (∀ u, 0 < G u) → ∃ s, 0 < s ∧ ∀ u, |u| ≤ R → s ≤ G u := by
    intro G hG hG0
    rcases (Set.Icc (-R) R).eq_empty_or_nonempty with he | hne
    · exact ⟨1, one_pos, fun u hu => absurd (abs_le.1 hu) (by
        intro h
        have : u ∈ Set.Icc (-R) R := h
        rw [he] at this
        exact this)⟩
    · obtain ⟨v, hv, hmin⟩ := isCompact_Icc.exists_isMinOn hne hG.continuousOn
      exact ⟨G v, hG0 v, fun u hu => hmin (abs_le.1 hu)⟩
  obtain ⟨s₁, h1, h1'⟩ := key (fun u => F (u + δ) - F u) (by fun_prop) (hpos δ hδ)
  obtain ⟨s₂, h2, h2'⟩ := key (fun u => F u - F (u - δ)) (by fun_prop) (fun u => sub_pos.2 (hmono (by linarith)))
  refine ⟨min s₁ s₂, lt_min h1 h2, fun u t hu ht => ?_⟩
  rcases le_total u t with h | h
  · rw [abs_of_nonneg (sub_nonneg.2 h)] at ht
    have e := hmono.monotone (show u + δ ≤ t by linarith)
    exact ((min_le_left _ _).trans (h1' u hu)).trans ((by linarith : F (u + δ) - F u ≤ F t - F u).trans (le_abs_self _))
  · rw [abs_sub_comm, abs_of_nonneg (sub_nonneg.2 h)] at ht
    have e := hmono.monotone (show t ≤ u - δ by linarith)
    rw [abs_sub_comm]
    exact ((min_le_right _ _).trans (h2' u hu)).trans ((by linarith : F u - F (u - δ) ≤ F u - F t).trans (le_abs_self _))

/-- C135: if one category of a common item has a probability that is continuous and strictly monotone in the score, then, for right scores
within a bound, there is a constant `s` such that every link whose loss is at most `η` above that of the true relation is off by `δ` or
more for at most a share `K (10 η + 11 M 1e-10) / s` of the respondents, whatever their number, scores and the link. -/
theorem C135_monotone {catsF catsT : List ℕ} {M : ℕ} (tF tT : ℝ → List (List ℝ)) (hF : ∀ θ, IsTable catsF M (tF θ))
    (hT : ∀ θ, IsTable catsT M (tT θ)) (pairs : List (ℕ × ℕ)) (hpairs : ∀ p ∈ pairs, p.1 < catsF.length ∧ p.2 < catsT.length)
    (p : ℕ × ℕ) (hp : p ∈ pairs) (c : ℕ) (hc : c < M) (hcont : Continuous fun θ => tableProb (tT θ) p.2 c)
    (hmono : StrictMono (fun θ => tableProb (tT θ) p.2 c) ∨ StrictAnti fun θ => tableProb (tT θ) p.2 c) (R δ : ℝ) (hδ : 0 < δ) :
    ∃ s, 0 < s ∧ ∀ (N : ℕ) (_ : 0 < N) (x : ℕ → ℝ) (g f : ℝ → ℝ) (_ : ∀ i, i < N → |g (x i)| ≤ R)
      (_ : ∀ i, i < N → ∀ p ∈ pairs, ∀ c, tableProb (tF (x i)) p.1 c = tableProb (tT (g (x i))) p.2 c) (lf lg η : ℝ)
      (_ : linkLoss M M ((List.range N).map fun i => tF (x i)) ((List.range N).map fun i => tT (f (x i))) (pairs.map Prod.fst)
        (pairs.map Prod.snd) = .ok lf)
      (_ : linkLoss M M ((List.range N).map fun i => tF (x i)) ((List.range N).map fun i => tT (g (x i))) (pairs.map Prod.fst)
        (pairs.map Prod.snd) = .ok lg) (_ : lf ≤ lg + η),
      shareOff N x f g δ ≤ pairs.length * (10 * η + 11 * (M * 1e-10)) / s := by
  obtain ⟨s, hs, happ⟩ : ∃ s, 0 < s ∧ ∀ u t, |u| ≤ R → δ ≤ |t - u| → s ≤ |tableProb (tT t) p.2 c - tableProb (tT u) p.2 c| := by
    rcases hmono with h | h
    · exact strictMono_apart _ hcont h R δ hδ
    · obtain ⟨s, hs, h'⟩ := strictMono_apart (fun θ => -tableProb (tT θ) p.2 c) hcont.neg h.neg R δ hδ
      refine ⟨s, hs, fun u t hu ht => (h' u t hu ht).trans (le_of_eq ?_)⟩
      rw [neg_sub_neg, abs_sub_comm]
  refine ⟨s ^ 2, by positivity, fun N hN x g f hR hg lf lg η hlf hlg hle =>
    C135_share tF tT hF hT N hN x pairs hpairs g f hg lf lg η hlf hlg hle p hp δ (s ^ 2) (by positivity) fun i hi t ht => ?_⟩
  have h1 := pow_le_pow_left₀ hs.le (happ _ t (hR i hi) ht) 2
  rw [sq_abs] at h1
  exact h1.trans (Finset.single_le_sum (f := fun c => (tableProb (tT t) p.2 c - tableProb (tT (g (x i))) p.2 c) ^ 2)
    (fun _ _ => sq_nonneg _) (Finset.mem_range.2 hc))

/-- The probability of the lowest category of a generalized partial credit item with a slope other than zero. -/
theorem GPC.lowest (m : GPC) (hwf : m.WF) (j c : ℕ) (a : ℝ) (dl : List ℝ) (hc : m.cats[j]? = some c) (hc2 : 2 ≤ c)
    (hp : m.itemParameters[j]? = some ([a], dl)) (ha : a ≠ 0) :
    Continuous (fun θ => tableProb (m.probs [θ]) j 0) ∧
      (StrictMono (fun θ => tableProb (m.probs [θ]) j 0) ∨ StrictAnti fun θ => tableProb (m.probs [θ]) j 0) := by
  have hlen : dl.length = m.M := by
    obtain ⟨w, dl', hp', hl⟩ := m.exists_params j (lt_of_getElem?_some hc)
    rw [hp] at hp'
    rw [(Prod.mk.inj (Option.some.inj hp')).2]
    exact hl
  have hent : ∀ k, k < m.M → dl[k]? = some (dl.getD k 0) := by
    intro k hk
    rw [List.getD_eq_getElem?_getD, List.getElem?_eq_getElem (by omega)]
    rfl
  have hcM : c ≤ m.M := le_maxCats _ _ (List.mem_of_getElem? hc)
  have hform : (fun θ => tableProb (m.probs [θ]) j 0)
      = fun θ => Real.exp (dl.getD 0 0) / ∑ x ∈ range c, Real.exp (x * (θ * a) + dl.getD x 0) := by
    funext θ
    rw [tableProb_row _ _ _ _ (GPC.probs_row m hwf [θ] j c [a] dl (fun k => dl.getD k 0) hc hp hent),
      multinomialLogit_getD _ _ hcM, if_pos (by omega)]
    simp [dot]
  have hsum : ∀ θ, 0 < ∑ x ∈ range c, Real.exp (x * (θ * a) + dl.getD x 0) := fun θ =>
    Finset.sum_pos (fun _ _ => Real.exp_pos _) ⟨0, Finset.mem_range.2 (by omega)⟩
  have hlt : ∀ θ θ' : ℝ, θ * a < θ' * a → Real.exp (dl.getD 0 0) / ∑ x ∈ range c, Real.exp (x * (θ' * a) + dl.getD x 0)
      < Real.exp (dl.getD 0 0) / ∑ x ∈ range c, Real.exp (x * (θ * a) + dl.getD x 0) := by
    intro θ θ' h
    refine div_lt_div_of_pos_left (Real.exp_pos _) (hsum θ) (Finset.sum_lt_sum (fun x _ => ?_) ⟨1, Finset.mem_range.2 (by omega), ?_⟩)
    · exact Real.exp_le_exp.2 (by have : (0 : ℝ) ≤ x := Nat.cast_nonneg x; nlinarith)
    · exact Real.exp_lt_exp.2 (by push_cast; linarith)
  rw [hform]
  refine ⟨Continuous.div continuous_const (by fun_prop) fun θ => (hsum θ).ne', ?_⟩
  rcases lt_or_gt_of_ne ha with h | h
  · exact Or.inl fun θ θ' hθ => hlt θ' θ (by nlinarith)
  · exact Or.inr fun θ θ' hθ => hlt θ θ' (by nlinarith)

/-- The common items of two generalized partial credit models with one latent variable have the same curves if the score `θ` of the first
model is the score `A θ + B` of the second. -/
def SameCreditCurves (mF mT : GPC) (pairs : List (ℕ × ℕ)) (A B : ℝ) : Prop :=
  ∀ p ∈ pairs, ∃ c a b b', mF.cats[p.1]? = some c ∧ mT.cats[p.2]? = some c ∧ mT.itemParameters[p.2]? = some ([a], b) ∧
    mF.itemParameters[p.1]? = some ([a * A], b') ∧ ∀ k, k < c → b'.getD k 0 = k * (a * B) + b.getD k 0

theorem SameCreditCurves.probs {mF mT : GPC} {pairs : List (ℕ × ℕ)} {A B : ℝ} (hsame : SameCreditCurves mF mT pairs A B) (hF : mF.WF)
    (hT : mT.WF) (hM : mF.M = mT.M) (q : ℕ × ℕ) (hq : q ∈ pairs) (θ : ℝ) (r : ℕ) :
    tableProb (mF.probs [θ]) q.1 r = tableProb (mT.probs [A * θ + B]) q.2 r := by
  obtain ⟨c', a', b', b'', h1, h2, h3, h4, h5⟩ := hsame q hq
  have hlen : ∀ (m : GPC) (j : ℕ) (w dl : List ℝ), m.itemParameters[j]? = some (w, dl) → j < m.cats.length → ∀ k, k < m.M → dl[k]? = some (dl.getD k 0) := by
    intro m j w dl hp hj k hk
    obtain ⟨w', dl', hp', hl⟩ := m.exists_params j hj
    rw [hp] at hp'
    have := (Prod.mk.inj (Option.some.inj hp')).2
    rw [List.getD_eq_getElem?_getD, List.getElem?_eq_getElem (by rw [this]; omega)]
    rfl
  rw [tableProb_row _ _ _ _ (GPC.probs_row mF hF [θ] q.1 c' _ b'' (fun k => b''.getD k 0) h1 h4 (hlen mF _ _ _ h4 (lt_of_getElem?_some h1))),
    tableProb_row _ _ _ _ (GPC.probs_row mT hT [A * θ + B] q.2 c' _ b' (fun k => b'.getD k 0) h2 h3 (hlen mT _ _ _ h3 (lt_of_getElem?_some h2))),
    hM]
  congr 1
  refine multinomialLogit_congr _ _ _ _ fun k hk => ?_
  rw [h5 k hk]
  simp [dot]
  ring

/-- C135 for generalized partial credit models: with a common item of two or more categories and a slope other than zero there is a constant
`s`, for all respondents with right scores within a bound, such that a link whose loss is at most `η` above that of the true relation
`A θ + B` is off by `δ` or more for at most a share `K (10 η + 11 M 1e-10) / s` of them. -/
theorem C135_gpc (mF mT : GPC) (hF : mF.WF) (hT : mT.WF) (hM : mF.M = mT.M) (pairs : List (ℕ × ℕ)) (A B : ℝ)
    (hsame : SameCreditCurves mF mT pairs A B) (p : ℕ × ℕ) (hp : p ∈ pairs) (c : ℕ) (a : ℝ) (b : List ℝ) (hc : mT.cats[p.2]? = some c)
    (hc2 : 2 ≤ c) (hab : mT.itemParameters[p.2]? = some ([a], b)) (ha : a ≠ 0) (R δ : ℝ) (hδ : 0 < δ) :
    ∃ s, 0 < s ∧ ∀ (N : ℕ) (_ : 0 < N) (x : ℕ → ℝ) (f : ℝ → ℝ) (_ : ∀ i, i < N → |A * x i + B| ≤ R) (lf lg η : ℝ)
      (_ : linkLoss mF.M mT.M ((List.range N).map fun i => mF.probs [x i]) ((List.range N).map fun i => mT.probs [f (x i)])
        (pairs.map Prod.fst) (pairs.map Prod.snd) = .ok lf)
      (_ : linkLoss mF.M mT.M ((List.range N).map fun i => mF.probs [x i]) ((List.range N).map fun i => mT.probs [A * x i + B])
        (pairs.map Prod.fst) (pairs.map Prod.snd) = .ok lg) (_ : lf ≤ lg + η),
      shareOff N x f (fun θ => A * θ + B) δ ≤ pairs.length * (10 * η + 11 * (mT.M * 1e-10)) / s := by
  obtain ⟨hcont, hmono⟩ := mT.lowest hT p.2 c a b hc hc2 hab ha
  have hcM : c ≤ mT.M := le_maxCats _ _ (List.mem_of_getElem? hc)
  obtain ⟨s, hs, h⟩ := C135_monotone (M := mT.M) (fun θ => mF.probs [θ]) (fun θ => mT.probs [θ]) (fun θ => hM ▸ isTable_gpc mF hF [θ])
    (fun θ => isTable_gpc mT hT [θ]) pairs
    (fun q hq => by
      obtain ⟨c', a', b', b'', h1, h2, -⟩ := hsame q hq
      exact ⟨lt_of_getElem?_some h1, lt_of_getElem?_some h2⟩) p hp 0 (by omega) hcont hmono R δ hδ
  refine ⟨s, hs, fun N hN x f hR lf lg η hlf hlg hle => ?_⟩
  rw [hM] at hlf hlg
  exact h N hN x (fun θ => A * θ + B) f hR (fun i _ q hq r => hsame.probs hF hT hM q hq (x i) r) lf lg η hlf hlg hle

/-! ## The hypotheses are met -/

/-- A three category item and a right or wrong item on one scale. -/
noncomputable def exCreditFrom : GPC := GPC.free [3, 2] 1 [2, 1] [2, 3, 1]

/-- The three category item on a scale on which scores are doubled and increased by one. -/
noncomputable def exCreditTo : GPC := GPC.free [3] 1 [1] [1, 1]

theorem exCreditFrom_wf : exCreditFrom.WF := GPC.free_wf _ (by simp) 1 _ _ rfl rfl

theorem exCreditTo_wf : exCreditTo.WF := GPC.free_wf _ (by simp) 1 _ _ rfl rfl

theorem exCredit_from : exCreditFrom.itemParameters[0]? = some ([2], [0, 2, 3]) := by
  simp [GPC.itemParameters, GPC.weights, GPC.biases, exCreditFrom, GPC.free, viewRows, scatterMask, GPC.M, maxCats, freeMask, freeRow,
    List.range_succ]

theorem exCredit_to : exCreditTo.itemParameters[0]? = some ([1], [0, 1, 1]) := by
  simp [GPC.itemParameters, GPC.weights, GPC.biases, exCreditTo, GPC.free, viewRows, scatterMask, GPC.M, maxCats, freeMask, freeRow,
    List.range_succ]

theorem exCredit_same : SameCreditCurves exCreditFrom exCreditTo [(0, 0)] 2 1 := by
  intro p hp
  rw [List.mem_singleton.1 hp]
  refine ⟨3, 1, [0, 1, 1], [0, 2, 3], rfl, rfl, exCredit_to, by rw [exCredit_from]; norm_num, fun k hk => ?_⟩
  interval_cases k <;> norm_num

/-- A constant for respondents with right scores from -3 to 3 and links that are off by 1/10, and the losses exist, for instance for the true link. -/
example : (∃ s, 0 < s ∧ ∀ (N : ℕ) (_ : 0 < N) (x : ℕ → ℝ) (f : ℝ → ℝ) (_ : ∀ i, i < N → |2 * x i + 1| ≤ 3) (lf lg η : ℝ)
      (_ : linkLoss exCreditFrom.M exCreditTo.M ((List.range N).map fun i => exCreditFrom.probs [x i])
        ((List.range N).map fun i => exCreditTo.probs [f (x i)]) [0] [0] = .ok lf)
      (_ : linkLoss exCreditFrom.M exCreditTo.M ((List.range N).map fun i => exCreditFrom.probs [x i])
        ((List.range N).map fun i => exCreditTo.probs [2 * x i + 1]) [0] [0] = .ok lg) (_ : lf ≤ lg + η),
      shareOff N x f (fun θ => 2 * θ + 1) (1 / 10) ≤ (1 : ℕ) * (10 * η + 11 * (exCreditTo.M * 1e-10)) / s) ∧
    ∃ lf, linkLoss exCreditFrom.M exCreditTo.M ((List.range 5).map fun i => exCreditFrom.probs [-(i : ℝ) / 5])
        ((List.range 5).map fun i => exCreditTo.probs [-(i : ℝ) / 5]) [0] [0] = .ok lf := by
  have hM : exCreditFrom.M = exCreditTo.M := by simp [GPC.M, exCreditFrom, exCreditTo, GPC.free, maxCats]
  refine ⟨C135_gpc exCreditFrom exCreditTo exCreditFrom_wf exCreditTo_wf hM [(0, 0)] 2 1 exCredit_same (0, 0) (by simp) 3 1 [0, 1, 1] rfl
    (by norm_num) exCredit_to one_ne_zero 3 (1 / 10) (by norm_num), ?_⟩
  rw [hM]
  obtain ⟨lf, -, h, -⟩ := C135_true_link (M := exCreditTo.M) (fun θ => exCreditFrom.probs [θ]) (fun θ => exCreditTo.probs [θ])
    (fun θ => hM ▸ isTable_gpc exCreditFrom exCreditFrom_wf [θ]) (fun θ => isTable_gpc exCreditTo exCreditTo_wf [θ]) 5 (by norm_num)
    (fun i => -(i : ℝ) / 5) [(0, 0)] (by simp) (by simp [exCreditFrom, exCreditTo, GPC.free]) (fun θ => 2 * θ + 1) (fun θ => θ)
    (fun i _ q hq r => exCredit_same.probs exCreditFrom_wf exCreditTo_wf hM q hq _ r)
  exact ⟨lf, h⟩

end Irt
