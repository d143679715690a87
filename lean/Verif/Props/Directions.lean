import Verif.Model.Directions
import Verif.Spec.Directions
import Verif.Props.Nested
import Verif.Props.Graded
import Verif.Props.Splines
import Verif.Props.Utils
import Mathlib.Data.Sign.Basic

/-!
# C92: the reported directions of the item to latent variable relationships

`TellsDirection E lv r s` (Spec/Directions) says that `s` is 1, -1 or 0 exactly if raising latent variable `r` alone raises,
lowers or does not change `E`. Here `E` is the expected score of the item that the model reports, i.e. what
`expected_scores` returns for it.
-/

namespace Irt

open Finset

/-- `E θ` is the expected score the model reports for item `j` at the latent traits `θ`. -/
def ReportsScore (probs : List ℝ → List (List ℝ)) (M : ℕ) (mc : Option (List ℤ)) (j : ℕ) (E : List ℝ → ℝ) : Prop :=
  ∀ θ, ∃ es, expectedItemScores (probs θ) M mc = .ok es ∧ es[j]? = some (E θ)

theorem dot_set_eq (θ a : List ℝ) (r : ℕ) (x x' s : ℝ) (hx : θ[r]? = some x) (ha : a[r]? = some s) :
    dot (θ.set r x') a = dot θ a + (x' - x) * s := by
  induction θ generalizing a r with
  | nil => simp at hx
  | cons t θ ih =>
    cases a with
    | nil => simp at ha
    | cons b a =>
      cases r with
      | zero =>
        simp at hx ha
        subst hx ha
        simp only [dot, List.set_cons_zero, List.zipWith_cons_cons, List.sum_cons]
        ring
      | succ r =>
        have := ih a r (by simpa using hx) (by simpa using ha)
        simp only [dot, List.set_cons_succ, List.zipWith_cons_cons, List.sum_cons] at this ⊢
        linarith

theorem signInt_pos {x : ℝ} (h : 0 < x) : signInt x = 1 := by simp [signInt, sign_pos h]
theorem signInt_neg {x : ℝ} (h : x < 0) : signInt x = -1 := by simp [signInt, sign_neg h]
theorem signInt_zero : signInt 0 = 0 := by simp [signInt]

/-- Exactly one of the three ways to depend on an existing latent variable is possible. -/
theorem raised_lowered (E : List ℝ → ℝ) (lv r : ℕ) (hr : r < lv) :
    ¬ (RaisedBy E lv r ∧ LoweredBy E lv r) ∧ ¬ (RaisedBy E lv r ∧ UnaffectedBy E lv r) ∧
      ¬ (LoweredBy E lv r ∧ UnaffectedBy E lv r) := by
  have hl : (List.replicate lv (0 : ℝ)).length = lv := by simp
  have h0 : (List.replicate lv (0 : ℝ))[r]? = some 0 := by simp [hr]
  refine ⟨fun h => ?_, fun h => ?_, fun h => ?_⟩
  · have h1 := h.1 _ 0 1 hl h0 one_pos
    have h2 := h.2 _ 0 1 hl h0 one_pos
    linarith
  · have h1 := h.1 _ 0 1 hl h0 one_pos
    rw [h.2 _ 1 hl] at h1
    exact lt_irrefl _ h1
  · have h1 := h.1 _ 0 1 hl h0 one_pos
    rw [h.2 _ 1 hl] at h1
    exact lt_irrefl _ h1

theorem tellsDirection_of_cases (E : List ℝ → ℝ) (lv r : ℕ) (hr : r < lv) (s : ℤ)
    (h : (s = 1 ∧ RaisedBy E lv r) ∨ (s = -1 ∧ LoweredBy E lv r) ∨ (s = 0 ∧ UnaffectedBy E lv r)) :
    TellsDirection E lv r s := by
  obtain ⟨h1, h2, h3⟩ := raised_lowered E lv r hr
  rcases h with ⟨rfl, h⟩ | ⟨rfl, h⟩ | ⟨rfl, h⟩
  · exact ⟨⟨fun _ => h, fun _ => rfl⟩, ⟨by norm_num, fun h' => absurd ⟨h, h'⟩ h1⟩,
      ⟨by norm_num, fun h' => absurd ⟨h, h'⟩ h2⟩⟩
  · exact ⟨⟨by norm_num, fun h' => absurd ⟨h', h⟩ h1⟩, ⟨fun _ => h, fun _ => rfl⟩,
      ⟨by norm_num, fun h' => absurd ⟨h, h'⟩ h3⟩⟩
  · exact ⟨⟨by norm_num, fun h' => absurd ⟨h', h⟩ h2⟩, ⟨by norm_num, fun h' => absurd ⟨h', h⟩ h3⟩,
      ⟨fun _ => h, fun _ => rfl⟩⟩

/-- A score that strictly increases with a linear predictor depends on each latent variable as the sign of its slope says. -/
theorem tellsDirection_of_predictor (F : ℝ → ℝ) (hF : StrictMono F) (a : List ℝ) (lv r : ℕ) (hr : r < lv) (s : ℝ)
    (ha : a[r]? = some s) : TellsDirection (fun θ => F (dot θ a)) lv r (signInt s) := by
  apply tellsDirection_of_cases _ _ _ hr
  rcases lt_trichotomy s 0 with hs | hs | hs
  · refine .inr (.inl ⟨signInt_neg hs, fun θ x x' _ hx hxx => hF ?_⟩)
    rw [dot_set_eq θ a r x x' s hx ha]
    have := mul_neg_of_pos_of_neg (sub_pos.2 hxx) hs
    linarith
  · subst hs
    exact .inr (.inr ⟨signInt_zero, fun θ x' _ => congrArg F (dot_set_zero θ a r x' ha)⟩)
  · refine .inl ⟨signInt_pos hs, fun θ x x' _ hx hxx => hF ?_⟩
    rw [dot_set_eq θ a r x x' s hx ha]
    have := mul_pos (sub_pos.2 hxx) hs
    linarith

theorem reportsScore_of_rows (probs : List ℝ → List (List ℝ)) (M j : ℕ) (hM : ∀ θ, ∀ p ∈ probs θ, p.length = M)
    (P : List ℝ → List ℝ) (hP : ∀ θ, (probs θ)[j]? = some (P θ)) :
    ReportsScore probs M none j fun θ => meanScore (P θ) := by
  intro θ
  refine ⟨_, C13_mean_score (probs θ) M (hM θ), ?_⟩
  rw [List.getElem?_map, hP θ, Option.map_some]

theorem reportsScore_unique {probs : List ℝ → List (List ℝ)} {M : ℕ} {mc : Option (List ℤ)} {j : ℕ} {E E' : List ℝ → ℝ}
    (h : ReportsScore probs M mc j E) (h' : ReportsScore probs M mc j E') : E = E' := by
  funext θ
  obtain ⟨es, h1, h2⟩ := h θ
  obtain ⟨es', h1', h2'⟩ := h' θ
  rw [h1] at h1'
  cases h1'
  rw [h2] at h2'
  exact Option.some.inj h2'

theorem meanScore_pair (q : ℝ) : meanScore [1 - q, q] = q := by
  simp [meanScore, Finset.sum_range_succ]

/-- The mean of a multinomial logit whose categories have logits `x t + d x` strictly increases with `t`. -/
theorem meanScore_multinomial_strictMono (c M : ℕ) (hc : 2 ≤ c) (h : c ≤ M) (d : ℕ → ℝ) :
    StrictMono fun t : ℝ => meanScore (multinomialLogit c M fun x => x * t + d x) := by
  intro t t' htt
  have hmean : ∀ t : ℝ, meanScore (multinomialLogit c M fun x => x * t + d x)
      = (∑ k ∈ range c, (k : ℝ) * Real.exp (k * t + d k)) / ∑ k ∈ range c, Real.exp (k * t + d k) := by
    intro t
    unfold meanScore
    simp only [multinomialLogit_getD c M h]
    have hl : (multinomialLogit c M fun x => (x : ℝ) * t + d x).length = M := by simp [multinomialLogit]
    rw [hl, Finset.sum_div]
    have : ∀ k ∈ range M, (k : ℝ) * (if k < c then Real.exp ((k : ℝ) * t + d k) / ∑ x ∈ range c, Real.exp ((x : ℝ) * t + d x)
        else 0) = if k < c then (k : ℝ) * Real.exp ((k : ℝ) * t + d k) / ∑ x ∈ range c, Real.exp ((x : ℝ) * t + d x) else 0 := by
      intro k _
      split
      · rw [mul_div_assoc]
      · simp
    rw [sum_congr rfl this, ← Finset.sum_filter]
    refine sum_congr ?_ fun _ _ => rfl
    ext k; simp; omega
  have hp : ∀ t : ℝ, 0 < ∑ k ∈ range c, Real.exp (k * t + d k) := fun t =>
    sum_pos (fun _ _ => Real.exp_pos _) ⟨0, mem_range.2 (by omega)⟩
  simp only [hmean]
  rw [div_lt_div_iff₀ (hp t) (hp t'), ← sub_pos, Finset.sum_mul_sum, Finset.sum_mul_sum]
  set A : ℕ → ℕ → ℝ := fun k l => Real.exp (k * t' + d k) * Real.exp (l * t + d l) with hA
  have e1 : (∑ i ∈ range c, ∑ j ∈ range c, (i : ℝ) * Real.exp (i * t' + d i) * Real.exp (j * t + d j))
      = ∑ i ∈ range c, ∑ j ∈ range c, (i : ℝ) * A i j :=
    sum_congr rfl fun i _ => sum_congr rfl fun j _ => by simp only [hA]; ring
  have e2 : (∑ i ∈ range c, ∑ j ∈ range c, (i : ℝ) * Real.exp (i * t + d i) * Real.exp (j * t' + d j))
      = ∑ i ∈ range c, ∑ j ∈ range c, (j : ℝ) * A i j := by
    rw [sum_comm]
    exact sum_congr rfl fun i _ => sum_congr rfl fun j _ => by simp only [hA]; ring
  rw [e1, e2, ← sum_sub_distrib]
  simp only [← sum_sub_distrib, ← sub_mul]
  have e3 : (∑ i ∈ range c, ∑ j ∈ range c, ((i : ℝ) - j) * A i j)
      = ∑ i ∈ range c, ∑ j ∈ range c, ((j : ℝ) - i) * A j i := sum_comm
  have e4 : 2 * (∑ i ∈ range c, ∑ j ∈ range c, ((i : ℝ) - j) * A i j)
      = ∑ i ∈ range c, ∑ j ∈ range c, ((i : ℝ) - j) * (A i j - A j i) := by
    rw [two_mul]
    nth_rewrite 2 [e3]
    rw [← sum_add_distrib]
    refine sum_congr rfl fun i _ => ?_
    rw [← sum_add_distrib]
    exact sum_congr rfl fun j _ => by ring
  have hord : ∀ i j : ℕ, j < i → A j i < A i j := by
    intro i j hij
    simp only [hA]
    rw [← Real.exp_add, ← Real.exp_add, Real.exp_lt_exp]
    have h1 : (j : ℝ) < i := by exact_mod_cast hij
    nlinarith
  have hterm : ∀ i j : ℕ, 0 ≤ ((i : ℝ) - j) * (A i j - A j i) := by
    intro i j
    rcases lt_trichotomy i j with hij | hij | hij
    · have h1 : (i : ℝ) < j := by exact_mod_cast hij
      have := hord j i hij
      nlinarith
    · subst hij; simp
    · have h1 : (j : ℝ) < i := by exact_mod_cast hij
      have := hord i j hij
      nlinarith
  have hpos : 0 < ∑ i ∈ range c, ∑ j ∈ range c, ((i : ℝ) - j) * (A i j - A j i) := by
    refine sum_pos' (fun i _ => sum_nonneg fun j _ => hterm i j) ⟨1, mem_range.2 (by omega), ?_⟩
    refine sum_pos' (fun j _ => hterm 1 j) ⟨0, mem_range.2 (by omega), ?_⟩
    have := hord 1 0 one_pos
    simp only [Nat.cast_one, Nat.cast_zero, sub_zero, one_mul]
    linarith
  linarith

/-- The mean of a graded response distribution strictly increases with the predictor. -/
theorem meanScore_graded_strictMono (c M : ℕ) (hc : 2 ≤ c) (h : c ≤ M) (d : ℕ → ℝ) :
    StrictMono fun t : ℝ => meanScore ((List.range M).map fun k => grmGeq c t d k - grmGeq c t d (k + 1)) := by
  intro t t' htt
  have hmean : ∀ t : ℝ, meanScore ((List.range M).map fun k => grmGeq c t d k - grmGeq c t d (k + 1))
      = ∑ x ∈ range M, grmGeq c t d (x + 1) := by
    intro t
    rw [meanScore_eq, List.length_map, List.length_range]
    refine sum_congr rfl fun x hx => ?_
    rw [atLeast_eq, List.length_map, List.length_range]
    have hx' := mem_range.1 hx
    have : ∀ k ∈ Ico (x + 1) M, ((List.range M).map fun k => grmGeq c t d k - grmGeq c t d (k + 1)).getD k 0
        = grmGeq c t d k - grmGeq c t d (k + 1) := by
      intro k hk
      rw [List.getD_eq_getElem?_getD, List.getElem?_map, List.getElem?_range (mem_Ico.1 hk).2]
      rfl
    rw [sum_congr rfl this]
    have htel := Finset.sum_Ico_sub (fun k => grmGeq c t d k) (show x + 1 ≤ M by omega)
    rw [grmGeq_last c M (by omega) h] at htel
    have : ∑ k ∈ Ico (x + 1) M, (grmGeq c t d k - grmGeq c t d (k + 1))
        = -∑ k ∈ Ico (x + 1) M, (grmGeq c t d (k + 1) - grmGeq c t d k) := by
      rw [← sum_neg_distrib]
      exact sum_congr rfl fun _ _ => by ring
    rw [this, htel]
    ring
  have hg : ∀ (t : ℝ) (k : ℕ), grmGeq c t d (k + 1) = if k + 1 < c then sigmoid (t + d (k + 1)) else 0 := by
    intro t k; simp [grmGeq]
  simp only [hmean]
  simp only [hg]
  refine sum_lt_sum (fun x _ => ?_) ⟨0, mem_range.2 (by omega), ?_⟩
  · split
    · exact sigmoid_strictMono.monotone (by linarith)
    · exact le_rfl
  · rw [if_pos (by omega), if_pos (by omega)]
    exact sigmoid_strictMono (by linarith)

/-! ## The parametric models -/

theorem directions_tell (weights : List (List ℝ)) (probs : List ℝ → List (List ℝ)) (M lv j r : ℕ) (w : List ℝ)
    (hw : weights[j]? = some w) (hwl : w.length = lv) (hr : r < lv) (hM : ∀ θ, ∀ p ∈ probs θ, p.length = M)
    (P : ℝ → List ℝ) (hP : ∀ θ, (probs θ)[j]? = some (P (dot θ w))) (hmono : StrictMono fun t => meanScore (P t)) :
    ∃ row s E, (weights.map fun w => w.map signInt)[j]? = some row ∧ row.length = lv ∧ row[r]? = some s ∧
      ReportsScore probs M none j E ∧ TellsDirection E lv r s := by
  obtain ⟨x, hx⟩ := getElem?_of_lt w r (by rw [hwl]; exact hr)
  refine ⟨w.map signInt, signInt x, fun θ => meanScore (P (dot θ w)), ?_, ?_, ?_, ?_, ?_⟩
  · rw [List.getElem?_map, hw, Option.map_some]
  · rw [List.length_map, hwl]
  · rw [List.getElem?_map, hx, Option.map_some]
  · exact reportsScore_of_rows probs M j hM (fun θ => P (dot θ w)) hP
  · exact tellsDirection_of_predictor (fun t => meanScore (P t)) hmono w lv r hr x hx

theorem weightTable_row (n lv : ℕ) (rel : List (List Bool)) (p : List ℝ) (hlen : rel.length = n)
    (hrow : ∀ r ∈ rel, r.length = lv) (j : ℕ) (hj : j < n) :
    ∃ w, (viewRows n lv (scatterMask 0 rel.flatten p))[j]? = some w ∧ w.length = lv := by
  obtain ⟨w, hw⟩ := getElem?_of_lt (viewRows n lv (scatterMask 0 rel.flatten p)) j (by rw [length_viewRows]; exact hj)
  exact ⟨w, hw, mem_viewRows_length n lv _ (by rw [length_scatterMask, length_flatten_const lv rel hrow, hlen]) w
    (List.mem_of_getElem? hw)⟩

theorem lengths_of_table {cats : List ℕ} {M : ℕ} {t : List (List ℝ)} (h : IsTable cats M t) : ∀ p ∈ t, p.length = M := by
  intro p hp
  obtain ⟨i, hi, rfl⟩ := List.mem_iff_getElem.1 hp
  exact (h.2 i _ _ (List.getElem?_eq_getElem hi) (List.getElem?_eq_getElem (by rw [← h.1]; exact hi))).length

/-- C92 (1PL): direction 1 is reported for every item, and the expected item score strictly increases with the latent
variable. -/
theorem C92_onePL (m : OnePL) (hwf : m.WF) (j : ℕ) (hj : j < m.items) :
    m.directions[j]? = some [1] ∧ ∃ E, ReportsScore (fun θ => m.probs (θ.getD 0 0)) 2 none j E ∧ TellsDirection E 1 0 1 := by
  obtain ⟨b, hb⟩ := getElem?_of_lt m.bias j (by rw [hwf]; exact hj)
  refine ⟨by simp [OnePL.directions, hj], fun θ => meanScore [1 - logistic (θ.getD 0 0 + b), logistic (θ.getD 0 0 + b)], ?_, ?_⟩
  · refine reportsScore_of_rows _ _ _ (fun θ p hp => ?_)
      (fun θ => [1 - logistic (θ.getD 0 0 + b), logistic (θ.getD 0 0 + b)]) fun θ => C03_onePL_formula m hwf _ j b hb
    obtain ⟨i, hi, rfl⟩ := List.mem_iff_getElem.1 hp
    obtain ⟨h1, h2⟩ := C01_onePL_distribution m hwf (θ.getD 0 0)
    obtain ⟨p, hp, hd, -⟩ := h2 i (by rw [h1] at hi; exact hi)
    rw [List.getElem?_eq_getElem hi] at hp
    rw [Option.some.inj hp]
    exact hd.length
  · apply tellsDirection_of_cases _ _ _ one_pos
    refine .inl ⟨rfl, fun θ x x' hl hx hxx => ?_⟩
    simp only [meanScore_pair]
    apply logistic_strictMono
    cases θ with
    | nil => simp at hx
    | cons t θ =>
      simp at hx
      subst hx
      simpa using hxx

example : exOnePL.WF ∧ 1 < exOnePL.items := ⟨exOnePL_wf, by simp [exOnePL]⟩

/-- C92 (2PL): the direction reported for item `j` and latent variable `r` tells how the expected item score depends on it. -/
theorem C92_twoPL (m : TwoPL) (hwf : m.WF) (j r : ℕ) (hj : j < m.items) (hr : r < m.lv) :
    ∃ row s E, m.directions[j]? = some row ∧ row.length = m.lv ∧ row[r]? = some s ∧ ReportsScore m.probs 2 none j E ∧
      TellsDirection E m.lv r s := by
  obtain ⟨w, hw, hwl⟩ := weightTable_row m.items m.lv m.rel m.weight hwf.relLen hwf.relRow j hj
  obtain ⟨w', b, hp⟩ := m.exists_params hwf j hj
  have hp' := hp
  rw [TwoPL.itemParameters, List.getElem?_zip_eq_some] at hp'
  rw [TwoPL.weights, hw] at hp'
  obtain rfl : w = w' := Option.some.inj hp'.1
  refine directions_tell m.weights m.probs 2 m.lv j r w hw hwl hr (fun θ => lengths_of_table (isTable_twoPL m hwf θ))
    (fun t => [1 - logistic (t + b), logistic (t + b)]) (fun θ => C03_twoPL_formula m hwf θ j w b hp) ?_
  intro t t' htt
  simp only [meanScore_pair]
  exact logistic_strictMono (by linarith)

example : exTwoPL.WF ∧ 0 < exTwoPL.items ∧ 1 < exTwoPL.lv ∧ exTwoPL.directions[0]? = some [1, 0] := by
  refine ⟨exTwoPL_wf, by simp [exTwoPL], by simp [exTwoPL], ?_⟩
  simp [TwoPL.directions, TwoPL.weights, exTwoPL, viewRows, scatterMask, signInt]

/-- C92 (3PL). -/
theorem C92_threePL (m : ThreePL) (hwf : m.WF) (j r : ℕ) (hj : j < m.items) (hr : r < m.lv) :
    ∃ row s E, m.directions[j]? = some row ∧ row.length = m.lv ∧ row[r]? = some s ∧ ReportsScore m.probs 2 none j E ∧
      TellsDirection E m.lv r s := by
  obtain ⟨w, hw, hwl⟩ := weightTable_row m.items m.lv m.rel m.weight hwf.relLen hwf.relRow j hj
  obtain ⟨b, hb⟩ := getElem?_of_lt m.bias j (by rw [hwf.biasLen]; exact hj)
  obtain ⟨g, hg⟩ := getElem?_of_lt m.guessing j (by rw [hwf.guessLen]; exact hj)
  have hp : m.itemParameters[j]? = some (w, b, sigmoid g) := by
    rw [ThreePL.itemParameters, List.getElem?_zip_eq_some, List.getElem?_zip_eq_some, List.getElem?_map, hg]
    exact ⟨hw, hb, rfl⟩
  refine directions_tell m.weights m.probs 2 m.lv j r w hw hwl hr ?_
    (fun t => [1 - (sigmoid g + (1 - sigmoid g) * logistic (t + b)), sigmoid g + (1 - sigmoid g) * logistic (t + b)])
    (fun θ => C03_threePL_formula m θ j w b _ hp) ?_
  · intro θ p hp
    rw [ThreePL.probs, List.mem_map] at hp
    obtain ⟨q, -, rfl⟩ := hp
    rfl
  · intro t t' htt
    simp only [meanScore_pair]
    have h1 := sigmoid_lt_one g
    have h2 := mul_lt_mul_of_pos_left (logistic_strictMono (show t + b < t' + b by linarith)) (sub_pos.2 h1)
    linarith

example : exThreePL.WF ∧ 0 < exThreePL.items ∧ 1 < exThreePL.lv :=
  ⟨exThreePL_wf, by simp [exThreePL], by simp [exThreePL]⟩

/-- C92 (generalized partial credit), for items with at least two categories. -/
theorem C92_gpc (m : GPC) (hwf : m.WF) (j r c : ℕ) (hc : m.cats[j]? = some c) (h2 : 2 ≤ c) (hr : r < m.lv) :
    ∃ row s E, m.directions[j]? = some row ∧ row.length = m.lv ∧ row[r]? = some s ∧ ReportsScore m.probs m.M none j E ∧
      TellsDirection E m.lv r s := by
  have hj := lt_of_getElem?_some hc
  obtain ⟨w, hw, hwl⟩ := weightTable_row m.cats.length m.lv m.rel m.weight hwf.relLen hwf.relRow j hj
  obtain ⟨w', dl, hp, hl⟩ := m.exists_params j hj
  obtain ⟨d, hd⟩ := exists_entry_fun dl
  have hp' := hp
  rw [GPC.itemParameters, List.getElem?_zip_eq_some] at hp'
  rw [GPC.weights, hw] at hp'
  obtain rfl : w = w' := Option.some.inj hp'.1
  exact directions_tell m.weights m.probs m.M m.lv j r w hw hwl hr (fun θ => lengths_of_table (isTable_gpc m hwf θ))
    (fun t => multinomialLogit c m.M fun x => x * t + d x)
    (fun θ => m.probs_row hwf θ j c w dl d hc hp fun k hk => hd k (by omega))
    (meanScore_multinomial_strictMono c m.M h2 (le_maxCats _ _ (List.mem_of_getElem? hc)) d)

example : exGPC.WF ∧ exGPC.cats[0]? = some 3 ∧ 1 < exGPC.lv := ⟨exGPC_wf, by simp [exGPC], by simp [exGPC]⟩

/-- C92 (graded response), for items with at least two categories, also where the code returns negative
"probabilities" (C04). -/
theorem C92_grm (m : GRM) (hwf : m.WF) (j r c : ℕ) (hc : m.cats[j]? = some c) (h2 : 2 ≤ c) (hr : r < m.lv) :
    ∃ row s E, m.directions[j]? = some row ∧ row.length = m.lv ∧ row[r]? = some s ∧ ReportsScore m.probs m.M none j E ∧
      TellsDirection E m.lv r s := by
  have hj := lt_of_getElem?_some hc
  obtain ⟨w, hw, hwl⟩ := weightTable_row m.cats.length m.lv m.rel m.weight hwf.relLen hwf.relRow j hj
  obtain ⟨w', dl, hp, hl⟩ := m.exists_params j hj
  obtain ⟨d, hd⟩ := m.exists_thresholds dl hl
  have hp' := hp
  rw [GRM.itemParameters, List.getElem?_zip_eq_some] at hp'
  rw [GRM.weights, hw] at hp'
  obtain rfl : w = w' := Option.some.inj hp'.1
  refine directions_tell m.weights m.probs m.M m.lv j r w hw hwl hr ?_
    (fun t => (List.range m.M).map fun k => grmGeq c t d k - grmGeq c t d (k + 1))
    (fun θ => m.probs_row' θ j c w dl d hc hp hd)
    (meanScore_graded_strictMono c m.M h2 (le_maxCats _ _ (List.mem_of_getElem? hc)) d)
  intro θ p hpm
  obtain ⟨i, hi, rfl⟩ := List.mem_iff_getElem.1 hpm
  have hi' : i < m.cats.length := by
    have := hi
    rwa [GRM.probs, List.length_map, length_viewRows] at this
  obtain ⟨q, hq, hlen, -⟩ := C04_grm_sum_one m hwf θ i _ (List.getElem?_eq_getElem hi')
  rw [List.getElem?_eq_getElem hi] at hq
  rw [Option.some.inj hq, hlen]

/-- C92 fails for items all respondents answered with category 0: such an item has one category, its expected score is 0
everywhere, and the start value of its slope is reported as direction 1. -/
theorem C92_single_category_false : ∃ m : GPC, GPC.init 1 [1, 3] none = .ok m ∧ m.WF ∧ m.directions[0]? = some [1] ∧
    ∃ E, ReportsScore m.probs m.M none 0 E ∧ UnaffectedBy E 1 0 := by
  refine ⟨{ lv := 1, cats := [1, 3], rel := [[true], [true]], weight := [1, 1], bias := [0, 0] }, ?_, ?_, ?_, ?_⟩
  · rfl
  · exact ⟨by simp, by simp, by simp, by simp [countTrue], by simp⟩
  · simp [GPC.directions, GPC.weights, viewRows, scatterMask, signInt]
  · set m : GPC := { lv := 1, cats := [1, 3], rel := [[true], [true]], weight := [1, 1], bias := [0, 0] } with hm
    have hwf : m.WF := ⟨by simp [hm], by simp [hm], by simp [hm], by simp [hm, countTrue], by simp [hm]⟩
    have hc : m.cats[0]? = some 1 := rfl
    obtain ⟨w, dl, hp, hl⟩ := m.exists_params 0 (lt_of_getElem?_some hc)
    obtain ⟨d, hd⟩ := exists_entry_fun dl
    refine ⟨_, reportsScore_of_rows m.probs m.M 0 (fun θ => lengths_of_table (isTable_gpc m hwf θ)) _
      (fun θ => m.probs_row hwf θ 0 1 w dl d hc hp fun k hk => hd k (by omega)), fun θ x' _ => ?_⟩
    have h0 : ∀ l : ℕ → ℝ, meanScore (multinomialLogit 1 m.M l) = 0 := by
      intro l
      unfold meanScore
      refine sum_eq_zero fun k _ => ?_
      rw [multinomialLogit_getD 1 m.M (le_maxCats _ _ (List.mem_of_getElem? hc))]
      by_cases hk : k < 1
      · obtain rfl : k = 0 := by omega
        simp
      · simp [hk]
    rw [h0, h0]

/-- C92 (nested logit with a 2PL for correct responses, any model for the incorrect ones): the directions of the 2PL, which
the model returns, tell how the expected item score, i.e. the probability of a correct answer, depends on the latent
variables. -/
theorem C92_nested (cats keys : List ℕ) (a : TwoPL) (ha : a.WF) (hai : a.items = cats.length)
    (incorrect : List ℝ → List (List ℝ)) (hlen : keys.length = cats.length)
    (hkeys : ∀ j k c : ℕ, keys[j]? = some k → cats[j]? = some c → k < c)
    (hinc : ∀ θ, IsTable (cats.map fun c => c - 1) (maxCats cats - 1) (incorrect θ)) (j r : ℕ) (hj : j < cats.length)
    (hr : r < a.lv) :
    ∃ row s E, a.directions[j]? = some row ∧ row.length = a.lv ∧ row[r]? = some s ∧
      ReportsScore (fun θ => nestedProbs (maxCats cats) keys (a.probs θ) (incorrect θ)) (maxCats cats)
        (some (keys.map fun k : ℕ => (k : ℤ))) j E ∧
      TellsDirection E a.lv r s := by
  obtain ⟨row, s, E, h1, h2, h3, h4, h5⟩ := C92_twoPL a ha j r (by rw [hai]; exact hj) hr
  refine ⟨row, s, E, h1, h2, h3, fun θ => ?_, h5⟩
  obtain ⟨hT, hrow⟩ := C07_nested_table cats keys (maxCats cats) (a.probs θ) (incorrect θ) (fun c => le_maxCats cats c) hlen hkeys
    (by rw [← hai]; exact isTable_twoPL a ha θ) (hinc θ)
  have hkM : ∀ k ∈ keys, k < maxCats cats := by
    intro k hk
    obtain ⟨i, hi, rfl⟩ := List.mem_iff_getElem.1 hk
    have hi' : i < cats.length := by rw [← hlen]; exact hi
    exact lt_of_lt_of_le (hkeys i _ _ (List.getElem?_eq_getElem hi) (List.getElem?_eq_getElem hi'))
      (le_maxCats _ _ (List.getElem_mem hi'))
  obtain ⟨e, he, hel, hall⟩ := C17_expected_keyed_score cats (maxCats cats) _ hT keys
    (by intro h0; rw [h0] at hlen; simp at hlen; omega) hlen hkM
  refine ⟨e, he, ?_⟩
  obtain ⟨w, b, hp⟩ := a.exists_params ha j (by rw [hai]; exact hj)
  have hpc := C03_twoPL_formula a ha θ j w b hp
  have hE : E θ = logistic (dot θ w + b) := by
    obtain ⟨es, hes, hj'⟩ := h4 θ
    have := C13_mean_score (a.probs θ) 2 (lengths_of_table (isTable_twoPL a ha θ))
    rw [hes] at this
    cases this
    rw [List.getElem?_map, hpc, Option.map_some, meanScore_pair] at hj'
    exact (Option.some.inj hj').symm
  obtain ⟨k, hk⟩ := getElem?_of_lt keys j (by rw [hlen]; exact hj)
  obtain ⟨x, hx⟩ := getElem?_of_lt e j (by rw [hel]; exact hj)
  obtain ⟨p, hpr⟩ := getElem?_of_lt (nestedProbs (maxCats cats) keys (a.probs θ) (incorrect θ)) j (by rw [hT.1]; exact hj)
  obtain ⟨q, hq⟩ := getElem?_of_lt (incorrect θ) j (by rw [(hinc θ).1]; simpa using hj)
  have h6 := (hall j k p x hk hpr hx).1
  have h7 := (hrow j k _ q p _ hk hpc hq hpr rfl).1
  rw [h6] at h7
  rw [hx, Option.some.inj h7, hE]

example : exTwoPL.WF ∧ exTwoPL.items = [4, 3].length ∧ (∀ j k c : ℕ, [2, 0][j]? = some k → [4, 3][j]? = some c → k < c) ∧
    ∀ θ, IsTable ([4, 3].map fun c => c - 1) (maxCats [4, 3] - 1) (exNRM.probs θ) := by
  refine ⟨exTwoPL_wf, rfl, ?_, fun θ => isTable_nrm exNRM exNRM_wf θ⟩
  intro j k c hk hc
  match j with
  | 0 => simp at hk hc; omega
  | 1 => simp at hk hc; omega
  | j + 2 => simp at hk

/-- C92 (monotone B-spline): direction 1 is reported for every item and latent variable, and raising a latent variable never
lowers the scores of an item. Missing: that it strictly raises the expected score. -/
theorem C92_bspline_partial (m : MonoBSpline) (hwf : m.WF) (interior : List ℝ) (degree : ℕ)
    (hnb : m.nb = splineBases interior degree) (hs : interior.Pairwise (· ≤ ·)) (theta : ℕ → ℝ) (r j : ℕ) (hr : r < m.lv)
    (x' : ℝ) (hx : theta r ≤ x') (t t' : List (List ℝ)) (ht : m.probs (splineBasis interior degree theta) = .ok t)
    (ht' : m.probs (splineBasis interior degree (Function.update theta r x')) = .ok t') (p p' : List ℝ)
    (hp : t[j]? = some p) (hp' : t'[j]? = some p') :
    (∃ row, m.directions[j]? = some row ∧ row[r]? = some 1) ∧ ScoresHigher p p' := by
  have hj : j < m.cats.length := by
    rw [← (C01_monotone_bspline m hwf _ t ht).1]; exact lt_of_getElem?_some hp
  refine ⟨⟨List.replicate m.lv 1, by simp [MonoBSpline.directions, hj], by simp [hr]⟩, ?_⟩
  refine C13_bspline m hwf interior degree hnb hs theta _ (fun l _ => ?_) t t' ht ht' j p p' hp hp'
  by_cases hl : l = r
  · subst hl; simpa using hx
  · simp [hl]

/-! ## Directions from a regression -/

theorem regression_slope {n : ℕ} (x : Matrix (Fin n) (Fin 1) ℝ) (y : Matrix (Fin n) (Fin 1) ℝ) (w : Matrix (Fin 2) (Fin 1) ℝ)
    (h : linearRegression x y = .ok w) :
    (∃ i k, x i 0 ≠ x k 0) ∧
    w 1 0 * ∑ i, ∑ k, (x i 0 - x k 0) ^ 2 = ∑ i, ∑ k, (x i 0 - x k 0) * (y i 0 - y k 0) := by
  refine ⟨?_, ?_⟩
  · by_contra hno
    push Not at hno
    have : linearRegression x y = .error .runtimeError := by
      rw [C66_refused]
      by_cases hn : n = 0
      · subst hn
        exact ⟨fun _ => 1, fun h => one_ne_zero (congrFun h 0), fun i => i.elim0⟩
      · refine ⟨fun i => if i = 0 then -(x ⟨0, by omega⟩ 0) else 1, fun h0 => ?_, fun i => ?_⟩
        · have := congrFun h0 1
          simp at this
        · simp [hno i ⟨0, by omega⟩]
    rw [this] at h
    cases h
  · simp only [linearRegression] at h
    split at h
    · simp at h
    rename_i hdet
    have hu : IsUnit ((withBias x).transpose * withBias x).det := isUnit_iff_ne_zero.2 hdet
    have hw : w = ((withBias x).transpose * withBias x)⁻¹ * (withBias x).transpose * y := by
      injection h with h; exact h.symm
    have hnormal : (withBias x).transpose * (y - withBias x * w) = 0 := by
      rw [Matrix.mul_sub, ← Matrix.mul_assoc, hw, ← Matrix.mul_assoc, ← Matrix.mul_assoc, Matrix.mul_nonsing_inv _ hu,
        Matrix.one_mul, sub_self]
    have h0 := congrFun (congrFun hnormal 0) 0
    have h1 := congrFun (congrFun hnormal 1) 0
    have hfit : ∀ i, (withBias x * w) i 0 = w 0 0 + x i 0 * w 1 0 := by
      intro i; rw [withBias_mul]; simp
    have hB0 : ∀ i, withBias x i 0 = 1 := fun i => by simp [withBias]
    have hB1 : ∀ i, withBias x i 1 = x i 0 := fun i => by
      have : (1 : Fin 2) = Fin.succ 0 := rfl
      rw [this]; simp [withBias]
    rw [Matrix.mul_apply] at h0 h1
    simp only [Matrix.transpose_apply, Matrix.sub_apply, Matrix.zero_apply, hfit, hB0, hB1, one_mul] at h0 h1
    have e0 : ∑ i, y i 0 = n * w 0 0 + w 1 0 * ∑ i, x i 0 := by
      have : ∑ i, (y i 0 - (w 0 0 + x i 0 * w 1 0)) = ∑ i, y i 0 - (n * w 0 0 + w 1 0 * ∑ i, x i 0) := by
        simp only [sum_sub_distrib, sum_add_distrib, sum_const, card_univ, Fintype.card_fin, nsmul_eq_mul, ← Finset.sum_mul]
        ring
      rw [this] at h0
      linarith
    have e1 : ∑ i, x i 0 * y i 0 = w 0 0 * ∑ i, x i 0 + w 1 0 * ∑ i, x i 0 ^ 2 := by
      have : ∑ i, x i 0 * (y i 0 - (w 0 0 + x i 0 * w 1 0))
          = ∑ i, x i 0 * y i 0 - (w 0 0 * ∑ i, x i 0 + w 1 0 * ∑ i, x i 0 ^ 2) := by
        rw [Finset.mul_sum, Finset.mul_sum, ← sum_add_distrib, ← sum_sub_distrib]
        exact sum_congr rfl fun i _ => by ring
      rw [this] at h1
      linarith
    have q1 : ∑ i, ∑ k, (x i 0 - x k 0) ^ 2 = 2 * (n * ∑ i, x i 0 ^ 2 - (∑ i, x i 0) ^ 2) := by
      have : ∀ i, ∑ k, (x i 0 - x k 0) ^ 2 = n * x i 0 ^ 2 - 2 * x i 0 * ∑ k, x k 0 + ∑ k, x k 0 ^ 2 := by
        intro i
        rw [Finset.mul_sum]
        have : ∑ k, (x i 0 - x k 0) ^ 2 = ∑ k, (x i 0 ^ 2 - 2 * x i 0 * x k 0 + x k 0 ^ 2) :=
          sum_congr rfl fun k _ => by ring
        rw [this, sum_add_distrib, sum_sub_distrib]
        simp
      rw [sum_congr rfl fun i _ => this i, sum_add_distrib, sum_sub_distrib, ← Finset.mul_sum, ← Finset.sum_mul, ← Finset.mul_sum]
      simp
      ring
    have q2 : ∑ i, ∑ k, (x i 0 - x k 0) * (y i 0 - y k 0) = 2 * (n * ∑ i, x i 0 * y i 0 - (∑ i, x i 0) * ∑ i, y i 0) := by
      have : ∀ i, ∑ k, (x i 0 - x k 0) * (y i 0 - y k 0)
          = n * (x i 0 * y i 0) - x i 0 * ∑ k, y k 0 - y i 0 * ∑ k, x k 0 + ∑ k, x k 0 * y k 0 := by
        intro i
        rw [Finset.mul_sum, Finset.mul_sum]
        have : ∑ k, (x i 0 - x k 0) * (y i 0 - y k 0)
            = ∑ k, (x i 0 * y i 0 - x i 0 * y k 0 - y i 0 * x k 0 + x k 0 * y k 0) :=
          sum_congr rfl fun k _ => by ring
        rw [this, sum_add_distrib, sum_sub_distrib, sum_sub_distrib]
        simp
      rw [sum_congr rfl fun i _ => this i, sum_add_distrib, sum_sub_distrib, sum_sub_distrib, ← Finset.mul_sum, ← Finset.sum_mul,
        ← Finset.sum_mul]
      simp
      ring
    rw [q1, q2, e0, e1]
    ring

theorem regressionDirections_ok {items M : ℕ} {mc : Option (List ℤ)} {probs : List ℝ → List (List ℝ)} {n lv : ℕ}
    {theta : Matrix (Fin n) (Fin lv) ℝ} {t : List (List ℤ)}
    (h : regressionDirections items M mc probs theta = .ok t) (j : ℕ) (hj : j < items) (E : List ℝ → ℝ)
    (hE : ReportsScore probs M mc j E) :
    ∃ w, linearRegression theta (Matrix.of fun i (_ : Fin 1) => E (List.ofFn (theta i))) = .ok w ∧
      t[j]? = some (List.ofFn fun r : Fin lv => signInt (w r.succ 0)) := by
  unfold regressionDirections at h
  obtain ⟨scores, hs, h⟩ := bind_eq_ok h
  obtain ⟨hlen, hall⟩ := (mapM_ok_iff _ _ _).1 hs
  obtain ⟨-, hall'⟩ := (mapM_ok_iff _ _ _).1 h
  obtain ⟨row, hrow, hreg⟩ := hall' j j (by rw [List.getElem?_range hj])
  have hy : (Matrix.of fun (i : Fin n) (_ : Fin 1) => (scores.getD i []).getD j 0)
      = Matrix.of fun i (_ : Fin 1) => E (List.ofFn (theta i)) := by
    ext i k
    simp only [Matrix.of_apply]
    obtain ⟨es, hes, hok⟩ := hall i i (by simp)
    obtain ⟨es', hes', hj'⟩ := hE (List.ofFn (theta i))
    rw [hes'] at hok
    cases hok
    have hrow' : scores.getD (i : ℕ) [] = es := by rw [List.getD_eq_getElem?_getD, hes]; rfl
    rw [hrow', List.getD_eq_getElem?_getD, hj', Option.getD_some]
  rw [hy] at hreg
  cases hl : linearRegression theta (Matrix.of fun i (_ : Fin 1) => E (List.ofFn (theta i))) with
  | error e => rw [hl] at hreg; cases hreg
  | ok w =>
    rw [hl] at hreg
    simp only [Except.map, Except.ok.injEq] at hreg
    exact ⟨w, rfl, by rw [hrow, ← hreg]⟩

theorem ofFn_one (f : Fin 1 → ℝ) : List.ofFn f = [f 0] := by simp

/-- C92 (models without their own rule, e.g. the nominal model, one latent variable): if the expected score of the item always
increases, always decreases or never changes with the latent variable, that is what is reported, whatever respondents were
given. -/
theorem C92_regression {items M : ℕ} {mc : Option (List ℤ)} {probs : List ℝ → List (List ℝ)} {n : ℕ}
    {theta : Matrix (Fin n) (Fin 1) ℝ} {t : List (List ℤ)}
    (h : regressionDirections items M mc probs theta = .ok t) (j : ℕ) (hj : j < items) (E : List ℝ → ℝ)
    (hE : ReportsScore probs M mc j E) :
    (RaisedBy E 1 0 → t[j]? = some [1]) ∧ (LoweredBy E 1 0 → t[j]? = some [-1]) ∧ (UnaffectedBy E 1 0 → t[j]? = some [0]) := by
  obtain ⟨w, hw, ht⟩ := regressionDirections_ok h j hj E hE
  obtain ⟨⟨i₀, k₀, hne⟩, hslope⟩ := regression_slope theta _ w hw
  simp only [Matrix.of_apply, ofFn_one] at hslope
  have hpos : 0 < ∑ i, ∑ k, (theta i 0 - theta k 0) ^ 2 :=
    sum_pos' (fun i _ => sum_nonneg fun k _ => sq_nonneg _) ⟨i₀, mem_univ _,
      sum_pos' (fun k _ => sq_nonneg _) ⟨k₀, mem_univ _, by have := sub_ne_zero.2 hne; positivity⟩⟩
  have ht' : t[j]? = some [signInt (w 1 0)] := by rw [ht]; simp
  have hprod : ∀ g : ℝ → ℝ, StrictMono g → ∀ x x' : ℝ, 0 ≤ (x - x') * (g x - g x') ∧ (x ≠ x' → 0 < (x - x') * (g x - g x')) := by
    intro g hg x x'
    have h1 : x ≠ x' → 0 < (x - x') * (g x - g x') := by
      intro hx
      rcases lt_or_gt_of_ne hx with hx | hx
      · exact mul_pos_of_neg_of_neg (sub_neg.2 hx) (sub_neg.2 (hg hx))
      · exact mul_pos (sub_pos.2 hx) (sub_pos.2 (hg hx))
    refine ⟨?_, h1⟩
    by_cases hx : x = x'
    · simp [hx]
    · exact (h1 hx).le
  have hcov : ∀ g : ℝ → ℝ, StrictMono g → 0 < ∑ i, ∑ k, (theta i 0 - theta k 0) * (g (theta i 0) - g (theta k 0)) := fun g hg =>
    sum_pos' (fun i _ => sum_nonneg fun k _ => (hprod g hg _ _).1) ⟨i₀, mem_univ _,
      sum_pos' (fun k _ => (hprod g hg _ _).1) ⟨k₀, mem_univ _, (hprod g hg _ _).2 hne⟩⟩
  refine ⟨fun hr => ?_, fun hr => ?_, fun hr => ?_⟩
  · have := hcov (fun x => E [x]) fun x x' hx => by simpa using hr [x] x x' rfl rfl hx
    rw [← hslope] at this
    rw [ht', signInt_pos (pos_of_mul_pos_left this hpos.le)]
  · have := hcov (fun x => -E [x]) fun x x' hx => by
      have := hr [x] x x' rfl rfl hx
      simpa using this
    have hneg : ∑ i, ∑ k, (theta i 0 - theta k 0) * (-E [theta i 0] - -E [theta k 0])
        = -∑ i, ∑ k, (theta i 0 - theta k 0) * (E [theta i 0] - E [theta k 0]) := by
      rw [← sum_neg_distrib]
      refine sum_congr rfl fun i _ => ?_
      rw [← sum_neg_distrib]
      exact sum_congr rfl fun k _ => by ring
    rw [hneg, ← hslope] at this
    have hw0 : w 1 0 < 0 := by
      by_contra h0
      have := mul_nonneg (not_lt.1 h0) hpos.le
      linarith
    rw [ht', signInt_neg hw0]
  · have h0 : ∑ i, ∑ k, (theta i 0 - theta k 0) * (E [theta i 0] - E [theta k 0]) = 0 := by
      refine sum_eq_zero fun i _ => sum_eq_zero fun k _ => ?_
      have := hr [theta i 0] (theta k 0) rfl
      simp at this
      rw [this, sub_self, mul_zero]
    rw [h0] at hslope
    rcases mul_eq_zero.1 hslope with hw0 | hw0
    · rw [ht', hw0, signInt_zero]
    · exact absurd hw0 hpos.ne'

theorem linearRegression_error {n lv : ℕ} (theta : Matrix (Fin n) (Fin lv) ℝ) (y : Matrix (Fin n) (Fin 1) ℝ) (e : PyErr)
    (h : linearRegression theta y = .error e) :
    ∃ c : Fin (lv + 1) → ℝ, c ≠ 0 ∧ ∀ i, c 0 + ∑ j, theta i j * c j.succ = 0 := by
  have he : e = .runtimeError := by
    simp only [linearRegression] at h
    split at h <;> cases h
    rfl
  rw [he] at h
  exact (C66_refused theta y).1 h

theorem regressionDirections_defined {items M : ℕ} {mc : Option (List ℤ)} {probs : List ℝ → List (List ℝ)} {n lv : ℕ}
    (theta : Matrix (Fin n) (Fin lv) ℝ) (hdef : ∀ θ, ∃ es, expectedItemScores (probs θ) M mc = .ok es)
    (hreg : ¬ ∃ c : Fin (lv + 1) → ℝ, c ≠ 0 ∧ ∀ i, c 0 + ∑ j, theta i j * c j.succ = 0) :
    ∃ t, regressionDirections items M mc probs theta = .ok t ∧ t.length = items := by
  choose es hes using hdef
  have hscores : ((List.finRange n).mapM fun i => expectedItemScores (probs (List.ofFn (theta i))) M mc)
      = .ok ((List.finRange n).map fun i => es (List.ofFn (theta i))) :=
    mapM_ok _ _ _ fun i _ => hes _
  have hreg' : ∀ y : Matrix (Fin n) (Fin 1) ℝ, ∃ w, linearRegression theta y = .ok w := by
    intro y
    cases hl : linearRegression theta y with
    | ok w => exact ⟨w, rfl⟩
    | error e => exact absurd (linearRegression_error theta y e hl) hreg
  unfold regressionDirections
  rw [hscores]
  dsimp only [bind, Except.bind]
  choose w hw using hreg'
  refine ⟨_, mapM_ok _ _ (fun j => List.ofFn fun r : Fin lv => signInt (w (Matrix.of fun (i : Fin n) (_ : Fin 1) =>
    (((List.finRange n).map fun i => es (List.ofFn (theta i))).getD i []).getD j 0) r.succ 0)) ?_, by simp⟩
  intro j _
  rw [hw]
  rfl

/-- Respondents with two different values of one latent variable. -/
theorem one_trait_spans {n : ℕ} (theta : Matrix (Fin n) (Fin 1) ℝ) (i k : Fin n) (hne : theta i 0 ≠ theta k 0) :
    ¬ ∃ c : Fin (1 + 1) → ℝ, c ≠ 0 ∧ ∀ i, c 0 + ∑ j, theta i j * c j.succ = 0 := by
  rintro ⟨c, hc, h⟩
  have h1 := h i
  have h2 := h k
  simp at h1 h2
  have h3 : (theta i 0 - theta k 0) * c 1 = 0 := by linarith
  rcases mul_eq_zero.1 h3 with h4 | h4
  · exact hne (sub_eq_zero.1 h4)
  · apply hc
    ext m
    fin_cases m
    · rw [h4, mul_zero, add_zero] at h1; exact h1
    · exact h4

/-- C92: with one latent variable a direction is reported exactly if two respondents with different scores are given, and
otherwise the call fails. -/
theorem C92_regression_defined {items M : ℕ} (hi : 0 < items) {mc : Option (List ℤ)} {probs : List ℝ → List (List ℝ)} {n : ℕ}
    (theta : Matrix (Fin n) (Fin 1) ℝ) (hdef : ∀ θ, ∃ es, expectedItemScores (probs θ) M mc = .ok es) :
    ((∃ i k, theta i 0 ≠ theta k 0) → ∃ t, regressionDirections items M mc probs theta = .ok t ∧ t.length = items) ∧
    ((∀ i k, theta i 0 = theta k 0) → regressionDirections items M mc probs theta = .error .runtimeError) := by
  refine ⟨fun ⟨i, k, hne⟩ => regressionDirections_defined theta hdef (one_trait_spans theta i k hne), fun hall => ?_⟩
  choose es hes using hdef
  have hscores : ((List.finRange n).mapM fun i => expectedItemScores (probs (List.ofFn (theta i))) M mc)
      = .ok ((List.finRange n).map fun i => es (List.ofFn (theta i))) :=
    mapM_ok _ _ _ fun i _ => hes _
  have href : ∀ y : Matrix (Fin n) (Fin 1) ℝ, linearRegression theta y = .error .runtimeError := by
    intro y
    cases hl : linearRegression theta y with
    | ok w =>
      obtain ⟨⟨i, k, hne⟩, -⟩ := regression_slope theta y w hl
      exact absurd (hall i k) hne
    | error e =>
      simp only [linearRegression] at hl
      split at hl <;> cases hl
      rfl
  unfold regressionDirections
  rw [hscores]
  dsimp only [bind, Except.bind]
  refine mapM_error _ _ _ (fun j _ => .inl ?_) ⟨0, by simpa using hi, ?_⟩
  · rw [href]; rfl
  · rw [href]; rfl

/-- Two respondents, a model with one item whose score rises with the latent variable. -/
example : ∃ t, regressionDirections 1 2 none (fun θ => [[1 - logistic (θ.getD 0 0), logistic (θ.getD 0 0)]])
    (Matrix.of fun (i : Fin 2) (_ : Fin 1) => (i : ℝ)) = .ok t ∧ t.length = 1 :=
  (C92_regression_defined one_pos _ fun _ => ⟨_, rfl⟩).1 ⟨0, 1, by simp⟩

/-- A nominal model with one item of two categories and two latent variables, both raising the item score. -/
noncomputable def exTwoTraits : NRM := { lv := 2, cats := [2], rel := [[true, true]], weight := [1, 1], bias := [0] }

theorem exTwoTraits_wf : exTwoTraits.WF :=
  ⟨by simp [exTwoTraits], by simp [exTwoTraits], by simp [exTwoTraits],
    by simp [exTwoTraits, NRM.freeWeights, nrmFreeRows, freeRow, countTrue, NRM.M, maxCats, List.range_succ], by simp [exTwoTraits]⟩

theorem exTwoTraits_score : ReportsScore exTwoTraits.probs exTwoTraits.M none 0 fun θ => logistic (2 * dot θ [1, 1]) := by
  have hM : exTwoTraits.M = 2 := by simp [NRM.M, exTwoTraits, maxCats]
  have hp : exTwoTraits.itemParameters[0]? = some (([[-1, -1], [1, 1]] : List (List ℝ)), ([0, 0] : List ℝ)) := by
    simp [NRM.itemParameters, NRM.weights, NRM.biases, exTwoTraits, viewRows, scatterMask, NRM.M, maxCats, NRM.freeWeights,
      nrmFreeRows, freeRow, freeMask, sumRows, List.range_succ]
  have hrow : ∀ θ, (exTwoTraits.probs θ)[0]? = some (multinomialLogit 2 exTwoTraits.M fun k : ℕ =>
      dot θ (if k = 0 then [-1, -1] else [1, 1]) + 0) := by
    intro θ
    refine (C06_nrm_formula exTwoTraits exTwoTraits_wf θ 0 2 _ _ (fun k => if k = 0 then [-1, -1] else [1, 1]) (fun _ => 0)
      rfl hp ?_ ?_).2
    · intro k hk
      rw [hM] at hk
      interval_cases k <;> simp
    · intro k hk
      rw [hM] at hk
      interval_cases k <;> simp
  have := reportsScore_of_rows exTwoTraits.probs exTwoTraits.M 0
    (fun θ => lengths_of_table (isTable_nrm exTwoTraits exTwoTraits_wf θ)) _ hrow
  convert this using 1
  funext θ
  have hneg : dot θ [-1, -1] = -dot θ [1, 1] := by
    match θ with
    | [] => simp [dot]
    | [a] => simp [dot]
    | a :: b :: l => simp [dot]; ring
  rw [hM]
  simp only [meanScore, multinomialLogit, List.length_map, List.length_range, Finset.sum_range_succ, Finset.range_zero, Finset.sum_empty]
  simp [hneg, List.range_succ, logistic, two_mul, Real.exp_add, Real.exp_neg]
  have := Real.exp_pos (dot θ [1, 1])
  field_simp

/-- Three respondents. -/
noncomputable def exThreeRespondents : Matrix (Fin 3) (Fin 2) ℝ :=
  Matrix.of ![![0, 0], ![Real.log 3 / 2, 0], ![Real.log 3, 1]]

/-- The claim for several latent variables: a latent variable that always raises the expected item score is reported with
direction 1. -/
def C92_regression_claim : Prop :=
  ∀ (m : NRM) (n : ℕ) (theta : Matrix (Fin n) (Fin m.lv) ℝ) (t : List (List ℤ)) (j r : ℕ) (E : List ℝ → ℝ), m.WF →
    m.directions none (some theta) = .ok t → j < m.cats.length → r < m.lv → ReportsScore m.probs m.M none j E →
    RaisedBy E m.lv r → ∃ row, t[j]? = some row ∧ row[r]? = some 1

/-- C92 fails for the nominal model with two latent variables: although both raise the expected score of the item, direction -1
is reported for the second one, because the regression is linear and the expected score is not. -/
theorem C92_regression_false : ¬ C92_regression_claim := by
  intro hall
  have hl3 : 0 < Real.log 3 := Real.log_pos (by norm_num)
  set y : Matrix (Fin 3) (Fin 1) ℝ :=
    Matrix.of fun i (_ : Fin 1) => logistic (2 * dot (List.ofFn (exThreeRespondents i)) [1, 1]) with hy
  have hy0 : y 0 0 = 1 / 2 := by simp [hy, exThreeRespondents, dot, logistic]; norm_num
  have hy1 : y 1 0 = 3 / 4 := by
    simp [hy, exThreeRespondents, dot, logistic, mul_div_cancel₀, Real.exp_log]
    norm_num
  have hy2 : y 2 0 < 1 := by simp only [hy, Matrix.of_apply]; exact logistic_lt_one _
  have hspan : ¬ ∃ c : Fin (2 + 1) → ℝ, c ≠ 0 ∧ ∀ i, c 0 + ∑ j, exThreeRespondents i j * c j.succ = 0 := by
    rintro ⟨c, hc, h⟩
    have h0 := h 0
    have h1 := h 1
    have h2 := h 2
    simp [exThreeRespondents, Fin.sum_univ_two] at h0 h1 h2
    rw [h0] at h1 h2
    have hc1 : c 1 = 0 := by
      rcases mul_eq_zero.1 (show Real.log 3 / 2 * c 1 = 0 by linarith) with h | h
      · linarith
      · exact h
    apply hc
    ext i
    fin_cases i
    · exact h0
    · exact hc1
    · simp [hc1] at h2; exact h2
  have hM : exTwoTraits.M = 2 := by simp [NRM.M, exTwoTraits, maxCats]
  obtain ⟨t, ht, -⟩ := regressionDirections_defined (items := exTwoTraits.cats.length) (M := exTwoTraits.M) (mc := none)
    (probs := exTwoTraits.probs) (lv := 2) exThreeRespondents
    (fun θ => ⟨_, (exTwoTraits_score θ).choose_spec.1⟩) hspan
  obtain ⟨w, hw, hrow⟩ := regressionDirections_ok ht 0 (by simp [exTwoTraits]) _ exTwoTraits_score
  have hv : (Matrix.of ![![1 / 2], ![1 / (2 * Real.log 3)], ![y 2 0 - 1]] : Matrix (Fin 3) (Fin 1) ℝ) = w := by
    set v : Matrix (Fin 3) (Fin 1) ℝ := Matrix.of ![![1 / 2], ![1 / (2 * Real.log 3)], ![y 2 0 - 1]] with hv
    have hr : residualSumOfSquares exThreeRespondents y v = 0 := by
      simp [residualSumOfSquares, Fin.sum_univ_succ, hv, exThreeRespondents, hy0, hy1]
      field_simp
      ring
    obtain ⟨h1, h2⟩ := C66_least_squares exThreeRespondents y w hw v
    apply h2
    have h3 : 0 ≤ residualSumOfSquares exThreeRespondents y w := by
      unfold residualSumOfSquares
      positivity
    rw [hr] at h1 ⊢
    linarith
  have hE : RaisedBy (fun θ => logistic (2 * dot θ [1, 1])) exTwoTraits.lv 1 := by
    refine ((tellsDirection_of_predictor (fun t => logistic (2 * t)) (fun t t' h => logistic_strictMono (by linarith)) [1, 1]
      exTwoTraits.lv 1 (by simp [exTwoTraits]) 1 rfl).1).1 (signInt_pos one_pos)
  obtain ⟨row, h1, h2⟩ := hall exTwoTraits 3 exThreeRespondents t 0 1 _ exTwoTraits_wf ht (by simp [exTwoTraits])
    (by simp [exTwoTraits]) exTwoTraits_score hE
  rw [hrow] at h1
  cases h1
  have h3 : signInt (w 2 0) = 1 := by simpa using h2
  rw [← hv] at h3
  have h4 : signInt (y 2 0 - 1) = 1 := by simpa using h3
  rw [signInt_neg (by linarith)] at h4
  norm_num at h4

/-- The nominal model refuses to report directions without latent scores. -/
theorem C92_nominal_requires_scores (m : NRM) (mc : Option (List ℤ)) (n : ℕ) :
    m.directions mc (n := n) none = .error .valueError := rfl

end Irt
