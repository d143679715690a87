import Verif.Model.Spline
import Verif.Lemmas.BSpline
import Verif.Props.Monotone
import Verif.Props.Surprisal

/-!
# C08 and C13 for spline models with B-spline basis functions

The two spline models evaluated at a latent trait vector `theta`, with the B-spline basis of the knots the
constructors build. `interior` are the knots given by the user, sorted.
-/

namespace Irt

open Finset

/-- The knots as a sequence, continued by the last one. -/
noncomputable def knotSeq (interior : List ℝ) (degree : ℕ) (i : ℕ) : ℝ := (splineKnots interior degree).getD i 1

theorem splineBases_eq (interior : List ℝ) (degree : ℕ) :
    splineBases interior degree = interior.length + degree + 1 := by
  simp [splineBases, splineKnots]; omega

theorem knotSeq_eq (interior : List ℝ) (degree i : ℕ) : knotSeq interior degree i =
    if i < degree + 1 then 0 else if h : i - (degree + 1) < interior.length then
      sigmoid interior[i - (degree + 1)] else 1 := by
  unfold knotSeq splineKnots
  rw [List.getD_eq_getElem?_getD]
  by_cases h1 : i < degree + 1
  · rw [if_pos h1, List.append_assoc, List.getElem?_append_left (by simpa using h1), List.getElem?_replicate,
      if_pos h1]; rfl
  · rw [if_neg h1, List.append_assoc, List.getElem?_append_right (by simpa using h1), List.length_replicate]
    by_cases h2 : i - (degree + 1) < interior.length
    · rw [dif_pos h2, List.getElem?_append_left (by simpa using h2), List.getElem?_map,
        List.getElem?_eq_getElem h2]; rfl
    · rw [dif_neg h2, List.getElem?_append_right (by simpa using h2), List.getElem?_replicate]
      split_ifs <;> rfl

theorem knotSeq_mono (interior : List ℝ) (degree : ℕ) (h : interior.Pairwise (· ≤ ·)) :
    Monotone (knotSeq interior degree) := by
  intro a b hab
  rw [knotSeq_eq, knotSeq_eq]
  split_ifs with h1 h2 h3 h4 h5
  · exact le_rfl
  · exact (sigmoid_pos _).le
  · norm_num
  · omega
  · rcases Nat.eq_or_lt_of_le hab with rfl | hlt
    · exact le_rfl
    · exact sigmoid_strictMono.monotone (List.pairwise_iff_getElem.1 h _ _ _ _ (by omega))
  · exact (sigmoid_lt_one _).le
  · omega
  · omega
  · exact le_rfl

theorem knotSeq_first (interior : List ℝ) (degree : ℕ) : knotSeq interior degree (0 + degree) = 0 := by
  rw [knotSeq_eq, if_pos (by omega)]

theorem knotSeq_last (interior : List ℝ) (degree : ℕ) :
    knotSeq interior degree (splineBases interior degree) = 1 := by
  rw [knotSeq_eq, splineBases_eq, if_neg (by omega), dif_neg (by omega)]

/-- The basis values at any latent trait are nonnegative and sum to one, and raising the latent trait moves
weight towards later basis functions. -/
theorem splineBasis_facts (interior : List ℝ) (degree : ℕ) (hs : interior.Pairwise (· ≤ ·)) :
    (∀ theta l b, 0 ≤ splineBasis interior degree theta l b) ∧
    (∀ theta l, ∑ b ∈ range (splineBases interior degree), splineBasis interior degree theta l b = 1) ∧
    ∀ (theta theta' : ℕ → ℝ) l, theta l ≤ theta' l → ∀ b, b < splineBases interior degree →
      ∑ x ∈ Ico b (splineBases interior degree), splineBasis interior degree theta l x ≤
        ∑ x ∈ Ico b (splineBases interior degree), splineBasis interior degree theta' l x := by
  have hm := knotSeq_mono interior degree hs
  have hlast : ∀ x, sigmoid x < knotSeq interior degree (splineBases interior degree) := fun x => by
    rw [knotSeq_last]; exact sigmoid_lt_one x
  refine ⟨fun theta l b => bspline_nonneg _ hm degree b _, fun theta l => ?_, fun theta theta' l h b hb => ?_⟩
  · rw [range_eq_Ico]
    exact bspline_tail_one _ hm _ _ (hlast _) degree 0 (by omega)
      (by rw [knotSeq_first]; exact (sigmoid_pos _).le)
  · exact bspline_tail_mono _ hm _ _ _ (sigmoid_strictMono.monotone h) (hlast _) degree b hb.le

/-- C13 (monotone B-spline): raising latent variables never lowers `P(X ≥ x)` nor the expected score of an
item, for every degree and every sorted list of knots. -/
theorem C13_bspline (m : MonoBSpline) (hwf : m.WF) (interior : List ℝ) (degree : ℕ)
    (hnb : m.nb = splineBases interior degree) (hs : interior.Pairwise (· ≤ ·)) (theta theta' : ℕ → ℝ)
    (hle : ∀ l, l < m.lv → theta l ≤ theta' l) (t t' : List (List ℝ))
    (ht : m.probs (splineBasis interior degree theta) = .ok t)
    (ht' : m.probs (splineBasis interior degree theta') = .ok t') (j : ℕ) (p p' : List ℝ)
    (hp : t[j]? = some p) (hp' : t'[j]? = some p') : ScoresHigher p p' := by
  obtain ⟨-, -, h3⟩ := splineBasis_facts interior degree hs
  refine C13_bspline_basis m hwf _ _ (fun l hl b hb => ?_) t t' ht ht' j p p' hp hp'
  rw [hnb] at hb ⊢
  exact h3 theta theta' l (hle l hl) b hb

example : exMonoBSpline.nb = splineBases [] 2 ∧ ([] : List ℝ).Pairwise (· ≤ ·) ∧
    splineBases [-17/10, -7/10, 0, 7/10, 17/10] 3 = 9 ∧
    ([-17/10, -7/10, 0, 7/10, 17/10] : List ℝ).Pairwise (· ≤ ·) := by
  refine ⟨by rw [splineBases_eq]; rfl, List.Pairwise.nil, by rw [splineBases_eq]; rfl, ?_⟩
  norm_num

/-- C08 (surprisal spline): the probabilities of every item at every latent trait are a distribution on the
categories the item has, each of them positive. -/
theorem C08_distribution_theta (m : Surprisal) (hwf : m.WF) (interior : List ℝ) (degree : ℕ)
    (hnb : m.nb = splineBases interior degree) (hs : interior.Pairwise (· ≤ ·)) (theta : ℕ → ℝ) :
    IsTable m.cats m.M (m.probs (splineBasis interior degree theta)) ∧
    ∀ (j c : ℕ) (p : List ℝ) (r : List Bool), m.cats[j]? = some c →
      (m.probs (splineBasis interior degree theta))[j]? = some p → m.rel[j]? = some r →
      (∃ l, l < m.lv ∧ r.getD l false = true) → AllPositive c p := by
  obtain ⟨h1, h2, -⟩ := splineBasis_facts interior degree hs
  obtain ⟨g1, g2⟩ := C08_distribution m hwf _ fun l _ b _ => h1 theta l b
  refine ⟨g1, fun j c p r hc hp hr hl => ?_⟩
  obtain ⟨l, hl, hrl⟩ := hl
  have hex : ∃ b ∈ range (splineBases interior degree), 0 < splineBasis interior degree theta l b := by
    by_contra hno
    push Not at hno
    have := sum_nonpos hno
    rw [h2] at this
    linarith
  obtain ⟨b, hb, hb0⟩ := hex
  exact g2 j c p r l b hc hp hr hl hrl (by rw [hnb]; exact mem_range.1 hb) hb0

/-- C08 (surprisal spline): raising latent variables never raises the probability of scoring at most `x`. -/
theorem C08_ordered_theta (m : Surprisal) (hwf : m.WF) (interior : List ℝ) (degree : ℕ)
    (hnb : m.nb = splineBases interior degree) (hs : interior.Pairwise (· ≤ ·)) (theta theta' : ℕ → ℝ)
    (hle : ∀ l, l < m.lv → theta l ≤ theta' l) (j x : ℕ) (p p' : List ℝ)
    (hp : (m.probs (splineBasis interior degree theta))[j]? = some p)
    (hp' : (m.probs (splineBasis interior degree theta'))[j]? = some p') (hx : x < m.M) :
    (p'.take (x + 1)).sum ≤ (p.take (x + 1)).sum := by
  obtain ⟨-, -, h3⟩ := splineBasis_facts interior degree hs
  refine C08_ordered m hwf _ _ (fun l hl b hb => ?_) j x p p' hp hp' hx
  rw [hnb] at hb ⊢
  exact h3 theta theta' l (hle l hl) b hb

example : exSurprisal.nb = splineBases [] 1 := by rw [splineBases_eq]; rfl

end Irt
