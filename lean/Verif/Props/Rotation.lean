import Verif.Props.OtherPopulation

/-! # C157: turning the axes of the latent space cannot be seen in the answers -/

namespace Irt
open Spec MeasureTheory

/-! ## Reflections that turn a vector into a given axis -/

theorem exists_reflection {d : ℕ} (a : Fin d → ℝ) (k : Fin d) : ∃ T : Matrix (Fin d) (Fin d) ℝ, T * T.transpose = 1 ∧
    ∀ i, ∑ l, a l * T l i = if i = k then Real.sqrt (∑ l, a l ^ 2) else 0 := by
  set r := Real.sqrt (∑ l, a l ^ 2) with hr
  have hr2 : r ^ 2 = ∑ l, a l ^ 2 := Real.sq_sqrt (Finset.sum_nonneg fun l _ => sq_nonneg _)
  set v : Fin d → ℝ := fun l => a l - if l = k then r else 0 with hv
  set s : ℝ := ∑ l, v l ^ 2 with hs
  have hav : ∑ l, a l * v l = r ^ 2 - r * a k := by
    simp only [hv, mul_sub, mul_ite, mul_zero, Finset.sum_sub_distrib, Finset.sum_ite_eq', Finset.mem_univ, if_true]
    rw [hr2, mul_comm]
    simp [sq]
  have hsv : s = 2 * ∑ l, a l * v l := by
    have e : ∀ l, v l ^ 2 = a l * v l - (if l = k then r else 0) * v l := fun l => by simp only [hv]; ring
    rw [hs, Finset.sum_congr rfl fun l _ => e l, Finset.sum_sub_distrib, hav]
    simp only [ite_mul, zero_mul, Finset.sum_ite_eq', Finset.mem_univ, if_true]
    simp only [hv, if_true]
    ring
  by_cases h0 : s = 0
  · have hv0 : ∀ l, v l = 0 := fun l => by
      have := (Finset.sum_eq_zero_iff_of_nonneg fun l _ => sq_nonneg (v l)).1 (hs ▸ h0) l (Finset.mem_univ l)
      exact pow_eq_zero_iff two_ne_zero |>.1 this
    refine ⟨1, by simp, fun i => ?_⟩
    have := hv0 i
    simp only [hv, sub_eq_zero] at this
    simp [Matrix.one_apply, this]
  · refine ⟨Matrix.of fun i j => (if i = j then 1 else 0) - 2 / s * (v i * v j), ?_, fun i => ?_⟩
    · ext i j
      simp only [Matrix.mul_apply, Matrix.transpose_apply, Matrix.of_apply, Matrix.one_apply]
      have e : ∀ m, ((if i = m then (1 : ℝ) else 0) - 2 / s * (v i * v m)) * ((if j = m then 1 else 0) - 2 / s * (v j * v m))
          = (if i = m then (if j = m then (1 : ℝ) else 0) else 0) - (if i = m then 2 / s * (v j * v m) else 0)
            - (if j = m then 2 / s * (v i * v m) else 0) + (2 / s) ^ 2 * (v i * v j) * v m ^ 2 := by
        intro m
        split_ifs <;> ring
      rw [Finset.sum_congr rfl fun m _ => e m]
      simp only [Finset.sum_add_distrib, Finset.sum_sub_distrib, Finset.sum_ite_eq, Finset.mem_univ, if_true, ← Finset.mul_sum, ← hs]
      have : (2 / s) ^ 2 * (v i * v j) * s = 2 * (2 / s * (v i * v j)) := by field_simp
      rw [this]
      simp only [eq_comm (a := j) (b := i)]
      ring
    · have e : ∀ l, a l * ((if l = i then (1 : ℝ) else 0) - 2 / s * (v l * v i)) = (if l = i then a l else 0) - 2 / s * v i * (a l * v l) := by
        intro l
        split_ifs <;> ring
      simp only [Matrix.of_apply]
      rw [Finset.sum_congr rfl fun l _ => e l, Finset.sum_sub_distrib, ← Finset.mul_sum]
      simp only [Finset.sum_ite_eq', Finset.mem_univ, if_true]
      have h2 : 2 / s * v i * ∑ l, a l * v l = v i := by
        have : (∑ l, a l * v l) = s / 2 := by rw [hsv]; ring
        rw [this]
        field_simp
      rw [h2]
      simp only [hv]
      ring

/-! ## The answers of the population -/

theorem turned_det {d : ℕ} {C T : Matrix (Fin d) (Fin d) ℝ} (hC : C.PosDef) (hT : T * C * T.transpose = C) : T.det ≠ 0 := by
  intro h
  have := congrArg Matrix.det hT
  rw [Matrix.det_mul, Matrix.det_mul, h, zero_mul, zero_mul] at this
  exact hC.det_pos.ne this

theorem normalProb_turned {d : ℕ} {cats : List ℕ} {C T : Matrix (Fin d) (Fin d) ℝ} (hC : C.PosDef) (hT : T * C * T.transpose = C)
    {P Q : (Fin d → ℝ) → ℕ → ℕ → ℝ} (h : SameOnNewScale cats T 0 P Q) {x : Fin cats.length → ℕ} (hx : x ∈ fullAnswers cats) :
    normalProb P C x = normalProb Q C x := by
  have := C153_population h (turned_det hC hT) hC hx
  rw [hT] at this
  exact this

section Models

/-- C157 for the 2PL model: if the covariance matrix looks the same on turned axes, the model with the turned slopes gives every list of answers the same
probability. -/
theorem C157_twoPL (m : TwoPL) (hwf : m.WF) {C T : Matrix (Fin m.lv) (Fin m.lv) ℝ} (hC : C.PosDef) (hT : T * C * T.transpose = C)
    (hrel : RespectsRelations m.rel T) :
    ∃ n : TwoPL, n.WF ∧ n.items = m.items ∧ n.lv = m.lv ∧ n.rel = m.rel ∧
      (∀ (j : ℕ) (k : Fin m.lv), j < m.items → slopeOf n.itemParameters j k = ∑ l : Fin m.lv, slopeOf m.itemParameters j l * T l k) ∧
      ∀ x ∈ fullAnswers (List.replicate m.items 2), normalProb (fun θ : Fin m.lv → ℝ => tableProb (n.probs (List.ofFn θ))) C x
        = normalProb (fun θ : Fin m.lv → ℝ => tableProb (m.probs (List.ofFn θ))) C x := by
  obtain ⟨n, h1, h2, h3, h4, h5, h6⟩ := C143_twoPL m hwf T hrel 0
  exact ⟨n, h1, h2, h3, h4, h5, fun x hx => (normalProb_turned hC hT h6 hx).symm⟩

/-- C157 for the generalized partial credit model. -/
theorem C157_gpc (m : GPC) (hwf : m.WF) {C T : Matrix (Fin m.lv) (Fin m.lv) ℝ} (hC : C.PosDef) (hT : T * C * T.transpose = C)
    (hrel : RespectsRelations m.rel T) :
    ∃ n : GPC, n.WF ∧ n.lv = m.lv ∧ n.cats = m.cats ∧ n.rel = m.rel ∧
      (∀ (j : ℕ) (k : Fin m.lv), j < m.cats.length → slopeOf n.itemParameters j k = ∑ l : Fin m.lv, slopeOf m.itemParameters j l * T l k) ∧
      ∀ x ∈ fullAnswers m.cats, normalProb (fun θ : Fin m.lv → ℝ => tableProb (n.probs (List.ofFn θ))) C x
        = normalProb (fun θ : Fin m.lv → ℝ => tableProb (m.probs (List.ofFn θ))) C x := by
  obtain ⟨n, h1, h2, h3, h4, h5, h6⟩ := C143_gpc m hwf T hrel 0
  exact ⟨n, h1, h2, h3, h4, h5, fun x hx => (normalProb_turned hC hT h6 hx).symm⟩

/-- C157 for the graded response model. -/
theorem C157_grm (m : GRM) (hwf : m.WF) {C T : Matrix (Fin m.lv) (Fin m.lv) ℝ} (hC : C.PosDef) (hT : T * C * T.transpose = C)
    (hrel : RespectsRelations m.rel T) :
    ∃ n : GRM, n.WF ∧ n.lv = m.lv ∧ n.cats = m.cats ∧ n.rel = m.rel ∧
      (∀ (j : ℕ) (k : Fin m.lv), j < m.cats.length → slopeOf n.itemParameters j k = ∑ l : Fin m.lv, slopeOf m.itemParameters j l * T l k) ∧
      (m.Ordered → n.Ordered) ∧
      ∀ x ∈ fullAnswers m.cats, normalProb (fun θ : Fin m.lv → ℝ => tableProb (n.probs (List.ofFn θ))) C x
        = normalProb (fun θ : Fin m.lv → ℝ => tableProb (m.probs (List.ofFn θ))) C x := by
  obtain ⟨n, h1, h2, h3, h4, h5, h6, h7⟩ := C143_grm m hwf T hrel 0
  exact ⟨n, h1, h2, h3, h4, h5, h6, fun x hx => (normalProb_turned hC hT h7 hx).symm⟩

/-- C157 for the nominal response model. -/
theorem C157_nrm (m : NRM) (hwf : m.WF) {C T : Matrix (Fin m.lv) (Fin m.lv) ℝ} (hC : C.PosDef) (hT : T * C * T.transpose = C)
    (hrel : RespectsRelations m.rel T) :
    ∃ n : NRM, n.WF ∧ n.lv = m.lv ∧ n.cats = m.cats ∧ n.rel = m.rel ∧
      SameOnNewScale m.cats T 0 (fun θ => tableProb (m.probs (List.ofFn θ))) (fun θ => tableProb (n.probs (List.ofFn θ))) ∧
      ∀ x ∈ fullAnswers m.cats, normalProb (fun θ : Fin m.lv → ℝ => tableProb (n.probs (List.ofFn θ))) C x
        = normalProb (fun θ : Fin m.lv → ℝ => tableProb (m.probs (List.ofFn θ))) C x := by
  obtain ⟨n, h1, h2, h3, h4, h6⟩ := C143_nrm m hwf T hrel 0
  exact ⟨n, h1, h2, h3, h4, h6, fun x hx => (normalProb_turned hC hT h6 hx).symm⟩

end Models

/-! ## Models without restrictions -/

theorem respects_all {d : ℕ} {rel : List (List Bool)} (hlen : ∀ r ∈ rel, r.length = d) (hall : ∀ r ∈ rel, ∀ b ∈ r, b = true)
    (T : Matrix (Fin d) (Fin d) ℝ) : RespectsRelations rel T := by
  intro j row l k hrow _ _
  have hm := List.mem_of_getElem? hrow
  obtain ⟨b, hb⟩ := getElem?_of_lt row k (by rw [hlen row hm]; exact k.2)
  rw [hb, hall row hm b (List.mem_of_getElem? hb)]

/-- C157: without restrictions on which item measures what, the standard normal population does not tell what an item measures. For every 2PL model, every
item and every latent variable there is a 2PL model with the same distribution of the answers in which this item measures this latent variable
only. -/
theorem C157_any_axis (m : TwoPL) (hwf : m.WF) (hall : ∀ r ∈ m.rel, ∀ b ∈ r, b = true) (j : ℕ) (hj : j < m.items) (k : Fin m.lv) :
    ∃ n : TwoPL, n.WF ∧ n.items = m.items ∧ n.lv = m.lv ∧ n.rel = m.rel ∧
      (∀ i : Fin m.lv, slopeOf n.itemParameters j i = if i = k then Real.sqrt (∑ l : Fin m.lv, slopeOf m.itemParameters j l ^ 2) else 0) ∧
      ∀ x ∈ fullAnswers (List.replicate m.items 2), normalProb (fun θ : Fin m.lv → ℝ => tableProb (n.probs (List.ofFn θ))) 1 x
        = normalProb (fun θ : Fin m.lv → ℝ => tableProb (m.probs (List.ofFn θ))) 1 x := by
  obtain ⟨T, hT, ha⟩ := exists_reflection (fun l : Fin m.lv => slopeOf m.itemParameters j l) k
  obtain ⟨n, h1, h2, h3, h4, h5, h6⟩ := C157_twoPL m hwf (C := 1) (T := T) Matrix.PosDef.one (by rw [mul_one, hT]) (respects_all hwf.relRow hall T)
  exact ⟨n, h1, h2, h3, h4, fun i => by rw [h5 j i hj, ha i], h6⟩

/-- The claim that the answers in a standard normal population determine the slopes of all 2PL models with `d` latent variables, up to signs. -/
def AnswersDetermineSlopes (d : ℕ) : Prop :=
  ∀ m n : TwoPL, m.WF → n.WF → m.lv = d → n.lv = d → n.items = m.items → n.rel = m.rel →
    (∀ x ∈ fullAnswers (List.replicate m.items 2), normalProb (fun θ : Fin d → ℝ => tableProb (n.probs (List.ofFn θ))) 1 x
      = normalProb (fun θ : Fin d → ℝ => tableProb (m.probs (List.ofFn θ))) 1 x) →
    ∀ j k : ℕ, j < m.items → k < d → |slopeOf n.itemParameters j k| = |slopeOf m.itemParameters j k|

/-- Three items that measure two latent variables: slopes 1 and 1, 1 and 2, 2 and 1. -/
def exTurn : TwoPL := { items := 3, lv := 2, rel := List.replicate 3 [true, true], weight := [1, 1, 1, 2, 2, 1], bias := [0, 1, -1] }

theorem exTurn_wf : exTurn.WF where
  relLen := rfl
  relRow := by decide
  weightLen := rfl
  biasLen := rfl

theorem exTurn_all : ∀ r ∈ exTurn.rel, ∀ b ∈ r, b = true := by decide

example := C157_any_axis exTurn exTurn_wf exTurn_all 1 (by decide) ⟨0, by decide⟩

/-- C157: with two latent variables the slopes are not determined. -/
theorem C157_slopes_false : ¬ AnswersDetermineSlopes 2 := by
  intro h
  obtain ⟨n, h1, h2, h3, h4, h5, h6⟩ := C157_any_axis exTurn exTurn_wf exTurn_all 0 (by decide) ⟨0, by decide⟩
  have := h exTurn n exTurn_wf h1 rfl h3 h2 h4 h6 0 1 (by decide) (by decide)
  have e := h5 ⟨1, by decide⟩
  rw [if_neg (by decide)] at e
  have e' : slopeOf n.itemParameters 0 1 = 0 := e
  have hs : slopeOf exTurn.itemParameters 0 1 = 1 := by
    simp [slopeOf, TwoPL.itemParameters, TwoPL.weights, exTurn, viewRows, scatterMask]
  rw [e', hs] at this
  norm_num at this

/-! ## Signs -/

theorem respects_diagonal {d : ℕ} (rel : List (List Bool)) (v : Fin d → ℝ) : RespectsRelations rel (Matrix.diagonal v) := by
  intro j row l k _ hl h0
  by_cases e : l = k
  · rw [← e]; exact hl
  · rw [Matrix.diagonal_apply_ne _ e] at h0
    exact absurd rfl h0

/-- C157: whatever items measure which latent variables, the signs of the slopes on any latent variables can be turned around. -/
theorem C157_signs (m : TwoPL) (hwf : m.WF) (v : Fin m.lv → ℝ) (hv : ∀ k, v k = 1 ∨ v k = -1) :
    ∃ n : TwoPL, n.WF ∧ n.items = m.items ∧ n.lv = m.lv ∧ n.rel = m.rel ∧
      (∀ (j : ℕ) (k : Fin m.lv), j < m.items → slopeOf n.itemParameters j k = v k * slopeOf m.itemParameters j k) ∧
      ∀ x ∈ fullAnswers (List.replicate m.items 2), normalProb (fun θ : Fin m.lv → ℝ => tableProb (n.probs (List.ofFn θ))) 1 x
        = normalProb (fun θ : Fin m.lv → ℝ => tableProb (m.probs (List.ofFn θ))) 1 x := by
  have hT : Matrix.diagonal v * 1 * (Matrix.diagonal v).transpose = 1 := by
    rw [mul_one, Matrix.diagonal_transpose, Matrix.diagonal_mul_diagonal, ← Matrix.diagonal_one]
    congr 1
    funext k
    rcases hv k with h | h <;> rw [h] <;> norm_num
  obtain ⟨n, h1, h2, h3, h4, h5, h6⟩ := C157_twoPL m hwf (C := 1) Matrix.PosDef.one hT (respects_diagonal m.rel v)
  refine ⟨n, h1, h2, h3, h4, fun j k hj => ?_, h6⟩
  rw [h5 j k hj]
  simp [Matrix.diagonal_apply, mul_comm]

/-- The second latent variable turned around. -/
noncomputable def exFlip : Matrix (Fin 2) (Fin 2) ℝ := Matrix.diagonal ![1, -1]

theorem exFlip_turned : exFlip * 1 * exFlip.transpose = 1 := by
  unfold exFlip
  ext i j
  fin_cases i <;> fin_cases j <;> simp

example := C157_signs exTurn exTurn_wf ![1, -1] (fun k => by fin_cases k; exacts [Or.inl rfl, Or.inr rfl])
example := C157_twoPL exTwoPL exTwoPL_wf (C := 1) (T := exFlip) Matrix.PosDef.one exFlip_turned (respects_diagonal _ _)
example := C157_gpc exGPC exGPC_wf (C := 1) (T := exFlip) Matrix.PosDef.one exFlip_turned (respects_diagonal _ _)
example := C157_grm exGRM exGRM_wf (C := 1) (T := exFlip) Matrix.PosDef.one exFlip_turned (respects_diagonal _ _)
example := C157_nrm exNRM exNRM_wf (C := 1) (T := exFlip) Matrix.PosDef.one exFlip_turned (respects_diagonal _ _)

end Irt
