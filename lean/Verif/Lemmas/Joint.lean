import Verif.Spec.Joint
import Verif.Lemmas.LogitModel
import Verif.Props.ScoreSearch

/-! # The joint loss of the one parameter logistic model as a sum over answers -/

namespace Irt

open Spec Finset

/-- Minus the log probability of a wrong answer at log odds `x`. -/
noncomputable def wrongLoss (x : ℝ) : ℝ := Real.log (1 + Real.exp x)

theorem wrongLoss_pos (x : ℝ) : 0 < wrongLoss x := Real.log_pos (by linarith [Real.exp_pos x])

theorem wrongLoss_lt (x : ℝ) : x < wrongLoss x := by
  unfold wrongLoss
  rw [Real.lt_log_iff_exp_lt (by positivity)]
  linarith

theorem wrongLoss_strictMono : StrictMono wrongLoss := fun x y h =>
  Real.log_lt_log (by positivity) (by linarith [Real.exp_lt_exp.2 h])

theorem wrongLoss_continuous : Continuous wrongLoss :=
  Continuous.log (by fun_prop) fun x => by positivity

theorem wrongLoss_mid (x y : ℝ) :
    2 * wrongLoss ((x + y) / 2) ≤ wrongLoss x + wrongLoss y ∧ (x ≠ y → 2 * wrongLoss ((x + y) / 2) < wrongLoss x + wrongLoss y) := by
  have ex : Real.exp x = Real.exp (x / 2) ^ 2 := by rw [← Real.exp_nat_mul]; congr 1; push_cast; ring
  have ey : Real.exp y = Real.exp (y / 2) ^ 2 := by rw [← Real.exp_nat_mul]; congr 1; push_cast; ring
  have em : Real.exp ((x + y) / 2) = Real.exp (x / 2) * Real.exp (y / 2) := by rw [← Real.exp_add]; congr 1; ring
  have e2 : 2 * wrongLoss ((x + y) / 2) = Real.log ((1 + Real.exp ((x + y) / 2)) ^ 2) := by
    rw [Real.log_pow]; rfl
  have e3 : wrongLoss x + wrongLoss y = Real.log ((1 + Real.exp x) * (1 + Real.exp y)) := by
    rw [Real.log_mul (by positivity) (by positivity)]; rfl
  have hp : 0 < Real.exp (x / 2) := Real.exp_pos _
  have hq : 0 < Real.exp (y / 2) := Real.exp_pos _
  rw [e2, e3, ex, ey, em]
  constructor
  · exact Real.log_le_log (by positivity) (by nlinarith [sq_nonneg (Real.exp (x / 2) - Real.exp (y / 2))])
  · intro hne
    have : Real.exp (x / 2) - Real.exp (y / 2) ≠ 0 := by
      rw [sub_ne_zero]
      intro h
      exact hne (by linarith [Real.exp_injective h])
    exact Real.log_lt_log (by positivity) (by nlinarith [sq_pos_of_ne_zero this])

theorem log_logistic (x : ℝ) : Real.log (logistic x) = -wrongLoss (-x) := by
  have : logistic x = (1 + Real.exp (-x))⁻¹ := by
    unfold logistic
    rw [Real.exp_neg]
    have := Real.exp_pos x
    field_simp
    ring
  rw [this, Real.log_inv]; rfl

theorem log_one_sub_logistic (x : ℝ) : Real.log (1 - logistic x) = -wrongLoss x := by
  have : 1 - logistic x = (1 + Real.exp x)⁻¹ := by
    unfold logistic
    have := Real.exp_pos x
    field_simp
    ring
  rw [this, Real.log_inv]; rfl

/-- Minus the log probability of an answer at log odds `x` of a right answer. -/
noncomputable def answerLoss (c : Cell) (x : ℝ) : ℝ := if c = some 1 then wrongLoss (-x) else if c = some 0 then wrongLoss x else 0

theorem answerLoss_nonneg (c : Cell) (x : ℝ) : 0 ≤ answerLoss c x := by
  unfold answerLoss
  split_ifs
  · exact (wrongLoss_pos _).le
  · exact (wrongLoss_pos _).le
  · exact le_rfl

theorem answerLoss_continuous (c : Cell) : Continuous (answerLoss c) := by
  unfold answerLoss
  split_ifs
  · exact wrongLoss_continuous.comp continuous_neg
  · exact wrongLoss_continuous
  · exact continuous_const

theorem answerLoss_mid (c : Cell) (x y : ℝ) :
    2 * answerLoss c ((x + y) / 2) ≤ answerLoss c x + answerLoss c y ∧
    (c = some 1 ∨ c = some 0 → x ≠ y → 2 * answerLoss c ((x + y) / 2) < answerLoss c x + answerLoss c y) := by
  have h := wrongLoss_mid (-x) (-y)
  have e : -((x + y) / 2) = (-x + -y) / 2 := by ring
  unfold answerLoss
  split_ifs with h1 h0
  · rw [e]
    exact ⟨h.1, fun _ hne => h.2 fun h' => hne (neg_injective h')⟩
  · exact ⟨(wrongLoss_mid x y).1, fun _ => (wrongLoss_mid x y).2⟩
  · exact ⟨by norm_num, fun h => by tauto⟩

/-- The joint loss as a function of abilities and intercepts. -/
noncomputable def raschLoss (N J : ℕ) (y : ℕ → ℕ → Cell) (t b : ℕ → ℝ) : ℝ :=
  ∑ i ∈ range N, ∑ j ∈ range J, answerLoss (y i j) (t i + b j)

/-- Every answer to the items is right, wrong or missing. -/
theorem valid_binary {J : ℕ} {row : ℕ → Cell} (h : ValidResponses (List.replicate J 2) row) (j : ℕ) (hj : j < J) :
    cellMissing (row j) = true ∧ row j ≠ some 1 ∧ row j ≠ some 0 ∨ row j = some 1 ∨ row j = some 0 := by
  cases hm : cellMissing (row j) with
  | true =>
    left
    refine ⟨rfl, ?_, ?_⟩ <;> intro h' <;> rw [h'] at hm <;> simp [cellMissing] at hm
  | false =>
    obtain ⟨r, hr, h2⟩ := h j 2 (by simp [hj]) hm
    interval_cases r
    · exact Or.inr (Or.inr hr)
    · exact Or.inr (Or.inl hr)

theorem onePLProb_eq (m : OnePL) (hwf : m.WF) (θ : Fin 1 → ℝ) (j : ℕ) (hj : j < m.items) :
    onePLProb m θ j 1 = logistic (θ 0 + m.itemParameters.getD j 0) ∧ onePLProb m θ j 0 = 1 - logistic (θ 0 + m.itemParameters.getD j 0) := by
  obtain ⟨b, hb⟩ := getElem?_of_lt m.itemParameters j (by rw [OnePL.itemParameters, hwf]; exact hj)
  unfold onePLProb
  rw [tableProb_row _ _ _ _ (C03_onePL_formula m hwf _ j b hb), tableProb_row _ _ _ _ (C03_onePL_formula m hwf _ j b hb),
    List.getD_eq_getElem?_getD, List.getD_eq_getElem?_getD, hb]
  simp

theorem logistic_pos' (x : ℝ) : 0 < logistic x ∧ 0 < 1 - logistic x := by
  have := Real.exp_pos x
  have e : 1 - logistic x = 1 / (1 + Real.exp x) := by unfold logistic; field_simp; ring
  rw [e]
  unfold logistic
  constructor <;> positivity

theorem jointLoss_onePL (m : OnePL) (hwf : m.WF) (N : ℕ) (y : ℕ → ℕ → Cell)
    (hy : ∀ i, i < N → ValidResponses (List.replicate m.items 2) (y i)) (θ : ℕ → Fin 1 → ℝ) :
    jointLoss (onePLProb m) m.items N y θ = raschLoss N m.items y (fun i => θ i 0) fun j => m.itemParameters.getD j 0 := by
  unfold jointLoss raschLoss
  rw [← sum_neg_distrib]
  refine sum_congr rfl fun i hi => ?_
  have hcell : ∀ j ∈ range m.items, (if cellMissing (y i j) then 1 else onePLProb m (θ i) j (responseOf (y i j))) ≠ 0 ∧
      Real.log (if cellMissing (y i j) then 1 else onePLProb m (θ i) j (responseOf (y i j)))
        = -answerLoss (y i j) (θ i 0 + m.itemParameters.getD j 0) := by
    intro j hj
    obtain ⟨h1, h0⟩ := onePLProb_eq m hwf (θ i) j (mem_range.1 hj)
    obtain ⟨p1, p0⟩ := logistic_pos' (θ i 0 + m.itemParameters.getD j 0)
    rcases valid_binary (hy i (mem_range.1 hi)) j (mem_range.1 hj) with ⟨h, hn1, hn0⟩ | h | h
    · rw [h]
      simp [answerLoss, hn1, hn0]
    · rw [h]
      simp only [cellMissing, responseOf, answerLoss, if_true]
      rw [show (1 : ℤ).toNat = 1 from rfl, h1]
      simpa [log_logistic] using p1.ne'
    · rw [h]
      simp only [cellMissing, responseOf, answerLoss]
      rw [show (0 : ℤ).toNat = 0 from rfl, h0]
      simpa [log_one_sub_logistic] using p0.ne'
  unfold observedLikelihood
  rw [Real.log_prod fun j hj => (hcell j hj).1, ← sum_neg_distrib]
  refine sum_congr rfl fun j hj => ?_
  rw [(hcell j hj).2, neg_neg]

theorem raschLoss_congr {N J : ℕ} {y : ℕ → ℕ → Cell} {t t' b b' : ℕ → ℝ} (h : ∀ i, i < N → ∀ j, j < J → t i + b j = t' i + b' j) :
    raschLoss N J y t b = raschLoss N J y t' b' :=
  sum_congr rfl fun i hi => sum_congr rfl fun j hj => by rw [h i (mem_range.1 hi) j (mem_range.1 hj)]

/-- The one parameter logistic model with given intercepts. -/
def OnePL.ofIntercepts (J : ℕ) (b : ℕ → ℝ) : OnePL := ⟨J, (List.range J).map b⟩

theorem OnePL.ofIntercepts_wf (J : ℕ) (b : ℕ → ℝ) : (OnePL.ofIntercepts J b).WF := by
  simp [OnePL.ofIntercepts, OnePL.WF]

theorem OnePL.ofIntercepts_getD (J : ℕ) (b : ℕ → ℝ) (j : ℕ) (hj : j < J) : (OnePL.ofIntercepts J b).itemParameters.getD j 0 = b j := by
  simp [OnePL.ofIntercepts, OnePL.itemParameters, hj]

theorem jointLoss_ofIntercepts (J N : ℕ) (y : ℕ → ℕ → Cell) (hy : ∀ i, i < N → ValidResponses (List.replicate J 2) (y i)) (t b : ℕ → ℝ) :
    jointLoss (onePLProb (OnePL.ofIntercepts J b)) J N y (fun i _ => t i) = raschLoss N J y t b := by
  refine (jointLoss_onePL (OnePL.ofIntercepts J b) (OnePL.ofIntercepts_wf J b) N y hy fun i _ => t i).trans ?_
  exact raschLoss_congr fun i _ j hj => by rw [OnePL.ofIntercepts_getD J b j hj]

theorem isJointMinimum_iff (m : OnePL) (hwf : m.WF) (N : ℕ) (y : ℕ → ℕ → Cell)
    (hy : ∀ i, i < N → ValidResponses (List.replicate m.items 2) (y i)) (θ : ℕ → Fin 1 → ℝ) :
    IsJointMinimum m N y θ ↔ ∀ t b, raschLoss N m.items y (fun i => θ i 0) (fun j => m.itemParameters.getD j 0) ≤ raschLoss N m.items y t b := by
  unfold IsJointMinimum
  rw [jointLoss_onePL m hwf N y hy]
  constructor
  · intro h t b
    have := h (OnePL.ofIntercepts m.items b) (OnePL.ofIntercepts_wf _ _) rfl fun i _ => t i
    rwa [jointLoss_ofIntercepts _ _ _ hy] at this
  · intro h m' hwf' hit θ'
    have := jointLoss_onePL m' hwf' N y (by rw [hit]; exact hy) θ'
    rw [hit] at this
    rw [this]
    exact h _ _

end Irt
