import Verif.Props.LinkLoss
import Verif.Props.Nested
import Verif.Lemmas.LogitModel
import Mathlib.Analysis.Complex.ExponentialBounds

/-! # C135: linking by common items finds the relation of the two scales -/

namespace Irt
open Finset

/-! ## Tables of probabilities as tensors -/

theorem probTensor_tables {cats : List ℕ} {M : ℕ} (t : ℝ → List (List ℝ)) (h : ∀ θ, IsTable cats M (t θ)) (N : ℕ) (x : ℕ → ℝ) :
    (List.range N).map (fun i => t (x i)) = probTensor N cats.length M fun i => tableProb (t (x i)) := by
  unfold probTensor
  refine List.map_congr_left fun i _ => ?_
  obtain ⟨hl, ht⟩ := h (x i)
  refine List.ext_getElem (by simp [hl]) fun j h1 h2 => ?_
  rw [List.getElem_map, List.getElem_range]
  have hj : j < cats.length := by omega
  have D := ht j _ _ (List.getElem?_eq_getElem h1) (List.getElem?_eq_getElem hj)
  refine List.ext_getElem (by simp [D.1]) fun c h3 h4 => ?_
  rw [List.getElem_map, List.getElem_range]
  show _ = tableProb (t (x i)) j c
  rw [tableProb_row _ _ _ _ (List.getElem?_eq_getElem h1), List.getD_eq_getElem _ _ h3]

theorem isProbTensor_tables {cats : List ℕ} {M : ℕ} (t : ℝ → List (List ℝ)) (h : ∀ θ, IsTable cats M (t θ)) (N : ℕ) (x : ℕ → ℝ) :
    IsProbTensor N cats.length M fun i => tableProb (t (x i)) := by
  intro i j _ hj
  obtain ⟨hl, ht⟩ := h (x i)
  have h1 : j < (t (x i)).length := by omega
  have D := ht j _ _ (List.getElem?_eq_getElem h1) (List.getElem?_eq_getElem hj)
  have e : ∀ c, tableProb (t (x i)) j c = (t (x i))[j].getD c 0 := fun c => tableProb_row _ _ _ _ (List.getElem?_eq_getElem h1)
  refine ⟨fun c hc => ?_, ?_⟩
  · dsimp only
    rw [e, List.getD_eq_getElem _ _ (by rw [D.1]; exact hc)]
    exact D.2 _ (List.getElem_mem _)
  · dsimp only
    rw [← D.sum_one, ← Fin.sum_univ_getElem, Finset.sum_congr rfl fun c _ => e c, ← D.1, Finset.sum_range]
    exact Finset.sum_congr rfl fun c _ => List.getD_eq_getElem _ _ c.2

/-! ## From the loss to the probabilities -/

theorem sq_of_sqrt (p q : ℝ) (hp : 0 ≤ p) (hp1 : p ≤ 1) (hq : 0 ≤ q) (hq1 : q ≤ 1) :
    (q - p) ^ 2 ≤ 10 * (Real.sqrt p - Real.sqrt (q + 1e-10)) ^ 2 + 2 * 1e-10 ^ 2 := by
  have e1 := Real.sq_sqrt hp
  have e2 := Real.sq_sqrt (show 0 ≤ q + 1e-10 by positivity)
  set a := Real.sqrt p
  set b := Real.sqrt (q + 1e-10)
  have h1 : q - p = -((a - b) * (a + b)) - 1e-10 := by
    have : (a - b) * (a + b) = a ^ 2 - b ^ 2 := by ring
    rw [this, e1, e2]; ring
  have h2 : (a + b) ^ 2 ≤ 5 := by nlinarith [sq_nonneg (a - b)]
  rw [h1]
  nlinarith [mul_le_mul_of_nonneg_left h2 (sq_nonneg (a - b)), sq_nonneg ((a - b) * (a + b) - 1e-10)]

theorem averageOver_scale (N : ℕ) (pairs : List (ℕ × ℕ)) (f : ℕ → ℕ × ℕ → ℝ) (k : ℝ) :
    averageOver N pairs (fun i p => k * f i p) = k * averageOver N pairs f := by
  unfold averageOver
  simp only [List.sum_map_mul_left, ← Finset.mul_sum]
  ring

/-- C135: suppose the common items have the same curves in both models when the scale of the first is changed by `g`. Then every
linking function `f` that is worse than `g` by at most `η` gives the common items, on average over respondents and items, the right
probabilities: the mean over respondents and items of the squared differences is at most `10 η + 11 M 1e-10`. -/
theorem C135_probabilities {catsF catsT : List ℕ} {M : ℕ} (tF tT : ℝ → List (List ℝ)) (hF : ∀ θ, IsTable catsF M (tF θ))
    (hT : ∀ θ, IsTable catsT M (tT θ)) (N : ℕ) (hN : 0 < N) (x : ℕ → ℝ) (pairs : List (ℕ × ℕ)) (hne : pairs ≠ [])
    (hpairs : ∀ p ∈ pairs, p.1 < catsF.length ∧ p.2 < catsT.length) (g f : ℝ → ℝ)
    (hg : ∀ i, i < N → ∀ p ∈ pairs, ∀ c, tableProb (tF (x i)) p.1 c = tableProb (tT (g (x i))) p.2 c) (lf lg η : ℝ)
    (hlf : linkLoss M M ((List.range N).map fun i => tF (x i)) ((List.range N).map fun i => tT (f (x i))) (pairs.map Prod.fst)
      (pairs.map Prod.snd) = .ok lf)
    (hlg : linkLoss M M ((List.range N).map fun i => tF (x i)) ((List.range N).map fun i => tT (g (x i))) (pairs.map Prod.fst)
      (pairs.map Prod.snd) = .ok lg) (hle : lf ≤ lg + η) :
    averageOver N pairs (fun i p => ∑ c ∈ range M, (tableProb (tT (f (x i))) p.2 c - tableProb (tT (g (x i))) p.2 c) ^ 2)
      ≤ 10 * η + 11 * (M * 1e-10) := by
  rw [probTensor_tables tF hF N x, probTensor_tables tT hT N fun i => f (x i)] at hlf
  rw [probTensor_tables tF hF N x, probTensor_tables tT hT N fun i => g (x i)] at hlg
  have hPF := isProbTensor_tables tF hF N x
  have hPf := isProbTensor_tables tT hT N fun i => f (x i)
  have hPg := isProbTensor_tables tT hT N fun i => g (x i)
  have hb := (C82_bounds_distance N _ _ M hN _ _ hPF hPf pairs hne hpairs lf hlf).1
  obtain ⟨l0, h0, hl0⟩ := C82_equal N _ _ M _ _ hPF hPg pairs hpairs fun i c hi _ p hp => hg i hi p hp c
  have hlg0 : lg ≤ 0 := by
    rw [h0] at hlg
    rw [← Except.ok.inj hlg]
    exact hl0
  have hone : ∀ (Q : ℕ → ℕ → ℕ → ℝ) (n : ℕ), IsProbTensor N n M Q → ∀ i j c : ℕ, i < N → j < n → c < M → Q i j c ≤ 1 := by
    intro Q n hQ i j c hi hj hc
    obtain ⟨h1, h2⟩ := hQ i j hi hj
    rw [← h2]
    exact Finset.single_le_sum (f := Q i j) (fun k hk => h1 k (Finset.mem_range.1 hk)) (Finset.mem_range.2 hc)
  have hcell : averageOver N pairs (fun i p => ∑ c ∈ range M, (tableProb (tT (f (x i))) p.2 c - tableProb (tT (g (x i))) p.2 c) ^ 2)
      ≤ averageOver N pairs (fun i p => 10 * hellingerSq M (tableProb (tF (x i)) p.1) (fun c => tableProb (tT (f (x i))) p.2 c + 1e-10)
          + M * (2 * 1e-10 ^ 2)) := by
    refine averageOver_mono fun i hi p hp => ?_
    unfold hellingerSq
    rw [Finset.mul_sum, ← nsmul_eq_mul, ← Finset.card_range M, ← Finset.sum_const, Finset.card_range, ← Finset.sum_add_distrib]
    refine Finset.sum_le_sum fun c hc => ?_
    have hc' := Finset.mem_range.1 hc
    rw [← hg i hi p hp c]
    exact sq_of_sqrt _ _ ((hPF i p.1 hi (hpairs p hp).1).1 c hc') (hone _ _ hPF i p.1 c hi (hpairs p hp).1 hc')
      ((hPf i p.2 hi (hpairs p hp).2).1 c hc') (hone _ _ hPf i p.2 c hi (hpairs p hp).2 hc')
  rw [averageOver_const hN hne, averageOver_scale] at hcell
  have hM : (0 : ℝ) ≤ M := Nat.cast_nonneg M
  refine hcell.trans ?_
  nlinarith

/-- C135: no linking function is better than the true relation by more than `M 1e-10`. -/
theorem C135_true_link {catsF catsT : List ℕ} {M : ℕ} (tF tT : ℝ → List (List ℝ)) (hF : ∀ θ, IsTable catsF M (tF θ))
    (hT : ∀ θ, IsTable catsT M (tT θ)) (N : ℕ) (hN : 0 < N) (x : ℕ → ℝ) (pairs : List (ℕ × ℕ)) (hne : pairs ≠ [])
    (hpairs : ∀ p ∈ pairs, p.1 < catsF.length ∧ p.2 < catsT.length) (g f : ℝ → ℝ)
    (hg : ∀ i, i < N → ∀ p ∈ pairs, ∀ c, tableProb (tF (x i)) p.1 c = tableProb (tT (g (x i))) p.2 c) :
    ∃ lf lg, linkLoss M M ((List.range N).map fun i => tF (x i)) ((List.range N).map fun i => tT (f (x i))) (pairs.map Prod.fst)
        (pairs.map Prod.snd) = .ok lf ∧
      linkLoss M M ((List.range N).map fun i => tF (x i)) ((List.range N).map fun i => tT (g (x i))) (pairs.map Prod.fst)
        (pairs.map Prod.snd) = .ok lg ∧ lg ≤ lf + M * 1e-10 := by
  rw [probTensor_tables tF hF N x, probTensor_tables tT hT N fun i => f (x i), probTensor_tables tT hT N fun i => g (x i)]
  have hPF := isProbTensor_tables tF hF N x
  have hPf := isProbTensor_tables tT hT N fun i => f (x i)
  have hPg := isProbTensor_tables tT hT N fun i => g (x i)
  obtain ⟨lg, h0, hl0⟩ := C82_equal N _ _ M _ _ hPF hPg pairs hpairs fun i c hi _ p hp => hg i hi p hp c
  have hval := C82_value N catsF.length catsT.length M (fun i => tableProb (tF (x i))) _ hPf pairs hpairs
  have hb := (C82_bounds_distance N _ _ M hN _ _ hPF hPf pairs hne hpairs _ hval).2
  exact ⟨_, lg, hval, h0, by linarith⟩

/-! ## From the probabilities to the scores -/

theorem logistic_neg (x : ℝ) : logistic (-x) = 1 - logistic x := by
  unfold logistic
  rw [Real.exp_neg]
  field_simp
  ring

theorem logistic_sub (a b : ℝ) : logistic b - logistic a = logistic b * (1 - logistic a) * (1 - Real.exp (a - b)) := by
  unfold logistic
  have ha := Real.exp_pos a
  have hb := Real.exp_pos b
  rw [Real.exp_sub]
  field_simp
  ring

theorem one_sub_exp_ge (h : ℝ) (h0 : 0 ≤ h) : min h 1 / 2 ≤ 1 - Real.exp (-h) := by
  have hm : 0 ≤ min h 1 := le_min h0 zero_le_one
  have hm1 : min h 1 ≤ 1 := min_le_right _ _
  have h1 : Real.exp (-h) ≤ Real.exp (-(min h 1)) := Real.exp_le_exp.2 (neg_le_neg (min_le_left _ _))
  have h2 : Real.exp (-(min h 1)) * (1 + min h 1) ≤ 1 := by
    have h3 := Real.add_one_le_exp (min h 1)
    calc Real.exp (-(min h 1)) * (1 + min h 1) ≤ Real.exp (-(min h 1)) * Real.exp (min h 1) :=
          mul_le_mul_of_nonneg_left (by linarith) (Real.exp_pos _).le
      _ = 1 := by rw [← Real.exp_add]; simp
  nlinarith [Real.exp_pos (-(min h 1))]

/-- Different arguments give different values of the logistic function. -/
theorem logistic_apart (L a b : ℝ) (ha : |a| ≤ L) : logistic (-L) ^ 2 * (min |b - a| 1 / 2) ≤ |logistic b - logistic a| := by
  have hmono := logistic_strictMono.monotone
  have hL := logistic_pos (-L)
  have ha' := abs_le.1 ha
  have l1 : logistic (-L) ≤ logistic a := hmono (by linarith)
  have l2 : logistic (-L) ≤ 1 - logistic a := by rw [← logistic_neg]; exact hmono (by linarith)
  rcases le_total a b with h | h
  · rw [logistic_sub, abs_of_nonneg (sub_nonneg.2 h)]
    have l3 : logistic (-L) ≤ logistic b := l1.trans (hmono h)
    have l4 := one_sub_exp_ge (b - a) (sub_nonneg.2 h)
    rw [show -(b - a) = a - b by ring] at l4
    have hm : 0 ≤ min (b - a) 1 / 2 := div_nonneg (le_min (sub_nonneg.2 h) zero_le_one) two_pos.le
    refine le_trans ?_ (le_abs_self _)
    rw [pow_two]
    exact mul_le_mul (mul_le_mul l3 l2 hL.le (hL.le.trans l3)) l4 hm (mul_nonneg (hL.le.trans l3) (hL.le.trans l2))
  · rw [abs_sub_comm (logistic b), logistic_sub, abs_sub_comm b a, abs_of_nonneg (sub_nonneg.2 h)]
    have l3 : logistic (-L) ≤ 1 - logistic b := l2.trans (by linarith [hmono h])
    have l4 := one_sub_exp_ge (a - b) (sub_nonneg.2 h)
    rw [show -(a - b) = b - a by ring] at l4
    have hm : 0 ≤ min (a - b) 1 / 2 := div_nonneg (le_min (sub_nonneg.2 h) zero_le_one) two_pos.le
    refine le_trans ?_ (le_abs_self _)
    rw [pow_two]
    exact mul_le_mul (mul_le_mul l1 l3 hL.le (hL.le.trans l1)) l4 hm (mul_nonneg (hL.le.trans l1) (hL.le.trans l3))

/-- The share of the respondents whose linked score is off by `δ` or more. -/
noncomputable def shareOff (N : ℕ) (x : ℕ → ℝ) (f g : ℝ → ℝ) (δ : ℝ) : ℝ :=
  (((range N).filter fun i => δ ≤ |f (x i) - g (x i)|).card : ℝ) / N

/-- The common items of two two-parameter logistic models with one latent variable have the same curves if the score `θ` of the first
model is the score `A θ + B` of the second. -/
def SameCurves (mF mT : TwoPL) (pairs : List (ℕ × ℕ)) (A B : ℝ) : Prop :=
  ∀ p ∈ pairs, ∃ a b, mT.itemParameters[p.2]? = some ([a], b) ∧ mF.itemParameters[p.1]? = some ([a * A], a * B + b)

theorem twoPL_prob (m : TwoPL) (hwf : m.WF) (θ a b : ℝ) (j : ℕ) (h : m.itemParameters[j]? = some ([a], b)) (c : ℕ) :
    tableProb (m.probs [θ]) j c = [1 - logistic (θ * a + b), logistic (θ * a + b)].getD c 0 := by
  rw [tableProb_row _ _ _ _ (C03_twoPL_formula m hwf [θ] j [a] b h)]
  simp [dot]

/-- C135: the scores on the two scales. A linking function `f` that is fitted to the scores `x` of `N` respondents, and whose loss is
at most `η` above that of the true relation `A θ + B`, is right up to less than `δ` for all but a small share of the respondents: at
most `K (10 η + 22e-10) / (2 s^2)` for `K` common items, where `s = logistic(-L)^2 * min(|a| δ, 1) / 2` for a common item of slope `a` on
which the logits of the respondents are at most `L` in absolute value. -/
theorem C135_twoPL (mF mT : TwoPL) (hF : mF.WF) (hT : mT.WF) (pairs : List (ℕ × ℕ)) (A B : ℝ) (hsame : SameCurves mF mT pairs A B)
    (N : ℕ) (hN : 0 < N) (x : ℕ → ℝ) (f : ℝ → ℝ) (lf lg η : ℝ)
    (hlf : linkLoss 2 2 ((List.range N).map fun i => mF.probs [x i]) ((List.range N).map fun i => mT.probs [f (x i)])
      (pairs.map Prod.fst) (pairs.map Prod.snd) = .ok lf)
    (hlg : linkLoss 2 2 ((List.range N).map fun i => mF.probs [x i]) ((List.range N).map fun i => mT.probs [A * x i + B])
      (pairs.map Prod.fst) (pairs.map Prod.snd) = .ok lg) (hle : lf ≤ lg + η)
    (p : ℕ × ℕ) (hp : p ∈ pairs) (a b : ℝ) (hab : mT.itemParameters[p.2]? = some ([a], b)) (ha : a ≠ 0) (L : ℝ)
    (hL : ∀ i, i < N → |a * (A * x i + B) + b| ≤ L) (δ : ℝ) (hδ : 0 < δ) :
    shareOff N x f (fun θ => A * θ + B) δ
      ≤ pairs.length * (10 * η + 22e-10) / (2 * (logistic (-L) ^ 2 * (min (|a| * δ) 1 / 2)) ^ 2) := by
  have hlenF : mF.itemParameters.length ≤ (List.replicate mF.items 2).length := by
    simp [TwoPL.itemParameters, TwoPL.weights, length_viewRows]
  have hlenT : mT.itemParameters.length ≤ (List.replicate mT.items 2).length := by
    simp [TwoPL.itemParameters, TwoPL.weights, length_viewRows]
  have havg := C135_probabilities (fun θ => mF.probs [θ]) (fun θ => mT.probs [θ]) (fun θ => isTable_twoPL mF hF [θ])
    (fun θ => isTable_twoPL mT hT [θ]) N hN x pairs (List.ne_nil_of_mem hp)
    (fun q hq => by
      obtain ⟨a', b', h1, h2⟩ := hsame q hq
      exact ⟨(lt_of_getElem?_some h2).trans_le hlenF, (lt_of_getElem?_some h1).trans_le hlenT⟩)
    (fun θ => A * θ + B) f
    (fun i _ q hq c => by
      obtain ⟨a', b', h1, h2⟩ := hsame q hq
      rw [twoPL_prob mF hF _ _ _ _ h2, twoPL_prob mT hT _ _ _ _ h1, show x i * (a' * A) + (a' * B + b') = (A * x i + B) * a' + b' by ring])
    lf lg η hlf hlg hle
  set s := logistic (-L) ^ 2 * (min (|a| * δ) 1 / 2) with hs
  have hs0 : 0 < s := mul_pos (pow_pos (logistic_pos _) 2) (div_pos (lt_min (mul_pos (abs_pos.2 ha) hδ) one_pos) two_pos)
  have hK : (0 : ℝ) < pairs.length := by exact_mod_cast List.length_pos_of_mem hp
  have hN' : (0 : ℝ) < N := by exact_mod_cast hN
  have hlow : ((range N).filter fun i => δ ≤ |f (x i) - (A * x i + B)|).card * (2 * s ^ 2)
      ≤ ∑ i ∈ range N, (pairs.map fun q => ∑ c ∈ range 2, (tableProb (mT.probs [f (x i)]) q.2 c - tableProb (mT.probs [A * x i + B]) q.2 c) ^ 2).sum := by
    have hnn : ∀ i q, 0 ≤ ∑ c ∈ range 2, (tableProb (mT.probs [f (x i)]) q c - tableProb (mT.probs [A * x i + B]) q c) ^ 2 :=
      fun i q => Finset.sum_nonneg fun c _ => sq_nonneg _
    rw [← nsmul_eq_mul, ← Finset.sum_const]
    refine (Finset.sum_le_sum fun i hi => ?_).trans (Finset.sum_le_sum_of_subset_of_nonneg (Finset.filter_subset _ _) fun i _ _ => ?_)
    · obtain ⟨hi1, hi2⟩ := Finset.mem_filter.1 hi
      have hone : ∑ c ∈ range 2, (tableProb (mT.probs [f (x i)]) p.2 c - tableProb (mT.probs [A * x i + B]) p.2 c) ^ 2
          ≤ (pairs.map fun q => ∑ c ∈ range 2, (tableProb (mT.probs [f (x i)]) q.2 c - tableProb (mT.probs [A * x i + B]) q.2 c) ^ 2).sum :=
        List.single_le_sum (fun y hy => by
          obtain ⟨q, -, rfl⟩ := List.mem_map.1 hy
          exact hnn i q.2) _ (List.mem_map.2 ⟨p, hp, rfl⟩)
      refine le_trans ?_ hone
      rw [Finset.sum_range_succ, Finset.sum_range_one, twoPL_prob mT hT _ _ _ _ hab, twoPL_prob mT hT _ _ _ _ hab,
        twoPL_prob mT hT _ _ _ _ hab, twoPL_prob mT hT _ _ _ _ hab]
      simp only [List.getD_cons_zero, List.getD_cons_succ]
      have hap := logistic_apart L ((A * x i + B) * a + b) (f (x i) * a + b)
        (by rw [mul_comm]; exact hL i (Finset.mem_range.1 hi1))
      have hdist : |a| * δ ≤ |f (x i) * a + b - ((A * x i + B) * a + b)| := by
        rw [show f (x i) * a + b - ((A * x i + B) * a + b) = a * (f (x i) - (A * x i + B)) by ring, abs_mul]
        exact mul_le_mul_of_nonneg_left hi2 (abs_nonneg _)
      have hsle : s ≤ |logistic (f (x i) * a + b) - logistic ((A * x i + B) * a + b)| := by
        refine le_trans ?_ hap
        refine mul_le_mul_of_nonneg_left ?_ (by positivity)
        have := min_le_min_right 1 hdist
        linarith
      have hsq := pow_le_pow_left₀ hs0.le hsle 2
      rw [sq_abs] at hsq
      nlinarith
    · exact List.sum_nonneg fun y hy => by
        obtain ⟨q, -, rfl⟩ := List.mem_map.1 hy
        exact hnn i q.2
  unfold averageOver at havg
  rw [div_le_iff₀ (by positivity)] at havg
  unfold shareOff
  rw [div_le_div_iff₀ hN' (by positivity)]
  refine hlow.trans (havg.trans (le_of_eq ?_))
  push_cast
  ring

/-! ## An example -/

/-- A model of two items on one scale. -/
noncomputable def exLinkFrom : TwoPL := { items := 2, lv := 1, rel := [[true], [true]], weight := [5, 2], bias := [7, 1] }

/-- A model of two items on another scale. Its first item is the second of `exLinkFrom` if the scores of that model are doubled and
increased by one. -/
noncomputable def exLinkTo : TwoPL := { items := 2, lv := 1, rel := [[true], [true]], weight := [1, 3], bias := [0, 4] }

theorem exLinkFrom_wf : exLinkFrom.WF where
  relLen := by simp [exLinkFrom]
  relRow := by simp [exLinkFrom]
  weightLen := by simp [exLinkFrom, countTrue]
  biasLen := by simp [exLinkFrom]

theorem exLinkTo_wf : exLinkTo.WF where
  relLen := by simp [exLinkTo]
  relRow := by simp [exLinkTo]
  weightLen := by simp [exLinkTo, countTrue]
  biasLen := by simp [exLinkTo]

theorem exLink_to : exLinkTo.itemParameters[0]? = some ([1], 0) := by
  simp [TwoPL.itemParameters, TwoPL.weights, exLinkTo, viewRows, scatterMask]

theorem exLink_from : exLinkFrom.itemParameters[1]? = some ([2], 1) := by
  simp [TwoPL.itemParameters, TwoPL.weights, exLinkFrom, viewRows, scatterMask]

theorem exLink_same : SameCurves exLinkFrom exLinkTo [(1, 0)] 2 1 := by
  intro p hp
  rw [List.mem_singleton.1 hp]
  exact ⟨1, 0, exLink_to, by rw [exLink_from]; norm_num⟩

/-- Respondents with scores from -1 to 0: a link that is at least as good as the true one is off by 0.01 or more for at most 2 % of them. -/
theorem exLink_share (N : ℕ) (hN : 0 < N) (x : ℕ → ℝ) (hx : ∀ i, i < N → -1 ≤ x i ∧ x i ≤ 0) (f : ℝ → ℝ) (lf lg : ℝ)
    (hlf : linkLoss 2 2 ((List.range N).map fun i => exLinkFrom.probs [x i]) ((List.range N).map fun i => exLinkTo.probs [f (x i)])
      [1] [0] = .ok lf)
    (hlg : linkLoss 2 2 ((List.range N).map fun i => exLinkFrom.probs [x i]) ((List.range N).map fun i => exLinkTo.probs [2 * x i + 1])
      [1] [0] = .ok lg) (hle : lf ≤ lg) : shareOff N x f (fun θ => 2 * θ + 1) (1 / 100) ≤ 2 / 100 := by
  have h := C135_twoPL exLinkFrom exLinkTo exLinkFrom_wf exLinkTo_wf [(1, 0)] 2 1 exLink_same N hN x f lf lg 0 hlf hlg (by linarith)
    (1, 0) (by simp) 1 0 exLink_to one_ne_zero 1 (fun i hi => abs_le.2 ⟨by linarith [hx i hi], by linarith [hx i hi]⟩) (1 / 100) (by norm_num)
  refine h.trans ?_
  have h1 : (1 : ℝ) / 4 ≤ logistic (-1) := by
    rw [logistic_neg]
    have : logistic 1 ≤ 3 / 4 := by
      unfold logistic
      rw [div_le_div_iff₀ (by positivity) (by norm_num)]
      linarith [Real.exp_one_lt_three]
    linarith
  have h2 : (1 / 4 : ℝ) ^ 2 * (1 / 100 / 2) ≤ logistic (-1) ^ 2 * (min (|1| * (1 / 100)) 1 / 2) := by
    rw [abs_one, one_mul, min_eq_left (by norm_num)]
    exact mul_le_mul_of_nonneg_right (pow_le_pow_left₀ (by norm_num) h1 2) (by norm_num)
  rw [div_le_iff₀ (by positivity)]
  have h3 := pow_le_pow_left₀ (by norm_num) h2 2
  norm_num at h3 ⊢
  linarith

/-- The hypotheses are met, for instance by the true link itself. -/
example : ∃ lg, linkLoss 2 2 ((List.range 5).map fun i => exLinkFrom.probs [-(i : ℝ) / 5])
    ((List.range 5).map fun i => exLinkTo.probs [2 * (-(i : ℝ) / 5) + 1]) [1] [0] = .ok lg := by
  obtain ⟨-, lg, -, h, -⟩ := C135_true_link (fun θ => exLinkFrom.probs [θ]) (fun θ => exLinkTo.probs [θ])
    (fun θ => isTable_twoPL exLinkFrom exLinkFrom_wf [θ]) (fun θ => isTable_twoPL exLinkTo exLinkTo_wf [θ]) 5 (by norm_num)
    (fun i => -(i : ℝ) / 5) [(1, 0)] (by simp) (by simp [exLinkFrom, exLinkTo]) (fun θ => 2 * θ + 1) id
    (fun i _ q hq c => by
      rw [List.mem_singleton.1 hq, twoPL_prob _ exLinkFrom_wf _ _ _ _ exLink_from, twoPL_prob _ exLinkTo_wf _ _ _ _ exLink_to]
      rw [mul_one, add_zero, mul_comm])
  exact ⟨lg, h⟩

end Irt
