import Verif.Props.BitPath
import Verif.Lemmas.MonoModels
import Mathlib.Analysis.SpecialFunctions.Log.Deriv
import Mathlib.Analysis.Calculus.Deriv.Add

/-! # C30: `Bit.jacobian` -/

namespace Irt

/-- `grads` holds the derivatives of the item probabilities of a model with one latent variable, in rows of
the same lengths. -/
structure GradsOf (probs grads : (Fin 1 → ℝ) → List (List ℝ)) : Prop where
  items : ∀ t t', (probs t).length = (probs t').length
  cats : ∀ t t' i, ((probs t).getD i []).length = ((probs t').getD i []).length
  rows : ∀ t, (grads t).length = (probs t).length
  cols : ∀ t i, ((grads t).getD i []).length = ((probs t).getD i []).length
  deriv : ∀ t i j, HasDerivAt (fun x => ((probs fun _ => x).getD i []).getD j 0) (((grads t).getD i []).getD j 0) (t 0)

/-- Every item has a distribution with positive probabilities, apart from padded categories whose
probability is zero everywhere. -/
structure PositiveOrPadded (probs : (Fin 1 → ℝ) → List (List ℝ)) : Prop where
  sums : ∀ t, ∀ p ∈ probs t, p.sum = 1
  pos : ∀ i j, (∀ t, 0 < ((probs t).getD i []).getD j 0) ∨ ∀ t, ((probs t).getD i []).getD j 0 = 0

theorem range_map_getD {α : Type*} (l : List α) (a : α) : (List.range l.length).map (fun j => l.getD j a) = l := by
  apply List.ext_getElem
  · simp
  · intro i h1 h2
    rw [List.getElem_map, List.getElem_range, List.getD_eq_getElem _ _ h2]

theorem sum_eq_finset_getD (l : List ℝ) (n : ℕ) (h : l.length = n) : l.sum = ∑ j ∈ Finset.range n, l.getD j 0 := by
  subst h
  conv_lhs => rw [show l = (List.range l.length).map (fun j => l.getD j 0) from (range_map_getD l 0).symm]
  rw [list_sum_range]

theorem shannon_hasDerivAt {probs grads : (Fin 1 → ℝ) → List (List ℝ)} (hg : GradsOf probs grads)
    (hp : PositiveOrPadded probs) (t : Fin 1 → ℝ) (i : ℕ) (hi : i < (probs t).length) :
    HasDerivAt (fun x => shannonEntropy ((probs fun _ => x).getD i []))
      (-(List.zipWith entropyGradTerm ((probs t).getD i []) ((grads t).getD i [])).sum) (t 0) := by
  set n := ((probs t).getD i []).length with hn
  have hlen : ∀ t', ((probs t').getD i []).length = n := fun t' => hg.cats t' t i
  have hsum : ∀ t', (∑ j ∈ Finset.range n, ((probs t').getD i []).getD j 0) = 1 := by
    intro t'
    rw [← sum_eq_finset_getD _ _ (hlen t')]
    apply hp.sums t'
    have hi' : i < (probs t').length := by rw [hg.items t' t]; exact hi
    rw [List.getD_eq_getElem _ _ hi']
    exact List.getElem_mem _
  have hgsum : (∑ j ∈ Finset.range n, ((grads t).getD i []).getD j 0) = 0 := by
    have h1 : HasDerivAt (fun x => ∑ j ∈ Finset.range n, ((probs fun _ => x).getD i []).getD j 0)
        (∑ j ∈ Finset.range n, ((grads t).getD i []).getD j 0) (t 0) :=
      HasDerivAt.fun_sum fun j _ => hg.deriv t i j
    have h2 : (fun x : ℝ => ∑ j ∈ Finset.range n, ((probs fun _ => x).getD i []).getD j 0) = fun _ => (1 : ℝ) := by
      funext x
      exact hsum _
    rw [h2] at h1
    exact h1.unique (hasDerivAt_const _ _)
  have hform : (fun x => shannonEntropy ((probs fun _ => x).getD i []))
      = fun x => ∑ j ∈ Finset.range n, -(((probs fun _ => x).getD i []).getD j 0 *
          (Real.log (((probs fun _ => x).getD i []).getD j 0) / Real.log 2)) := by
    funext x
    unfold shannonEntropy
    rw [sum_eq_finset_getD _ n (by rw [List.length_map, hlen])]
    apply Finset.sum_congr rfl
    intro j hj
    have hj' : j < ((probs fun _ => x).getD i []).length := by rw [hlen]; exact Finset.mem_range.1 hj
    rw [List.getD_eq_getElem _ _ (by simpa using hj'), List.getElem_map, List.getD_eq_getElem _ _ hj']
  rw [hform]
  have ht : (fun _ : Fin 1 => t 0) = t := by funext k; rw [Subsingleton.elim k 0]
  have hterm : ∀ j, HasDerivAt (fun x => -(((probs fun _ => x).getD i []).getD j 0 *
          (Real.log (((probs fun _ => x).getD i []).getD j 0) / Real.log 2)))
      (-(entropyGradTerm (((probs t).getD i []).getD j 0) (((grads t).getD i []).getD j 0)
        + ((grads t).getD i []).getD j 0 / Real.log 2)) (t 0) := by
    intro j
    rcases hp.pos i j with h | h
    · have hd := hg.deriv t i j
      have hpos := h (fun _ => t 0)
      have := (hd.mul ((hd.log hpos.ne').div_const (Real.log 2))).neg
      refine this.congr_deriv ?_
      rw [ht] at hpos ⊢
      unfold entropyGradTerm
      rw [if_neg hpos.ne']
      field_simp
    · have hz : ((grads t).getD i []).getD j 0 = 0 := by
        have hd := hg.deriv t i j
        have h0 : (fun x : ℝ => ((probs fun _ => x).getD i []).getD j 0) = fun _ => 0 := by
          funext x
          exact h _
        rw [h0] at hd
        exact hd.unique (hasDerivAt_const _ _)
      rw [hz]
      have h0 : (fun x : ℝ => -(((probs fun _ => x).getD i []).getD j 0 *
          (Real.log (((probs fun _ => x).getD i []).getD j 0) / Real.log 2))) = fun _ => 0 := by
        funext x
        rw [h]
        simp
      rw [h0]
      refine (hasDerivAt_const _ _).congr_deriv ?_
      unfold entropyGradTerm
      simp
  refine (HasDerivAt.fun_sum fun j (_ : j ∈ Finset.range n) => hterm j).congr_deriv ?_
  rw [Finset.sum_neg_distrib, Finset.sum_add_distrib, ← Finset.sum_div, hgsum, zero_div, add_zero]
  congr 1
  rw [sum_eq_finset_getD _ n (by rw [List.length_zipWith, hg.cols, ← hn, min_self])]
  apply Finset.sum_congr rfl
  intro j hj
  have hj1 : j < ((probs t).getD i []).length := Finset.mem_range.1 hj
  have hj2 : j < ((grads t).getD i []).length := by rw [hg.cols]; exact hj1
  rw [List.getD_eq_getElem _ 0 hj1, List.getD_eq_getElem _ 0 hj2,
    List.getD_eq_getElem _ 0 (by rw [List.length_zipWith]; omega), List.getElem_zipWith]

/-- With all items of a one-dimensional model, in order, the Jacobian is the sum of the absolute derivatives
of the item entropies, with the sign of the orientation. Missing: proper subsets of the items, for which the
claim is false (`C30_false`, `C30_one_item_false`), and several latent variables, which are refused. -/
theorem C30_all_items_partial (b : Bit 1) (grads : (Fin 1 → ℝ) → List (List ℝ)) (hg : GradsOf b.probs grads)
    (hp : PositiveOrPadded b.probs) (hitems : ∀ t, b.items = List.range (b.probs t).length) (θ : Thetas 1) :
    b.jacobian grads θ = .ok (θ.map fun t => Matrix.of fun _ _ => b.multiplier 0 *
      (b.items.map fun i => |deriv (fun x => shannonEntropy ((b.probs fun _ => x).getD i [])) (t 0)|).sum) := by
  unfold Bit.jacobian
  rw [if_pos rfl]
  apply mapM_ok
  intro t _
  have hsub : b.items.mapM (rowAt (grads t)) = .ok (grads t) := by
    have h1 : b.items.mapM (rowAt (grads t)) = .ok (b.items.map fun i => (grads t).getD i []) := by
      apply mapM_ok
      intro i hi
      rw [hitems t, List.mem_range, ← hg.rows t] at hi
      unfold rowAt
      rw [List.getElem?_eq_getElem hi, List.getD_eq_getElem _ _ hi]
    rw [h1, hitems t, ← hg.rows t, range_map_getD]
  have hgrad : bitGradient b.items (b.probs t) (grads t) = .ok
      (b.items.map fun i => |deriv (fun x => shannonEntropy ((b.probs fun _ => x).getD i [])) (t 0)|).sum := by
    unfold bitGradient
    rw [hsub]
    simp only [bind_ok, hg.rows t, true_or, if_true, pure, Except.pure]
    congr 2
    have hr : (if (b.probs t).length = 1 then (b.probs t).length else (b.probs t).length) = (b.probs t).length := by
      split_ifs <;> rfl
    rw [hr, ← hitems t]
    apply List.map_congr_left
    intro i hi
    have hi' : i < (b.probs t).length := by rwa [hitems t, List.mem_range] at hi
    have hidx : (if (b.probs t).length = 1 then 0 else i) = i := by split_ifs with h <;> omega
    rw [hidx, (shannon_hasDerivAt hg hp t i hi').deriv, abs_neg]
  simp only [hgrad, bind_ok, pure, Except.pure]
  congr 1
  ext i j
  rw [Matrix.of_apply, Matrix.of_apply, Subsingleton.elim i 0]

/-- Whatever the model, a subset of at least two items, but not as many as the model has, makes `jacobian`
raise an error for every nonempty batch. -/
theorem C30_false (b : Bit 1) (grads : (Fin 1 → ℝ) → List (List ℝ)) (hrows : ∀ t, (grads t).length = (b.probs t).length)
    (hin : ∀ t, ∀ i ∈ b.items, i < (b.probs t).length) (h2 : 2 ≤ b.items.length)
    (hlt : ∀ t, b.items.length < (b.probs t).length) (t : Fin 1 → ℝ) (θ : Thetas 1) :
    b.jacobian grads (t :: θ) = .error .runtimeError := by
  unfold Bit.jacobian
  rw [if_pos rfl, List.mapM_cons]
  have hsub : b.items.mapM (rowAt (grads t)) = .ok (b.items.map fun i => (grads t).getD i []) := by
    apply mapM_ok
    intro i hi
    have hi' : i < (grads t).length := by rw [hrows]; exact hin t i hi
    unfold rowAt
    rw [List.getElem?_eq_getElem hi', List.getD_eq_getElem _ _ hi']
  have hb : bitGradient b.items (b.probs t) (grads t) = .error .runtimeError := by
    unfold bitGradient
    rw [hsub]
    simp only [bind_ok, List.length_map]
    have := hlt t
    rw [if_neg (by omega)]
    rfl
  rw [hb]
  rfl

/-- Two Rasch items with difficulties 0 and 1. -/
noncomputable def raschTwo (t : Fin 1 → ℝ) : List (List ℝ) :=
  [[1 - sigmoid (t 0), sigmoid (t 0)], [1 - sigmoid (t 0 - 1), sigmoid (t 0 - 1)]]

/-- Their derivatives. -/
noncomputable def raschTwoGrads (t : Fin 1 → ℝ) : List (List ℝ) :=
  [[-(sigmoid (t 0) * (1 - sigmoid (t 0))), sigmoid (t 0) * (1 - sigmoid (t 0))],
   [-(sigmoid (t 0 - 1) * (1 - sigmoid (t 0 - 1))), sigmoid (t 0 - 1) * (1 - sigmoid (t 0 - 1))]]

theorem sigmoid_hasDerivAt (x : ℝ) : HasDerivAt sigmoid (sigmoid x * (1 - sigmoid x)) x := by
  have h1 : HasDerivAt (fun x : ℝ => 1 + Real.exp (-x)) (-Real.exp (-x)) x := by
    have := ((Real.hasDerivAt_exp (-x)).comp x (hasDerivAt_neg x)).const_add 1
    simpa using this
  have hpos : 0 < 1 + Real.exp (-x) := by positivity
  have h2 := h1.inv hpos.ne'
  have h3 : sigmoid = fun x => (1 + Real.exp (-x))⁻¹ := by
    funext y
    unfold sigmoid
    rw [one_div]
  rw [h3]
  refine h2.congr_deriv ?_
  field_simp
  ring

theorem raschTwo_grads : GradsOf raschTwo raschTwoGrads := by
  have hs : ∀ x : ℝ, HasDerivAt sigmoid (sigmoid x * (1 - sigmoid x)) x := sigmoid_hasDerivAt
  refine ⟨fun _ _ => rfl, ?_, fun _ => rfl, ?_, ?_⟩
  · intro t t' i
    rcases i with _ | _ | i <;> simp [raschTwo]
  · intro t i
    rcases i with _ | _ | i <;> simp [raschTwo, raschTwoGrads]
  · intro t i j
    have h0 := hs (t 0)
    have h1 : HasDerivAt (fun x : ℝ => sigmoid (x - 1)) (sigmoid (t 0 - 1) * (1 - sigmoid (t 0 - 1))) (t 0) :=
      (hs (t 0 - 1)).comp_sub_const (t 0) 1
    rcases i with _ | _ | i
    · rcases j with _ | _ | j
      · exact h0.const_sub 1
      · exact h0
      · exact hasDerivAt_const _ _
    · rcases j with _ | _ | j
      · exact h1.const_sub 1
      · exact h1
      · exact hasDerivAt_const _ _
    · exact hasDerivAt_const _ _

theorem raschTwo_positive : PositiveOrPadded raschTwo := by
  refine ⟨?_, ?_⟩
  · intro t p hp
    simp only [raschTwo, List.mem_cons, List.not_mem_nil, or_false] at hp
    rcases hp with rfl | rfl <;> simp
  · intro i j
    rcases i with _ | _ | i
    · rcases j with _ | _ | j
      · exact Or.inl fun t => sub_pos.2 (sigmoid_lt_one _)
      · exact Or.inl fun t => sigmoid_pos _
      · exact Or.inr fun t => rfl
    · rcases j with _ | _ | j
      · exact Or.inl fun t => sub_pos.2 (sigmoid_lt_one _)
      · exact Or.inl fun t => sigmoid_pos _
      · exact Or.inr fun t => rfl
    · exact Or.inr fun t => rfl

/-- A single item of a model with several items is not refused, but the answer is wrong: the derivatives of the
item are combined with the probabilities of every item of the model. For two Rasch items and the first item
only, at its difficulty, the entropy derivative is 0 and the reported Jacobian is not. -/
theorem C30_one_item_false :
    ∃ b : Bit 1, Bit.create raschTwo (fun t => sigmoid (t 0) + sigmoid (t 0 - 1)) 2 none (some [-5]) (some [0]) 100 = .ok b ∧
      b.Usable ∧ deriv (fun x => shannonEntropy ((b.probs fun _ => x).getD 0 [])) 0 = 0 ∧
      ∃ g, b.jacobian raschTwoGrads [fun _ => 0] = .ok [Matrix.of fun _ _ => g] ∧ 0 < g := by
  refine ⟨⟨raschTwo, fun t => sigmoid (t 0) + sigmoid (t 0 - 1), [0], 100, none, fun k => [(-5 : ℝ)].getD k 0⟩,
    rfl, ⟨raschTwo_positive.sums, ?_, by norm_num, ?_⟩, ?_, ?_⟩
  · intro t i hi
    simp only [List.mem_singleton] at hi
    subst hi
    simp [raschTwo]
  · intro p hp
    cases hp
  · have h := (shannon_hasDerivAt raschTwo_grads raschTwo_positive (fun _ => 0) 0 (by simp [raschTwo])).deriv
    refine h.trans ?_
    simp [raschTwo, raschTwoGrads, entropyGradTerm, sigmoid]
    norm_num
    have hl : Real.log (1 / 2) = -Real.log 2 := by rw [one_div, Real.log_inv]
    have h2 : Real.log 2 ≠ 0 := (Real.log_pos (by norm_num)).ne'
    rw [hl]
    field_simp
    ring
  · have hm : ∀ x, invertMultiplier (fun t : Fin 1 → ℝ => sigmoid (t 0) + sigmoid (t 0 - 1)) x = 1 := by
      intro x
      unfold invertMultiplier
      rw [if_neg]
      rw [Subsingleton.elim x 0]
      simp only [if_true]
      have h1 := sigmoid_strictMono (show (-1 : ℝ) < 1 by norm_num)
      have h2 := sigmoid_strictMono (show (-1 - 1 : ℝ) < 1 - 1 by norm_num)
      linarith
    set u := sigmoid (0 - 1) with hu
    have hu0 : 0 < u := sigmoid_pos _
    have hu1 : u < 1 - u := by
      have h := sigmoid_strictMono (show (0 - 1 : ℝ) < 0 by norm_num)
      have h0 : sigmoid 0 = 1 / 2 := by unfold sigmoid; norm_num
      rw [h0, ← hu] at h
      linarith
    have h0 : sigmoid 0 = 1 / 2 := by unfold sigmoid; norm_num
    refine ⟨1 * ((|(List.zipWith entropyGradTerm [1 - sigmoid 0, sigmoid 0]
        [-(sigmoid 0 * (1 - sigmoid 0)), sigmoid 0 * (1 - sigmoid 0)]).sum|) +
      (|(List.zipWith entropyGradTerm [1 - u, u]
        [-(sigmoid 0 * (1 - sigmoid 0)), sigmoid 0 * (1 - sigmoid 0)]).sum| + 0)), ?_, ?_⟩
    · unfold Bit.jacobian
      rw [if_pos rfl]
      simp only [List.mapM_cons, List.mapM_nil, bitGradient, rowAt, raschTwoGrads, raschTwo, Bit.multiplier, hm]
      rfl
    · have hlog := Real.log_lt_log hu0 hu1
      have hl2 : 0 < Real.log 2 := Real.log_pos (by norm_num)
      have hval : (List.zipWith entropyGradTerm [1 - u, u]
        [-(sigmoid 0 * (1 - sigmoid 0)), sigmoid 0 * (1 - sigmoid 0)]).sum
          = (Real.log u - Real.log (1 - u)) / Real.log 2 * (1 / 4) := by
        simp only [List.zipWith_cons_cons, List.zipWith_nil_left, List.sum_cons, List.sum_nil, entropyGradTerm,
          if_neg hu0.ne', if_neg (hu0.trans hu1).ne', h0]
        ring
      rw [hval, one_mul, add_zero]
      have hne : (Real.log u - Real.log (1 - u)) / Real.log 2 * (1 / 4) ≠ 0 := by
        have : (Real.log u - Real.log (1 - u)) / Real.log 2 < 0 := div_neg_of_neg_of_pos (by linarith) hl2
        linarith
      have := abs_pos.2 hne
      have h' := abs_nonneg (List.zipWith entropyGradTerm [1 - sigmoid 0, sigmoid 0]
        [-(sigmoid 0 * (1 - sigmoid 0)), sigmoid 0 * (1 - sigmoid 0)]).sum
      linarith

/-- `jacobian` of a multidimensional model and `inverse` are refused. -/
theorem C30_refused {d : ℕ} (b : Bit d) (grads : (Fin d → ℝ) → List (List ℝ)) (θ : Thetas d) :
    b.inverse θ = .error .notImplemented ∧ (d ≠ 1 → b.jacobian grads θ = .error .notImplemented) := by
  refine ⟨rfl, fun h => ?_⟩
  unfold Bit.jacobian
  rw [if_neg h]

/-- The hypotheses of `C30_all_items_partial` are met by two Rasch items. -/
example : ∃ b : Bit 1, Bit.create raschTwo (fun t => sigmoid (t 0) + sigmoid (t 0 - 1)) 2 none (some [-5]) none 100 = .ok b ∧
    GradsOf b.probs raschTwoGrads ∧ PositiveOrPadded b.probs ∧ ∀ t, b.items = List.range (b.probs t).length :=
  ⟨⟨raschTwo, _, List.range 2, 100, none, fun k => [(-5 : ℝ)].getD k 0⟩, rfl, raschTwo_grads, raschTwo_positive,
    fun _ => rfl⟩

/-- The hypotheses of `C30_false` are met by two of three items. -/
example : ∃ (b : Bit 1) (grads : (Fin 1 → ℝ) → List (List ℝ)), (∀ t, (grads t).length = (b.probs t).length) ∧
    (∀ t, ∀ i ∈ b.items, i < (b.probs t).length) ∧ 2 ≤ b.items.length ∧
    (∀ t, b.items.length < (b.probs t).length) ∧ ∀ t, ∀ p ∈ b.probs t, p.sum = 1 := by
  refine ⟨⟨fun t => [1 - sigmoid (t 0), sigmoid (t 0)] :: raschTwo t, fun t => sigmoid (t 0), [0, 2], 100, none,
    fun _ => -5⟩, fun t => [-(sigmoid (t 0) * (1 - sigmoid (t 0))), sigmoid (t 0) * (1 - sigmoid (t 0))] ::
      raschTwoGrads t, fun _ => rfl, ?_, by simp, fun _ => by simp [raschTwo], ?_⟩
  · intro t i hi
    simp only [List.mem_cons, List.not_mem_nil, or_false] at hi
    simp only [raschTwo, List.length_cons, List.length_nil]
    omega
  · intro t p hp
    simp only [raschTwo, List.mem_cons, List.not_mem_nil, or_false] at hp
    rcases hp with rfl | rfl | rfl <;> simp

/-- The hypotheses of `C28_to_1D` and `C29_to_1D_partial` are met by an item depending on two latent variables. -/
example : ∃ b : Bit 2, b.Usable ∧ b.gridPoints = 300 ∧ b.items = [0] := by
  refine ⟨⟨fun t => [[1 - sigmoid (t 0 + 2 * t 1), sigmoid (t 0 + 2 * t 1)]], fun t => sigmoid (t 0 + 2 * t 1), [0],
    300, none, fun _ => -1⟩, ⟨?_, ?_, by norm_num, ?_⟩, rfl, rfl⟩
  · intro t p hp
    simp only [List.mem_singleton] at hp
    subst hp
    simp
  · intro t i hi
    simpa using hi
  · intro p hp
    cases hp

end Irt
