import Verif.Lemmas.Rescale
import Mathlib.LinearAlgebra.Matrix.Notation

/-!
# C19, C20, C24: attached scale transformations, `Reverse` and `Rotate`

A batch of latent scores is a list of rows `Fin d → ℝ`. `IsJacobian F J t` (Spec/Scale) says that the
matrix `J` is the Fréchet derivative of `F` at `t`.
-/

namespace Irt

open Finset

variable {d : ℕ}

/-- The scale's `inverse` undoes its `transform` on every batch. -/
def Scale.Invertible (s : Scale d) : Prop :=
  ∀ θ θ' : Thetas d, s.transform θ = .ok θ' → s.inverse θ' = .ok θ

/-! ## Reverse and Rotate -/

/-- `Reverse` undoes itself: both as `inverse(transform(θ))` and as `transform(transform(θ))`. -/
theorem C24_reverse_involution (rev : Fin d → Bool) (θ : Thetas d) :
    ∃ θ', (reverseScale rev).transform θ = .ok θ' ∧ (reverseScale rev).inverse θ' = .ok θ ∧
      (reverseScale rev).transform θ' = .ok θ := by
  have hs : ∀ b, reverseSign b * reverseSign b = 1 := by intro b; cases b <;> simp [reverseSign]
  have h : (θ.map fun t i => t i * reverseSign (rev i)).map (fun t i => t i * reverseSign (rev i)) = θ := by
    rw [List.map_map]
    conv_rhs => rw [← List.map_id θ]
    apply List.map_congr_left
    intro t _
    funext i
    show t i * reverseSign (rev i) * reverseSign (rev i) = t i
    rw [mul_assoc, hs, mul_one]
  exact ⟨_, rfl, congrArg Except.ok h, congrArg Except.ok h⟩

/-- `Reverse` negates exactly the flagged latent variables. -/
theorem C24_reverse_value (rev : Fin d → Bool) (θ : Thetas d) :
    (reverseScale rev).transform θ = .ok (θ.map fun t i => if rev i then -t i else t i) := by
  show Except.ok _ = Except.ok _
  congr 1
  apply List.map_congr_left
  intro t _
  funext i
  cases h : rev i <;> simp [reverseSign]

/-- The Jacobians returned by `Reverse` are the derivatives of its transformation at each row. -/
theorem C24_reverse_jacobian (rev : Fin d → Bool) (θ : Thetas d) :
    ∃ F J, (reverseScale rev).transform θ = .ok (θ.map F) ∧ (reverseScale rev).jacobian θ = .ok (θ.map J) ∧
      ∀ t ∈ θ, IsJacobian F (J t) t := by
  refine ⟨fun t i => t i * reverseSign (rev i), fun _ => Matrix.diagonal fun i => reverseSign (rev i), rfl,
    rfl, fun t _ => ?_⟩
  apply IsJacobian.diagonal (f := fun i x => x * reverseSign (rev i))
  intro k
  simpa using (hasDerivAt_id (t k)).mul_const (reverseSign (rev k))

/-- `Rotate` accepts a rotation matrix exactly when it is square with one row per latent variable and
invertible. -/
theorem C24_rotate_accepts (rows : List (List ℝ)) :
    (∃ s, rotateCreate d rows = .ok s) ↔
      rows.length = d ∧ (∀ r ∈ rows, r.length = d) ∧
        (Matrix.of fun i j : Fin d => (rows.getD i []).getD j 0).det ≠ 0 := by
  unfold rotateCreate rotateMatrix
  by_cases h : rows.length ≠ d ∨ ∃ r ∈ rows, r.length ≠ d
  · rw [if_pos h]
    constructor
    · rintro ⟨s, hs⟩; simp [bind, Except.bind] at hs
    · rintro ⟨h1, h2, -⟩
      rcases h with h | ⟨r, hr, h⟩
      · exact absurd h1 h
      · exact absurd (h2 r hr) h
  · rw [if_neg h]
    push Not at h
    by_cases hdet : (Matrix.of fun i j : Fin d => (rows.getD i []).getD j 0).det = 0
    · simp only [hdet, if_true]
      constructor
      · rintro ⟨s, hs⟩; simp [bind, Except.bind] at hs
      · rintro ⟨-, -, h3⟩; exact absurd trivial (by simpa using h3)
    · simp only [hdet, if_false]
      exact ⟨fun _ => ⟨h.1, h.2, fun h3 => hdet h3⟩, fun _ => ⟨_, rfl⟩⟩

/-- `Rotate` multiplies each row by the given matrix, `inverse` undoes it in both directions, and the
Jacobians returned are the derivatives. -/
theorem C24_rotate (rows : List (List ℝ)) (s : Scale d) (hs : rotateCreate d rows = .ok s) (θ : Thetas d) :
    (∃ θ', s.transform θ = .ok θ' ∧ s.inverse θ' = .ok θ) ∧
    (∃ θ', s.inverse θ = .ok θ' ∧ s.transform θ' = .ok θ) ∧
    ∃ F J, s.transform θ = .ok (θ.map F) ∧ s.jacobian θ = .ok (θ.map J) ∧
      (∀ t, F t = fun j : Fin d => ∑ i : Fin d, t i * (rows.getD i []).getD j 0) ∧
      ∀ t ∈ θ, IsJacobian F (J t) t := by
  obtain ⟨-, -, hdet⟩ := (C24_rotate_accepts rows).1 ⟨s, hs⟩
  set R : Matrix (Fin d) (Fin d) ℝ := Matrix.of fun i j : Fin d => (rows.getD i []).getD j 0 with hR
  have hu : IsUnit R.det := isUnit_iff_ne_zero.mpr hdet
  have hs' : s = rotateScale R R⁻¹ := by
    unfold rotateCreate rotateMatrix at hs
    by_cases h : rows.length ≠ d ∨ ∃ r ∈ rows, r.length ≠ d
    · rw [if_pos h] at hs; simp [bind, Except.bind] at hs
    · rw [if_neg h] at hs
      simp only [← hR, hdet, if_false] at hs
      have := Except.ok.inj hs
      exact this.symm
  subst hs'
  have h1 : (θ.map fun t => Matrix.vecMul t R).map (fun t => Matrix.vecMul t R⁻¹) = θ := by
    rw [List.map_map]
    conv_rhs => rw [← List.map_id θ]
    apply List.map_congr_left
    intro t _
    simp [Matrix.vecMul_vecMul, Matrix.mul_nonsing_inv _ hu]
  have h2 : (θ.map fun t => Matrix.vecMul t R⁻¹).map (fun t => Matrix.vecMul t R) = θ := by
    rw [List.map_map]
    conv_rhs => rw [← List.map_id θ]
    apply List.map_congr_left
    intro t _
    simp [Matrix.vecMul_vecMul, Matrix.nonsing_inv_mul _ hu]
  refine ⟨⟨_, rfl, congrArg Except.ok h1⟩, ⟨_, rfl, congrArg Except.ok h2⟩,
    fun t => Matrix.vecMul t R, fun _ => R.transpose, rfl, rfl, ?_, fun t _ => IsJacobian.vecMul R t⟩
  intro t
  funext j
  simp [Matrix.vecMul, dotProduct, hR]

/-- A 45 degree style rotation is accepted. -/
example : ∃ s : Scale 2, rotateCreate 2 [[1, 1], [-1, 1]] = .ok s := by
  rw [C24_rotate_accepts]
  refine ⟨rfl, by simp, ?_⟩
  rw [Matrix.det_fin_two]
  norm_num

/-! ## C19 -/

/-- With at most one attached scale the round trip is the identity. Missing: several scales, for which the
claim is false (`C19_false`). -/
theorem C19_one_scale_partial (scales : List (Scale d)) (h1 : scales.length ≤ 1)
    (h : ∀ s ∈ scales, s.Invertible) (θ θ' : Thetas d) (ht : transformTheta scales θ = .ok θ') :
    inverseTransformTheta scales θ' = .ok θ := by
  match scales, h1, h with
  | [], _, _ =>
    have : θ = θ' := Except.ok.inj ht
    subst this; rfl
  | [s], _, h =>
    unfold transformTheta at ht
    unfold inverseTransformTheta
    simp only [List.foldlM_cons, List.foldlM_nil, bind_pure] at ht ⊢
    exact h s (by simp) θ θ' ht

/-- The round trip is the identity when the inverse is taken with the scales in the opposite order: this is
what `inverse_transform_theta` would have to do. -/
theorem C19_opposite_order_partial (scales : List (Scale d)) (h : ∀ s ∈ scales, s.Invertible)
    (θ θ' : Thetas d) (ht : transformTheta scales θ = .ok θ') :
    inverseTransformTheta scales.reverse θ' = .ok θ := by
  induction scales generalizing θ with
  | nil =>
    have : θ = θ' := Except.ok.inj ht
    subst this; rfl
  | cons s ss ih =>
    unfold transformTheta at ht
    rw [List.foldlM_cons] at ht
    cases hs : s.transform θ with
    | error e => rw [hs] at ht; simp [bind, Except.bind] at ht
    | ok θ1 =>
      rw [hs, bind_ok] at ht
      have h1 := ih (fun r hr => h r (by simp [hr])) θ1 ht
      unfold inverseTransformTheta at h1 ⊢
      rw [List.reverse_cons, List.foldlM_append, h1, bind_ok]
      simp only [List.foldlM_cons, List.foldlM_nil, bind_pure]
      exact h s (by simp) θ θ1 hs

/-- With several scales the round trip is the identity when the scales commute: `transform` steps may be
exchanged, for instance any number of `Reverse` scales. -/
theorem C19_commuting_partial (scales : List (Scale d)) (h : ∀ s ∈ scales, s.Invertible)
    (hc : ∀ s ∈ scales, ∀ r ∈ scales, ∀ θ : Thetas d,
      (s.transform θ >>= r.transform) = (r.transform θ >>= s.transform))
    (θ θ' : Thetas d) (ht : transformTheta scales θ = .ok θ') :
    inverseTransformTheta scales θ' = .ok θ := by
  have hperm : ∀ (l l' : List (Scale d)), l.Perm l' → (∀ s ∈ l, s ∈ scales) → ∀ θ,
      transformTheta l θ = transformTheta l' θ := by
    intro l l' hp
    induction hp with
    | nil => intro _ _; rfl
    | cons x hp ih =>
      intro hm θ
      unfold transformTheta at ih ⊢
      rw [List.foldlM_cons, List.foldlM_cons]
      congr 1
      funext t
      exact ih (fun s hs => hm s (by simp [hs])) t
    | swap x y l =>
      intro hm θ
      unfold transformTheta
      simp only [List.foldlM_cons]
      rw [← bind_assoc, ← bind_assoc, hc y (hm y (by simp)) x (hm x (by simp))]
    | trans h1 h2 ih1 ih2 =>
      intro hm θ
      rw [ih1 hm, ih2 fun s hs => hm s (h1.mem_iff.2 hs)]
  have hr : transformTheta scales.reverse θ = .ok θ' := by
    rw [← hperm scales scales.reverse (List.reverse_perm scales).symm (fun s hs => hs) θ, ht]
  have := C19_opposite_order_partial scales.reverse (fun s hs => h s (List.mem_reverse.1 hs)) θ θ' hr
  rwa [List.reverse_reverse] at this

/-- Three `Reverse` scales meet the hypotheses. -/
example (a b c : Fin d → Bool) (θ θ' : Thetas d)
    (ht : transformTheta [reverseScale a, reverseScale b, reverseScale c] θ = .ok θ') :
    inverseTransformTheta [reverseScale a, reverseScale b, reverseScale c] θ' = .ok θ := by
  have hall : ∀ s ∈ [reverseScale a, reverseScale b, reverseScale c], ∃ r : Fin d → Bool, s = reverseScale r := by
    intro s hs
    simp only [List.mem_cons, List.not_mem_nil, or_false] at hs
    rcases hs with rfl | rfl | rfl <;> exact ⟨_, rfl⟩
  apply C19_commuting_partial _ _ _ θ θ' ht
  · intro s hs θ θ' h
    obtain ⟨r, rfl⟩ := hall s hs
    obtain ⟨θ1, h1, h2, -⟩ := C24_reverse_involution r θ
    rw [h1] at h
    rw [← Except.ok.inj h]; exact h2
  · intro s hs r hr θ
    obtain ⟨p, rfl⟩ := hall s hs
    obtain ⟨q, rfl⟩ := hall r hr
    show Except.ok _ = Except.ok _
    congr 1
    rw [List.map_map, List.map_map]
    apply List.map_congr_left
    intro t _
    funext i
    show t i * reverseSign (p i) * reverseSign (q i) = t i * reverseSign (q i) * reverseSign (p i)
    ring

/-- The claim is false for two scales: reversing the first of two latent variables and then swapping them
by a rotation matrix does not round-trip, because the inverses are applied in the order in which the scales
were attached. -/
theorem C19_false :
    ¬ ∀ (scales : List (Scale 2)), (∀ s ∈ scales, s.Invertible) → ∀ θ θ' : Thetas 2,
      transformTheta scales θ = .ok θ' → inverseTransformTheta scales θ' = .ok θ := by
  intro h
  obtain ⟨s, hs⟩ : ∃ s : Scale 2, rotateCreate 2 [[0, 1], [1, 0]] = .ok s := by
    rw [C24_rotate_accepts]
    refine ⟨rfl, by simp, ?_⟩
    rw [Matrix.det_fin_two]
    norm_num
  let rev : Fin 2 → Bool := fun i => decide (i = 0)
  have hinv : ∀ r ∈ [reverseScale rev, s], r.Invertible := by
    intro r hr θ θ' ht
    simp only [List.mem_cons, List.not_mem_nil, or_false] at hr
    rcases hr with rfl | rfl
    · obtain ⟨θ1, h1, h2, -⟩ := C24_reverse_involution rev θ
      rw [h1] at ht
      rw [← Except.ok.inj ht]; exact h2
    · obtain ⟨⟨θ1, h1, h2⟩, -⟩ := C24_rotate _ _ hs θ
      rw [h1] at ht
      rw [← Except.ok.inj ht]; exact h2
  let a : Fin 2 → ℝ := ![1, 0]
  have hF : ∀ t : Fin 2 → ℝ, s.transform [t] = .ok [![t 1, t 0]] := by
    intro t
    obtain ⟨-, -, F, J, h1, -, h3, -⟩ := C24_rotate _ _ hs [t]
    rw [h1, List.map_cons, List.map_nil, h3]
    congr 2
    funext j
    fin_cases j <;> simp [Fin.sum_univ_two]
  have hFi : ∀ t : Fin 2 → ℝ, s.inverse [t] = .ok [![t 1, t 0]] := by
    intro t
    obtain ⟨⟨θ1, h1, h2⟩, -⟩ := C24_rotate _ _ hs [![t 1, t 0]]
    rw [hF] at h1
    have := Except.ok.inj h1
    rw [← this] at h2
    rw [← h2]
    congr 2
    funext j
    fin_cases j <;> simp
  have hr : ∀ t : Fin 2 → ℝ, (reverseScale rev).transform [t] = .ok [![-t 0, t 1]] := by
    intro t
    rw [C24_reverse_value]
    simp only [List.map_cons, List.map_nil]
    congr 2
    funext j
    fin_cases j <;> simp [rev]
  have hri : ∀ t : Fin 2 → ℝ, (reverseScale rev).inverse [t] = .ok [![-t 0, t 1]] := hr
  have ht : transformTheta [reverseScale rev, s] [a] = .ok [![0, -1]] := by
    unfold transformTheta
    simp only [List.foldlM_cons, List.foldlM_nil, hr, bind_ok, hF, bind_pure]
    simp [a]
  have := h _ hinv _ _ ht
  unfold inverseTransformTheta at this
  simp only [List.foldlM_cons, List.foldlM_nil, hri, bind_ok, hFi, bind_pure] at this
  have h0 := Except.ok.inj this
  have h1 := (List.cons.inj h0).1
  have h2 := congrFun h1 0
  norm_num [a] at h2

/-! ## C20 -/

/-- A row of latent scores after the first `k` of the row functions `F`. -/
def rowAfter (F : List ((Fin d → ℝ) → Fin d → ℝ)) (k : ℕ) (t : Fin d → ℝ) : Fin d → ℝ :=
  (F.take k).foldl (fun t f => f t) t

/-- If scale `k` transforms each row by `F k` and returns a matrix `J k t` for each row, and this matrix is
the derivative of `F k` at the point the row has reached when that scale is applied, then
`theta_transform_jacobian` returns the derivative of the composed transformation at each row. -/
theorem C20_chain_rule (scales : List (Scale d)) (F : List ((Fin d → ℝ) → Fin d → ℝ))
    (J : List ((Fin d → ℝ) → Matrix (Fin d) (Fin d) ℝ)) (hF : F.length = scales.length)
    (hJ : J.length = scales.length) (θ : Thetas d)
    (htr : ∀ (k : ℕ) s f, scales[k]? = some s → F[k]? = some f → ∀ θ, s.transform θ = .ok (θ.map f))
    (hjac : ∀ (k : ℕ) s j, scales[k]? = some s → J[k]? = some j → ∀ θ, s.jacobian θ = .ok (θ.map j))
    (hder : ∀ t ∈ θ, ∀ (k : ℕ) f j, F[k]? = some f → J[k]? = some j →
      IsJacobian f (j (rowAfter F k t)) (rowAfter F k t)) :
    ∃ (G : (Fin d → ℝ) → Fin d → ℝ) (K : (Fin d → ℝ) → Matrix (Fin d) (Fin d) ℝ),
      (∀ θ', transformTheta scales θ' = .ok (θ'.map G)) ∧
      thetaTransformJacobian scales θ = .ok (θ.map K) ∧
      ∀ t ∈ θ, IsJacobian G (K t) t := by
  -- the loop started anywhere
  have key : ∀ (scales : List (Scale d)) (F : List ((Fin d → ℝ) → Fin d → ℝ))
      (J : List ((Fin d → ℝ) → Matrix (Fin d) (Fin d) ℝ)), F.length = scales.length →
      J.length = scales.length →
      (∀ (k : ℕ) s f, scales[k]? = some s → F[k]? = some f → ∀ θ, s.transform θ = .ok (θ.map f)) →
      (∀ (k : ℕ) s j, scales[k]? = some s → J[k]? = some j → ∀ θ, s.jacobian θ = .ok (θ.map j)) →
      ∀ (H : (Fin d → ℝ) → Fin d → ℝ) (A : (Fin d → ℝ) → Matrix (Fin d) (Fin d) ℝ) (θ : Thetas d),
      (∀ t ∈ θ, IsJacobian H (A t) t) →
      (∀ t ∈ θ, ∀ (k : ℕ) f j, F[k]? = some f → J[k]? = some j →
        IsJacobian f (j (rowAfter F k (H t))) (rowAfter F k (H t))) →
      ∃ (G : (Fin d → ℝ) → Fin d → ℝ) (K : (Fin d → ℝ) → Matrix (Fin d) (Fin d) ℝ),
        (∀ θ', transformTheta scales θ' = .ok (θ'.map G)) ∧
        jacobianLoop scales (θ.map A) (θ.map H) = .ok (θ.map K) ∧
        ∀ t ∈ θ, IsJacobian (fun t => G (H t)) (K t) t := by
    intro scales
    induction scales with
    | nil =>
      intro F J _ _ _ _ H A θ hA _
      refine ⟨fun t => t, A, fun θ' => ?_, rfl, hA⟩
      unfold transformTheta
      simp [pure, Except.pure]
    | cons s ss ih =>
      intro F J hF hJ htr hjac H A θ hA hder
      match F, hF, J, hJ, htr, hjac, hder with
      | f :: F, hF, j :: J, hJ, htr, hjac, hder =>
        have ht0 := htr 0 s f rfl rfl
        have hj0 := hjac 0 s j rfl rfl
        obtain ⟨G, K, h1, h2, h3⟩ := ih F J (by simpa using hF) (by simpa using hJ)
          (fun k s' f' hs hf => htr (k + 1) s' f' (by simpa using hs) (by simpa using hf))
          (fun k s' j' hs hj => hjac (k + 1) s' j' (by simpa using hs) (by simpa using hj))
          (fun t => f (H t)) (fun t => j (H t) * A t) θ
          (fun t ht => IsJacobian.comp (hder t ht 0 f j rfl rfl) (hA t ht))
          (fun t ht k f' j' hf hj => hder t ht (k + 1) f' j' (by simpa using hf) (by simpa using hj))
        refine ⟨fun t => G (f t), K, fun θ' => ?_, ?_, h3⟩
        · unfold transformTheta at h1 ⊢
          rw [List.foldlM_cons, ht0, bind_ok, h1, List.map_map]; rfl
        · unfold jacobianLoop
          rw [hj0, bind_ok, ht0, bind_ok]
          have hz : List.zipWith (fun a b => a * b) ((θ.map H).map j) (θ.map A)
              = θ.map fun t => j (H t) * A t := by
            induction θ with
            | nil => rfl
            | cons t θ ih' => simp at ih' ⊢
          rw [hz, List.map_map]
          exact h2
  have h1 : θ.map (fun _ => (1 : Matrix (Fin d) (Fin d) ℝ)) = List.replicate θ.length 1 := by
    simp [List.map_const']
  obtain ⟨G, K, a, b, c⟩ := key scales F J hF hJ htr hjac (fun t => t) (fun _ => 1) θ
    (fun t _ => IsJacobian.id t) hder
  refine ⟨G, K, a, ?_, c⟩
  unfold thetaTransformJacobian
  rw [h1, List.map_id'] at b
  exact b

/-- `Reverse` followed by `Rotate` meets the hypotheses for every reversal pattern and invertible matrix. -/
example (rev : Fin d → Bool) (R : Matrix (Fin d) (Fin d) ℝ) (θ : Thetas d) :
    ∃ (G : (Fin d → ℝ) → Fin d → ℝ) (K : (Fin d → ℝ) → Matrix (Fin d) (Fin d) ℝ),
      (∀ θ', transformTheta [reverseScale rev, rotateScale R R⁻¹] θ' = .ok (θ'.map G)) ∧
      thetaTransformJacobian [reverseScale rev, rotateScale R R⁻¹] θ = .ok (θ.map K) ∧
      ∀ t ∈ θ, IsJacobian G (K t) t := by
  refine C20_chain_rule _ [fun t i => t i * reverseSign (rev i), fun t => Matrix.vecMul t R]
    [fun _ => Matrix.diagonal fun i => reverseSign (rev i), fun _ => R.transpose] rfl rfl θ ?_ ?_ ?_
  · intro k s f hs hf θ
    match k, hs, hf with
    | 0, hs, hf => cases hs; cases hf; rfl
    | 1, hs, hf => cases hs; cases hf; rfl
  · intro k s f hs hf θ
    match k, hs, hf with
    | 0, hs, hf => cases hs; cases hf; rfl
    | 1, hs, hf => cases hs; cases hf; rfl
  · intro t _ k f j hf hj
    match k, hf, hj with
    | 0, hf, hj =>
      cases hf; cases hj
      apply IsJacobian.diagonal (f := fun i x => x * reverseSign (rev i))
      intro k
      simpa using (hasDerivAt_id _).mul_const (reverseSign (rev k))
    | 1, hf, hj => cases hf; cases hj; exact IsJacobian.vecMul R _

end Irt
