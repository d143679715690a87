import Verif.Lemmas.Information
import Verif.Props.BitJacobian
import Verif.Props.Categorical
import Verif.Props.Rescale

/-! # C31 (Fisher information), C32 (gradients on a transformed scale) -/

namespace Irt

variable {d : ℕ}

/-- Every table has `items` rows of `C` category slots. -/
def TableShape (items C : ℕ) (probs : (Fin d → ℝ) → List (List ℝ)) : Prop :=
  ∀ t, (probs t).length = items ∧ ∀ r ∈ probs t, r.length = C

/-- Probability of category `c` of item `i`, as a function of the latent scores. -/
noncomputable def entryOf (probs : (Fin d → ℝ) → List (List ℝ)) (i c : ℕ) (t : Fin d → ℝ) : ℝ :=
  ((probs t).getD i []).getD c 0

theorem TableShape.row {items C : ℕ} {probs : (Fin d → ℝ) → List (List ℝ)} (h : TableShape items C probs)
    (t : Fin d → ℝ) (i : ℕ) (hi : i < items) : ((probs t).getD i []).length = C := by
  rw [List.getD_eq_getElem _ _ (by rw [(h t).1]; exact hi)]
  exact (h t).2 _ (List.getElem_mem _)

theorem probabilityJacobian_eq {items C : ℕ} {probs : (Fin d → ℝ) → List (List ℝ)} (h : TableShape items C probs)
    (t : Fin d → ℝ) : probabilityJacobian probs t
      = (List.range items).map fun i => (List.range C).map fun c => partialD (entryOf probs i c) t := by
  unfold probabilityJacobian
  apply List.ext_getElem
  · simp [(h t).1]
  · intro i h1 h2
    rw [List.getElem_mapIdx, List.getElem_map, List.getElem_range, (h t).2 _ (List.getElem_mem _)]
    rfl

theorem probabilityGradients_plain (probs : (Fin d → ℝ) → List (List ℝ)) (items C : ℕ) (scales : List (Scale d))
    (rescale : Bool) (h : rescale = false ∨ scales = []) (θ : Thetas d) :
    probabilityGradients probs items C scales rescale θ = .ok (θ.map (probabilityJacobian probs)) := by
  unfold probabilityGradients
  rw [if_neg]
  · rfl
  · rcases h with h | h <;> simp [h]

theorem probabilityGradients_rescaled (probs : (Fin d → ℝ) → List (List ℝ)) (items C : ℕ)
    (hshape : TableShape items C probs) (scales : List (Scale d)) (hs : scales ≠ []) (θ : Thetas d) (hθ : θ ≠ [])
    (J : (Fin d → ℝ) → Matrix (Fin d) (Fin d) ℝ) (hJ : thetaTransformJacobian scales θ = .ok (θ.map J))
    (hdet : ∀ t ∈ θ, (J t).det ≠ 0) :
    probabilityGradients probs items C scales true θ = .ok (θ.map fun t =>
      (probabilityJacobian probs t).map fun r => r.map fun g => ((J t).transpose)⁻¹.mulVec g) := by
  unfold probabilityGradients
  rw [if_pos (by simpa using hs)]
  have hlen : ∀ t : Fin d → ℝ, (probabilityJacobian probs t).flatten.length = items * C := by
    intro t
    rw [probabilityJacobian_eq hshape]
    simp [List.length_flatten, Function.comp_def, List.map_const']
  have hflat : ((θ.map (probabilityJacobian probs)).map List.flatten).flatten
      = θ.flatMap fun t => (probabilityJacobian probs t).flatten := by
    rw [List.map_map, List.flatMap_def]
    rfl
  have h := rescaleGradients_eq scales θ hθ J hJ hdet (items * C) (fun t => (probabilityJacobian probs t).flatten)
    fun t _ => hlen t
  rw [hflat, h]
  simp only [bind_ok, pure, Except.pure]
  congr 1
  have hv := viewRows_flatten (items * C) (θ.map fun t => (probabilityJacobian probs t).flatten.map fun g =>
      ((J t).transpose)⁻¹.mulVec g) (by
    intro l hl
    obtain ⟨t, -, rfl⟩ := List.mem_map.1 hl
    rw [List.length_map, hlen])
  rw [List.length_map] at hv
  rw [List.flatMap_def, hv, List.map_map]
  apply List.map_congr_left
  intro t _
  simp only [Function.comp]
  have hv2 := viewRows_flatten C ((probabilityJacobian probs t).map fun r => r.map fun g =>
      ((J t).transpose)⁻¹.mulVec g) (by
    intro l hl
    obtain ⟨r, hr, rfl⟩ := List.mem_map.1 hl
    rw [probabilityJacobian_eq hshape] at hr
    obtain ⟨i, -, rfl⟩ := List.mem_map.1 hr
    simp)
  rw [List.length_map, show (probabilityJacobian probs t).length = items by
    rw [probabilityJacobian_eq hshape]; simp] at hv2
  rw [← hv2, List.map_flatten]

/-! ## C31 -/

/-- A number of directions other than one per latent variable is refused. -/
theorem C31_degrees_refused (probs : (Fin d → ℝ) → List (List ℝ)) (items C : ℕ) (scales : List (Scale d))
    (item rescale : Bool) (l : List ℝ) (hl : l.length ≠ d) (θ : Thetas d) :
    information probs items C scales item (some l) rescale θ = .error .valueError := by
  unfold information
  rw [if_pos ⟨l, rfl, hl⟩]
  rfl

/-- The item information matrices computed from the gradients. -/
noncomputable def infoMatrices (probs : (Fin d → ℝ) → List (List ℝ)) (θ : Thetas d)
    (g : List (List (List (Fin d → ℝ)))) : List (List (Matrix (Fin d) (Fin d) ℝ)) :=
  List.zipWith (fun t g => List.zipWith itemInformation (probs t) g) θ g

/-- Information of a matrix in the direction with the given angles to the axes. -/
noncomputable def inDirection (l : List ℝ) (I : Matrix (Fin d) (Fin d) ℝ) : ℝ :=
  ∑ i, ∑ j, cosDegrees l i * I i j * cosDegrees l j

theorem information_none (probs : (Fin d → ℝ) → List (List ℝ)) (items C : ℕ) (scales : List (Scale d))
    (item rescale : Bool) (θ : Thetas d) :
    information probs items C scales item none rescale θ = do
      let g ← probabilityGradients probs items C scales rescale θ
      return if item then .items (infoMatrices probs θ g) else .test ((infoMatrices probs θ g).map List.sum) := by
  unfold information
  rw [if_neg (by simp)]
  rfl

theorem information_some (probs : (Fin d → ℝ) → List (List ℝ)) (items C : ℕ) (scales : List (Scale d))
    (item rescale : Bool) (l : List ℝ) (hl : l.length = d) (θ : Thetas d) :
    information probs items C scales item (some l) rescale θ = do
      let g ← probabilityGradients probs items C scales rescale θ
      let m := infoMatrices probs θ g
      if 1 < d then
        return if item then .itemsDirection (m.map fun r => r.map (inDirection l))
          else .testDirection (m.map fun r => (r.map (inDirection l)).sum)
      else return if item then .items m else .test (m.map List.sum) := by
  unfold information
  rw [if_neg (by rintro ⟨l', h, h'⟩; cases h; exact h' hl)]
  simp only
  congr 1
  funext g
  split_ifs <;> simp [infoMatrices, inDirection]

theorem infoMatrices_psd (probs : (Fin d → ℝ) → List (List ℝ)) (hp : ∀ t, ∀ r ∈ probs t, ∀ x ∈ r, 0 ≤ x)
    (θ : Thetas d) (g : List (List (List (Fin d → ℝ)))) :
    ∀ r ∈ infoMatrices probs θ g, ∀ I ∈ r, I.PosSemidef := by
  intro r hr I hI
  obtain ⟨n, hn⟩ := List.mem_iff_getElem?.1 hr
  unfold infoMatrices at hn
  rw [List.getElem?_zipWith] at hn
  split at hn
  · rename_i t g' _ _
    have hr' := Option.some.inj hn
    subst hr'
    obtain ⟨i, hi⟩ := List.mem_iff_getElem?.1 hI
    rw [List.getElem?_zipWith] at hi
    split at hi
    · rename_i p h hp' _
      have := Option.some.inj hi
      subst this
      exact itemInformation_posSemidef p (hp t p (List.mem_of_getElem? hp')) h
    · simp at hi
  · simp at hn

theorem list_sum_psd (l : List (Matrix (Fin d) (Fin d) ℝ)) (h : ∀ I ∈ l, I.PosSemidef) : l.sum.PosSemidef := by
  induction l with
  | nil => exact Matrix.PosSemidef.zero
  | cons a l ih =>
    rw [List.sum_cons]
    exact (h a (by simp)).add (ih fun I hI => h I (List.mem_cons_of_mem _ hI))

theorem inDirection_nonneg (l : List ℝ) (I : Matrix (Fin d) (Fin d) ℝ) (h : I.PosSemidef) : 0 ≤ inDirection l I := by
  have := h.dotProduct_mulVec_nonneg (cosDegrees l)
  unfold inDirection
  simp only [dotProduct, Matrix.mulVec, Finset.mul_sum, star_trivial] at this
  calc (0 : ℝ) ≤ _ := this
    _ = _ := by
      apply Finset.sum_congr rfl; intro i _
      apply Finset.sum_congr rfl; intro j _
      ring

/-- Whatever the scales attached and the gradients, every item information matrix and every test information
matrix is symmetric and positive semidefinite. -/
theorem C31_positive_semidefinite (probs : (Fin d → ℝ) → List (List ℝ)) (hp : ∀ t, ∀ r ∈ probs t, ∀ x ∈ r, 0 ≤ x)
    (items C : ℕ) (scales : List (Scale d)) (rescale : Bool) (θ : Thetas d) :
    (∀ m, information probs items C scales true none rescale θ = .ok (.items m) →
      ∀ r ∈ m, ∀ I ∈ r, I.IsSymm ∧ ∀ v : Fin d → ℝ, 0 ≤ ∑ i, ∑ j, v i * I i j * v j) ∧
    (∀ m, information probs items C scales false none rescale θ = .ok (.test m) →
      ∀ I ∈ m, I.IsSymm ∧ ∀ v : Fin d → ℝ, 0 ≤ ∑ i, ∑ j, v i * I i j * v j) := by
  have key : ∀ I : Matrix (Fin d) (Fin d) ℝ, I.PosSemidef →
      I.IsSymm ∧ ∀ v : Fin d → ℝ, 0 ≤ ∑ i, ∑ j, v i * I i j * v j := by
    intro I hI
    refine ⟨?_, fun v => ?_⟩
    · have := hI.isHermitian
      unfold Matrix.IsHermitian at this
      rwa [Matrix.conjTranspose_eq_transpose_of_trivial] at this
    · have := hI.dotProduct_mulVec_nonneg v
      simp only [dotProduct, Matrix.mulVec, Finset.mul_sum, star_trivial] at this
      calc (0 : ℝ) ≤ _ := this
        _ = _ := by
          apply Finset.sum_congr rfl; intro i _
          apply Finset.sum_congr rfl; intro j _
          ring
  refine ⟨fun m h r hr I hI => key I ?_, fun m h I hI => key I ?_⟩
  · rw [information_none] at h
    obtain ⟨g, -, hg⟩ := bind_eq_ok h
    have h2 : infoMatrices probs θ g = m := by simpa [pure, Except.pure] using hg
    rw [← h2] at hr
    exact infoMatrices_psd probs hp θ g r hr I hI
  · rw [information_none] at h
    obtain ⟨g, -, hg⟩ := bind_eq_ok h
    have h2 : (infoMatrices probs θ g).map List.sum = m := by simpa [pure, Except.pure] using hg
    rw [← h2] at hI
    obtain ⟨r, hr, rfl⟩ := List.mem_map.1 hI
    exact list_sum_psd r (infoMatrices_psd probs hp θ g r hr)

/-- With one direction per latent variable, for two or more latent variables, the information is the quadratic
form of the item matrix with the cosines, it is nonnegative, and the test information is the sum of the item
informations. -/
theorem C31_directional (probs : (Fin d → ℝ) → List (List ℝ)) (hp : ∀ t, ∀ r ∈ probs t, ∀ x ∈ r, 0 ≤ x)
    (items C : ℕ) (scales : List (Scale d)) (rescale : Bool) (θ : Thetas d) (l : List ℝ) (hl : l.length = d)
    (hd : 1 < d) (m : List (List (Matrix (Fin d) (Fin d) ℝ)))
    (h : information probs items C scales true none rescale θ = .ok (.items m)) :
    ∃ v : List (List ℝ), information probs items C scales true (some l) rescale θ = .ok (.itemsDirection v) ∧
      v = m.map (fun r => r.map fun I =>
        ∑ i : Fin d, ∑ j : Fin d, Real.cos (l.getD i 0 * (Real.pi / 180)) * I i j * Real.cos (l.getD j 0 * (Real.pi / 180))) ∧
      (∀ r ∈ v, ∀ x ∈ r, 0 ≤ x) ∧
      information probs items C scales false (some l) rescale θ = .ok (.testDirection (v.map List.sum)) := by
  rw [information_none] at h
  obtain ⟨g, hg, hm⟩ := bind_eq_ok h
  have h2 : infoMatrices probs θ g = m := by simpa [pure, Except.pure] using hm
  refine ⟨m.map fun r => r.map (inDirection l), ?_, rfl, ?_, ?_⟩
  · rw [information_some _ _ _ _ _ _ l hl, hg]
    simp [bind_ok, hd, h2, pure, Except.pure]
  · intro r hr x hx
    obtain ⟨r', hr', rfl⟩ := List.mem_map.1 hr
    obtain ⟨I, hI, rfl⟩ := List.mem_map.1 hx
    rw [← h2] at hr'
    exact inDirection_nonneg l I (infoMatrices_psd probs hp θ g r' hr' I hI)
  · rw [information_some _ _ _ _ _ _ l hl, hg]
    simp [bind_ok, hd, h2, pure, Except.pure, Function.comp_def]

/-- For a single latent variable the direction is ignored. -/
theorem C31_one_dimension (probs : (Fin 1 → ℝ) → List (List ℝ)) (items C : ℕ) (scales : List (Scale 1))
    (item rescale : Bool) (θ : Thetas 1) (x : ℝ) :
    information probs items C scales item (some [x]) rescale θ
      = information probs items C scales item none rescale θ := by
  rw [information_some _ _ _ _ _ _ [x] rfl, information_none]
  rfl

/-- The test information is the sum of the item informations. -/
theorem C31_test_is_sum (probs : (Fin d → ℝ) → List (List ℝ)) (items C : ℕ) (scales : List (Scale d))
    (rescale : Bool) (θ : Thetas d) (m : List (List (Matrix (Fin d) (Fin d) ℝ)))
    (h : information probs items C scales true none rescale θ = .ok (.items m)) :
    information probs items C scales false none rescale θ = .ok (.test (m.map List.sum)) := by
  rw [information_none] at h ⊢
  obtain ⟨g, hg, hm⟩ := bind_eq_ok h
  have h2 : infoMatrices probs θ g = m := by simpa [pure, Except.pure] using hm
  rw [hg]
  simp [bind_ok, h2, pure, Except.pure]

theorem itemInformation_fisher (P : (Fin d → ℝ) → List ℝ) (t : Fin d → ℝ) (n : ℕ) (hn : (P t).length = n)
    (hdiff : ∀ c k, DifferentiableAt ℝ (fun v => (P (Function.update t k v)).getD c 0) (t k)) :
    itemInformation (P t) ((List.range n).map fun c => partialD (fun s => (P s).getD c 0) t)
      = fisherInformation P t := by
  rw [itemInformation_range _ _ hn]
  ext i j
  simp only [fisherInformation, Matrix.of_apply, hn]
  apply Finset.sum_congr rfl
  intro c _
  unfold infoTerm
  split_ifs with hz
  · rw [hz, zero_mul]
  · have hlog : ∀ k, partialD (fun s => Real.log ((P s).getD c 0)) t k
        = partialD (fun s => (P s).getD c 0) t k / (P t).getD c 0 := by
      intro k
      unfold partialD
      have hd := (hdiff c k).hasDerivAt
      have := (hd.log (by rw [Function.update_eq_self]; exact hz)).deriv
      rw [this, Function.update_eq_self]
    rw [hlog, hlog]
    field_simp

/-- On the original scale the item information is the Fisher information: the expected product of the
derivatives of the log probability. -/
theorem C31_fisher (probs : (Fin d → ℝ) → List (List ℝ)) (items C : ℕ) (hshape : TableShape items C probs)
    (hdiff : ∀ t i c k, DifferentiableAt ℝ (fun v => ((probs (Function.update t k v)).getD i []).getD c 0) (t k))
    (scales : List (Scale d)) (rescale : Bool) (hs : rescale = false ∨ scales = []) (θ : Thetas d) :
    information probs items C scales true none rescale θ = .ok (.items (θ.map fun t =>
      (List.range items).map fun i => fisherInformation (fun s => (probs s).getD i []) t)) := by
  rw [information_none, probabilityGradients_plain _ _ _ _ _ hs]
  simp only [bind_ok, pure, Except.pure, if_true]
  congr 2
  unfold infoMatrices
  have hzip : ∀ (f : (Fin d → ℝ) → List (List (Fin d → ℝ)) → List (Matrix (Fin d) (Fin d) ℝ)) (θ : Thetas d),
      List.zipWith f θ (θ.map (probabilityJacobian probs)) = θ.map fun t => f t (probabilityJacobian probs t) := by
    intro f θ
    induction θ with
    | nil => rfl
    | cons a θ ih => simp [ih]
  rw [hzip]
  apply List.map_congr_left
  intro t _
  rw [probabilityJacobian_eq hshape]
  apply List.ext_getElem
  · simp [(hshape t).1]
  · intro i h1 h2
    have hi : i < items := by simpa using h2
    rw [List.getElem_zipWith, List.getElem_map, List.getElem_range, List.getElem_map, List.getElem_range]
    have hrow : (probs t)[i]'(by rw [(hshape t).1]; exact hi) = (probs t).getD i [] := by
      rw [List.getD_eq_getElem _ _ (by rw [(hshape t).1]; exact hi)]
    rw [hrow]
    exact itemInformation_fisher (fun s => (probs s).getD i []) t C (hshape.row t i hi) fun c k => hdiff t i c k

theorem dot_ofFn (t : Fin d → ℝ) (a : List ℝ) : dot (List.ofFn t) a = ∑ x, t x * a.getD x 0 := by
  induction d generalizing a with
  | zero => simp [dot]
  | succ d ih =>
    rw [List.ofFn_succ, Fin.sum_univ_succ]
    cases a with
    | nil => simp [dot]
    | cons b a =>
      have := ih (fun i => t i.succ) a
      simp only [dot, List.zipWith_cons_cons, List.sum_cons] at this ⊢
      rw [this]
      simp

theorem twoPL_parameters (m : TwoPL) (hwf : m.WF) (j : ℕ) (hj : j < m.items) :
    ∃ p, m.itemParameters[j]? = some p := by
  apply getElem?_of_lt
  rw [TwoPL.itemParameters, List.length_zip, hwf.biasLen, TwoPL.weights, length_viewRows]
  omega

theorem twoPL_length (m : TwoPL) (x : List ℝ) : (m.probs x).length = m.items := by
  rw [TwoPL.probs, probabilitiesFromOutput, List.length_map, length_viewRows]

theorem twoPL_shape (m : TwoPL) (hwf : m.WF) : TableShape (d := d) m.items 2 fun t => m.probs (List.ofFn t) := by
  intro t
  refine ⟨twoPL_length m _, fun r hr => ?_⟩
  obtain ⟨j, hj⟩ := List.mem_iff_getElem?.1 hr
  have hlt := lt_of_getElem?_some hj
  rw [twoPL_length] at hlt
  obtain ⟨⟨a, b⟩, hp⟩ := twoPL_parameters m hwf j hlt
  rw [C03_twoPL_formula m hwf _ j a b hp] at hj
  have := Option.some.inj hj
  rw [← this]
  rfl

theorem twoPL_entry_hasDerivAt (t : Fin d → ℝ) (a : List ℝ) (b : ℝ) (k : Fin d) :
    HasDerivAt (fun v => logistic ((∑ x, Function.update t k v x * a.getD x 0) + b))
      (logistic ((∑ x, t x * a.getD x 0) + b) * (1 - logistic ((∑ x, t x * a.getD x 0) + b)) * a.getD k 0) (t k) := by
  have hl : logistic = sigmoid := funext logistic_eq_sigmoid
  rw [hl]
  have h1 : HasDerivAt (fun v => Function.update t k v) (Pi.single k 1) (t k) := hasDerivAt_update t k (t k)
  have h2 : HasDerivAt (fun v => (∑ x, Function.update t k v x * a.getD x 0) + b)
      (∑ x, (Pi.single k (1 : ℝ) : Fin d → ℝ) x * a.getD x 0) (t k) :=
    (HasDerivAt.fun_sum fun x _ => ((hasDerivAt_pi.1 h1) x).mul_const (a.getD x 0)).add_const b
  have h3 : (∑ x, (Pi.single k (1 : ℝ) : Fin d → ℝ) x * a.getD x 0) = a.getD k 0 := by
    rw [Finset.sum_eq_single k]
    · simp
    · intro x _ hx; simp [hx]
    · simp
  rw [h3] at h2
  have h4 := (sigmoid_hasDerivAt ((∑ x, Function.update t k (t k) x * a.getD x 0) + b)).comp (t k) h2
  rw [Function.update_eq_self] at h4
  exact h4

theorem twoPL_row (m : TwoPL) (hwf : m.WF) (j : ℕ) (a : List ℝ) (b : ℝ) (hp : m.itemParameters[j]? = some (a, b))
    (t : Fin d → ℝ) : (m.probs (List.ofFn t)).getD j []
      = [1 - logistic ((∑ x, t x * a.getD x 0) + b), logistic ((∑ x, t x * a.getD x 0) + b)] := by
  rw [List.getD_eq_getElem?_getD, C03_twoPL_formula m hwf _ j a b hp, dot_ofFn]
  rfl

/-- For the two-parameter logistic model the information of item `j` with slopes `a` and intercept `b` is
`p (1 - p) a aᵀ` where `p` is the probability of a correct response. -/
theorem C31_twoPL (m : TwoPL) (hwf : m.WF) (scales : List (Scale d)) (rescale : Bool)
    (hs : rescale = false ∨ scales = []) (θ : Thetas d) :
    ∃ M, information (fun t : Fin d → ℝ => m.probs (List.ofFn t)) m.items 2 scales true none rescale θ = .ok (.items M) ∧
      M.length = θ.length ∧ (∀ r ∈ M, r.length = m.items) ∧
      ∀ (n j : ℕ) t a b, θ[n]? = some t → m.itemParameters[j]? = some (a, b) →
        ∃ r I, M[n]? = some r ∧ r[j]? = some I ∧ ∀ i k : Fin d, I i k = a.getD i 0 * a.getD k 0 *
          (logistic ((∑ x, t x * a.getD x 0) + b) * (1 - logistic ((∑ x, t x * a.getD x 0) + b))) := by
  have hdiff : ∀ (t : Fin d → ℝ) (i c : ℕ) (k : Fin d), DifferentiableAt ℝ
      (fun v => ((m.probs (List.ofFn (Function.update t k v))).getD i []).getD c 0) (t k) := by
    intro t i c k
    by_cases hi : i < m.items
    · obtain ⟨⟨a, b⟩, hp⟩ := twoPL_parameters m hwf i hi
      simp only [twoPL_row m hwf i a b hp]
      rcases c with _ | _ | c
      · exact ((twoPL_entry_hasDerivAt t a b k).const_sub 1).differentiableAt
      · exact (twoPL_entry_hasDerivAt t a b k).differentiableAt
      · exact differentiableAt_const _
    · have : ∀ x : List ℝ, (m.probs x).getD i [] = [] := fun x =>
        List.getD_eq_default _ _ (by rw [twoPL_length]; omega)
      simp only [this]
      exact differentiableAt_const _
  refine ⟨_, C31_fisher _ m.items 2 (twoPL_shape m hwf) hdiff scales rescale hs θ, by simp, by
    intro r hr
    obtain ⟨t, _, rfl⟩ := List.mem_map.1 hr
    simp, ?_⟩
  intro n j t a b hn hp
  have hj : j < m.items := by
    have := lt_of_getElem?_some hp
    rw [TwoPL.itemParameters, List.length_zip, hwf.biasLen] at this
    omega
  refine ⟨_, _, by rw [List.getElem?_map, hn]; rfl, by
    rw [List.getElem?_map, List.getElem?_range hj]; rfl, ?_⟩
  intro i k
  have hrow := twoPL_row m hwf j a b hp (d := d)
  show fisherInformation (fun s : Fin d → ℝ => (m.probs (List.ofFn s)).getD j []) t i k = _
  rw [← itemInformation_fisher (fun s : Fin d → ℝ => (m.probs (List.ofFn s)).getD j []) t 2 (by rw [hrow]; rfl)
    fun c k => hdiff t j c k, itemInformation_range _ 2 (by rw [hrow]; rfl)]
  simp only [Matrix.of_apply, Finset.sum_range_succ, Finset.sum_range_zero, zero_add, hrow, List.getD_cons_zero,
    List.getD_cons_succ]
  set q := logistic ((∑ x, t x * a.getD x 0) + b) with hq
  have h0 : ∀ k, partialD (fun s : Fin d → ℝ => 1 - logistic ((∑ x, s x * a.getD x 0) + b)) t k
      = -(q * (1 - q) * a.getD k 0) := fun k => ((twoPL_entry_hasDerivAt t a b k).const_sub 1).deriv
  have h1 : ∀ k, partialD (fun s : Fin d → ℝ => logistic ((∑ x, s x * a.getD x 0) + b)) t k
      = q * (1 - q) * a.getD k 0 := fun k => (twoPL_entry_hasDerivAt t a b k).deriv
  have hq0 : 0 < q := logistic_pos _
  have hq1 : 0 < 1 - q := sub_pos.2 (logistic_lt_one _)
  rw [h0, h0, h1, h1]
  unfold infoTerm
  rw [if_neg hq0.ne', if_neg hq1.ne']
  field_simp
  ring

/-! ## C32 -/

theorem chain_partials (F : (Fin d → ℝ) → Fin d → ℝ) (J : Matrix (Fin d) (Fin d) ℝ) (t : Fin d → ℝ)
    (hF : IsJacobian F J t) (hdet : J.det ≠ 0) (p q : (Fin d → ℝ) → ℝ) (hpq : ∀ s, q (F s) = p s)
    (hq : DifferentiableAt ℝ q (F t)) :
    (J.transpose)⁻¹.mulVec (partialD p t) = partialD q (F t) := by
  have hpart : ∀ (f : (Fin d → ℝ) → ℝ) (L : (Fin d → ℝ) →L[ℝ] ℝ) (s : Fin d → ℝ), HasFDerivAt f L s →
      ∀ k, partialD f s k = L (Pi.single k 1) := by
    intro f L s hf k
    have h1 : HasDerivAt (fun v => Function.update s k v) (Pi.single k 1) (s k) := hasDerivAt_update s k (s k)
    have h2 : HasFDerivAt f L (Function.update s k (s k)) := by rw [Function.update_eq_self]; exact hf
    exact (h2.comp_hasDerivAt (s k) h1).deriv
  have hp : HasFDerivAt p ((fderiv ℝ q (F t)).comp (LinearMap.toContinuousLinearMap (Matrix.toLin' J))) t := by
    have := hq.hasFDerivAt.comp t hF
    rwa [show q ∘ F = p from funext hpq] at this
  have hkey : partialD p t = J.transpose.mulVec (partialD q (F t)) := by
    funext k
    rw [hpart p _ t hp k]
    have hL : ∀ w : Fin d → ℝ, (fderiv ℝ q (F t)) w = ∑ i, w i * partialD q (F t) i := by
      intro w
      conv_lhs => rw [pi_eq_sum_univ' w, map_sum]
      apply Finset.sum_congr rfl
      intro i _
      rw [map_smul, smul_eq_mul, hpart q _ _ hq.hasFDerivAt i]
    show (fderiv ℝ q (F t)) (Matrix.toLin' J (Pi.single k 1)) = _
    rw [hL]
    rw [Matrix.toLin'_apply, Matrix.mulVec_single_one]
    rfl
  rw [hkey, Matrix.mulVec_mulVec, Matrix.nonsing_inv_mul _ (by rw [Matrix.det_transpose]; exact hdet.isUnit),
    Matrix.one_mulVec]

/-- Gradients on the transformed scale: when the Jacobians of the scales are those of the transformation `F` and
are invertible, and `Q` gives the item probabilities as a function of the transformed scores, the rescaled
gradients are the gradients of `Q` at the transformed scores. -/
theorem C32_probability_gradients (probs Q : (Fin d → ℝ) → List (List ℝ)) (items C : ℕ)
    (hshape : TableShape items C probs) (hshapeQ : TableShape items C Q) (scales : List (Scale d)) (hs : scales ≠ [])
    (θ : Thetas d) (hθ : θ ≠ []) (F : (Fin d → ℝ) → Fin d → ℝ) (J : (Fin d → ℝ) → Matrix (Fin d) (Fin d) ℝ)
    (hJ : thetaTransformJacobian scales θ = .ok (θ.map J)) (hF : ∀ t ∈ θ, IsJacobian F (J t) t)
    (hdet : ∀ t ∈ θ, (J t).det ≠ 0) (hQ : ∀ s, Q (F s) = probs s)
    (hdiff : ∀ t ∈ θ, ∀ i c, DifferentiableAt ℝ (fun u => ((Q u).getD i []).getD c 0) (F t)) :
    probabilityGradients probs items C scales true θ = probabilityGradients Q items C [] true (θ.map F) := by
  rw [probabilityGradients_rescaled probs items C hshape scales hs θ hθ J hJ hdet,
    probabilityGradients_plain Q items C [] true (Or.inr rfl), List.map_map]
  congr 1
  apply List.map_congr_left
  intro t ht
  simp only [Function.comp]
  rw [probabilityJacobian_eq hshape, probabilityJacobian_eq hshapeQ, List.map_map]
  apply List.map_congr_left
  intro i _
  simp only [Function.comp]
  rw [List.map_map]
  apply List.map_congr_left
  intro c _
  exact chain_partials F (J t) t (hF t ht) (hdet t ht) (entryOf probs i c) (entryOf Q i c)
    (fun s => by unfold entryOf; rw [hQ]) (hdiff t ht i c)

/-- Information on the transformed scale is the information of the model written in the transformed scores. -/
theorem C32_information (probs Q : (Fin d → ℝ) → List (List ℝ)) (items C : ℕ)
    (hshape : TableShape items C probs) (hshapeQ : TableShape items C Q) (scales : List (Scale d)) (hs : scales ≠ [])
    (θ : Thetas d) (hθ : θ ≠ []) (F : (Fin d → ℝ) → Fin d → ℝ) (J : (Fin d → ℝ) → Matrix (Fin d) (Fin d) ℝ)
    (hJ : thetaTransformJacobian scales θ = .ok (θ.map J)) (hF : ∀ t ∈ θ, IsJacobian F (J t) t)
    (hdet : ∀ t ∈ θ, (J t).det ≠ 0) (hQ : ∀ s, Q (F s) = probs s)
    (hdiff : ∀ t ∈ θ, ∀ i c, DifferentiableAt ℝ (fun u => ((Q u).getD i []).getD c 0) (F t))
    (item : Bool) (degrees : Option (List ℝ)) :
    information probs items C scales item degrees true θ = information Q items C [] item degrees true (θ.map F) := by
  have hg := C32_probability_gradients probs Q items C hshape hshapeQ scales hs θ hθ F J hJ hF hdet hQ hdiff
  have hm : ∀ g, infoMatrices probs θ g = infoMatrices Q (θ.map F) g := by
    intro g
    unfold infoMatrices
    rw [List.zipWith_map_left]
    simp only [hQ]
  cases degrees with
  | none =>
    rw [information_none, information_none, hg]
    simp only [hm]
  | some l =>
    by_cases hl : l.length = d
    · rw [information_some _ _ _ _ _ _ l hl, information_some _ _ _ _ _ _ l hl, hg]
      simp only [hm]
    · rw [C31_degrees_refused _ _ _ _ _ _ l hl, C31_degrees_refused _ _ _ _ _ _ l hl]

/-- Information on the transformed scale is `J⁻ᵀ I J⁻¹` for the information `I` on the original scale. -/
theorem C32_information_matrix (probs : (Fin d → ℝ) → List (List ℝ)) (items C : ℕ)
    (hshape : TableShape items C probs) (scales : List (Scale d)) (hs : scales ≠ []) (θ : Thetas d) (hθ : θ ≠ [])
    (J : (Fin d → ℝ) → Matrix (Fin d) (Fin d) ℝ) (hJ : thetaTransformJacobian scales θ = .ok (θ.map J))
    (hdet : ∀ t ∈ θ, (J t).det ≠ 0) :
    ∃ M : (Fin d → ℝ) → List (Matrix (Fin d) (Fin d) ℝ),
      information probs items C scales true none false θ = .ok (.items (θ.map M)) ∧
      information probs items C scales true none true θ = .ok (.items (θ.map fun t => (M t).map fun I =>
        ((J t)⁻¹).transpose * I * (J t)⁻¹)) := by
  have hzip : ∀ (f : (Fin d → ℝ) → List (List (Fin d → ℝ)) → List (Matrix (Fin d) (Fin d) ℝ)) (θ : Thetas d)
      (g : (Fin d → ℝ) → List (List (Fin d → ℝ))), List.zipWith f θ (θ.map g) = θ.map fun t => f t (g t) := by
    intro f θ g
    induction θ with
    | nil => rfl
    | cons a θ ih => simp [ih]
  refine ⟨fun t => List.zipWith itemInformation (probs t) (probabilityJacobian probs t), ?_, ?_⟩
  · rw [information_none, probabilityGradients_plain _ _ _ _ _ (Or.inl rfl)]
    simp only [bind_ok, pure, Except.pure, if_true, infoMatrices, hzip]
  · rw [information_none, probabilityGradients_rescaled probs items C hshape scales hs θ hθ J hJ hdet]
    simp only [bind_ok, pure, Except.pure, if_true, infoMatrices, hzip]
    congr 2
    apply List.map_congr_left
    intro t _
    rw [List.zipWith_map_right, List.map_zipWith]
    congr 1
    funext p g
    rw [itemInformation_mulVec, Matrix.transpose_nonsing_inv, Matrix.transpose_transpose, ← Matrix.transpose_nonsing_inv]

/-- A singular Jacobian is refused. -/
theorem C32_singular (probs : (Fin d → ℝ) → List (List ℝ)) (items C : ℕ) (hi : 0 < items) (hC : 0 < C)
    (hshape : TableShape items C probs) (scales : List (Scale d)) (hs : scales ≠ [])
    (t : Fin d → ℝ) (J : Matrix (Fin d) (Fin d) ℝ) (hJ : thetaTransformJacobian scales [t] = .ok [J])
    (hdet : J.det = 0) (item : Bool) :
    probabilityGradients probs items C scales true [t] = .error .runtimeError ∧
    information probs items C scales item none true [t] = .error .runtimeError := by
  have h : probabilityGradients probs items C scales true [t] = .error .runtimeError := by
    unfold probabilityGradients
    rw [if_pos (by simpa using hs)]
    have hne : ((([t] : Thetas d).map (probabilityJacobian probs)).map List.flatten).flatten ≠ [] := by
      rw [List.map_singleton, List.map_singleton, probabilityJacobian_eq hshape]
      intro h0
      have hl := congrArg List.length h0
      simp [List.length_flatten, Function.comp_def, List.map_const'] at hl
      omega
    rw [rescaleGradients_singular scales t J hJ hdet _ hne]
    rfl
  refine ⟨h, ?_⟩
  rw [information_none, h]
  rfl

/-- Score of item `j` whose gradient is taken: its expected score, divided by the highest score of the item when
there is no answer key and the division is asked for. -/
noncomputable def gradientScore (cats : List ℕ) (mc : Option (List ℤ)) (byItemScore : Bool)
    (e : (Fin d → ℝ) → List ℝ) (j : ℕ) (s : Fin d → ℝ) : ℝ :=
  if (mc = none ∨ mc = some []) ∧ byItemScore then (e s).getD j 0 / ((cats.getD j 0 : ℝ) - 1) else (e s).getD j 0

theorem expectedScoreGradients_columns (probs : (Fin d → ℝ) → List (List ℝ)) (cats : List ℕ)
    (mc : Option (List ℤ)) (byItemScore : Bool) (e : (Fin d → ℝ) → List ℝ)
    (he : ∀ s, expectedItemScores (probs s) (maxCats cats) mc = .ok (e s)) (hlen : ∀ s, (e s).length = cats.length)
    (θ : Thetas d) :
    (List.range cats.length).mapM (fun item => gradOfSum (fun θ => do
      let s ← gradientScores probs cats mc byItemScore θ
      return s.map fun r => r.getD item 0) θ)
    = .ok ((List.range cats.length).map fun j => θ.map fun t => partialD (gradientScore cats mc byItemScore e j) t) := by
  apply mapM_ok
  intro j hj
  have hj' := List.mem_range.1 hj
  rw [gradOfSum_rowwise _ fun t => [gradientScore cats mc byItemScore e j t]]
  · congr 1
    apply List.map_congr_left
    intro t _
    funext k
    simp [partialD]
  · intro θ
    have h : gradientScores probs cats mc byItemScore θ = .ok (θ.map fun t =>
        if (mc = none ∨ mc = some []) ∧ byItemScore then
          List.zipWith (fun x (c : ℕ) => x / ((c : ℝ) - 1)) (e t) cats else e t) := by
      apply mapM_ok
      intro t _
      rw [he t]
      rfl
    rw [h]
    simp only [bind_ok, pure, Except.pure, List.map_map, List.flatMap_def]
    congr 1
    rw [← List.flatMap_def, show (θ.flatMap fun t => [gradientScore cats mc byItemScore e j t])
      = θ.map fun t => gradientScore cats mc byItemScore e j t by
        clear h
        induction θ with
        | nil => rfl
        | cons a θ ih => rw [List.flatMap_cons, ih]; rfl]
    apply List.map_congr_left
    intro t _
    simp only [Function.comp, gradientScore]
    split_ifs with hc
    · have h1 : j < (e t).length := by rw [hlen]; exact hj'
      rw [List.getD_eq_getElem _ _ (by rw [List.length_zipWith]; omega), List.getElem_zipWith,
        List.getD_eq_getElem _ _ h1, List.getD_eq_getElem _ _ hj']
    · rfl

theorem expectedScoreGradients_table (cats : List ℕ) (f : ℕ → (Fin d → ℝ) → Fin d → ℝ) (θ : Thetas d) :
    (List.range θ.length).map (fun n => ((List.range cats.length).map fun j => θ.map fun t => f j t).map
      fun col => col.getD n 0) = θ.map fun t => (List.range cats.length).map fun j => f j t := by
  apply List.ext_getElem
  · simp
  · intro n h1 h2
    have hn : n < θ.length := by simpa using h2
    rw [List.getElem_map, List.getElem_range, List.getElem_map, List.map_map]
    apply List.map_congr_left
    intro j _
    simp only [Function.comp]
    rw [List.getD_eq_getElem _ _ (by simpa using hn), List.getElem_map]

/-- Gradients of the expected item scores on the original scale are their partial derivatives. -/
theorem C32_expected_scores_plain (probs : (Fin d → ℝ) → List (List ℝ)) (cats : List ℕ) (mc : Option (List ℤ))
    (scales : List (Scale d)) (byItemScore rescale : Bool) (hs : rescale = false ∨ scales = [])
    (e : (Fin d → ℝ) → List ℝ) (he : ∀ s, expectedItemScores (probs s) (maxCats cats) mc = .ok (e s))
    (hlen : ∀ s, (e s).length = cats.length) (θ : Thetas d) :
    expectedScoreGradients probs cats mc scales byItemScore rescale θ = .ok (θ.map fun t =>
      (List.range cats.length).map fun j => partialD (gradientScore cats mc byItemScore e j) t) := by
  unfold expectedScoreGradients
  rw [expectedScoreGradients_columns probs cats mc byItemScore e he hlen θ]
  simp only [bind_ok]
  rw [expectedScoreGradients_table, if_neg]
  · rfl
  · rcases hs with h | h <;> simp [h]

/-- Gradients of the expected item scores on the transformed scale are the gradients of the expected scores as a
function of the transformed scores. -/
theorem C32_expected_scores (probs Q : (Fin d → ℝ) → List (List ℝ)) (cats : List ℕ) (mc : Option (List ℤ))
    (byItemScore : Bool) (e eQ : (Fin d → ℝ) → List ℝ)
    (he : ∀ s, expectedItemScores (probs s) (maxCats cats) mc = .ok (e s))
    (heQ : ∀ s, expectedItemScores (Q s) (maxCats cats) mc = .ok (eQ s))
    (hlen : ∀ s, (e s).length = cats.length) (hlenQ : ∀ s, (eQ s).length = cats.length)
    (scales : List (Scale d)) (hs : scales ≠ []) (θ : Thetas d) (hθ : θ ≠ [])
    (F : (Fin d → ℝ) → Fin d → ℝ) (J : (Fin d → ℝ) → Matrix (Fin d) (Fin d) ℝ)
    (hJ : thetaTransformJacobian scales θ = .ok (θ.map J)) (hF : ∀ t ∈ θ, IsJacobian F (J t) t)
    (hdet : ∀ t ∈ θ, (J t).det ≠ 0) (hQ : ∀ s, Q (F s) = probs s)
    (hdiff : ∀ t ∈ θ, ∀ j, DifferentiableAt ℝ (fun u => (eQ u).getD j 0) (F t)) :
    expectedScoreGradients probs cats mc scales byItemScore true θ
      = expectedScoreGradients Q cats mc [] byItemScore true (θ.map F) := by
  rw [C32_expected_scores_plain Q cats mc [] byItemScore true (Or.inr rfl) eQ heQ hlenQ]
  unfold expectedScoreGradients
  rw [expectedScoreGradients_columns probs cats mc byItemScore e he hlen θ]
  simp only [bind_ok]
  rw [expectedScoreGradients_table, if_pos (by simpa using hs), ← List.flatMap_def,
    rescaleGradients_eq scales θ hθ J hJ hdet cats.length _ fun t _ => by simp]
  simp only [bind_ok, pure, Except.pure]
  congr 1
  have hv := viewRows_flatten cats.length (θ.map fun t => ((List.range cats.length).map fun j =>
      partialD (gradientScore cats mc byItemScore e j) t).map fun h => ((J t).transpose)⁻¹.mulVec h) (by
    intro l hl
    obtain ⟨t, -, rfl⟩ := List.mem_map.1 hl
    simp)
  rw [List.length_map] at hv
  rw [List.flatMap_def, hv, List.map_map]
  apply List.map_congr_left
  intro t ht
  simp only [Function.comp]
  rw [List.map_map]
  apply List.map_congr_left
  intro j _
  have heq : ∀ s, eQ (F s) = e s := by
    intro s
    have h1 := heQ (F s)
    rw [hQ, he s] at h1
    exact (Except.ok.inj h1).symm
  apply chain_partials F (J t) t (hF t ht) (hdet t ht)
  · intro s
    unfold gradientScore
    rw [heq]
  · unfold gradientScore
    split_ifs with hc
    · simp only [div_eq_mul_inv]
      exact (hdiff t ht j).mul_const _
    · exact hdiff t ht j

/-! ## Non-vacuity -/

/-- A two-dimensional 2PL model with a reversed scale meets the hypotheses of the theorems on C32: written in the
reversed scores the model has the slopes with opposite signs. -/
noncomputable def exReversed (t : Fin 2 → ℝ) : List (List ℝ) := exTwoPL.probs (List.ofFn fun k => -t k)

example : TableShape (d := 2) exTwoPL.items 2 (fun t => exTwoPL.probs (List.ofFn t)) ∧
    TableShape (d := 2) exTwoPL.items 2 exReversed ∧
    thetaTransformJacobian [reverseScale (fun _ : Fin 2 => true)] [![1, 2]]
      = .ok (([![1, 2]] : Thetas 2).map fun _ => Matrix.diagonal fun _ : Fin 2 => (-1 : ℝ)) ∧
    (∀ t : Fin 2 → ℝ, IsJacobian (fun t k => -t k) (Matrix.diagonal fun _ : Fin 2 => (-1 : ℝ)) t) ∧
    (Matrix.diagonal fun _ : Fin 2 => (-1 : ℝ)).det ≠ 0 ∧
    ∀ s : Fin 2 → ℝ, exReversed (fun k => -s k) = exTwoPL.probs (List.ofFn s) := by
  refine ⟨twoPL_shape _ exTwoPL_wf, fun t => twoPL_shape (d := 2) _ exTwoPL_wf _, ?_, ?_, ?_, ?_⟩
  · simp [thetaTransformJacobian, jacobianLoop, reverseScale, reverseSign, bind, Except.bind]
  · intro t
    exact IsJacobian.diagonal fun k => hasDerivAt_neg (t k)
  · simp
  · intro s
    simp [exReversed]

/-- Expected scores of the same model, without an answer key. -/
example : ∃ e : (Fin 2 → ℝ) → List ℝ, (∀ s, expectedItemScores (exTwoPL.probs (List.ofFn s)) 2 none = .ok (e s)) ∧
    ∀ s, (e s).length = exTwoPL.items := by
  refine ⟨fun s => List.zipWith dot (exTwoPL.probs (List.ofFn s))
    (List.replicate (exTwoPL.probs (List.ofFn s)).length ((List.range 2).map fun m : ℕ => (m : ℝ))), fun s => rfl, ?_⟩
  intro s
  simp [twoPL_length]

end Irt
