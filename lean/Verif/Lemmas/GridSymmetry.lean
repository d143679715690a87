import Verif.Spec.Relabel
import Verif.Props.Marginal

/-! # Symmetry of the integration grids -/

namespace Irt
open Spec

/-- The weighted sum over the points does not change when the points are moved by `g`. -/
def GridSymmetric {d : ℕ} (pts : Thetas d) (lw : List ℝ) (g : (Fin d → ℝ) → Fin d → ℝ) : Prop :=
  ∀ F : (Fin d → ℝ) → ℝ, weighted pts (lw.map Real.exp) (fun θ => F (g θ)) = weighted pts (lw.map Real.exp) F

theorem sum_zipWith_range (n : ℕ) (x w : List ℝ) (hx : x.length = n) (hw : w.length = n) (f : ℝ → ℝ → ℝ) :
    (List.zipWith f x w).sum = ∑ i : Fin n, f (x.getD i 0) (w.getD i 0) := by
  induction n generalizing x w with
  | zero =>
    obtain rfl := List.length_eq_zero_iff.1 hx
    simp
  | succ n ih =>
    obtain ⟨a, x, rfl⟩ := List.exists_cons_of_length_eq_add_one hx
    obtain ⟨b, w, rfl⟩ := List.exists_cons_of_length_eq_add_one hw
    rw [List.zipWith_cons_cons, List.sum_cons, Fin.sum_univ_succ, ih x w (by simpa using hx) (by simpa using hw)]
    simp

/-- A sum over a product grid is a sum over all ways to choose a node for every latent variable. -/
theorem gridProduct_choices (n : ℕ) (x w : List ℝ) (hx : x.length = n) (hw : w.length = n) (d : ℕ)
    (h : (Fin d → ℝ) → (Fin d → ℝ) → ℝ) :
    (List.zipWith h (gridProduct x d) (gridProduct w d)).sum
      = ∑ g : Fin d → Fin n, h (fun i => x.getD (g i) 0) (fun i => w.getD (g i) 0) := by
  induction d with
  | zero =>
    simp only [gridProduct, List.zipWith_cons_cons, List.zipWith_nil_left, List.sum_singleton,
      Finset.univ_unique, Finset.sum_singleton]
    congr 1 <;> exact Subsingleton.elim _ _
  | succ d ih =>
    rw [gridProduct, gridProduct, zipWith_flatMap_map _ _ _ _ _ _ _
      (by rw [length_gridProduct, length_gridProduct, hx, hw]), List.sum_flatten, List.map_zipWith,
      sum_zipWith_range n x w hx hw]
    simp only [ih fun u v => h (Fin.cons _ u) (Fin.cons _ v)]
    rw [← Fintype.sum_prod_type' (f := fun (a : Fin n) (g : Fin d → Fin n) =>
      h (Fin.cons (x.getD a 0) fun i => x.getD (g i) 0) (Fin.cons (w.getD a 0) fun i => w.getD (g i) 0))]
    refine Fintype.sum_equiv (Fin.consEquiv fun _ => Fin n) _ _ fun p => ?_
    congr 1 <;> funext i <;> refine Fin.cases ?_ (fun i => ?_) i <;> simp [Fin.consEquiv]

theorem gridProduct_relabel (n : ℕ) (x w : List ℝ) (hx : x.length = n) (hw : w.length = n) {d : ℕ} (σ : Equiv.Perm (Fin d))
    (h : (Fin d → ℝ) → (Fin d → ℝ) → ℝ) :
    (List.zipWith (fun u v => h (relabel σ u) (relabel σ v)) (gridProduct x d) (gridProduct w d)).sum
      = (List.zipWith h (gridProduct x d) (gridProduct w d)).sum := by
  rw [gridProduct_choices n x w hx hw, gridProduct_choices n x w hx hw]
  exact Fintype.sum_equiv (Equiv.arrowCongr σ.symm (Equiv.refl (Fin n))) _ _ fun g => rfl

theorem gridProduct_turnRound (n : ℕ) (x w : List ℝ) (hx : x.length = n) (hw : w.length = n) (hxw : SymmetricRule x w) {d : ℕ}
    (s : Fin d → Bool) (h : (Fin d → ℝ) → (Fin d → ℝ) → ℝ) :
    (List.zipWith (fun u v => h (turnRound s u) v) (gridProduct x d) (gridProduct w d)).sum
      = (List.zipWith h (gridProduct x d) (gridProduct w d)).sum := by
  have rev : ∀ (l : List ℝ), l.length = n → ∀ i : Fin n, l.getD (Fin.rev i) 0 = l.reverse.getD i 0 := by
    intro l hl i
    rw [List.getD_eq_getElem?_getD, List.getD_eq_getElem?_getD, List.getElem?_reverse (by omega), Fin.val_rev, hl]
    congr 2; omega
  have hx' : ∀ i : Fin n, x.getD (Fin.rev i) 0 = -x.getD i 0 := by
    intro i
    rw [rev x hx, hxw.1, List.getD_eq_getElem?_getD, List.getElem?_map, List.getD_eq_getElem?_getD]
    cases x[(i : ℕ)]? <;> simp
  have hw' : ∀ i : Fin n, w.getD (Fin.rev i) 0 = w.getD i 0 := by
    intro i; rw [rev w hw, hxw.2]
  rw [gridProduct_choices n x w hx hw, gridProduct_choices n x w hx hw]
  refine Fintype.sum_equiv (Equiv.piCongrRight fun i => if s i then Fin.revPerm else Equiv.refl (Fin n)) _ _ fun g => ?_
  congr 1
  · funext i
    simp only [turnRound, Equiv.piCongrRight_apply, Pi.map_apply]
    by_cases hs : s i = true
    · simp only [hs, if_true, Fin.revPerm_apply, hx']
    · simp [hs]
  · funext i
    simp only [Equiv.piCongrRight_apply, Pi.map_apply]
    by_cases hs : s i = true
    · simp only [hs, if_true, Fin.revPerm_apply, hw']
    · simp [hs]

theorem cartesianProd_const (l : List ℝ) (d : ℕ) : cartesianProd (fun _ : Fin d => l) = gridProduct l d := by
  induction d with
  | zero => rfl
  | succ d ih => simp only [cartesianProd, gridProduct, ih]

theorem weighted_map {d : ℕ} (pts : Thetas d) (lw : (Fin d → ℝ) → ℝ) (F : (Fin d → ℝ) → ℝ) :
    weighted pts ((pts.map lw).map Real.exp) F = (List.zipWith (fun u _ => Real.exp (lw u) * F u) pts pts).sum := by
  unfold weighted
  induction pts with
  | nil => rfl
  | cons p pts ih => simp only [List.map_cons, List.zipWith_cons_cons, List.sum_cons, ih]

theorem mvn_one {d : ℕ} (θ θ' : Fin d → ℝ) (h : ∑ k, θ k ^ 2 = ∑ k, θ' k ^ 2) :
    mvnLogDensity 0 (1 : Matrix (Fin d) (Fin d) ℝ) θ = mvnLogDensity 0 1 θ' := by
  have e : ∀ u : Fin d → ℝ, dotProduct u u = ∑ k, u k ^ 2 := by
    intro u; unfold dotProduct; exact Finset.sum_congr rfl fun k _ => (sq (u k)).symm
  unfold mvnLogDensity
  simp only [sub_zero, inv_one, Matrix.one_mulVec, e, h]

theorem sq_relabel {d : ℕ} (σ : Equiv.Perm (Fin d)) (θ : Fin d → ℝ) : ∑ k, relabel σ θ k ^ 2 = ∑ k, θ k ^ 2 :=
  Equiv.sum_comp σ fun k => θ k ^ 2

theorem sq_turnRound {d : ℕ} (s : Fin d → Bool) (θ : Fin d → ℝ) : ∑ k, turnRound s θ k ^ 2 = ∑ k, θ k ^ 2 := by
  refine Finset.sum_congr rfl fun k _ => ?_
  unfold turnRound
  split <;> ring

theorem linspace_symmetric (n : ℕ) (hn : 2 ≤ n) : SymmetricRule (linspace (-3) 3 n) (linspace (-3) 3 n |>.map fun _ => 1) := by
  have hn' : ((n : ℝ) - 1) ≠ 0 := by
    have : (2 : ℝ) ≤ n := by exact_mod_cast hn
    linarith
  refine ⟨?_, ?_⟩
  · apply List.ext_getElem?
    intro i
    by_cases hi : i < n
    · rw [List.getElem?_reverse (by simpa [linspace] using hi), length_linspace, List.getElem?_map]
      unfold linspace
      rw [List.getElem?_map, List.getElem?_map, List.getElem?_range (by omega), List.getElem?_range hi]
      simp only [Option.map_some]
      congr 1
      have : ((n - 1 - i : ℕ) : ℝ) = (n : ℝ) - 1 - i := by
        rw [Nat.cast_sub (by omega), Nat.cast_sub (by omega)]; simp
      rw [this]
      field_simp
      ring
    · rw [List.getElem?_eq_none (by simpa [linspace] using hi), List.getElem?_eq_none (by simpa [linspace] using hi)]
  · simp [List.map_const']

/-- How the integration of `fit` is set up with the default covariance matrix: `n ≥ 1` points per latent variable, and for
`gauss_hermite` a rule of `n` positive weights and the Cholesky factor 1 of the identity matrix. -/
structure MmlRule {d : ℕ} (hg : ℕ → Except PyErr (List ℝ × List ℝ))
    (ch : Matrix (Fin d) (Fin d) ℝ → Except PyErr (Matrix (Fin d) (Fin d) ℝ)) (method : String) (points : Option ℕ) (n : ℕ) : Prop where
  count : mmlPoints d points = .ok n
  pos : 1 ≤ n
  rule : method = "gauss_hermite" → ∃ x w, hg n = .ok (x, w) ∧ x.length = n ∧ w.length = n ∧ (∀ v ∈ w, 0 < v) ∧ ch 1 = .ok 1

theorem mmlIntegration_symmetric {d : ℕ} {hg : ℕ → Except PyErr (List ℝ × List ℝ)}
    {ch : Matrix (Fin d) (Fin d) ℝ → Except PyErr (Matrix (Fin d) (Fin d) ℝ)} {method : String} {points : Option ℕ} {n : ℕ}
    (h : MmlRule hg ch method points n) :
    ∃ pts lw, mmlIntegration hg ch method points none = .ok (pts, lw) ∧ pts ≠ [] ∧ lw.length = pts.length ∧
      (∀ σ : Equiv.Perm (Fin d), GridSymmetric pts lw (relabel σ)) ∧
      ((method = "gauss_hermite" → ∃ x w, hg n = .ok (x, w) ∧ SymmetricRule x w) → (method ≠ "gauss_hermite" → 2 ≤ n) →
        ∀ s : Fin d → Bool, GridSymmetric pts lw (turnRound s)) := by
  by_cases hm : method = "gauss_hermite"
  · obtain ⟨x, w, hx, hxl, hwl, hpos, hch⟩ := h.rule hm
    have hok : mmlIntegration hg ch method points none
        = .ok ((gridProduct x d).map fun v => fun i => Real.sqrt 2 * v i,
            ((gridProduct w d).map fun v => (∏ i, v i) * Real.pi ^ (-(1 / 2 : ℝ) * d)).map Real.log) := by
      unfold mmlIntegration
      rw [h.count]
      simp only [mmlCovariance, bind_ok, hm, if_true]
      unfold gaussHermite
      rw [hx, hch]
      simp only [bind_ok, List.map_map, Matrix.one_mulVec, Pi.zero_apply, add_zero, pure, Except.pure]
      rfl
    have hexp : (((gridProduct w d).map fun v => (∏ i, v i) * Real.pi ^ (-(1 / 2 : ℝ) * d)).map Real.log).map Real.exp
        = (gridProduct w d).map fun v => (∏ i, v i) * Real.pi ^ (-(1 / 2 : ℝ) * d) := by
      rw [List.map_map, List.map_map]
      refine List.map_congr_left fun v hv => ?_
      exact Real.exp_log (mul_pos (gridProduct_pos w hpos d v hv) (Real.rpow_pos_of_pos Real.pi_pos _))
    have hwt : ∀ F : (Fin d → ℝ) → ℝ, weighted ((gridProduct x d).map fun v => fun i => Real.sqrt 2 * v i)
        ((((gridProduct w d).map fun v => (∏ i, v i) * Real.pi ^ (-(1 / 2 : ℝ) * d)).map Real.log).map Real.exp) F
        = (List.zipWith (fun u v => (∏ i, v i) * Real.pi ^ (-(1 / 2 : ℝ) * d) * F fun i => Real.sqrt 2 * u i)
            (gridProduct x d) (gridProduct w d)).sum := by
      intro F
      rw [hexp]
      unfold weighted
      rw [List.zipWith_map]
    refine ⟨_, _, hok, ?_, ?_, ?_, ?_⟩
    · intro h0
      have := congrArg List.length h0
      rw [List.length_map, length_gridProduct, hxl] at this
      exact absurd this (pow_pos (by have := h.pos; omega) d).ne'
    · simp only [List.length_map, length_gridProduct, hxl, hwl]
    · intro σ F
      rw [hwt, hwt]
      refine Eq.trans ?_ (gridProduct_relabel n x w hxl hwl σ _)
      congr 2
      funext u v
      congr 2
      exact (Equiv.prod_comp σ v).symm
    · intro hs _ s F
      obtain ⟨x', w', hx', hsym⟩ := hs hm
      obtain ⟨rfl, rfl⟩ := Prod.mk.inj (Except.ok.inj (hx.symm.trans hx'))
      rw [hwt, hwt]
      refine Eq.trans ?_ (gridProduct_turnRound n x w hxl hwl hsym s _)
      congr 2
      funext u v
      congr 2
      funext i
      unfold turnRound
      split <;> ring
  · have hone : (1 : Matrix (Fin d) (Fin d) ℝ).PosDef := Matrix.PosDef.one
    have hok : mmlIntegration hg ch method points none
        = .ok (gridProduct (linspace (-3) 3 n) d, (gridProduct (linspace (-3) 3 n) d).map (mvnLogDensity 0 1)) := by
      unfold mmlIntegration
      rw [h.count]
      simp only [mmlCovariance, bind_ok, if_neg hm]
      unfold quasiMc mvnLogProbs
      simp only [if_pos hone, ← cartesianProd_const]
      rfl
    have hlen := length_linspace (-3) 3 n
    refine ⟨_, _, hok, ?_, ?_, ?_, ?_⟩
    · intro h0
      have := congrArg List.length h0
      rw [length_gridProduct, hlen] at this
      exact absurd this (pow_pos (by have := h.pos; omega) d).ne'
    · rw [List.length_map]
    · intro σ F
      rw [weighted_map, weighted_map]
      refine Eq.trans ?_ (gridProduct_relabel n _ _ hlen hlen σ _)
      congr 2
      funext u v
      rw [mvn_one u (relabel σ u) (sq_relabel σ u).symm]
    · intro _ hn s F
      have hsym := linspace_symmetric n (hn hm)
      have key : ∀ G : (Fin d → ℝ) → ℝ, (List.zipWith (fun u _ => G u) (gridProduct (linspace (-3) 3 n) d)
          (gridProduct (linspace (-3) 3 n) d)).sum
          = (List.zipWith (fun u _ => G u) (gridProduct (linspace (-3) 3 n) d)
            (gridProduct ((linspace (-3) 3 n).map fun _ => 1) d)).sum := by
        intro G
        rw [gridProduct_choices n _ _ hlen hlen, gridProduct_choices n _ _ hlen (by rw [List.length_map, hlen])]
      rw [weighted_map, weighted_map, key fun u => Real.exp (mvnLogDensity 0 1 u) * F (turnRound s u),
        key fun u => Real.exp (mvnLogDensity 0 1 u) * F u]
      refine Eq.trans ?_ (gridProduct_turnRound n _ _ hlen (by rw [List.length_map, hlen]) hsym s _)
      congr 2
      funext u v
      rw [mvn_one u (turnRound s u) (sq_turnRound s u).symm]

/-- The MML loss as a function of the weighted sums of the likelihoods. -/
theorem mmlLoss_weighted {d : ℕ} {m : Scorer d} {cats : List ℕ} {P : (Fin d → ℝ) → ℕ → ℕ → ℝ} (hm : IsScorer m cats P)
    (hpos : PositiveProbs P cats) (N : ℕ) (y : ℕ → ℕ → Cell) (hy : ∀ i, i < N → ValidResponses cats (y i)) (pts : Thetas d)
    (lw : List ℝ) (hlen : lw.length = pts.length) (hne : pts ≠ []) :
    mmlLoss m (rowsOf N cats.length y) pts lw = .ok (some (-∑ i ∈ Finset.range N,
      Real.log (weighted pts (lw.map Real.exp) (observedLikelihood P cats.length (y i))))) := by
  have h := (C48_objective hm N pts.length y hy (fun g => pts.getD g 0) (fun g => Real.exp (lw.getD g 0))
    (fun g _ => Real.exp_pos _)).1 (by
      intro i hi
      refine (Finset.sum_pos (fun g _ => mul_pos (Real.exp_pos _) (observedLikelihood_pos hpos _ (hy i hi) _)) ?_).ne'
      exact Finset.nonempty_range_iff.2 (by simpa using hne))
  have e2 : (List.range pts.length).map (fun g => Real.log (Real.exp (lw.getD g 0))) = lw := by
    simp only [Real.log_exp]
    apply List.ext_getElem?
    intro g
    by_cases hg : g < pts.length
    · rw [List.getElem?_map, List.getElem?_range hg, Option.map_some, List.getD_eq_getElem?_getD,
        List.getElem?_eq_getElem (by omega), Option.getD_some]
    · rw [List.getElem?_eq_none (by simpa using hg), List.getElem?_eq_none (by omega)]
  rw [← grid_eq pts, e2] at h
  rw [h]
  congr 3
  refine Finset.sum_congr rfl fun i _ => ?_
  congr 1
  unfold weighted
  have : ∀ (pts : Thetas d) (lw : List ℝ), lw.length = pts.length → ∀ F : (Fin d → ℝ) → ℝ,
      ∑ g ∈ Finset.range pts.length, Real.exp (lw.getD g 0) * F (pts.getD g 0)
        = (List.zipWith (fun p a => a * F p) pts (lw.map Real.exp)).sum := by
    intro pts
    induction pts with
    | nil => intro lw _ F; simp
    | cons p pts ih =>
      intro lw hl F
      obtain ⟨a, lw, rfl⟩ := List.exists_cons_of_length_eq_add_one hl
      rw [List.length_cons, Finset.sum_range_succ', List.map_cons, List.zipWith_cons_cons, List.sum_cons,
        ← ih lw (by simpa using hl) F]
      simp [add_comm]
  exact this pts lw hlen _

end Irt
