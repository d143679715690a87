import Verif.Lemmas.Recode
import Verif.Spec.ScoreEquations
import Verif.Props.ScoreSearch

/-! # Property C123: recoding the answers -/

namespace Irt
open Spec Finset

/-! ## What a model that follows the new names computes on recoded data -/

section General
variable {d : ℕ} {cats : List ℕ} {σ : ℕ → ℕ → ℕ} {P P' : (Fin d → ℝ) → ℕ → ℕ → ℝ} {m m' : Scorer d}

theorem renamed_logE (h : Follows cats σ P P') (row : ℕ → ℕ → Cell) (i : ℕ) (hy : ValidResponses cats (row i)) (θ : Fin d → ℝ) (j : ℕ)
    (hj : j < cats.length) :
    (if cellMissing (renamed σ row i j) then none else some (logE (P' θ j (responseOf (renamed σ row i j)))))
      = if cellMissing (row i j) then none else some (logE (P θ j (responseOf (row i j)))) := by
  rw [renamed, renameCell_missing]
  split
  · rfl
  · rename_i hm
    rw [Bool.not_eq_true] at hm
    obtain ⟨c, hc⟩ := getElem?_of_lt cats j hj
    obtain ⟨r, hr, hrc⟩ := hy j c hc hm
    rw [renameCell_response _ _ hm, hr]
    exact congrArg (fun x => some (logE x)) (h θ j c r hc hrc)

theorem renamed_logLikAt (h : Follows cats σ P P') (y : ℕ → ℕ → Cell) (i : ℕ) (hy : ValidResponses cats (y i)) (θ : Fin d → ℝ) :
    logLikAt P' cats.length (renamed σ y i) θ = logLikAt P cats.length (y i) θ := by
  unfold logLikAt
  congr 1
  exact List.map_congr_left fun j hj => renamed_logE h y i hy θ j (List.mem_range.1 hj)

variable (hm : IsScorer m cats P) (hm' : IsScorer m' cats P') (hσ : Renaming cats σ) (h : Follows cats σ P P') (N : ℕ)
  (y : ℕ → ℕ → Cell) (hy : ∀ i, i < N → ValidResponses cats (y i))

include hm hm' hσ h hy

theorem renamed_pointMajor (pts : Thetas d) :
    pointMajorLL m' (rowsOf N cats.length (renamed σ y)) pts = pointMajorLL m (rowsOf N cats.length y) pts := by
  have h1 := pointMajorLL_eq hm' N (renamed σ y) (fun i hi => renamed_valid hσ y i (hy i hi)) pts
  have h2 := pointMajorLL_eq hm N y hy pts
  rw [hm'.items] at h1
  rw [hm.items] at h2
  rw [h1, h2]
  congr 1
  exact flatTensor_congr _ _ _ _ fun g _ i hi => renamed_logLikAt h y i (hy i hi) _

theorem renamed_respondentMajor (pts : Thetas d) :
    respondentMajorLL m' (rowsOf N cats.length (renamed σ y)) pts = respondentMajorLL m (rowsOf N cats.length y) pts := by
  have h1 := respondentMajorLL_eq hm' N (renamed σ y) (fun i hi => renamed_valid hσ y i (hy i hi)) pts
  have h2 := respondentMajorLL_eq hm N y hy pts
  rw [hm'.items] at h1
  rw [hm.items] at h2
  rw [h1, h2]
  congr 1
  exact flatTensor_congr _ _ _ _ fun i hi g _ => renamed_logLikAt h y i (hy i hi) _

/-- C123: the marginal loss of the recoded data under a model that follows the new names is the marginal loss of the data under the
model, for all integration points and weights. -/
theorem C123_mml_loss (pts : Thetas d) (lw : List ℝ) :
    mmlLoss m' (rowsOf N cats.length (renamed σ y)) pts lw = mmlLoss m (rowsOf N cats.length y) pts lw := by
  have hN : ∀ z : ℕ → ℕ → Cell, (rowsOf N cats.length z).length = N := by intro z; simp [rowsOf]
  unfold mmlLoss
  rw [renamed_pointMajor hm hm' hσ h N y hy pts]
  simp only [hN]

/-- C123: every respondent keeps the EAP scores. -/
theorem C123_eap (a : AlgAttrs d) (points : Option ℕ) :
    eapScores m' a (rowsOf N cats.length (renamed σ y)) points = eapScores m a (rowsOf N cats.length y) points := by
  have hN : ∀ z : ℕ → ℕ → Cell, (rowsOf N cats.length z).length = N := by intro z; simp [rowsOf]
  unfold eapScores eapOnGrid
  simp only [renamed_respondentMajor hm hm' hσ h N y hy, hN]

/-- C123: the search for the ML and MAP scores starts at the same scores and maximises the same function. -/
theorem C123_ml_map :
    (∀ training perm, initialTheta m' (rowsOf N cats.length (renamed σ y)) training perm
      = initialTheta m (rowsOf N cats.length y) training perm) ∧
    ∀ prior (thetas : Thetas d), thetas.length = N → scoreObjective m' prior (rowsOf N cats.length (renamed σ y)) thetas
      = scoreObjective m prior (rowsOf N cats.length y) thetas := by
  have hN : ∀ z : ℕ → ℕ → Cell, (rowsOf N cats.length z).length = N := by intro z; simp [rowsOf]
  constructor
  · intro training perm
    unfold initialTheta initialFromCandidates
    simp only [renamed_respondentMajor hm hm' hσ h N y hy, hN]
  · intro prior thetas ht
    have key : ∀ (s : Scorer d) (Q : (Fin d → ℝ) → ℕ → ℕ → ℝ) (hs : IsScorer s cats Q) (z : ℕ → ℕ → Cell),
        (∀ i, i < N → ValidResponses cats (z i)) →
        s.logLik (thetas.map s.forward) (rowsOf N cats.length z).flatten
          (List.map (fun r => List.map cellMissing r) (rowsOf N cats.length z)).flatten
        = .ok (flatTensor N cats.length fun i j =>
          if cellMissing (z i j) then none else some (logE (Q (thetas.getD i 0) j (responseOf (z i j))))) := by
      intro s Q hs z hz
      have := hs.logLik N (fun i => thetas.getD i 0) z hz
      rw [hs.items] at this
      rw [← this]
      congr 1
      · conv_lhs => rw [grid_eq thetas, List.map_map, ht]
        rfl
      · simp only [rowsOf, List.map_map, Function.comp_def]
        rfl
    unfold scoreObjective
    dsimp only
    rw [key m' P' hm' (renamed σ y) fun i hi => renamed_valid hσ y i (hy i hi), key m P hm y hy,
      flatTensor_congr N cats.length _ _ fun i hi j hj => renamed_logE h y i (hy i hi) (thetas.getD i 0) j hj]

end General

/-! ## Reverse coding -/

/-- Two multinomial logit models whose logits agree up to renaming and a constant. -/
theorem logit_follows {d : ℕ} {cats : List ℕ} {σ : ℕ → ℕ → ℕ} {P P' : (Fin d → ℝ) → ℕ → ℕ → ℝ} {A A' : ℕ → ℕ → Fin d → ℝ}
    {B B' : ℕ → ℕ → ℝ} (hσ : Renaming cats σ) (h : LogitModel cats P A B) (h' : LogitModel cats P' A' B')
    (hs : ∀ j c : ℕ, cats[j]? = some c → ∃ (a : Fin d → ℝ) (b : ℝ), ∀ r, r < c →
      (∀ k, A' j (σ j r) k = A j r k + a k) ∧ B' j (σ j r) = B j r + b) : Follows cats σ P P' := by
  intro θ j c r hc hr
  obtain ⟨a, b, hab⟩ := hs j c hc
  rw [h θ j c r hc hr, h' θ j c (σ j r) hc (hσ.valid j c r hc hr)]
  have e : ∀ s, s < c → Real.exp (∑ k, A' j (σ j s) k * θ k + B' j (σ j s))
      = Real.exp (∑ k, A j s k * θ k + B j s) * Real.exp (∑ k, a k * θ k + b) := by
    intro s hs
    rw [← Real.exp_add]
    congr 1
    simp only [(hab s hs).1, (hab s hs).2, add_mul, sum_add_distrib]
    ring
  obtain ⟨τ, hτ, hinv⟩ := renaming_inverse hσ
  have tot : ∑ s ∈ range c, Real.exp (∑ k, A' j s k * θ k + B' j s)
      = ∑ s ∈ range c, Real.exp (∑ k, A' j (σ j s) k * θ k + B' j (σ j s)) := by
    symm
    refine sum_bij (fun s _ => σ j s) ?_ ?_ ?_ ?_
    · intro s hs
      exact mem_range.2 (hσ.valid j c s hc (mem_range.1 hs))
    · intro s hs t ht
      exact hσ.inj j c s t hc (mem_range.1 hs) (mem_range.1 ht)
    · intro s hs
      exact ⟨τ j s, mem_range.2 (hτ.valid j c s hc (mem_range.1 hs)), (hinv j c s hc (mem_range.1 hs)).2⟩
    · intro s _; rfl
  rw [tot, sum_congr rfl fun s hs => e s (mem_range.1 hs), ← sum_mul, e r hr, mul_div_mul_right _ _ (Real.exp_pos _).ne']

theorem slopeOf_range {β : Type*} (ps : List (List ℝ × β)) (j lv : ℕ) (f : ℕ → ℝ) (b : β)
    (h : ps[j]? = some ((List.range lv).map f, b)) (k : Fin lv) : slopeOf ps j k = f k := by
  rw [slopeOf_eq _ _ _ _ h, ofRange_getD _ _ _ k.2]

/-- C123, 2PL: reverse coding any items gives data that the 2PL describes as well, with the slopes and intercepts of these items
negated and the other parameters kept. -/
theorem C123_twoPL (m : TwoPL) (hwf : m.WF) (chosen : ℕ → Bool) :
    ∃ n : TwoPL, n.WF ∧ n.items = m.items ∧ n.lv = m.lv ∧ n.rel = m.rel ∧
      (∀ j a b, m.itemParameters[j]? = some (a, b) →
        n.itemParameters[j]? = some (if chosen j then (a.map (fun x => -x), -b) else (a, b))) ∧
      Follows (d := m.lv) (List.replicate m.items 2) (reverseCoding (List.replicate m.items 2) chosen)
        (fun θ => tableProb (m.probs (List.ofFn θ))) (fun θ => tableProb (n.probs (List.ofFn θ))) := by
  let A : ℕ → ℕ → ℝ := fun j k => (if chosen j then -1 else 1) * slopeOf m.itemParameters j k
  let b : ℕ → ℝ := fun j => ((m.itemParameters[j]?).map Prod.snd).getD 0
  obtain ⟨n, hn, hit, hlv, hrel, hpar⟩ := twoPL_exists m.items m.lv m.rel hwf.relLen hwf.relRow A
    (fun j => (if chosen j then -1 else 1) * b j) (by
      intro j k r hr hk
      obtain ⟨⟨a, e, hp, ha⟩, -⟩ := C16_twoPL_unrelated m hwf [] 0 j k r hr hk
      simp only [A, slopeOf_eq _ _ _ _ hp, List.getD_eq_getElem?_getD, ha, Option.getD_some, mul_zero])
  refine ⟨n, hn, hit, hlv, hrel, ?_, ?_⟩
  · intro j a e hp
    have hj : j < m.items := by
      have := lt_of_getElem?_some hp
      simp [TwoPL.itemParameters, TwoPL.weights, length_viewRows] at this
      omega
    rw [hpar j hj]
    have hla := m.slopes_length hwf j a e hp
    have e1 : b j = e := by simp [b, hp]
    have e2 : ∀ k, slopeOf m.itemParameters j k = a.getD k 0 := slopeOf_eq _ _ _ _ hp
    simp only [A, e1, e2]
    have ha : (List.range m.lv).map (fun k => a.getD k 0) = a := by rw [← hla]; exact (eq_range_map a).symm
    split
    · have : (List.range m.lv).map (fun k => -1 * a.getD k 0) = a.map fun x => -x := by
        conv_rhs => rw [← ha, List.map_map]
        exact List.map_congr_left fun k _ => by simp
      rw [this, neg_one_mul]
    · simp only [one_mul, ha]
  · have h1 := m.logitModel hwf m.lv
    have h2 := n.logitModel hn m.lv
    rw [hit] at h2
    refine logit_follows (reverseCoding_renaming _ _) h1 h2 ?_
    intro j c hc
    obtain ⟨hj, rfl⟩ := replicate_getElem? _ _ _ _ hc
    have hp := hpar j hj
    have hs : ∀ k : Fin m.lv, slopeOf n.itemParameters j k = A j k := fun k => slopeOf_range _ _ _ _ _ hp k
    have hb : ((n.itemParameters[j]?).map Prod.snd).getD 0 = (if chosen j then -1 else 1) * b j := by simp [hp]
    have hcat : (List.replicate m.items 2).getD j 0 = 2 := by simp [List.getD_eq_getElem?_getD, hj]
    by_cases hch : chosen j = true
    · refine ⟨fun k => -slopeOf m.itemParameters j k, -b j, fun r hr => ?_⟩
      simp only [reverseCoding, hch, hcat, if_true, hs, hb, A]
      interval_cases r <;> simp [b]
    · refine ⟨fun k => 0, 0, fun r hr => ?_⟩
      simp only [reverseCoding, hch, if_false, hs, hb, A, Bool.false_eq_true]
      simp [b]

/-- C123, generalized partial credit: reverse coding any items gives data that the model describes as well, with the slopes of these
items negated and intercepts `b_{c-1-r} - b_{c-1}`. -/
theorem C123_gpc (m : GPC) (hwf : m.WF) (chosen : ℕ → Bool) :
    ∃ n : GPC, n.WF ∧ n.lv = m.lv ∧ n.cats = m.cats ∧ n.rel = m.rel ∧
      (∀ j k, k < m.lv → slopeOf n.itemParameters j k = (if chosen j then -1 else 1) * slopeOf m.itemParameters j k) ∧
      Follows (d := m.lv) m.cats (reverseCoding m.cats chosen)
        (fun θ => tableProb (m.probs (List.ofFn θ))) (fun θ => tableProb (n.probs (List.ofFn θ))) := by
  let A : ℕ → ℕ → ℝ := fun j k => (if chosen j then -1 else 1) * slopeOf m.itemParameters j k
  let b : ℕ → ℕ → ℝ := fun j r => ((m.itemParameters[j]?).map fun p => p.2.getD r 0).getD 0
  let c' : ℕ → ℕ := fun j => m.cats.getD j 0
  let B : ℕ → ℕ → ℝ := fun j k => if k < c' j then if chosen j then b j (c' j - 1 - k) - b j (c' j - 1) else b j k else 0
  have hc' : ∀ j c : ℕ, m.cats[j]? = some c → c' j = c := fun j c hc => by simp [c', List.getD_eq_getElem?_getD, hc]
  have hb0 : ∀ j c : ℕ, m.cats[j]? = some c → b j 0 = 0 := by
    intro j c hc
    obtain ⟨w, dl, hp, hdl⟩ := m.exists_params j (lt_of_getElem?_some hc)
    have hcM : c ≤ m.M := le_maxCats _ _ (List.mem_of_getElem? hc)
    have := (C05_gpc_formula_partial m hwf [] j c w dl (fun k => dl.getD k 0) hc hp (fun k hk => by
      obtain ⟨x, hx⟩ := getElem?_of_lt dl k (by omega)
      simp [List.getD_eq_getElem?_getD, hx])).1
    simpa [b, hp] using this
  obtain ⟨n, hn, hlv, hcats, hrel, hpar⟩ := gpc_exists m.lv m.cats m.rel hwf.catsPos hwf.relLen hwf.relRow A B (by
      intro j k r hr hk
      obtain ⟨⟨a, e, hp, ha⟩, -⟩ := C16_gpc_unrelated m hwf [] 0 j k r hr hk
      simp only [A, slopeOf_eq _ _ _ _ hp, List.getD_eq_getElem?_getD, ha, Option.getD_some, mul_zero]) (by
      intro j c k hc hk
      have := hc' j c hc
      have := hwf.catsPos c (List.mem_of_getElem? hc)
      rcases hk with rfl | hk
      · simp only [B, hb0 j c hc, Nat.sub_zero, sub_self, ite_self]
      · simp only [B]; rw [if_neg (by omega)])
  refine ⟨n, hn, hlv, hcats, hrel, ?_, ?_⟩
  · intro j k hk
    by_cases hj : j < m.cats.length
    · exact slopeOf_range _ _ _ _ _ (hpar j hj) ⟨k, hk⟩
    · have e : ∀ q : GPC, q.cats = m.cats → slopeOf q.itemParameters j k = 0 := by
        intro q hq
        rw [slopeOf, List.getElem?_eq_none]
        · rfl
        · simp [GPC.itemParameters, GPC.weights, length_viewRows, hq]; omega
      rw [e n hcats, e m rfl, mul_zero]
  · have h1 := m.logitModel hwf m.lv
    have h2 := n.logitModel hn m.lv
    rw [hcats] at h2
    refine logit_follows (reverseCoding_renaming _ _) h1 h2 ?_
    intro j c hc
    have hcc := hc' j c hc
    have hcM : c ≤ maxCats m.cats := le_maxCats _ _ (List.mem_of_getElem? hc)
    have hp := hpar j (lt_of_getElem?_some hc)
    have hs : ∀ k : Fin m.lv, slopeOf n.itemParameters j k = A j k := fun k => slopeOf_range _ _ _ _ _ hp k
    have hb : ∀ r, r < c → ((n.itemParameters[j]?).map fun p => p.2.getD r 0).getD 0 = B j r := by
      intro r hr
      rw [hp, Option.map_some, Option.getD_some, ofRange_getD _ _ _ (by omega)]
    by_cases hch : chosen j = true
    · refine ⟨fun k => -((c : ℝ) - 1) * slopeOf m.itemParameters j k, -b j (c - 1), fun r hr => ?_⟩
      have hcast : ((c - 1 - r : ℕ) : ℝ) = (c : ℝ) - 1 - r := by
        rw [Nat.cast_sub (by omega), Nat.cast_sub (by omega)]; simp
      have hrev : reverseCoding m.cats chosen j r = c - 1 - r := by
        simp only [reverseCoding, hch, if_true]
        rw [show m.cats.getD j 0 = c from hcc]
      rw [hrev, hb _ (by omega)]
      refine ⟨fun k => ?_, ?_⟩
      · rw [hs, hcast]
        simp only [A, hch, if_true]
        ring
      · simp only [B, hcc, hch, if_true]
        rw [if_pos (by omega), show c - 1 - (c - 1 - r) = r by omega]
        ring
    · refine ⟨fun k => 0, 0, fun r hr => ?_⟩
      have hrev : reverseCoding m.cats chosen j r = r := by simp [reverseCoding, hch]
      rw [hrev, hb r hr]
      refine ⟨fun k => ?_, ?_⟩
      · rw [hs]; simp [A, hch]
      · simp only [B, hcc, hch, if_false, Bool.false_eq_true]
        rw [if_pos hr, add_zero]

theorem sigmoid_neg_eq (z : ℝ) : sigmoid (-z) = 1 - sigmoid z := by
  unfold sigmoid
  have := Real.exp_pos z
  rw [neg_neg, Real.exp_neg]
  field_simp
  ring

theorem grmGeq_reverse (c : ℕ) (η : ℝ) (e e' : ℕ → ℝ) (h : ∀ k, 0 < k → k < c → e' k = -e (c - k)) (hc : 0 < c) (k : ℕ) (hk : k ≤ c) :
    grmGeq c (-η) e' k = 1 - grmGeq c η e (c - k) := by
  unfold grmGeq
  by_cases h0 : k = 0
  · subst h0
    rw [if_pos rfl, if_neg (by omega), if_neg (by omega), sub_zero]
  · by_cases hkc : k = c
    · subst hkc
      rw [if_neg h0, if_neg (by omega), Nat.sub_self, if_pos rfl, sub_self]
    · rw [if_neg h0, if_pos (by omega), if_neg (by omega), if_pos (by omega), h k (by omega) (by omega), ← neg_add, sigmoid_neg_eq]


theorem GRM.row_at (m : GRM) (d : ℕ) (j c : ℕ) (hc : m.cats[j]? = some c) (w dl : List ℝ) (hp : m.itemParameters[j]? = some (w, dl))
    (θ : Fin d → ℝ) (r : ℕ) (hr : r < m.M) :
    tableProb (m.probs (List.ofFn θ)) j r = grmGeq c (∑ k, θ k * w.getD k 0) (fun k => dl.getD (k - 1) 0) r
      - grmGeq c (∑ k, θ k * w.getD k 0) (fun k => dl.getD (k - 1) 0) (r + 1) := by
  obtain ⟨w', dl', hp', h⟩ := m.row d j c hc
  rw [hp] at hp'
  obtain ⟨rfl, rfl⟩ : w = w' ∧ dl = dl' := by simpa using hp'
  exact h θ r hr

theorem tail_getD (M : ℕ) (f : ℕ → ℝ) (k : ℕ) (hk : 0 < k) (hkM : k < M) :
    (((List.range M).map f).tail).getD (k - 1) 0 = f k := by
  rw [List.getD_eq_getElem?_getD, List.getElem?_tail, show k - 1 + 1 = k by omega]
  simp [hkM]

theorem grmGeq_congr (c : ℕ) (η : ℝ) (e e' : ℕ → ℝ) (h : ∀ k, 0 < k → k < c → e k = e' k) (k : ℕ) :
    grmGeq c η e k = grmGeq c η e' k := by
  unfold grmGeq
  split
  · rfl
  · split
    · rw [h k (by omega) (by omega)]
    · rfl

/-- C123, graded response: reverse coding any items gives data that the model describes as well, with the slopes of these items
negated and the intercepts negated and in reverse order; ordered intercepts stay ordered. -/
theorem C123_grm (m : GRM) (hwf : m.WF) (chosen : ℕ → Bool) :
    ∃ n : GRM, n.WF ∧ n.lv = m.lv ∧ n.cats = m.cats ∧ n.rel = m.rel ∧
      (∀ j k, k < m.lv → slopeOf n.itemParameters j k = (if chosen j then -1 else 1) * slopeOf m.itemParameters j k) ∧
      (m.Ordered → n.Ordered) ∧
      Follows (d := m.lv) m.cats (reverseCoding m.cats chosen)
        (fun θ => tableProb (m.probs (List.ofFn θ))) (fun θ => tableProb (n.probs (List.ofFn θ))) := by
  let A : ℕ → ℕ → ℝ := fun j k => (if chosen j then -1 else 1) * slopeOf m.itemParameters j k
  let b : ℕ → ℕ → ℝ := fun j k => ((m.itemParameters[j]?).map fun p => p.2.getD (k - 1) 0).getD 0
  let c' : ℕ → ℕ := fun j => m.cats.getD j 0
  let B : ℕ → ℕ → ℝ := fun j k => if 0 < k ∧ k < c' j then if chosen j then -b j (c' j - k) else b j k else 0
  have hc' : ∀ j c : ℕ, m.cats[j]? = some c → c' j = c := fun j c hc => by simp [c', List.getD_eq_getElem?_getD, hc]
  obtain ⟨n, hn, hlv, hcats, hrel, hpar⟩ := grm_exists m.lv m.cats m.rel hwf.catsPos hwf.relLen hwf.relRow A B (by
      intro j k r hr hk
      obtain ⟨⟨a, e, hp, ha⟩, -⟩ := C16_grm_unrelated m hwf [] 0 j k r hr hk
      simp only [A, slopeOf_eq _ _ _ _ hp, List.getD_eq_getElem?_getD, ha, Option.getD_some, mul_zero]) (by
      intro j c k hc hk
      have := hc' j c hc
      simp only [B]
      rw [if_neg (by omega)])
  have hb : ∀ (j c k : ℕ) (w dl : List ℝ), m.cats[j]? = some c → n.itemParameters[j]? = some (w, dl) → 0 < k → k < c →
      dl.getD (k - 1) 0 = if chosen j then -b j (c - k) else b j k := by
    intro j c k w dl hc hp hk hkc
    have hcM : c ≤ maxCats m.cats := le_maxCats _ _ (List.mem_of_getElem? hc)
    rw [hpar j (lt_of_getElem?_some hc)] at hp
    obtain ⟨rfl, rfl⟩ := Prod.mk.inj (Option.some.inj hp)
    rw [tail_getD _ _ _ hk (by omega)]
    simp only [B, hc' j c hc]
    rw [if_pos ⟨hk, hkc⟩]
  refine ⟨n, hn, hlv, hcats, hrel, ?_, ?_, ?_⟩
  · intro j k hk
    by_cases hj : j < m.cats.length
    · exact slopeOf_range _ _ _ _ _ (hpar j hj) ⟨k, hk⟩
    · have e : ∀ q : GRM, q.cats = m.cats → slopeOf q.itemParameters j k = 0 := by
        intro q hq
        rw [slopeOf, List.getElem?_eq_none]
        · rfl
        · simp [GRM.itemParameters, GRM.weights, length_viewRows, hq]; omega
      rw [e n hcats, e m rfl, mul_zero]
  · intro hord j c w dl hc hp k hk
    rw [hcats] at hc
    have h1 := hb j c (k + 1) w dl hc hp (by omega) (by omega)
    have h2 := hb j c (k + 2) w dl hc hp (by omega) (by omega)
    rw [show k + 1 - 1 = k by omega] at h1
    rw [show k + 2 - 1 = k + 1 by omega] at h2
    rw [h1, h2]
    obtain ⟨wm, dm, hpm, -⟩ := m.exists_params j (lt_of_getElem?_some hc)
    have hbm : ∀ k, b j k = dm.getD (k - 1) 0 := by intro k; simp [b, hpm]
    simp only [hbm]
    split
    · have := hord j c wm dm hc hpm (c - (k + 2) - 1) (by omega)
      rw [show c - (k + 2) - 1 + 1 = c - (k + 1) - 1 by omega] at this
      linarith
    · have := hord j c wm dm hc hpm k hk
      rw [show k + 2 - 1 = k + 1 by omega, show k + 1 - 1 = k by omega]
      exact this
  · intro θ j c r hc hr
    have hcc := hc' j c hc
    have hcM : c ≤ m.M := le_maxCats _ _ (List.mem_of_getElem? hc)
    have hc0 := hwf.catsPos c (List.mem_of_getElem? hc)
    obtain ⟨wm, dm, hpm, -⟩ := m.exists_params j (lt_of_getElem?_some hc)
    have hp := hpar j (lt_of_getElem?_some hc)
    have hMn : n.M = m.M := by simp [GRM.M, hcats]
    have hcn : n.cats[j]? = some c := by rw [hcats]; exact hc
    have hbm : ∀ k, b j k = dm.getD (k - 1) 0 := by intro k; simp [b, hpm]
    dsimp only
    rw [m.row_at m.lv j c hc wm dm hpm θ r (by omega)]
    have hη : ∑ k : Fin m.lv, θ k * ((List.range m.lv).map (A j)).getD k 0
        = (if chosen j then -1 else 1) * ∑ k : Fin m.lv, θ k * wm.getD k 0 := by
      rw [mul_sum]
      refine sum_congr rfl fun k _ => ?_
      rw [ofRange_getD _ _ _ k.2]
      simp only [A, slopeOf_eq _ _ _ _ hpm]
      ring
    by_cases hch : chosen j = true
    · have hrev : reverseCoding m.cats chosen j r = c - 1 - r := by
        simp only [reverseCoding, hch, if_true]
        rw [show m.cats.getD j 0 = c from hcc]
      rw [hrev, n.row_at m.lv j c hcn _ _ hp θ (c - 1 - r) (by omega), hη, if_pos hch, neg_one_mul]
      have g : ∀ k, k ≤ c → grmGeq c (-∑ k : Fin m.lv, θ k * wm.getD k 0)
          (fun k => (((List.range (maxCats m.cats)).map (B j)).tail).getD (k - 1) 0) k
          = 1 - grmGeq c (∑ k : Fin m.lv, θ k * wm.getD k 0) (fun k => dm.getD (k - 1) 0) (c - k) := by
        refine grmGeq_reverse c _ _ _ (fun k hk hkc => ?_) hc0
        have := hb j c k _ _ hc hp hk hkc
        rw [if_pos hch, hbm] at this
        exact this
      rw [g _ (by omega), g _ (by omega), show c - (c - 1 - r) = r + 1 by omega, show c - (c - 1 - r + 1) = r by omega]
      ring
    · have hrev : reverseCoding m.cats chosen j r = r := by simp [reverseCoding, hch]
      rw [hrev, n.row_at m.lv j c hcn _ _ hp θ r (by omega), hη, if_neg hch, one_mul]
      have g := grmGeq_congr c (∑ k : Fin m.lv, θ k * wm.getD k 0)
        (fun k => (((List.range (maxCats m.cats)).map (B j)).tail).getD (k - 1) 0) (fun k => dm.getD (k - 1) 0) (fun k hk hkc => by
          have := hb j c k _ _ hc hp hk hkc
          rw [if_neg hch, hbm] at this
          exact this)
      rw [g, g]

/-! ## Any renaming of the categories of nominal items -/

/-- C123, nominal response: whatever new names the categories of the items get, the model describes the recoded data as well. -/
theorem C123_nrm (m : NRM) (hwf : m.WF) (σ : ℕ → ℕ → ℕ) (hσ : Renaming m.cats σ) :
    ∃ n : NRM, n.WF ∧ n.lv = m.lv ∧ n.cats = m.cats ∧ n.rel = m.rel ∧
      Follows (d := m.lv) m.cats σ
        (fun θ => tableProb (m.probs (List.ofFn θ))) (fun θ => tableProb (n.probs (List.ofFn θ))) := by
  obtain ⟨τ, hτ, hinv⟩ := renaming_inverse hσ
  let A : ℕ → ℕ → ℕ → ℝ := fun j r k => categorySlopeOf m.itemParameters j r k
  let B : ℕ → ℕ → ℝ := fun j r => ((m.itemParameters[j]?).map fun p => p.2.getD r 0).getD 0
  obtain ⟨n, hn, hlv, hcats, hrel, hpr⟩ := nrm_exists m.lv m.cats m.rel hwf.catsPos hwf.relLen hwf.relRow
    (fun j r => A j (τ j r)) (fun j r => B j (τ j r)) (by
      intro j s k r hr hk
      obtain ⟨⟨wl, dl, hp, hz⟩, -⟩ := C16_nrm_unrelated m hwf [] 0 j k r hr hk
      simp only [A, categorySlopeOf, hp, Option.map_some, Option.getD_some]
      cases hw : wl[τ j s]? with
      | none => simp [List.getD_eq_getElem?_getD, hw]
      | some w => simp [List.getD_eq_getElem?_getD, hw, hz w (List.mem_of_getElem? hw)])
  refine ⟨n, hn, hlv, hcats, hrel, ?_⟩
  have h1 := m.logitModel m.lv
  have h2 : LogitModel (d := m.lv) m.cats (fun θ => tableProb (n.probs (List.ofFn θ))) (fun j r k => A j (τ j r) k)
      (fun j r => B j (τ j r)) := by
    intro θ j c r hc hr
    have hcM : c ≤ maxCats m.cats := le_maxCats _ _ (List.mem_of_getElem? hc)
    dsimp only
    rw [tableProb_row _ _ _ _ (hpr (List.ofFn θ) (by simp) j c hc), multinomialLogit_getD _ _ hcM, if_pos hr]
    have e : ∀ s : ℕ, dot (List.ofFn θ) ((List.range m.lv).map (A j (τ j s))) = ∑ k : Fin m.lv, A j (τ j s) k * θ k := by
      intro s
      rw [dot_ofFn]
      exact sum_congr rfl fun k _ => by rw [ofRange_getD _ _ _ k.2, mul_comm]
    simp only [e]
  refine logit_follows hσ h1 h2 fun j c hc => ⟨fun _ => 0, 0, fun r hr => ?_⟩
  rw [(hinv j c r hc hr).1]
  simp [A, B]

/-! ## Best fits -/

/-- If every model of a family has, for the renaming and for its inverse, a model of the family that follows it with the same loss,
then a best model of the data becomes a best model of the recoded data. -/
theorem best_carried {S : Type} {family : S → Prop} {loss loss' : S → Except PyErr Num} {m n : S} (hm : BestOf family loss m)
    (hn : family n) (he : loss' n = loss m) (back : ∀ q, family q → ∃ p, family p ∧ loss p = loss' q) : BestOf family loss' n := by
  refine ⟨hn, fun q hq => ?_⟩
  obtain ⟨p, hp, e⟩ := back q hq
  rw [he, ← e]
  exact hm.2 p hp

/-- C123: the best partial credit model of data with reverse coded items has the same marginal loss as the best partial credit model
of the data, follows the new codes, and gives every respondent the same EAP scores. -/
theorem C123_best_gpc (lv : ℕ) (cats : List ℕ) (hne : cats ≠ []) (rel : List (List Bool)) (chosen : ℕ → Bool) (N : ℕ) (y : ℕ → ℕ → Cell)
    (hy : ∀ i, i < N → ValidResponses cats (y i)) (pts : Thetas lv) (lw : List ℝ) (m : GPC)
    (hm : BestOf (fun q : GPC => q.WF ∧ q.lv = lv ∧ q.cats = cats ∧ q.rel = rel)
      (fun q => mmlLoss (q.scorer lv) (rowsOf N cats.length y) pts lw) m) :
    ∃ n : GPC, BestOf (fun q : GPC => q.WF ∧ q.lv = lv ∧ q.cats = cats ∧ q.rel = rel)
        (fun q => mmlLoss (q.scorer lv) (rowsOf N cats.length (renamed (reverseCoding cats chosen) y)) pts lw) n ∧
      mmlLoss (n.scorer lv) (rowsOf N cats.length (renamed (reverseCoding cats chosen) y)) pts lw
        = mmlLoss (m.scorer lv) (rowsOf N cats.length y) pts lw ∧
      Follows (d := lv) cats (reverseCoding cats chosen) (fun θ => tableProb (m.probs (List.ofFn θ)))
        (fun θ => tableProb (n.probs (List.ofFn θ))) ∧
      ∀ (a : AlgAttrs lv) (points : Option ℕ),
        eapScores (n.scorer lv) a (rowsOf N cats.length (renamed (reverseCoding cats chosen) y)) points
          = eapScores (m.scorer lv) a (rowsOf N cats.length y) points := by
  have turn : ∀ q : GPC, (q.WF ∧ q.lv = lv ∧ q.cats = cats ∧ q.rel = rel) → ∃ p : GPC, (p.WF ∧ p.lv = lv ∧ p.cats = cats ∧ p.rel = rel) ∧
      Follows (d := lv) cats (reverseCoding cats chosen) (fun θ => tableProb (q.probs (List.ofFn θ)))
        (fun θ => tableProb (p.probs (List.ofFn θ))) := by
    rintro q ⟨hq, rfl, rfl, rfl⟩
    obtain ⟨p, hp, h1, h2, h3, -, hF⟩ := C123_gpc q hq chosen
    exact ⟨p, ⟨hp, h1, h2, h3⟩, hF⟩
  have sc : ∀ q : GPC, (q.WF ∧ q.lv = lv ∧ q.cats = cats ∧ q.rel = rel) →
      IsScorer (q.scorer lv) cats fun θ => tableProb (q.probs (List.ofFn θ)) := by
    rintro q ⟨hq, -, rfl, -⟩
    exact q.isScorer hq hne lv
  have hσ := reverseCoding_renaming cats chosen
  have hy' := fun i hi => renamed_valid hσ y i (hy i hi)
  obtain ⟨n, hn, hF⟩ := turn m hm.1
  have hloss := C123_mml_loss (sc m hm.1) (sc n hn) hσ hF N y hy pts lw
  refine ⟨n, best_carried hm hn hloss fun q hq => ?_, hloss, hF, fun a points => C123_eap (sc m hm.1) (sc n hn) hσ hF N y hy a points⟩
  obtain ⟨p, hp, hF'⟩ := turn q hq
  have := C123_mml_loss (sc q hq) (sc p hp) hσ hF' N _ hy' pts lw
  rw [renamed_back (fun j c r hc hr => reverseCoding_twice cats chosen j c r hc hr) N y hy] at this
  exact ⟨p, hp, this⟩

/-- C123: the same for the 2PL. -/
theorem C123_best_twoPL (items lv : ℕ) (hne : 0 < items) (rel : List (List Bool)) (chosen : ℕ → Bool) (N : ℕ) (y : ℕ → ℕ → Cell)
    (hy : ∀ i, i < N → ValidResponses (List.replicate items 2) (y i)) (pts : Thetas lv) (lw : List ℝ) (m : TwoPL)
    (hm : BestOf (fun q : TwoPL => q.WF ∧ q.lv = lv ∧ q.items = items ∧ q.rel = rel)
      (fun q => mmlLoss (q.scorer lv) (rowsOf N items y) pts lw) m) :
    ∃ n : TwoPL, BestOf (fun q : TwoPL => q.WF ∧ q.lv = lv ∧ q.items = items ∧ q.rel = rel)
        (fun q => mmlLoss (q.scorer lv) (rowsOf N items (renamed (reverseCoding (List.replicate items 2) chosen) y)) pts lw) n ∧
      mmlLoss (n.scorer lv) (rowsOf N items (renamed (reverseCoding (List.replicate items 2) chosen) y)) pts lw
        = mmlLoss (m.scorer lv) (rowsOf N items y) pts lw ∧
      Follows (d := lv) (List.replicate items 2) (reverseCoding (List.replicate items 2) chosen)
        (fun θ => tableProb (m.probs (List.ofFn θ))) (fun θ => tableProb (n.probs (List.ofFn θ))) ∧
      ∀ (a : AlgAttrs lv) (points : Option ℕ),
        eapScores (n.scorer lv) a (rowsOf N items (renamed (reverseCoding (List.replicate items 2) chosen) y)) points
          = eapScores (m.scorer lv) a (rowsOf N items y) points := by
  have turn : ∀ q : TwoPL, (q.WF ∧ q.lv = lv ∧ q.items = items ∧ q.rel = rel) → ∃ p : TwoPL,
      (p.WF ∧ p.lv = lv ∧ p.items = items ∧ p.rel = rel) ∧
      Follows (d := lv) (List.replicate items 2) (reverseCoding (List.replicate items 2) chosen) (fun θ => tableProb (q.probs (List.ofFn θ)))
        (fun θ => tableProb (p.probs (List.ofFn θ))) := by
    rintro q ⟨hq, rfl, rfl, rfl⟩
    obtain ⟨p, hp, h1, h2, h3, -, hF⟩ := C123_twoPL q hq chosen
    exact ⟨p, ⟨hp, h2, h1, h3⟩, hF⟩
  have sc : ∀ q : TwoPL, (q.WF ∧ q.lv = lv ∧ q.items = items ∧ q.rel = rel) →
      IsScorer (q.scorer lv) (List.replicate items 2) fun θ => tableProb (q.probs (List.ofFn θ)) := by
    rintro q ⟨hq, -, rfl, -⟩
    exact q.isScorer hq hne lv
  have hσ := reverseCoding_renaming (List.replicate items 2) chosen
  have hy' := fun i hi => renamed_valid hσ y i (hy i hi)
  have hlen : (List.replicate items 2).length = items := List.length_replicate
  obtain ⟨n, hn, hF⟩ := turn m hm.1
  have hloss := C123_mml_loss (sc m hm.1) (sc n hn) hσ hF N y hy pts lw
  have heap := fun a points => C123_eap (sc m hm.1) (sc n hn) hσ hF N y hy a points
  rw [hlen] at hloss
  simp only [hlen] at heap
  refine ⟨n, best_carried hm hn hloss fun q hq => ?_, hloss, hF, heap⟩
  obtain ⟨p, hp, hF'⟩ := turn q hq
  have := C123_mml_loss (sc q hq) (sc p hp) hσ hF' N _ hy' pts lw
  rw [renamed_back (fun j c r hc hr => reverseCoding_twice (List.replicate items 2) chosen j c r hc hr) N y hy, hlen] at this
  exact ⟨p, hp, this⟩

/-- C123: the same for the nominal response model and any renaming of the categories. -/
theorem C123_best_nrm (lv : ℕ) (cats : List ℕ) (hne : cats ≠ []) (rel : List (List Bool)) (σ : ℕ → ℕ → ℕ) (hσ : Renaming cats σ)
    (N : ℕ) (y : ℕ → ℕ → Cell) (hy : ∀ i, i < N → ValidResponses cats (y i)) (pts : Thetas lv) (lw : List ℝ) (m : NRM)
    (hm : BestOf (fun q : NRM => q.WF ∧ q.lv = lv ∧ q.cats = cats ∧ q.rel = rel)
      (fun q => mmlLoss (q.scorer lv) (rowsOf N cats.length y) pts lw) m) :
    ∃ n : NRM, BestOf (fun q : NRM => q.WF ∧ q.lv = lv ∧ q.cats = cats ∧ q.rel = rel)
        (fun q => mmlLoss (q.scorer lv) (rowsOf N cats.length (renamed σ y)) pts lw) n ∧
      mmlLoss (n.scorer lv) (rowsOf N cats.length (renamed σ y)) pts lw
        = mmlLoss (m.scorer lv) (rowsOf N cats.length y) pts lw ∧
      Follows (d := lv) cats σ (fun θ => tableProb (m.probs (List.ofFn θ))) (fun θ => tableProb (n.probs (List.ofFn θ))) ∧
      ∀ (a : AlgAttrs lv) (points : Option ℕ), eapScores (n.scorer lv) a (rowsOf N cats.length (renamed σ y)) points
          = eapScores (m.scorer lv) a (rowsOf N cats.length y) points := by
  have turn : ∀ τ, Renaming cats τ → ∀ q : NRM, (q.WF ∧ q.lv = lv ∧ q.cats = cats ∧ q.rel = rel) → ∃ p : NRM,
      (p.WF ∧ p.lv = lv ∧ p.cats = cats ∧ p.rel = rel) ∧
      Follows (d := lv) cats τ (fun θ => tableProb (q.probs (List.ofFn θ))) (fun θ => tableProb (p.probs (List.ofFn θ))) := by
    rintro τ hτ q ⟨hq, rfl, rfl, rfl⟩
    obtain ⟨p, hp, h1, h2, h3, hF⟩ := C123_nrm q hq τ hτ
    exact ⟨p, ⟨hp, h1, h2, h3⟩, hF⟩
  have sc : ∀ q : NRM, (q.WF ∧ q.lv = lv ∧ q.cats = cats ∧ q.rel = rel) →
      IsScorer (q.scorer lv) cats fun θ => tableProb (q.probs (List.ofFn θ)) := by
    rintro q ⟨hq, -, rfl, -⟩
    exact q.isScorer hq hne lv
  have hy' := fun i hi => renamed_valid hσ y i (hy i hi)
  obtain ⟨τ, hτ, hinv⟩ := renaming_inverse hσ
  obtain ⟨n, hn, hF⟩ := turn σ hσ m hm.1
  have hloss := C123_mml_loss (sc m hm.1) (sc n hn) hσ hF N y hy pts lw
  refine ⟨n, best_carried hm hn hloss fun q hq => ?_, hloss, hF, fun a points => C123_eap (sc m hm.1) (sc n hn) hσ hF N y hy a points⟩
  obtain ⟨p, hp, hF'⟩ := turn τ hτ q hq
  have := C123_mml_loss (sc q hq) (sc p hp) hτ hF' N _ hy' pts lw
  rw [renamed_back (fun j c r hc hr => (hinv j c r hc hr).1) N y hy] at this
  exact ⟨p, hp, this⟩

/-- C123: the same for the graded response model, among models with ordered intercepts. -/
theorem C123_best_grm (lv : ℕ) (cats : List ℕ) (hne : cats ≠ []) (rel : List (List Bool)) (chosen : ℕ → Bool) (N : ℕ) (y : ℕ → ℕ → Cell)
    (hy : ∀ i, i < N → ValidResponses cats (y i)) (pts : Thetas lv) (lw : List ℝ) (m : GRM)
    (hm : BestOf (fun q : GRM => (q.WF ∧ q.Ordered) ∧ q.lv = lv ∧ q.cats = cats ∧ q.rel = rel)
      (fun q => mmlLoss (q.scorer lv) (rowsOf N cats.length y) pts lw) m) :
    ∃ n : GRM, BestOf (fun q : GRM => (q.WF ∧ q.Ordered) ∧ q.lv = lv ∧ q.cats = cats ∧ q.rel = rel)
        (fun q => mmlLoss (q.scorer lv) (rowsOf N cats.length (renamed (reverseCoding cats chosen) y)) pts lw) n ∧
      mmlLoss (n.scorer lv) (rowsOf N cats.length (renamed (reverseCoding cats chosen) y)) pts lw
        = mmlLoss (m.scorer lv) (rowsOf N cats.length y) pts lw ∧
      Follows (d := lv) cats (reverseCoding cats chosen) (fun θ => tableProb (m.probs (List.ofFn θ)))
        (fun θ => tableProb (n.probs (List.ofFn θ))) ∧
      ∀ (a : AlgAttrs lv) (points : Option ℕ),
        eapScores (n.scorer lv) a (rowsOf N cats.length (renamed (reverseCoding cats chosen) y)) points
          = eapScores (m.scorer lv) a (rowsOf N cats.length y) points := by
  have turn : ∀ q : GRM, ((q.WF ∧ q.Ordered) ∧ q.lv = lv ∧ q.cats = cats ∧ q.rel = rel) → ∃ p : GRM,
      ((p.WF ∧ p.Ordered) ∧ p.lv = lv ∧ p.cats = cats ∧ p.rel = rel) ∧
      Follows (d := lv) cats (reverseCoding cats chosen) (fun θ => tableProb (q.probs (List.ofFn θ)))
        (fun θ => tableProb (p.probs (List.ofFn θ))) := by
    rintro q ⟨⟨hq, ho⟩, rfl, rfl, rfl⟩
    obtain ⟨p, hp, h1, h2, h3, -, ho', hF⟩ := C123_grm q hq chosen
    exact ⟨p, ⟨⟨hp, ho' ho⟩, h1, h2, h3⟩, hF⟩
  have sc : ∀ q : GRM, ((q.WF ∧ q.Ordered) ∧ q.lv = lv ∧ q.cats = cats ∧ q.rel = rel) →
      IsScorer (q.scorer lv) cats fun θ => tableProb (q.probs (List.ofFn θ)) := by
    rintro q ⟨⟨hq, ho⟩, -, rfl, -⟩
    exact q.isScorer ho hne lv
  have hσ := reverseCoding_renaming cats chosen
  have hy' := fun i hi => renamed_valid hσ y i (hy i hi)
  obtain ⟨n, hn, hF⟩ := turn m hm.1
  have hloss := C123_mml_loss (sc m hm.1) (sc n hn) hσ hF N y hy pts lw
  refine ⟨n, best_carried hm hn hloss fun q hq => ?_, hloss, hF, fun a points => C123_eap (sc m hm.1) (sc n hn) hσ hF N y hy a points⟩
  obtain ⟨p, hp, hF'⟩ := turn q hq
  have := C123_mml_loss (sc q hq) (sc p hp) hσ hF' N _ hy' pts lw
  rw [renamed_back (fun j c r hc hr => reverseCoding_twice cats chosen j c r hc hr) N y hy] at this
  exact ⟨p, hp, this⟩

/-! ## The 1PL -/

/-- The claim that reverse coding any items of a 1PL gives a 1PL. -/
def OnePLReversible : Prop :=
  ∀ (m : OnePL), m.WF → ∀ chosen : ℕ → Bool, ∃ n : OnePL, n.WF ∧ n.items = m.items ∧
    Follows (d := 1) (List.replicate m.items 2) (reverseCoding (List.replicate m.items 2) chosen)
      (fun θ => tableProb (m.probs (θ 0))) (fun θ => tableProb (n.probs (θ 0)))

/-- C123 is false for the 1PL: the probability of the new answer 1 falls with the latent score, and that of a 1PL rises. -/
theorem C123_onePL_false : ¬ OnePLReversible := by
  intro h
  obtain ⟨n, hn, hit, hF⟩ := h ⟨1, [0]⟩ rfl fun _ => true
  have hit' : n.items = 1 := hit
  have hm : OnePL.WF ⟨1, [0]⟩ := rfl
  obtain ⟨q₁, q₂, e1, e2, hq⟩ := C03_onePL_increasing n hn 0 1 one_pos 0 (by omega)
  obtain ⟨p₁, p₂, f1, f2, hp⟩ := C03_onePL_increasing ⟨1, [0]⟩ hm 0 1 one_pos 0 one_pos
  have g : ∀ x : ℝ, tableProb (n.probs x) 0 1 = tableProb (OnePL.probs ⟨1, [0]⟩ x) 0 0 := by
    intro x
    exact hF (fun _ => x) 0 2 0 (by simp) (by norm_num)
  have g0 := g 0
  have g1 := g 1
  simp only [tableProb, e1, f1, e2, f2, Option.bind_some, List.getElem?_cons_succ, List.getElem?_cons_zero, Option.getD_some] at g0 g1
  linarith

/-- C123, 1PL, what holds: reverse coding all items gives data that a 1PL with negated intercepts describes, the latent scores being
turned round. -/
theorem C123_onePL_partial (m : OnePL) (hwf : m.WF) :
    ∃ n : OnePL, n.WF ∧ n.items = m.items ∧ n.itemParameters = m.itemParameters.map (fun b => -b) ∧
      Follows (d := 1) (List.replicate m.items 2) (reverseCoding (List.replicate m.items 2) fun _ => true)
        (fun θ => tableProb (m.probs (θ 0))) (fun θ => tableProb (n.probs (-θ 0))) := by
  have hn : OnePL.WF ⟨m.items, m.bias.map fun b => -b⟩ := by
    show (m.bias.map fun b => -b).length = m.items
    rw [List.length_map]; exact hwf
  refine ⟨⟨m.items, m.bias.map fun b => -b⟩, hn, rfl, rfl, ?_⟩
  intro θ j c r hc hr
  obtain ⟨hj, rfl⟩ := replicate_getElem? _ _ _ _ hc
  obtain ⟨b, hb⟩ := getElem?_of_lt m.itemParameters j (by rw [OnePL.itemParameters, hwf]; exact hj)
  have hb' : (OnePL.itemParameters ⟨m.items, m.bias.map fun b => -b⟩)[j]? = some (-b) := by
    show (m.bias.map fun b => -b)[j]? = _
    rw [List.getElem?_map, show m.bias[j]? = some b from hb, Option.map_some]
  dsimp only
  rw [tableProb_row _ _ _ _ (C03_onePL_formula m hwf _ j b hb), tableProb_row _ _ _ _ (C03_onePL_formula _ hn _ j (-b) hb')]
  have hl : logistic (-θ 0 + -b) = 1 - logistic (θ 0 + b) := by
    rw [← neg_add, logistic_eq_sigmoid, logistic_eq_sigmoid, sigmoid_neg_eq]
  have hcat : (List.replicate m.items 2).getD j 0 = 2 := by simp [List.getD_eq_getElem?_getD, hj]
  simp only [reverseCoding, if_true, hcat]
  interval_cases r <;> simp [hl]

/-- C123, 1PL: with integration points that are symmetric about zero the marginal loss of the recoded data equals that of the data. -/
theorem C123_onePL_mml_partial (m : OnePL) (hwf : m.WF) (hne : 0 < m.items) {hg : ℕ → Except PyErr (List ℝ × List ℝ)}
    {ch : Matrix (Fin 1) (Fin 1) ℝ → Except PyErr (Matrix (Fin 1) (Fin 1) ℝ)} {method : String} {points : Option ℕ} {q : ℕ}
    (hrule : MmlRule hg ch method points q) (hsym : method = "gauss_hermite" → ∃ x w, hg q = .ok (x, w) ∧ SymmetricRule x w)
    (hq : method ≠ "gauss_hermite" → 2 ≤ q) (N : ℕ) (y : ℕ → ℕ → Cell)
    (hy : ∀ i, i < N → ValidResponses (List.replicate m.items 2) (y i)) :
    ∃ (n : OnePL) (pts : Thetas 1) (lw : List ℝ), n.WF ∧ n.items = m.items ∧ n.itemParameters = m.itemParameters.map (fun b => -b) ∧
      mmlIntegration hg ch method points none = .ok (pts, lw) ∧
      mmlLoss n.scorer (rowsOf N m.items (renamed (reverseCoding (List.replicate m.items 2) fun _ => true) y)) pts lw
        = mmlLoss m.scorer (rowsOf N m.items y) pts lw := by
  obtain ⟨n, hn, hit, hpar, hF⟩ := C123_onePL_partial m hwf
  obtain ⟨pts, lw, hok, hpts, hlen, _, hturn⟩ := mmlIntegration_symmetric hrule
  refine ⟨n, pts, lw, hn, hit, hpar, hok, ?_⟩
  have h1 := m.isScorer hwf hne
  have h2 := n.isScorer hn (by omega)
  rw [hit] at h2
  have hp1 : PositiveProbs (d := 1) (fun θ => tableProb (m.probs (θ 0))) (List.replicate m.items 2) :=
    fun θ j c r hc hr => (m.logitModel hwf).pos θ j c r hc hr
  have hp2 : PositiveProbs (d := 1) (fun θ => tableProb (n.probs (θ 0))) (List.replicate n.items 2) :=
    fun θ j c r hc hr => (n.logitModel hn).pos θ j c r hc hr
  rw [hit] at hp2
  have hσ := reverseCoding_renaming (List.replicate m.items 2) fun _ => true
  have e1 := mmlLoss_weighted h1 hp1 N y hy pts lw hlen hpts
  have e2 := mmlLoss_weighted h2 hp2 N (renamed (reverseCoding (List.replicate m.items 2) fun _ => true) y)
    (fun i hi => renamed_valid hσ y i (hy i hi)) pts lw hlen hpts
  rw [List.length_replicate] at e1 e2
  rw [e1, e2]
  congr 3
  refine sum_congr rfl fun i hi => ?_
  rw [← hturn hsym hq (fun _ => true)]
  congr 2
  funext θ
  have := renamed_likelihood hF y i (hy i (mem_range.1 hi)) θ
  rw [List.length_replicate] at this
  rw [← this]
  simp [observedLikelihood, turnRound]

/-! ## The 3PL -/

/-- The claim that reverse coding any items of a 3PL gives a 3PL. -/
def ThreePLReversible : Prop :=
  ∀ (m : ThreePL), m.WF → ∀ chosen : ℕ → Bool, ∃ n : ThreePL, n.WF ∧ n.items = m.items ∧ n.lv = m.lv ∧ n.rel = m.rel ∧
    Follows (d := m.lv) (List.replicate m.items 2) (reverseCoding (List.replicate m.items 2) chosen)
      (fun θ => tableProb (m.probs (List.ofFn θ))) (fun θ => tableProb (n.probs (List.ofFn θ)))

/-- One item with slope one and guessing probability one half. -/
noncomputable def exGuessed : ThreePL := { items := 1, lv := 1, rel := [[true]], weight := [1], bias := [0], guessing := [0] }

theorem exGuessed_wf : exGuessed.WF :=
  ⟨by simp [exGuessed], by simp [exGuessed], by simp [exGuessed, countTrue], by simp [exGuessed], by simp [exGuessed]⟩

/-- C123 is false for the 3PL: guessing puts a floor under the probability of answer 1, and none under that of answer 0. -/
theorem C123_threePL_false : ¬ ThreePLReversible := by
  intro h
  obtain ⟨n, hn, hit, -, -, hF⟩ := h exGuessed exGuessed_wf fun _ => true
  obtain ⟨a, b, c, hpar⟩ := n.exists_params hn 0 (by rw [hit]; simp [exGuessed])
  have hc := C03_threePL_bounds n [] 0 a b c hpar
  obtain ⟨x, hx⟩ := (logistic_atBot.eventually (gt_mem_nhds hc.1)).exists
  have hp : exGuessed.itemParameters[0]? = some ([1], 0, sigmoid 0) := by
    simp [ThreePL.itemParameters, ThreePL.weights, exGuessed, viewRows, scatterMask]
  have hr := hF (fun _ => -x) 0 2 0 (by simp [exGuessed]) (by norm_num)
  have hrev : reverseCoding (List.replicate exGuessed.items 2) (fun _ => true) 0 0 = 1 := by
    simp [reverseCoding, exGuessed]
  dsimp only at hr
  rw [hrev] at hr
  have hof : List.ofFn (fun _ : Fin exGuessed.lv => -x) = [-x] := rfl
  rw [hof, tableProb_row _ _ _ _ (C03_threePL_formula n [-x] 0 a b c hpar),
    tableProb_row _ _ _ _ (C03_threePL_formula exGuessed [-x] 0 [1] 0 _ hp)] at hr
  have hd : dot [-x] [1] + 0 = -x := by simp [dot]
  have hl : logistic (-x) = 1 - logistic x := by rw [logistic_eq_sigmoid, logistic_eq_sigmoid, sigmoid_neg_eq]
  rw [hd, hl] at hr
  simp only [List.getD_cons_succ, List.getD_cons_zero] at hr
  have h0 : (sigmoid 0 : ℝ) = 1 / 2 := by norm_num [sigmoid]
  rw [h0] at hr
  have := mul_pos (sub_pos.2 hc.2.1) (logistic_pos (dot [-x] a + b))
  have := logistic_pos x
  linarith

/-! ## Categories with an order cannot be renamed freely -/

theorem logit_cross {d : ℕ} {cats : List ℕ} {P : (Fin d → ℝ) → ℕ → ℕ → ℝ} {A : ℕ → ℕ → Fin d → ℝ} {B : ℕ → ℕ → ℝ}
    (h : LogitModel cats P A B) (θ : Fin d → ℝ) (j c r s : ℕ) (hc : cats[j]? = some c) (hr : r < c) (hs : s < c) :
    P θ j r * Real.exp (∑ k, A j s k * θ k + B j s) = P θ j s * Real.exp (∑ k, A j r k * θ k + B j r) := by
  rw [h θ j c r hc hr, h θ j c s hc hs]
  ring

/-- One item with three categories, slope one and zero intercepts. -/
noncomputable def exThreeEven : GPC := { lv := 1, cats := [3], rel := [[true]], weight := [1], bias := [0, 0] }

theorem exThreeEven_wf : exThreeEven.WF :=
  ⟨by simp [exThreeEven], by simp [exThreeEven], by simp [exThreeEven], by simp [exThreeEven, countTrue], by simp [exThreeEven]⟩

theorem exThreeEven_params : exThreeEven.itemParameters[0]? = some (([1] : List ℝ), ([0, 0, 0] : List ℝ)) := by
  simp [GPC.itemParameters, GPC.weights, GPC.biases, exThreeEven, viewRows, scatterMask, GPC.M, maxCats, freeMask, freeRow,
    List.range_succ]

/-- The probabilities are proportional to `1`, `exp θ` and `exp (2 θ)`. -/
theorem exThreeEven_prob (x : ℝ) (r : ℕ) (hr : r < 3) :
    tableProb (exThreeEven.probs [x]) 0 r = Real.exp (r * x) / (1 + Real.exp x + Real.exp (2 * x)) := by
  have hl := exThreeEven.logitModel exThreeEven_wf 1 (fun _ => x) 0 3 r (by simp [exThreeEven]) hr
  simp only [univ_unique, Fin.default_eq_zero, sum_singleton, exThreeEven_params, slopeOf_eq _ _ _ _ exThreeEven_params,
    Option.map_some, Option.getD_some, sum_range_succ, sum_range_zero] at hl
  have hof : List.ofFn (fun _ : Fin 1 => x) = [x] := rfl
  rw [hof] at hl
  rw [hl]
  interval_cases r <;> norm_num

theorem cancel_total {p q D X Y : ℝ} (hD : 0 < D) (h : p / D * X = q / D * Y) : p * X = q * Y := by
  have h2 : p * X / D = q * Y / D := by rw [mul_div_right_comm, mul_div_right_comm, h]
  exact (div_left_inj' hD.ne').1 h2

/-- Categories 1 and 2 change names. -/
def swapTwo (_ r : ℕ) : ℕ := if r = 1 then 2 else if r = 2 then 1 else r

theorem swapTwo_renaming : Renaming [3] swapTwo := by
  constructor
  · intro j c r hc hr
    have : c = 3 := (replicate_getElem? 1 j 3 c hc).2
    subst this
    interval_cases r <;> simp [swapTwo]
  · intro j c r s hc hr hs h
    have : c = 3 := (replicate_getElem? 1 j 3 c hc).2
    subst this
    interval_cases r <;> interval_cases s <;> simp [swapTwo] at h ⊢

/-- The claim that the generalized partial credit model allows any renaming of the categories. -/
def GPCRenameable : Prop :=
  ∀ (m : GPC), m.WF → ∀ σ, Renaming m.cats σ → ∃ n : GPC, n.WF ∧ n.lv = m.lv ∧ n.cats = m.cats ∧ n.rel = m.rel ∧
    Follows (d := m.lv) m.cats σ (fun θ => tableProb (m.probs (List.ofFn θ))) (fun θ => tableProb (n.probs (List.ofFn θ)))

/-- C123 is false for other renamings than reverse coding: exchanging the two upper categories of an item leaves the family of
generalized partial credit models. -/
theorem C123_gpc_rename_false : ¬ GPCRenameable := by
  intro h
  obtain ⟨n, hn, hlv, hcats, -, hF⟩ := h exThreeEven exThreeEven_wf swapTwo swapTwo_renaming
  have hc3 : n.cats = [3] := hcats
  have h2 := n.logitModel hn 1
  rw [hc3] at h2
  set a := slopeOf n.itemParameters 0 0
  set B : ℕ → ℝ := fun r => ((n.itemParameters[0]?).map fun p => p.2.getD r 0).getD 0
  have cross : ∀ (x : ℝ) (r s : ℕ), r < 3 → s < 3 → tableProb (n.probs [x]) 0 r * Real.exp (s * a * x + B s)
      = tableProb (n.probs [x]) 0 s * Real.exp (r * a * x + B r) := by
    intro x r s hr hs
    have := logit_cross h2 (fun _ => x) 0 3 r s rfl hr hs
    simp only [univ_unique, Fin.default_eq_zero, sum_singleton] at this
    exact this
  have hf : ∀ (x : ℝ) r, r < 3 → tableProb (n.probs [x]) 0 (swapTwo 0 r) = tableProb (exThreeEven.probs [x]) 0 r := by
    intro x r hr
    exact hF (fun _ => x) 0 3 r (by simp [exThreeEven]) hr
  have odds : ∀ x : ℝ, Real.exp (a * x + B 1 - B 0) = Real.exp (2 * x) ∧ Real.exp (2 * a * x + B 2 - B 0) = Real.exp x := by
    intro x
    have hD : 0 < 1 + Real.exp x + Real.exp (2 * x) := by positivity
    have e0 := hf x 0 (by norm_num)
    have e1 := hf x 1 (by norm_num)
    have e2 := hf x 2 (by norm_num)
    rw [exThreeEven_prob x _ (by norm_num)] at e0 e1 e2
    have s0 : swapTwo 0 0 = 0 := rfl
    have s1 : swapTwo 0 1 = 2 := rfl
    have s2 : swapTwo 0 2 = 1 := rfl
    rw [s0] at e0
    rw [s1] at e1
    rw [s2] at e2
    have c1 := cross x 1 0 (by norm_num) (by norm_num)
    have c2 := cross x 2 0 (by norm_num) (by norm_num)
    rw [e0] at c1 c2
    rw [e2] at c1
    rw [e1] at c2
    have c1 := cancel_total hD c1
    have c2 := cancel_total hD c2
    simp only [Nat.cast_zero, zero_mul, zero_add, Nat.cast_one, one_mul, Nat.cast_ofNat, Real.exp_zero] at c1 c2
    constructor
    · rw [Real.exp_sub, div_eq_iff (Real.exp_pos _).ne']
      exact c1.symm
    · rw [Real.exp_sub, div_eq_iff (Real.exp_pos _).ne']
      exact c2.symm
  have o0 := odds 0
  have o1 := odds 1
  simp only [Real.exp_eq_exp] at o0 o1
  linarith [o0.1, o0.2, o1.1, o1.2]

/-! ## Merging neighbouring categories -/

/-- C123, graded response: merging neighbouring categories of any items gives data that the model describes as well, with the slopes
kept and the intercepts of the removed boundaries left out. -/
theorem C123_merge_grm (m : GRM) (hwf : m.WF) (cats' : List ℕ) (f : ℕ → ℕ → ℕ) (hf : Merging m.cats cats' f) :
    ∃ n : GRM, n.WF ∧ n.lv = m.lv ∧ n.cats = cats' ∧ n.rel = m.rel ∧
      (∀ j k, j < m.cats.length → k < m.lv → slopeOf n.itemParameters j k = slopeOf m.itemParameters j k) ∧ (m.Ordered → n.Ordered) ∧
      AddsUp (d := m.lv) m.cats cats' f (fun θ => tableProb (m.probs (List.ofFn θ))) (fun θ => tableProb (n.probs (List.ofFn θ))) := by
  classical
  let b : ℕ → ℕ → ℝ := fun j k => ((m.itemParameters[j]?).map fun p => p.2.getD (k - 1) 0).getD 0
  let c' : ℕ → ℕ := fun j => cats'.getD j 0
  -- the lowest response that belongs to category `s` or a higher one
  let g : ℕ → ℕ → ℕ := fun j s => ((range (m.cats.getD j 0)).filter fun r => f j r < s).card
  have hboth : ∀ j c : ℕ, m.cats[j]? = some c → ∃ e, cats'[j]? = some e := by
    intro j c hc
    exact getElem?_of_lt cats' j (by rw [hf.items]; exact lt_of_getElem?_some hc)
  have hback : ∀ j e : ℕ, cats'[j]? = some e → ∃ c, m.cats[j]? = some c := by
    intro j e he
    exact getElem?_of_lt m.cats j (by rw [← hf.items]; exact lt_of_getElem?_some he)
  have hgc : ∀ j c : ℕ, m.cats[j]? = some c → m.cats.getD j 0 = c := fun j c hc => by simp [List.getD_eq_getElem?_getD, hc]
  have hc' : ∀ j e : ℕ, cats'[j]? = some e → c' j = e := fun j e he => by simp [c', List.getD_eq_getElem?_getD, he]
  -- being below category `s` means being below `g j s`
  have below : ∀ j c s : ℕ, m.cats[j]? = some c → ∀ r, r < c → (f j r < s ↔ r < g j s) := by
    intro j c s hc
    have hset : ∀ t, ((range t).filter fun r => f j r < s).card ≤ t := fun t => by
      have := card_filter_le (range t) fun r => f j r < s
      rwa [card_range] at this
    have key : ∀ t, t ≤ c → ∀ r, r < t → (f j r < s ↔ r < ((range t).filter fun r => f j r < s).card) := by
      intro t
      induction t with
      | zero => intro _ r hr; omega
      | succ t ih =>
        intro ht r hr
        rw [range_add_one, filter_insert]
        by_cases hts : f j t < s
        · have all : (range t).filter (fun r => f j r < s) = range t := by
            apply filter_true_of_mem
            intro u hu
            exact lt_of_le_of_lt (hf.order j c u t hc (by have := mem_range.1 hu; omega) (by omega)) hts
          rw [if_pos hts, all, card_insert_of_notMem (by simp), card_range]
          refine ⟨fun _ => hr, fun _ => lt_of_le_of_lt (hf.order j c r t hc (by omega) (by omega)) hts⟩
        · rw [if_neg hts]
          by_cases hrt : r = t
          · subst hrt
            exact ⟨fun h => absurd h hts, fun h => absurd h (by have := hset r; omega)⟩
          · exact ih (by omega) r (by omega)
    intro r hr
    have := key c le_rfl r hr
    rw [this]
    show _ ↔ r < ((range (m.cats.getD j 0)).filter fun r => f j r < s).card
    rw [hgc j c hc]
  have gle : ∀ j c s : ℕ, m.cats[j]? = some c → g j s ≤ c := by
    intro j c s hc
    have := card_filter_le (range (m.cats.getD j 0)) fun r => f j r < s
    rw [card_range, hgc j c hc] at this
    simp only [g]
    rwa [hgc j c hc]
  have g0 : ∀ j, g j 0 = 0 := by intro j; simp [g]
  have gtop : ∀ j c e : ℕ, m.cats[j]? = some c → cats'[j]? = some e → g j e = c := by
    intro j c e hc he
    have : (range (m.cats.getD j 0)).filter (fun r => f j r < e) = range (m.cats.getD j 0) :=
      filter_true_of_mem fun r hr => hf.valid j c e r hc he (by have := mem_range.1 hr; rwa [hgc j c hc] at this)
    simp only [g]
    rw [this, card_range, hgc j c hc]
  have gstep : ∀ j c e s : ℕ, m.cats[j]? = some c → cats'[j]? = some e → s < e → g j s < g j (s + 1) := by
    intro j c e s hc he hs
    obtain ⟨r, hr, hrs⟩ := hf.onto j c e s hc he hs
    have h1 := (below j c s hc r hr).not.1 (by omega)
    have h2 := (below j c (s + 1) hc r hr).1 (by omega)
    omega
  let B : ℕ → ℕ → ℝ := fun j s => if 0 < s ∧ s < c' j then b j (g j s) else 0
  have hcpos' : ∀ e ∈ cats', 0 < e := by
    intro e he
    obtain ⟨j, hj⟩ := List.mem_iff_getElem?.1 he
    obtain ⟨c, hc⟩ := hback j e hj
    have hc0 := hwf.catsPos c (List.mem_of_getElem? hc)
    have := hf.valid j c e 0 hc hj hc0
    omega
  obtain ⟨n, hn, hlv, hcats, hrel, hpar⟩ := grm_exists m.lv cats' m.rel hcpos' (by rw [hwf.relLen, hf.items]) hwf.relRow
    (fun j k => slopeOf m.itemParameters j k) B (by
      intro j k r hr hk
      obtain ⟨⟨a, e, hp, ha⟩, -⟩ := C16_grm_unrelated m hwf [] 0 j k r hr hk
      simp only [slopeOf_eq _ _ _ _ hp, List.getD_eq_getElem?_getD, ha, Option.getD_some]) (by
      intro j e k he hk
      have := hc' j e he
      simp only [B]
      rw [if_neg (by omega)])
  have hb : ∀ (j e k : ℕ) (w dl : List ℝ), cats'[j]? = some e → n.itemParameters[j]? = some (w, dl) → 0 < k → k < e →
      dl.getD (k - 1) 0 = b j (g j k) := by
    intro j e k w dl he hp hk hke
    have heM : e ≤ maxCats cats' := le_maxCats _ _ (List.mem_of_getElem? he)
    rw [hpar j (lt_of_getElem?_some he)] at hp
    obtain ⟨rfl, rfl⟩ := Prod.mk.inj (Option.some.inj hp)
    rw [tail_getD _ _ _ hk (by omega)]
    simp only [B, hc' j e he]
    rw [if_pos ⟨hk, hke⟩]
  refine ⟨n, hn, hlv, hcats, hrel, ?_, ?_, ?_⟩
  · intro j k hj hk
    exact slopeOf_range _ _ _ _ _ (hpar j (by rw [hf.items]; exact hj)) ⟨k, hk⟩
  · intro hord j e w dl he hp k hk
    rw [hcats] at he
    obtain ⟨c, hc⟩ := hback j e he
    have h1 := hb j e (k + 1) w dl he hp (by omega) (by omega)
    have h2 := hb j e (k + 2) w dl he hp (by omega) (by omega)
    rw [show k + 1 - 1 = k by omega] at h1
    rw [show k + 2 - 1 = k + 1 by omega] at h2
    rw [h1, h2]
    obtain ⟨wm, dm, hpm, -⟩ := m.exists_params j (lt_of_getElem?_some hc)
    have hbm : ∀ k, b j k = dm.getD (k - 1) 0 := by intro k; simp [b, hpm]
    rw [hbm, hbm]
    have hd : ∀ k, 0 < k → k + 1 < c → (fun k => dm.getD (k - 1) 0) (k + 1) < (fun k => dm.getD (k - 1) 0) k := by
      intro k hk hkc
      have := hord j c wm dm hc hpm (k - 1) (by omega)
      rw [show k - 1 + 1 = k by omega] at this
      simpa using this
    have s0 := gstep j c e 0 hc he (by omega)
    have s1 := gstep j c e k hc he (by omega)
    have s2 := gstep j c e (k + 1) hc he (by omega)
    have s3 := gstep j c e (k + 2) hc he (by omega)
    have s4 := gle j c (k + 2 + 1) hc
    exact grm_antitone c (fun k => dm.getD (k - 1) 0) hd (g j (k + 1)) (g j (k + 2)) (by omega) s2 (by omega)
  · intro θ j c e s hc he hs
    have hcM : c ≤ m.M := le_maxCats _ _ (List.mem_of_getElem? hc)
    have heM : e ≤ n.M := by rw [GRM.M, hcats]; exact le_maxCats _ _ (List.mem_of_getElem? he)
    obtain ⟨wm, dm, hpm, -⟩ := m.exists_params j (lt_of_getElem?_some hc)
    have hp := hpar j (lt_of_getElem?_some he)
    have hbm : ∀ k, b j k = dm.getD (k - 1) 0 := by intro k; simp [b, hpm]
    have hη : ∑ k : Fin m.lv, θ k * ((List.range m.lv).map (fun k => slopeOf m.itemParameters j k)).getD k 0
        = ∑ k : Fin m.lv, θ k * wm.getD k 0 := by
      refine sum_congr rfl fun k _ => ?_
      rw [ofRange_getD _ _ _ k.2, slopeOf_eq _ _ _ _ hpm]
    dsimp only
    rw [n.row_at m.lv j e (by rw [hcats]; exact he) _ _ hp θ s (by omega), hη]
    set η := ∑ k : Fin m.lv, θ k * wm.getD k 0
    have hgeq : ∀ t, t ≤ e → grmGeq e η (fun k => (((List.range (maxCats cats')).map (B j)).tail).getD (k - 1) 0) t
        = grmGeq c η (fun k => dm.getD (k - 1) 0) (g j t) := by
      intro t ht
      rcases Nat.eq_zero_or_pos t with h0 | h0
      · subst h0; rw [g0]; simp [grmGeq]
      · have hgt : g j t ≠ 0 := by
          have hlt : g j 0 < g j 1 := gstep j c e 0 hc he (by omega)
          have hmono : g j 1 ≤ g j t := by
            refine card_le_card fun r hr => ?_
            rw [mem_filter] at hr ⊢
            exact ⟨hr.1, by omega⟩
          omega
        rcases Nat.lt_or_ge t e with hte | hte
        · have hgc2 : g j t < c := by
            have := gstep j c e t hc he hte
            have := gle j c (t + 1) hc
            omega
          have := hb j e t _ _ he hp h0 hte
          simp only [grmGeq]
          rw [if_neg (by omega), if_pos hte, if_neg hgt, if_pos hgc2]
          congr 2
          rw [← hbm]; exact this
        · obtain rfl : t = e := by omega
          rw [gtop j c t hc he]
          have hc0 : c ≠ 0 := by have := hwf.catsPos c (List.mem_of_getElem? hc); omega
          simp only [grmGeq]
          rw [if_neg (by omega), if_neg (by omega), if_neg hc0, if_neg (by omega)]
    rw [hgeq s (by omega), hgeq (s + 1) (by omega)]
    have hset : (range c).filter (fun r => f j r = s) = Ico (g j s) (g j (s + 1)) := by
      ext r
      rw [mem_filter, mem_Ico, mem_range]
      constructor
      · rintro ⟨hr, rfl⟩
        have h1 := (below j c (f j r) hc r hr).not.1 (by omega)
        have h2 := (below j c (f j r + 1) hc r hr).1 (by omega)
        omega
      · rintro ⟨h1, h2⟩
        have hr : r < c := by have := gle j c (s + 1) hc; omega
        have h3 := (below j c s hc r hr).not.2 (by omega)
        have h4 := (below j c (s + 1) hc r hr).2 h2
        exact ⟨hr, by omega⟩
    rw [hset]
    have htel : ∀ u v : ℕ, u ≤ v → v ≤ c → ∑ r ∈ Ico u v, tableProb (m.probs (List.ofFn θ)) j r
        = grmGeq c η (fun k => dm.getD (k - 1) 0) u - grmGeq c η (fun k => dm.getD (k - 1) 0) v := by
      intro u v huv
      induction v, huv using Nat.le_induction with
      | base => intro _; simp
      | succ v huv ih =>
        intro hv
        rw [sum_Ico_succ_top huv, ih (by omega), m.row_at m.lv j c hc wm dm hpm θ v (by omega)]
        ring
    exact (htel _ _ (gstep j c e s hc he hs).le (gle j c (s + 1) hc)).symm

/-- The claim that merging neighbouring categories of a generalized partial credit model gives such a model. -/
def GPCMergeable : Prop :=
  ∀ (m : GPC), m.WF → ∀ cats' f, Merging m.cats cats' f → ∃ n : GPC, n.WF ∧ n.lv = m.lv ∧ n.cats = cats' ∧ n.rel = m.rel ∧
    AddsUp (d := m.lv) m.cats cats' f (fun θ => tableProb (m.probs (List.ofFn θ))) (fun θ => tableProb (n.probs (List.ofFn θ)))

/-- The claim that merging categories of a nominal response model gives such a model. -/
def NRMMergeable : Prop :=
  ∀ (m : NRM), m.WF → ∀ cats' f, Merging m.cats cats' f → ∃ n : NRM, n.WF ∧ n.lv = m.lv ∧ n.cats = cats' ∧ n.rel = m.rel ∧
    AddsUp (d := m.lv) m.cats cats' f (fun θ => tableProb (m.probs (List.ofFn θ))) (fun θ => tableProb (n.probs (List.ofFn θ)))

/-- The two upper of three categories become one. -/
def mergeUpper (_ r : ℕ) : ℕ := if r = 0 then 0 else 1

theorem mergeUpper_merging : Merging [3] [2] mergeUpper := by
  have e3 : ∀ j c : ℕ, [3][j]? = some c → c = 3 := fun j c hc => (replicate_getElem? 1 j 3 c hc).2
  have e2 : ∀ j c : ℕ, [2][j]? = some c → c = 2 := fun j c hc => (replicate_getElem? 1 j 2 c hc).2
  refine ⟨rfl, ?_, ?_, ?_⟩
  · intro j c e r _ he _
    rw [e2 j e he]
    unfold mergeUpper
    split <;> omega
  · intro j c r s _ hrs _
    unfold mergeUpper
    split <;> split <;> omega
  · intro j c e s hc he hs
    rw [e3 j c hc]
    rw [e2 j e he] at hs
    interval_cases s
    · exact ⟨0, by norm_num, rfl⟩
    · exact ⟨1, by norm_num, rfl⟩

theorem merged_not_logit {Q : (Fin 1 → ℝ) → ℕ → ℕ → ℝ} {A : ℕ → ℕ → Fin 1 → ℝ} {B : ℕ → ℕ → ℝ} (h : LogitModel [2] Q A B)
    (hQ : AddsUp (d := 1) [3] [2] mergeUpper (fun θ => tableProb (exThreeEven.probs (List.ofFn θ))) Q) : False := by
  have odds : ∀ x : ℝ, Real.exp ((A 0 1 0 - A 0 0 0) * x + (B 0 1 - B 0 0)) = Real.exp x + Real.exp (2 * x) := by
    intro x
    have hD : 0 < 1 + Real.exp x + Real.exp (2 * x) := by positivity
    have e0 := hQ (fun _ => x) 0 3 2 0 rfl rfl (by norm_num)
    have e1 := hQ (fun _ => x) 0 3 2 1 rfl rfl (by norm_num)
    have f0 : (range 3).filter (fun r => mergeUpper 0 r = 0) = {0} := by decide
    have f1 : (range 3).filter (fun r => mergeUpper 0 r = 1) = {1, 2} := by decide
    have hof : List.ofFn (fun _ : Fin 1 => x) = [x] := rfl
    dsimp only at e0 e1
    rw [f0, sum_singleton, hof, exThreeEven_prob x 0 (by norm_num)] at e0
    rw [f1, sum_pair (by norm_num), hof, exThreeEven_prob x 1 (by norm_num), exThreeEven_prob x 2 (by norm_num)] at e1
    have c1 := logit_cross h (fun _ => x) 0 2 1 0 rfl (by norm_num) (by norm_num)
    simp only [univ_unique, Fin.default_eq_zero, sum_singleton] at c1
    rw [e0, e1, ← add_div] at c1
    have c1 := cancel_total hD c1
    simp only [Nat.cast_zero, zero_mul, Nat.cast_one, one_mul, Nat.cast_ofNat, Real.exp_zero] at c1
    rw [show (A 0 1 0 - A 0 0 0) * x + (B 0 1 - B 0 0) = (A 0 1 0 * x + B 0 1) - (A 0 0 0 * x + B 0 0) by ring, Real.exp_sub,
      div_eq_iff (Real.exp_pos _).ne']
    exact c1.symm
  have o0 := odds 0
  have o1 := odds 1
  have o2 := odds (-1)
  have hprod : Real.exp ((A 0 1 0 - A 0 0 0) * 1 + (B 0 1 - B 0 0)) * Real.exp ((A 0 1 0 - A 0 0 0) * (-1) + (B 0 1 - B 0 0))
      = Real.exp ((A 0 1 0 - A 0 0 0) * 0 + (B 0 1 - B 0 0)) * Real.exp ((A 0 1 0 - A 0 0 0) * 0 + (B 0 1 - B 0 0)) := by
    rw [← Real.exp_add, ← Real.exp_add]
    congr 1
    ring
  rw [o0, o1, o2] at hprod
  have h1 : Real.exp (2 * 1) = Real.exp 1 * Real.exp 1 := by rw [← Real.exp_add]; norm_num
  have h2 : Real.exp (2 * -1) = Real.exp (-1) * Real.exp (-1) := by rw [← Real.exp_add]; norm_num
  have h3 : Real.exp 1 * Real.exp (-1) = 1 := by rw [← Real.exp_add]; norm_num
  rw [h1, h2] at hprod
  norm_num at hprod
  have hgt : 1 < Real.exp 1 := Real.one_lt_exp_iff.2 one_pos
  set u := Real.exp 1
  set v := Real.exp (-1)
  have : (u + u * u) * (v + v * v) = u * v + (u * v) * v + u * (u * v) + (u * v) * (u * v) := by ring
  rw [this, h3] at hprod
  nlinarith [h3, hprod, hgt]

/-- C123 is false of merging for the generalized partial credit model. -/
theorem C123_merge_gpc_false : ¬ GPCMergeable := by
  intro h
  obtain ⟨n, hn, -, hcats, -, hA⟩ := h exThreeEven exThreeEven_wf [2] mergeUpper mergeUpper_merging
  have := n.logitModel hn 1
  rw [hcats] at this
  exact merged_not_logit this hA

/-- C123 is false of merging for the nominal response model. -/
theorem C123_merge_nrm_false : ¬ NRMMergeable := by
  intro h
  obtain ⟨q, hq, hlv, hqc, -, hqp⟩ := C108_gpc_in_nrm exThreeEven exThreeEven_wf
  obtain ⟨lv, cats, rel, weight, bias⟩ := q
  obtain rfl : lv = 1 := hlv
  obtain rfl : cats = [3] := hqc
  obtain ⟨n, hn, -, hcats, -, hA⟩ := h _ hq [2] mergeUpper mergeUpper_merging
  have hl := n.logitModel 1
  rw [hcats] at hl
  refine merged_not_logit hl ?_
  intro θ j c e s hc he hs
  rw [hA θ j c e s hc he hs]
  refine sum_congr rfl fun r _ => ?_
  dsimp only
  rw [hqp (List.ofFn θ) (by simp; rfl)]

/-- One item with three categories of the graded response model: slope one and intercepts `1` and `-1`. -/
noncomputable def exThreeGraded : GRM := { lv := 1, cats := [3], rel := [[true]], weight := [1], bias := [1, -1] }

theorem exThreeGraded_wf : exThreeGraded.WF where
  catsPos := by simp [exThreeGraded]
  relLen := by simp [exThreeGraded]
  relRow := by simp [exThreeGraded]
  weightLen := by simp [exThreeGraded, countTrue]
  biasLen := by simp [exThreeGraded, countTrue, GRM.M, maxCats, freeMask, freeRow, List.range_succ]

theorem exThreeGraded_params : exThreeGraded.itemParameters[0]? = some (([1] : List ℝ), ([1, -1] : List ℝ)) := by
  simp [GRM.itemParameters, GRM.weights, GRM.biases, exThreeGraded, viewRows, scatterMask, GRM.M, maxCats, freeMask, freeRow,
    List.range_succ]

theorem exThreeGraded_ordered : exThreeGraded.Ordered := by
  intro j c w dl hc hp k hk
  have hj : j = 0 := by
    have := lt_of_getElem?_some hc
    simp only [exThreeGraded, List.length_singleton] at this
    omega
  subst hj
  have h3 : c = 3 := by simpa [exThreeGraded, eq_comm] using hc
  have hk0 : k = 0 := by omega
  subst hk0
  rw [exThreeGraded_params] at hp
  obtain ⟨-, rfl⟩ := Prod.mk.inj (Option.some.inj hp)
  norm_num

/-- The lowest two categories change names. -/
def swapLow (_ r : ℕ) : ℕ := if r = 0 then 1 else if r = 1 then 0 else r

theorem swapLow_renaming : Renaming [3] swapLow := by
  constructor
  · intro j c r hc hr
    have : c = 3 := (replicate_getElem? 1 j 3 c hc).2
    subst this
    interval_cases r <;> simp [swapLow]
  · intro j c r s hc hr hs h
    have : c = 3 := (replicate_getElem? 1 j 3 c hc).2
    subst this
    interval_cases r <;> interval_cases s <;> simp [swapLow] at h ⊢

/-- The claim that the graded response model allows any renaming of the categories. -/
def GRMRenameable : Prop :=
  ∀ (m : GRM), m.WF → m.Ordered → ∀ σ, Renaming m.cats σ → ∃ n : GRM, n.WF ∧ n.lv = m.lv ∧ n.cats = m.cats ∧ n.rel = m.rel ∧
    Follows (d := m.lv) m.cats σ (fun θ => tableProb (m.probs (List.ofFn θ))) (fun θ => tableProb (n.probs (List.ofFn θ)))

/-- C123 is false for other renamings than reverse coding: the middle category cannot become the lowest one. -/
theorem C123_grm_rename_false : ¬ GRMRenameable := by
  intro h
  obtain ⟨n, hn, hlv, hcats, -, hF⟩ := h exThreeGraded exThreeGraded_wf exThreeGraded_ordered swapLow swapLow_renaming
  have hc3 : n.cats = [3] := hcats
  have hnc : n.cats[0]? = some 3 := by rw [hc3]; rfl
  have hnM : n.M = 3 := by rw [GRM.M, hc3]; simp [maxCats]
  have hmM : exThreeGraded.M = 3 := by simp [GRM.M, exThreeGraded, maxCats]
  obtain ⟨w, dl, hp, -⟩ := n.exists_params 0 (by rw [hc3]; norm_num)
  have key : ∀ x : ℝ, 1 - sigmoid (x * w.getD 0 0 + dl.getD 0 0) = sigmoid (x + 1) - sigmoid (x - 1) := by
    intro x
    have this : tableProb (n.probs (List.ofFn fun _ : Fin 1 => x)) 0 0
        = tableProb (exThreeGraded.probs (List.ofFn fun _ : Fin 1 => x)) 0 1 :=
      hF (fun _ => x) 0 3 1 (by simp [exThreeGraded]) (by norm_num)
    rw [n.row_at 1 0 3 hnc w dl hp _ 0 (by omega),
      exThreeGraded.row_at 1 0 3 rfl _ _ exThreeGraded_params _ 1 (by omega)] at this
    simpa [grmGeq, sub_eq_add_neg] using this
  have k0 := key 0
  have k1 := key 1
  have k2 := key (-1)
  have s0 : sigmoid 0 = 1 / 2 := by norm_num [sigmoid]
  have e1 : sigmoid (-1) = 1 - sigmoid 1 := sigmoid_neg_eq 1
  have e2 : sigmoid (-2) = 1 - sigmoid 2 := sigmoid_neg_eq 2
  norm_num [s0] at k0 k1 k2
  rw [e1] at k0
  rw [e2] at k2
  have hsame : sigmoid (w.getD 0 0 + dl.getD 0 0) = sigmoid (-w.getD 0 0 + dl.getD 0 0) := by
    simp only [List.getD_eq_getElem?_getD] at *
    linarith
  have hw := sigmoid_strictMono.injective hsame
  have hw0 : w.getD 0 0 = 0 := by linarith
  have hmid : sigmoid 1 - (1 - sigmoid 1) = sigmoid 2 - 1 / 2 := by
    simp only [List.getD_eq_getElem?_getD] at *
    rw [hw0, zero_add] at k1
    linarith
  have hE : 1 < Real.exp 1 := Real.one_lt_exp_iff.2 one_pos
  have hexp : Real.exp (-2) = Real.exp (-1) * Real.exp (-1) := by rw [← Real.exp_add]; norm_num
  have hinv : Real.exp (-1) = (Real.exp 1)⁻¹ := Real.exp_neg 1
  unfold sigmoid at hmid
  rw [hexp, hinv] at hmid
  set e := Real.exp 1
  have he0 : 0 < e := by linarith
  field_simp at hmid
  have : (e - 1) ^ 2 > 0 := by
    have : 0 < e - 1 := by linarith
    positivity
  nlinarith

/-! ## Instances -/

/-- A 2PL with one of its items reverse coded. -/
example : ∃ n : TwoPL, n.WF ∧ n.itemParameters[1]? = some (([-2, 1] : List ℝ), (1 : ℝ)) ∧ n.itemParameters[0]? = exTwoPL.itemParameters[0]? := by
  obtain ⟨n, hn, -, -, -, hpar, -⟩ := C123_twoPL exTwoPL exTwoPL_wf fun j => j == 1
  refine ⟨n, hn, ?_, ?_⟩
  · have := hpar 1 [2, -1] (-1) (by
      simp [TwoPL.itemParameters, TwoPL.weights, exTwoPL, viewRows, scatterMask])
    simpa using this
  · have h0 : exTwoPL.itemParameters[0]? = some ([1, 0], 1 / 2) := by
      simp [TwoPL.itemParameters, TwoPL.weights, exTwoPL, viewRows, scatterMask]
    have := hpar 0 [1, 0] (1 / 2) h0
    rw [h0]
    simpa using this

/-- A partial credit model, a graded response model and a nominal response model with recoded items. -/
example : (∃ n : GPC, n.WF ∧ Follows (d := 2) exGPC.cats (reverseCoding exGPC.cats fun j => j == 0)
      (fun θ => tableProb (exGPC.probs (List.ofFn θ))) (fun θ => tableProb (n.probs (List.ofFn θ)))) ∧
    (∃ n : GRM, n.WF ∧ n.Ordered ∧ Follows (d := 1) exThreeGraded.cats (reverseCoding exThreeGraded.cats fun _ => true)
      (fun θ => tableProb (exThreeGraded.probs (List.ofFn θ))) (fun θ => tableProb (n.probs (List.ofFn θ)))) ∧
    ∃ n : NRM, n.WF ∧ Follows (d := exNRM.lv) exNRM.cats (reverseCoding exNRM.cats fun j => j == 0)
      (fun θ => tableProb (exNRM.probs (List.ofFn θ))) (fun θ => tableProb (n.probs (List.ofFn θ))) := by
  refine ⟨?_, ?_, ?_⟩
  · obtain ⟨n, hn, -, -, -, -, h⟩ := C123_gpc exGPC exGPC_wf fun j => j == 0
    exact ⟨n, hn, h⟩
  · obtain ⟨n, hn, -, -, -, -, ho, h⟩ := C123_grm exThreeGraded exThreeGraded_wf fun _ => true
    exact ⟨n, hn, ho exThreeGraded_ordered, h⟩
  · obtain ⟨n, hn, -, -, -, h⟩ := C123_nrm exNRM exNRM_wf _ (reverseCoding_renaming exNRM.cats fun j => j == 0)
    exact ⟨n, hn, h⟩

/-- Two respondents answer one item, with 0 and with 1. -/
def exCodes (i _ : ℕ) : Cell := some (i : ℤ)

theorem exCodes_valid (i : ℕ) (hi : i < 2) : ValidResponses [2] (exCodes i) := by
  intro j c hc _
  have : c = 2 := (replicate_getElem? 1 j 2 c hc).2
  exact ⟨i, rfl, by omega⟩

/-- Reverse coding exchanges the two answers, and a missing answer stays missing. -/
example : renamed (reverseCoding [2] fun _ => true) exCodes 0 0 = some 1 ∧
    renamed (reverseCoding [2] fun _ => true) exCodes 1 0 = some 0 ∧
    renameCell (reverseCoding [5] (fun _ => true) 0) (some 1) = some 3 ∧
    renameCell (reverseCoding [5] (fun _ => true) 0) none = none ∧
    renameCell (reverseCoding [5] (fun _ => true) 0) (some (-1)) = some (-1) := by
  refine ⟨?_, ?_, ?_, ?_, ?_⟩ <;> simp [renamed, renameCell, reverseCoding, exCodes, cellMissing, responseOf]

theorem exCodes_loss {m : Scorer 1} {P : (Fin 1 → ℝ) → ℕ → ℕ → ℝ} (hm : IsScorer m [2] P) (hpos : PositiveProbs P [2]) :
    lossValue (mmlLoss m (rowsOf 2 1 exCodes) [fun _ => 0] [0]) = -(Real.log (P (fun _ => 0) 0 0) + Real.log (P (fun _ => 0) 0 1)) := by
  have h := mmlLoss_weighted hm hpos 2 exCodes exCodes_valid [fun _ => 0] [0] rfl (by simp)
  rw [show ([2] : List ℕ).length = 1 from rfl] at h
  rw [h]
  simp [lossValue, sum_range_succ, weighted, observedLikelihood, exCodes, cellMissing, responseOf]

/-- No probabilities describe these two answers better than one half. -/
theorem exCodes_best {m n : Scorer 1} {P Q : (Fin 1 → ℝ) → ℕ → ℕ → ℝ} (hm : IsScorer m [2] P) (hpos : PositiveProbs P [2])
    (hhalf : P (fun _ => 0) 0 0 = 1 / 2 ∧ P (fun _ => 0) 0 1 = 1 / 2) (hn : IsScorer n [2] Q) (hposn : PositiveProbs Q [2])
    (hone : Q (fun _ => 0) 0 0 + Q (fun _ => 0) 0 1 = 1) :
    lossValue (mmlLoss m (rowsOf 2 1 exCodes) [fun _ => 0] [0]) ≤ lossValue (mmlLoss n (rowsOf 2 1 exCodes) [fun _ => 0] [0]) := by
  rw [exCodes_loss hm hpos, exCodes_loss hn hposn, hhalf.1, hhalf.2]
  have h0 := hposn (fun _ => 0) 0 2 0 rfl (by norm_num)
  have h1 := hposn (fun _ => 0) 0 2 1 rfl (by norm_num)
  rw [← Real.log_mul h0.ne' h1.ne', ← Real.log_mul (by norm_num) (by norm_num), neg_le_neg_iff]
  exact Real.log_le_log (mul_pos h0 h1) (by nlinarith [sq_nonneg (Q (fun _ => 0) 0 0 - Q (fun _ => 0) 0 1)])

theorem logit_two {P : (Fin 1 → ℝ) → ℕ → ℕ → ℝ} {A : ℕ → ℕ → Fin 1 → ℝ} {B : ℕ → ℕ → ℝ} (h : LogitModel [2] P A B) :
    P (fun _ => 0) 0 0 + P (fun _ => 0) 0 1 = 1 ∧ (B 0 0 = B 0 1 → P (fun _ => 0) 0 0 = 1 / 2 ∧ P (fun _ => 0) 0 1 = 1 / 2) := by
  have h0 := h (fun _ => 0) 0 2 0 rfl (by norm_num)
  have h1 := h (fun _ => 0) 0 2 1 rfl (by norm_num)
  simp only [mul_zero, sum_const_zero, zero_add, sum_range_succ, sum_range_zero] at h0 h1
  have e0 := Real.exp_pos (B 0 0)
  have e1 := Real.exp_pos (B 0 1)
  have hs : P (fun _ => 0) 0 0 + P (fun _ => 0) 0 1 = 1 := by
    rw [h0, h1, ← add_div, div_self (by positivity)]
  refine ⟨hs, fun hb => ?_⟩
  have heq : P (fun _ => 0) 0 0 = P (fun _ => 0) 0 1 := by rw [h0, h1, hb]
  constructor <;> linarith

/-- One item with two categories, slope one and intercept zero. -/
noncomputable def exEvenGpc : GPC := { lv := 1, cats := [2], rel := [[true]], weight := [1], bias := [0] }

theorem exEvenGpc_wf : exEvenGpc.WF :=
  ⟨by simp [exEvenGpc], by simp [exEvenGpc], by simp [exEvenGpc], by simp [exEvenGpc, countTrue], by simp [exEvenGpc]⟩

/-- A best partial credit model of these answers, and with it the best one of the reverse coded answers. -/
theorem exEvenGpc_best : BestOf (fun q : GPC => q.WF ∧ q.lv = 1 ∧ q.cats = [2] ∧ q.rel = [[true]])
    (fun q => mmlLoss (q.scorer 1) (rowsOf 2 1 exCodes) [fun _ => 0] [0]) exEvenGpc := by
  refine ⟨⟨exEvenGpc_wf, rfl, rfl, rfl⟩, ?_⟩
  rintro q ⟨hq, -, hc, -⟩
  have hs := q.isScorer hq (by rw [hc]; simp) 1
  have hp := q.positive hq 1
  have hl := q.logitModel hq 1
  rw [hc] at hs hp hl
  refine exCodes_best (exEvenGpc.isScorer exEvenGpc_wf (by simp [exEvenGpc]) 1) (exEvenGpc.positive exEvenGpc_wf 1)
    ((logit_two (exEvenGpc.logitModel exEvenGpc_wf 1)).2 ?_) hs hp (logit_two hl).1
  simp [GPC.itemParameters, GPC.weights, GPC.biases, exEvenGpc, viewRows, scatterMask, GPC.M, maxCats, freeMask, freeRow,
    List.range_succ]

example : ∃ n : GPC, BestOf (fun q : GPC => q.WF ∧ q.lv = 1 ∧ q.cats = [2] ∧ q.rel = [[true]])
    (fun q => mmlLoss (q.scorer 1) (rowsOf 2 1 (renamed (reverseCoding [2] fun _ => true) exCodes)) [fun _ => 0] [0]) n := by
  obtain ⟨n, h, -⟩ := C123_best_gpc 1 [2] (by simp) [[true]] (fun _ => true) 2 exCodes exCodes_valid [fun _ => 0] [0] exEvenGpc
    exEvenGpc_best
  exact ⟨n, h⟩

/-- A best 2PL. -/
example : BestOf (fun q : TwoPL => q.WF ∧ q.lv = 1 ∧ q.items = 1 ∧ q.rel = [[true]])
    (fun q => mmlLoss (q.scorer 1) (rowsOf 2 1 exCodes) [fun _ => 0] [0])
    { items := 1, lv := 1, rel := [[true]], weight := [1], bias := [0] } := by
  let m : TwoPL := { items := 1, lv := 1, rel := [[true]], weight := [1], bias := [0] }
  have hwf : m.WF := ⟨by simp [m], by simp [m], by simp [m, countTrue], by simp [m]⟩
  refine ⟨⟨hwf, rfl, rfl, rfl⟩, ?_⟩
  rintro q ⟨hq, -, hc, -⟩
  have hs := q.isScorer hq (by rw [hc]; norm_num) 1
  have hp := q.positive hq 1
  have hl := q.logitModel hq 1
  rw [hc] at hs hp hl
  refine exCodes_best (m.isScorer hwf (by simp [m]) 1) (m.positive hwf 1)
    ((logit_two (m.logitModel hwf 1)).2 ?_) hs hp (logit_two hl).1
  simp [TwoPL.itemParameters, TwoPL.weights, m, viewRows, scatterMask]

/-- A best nominal response model. -/
example : ∃ m : NRM, BestOf (fun q : NRM => q.WF ∧ q.lv = 1 ∧ q.cats = [2] ∧ q.rel = [[true]])
    (fun q => mmlLoss (q.scorer 1) (rowsOf 2 1 exCodes) [fun _ => 0] [0]) m := by
  obtain ⟨m, hm, hlv, hmc, hrel, hmp⟩ := C108_gpc_in_nrm exEvenGpc exEvenGpc_wf
  have hmc' : m.cats = [2] := hmc
  refine ⟨m, ⟨hm, hlv, hmc, hrel⟩, ?_⟩
  rintro q ⟨hq, -, hc, -⟩
  have hs := q.isScorer hq (by rw [hc]; simp) 1
  have hl := q.logitModel 1
  rw [hc] at hs hl
  have hsm := m.isScorer hm (by rw [hmc']; simp) 1
  have hlm := m.logitModel 1
  rw [hmc'] at hsm hlm
  have half := (logit_two (exEvenGpc.logitModel exEvenGpc_wf 1)).2 (by
    simp [GPC.itemParameters, GPC.weights, GPC.biases, exEvenGpc, viewRows, scatterMask, GPC.M, maxCats, freeMask, freeRow,
      List.range_succ])
  refine exCodes_best hsm (fun θ j c r h1 h2 => hlm.pos θ j c r h1 h2) ?_ hs (fun θ j c r h1 h2 => hl.pos θ j c r h1 h2) (logit_two hl).1
  rw [hmp (List.ofFn fun _ : Fin 1 => (0 : ℝ)) (by simp; rfl)]
  exact half

/-- A best graded response model. -/
example : BestOf (fun q : GRM => (q.WF ∧ q.Ordered) ∧ q.lv = 1 ∧ q.cats = [2] ∧ q.rel = [[true]])
    (fun q => mmlLoss (q.scorer 1) (rowsOf 2 1 exCodes) [fun _ => 0] [0])
    { lv := 1, cats := [2], rel := [[true]], weight := [1], bias := [0] } := by
  let m : GRM := { lv := 1, cats := [2], rel := [[true]], weight := [1], bias := [0] }
  have hwf : m.WF := ⟨by simp [m], by simp [m], by simp [m], by simp [m, countTrue],
    by simp [m, countTrue, GRM.M, maxCats, freeMask, freeRow, List.range_succ]⟩
  have hpar : m.itemParameters[0]? = some (([1] : List ℝ), ([0] : List ℝ)) := by
    simp [GRM.itemParameters, GRM.weights, GRM.biases, m, viewRows, scatterMask, GRM.M, maxCats, freeMask, freeRow, List.range_succ]
  have two : ∀ q : GRM, q.cats = [2] → q.Ordered := by
    intro q hq j c w dl hc _ k hk
    rw [hq] at hc
    have := (replicate_getElem? 1 j 2 c hc).2
    omega
  have row : ∀ (q : GRM), q.cats = [2] → ∀ w dl, q.itemParameters[0]? = some (w, dl) → ∀ θ : Fin 1 → ℝ,
      tableProb (q.probs (List.ofFn θ)) 0 0 = 1 - sigmoid (θ 0 * w.getD 0 0 + dl.getD 0 0) ∧
      tableProb (q.probs (List.ofFn θ)) 0 1 = sigmoid (θ 0 * w.getD 0 0 + dl.getD 0 0) := by
    intro q hq w dl hp θ
    have hM : q.M = 2 := by rw [GRM.M, hq]; simp [maxCats]
    have hc0 : q.cats[0]? = some 2 := by rw [hq]; rfl
    rw [q.row_at 1 0 2 hc0 w dl hp θ 0 (by omega), q.row_at 1 0 2 hc0 w dl hp θ 1 (by omega)]
    simp [grmGeq]
  have pos : ∀ q : GRM, q.cats = [2] → PositiveProbs (fun θ : Fin 1 → ℝ => tableProb (q.probs (List.ofFn θ))) [2] := by
    intro q hq θ j c r hc hr
    obtain ⟨hj, rfl⟩ := replicate_getElem? 1 j 2 c hc
    obtain rfl : j = 0 := by omega
    obtain ⟨w, dl, hp, -⟩ := q.exists_params 0 (by rw [hq]; norm_num)
    have := row q hq w dl hp θ
    interval_cases r
    · dsimp only; rw [this.1]; linarith [sigmoid_lt_one (θ 0 * w.getD 0 0 + dl.getD 0 0)]
    · dsimp only; rw [this.2]; exact sigmoid_pos _
  refine ⟨⟨⟨hwf, two m rfl⟩, rfl, rfl, rfl⟩, ?_⟩
  rintro q ⟨-, -, hc, -⟩
  have hs := q.isScorer (two q hc) (by rw [hc]; simp) 1
  rw [hc] at hs
  obtain ⟨w, dl, hp, -⟩ := q.exists_params 0 (by rw [hc]; norm_num)
  have rq := row q hc w dl hp fun _ => 0
  have rm := row m rfl _ _ hpar fun _ => 0
  have s0 : sigmoid 0 = 1 / 2 := by norm_num [sigmoid]
  refine exCodes_best (m.isScorer (two m rfl) (by simp [m]) 1) (pos m rfl) ?_ hs (pos q hc) ?_
  · rw [rm.1, rm.2]
    norm_num [s0]
  · rw [rq.1, rq.2]
    ring

/-- Merging the two upper of three graded categories. -/
example : ∃ n : GRM, n.WF ∧ n.cats = [2] ∧ n.Ordered ∧ AddsUp (d := 1) [3] [2] mergeUpper
    (fun θ => tableProb (exThreeGraded.probs (List.ofFn θ))) (fun θ => tableProb (n.probs (List.ofFn θ))) := by
  obtain ⟨n, hn, -, hc, -, -, ho, h⟩ := C123_merge_grm exThreeGraded exThreeGraded_wf [2] mergeUpper mergeUpper_merging
  exact ⟨n, hn, hc, ho exThreeGraded_ordered, h⟩

/-- A Rasch test with every item reverse coded, fitted with the default integration. -/
example : ∃ (n : OnePL) (pts : Thetas 1) (lw : List ℝ), n.WF ∧ n.itemParameters = [-1] ∧
    mmlIntegration (fun _ => .error .valueError) (fun _ => .error .runtimeError) "quasi_mc" none none = .ok (pts, lw) ∧
    mmlLoss n.scorer (rowsOf 2 1 (renamed (reverseCoding [2] fun _ => true) exCodes)) pts lw
      = mmlLoss (OnePL.scorer ⟨1, [1]⟩) (rowsOf 2 1 exCodes) pts lw := by
  obtain ⟨n, pts, lw, hn, -, hp, hok, h⟩ := C123_onePL_mml_partial ⟨1, [1]⟩ rfl one_pos (hg := fun _ => .error .valueError)
    (ch := fun _ => .error .runtimeError) (method := "quasi_mc") (points := none) (q := 15)
    ⟨rfl, by norm_num, fun h => absurd h (by decide)⟩ (fun h => absurd h (by decide)) (fun _ => by norm_num) 2 exCodes exCodes_valid
  exact ⟨n, pts, lw, hn, by simpa [OnePL.itemParameters] using hp, hok, h⟩

end Irt
