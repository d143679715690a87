import Verif.Lemmas.ItemOrder
import Verif.Props.FitOrder
import Verif.Props.GroupFit
import Verif.Props.Dependence
import Verif.Props.ScoreDist
import Verif.Props.Information
import Verif.Props.Frequencies
import Verif.Model.ScoreSearch

/-!
# C126: the order of the items does not matter, and neither do items that were not answered

Counterpart of C113 and C116 for the items of a test.
-/

namespace Irt
open Spec

/-! ## Scores -/

section Scores

variable {d K K' : ℕ} {σ : Fin K → Fin K'} {m m' : Scorer d} {cats cats' : List ℕ} {P P' : (Fin d → ℝ) → ℕ → ℕ → ℝ}
  (hm : IsScorer m cats P) (hm' : IsScorer m' cats' P') (hK : cats.length = K) (hK' : cats'.length = K')
  (hσ : Function.Injective σ) (hP : CounterpartItems σ P' P) (N : ℕ) (y y' : ℕ → ℕ → Cell) (hy : ∀ i, i < N → ValidResponses cats (y i))
  (hy' : ∀ i, i < N → ValidResponses cats' (y' i)) (hyy : SameAnswers (id : Fin N → Fin N) σ y' y)

include hσ hP hyy in
theorem logLikAt_same (i : ℕ) (hi : i < N) (θ : Fin d → ℝ) : logLikAt P' K' (y' i) θ = logLikAt P K (y i) θ :=
  logLikAt_counterparts hσ hP _ _ (fun j => hyy.same ⟨i, hi⟩ j) (fun j' h => hyy.items ⟨i, hi⟩ j' h) θ

include hm hm' hK hK' hσ hP hy hy' hyy

theorem sameItems_pointMajor (pts : Thetas d) : pointMajorLL m' (rowsOf N K' y') pts = pointMajorLL m (rowsOf N K y) pts := by
  have h1 := pointMajorLL_eq hm' N y' hy' pts
  have h2 := pointMajorLL_eq hm N y hy pts
  rw [hm'.items, hK'] at h1
  rw [hm.items, hK] at h2
  rw [h1, h2]
  congr 1
  exact flatTensor_congr _ _ _ _ fun g _ i hi => logLikAt_same hσ hP N y y' hyy i hi _

theorem sameItems_respondentMajor (pts : Thetas d) :
    respondentMajorLL m' (rowsOf N K' y') pts = respondentMajorLL m (rowsOf N K y) pts := by
  have h1 := respondentMajorLL_eq hm' N y' hy' pts
  have h2 := respondentMajorLL_eq hm N y hy pts
  rw [hm'.items, hK'] at h1
  rw [hm.items, hK] at h2
  rw [h1, h2]
  congr 1
  exact flatTensor_congr _ _ _ _ fun i hi g _ => logLikAt_same hσ hP N y y' hyy i hi _

/-- C126: the marginal loss is the same for every order of the items, and items nobody answered leave it alone. -/
theorem C126_mml_loss (pts : Thetas d) (lw : List ℝ) : mmlLoss m' (rowsOf N K' y') pts lw = mmlLoss m (rowsOf N K y) pts lw := by
  have hN : ∀ (k : ℕ) (z : ℕ → ℕ → Cell), (rowsOf N k z).length = N := by intro k z; simp [rowsOf]
  unfold mmlLoss
  rw [sameItems_pointMajor hm hm' hK hK' hσ hP N y y' hy hy' hyy pts]
  simp only [hN]

/-- C126: every respondent gets the same EAP scores whatever the order of the items, and an item that nobody answered changes
nothing. -/
theorem C126_eap (a : AlgAttrs d) (points : Option ℕ) :
    eapScores m' a (rowsOf N K' y') points = eapScores m a (rowsOf N K y) points := by
  have hN : ∀ (k : ℕ) (z : ℕ → ℕ → Cell), (rowsOf N k z).length = N := by intro k z; simp [rowsOf]
  unfold eapScores eapOnGrid
  simp only [sameItems_respondentMajor hm hm' hK hK' hσ hP N y y' hy hy' hyy, hN]

/-- C126: the search for the ML and MAP scores starts at the same scores and maximises the same function. -/
theorem C126_ml_map :
    (∀ training perm, initialTheta m' (rowsOf N K' y') training perm = initialTheta m (rowsOf N K y) training perm) ∧
    ∀ prior (thetas : Thetas d), thetas.length = N →
      scoreObjective m' prior (rowsOf N K' y') thetas = scoreObjective m prior (rowsOf N K y) thetas := by
  have hN : ∀ (k : ℕ) (z : ℕ → ℕ → Cell), (rowsOf N k z).length = N := by intro k z; simp [rowsOf]
  constructor
  · intro training perm
    unfold initialTheta initialFromCandidates
    simp only [sameItems_respondentMajor hm hm' hK hK' hσ hP N y y' hy hy' hyy, hN]
  · intro prior thetas ht
    have key : ∀ (s : Scorer d) (k : ℕ) (cs : List ℕ) (hk : cs.length = k) (Q : (Fin d → ℝ) → ℕ → ℕ → ℝ) (hs : IsScorer s cs Q)
        (z : ℕ → ℕ → Cell), (∀ i, i < N → ValidResponses cs (z i)) →
        s.logLik (thetas.map s.forward) (rowsOf N k z).flatten (List.map (fun r => List.map cellMissing r) (rowsOf N k z)).flatten
        = .ok (flatTensor N k fun i j =>
          if cellMissing (z i j) then none else some (logE (Q (thetas.getD i 0) j (responseOf (z i j))))) := by
      intro s k cs hk Q hs z hz
      subst hk
      have := hs.logLik N (fun i => thetas.getD i 0) z hz
      rw [hs.items] at this
      rw [← this]
      congr 1
      · conv_lhs => rw [grid_eq thetas, List.map_map, ht]
        rfl
      · simp only [rowsOf, List.map_map, Function.comp_def]
        rfl
    unfold scoreObjective
    dsimp only
    rw [key m' K' cats' hK' P' hm' y' hy', key m K cats hK P hm y hy]
    simp only [bind_ok]
    have hsum : ∀ (f f' : ℕ → ℕ → Option Logit), (∀ i, i < N → ((List.range K').filterMap (f' i)).Perm ((List.range K).filterMap (f i))) →
        nansum (flatTensor N K' f') = nansum (flatTensor N K f) := by
      intro f f' h
      refine nansum_perm ?_
      unfold flatTensor
      rw [List.filterMap_flatMap, List.filterMap_flatMap]
      refine List.Perm.flatMap_left _ fun i hi => ?_
      rw [List.filterMap_map, List.filterMap_map]
      exact h i (List.mem_range.1 hi)
    rw [hsum _ _ fun i hi => filterMap_counterparts σ hσ _ _ (fun j => ?_) fun j' hj' => ?_]
    · have h1 := hyy.same ⟨i, hi⟩ j
      simp only [id_eq] at h1
      simp only [h1, hP (thetas.getD i 0) j]
    · have h1 := hyy.items ⟨i, hi⟩ j' hj'
      simp only [h1, if_true]

end Scores

/-! ## Evaluation -/

section Evaluation

variable {p : ℕ} (σ : Equiv.Perm (Fin p)) (n M : ℕ) (mc mc' : Option (List ℤ)) (P P' : ℕ → ℕ → ℕ → ℝ) (Y Y' : ℕ → ℕ → Cell)
  (hP : ∀ i, i < n → ItemsMoved σ (P i) (P' i)) (hY : ∀ i, i < n → ItemsMoved σ (Y i) (Y' i))

theorem residual_rows (hM : 0 < M) (hv : ∀ i, i < n → ∀ j, j < p → ∀ y, Y i j = some y → y ≠ -1 → 0 ≤ y ∧ y < (M : ℤ)) :
    (List.zip (tablesOf n p M P) (dataOf n p Y)).mapM (fun td => residualRow M mc td.1 td.2)
      = .ok (rowsOf n p fun i j => residualAt mc.isSome M (P i j) (Y i j)) := by
  have h := C58_residuals n p M hM mc P Y hv
  unfold residuals at h
  obtain ⟨rows, hr, h⟩ := bind_eq_ok h
  rw [hr]
  rw [if_neg (by decide), if_neg (by decide), if_neg (by decide)] at h
  injection h with h
  injection h with h
  rw [h]
  rfl

include hY in
theorem moved_valid (hv : ∀ i, i < n → ∀ j, j < p → ∀ y, Y i j = some y → y ≠ -1 → 0 ≤ y ∧ y < (M : ℤ)) :
    ∀ i, i < n → ∀ j, j < p → ∀ y, Y' i j = some y → y ≠ -1 → 0 ≤ y ∧ y < (M : ℤ) := by
  intro i hi j hj y hy
  exact hv i hi (σ ⟨j, hj⟩) (σ ⟨j, hj⟩).isLt y ((hY i hi ⟨j, hj⟩).symm.trans hy)

include hP hY

/-- C126: the residuals move with the items; the averages over items and over everything are unchanged. -/
theorem C126_residuals (hM : 0 < M) (hmc : mc'.isSome = mc.isSome)
    (hv : ∀ i, i < n → ∀ j, j < p → ∀ y, Y i j = some y → y ≠ -1 → 0 ≤ y ∧ y < (M : ℤ)) :
    let run := fun over => residuals M p mc over (tablesOf n p M P) (dataOf n p Y)
    let run' := fun over => residuals M p mc' over (tablesOf n p M P') (dataOf n p Y')
    run' "items" = run "items" ∧ run' "everything" = run "everything" ∧
      (∃ v v', run "respondents" = .ok (.vector v) ∧ run' "respondents" = .ok (.vector v') ∧ MovedBy σ v v') ∧
      ∃ rows rows' : ℕ → List Num, run "none" = .ok (.matrix ((List.range n).map rows)) ∧
        run' "none" = .ok (.matrix ((List.range n).map rows')) ∧ ∀ i, i < n → MovedBy σ (rows i) (rows' i) := by
  intro run run'
  have h := residual_rows n M mc P Y hM hv
  have h' := residual_rows n M mc' P' Y' hM (moved_valid σ n M Y Y' hY hv)
  have hmoved : ∀ i, i < n → ItemsMoved σ (fun j => residualAt mc.isSome M (P i j) (Y i j))
      fun j => residualAt mc'.isSome M (P' i j) (Y' i j) := by
    intro i hi j
    simp only [hP i hi j, hY i hi j, hmc]
  obtain ⟨r1, r2, v, v', r3, r4, r5⟩ := reduceDim_items (f := nanMean) (fun _ _ => nanMean_perm) n hmoved
  refine ⟨?_, ?_, ⟨v, v', ?_, ?_, r5⟩, fun i => (List.range p).map fun j => residualAt mc.isSome M (P i j) (Y i j),
    fun i => (List.range p).map fun j => residualAt mc'.isSome M (P' i j) (Y' i j), ?_, ?_, fun i hi => movedBy_range (hmoved i hi)⟩
  · simp only [run, run', residuals, h, h', bind_ok, if_true, r1]
  · simp only [run, run', residuals, h, h', bind_ok]
    rw [if_neg (by decide), if_neg (by decide), if_pos trivial, if_neg (by decide), if_neg (by decide), if_pos trivial, r2]
  · simp only [run, residuals, h, bind_ok]
    rw [if_neg (by decide), if_pos trivial, r3]
    rfl
  · simp only [run', residuals, h', bind_ok]
    rw [if_neg (by decide), if_pos trivial, r4]
    rfl
  · simp only [run, residuals, h, bind_ok]
    rw [if_neg (by decide), if_neg (by decide), if_neg (by decide)]
    rfl
  · simp only [run', residuals, h', bind_ok]
    rw [if_neg (by decide), if_neg (by decide), if_neg (by decide)]
    rfl

/-- C126: the accuracy of an item moves with the item; the accuracies per respondent and of everything are unchanged. -/
theorem C126_accuracy (argmax : List ℝ → ℕ) :
    let run := fun level => accuracy argmax p level (tablesOf n p M P) (dataOf n p Y)
    let run' := fun level => accuracy argmax p level (tablesOf n p M P') (dataOf n p Y')
    run' "respondent" = run "respondent" ∧ run' "all" = run "all" ∧
      ∃ v v', run "item" = .vector v ∧ run' "item" = .vector v' ∧ MovedBy σ v v' := by
  intro run run'
  have hrows : ∀ (P : ℕ → ℕ → ℕ → ℝ) (Y : ℕ → ℕ → Cell),
      List.zipWith (fun t row => List.zipWith (fun p c => accuracyCell (argmax p) c) t row) (tablesOf n p M P) (dataOf n p Y)
        = rowsOf n p fun i j => accuracyCell (argmax ((List.range M).map (P i j))) (Y i j) := by
    intro P Y
    simp only [tablesOf, dataOf, rowsOf, List.zipWith_map_left, List.zipWith_map_right, List.zipWith_self]
  obtain ⟨r1, r2, v, v', r3, r4, r5⟩ := reduceDim_items (τ := σ) (f := nanMean) (fun _ _ => nanMean_perm) n
    (x := fun i j => accuracyCell (argmax ((List.range M).map (P i j))) (Y i j))
    (x' := fun i j => accuracyCell (argmax ((List.range M).map (P' i j))) (Y' i j)) fun i hi j => by
      simp only [hP i hi j, hY i hi j]
  refine ⟨?_, ?_, v, v', ?_, ?_, r5⟩ <;> simp only [run, run', accuracy, hrows]
  · exact r1
  · exact r2
  · exact r3
  · exact r4

/-- C126: infit and outfit move with the items (level "item"); those of the respondents are unchanged. -/
theorem C126_infit_outfit (hp : 0 < p) (hmc : ValidScoreKey p M mc) (hk : KeysMoved σ mc mc')
    (h1 : ∀ i, i < n → ∀ j, j < p → ∑ c ∈ Finset.range M, P i j c = 1) :
    let run := fun level => infitOutfit M p mc level (tablesOf n p M P) (dataOf n p Y)
    let run' := fun level => infitOutfit M p mc' level (tablesOf n p M P') (dataOf n p Y')
    run' "respondent" = run "respondent" ∧
      ∃ infit infit' outfit outfit', run "item" = .ok (infit, outfit) ∧ run' "item" = .ok (infit', outfit') ∧
        MovedBy σ infit infit' ∧ MovedBy σ outfit outfit' := by
  intro run run'
  have hrows : ∀ (mc : Option (List ℤ)) (P : ℕ → ℕ → ℕ → ℝ) (Y : ℕ → ℕ → Cell), ValidScoreKey p M mc →
      (∀ i, i < n → ∀ j, j < p → ∑ c ∈ Finset.range M, P i j c = 1) →
      (List.zip (tablesOf n p M P) (dataOf n p Y)).mapM (fun td => fitRow M mc td.1 td.2)
        = .ok (rowsOf n p fun i j => fitAt (keyAt mc j) M (P i j) (Y i j)) := by
    intro mc P Y hmc h1
    rw [zip_tables, mapM_ok_iff]
    refine ⟨by simp [rowsOf], ?_⟩
    intro i x hx
    have hi := lt_of_getElem?_some hx
    rw [List.length_map, List.length_range] at hi
    rw [List.getElem?_map, List.getElem?_range hi, Option.map_some] at hx
    obtain rfl := Option.some.inj hx
    refine ⟨_, by rw [rowsOf, List.getElem?_map, List.getElem?_range hi]; rfl, ?_⟩
    exact fitRow_eq M p hp mc hmc (P i) (h1 i hi) (Y i)
  have h1' : ∀ i, i < n → ∀ j, j < p → ∑ c ∈ Finset.range M, P' i j c = 1 := by
    intro i hi j hj
    rw [← h1 i hi (σ ⟨j, hj⟩) (σ ⟨j, hj⟩).isLt]
    exact Finset.sum_congr rfl fun c _ => congrFun (hP i hi ⟨j, hj⟩) c
  have hmoved : ∀ i, i < n → ItemsMoved σ (fun j => fitAt (keyAt mc j) M (P i j) (Y i j))
      fun j => fitAt (keyAt mc' j) M (P' i j) (Y' i j) := by
    intro i hi j
    simp only [hP i hi j, hY i hi j, keysMoved_keyAt hk j]
  have hcol : ItemsMoved σ (fun j => (rowsOf n p fun i j => fitAt (keyAt mc j) M (P i j) (Y i j)).map fun r => r.getD j none)
      (fun j => (rowsOf n p fun i j => fitAt (keyAt mc' j) M (P' i j) (Y' i j)).map fun r => r.getD j none) := by
    intro j
    unfold rowsOf
    dsimp only
    rw [List.map_map, List.map_map]
    refine List.map_congr_left fun i hi => ?_
    simp only [Function.comp_apply, List.getD_eq_getElem?_getD, List.getElem?_map, List.getElem?_range j.isLt,
      List.getElem?_range (σ j).isLt, Option.map_some, Option.getD_some]
    exact hmoved i (List.mem_range.1 hi) j
  have e := hrows mc P Y hmc h1
  have e' := hrows mc' P' Y' (keysMoved_valid hk hmc) h1'
  refine ⟨?_, _, _, _, _, ?_, ?_, movedBy_map (movedBy_range hcol) infitOf, movedBy_map (movedBy_range hcol) outfitOf⟩
  · simp only [run, run', infitOutfit, e, e', bind_ok]
    rw [if_neg (by simp), if_neg (by decide), if_neg (by simp), if_neg (by decide)]
    have hrow : ∀ f : List (Option FitCell) → Num, (∀ xs ys, xs.Perm ys → f xs = f ys) →
        (rowsOf n p fun i j => fitAt (keyAt mc' j) M (P' i j) (Y' i j)).map f
          = (rowsOf n p fun i j => fitAt (keyAt mc j) M (P i j) (Y i j)).map f := by
      intro f hf
      unfold rowsOf
      rw [List.map_map, List.map_map]
      exact List.map_congr_left fun i hi => hf _ _ (movedBy_perm (movedBy_range (hmoved i (List.mem_range.1 hi))))
    rw [hrow infitOf fun _ _ => infitOf_perm, hrow outfitOf fun _ _ => outfitOf_perm]
  · simp only [run, infitOutfit, e, bind_ok]
    rw [if_neg (by simp), if_pos trivial]
    rfl
  · simp only [run', infitOutfit, e', bind_ok]
    rw [if_neg (by simp), if_pos trivial]
    rfl

/-- C126: Q3 of a pair of items is the same wherever the two items are in the test. -/
theorem C126_q3 (hM : 0 < M) (hmc : mc'.isSome = mc.isSome)
    (hv : ∀ i, i < n → ∀ j, j < p → ∀ y, Y i j = some y → y ≠ -1 → 0 ≤ y ∧ y < (M : ℤ)) :
    ∃ Q Q' : Fin p → Fin p → Num, q3 n p M mc (tablesOf n p M P) (dataOf n p Y) = .ok Q ∧
      q3 n p M mc' (tablesOf n p M P') (dataOf n p Y') = .ok Q' ∧ ∀ i j, Q' i j = Q (σ i) (σ j) := by
  refine ⟨_, _, q3_eq n p M hM mc P Y hv, q3_eq n p M hM mc' P' Y' (moved_valid σ n M Y Y' hY hv), fun i j => ?_⟩
  have e : (fun (r : Fin n) (k : Fin p) => residualAt mc'.isSome M (P' r k) (Y' r k))
      = fun r k => (fun (r : Fin n) (k : Fin p) => residualAt mc.isSome M (P r k) (Y r k)) r (σ k) := by
    funext r k
    simp only [hP r r.isLt k, hY r r.isLt k, hmc]
  rw [e, correlationMatrix_items σ fun (r : Fin n) (k : Fin p) => residualAt mc.isSome M (P r k) (Y r k)]
  by_cases hij : i = j
  · rw [if_pos hij, if_pos (congrArg σ hij)]
  · rw [if_neg hij, if_neg fun h => hij (σ.injective h)]

/-- C126: the same for the mutual information difference of a pair of items, if it can be computed. -/
theorem C126_mutual_information (base : ℝ) :
    let run := mutualInformationDifference base M (fun (r : Fin n) (i : Fin p) => Y r i) (tablesOf n p M P)
    let run' := mutualInformationDifference base M (fun (r : Fin n) (i : Fin p) => Y' r i) (tablesOf n p M P')
    (∀ mid amid, run = .ok (mid, amid) → run' = .ok (fun i j => mid (σ i) (σ j), fun i j => amid (σ i) (σ j))) ∧
      ((∃ r, run' = .ok r) → ∃ r, run = .ok r) := by
  -- one direction for every permutation, the other with its inverse
  have key : ∀ (τ : Equiv.Perm (Fin p)) (P P' : ℕ → ℕ → ℕ → ℝ) (Y Y' : ℕ → ℕ → Cell), (∀ i, i < n → ItemsMoved τ (P i) (P' i)) →
      (∀ i, i < n → ItemsMoved τ (Y i) (Y' i)) → ∀ mid amid,
      mutualInformationDifference base M (fun (r : Fin n) (i : Fin p) => Y r i) (tablesOf n p M P) = .ok (mid, amid) →
      mutualInformationDifference base M (fun (r : Fin n) (i : Fin p) => Y' r i) (tablesOf n p M P')
        = .ok (fun i j => mid (τ i) (τ j), fun i j => amid (τ i) (τ j)) := by
    intro τ P P' Y Y' hP hY mid amid h
    unfold mutualInformationDifference at h ⊢
    obtain ⟨o, ho, h⟩ := bind_eq_ok h
    obtain ⟨e, he, h⟩ := bind_eq_ok h
    have hYY : (fun (r : Fin n) (i : Fin p) => Y' r i) = fun r k => (fun (r : Fin n) (i : Fin p) => Y r i) r (τ k) := by
      funext r k
      exact hY r r.isLt k
    have hget : ∀ (P : ℕ → ℕ → ℕ → ℝ) (r : ℕ) (i : Fin p) (k : ℕ), (((List.range p).map fun j => (List.range M).map (P r j)).getD i []).getD k 0
        = ((List.range M).map (P r i)).getD k 0 := by
      intro P r i k
      simp [List.getD_eq_getElem?_getD]
    rw [hYY, dataMutualInformation_items base τ _ o ho, bind_ok,
      expectedMutualInformation_items base M τ (tablesOf n p M P) (tablesOf n p M P') ?_ ?_ e he, bind_ok]
    · simp only [pure, Except.pure, Except.ok.injEq, Prod.mk.injEq] at h ⊢
      obtain ⟨rfl, rfl⟩ := h
      exact ⟨rfl, rfl⟩
    · intro i
      unfold expectedItem tablesOf
      refine List.map_congr_left fun k _ => ?_
      rw [List.map_map, List.map_map]
      congr 1
      refine List.map_congr_left fun r hr => ?_
      simp only [Function.comp_apply]
      rw [hget P' r i k, hget P r (τ i) k, hP r (List.mem_range.1 hr) i]
    · intro i j
      unfold expectedPair tablesOf
      congr 1
      funext k
      refine List.map_congr_left fun l _ => ?_
      rw [List.map_map, List.map_map]
      congr 1
      refine List.map_congr_left fun r hr => ?_
      simp only [Function.comp_apply]
      rw [hget P' r i k, hget P r (τ i) k, hget P' r j l, hget P r (τ j) l, hP r (List.mem_range.1 hr) i, hP r (List.mem_range.1 hr) j]
  intro run run'
  refine ⟨key σ P P' Y Y' hP hY, ?_⟩
  rintro ⟨⟨mid, amid⟩, h⟩
  refine ⟨_, key σ.symm P' P Y' Y (fun i hi j => ?_) (fun i hi j => ?_) mid amid h⟩
  · rw [hP i hi (σ.symm j), Equiv.apply_symm_apply]
  · rw [hY i hi (σ.symm j), Equiv.apply_symm_apply]

/-- C126: precision, recall and F1 of an item move with the item. -/
theorem C126_predictions (argmax : List ℝ → ℕ) (cats cats' : List ℕ) (hc : MovedBy σ cats cats') :
    MovedBy σ (predictions argmax cats (tablesOf n p M P) (dataOf n p Y)) (predictions argmax cats' (tablesOf n p M P') (dataOf n p Y')) := by
  refine ⟨by simp [predictions, hc.1], by simp [predictions, hc.2.1], fun j => ?_⟩
  unfold predictions
  rw [List.getElem?_mapIdx, List.getElem?_mapIdx, hc.2.2]
  congr 1
  funext c
  have hget : ∀ {α : Type} (f : ℕ → α) (x : α) (j : Fin p), ((List.range p).map f).getD j x = f j := by
    intro α f x j
    simp [List.getD_eq_getElem?_getD]
  have h1 : (tablesOf n p M P').map (fun t => argmax (t.getD j [])) = (tablesOf n p M P).map fun t => argmax (t.getD (σ j) []) := by
    unfold tablesOf
    rw [List.map_map, List.map_map]
    refine List.map_congr_left fun i hi => ?_
    simp only [Function.comp_apply]
    rw [hget _ _ j, hget _ _ (σ j), hP i (List.mem_range.1 hi) j]
  have h2 : (dataOf n p Y').map (fun r => r.getD j none) = (dataOf n p Y).map fun r => r.getD (σ j) none := by
    unfold dataOf
    rw [List.map_map, List.map_map]
    refine List.map_congr_left fun i hi => ?_
    simp only [Function.comp_apply]
    rw [hget _ _ j, hget _ _ (σ j), hY i (List.mem_range.1 hi) j]
  rw [h1, h2]

end Evaluation

/-- C126: the log likelihoods move with the items; those per respondent and of everything are unchanged. -/
theorem C126_log_likelihood {d p : ℕ} (σ : Equiv.Perm (Fin p)) {m m' : Scorer d} {cats cats' : List ℕ}
    {P P' : (Fin d → ℝ) → ℕ → ℕ → ℝ} (hm : IsScorer m cats P) (hm' : IsScorer m' cats' P') (hp : cats.length = p)
    (hp' : cats'.length = p) (hP : ∀ θ, ItemsMoved σ (P θ) (P' θ)) (n : ℕ) (t : ℕ → Fin d → ℝ) (Y Y' : ℕ → ℕ → Cell)
    (hY : ∀ i, i < n → ItemsMoved σ (Y i) (Y' i)) (hv : ∀ i, i < n → ValidResponses cats (Y i))
    (hv' : ∀ i, i < n → ValidResponses cats' (Y' i)) (reduction : String) (hred : reduction = "mean" ∨ reduction = "sum") :
    let run := fun level => evaluatorLogLikelihood m reduction level ((List.range n).map t) (dataOf n p Y)
    let run' := fun level => evaluatorLogLikelihood m' reduction level ((List.range n).map t) (dataOf n p Y')
    run' "respondent" = run "respondent" ∧ run' "all" = run "all" ∧
      ∃ v v', run "item" = .ok (.vector v) ∧ run' "item" = .ok (.vector v') ∧ MovedBy σ v v' := by
  intro run run'
  obtain ⟨ll, h1, h2⟩ := cells_eq hm n t Y hv
  obtain ⟨ll', h1', h2'⟩ := cells_eq hm' n t Y' hv'
  rw [hm.items, hp] at h1 h2
  rw [hm'.items, hp'] at h1' h2'
  have hrun : ∃ f : List Num → Num, (∀ xs ys, xs.Perm ys → f xs = f ys) ∧
      (∀ level, run level = .ok (reduceDim f p (levelDim level) (rowsOf n p (cellLogLik P t Y)))) ∧
      ∀ level, run' level = .ok (reduceDim f p (levelDim level) (rowsOf n p (cellLogLik P' t Y'))) := by
    rcases hred with rfl | rfl
    · refine ⟨nanMean, fun _ _ => nanMean_perm, fun level => ?_, fun level => ?_⟩
      · simp only [run, evaluatorLogLikelihood, dataOf_eq, h1, bind_ok, hm.items, hp, h2]
        rw [if_pos List.infix_rfl]
        rfl
      · simp only [run', evaluatorLogLikelihood, dataOf_eq, h1', bind_ok, hm'.items, hp', h2']
        rw [if_pos List.infix_rfl]
        rfl
    · refine ⟨nanSum, fun _ _ => nanSum_perm, fun level => ?_, fun level => ?_⟩
      · simp only [run, evaluatorLogLikelihood, dataOf_eq, h1, bind_ok, hm.items, hp, h2]
        rw [if_neg (by decide), if_pos trivial]
        rfl
      · simp only [run', evaluatorLogLikelihood, dataOf_eq, h1', bind_ok, hm'.items, hp', h2']
        rw [if_neg (by decide), if_pos trivial]
        rfl
  obtain ⟨f, hf, e, e'⟩ := hrun
  obtain ⟨r1, r2, v, v', r3, r4, r5⟩ := reduceDim_items (τ := σ) hf n (x := cellLogLik P t Y) (x' := cellLogLik P' t Y') fun i hi j => by
    simp only [cellLogLik, hP (t i) j, hY i hi j]
  refine ⟨?_, ?_, v, v', ?_, ?_, r5⟩
  · rw [e, e']; exact congrArg Except.ok r1
  · rw [e, e']; exact congrArg Except.ok r2
  · rw [e]; exact congrArg Except.ok r3
  · rw [e']; exact congrArg Except.ok r4

/-! ## Sum scores and information -/

theorem sumScoreMass_equiv {n n' : ℕ} (e : Fin n' ≃ Fin n) (cats : Fin n → ℕ) (cats' : Fin n' → ℕ) (P : Fin n → ℕ → ℝ)
    (P' : Fin n' → ℕ → ℝ) (hc : ∀ i, cats' i = cats (e i)) (hP : ∀ i k, P' i k = P (e i) k) (s : ℕ) :
    sumScoreMass cats' P' s = sumScoreMass cats P s := by
  unfold sumScoreMass
  refine Finset.sum_equiv (e.arrowCongr (Equiv.refl ℕ)) (fun r => ?_) fun r _ => ?_
  · simp only [Finset.mem_filter, Fintype.mem_piFinset, hc, Equiv.arrowCongr_apply, Equiv.coe_refl, Function.comp_apply, id_eq]
    rw [← Equiv.sum_comp e (fun i => r (e.symm i))]
    simp only [Equiv.symm_apply_apply]
    refine and_congr_left fun _ => ⟨fun h i => by simpa using h (e.symm i), fun h i => by simpa using h (e i)⟩
  · simp only [Equiv.arrowCongr_apply, Equiv.coe_refl, Function.comp_apply, id_eq]
    rw [← Equiv.prod_comp e fun i => P i (r (e.symm i))]
    simp only [Equiv.symm_apply_apply, hP]

/-- C126: the distribution of the sum score given the latent variables is the same for every order of the items. -/
theorem C126_score_distribution {p : ℕ} (hp : 0 < p) (σ : Equiv.Perm (Fin p)) (probs probs' : List (List ℝ)) (cats cats' : List ℕ)
    (hprobs : MovedBy σ probs probs') (hcats : MovedBy σ cats cats')
    (hv : ∀ i (h : i < cats.length), 1 ≤ cats[i] ∧ cats[i] ≤ (probs.getD i []).length) :
    conditionalScoreDistribution probs' cats' = conditionalScoreDistribution probs cats := by
  obtain ⟨g, rfl, rfl⟩ := movedBy_eq_ofFn hprobs
  obtain ⟨c, rfl, rfl⟩ := movedBy_eq_ofFn hcats
  have hget : ∀ (g : Fin p → List ℝ) (i : ℕ) (h : i < p), (List.ofFn g).getD i [] = g ⟨i, h⟩ := by
    intro g i h
    simp [List.getD_eq_getElem?_getD, h]
  have hv' : ∀ i : Fin p, 1 ≤ c i ∧ c i ≤ (g i).length := by
    intro i
    have := hv i (by simp)
    simpa [hget g i i.isLt] using this
  have hne : ∀ g : Fin p → List ℝ, List.ofFn g ≠ [] := by
    intro g h
    have := congrArg List.length h
    simp at this
    omega
  obtain ⟨D, h1, h2, h3⟩ := C33_conditional_score_distribution (List.ofFn g) (List.ofFn c) (hne g) (by simp) hv
  obtain ⟨D', h1', h2', h3'⟩ := C33_conditional_score_distribution (List.ofFn fun i => g (σ i)) (List.ofFn fun i => c (σ i)) (hne _) (by simp) (by
    intro i h
    have hi : i < p := by simpa using h
    rw [hget _ i hi]
    simpa using hv' (σ ⟨i, hi⟩))
  rw [h1, h1']
  have hlen : D'.length = D.length := by
    rw [h2, h2']
    congr 1
    exact ((ofFn_perm σ c).map _).sum_eq
  congr 1
  apply List.ext_getElem?
  intro s
  by_cases hs : s < D.length
  · rw [h3 s hs, h3' s (by omega)]
    congr 1
    refine sumScoreMass_equiv (((finCongr (by simp)).trans σ).trans (finCongr (by simp))) _ _ _ _ (fun i => ?_) (fun i k => ?_) s
    · rw [Fin.getElem_fin, List.getElem_ofFn, Fin.getElem_fin, List.getElem_ofFn]
      rfl
    · have hi : (i : ℕ) < p := by simpa using i.isLt
      rw [hget _ i hi, hget]
      rfl
  · rw [List.getElem?_eq_none (by omega), List.getElem?_eq_none (by omega)]

/-- C126: so are the probabilities of the sum scores that the evaluator reports, with the answer key (if there is one) in the new
order. -/
theorem C126_sum_score_probabilities {d p : ℕ} (hp : 0 < p) (σ : Equiv.Perm (Fin p)) (probs probs' : (Fin d → ℝ) → List (List ℝ))
    (cats cats' : List ℕ) (mc mc' : Option (List ℕ)) (hprobs : ∀ t, MovedBy σ (probs t) (probs' t)) (hcats : MovedBy σ cats cats')
    (hmc : (mc = none ∧ mc' = none) ∨ ∃ k k', mc = some k ∧ mc' = some k' ∧ MovedBy σ k k')
    (hv : ∀ t i (h : i < cats.length), 1 ≤ cats[i] ∧ cats[i] ≤ ((probs t).getD i []).length) (method : String) (isVae : Bool)
    (scores : Thetas d) (segments : ℕ) (pdf : (Fin d → ℝ) → ℝ) :
    sumScoreProbabilities probs' cats' mc' method isVae scores segments pdf
      = sumScoreProbabilities probs cats mc method isVae scores segments pdf := by
  unfold sumScoreProbabilities
  congr 1
  funext w
  cases w with
  | none => rfl
  | some pts =>
    rcases hmc with ⟨rfl, rfl⟩ | ⟨k, k', rfl, rfl, hk⟩
    · simp only [fun t => C126_score_distribution hp σ (probs t) (probs' t) cats cats' (hprobs t) hcats (hv t),
        (movedBy_perm hcats).sum_eq, (movedBy_perm hcats).length_eq]
    · have hlen : cats'.length = cats.length := (movedBy_perm hcats).length_eq
      have h2 : MovedBy σ (List.replicate cats.length 2) (List.replicate cats.length 2) := by
        refine ⟨by simp [hcats.1], by simp [hcats.1], fun i => ?_⟩
        rw [List.getElem?_replicate, List.getElem?_replicate, if_pos (by rw [hcats.1]; exact i.isLt),
          if_pos (by rw [hcats.1]; exact (σ i).isLt)]
      have hs : ∀ t, MovedBy σ (sumIncorrectProbabilities (probs t) k) (sumIncorrectProbabilities (probs' t) k') :=
        fun t => movedBy_zipWith (hprobs t) hk _
      simp only [hlen]
      have hd : ∀ t, conditionalScoreDistribution (sumIncorrectProbabilities (probs' t) k') (List.replicate cats.length 2)
          = conditionalScoreDistribution (sumIncorrectProbabilities (probs t) k) (List.replicate cats.length 2) := by
        intro t
        refine C126_score_distribution hp σ _ _ _ _ (hs t) h2 fun i hi => ?_
        have hi' : i < p := by simpa [hcats.1] using hi
        obtain ⟨a, ha⟩ := getElem?_of_lt (probs t) i (by rw [(hprobs t).1]; exact hi')
        obtain ⟨b, hb⟩ := getElem?_of_lt k i (by rw [hk.1]; exact hi')
        rw [List.getElem_replicate]
        simp [sumIncorrectProbabilities, List.getD_eq_getElem?_getD, List.getElem?_zipWith, ha, hb]
      simp only [hd]

/-- C126: the Fisher information of the test is the same for every order of the items, and the informations of the items move with the
items: without rescaling, and with a scale whose Jacobian is invertible. -/
theorem C126_information {d p C : ℕ} (σ : Equiv.Perm (Fin p)) (probs probs' : (Fin d → ℝ) → List (List ℝ)) (hs : TableShape p C probs)
    (hprobs : ∀ t, MovedBy σ (probs t) (probs' t)) (scales : List (Scale d)) (rescale : Bool) (θ : Thetas d)
    (hscale : (rescale = false ∨ scales = []) ∨ ∃ J : (Fin d → ℝ) → Matrix (Fin d) (Fin d) ℝ, scales ≠ [] ∧ θ ≠ [] ∧
      thetaTransformJacobian scales θ = .ok (θ.map J) ∧ ∀ t ∈ θ, (J t).det ≠ 0) :
    (∀ degrees, information probs' p C scales false degrees rescale θ = information probs p C scales false degrees rescale θ) ∧
      ∃ I I' : (Fin d → ℝ) → List (Matrix (Fin d) (Fin d) ℝ), information probs p C scales true none rescale θ = .ok (.items (θ.map I)) ∧
        information probs' p C scales true none rescale θ = .ok (.items (θ.map I')) ∧ ∀ t, MovedBy σ (I t) (I' t) := by
  have hs' : TableShape p C probs' := fun t => ⟨(hprobs t).2.1, fun r hr => (hs t).2 r ((movedBy_perm (hprobs t)).mem_iff.1 hr)⟩
  have hentry : ∀ (j : Fin p) (c : ℕ), entryOf probs' j c = entryOf probs (σ j) c := by
    intro j c
    funext t
    simp only [entryOf, List.getD_eq_getElem?_getD, (hprobs t).2.2 j]
  have hjac : ∀ t, MovedBy σ (probabilityJacobian probs t) (probabilityJacobian probs' t) := by
    intro t
    rw [probabilityJacobian_eq hs, probabilityJacobian_eq hs']
    exact movedBy_range fun j => by simp only [hentry]
  obtain ⟨G, G', hG, hG', hGG⟩ : ∃ G G' : (Fin d → ℝ) → List (List (Fin d → ℝ)),
      probabilityGradients probs p C scales rescale θ = .ok (θ.map G) ∧ probabilityGradients probs' p C scales rescale θ = .ok (θ.map G') ∧
      ∀ t, MovedBy σ (G t) (G' t) := by
    by_cases h : rescale = false ∨ scales = []
    · exact ⟨_, _, probabilityGradients_plain probs p C scales rescale h θ, probabilityGradients_plain probs' p C scales rescale h θ, hjac⟩
    · obtain ⟨J, h1, h2, h3, h4⟩ := hscale.resolve_left h
      have hr : rescale = true := by
        cases rescale
        · exact absurd (Or.inl rfl) h
        · rfl
      subst hr
      exact ⟨_, _, probabilityGradients_rescaled probs p C hs scales h1 θ h2 J h3 h4,
        probabilityGradients_rescaled probs' p C hs' scales h1 θ h2 J h3 h4, fun t => movedBy_map (hjac t) _⟩
  have hinfo : ∀ (Q : (Fin d → ℝ) → List (List ℝ)) (G : (Fin d → ℝ) → List (List (Fin d → ℝ))),
      infoMatrices Q θ (θ.map G) = θ.map fun t => List.zipWith itemInformation (Q t) (G t) := by
    intro Q G
    unfold infoMatrices
    rw [List.zipWith_map_right, List.zipWith_self]
  have hmoved : ∀ t, MovedBy σ (List.zipWith itemInformation (probs t) (G t)) (List.zipWith itemInformation (probs' t) (G' t)) :=
    fun t => movedBy_zipWith (hprobs t) (hGG t) _
  refine ⟨fun degrees => ?_, _, _, ?_, ?_, hmoved⟩
  · cases degrees with
    | none =>
      rw [information_none, information_none, hG, hG']
      simp only [bind_ok, hinfo, List.map_map, Bool.false_eq_true, if_false]
      congr 3
      funext t
      exact (movedBy_perm (hmoved t)).sum_eq
    | some l =>
      by_cases hl : l.length = d
      · rw [information_some _ _ _ _ _ _ l hl, information_some _ _ _ _ _ _ l hl, hG, hG']
        simp only [bind_ok, hinfo, List.map_map, Bool.false_eq_true, if_false]
        have e1 : (List.sum ∘ fun t => List.zipWith itemInformation (probs' t) (G' t))
            = List.sum ∘ fun t => List.zipWith itemInformation (probs t) (G t) := by
          funext t
          exact (movedBy_perm (hmoved t)).sum_eq
        have e2 : ((fun r => (r.map (inDirection l)).sum) ∘ fun t => List.zipWith itemInformation (probs' t) (G' t))
            = (fun r => (r.map (inDirection l)).sum) ∘ fun t => List.zipWith itemInformation (probs t) (G t) := by
          funext t
          exact ((movedBy_perm (hmoved t)).map _).sum_eq
        rw [e1, e2]
      · rw [C31_degrees_refused _ _ _ _ _ _ l hl, C31_degrees_refused _ _ _ _ _ _ l hl]
  · rw [information_none, hG]
    simp only [bind_ok, hinfo, if_true]
    rfl
  · rw [information_none, hG']
    simp only [bind_ok, hinfo, if_true]
    rfl

/-- C126: the expected sum score is the same for every order of the items, and the expected item scores move with the items. -/
theorem C126_expected_scores {p M : ℕ} (hp : 0 < p) (σ : Equiv.Perm (Fin p)) (mc mc' : Option (List ℤ)) (hmc : ValidScoreKey p M mc)
    (hk : KeysMoved σ mc mc') (P P' : ℕ → ℕ → ℝ) (hP : ItemsMoved σ P P') :
    let table := fun Q : ℕ → ℕ → ℝ => (List.range p).map fun j => (List.range M).map (Q j)
    (∃ v v', expectedItemScores (table P) M mc = .ok v ∧ expectedItemScores (table P') M mc' = .ok v' ∧ MovedBy σ v v') ∧
      expectedSumScore (table P') M mc' = expectedSumScore (table P) M mc := by
  intro table
  have h : ∃ v v', expectedItemScores (table P) M mc = .ok v ∧ expectedItemScores (table P') M mc' = .ok v' ∧ MovedBy σ v v' := by
    rcases hk with ⟨rfl, rfl⟩ | ⟨k, k', rfl, rfl, hk⟩
    · exact ⟨_, _, expectedItemScores_none p M P, expectedItemScores_none p M P', movedBy_range fun j => by simp only [hP j]⟩
    · obtain ⟨h1, h2⟩ := hmc k rfl
      refine ⟨_, _, expectedItemScores_keyed p M k h1 hp h2 P, expectedItemScores_keyed p M k' hk.2.1 hp
        (fun x hx => h2 x ((movedBy_perm hk).mem_iff.1 hx)) P', movedBy_range fun j => by simp only [hP j, hk.2.2 j]⟩
  refine ⟨h, ?_⟩
  obtain ⟨v, v', h1, h2, h3⟩ := h
  unfold expectedSumScore
  rw [h1, h2, bind_ok, bind_ok, (movedBy_perm h3).sum_eq]

/-! ## Fitting and scoring -/

theorem sameAnswers_valid {N K K' : ℕ} {σ : Fin K → Fin K'} {y y' : ℕ → ℕ → Cell} (hyy : SameAnswers (id : Fin N → Fin N) σ y' y)
    (hy : ∀ i, i < N → ValidResponses (List.replicate K 2) (y i)) : ∀ i, i < N → ValidResponses (List.replicate K' 2) (y' i) := by
  intro i hi j' c hc hobs
  have hj' : j' < K' := by simpa using lt_of_getElem?_some hc
  by_cases h : ∃ j, σ j = ⟨j', hj'⟩
  · obtain ⟨j, hj⟩ := h
    have hs := hyy.same ⟨i, hi⟩ j
    rw [hj] at hs
    simp only [id_eq] at hs
    have hc2 : c = 2 := by
      rw [List.getElem?_replicate, if_pos hj'] at hc
      exact (Option.some.inj hc).symm
    rw [hs] at hobs ⊢
    exact hy i hi j c (by rw [hc2, List.getElem?_replicate, if_pos j.isLt]) hobs
  · rw [hyy.items ⟨i, hi⟩ ⟨j', hj'⟩ fun j hj => h ⟨j, hj⟩] at hobs
    cases hobs

/-- C126: fitting a two parameter logistic model by MML and scoring the respondents by EAP gives every respondent the same scores
whatever the order of the items, and with or without items that nobody answered (without, if the optimiser leaves alone entries
without a gradient, as Adam does). -/
theorem C126_fit_and_score {d : ℕ} {A : Type} (S : MmlSettings d A) {q : ℕ} (hrule : MmlRule S.hermgauss S.cholesky S.method S.points q)
    (items items' : ℕ) (hitems : 0 < items) (σ : Fin items → Fin items') (hσ : Function.Injective σ)
    (hq : QuietRule S.rule S.start ∨ Function.Surjective σ) (N : ℕ) (y y' : ℕ → ℕ → Cell)
    (hy : ∀ i, i < N → ValidResponses (List.replicate items 2) (y i)) (hyy : SameAnswers (id : Fin N → Fin N) σ y' y) :
    ∃ m m', TwoPL.fitMml S items (rowsOf N items y) = .ok m ∧ TwoPL.fitMml S items' (rowsOf N items' y') = .ok m' ∧
      (∀ a points, eapScores (m'.scorer d) a (rowsOf N items' y') points = eapScores (m.scorer d) a (rowsOf N items y) points) ∧
      ∀ prior (thetas : Thetas d), thetas.length = N →
        scoreObjective (m'.scorer d) prior (rowsOf N items' y') thetas = scoreObjective (m.scorer d) prior (rowsOf N items y) thetas := by
  obtain ⟨m, m', h1, h2, hwf, hwf', _, h3, _⟩ := C113_twoPL S hrule items items' hitems σ hσ hq N N id Function.injective_id
    (Or.inr Function.surjective_id) y y' hy hyy
  have hn : m.items = items := by
    unfold TwoPL.fitMml TwoPL.init at h1
    obtain ⟨m₀, h0, h1⟩ := bind_eq_ok h1
    obtain ⟨r, _, h0⟩ := bind_eq_ok h0
    obtain ⟨wb, _, h1⟩ := bind_eq_ok h1
    injection h0 with h0
    injection h1 with h1
    rw [← h1, ← h0]
  have hn' : m'.items = items' := by
    unfold TwoPL.fitMml TwoPL.init at h2
    obtain ⟨m₀, h0, h2⟩ := bind_eq_ok h2
    obtain ⟨r, _, h0⟩ := bind_eq_ok h0
    obtain ⟨wb, _, h2⟩ := bind_eq_ok h2
    injection h0 with h0
    injection h2 with h2
    rw [← h2, ← h0]
  have hitems' : 0 < items' := by have := (σ ⟨0, hitems⟩).isLt; omega
  have hs := m.isScorer hwf (by omega) d
  have hs' := m'.isScorer hwf' (by omega) d
  rw [hn] at hs
  rw [hn'] at hs'
  have hP : CounterpartItems σ (fun θ : Fin d → ℝ => tableProb (m'.probs (List.ofFn θ))) fun θ => tableProb (m.probs (List.ofFn θ)) := by
    intro θ j
    funext r
    dsimp only [tableProb]
    rw [h3]
  have hy' := sameAnswers_valid hyy hy
  exact ⟨m, m', h1, h2, fun a points => C126_eap hs hs' (by simp) (by simp) hσ hP N y y' hy hy' hyy a points,
    (C126_ml_map hs hs' (by simp) (by simp) hσ hP N y y' hy hy' hyy).2⟩

/-! ## The start of joint maximum likelihood -/

/-- C126: joint maximum likelihood starts every respondent at the same scores whatever the order of the items. -/
theorem C126_jml_start {p : ℕ} (σ : Equiv.Perm (Fin p)) (lv n : ℕ) (mc mc' : Option (List ℤ)) (hk : KeysMoved σ mc mc')
    (x x' : ℕ → ℕ → Num) (hx : ∀ i, i < n → ItemsMoved σ (x i) (x' i)) (noise : ℕ → ℕ → ℝ) (given : Option (List (List Num))) :
    jmlStart lv mc' (rowsOf n p x') noise given = jmlStart lv mc (rowsOf n p x) noise given := by
  have hlen : ∀ z : ℕ → ℕ → Num, (rowsOf n p z).length = n := by intro z; simp [rowsOf]
  have hsum : (rowsOf n p x').map (sumScoreRow mc') = (rowsOf n p x).map (sumScoreRow mc) := by
    unfold rowsOf
    rw [List.map_map, List.map_map]
    refine List.map_congr_left fun i hi => ?_
    have hm := movedBy_range (hx i (List.mem_range.1 hi))
    simp only [Function.comp_apply]
    rcases hk with ⟨rfl, rfl⟩ | ⟨k, k', rfl, rfl, hk⟩
    · simp only [sumScoreRow]
      by_cases hnone : none ∈ (List.range p).map (x i)
      · rw [mapM_option_none _ _ ⟨none, hnone, rfl⟩, mapM_option_none _ _ ⟨none, (movedBy_perm hm).mem_iff.2 hnone, rfl⟩]
      · have e : ∀ l : List Num, none ∉ l → l.mapM id = some (l.map fun v => v.getD 0) := by
          intro l hl
          refine mapM_option_some l id (fun v => v.getD 0) fun v hv => ?_
          cases v with
          | none => exact absurd hv hl
          | some v => rfl
        rw [e _ hnone, e _ fun h => hnone ((movedBy_perm hm).mem_iff.1 h), Option.map_some, Option.map_some, ((movedBy_perm hm).map _).sum_eq]
    · simp only [sumScoreRow]
      rw [(movedBy_perm (movedBy_zipWith hm hk _)).sum_eq]
  unfold jmlStart
  simp only [hlen, hsum]

/-- The claim that an item nobody answered does not change where joint maximum likelihood starts. -/
def UnansweredStartClaim : Prop := ∀ (lv : ℕ) (data : List (List Num)) (noise : ℕ → ℕ → ℝ),
  jmlStart lv none (data.map fun r => r ++ [none]) noise none = jmlStart lv none data noise none

/-- C126 is false of the start of joint maximum likelihood: an item that nobody answered makes all starting scores NaN. -/
theorem C126_jml_start_false : ¬ UnansweredStartClaim := by
  intro h
  have h1 := h 1 [[some 1], [some 0]] (fun _ _ => 0)
  rw [jmlStart_one, jmlStart_one] at h1
  have h2 := Except.ok.inj h1
  norm_num [standardise, sumScoreRow, List.mapM_cons, List.mapM_nil] at h2
  cases h2.1

/-- In general: every starting score is NaN. -/
theorem C126_jml_start_unanswered (lv : ℕ) (data : List (List Num)) (noise : ℕ → ℕ → ℝ) (hne : data ≠ []) :
    jmlStart lv none (data.map fun r => r ++ [none]) noise none = .ok (data.map fun _ => List.replicate lv none) := by
  have hs : standardise ((data.map fun r => r ++ [none]).map (sumScoreRow none)) = data.map fun _ => none := by
    have e : (data.map fun r => r ++ [none]).map (sumScoreRow none) = data.map fun _ => none := by
      rw [List.map_map]
      refine List.map_congr_left fun r _ => ?_
      simp only [Function.comp_apply, sumScoreRow]
      rw [mapM_option_none _ _ ⟨none, by simp, rfl⟩]
      rfl
    rw [e]
    unfold standardise
    obtain ⟨r, hr⟩ := List.exists_mem_of_ne_nil data hne
    rw [mapM_option_none _ _ ⟨none, List.mem_map.2 ⟨r, hr, rfl⟩, rfl⟩]
    simp
  unfold jmlStart
  dsimp only
  rw [hs, List.length_map]
  congr 1
  apply List.ext_getElem
  · simp
  · intro i h1 h2
    simp [List.map_const']

/-- The claim that an item nobody answered does not change the statistics of the pairs of other items. -/
def UnansweredDependenceClaim : Prop := ∀ (n p : ℕ) (base : ℝ) (M : ℕ) (x : Fin n → Fin p → Cell) (tables tables' : List (List (List ℝ)))
  (mid amid : Fin p → Fin p → ℝ), mutualInformationDifference base M x tables = .ok (mid, amid) →
  (∀ r (j : Fin p), (tables'.getD r []).getD j [] = (tables.getD r []).getD j []) →
  ∃ mid' amid' : Fin (p + 1) → Fin (p + 1) → ℝ, mutualInformationDifference base M
      (fun r (j : Fin (p + 1)) => if h : (j : ℕ) < p then x r ⟨j, h⟩ else none) tables' = .ok (mid', amid') ∧
    ∀ i j : Fin p, mid' i.castSucc j.castSucc = mid i j

/-- C126 is false of the mutual information difference: with an item that nobody answered there is an error for all pairs. -/
theorem C126_mutual_information_unanswered_false : ¬ UnansweredDependenceClaim := by
  intro h
  obtain ⟨mid, amid, h2, -⟩ := C76_complete_partial (n := 2) (p := 1) (M := 2) 2 (by norm_num) (by norm_num) le_rfl
    (fun _ _ => 0) (fun _ _ => by norm_num) [2] rfl (fun _ => [[1 / 2, 1 / 2]]) (fun r => by
      refine ⟨rfl, fun j v c hv hc => ?_⟩
      match j with
      | 0 =>
        obtain rfl : v = [1 / 2, 1 / 2] := by simpa using hv.symm
        obtain rfl : c = 2 := by simpa using hc.symm
        exact two_isDistribution _ _ (by norm_num) (by norm_num) (by norm_num)
      | j + 1 => simp at hv)
  obtain ⟨mid', amid', h3, -⟩ := h 2 1 2 2 _ _ (List.replicate 2 [[1 / 2, 1 / 2], [1 / 2, 1 / 2]]) mid amid h2 (by
    intro r j
    fin_cases j
    rcases r with _ | _ | r <;> simp [List.finRange_succ])
  rw [C76_few_common 2 2 _ _ 1 1 (by simp [pairCells])] at h3
  cases h3

/-! ## The hypotheses are met -/

/-- The answers of six respondents to four items, after an item nobody answered and in reversed order. -/
def exItemsTurned (i j : ℕ) : Cell := if j = 0 then none else exTwoClusters i (4 - j)

theorem exItemsTurned_same : SameAnswers (id : Fin 6 → Fin 6) (fun j : Fin 4 => (j.castSucc.rev : Fin 5)) exItemsTurned exTwoClusters := by
  refine ⟨fun i j => ?_, fun i' j' h => ?_, fun i' j' h => absurd rfl (h i')⟩
  · have h2 := j.isLt
    simp only [Fin.val_rev, Fin.val_castSucc, exItemsTurned, id_eq]
    rw [if_neg (by omega), show 4 - (5 - ((j : ℕ) + 1)) = j by omega]
  · have h0 : j' = 0 := by
      by_contra hne
      have hpos : 0 < (j' : ℕ) := Nat.pos_of_ne_zero fun h => hne (Fin.ext h)
      have hlt := j'.isLt
      refine h ⟨4 - j', by omega⟩ (Fin.ext ?_)
      simp only [Fin.val_rev, Fin.val_castSucc]
      omega
    rw [h0]
    rfl

example : ∃ m m', TwoPL.fitMml exTwoTraitFit 4 (rowsOf 6 4 exTwoClusters) = .ok m ∧
    TwoPL.fitMml exTwoTraitFit 5 (rowsOf 6 5 exItemsTurned) = .ok m' ∧
    ∀ a points, eapScores (m'.scorer 2) a (rowsOf 6 5 exItemsTurned) points = eapScores (m.scorer 2) a (rowsOf 6 4 exTwoClusters) points := by
  obtain ⟨m, m', h1, h2, h3, _⟩ := C126_fit_and_score exTwoTraitFit exTwoTraitFit_rule 4 5 (by norm_num) _ exTurnedClusters_injective
    (Or.inl C113_adam_quiet) 6 exTwoClusters exItemsTurned (fun i _ => exTwoClusters_valid i) exItemsTurned_same
  exact ⟨m, m', h1, h2, h3⟩

/-- The scores of two respondents by a model with two like items, which is its own counterpart with the items exchanged. -/
example : ∀ a points, eapScores (exScore.scorer 1) a (rowsOf 2 2 fun i j => if i = 0 ∧ j = 0 then some 1 else some 0) points
    = eapScores (exScore.scorer 1) a (rowsOf 2 2 fun i j => if i = 0 ∧ j = 1 then some 1 else some 0) points := by
  have hv : ∀ (f : ℕ → ℕ → Bool) i, ValidResponses exScore.cats fun j => if f i j then some 1 else some 0 := by
    intro f i j c hc hobs
    have hc2 : c = 2 := by simpa [exScore] using List.mem_of_getElem? hc
    subst hc2
    by_cases h : f i j
    · exact ⟨1, by simp [h], by norm_num⟩
    · exact ⟨0, by simp [h], by norm_num⟩
  refine C126_eap (σ := (Equiv.swap 0 1 : Equiv.Perm (Fin 2))) exScore_isScorer exScore_isScorer rfl rfl (Equiv.injective _) ?_ 2 _ _
    (fun i _ => by simpa using hv (fun i j => decide (i = 0 ∧ j = 1)) i) (fun i _ => by simpa using hv (fun i j => decide (i = 0 ∧ j = 0)) i)
    ⟨fun i j => ?_, fun i' j' h => absurd (Equiv.apply_symm_apply _ j') (h _), fun i' j' h => absurd rfl (h i')⟩
  · intro θ j
    have e : (exScore.probs (List.ofFn θ))[0]? = (exScore.probs (List.ofFn θ))[1]? := by
      simp [exScore, GPC.probs, GPC.forwardRow, probabilitiesFromOutput, GPC.M, maxCats, GPC.weights, GPC.biases, viewRows, missingMask,
        firstMask, maskFill, repeatInterleave, tile, scatterMask, freeMask, freeRow, firstRow, missingRow, List.range_succ]
    funext r
    dsimp only [tableProb]
    fin_cases j
    · exact congrArg (fun o : Option (List ℝ) => (o.bind fun p => p[r]?).getD 0) e.symm
    · exact congrArg (fun o : Option (List ℝ) => (o.bind fun p => p[r]?).getD 0) e
  · fin_cases j <;> simp

/-- Two items, one easier than the other. -/
noncomputable def exUnlikeItems (_ j c : ℕ) : ℝ := if j = 0 then (if c = 0 then 1 / 4 else 3 / 4) else 1 / 2

/-- Three respondents, one of whom fails the first item. -/
def exUnlikeAnswers (i j : ℕ) : Cell := if i = 1 ∧ j = 0 then some 0 else some 1

theorem exItemsMoved {α : Type} (x : ℕ → α) : ItemsMoved (Equiv.swap 0 1 : Equiv.Perm (Fin 2)) x fun j => x (1 - j) := by
  intro j
  fin_cases j <;> simp

theorem exUnlikeAnswers_valid (i j : ℕ) (y : ℤ) (hy : exUnlikeAnswers i j = some y) : 0 ≤ y ∧ y < ((2 : ℕ) : ℤ) := by
  unfold exUnlikeAnswers at hy
  split_ifs at hy <;> (cases hy; norm_num)

theorem exUnlikeItems_sum (i j : ℕ) : ∑ c ∈ Finset.range 2, exUnlikeItems i j c = 1 := by
  unfold exUnlikeItems
  split_ifs <;> norm_num [Finset.sum_range_succ]

example : residuals 2 2 none "items" (tablesOf 3 2 2 fun i j => exUnlikeItems i (1 - j)) (dataOf 3 2 fun i j => exUnlikeAnswers i (1 - j))
    = residuals 2 2 none "items" (tablesOf 3 2 2 exUnlikeItems) (dataOf 3 2 exUnlikeAnswers) :=
  (C126_residuals (Equiv.swap 0 1) 3 2 none none _ _ _ _ (fun i _ => exItemsMoved (exUnlikeItems i)) (fun i _ => exItemsMoved (exUnlikeAnswers i))
    (by norm_num) rfl fun i _ j _ y hy _ => exUnlikeAnswers_valid i j y hy).1

example (argmax : List ℝ → ℕ) : accuracy argmax 2 "all" (tablesOf 3 2 2 fun i j => exUnlikeItems i (1 - j)) (dataOf 3 2 fun i j => exUnlikeAnswers i (1 - j))
    = accuracy argmax 2 "all" (tablesOf 3 2 2 exUnlikeItems) (dataOf 3 2 exUnlikeAnswers) :=
  (C126_accuracy (Equiv.swap 0 1) 3 2 _ _ _ _ (fun i _ => exItemsMoved (exUnlikeItems i)) (fun i _ => exItemsMoved (exUnlikeAnswers i))
    argmax).2.1

/-- With an answer key, whose entries are exchanged too. -/
example : infitOutfit 2 2 (some [0, 1]) "respondent" (tablesOf 3 2 2 fun i j => exUnlikeItems i (1 - j)) (dataOf 3 2 fun i j => exUnlikeAnswers i (1 - j))
    = infitOutfit 2 2 (some [1, 0]) "respondent" (tablesOf 3 2 2 exUnlikeItems) (dataOf 3 2 exUnlikeAnswers) :=
  (C126_infit_outfit (Equiv.swap 0 1) 3 2 (some [1, 0]) (some [0, 1]) _ _ _ _ (fun i _ => exItemsMoved (exUnlikeItems i))
    (fun i _ => exItemsMoved (exUnlikeAnswers i)) (by norm_num) (by rintro k ⟨⟩; simp)
    (Or.inr ⟨_, _, rfl, rfl, rfl, rfl, fun j => by fin_cases j <;> rfl⟩) fun i _ j _ => exUnlikeItems_sum i j).1

example : ∃ Q Q' : Fin 2 → Fin 2 → Num, q3 3 2 2 none (tablesOf 3 2 2 exUnlikeItems) (dataOf 3 2 exUnlikeAnswers) = .ok Q ∧
    q3 3 2 2 none (tablesOf 3 2 2 fun i j => exUnlikeItems i (1 - j)) (dataOf 3 2 fun i j => exUnlikeAnswers i (1 - j)) = .ok Q' ∧
    Q' 0 1 = Q 1 0 := by
  obtain ⟨Q, Q', h1, h2, h3⟩ := C126_q3 (Equiv.swap 0 1) 3 2 none none _ _ _ _ (fun i _ => exItemsMoved (exUnlikeItems i))
    (fun i _ => exItemsMoved (exUnlikeAnswers i)) (by norm_num) rfl fun i _ j _ y hy _ => exUnlikeAnswers_valid i j y hy
  exact ⟨Q, Q', h1, h2, h3 0 1⟩

example (argmax : List ℝ → ℕ) : (predictions argmax [2, 2] (tablesOf 3 2 2 fun i j => exUnlikeItems i (1 - j)) (dataOf 3 2 fun i j => exUnlikeAnswers i (1 - j)))[0]?
    = (predictions argmax [2, 2] (tablesOf 3 2 2 exUnlikeItems) (dataOf 3 2 exUnlikeAnswers))[1]? :=
  (C126_predictions (Equiv.swap 0 1) 3 2 _ _ _ _ (fun i _ => exItemsMoved (exUnlikeItems i)) (fun i _ => exItemsMoved (exUnlikeAnswers i))
    argmax [2, 2] [2, 2] ⟨rfl, rfl, fun j => by fin_cases j <;> rfl⟩).2.2 0

/-- Items with three and two categories. -/
example : conditionalScoreDistribution [[1 / 2, 1 / 2, 0], [1 / 4, 1 / 4, 1 / 2]] [2, 3]
    = conditionalScoreDistribution [[1 / 4, 1 / 4, 1 / 2], [1 / 2, 1 / 2, 0]] [3, 2] :=
  C126_score_distribution (by norm_num) (Equiv.swap 0 1 : Equiv.Perm (Fin 2)) _ _ _ _ ⟨rfl, rfl, fun j => by fin_cases j <;> rfl⟩
    ⟨rfl, rfl, fun j => by fin_cases j <;> rfl⟩ fun i h => by
      have h2 : i < 2 := h
      interval_cases i <;> simp

example (θ : Thetas 2) : information (fun t => (exTwoPL.probs (List.ofFn t)).reverse) 2 2 [] false none false θ
    = information (fun t : Fin 2 → ℝ => exTwoPL.probs (List.ofFn t)) 2 2 [] false none false θ := by
  refine (C126_information (p := 2) (Equiv.swap 0 1) _ _ (twoPL_shape exTwoPL exTwoPL_wf) (fun t => ?_) [] false θ (Or.inl (Or.inl rfl))).1 none
  have hl : (exTwoPL.probs (List.ofFn t)).length = 2 := twoPL_length _ _
  obtain ⟨a, b, hab⟩ := List.length_eq_two.1 hl
  rw [hab]
  exact ⟨rfl, rfl, fun j => by fin_cases j <;> rfl⟩

example : expectedSumScore ((List.range 2).map fun j => (List.range 2).map (exUnlikeItems 0 (1 - j))) 2 (some [0, 1])
    = expectedSumScore ((List.range 2).map fun j => (List.range 2).map (exUnlikeItems 0 j)) 2 (some [1, 0]) :=
  (C126_expected_scores (by norm_num) (Equiv.swap 0 1) (some [1, 0]) (some [0, 1]) (by rintro k ⟨⟩; simp)
    (Or.inr ⟨_, _, rfl, rfl, rfl, rfl, fun j => by fin_cases j <;> rfl⟩) _ _ (exItemsMoved (exUnlikeItems 0))).2

example : jmlStart 2 (some [0, 1]) (rowsOf 3 2 fun i j => if i = 1 ∧ 1 - j = 0 then some 0 else some 1) (fun _ _ => 0) none
    = jmlStart 2 (some [1, 0]) (rowsOf 3 2 fun i j => if i = 1 ∧ j = 0 then some 0 else some 1) (fun _ _ => 0) none :=
  C126_jml_start (Equiv.swap 0 1 : Equiv.Perm (Fin 2)) 2 3 _ _ (Or.inr ⟨_, _, rfl, rfl, rfl, rfl, fun j => by fin_cases j <;> rfl⟩) _ _
    (fun i _ => exItemsMoved fun j => if i = 1 ∧ j = 0 then some 0 else some 1) _ _

/-- Two respondents and two like items: the statistics of the pairs exist, and are found at the new places. -/
example : ∃ mid amid : Fin 2 → Fin 2 → ℝ, mutualInformationDifference 2 2 (fun (r : Fin 2) (i : Fin 2) => exUnlikeAnswers r i)
      (tablesOf 2 2 2 fun _ _ _ => 1 / 2) = .ok (mid, amid) ∧
    mutualInformationDifference 2 2 (fun (r : Fin 2) (i : Fin 2) => exUnlikeAnswers r (1 - i)) (tablesOf 2 2 2 fun _ _ _ => 1 / 2)
      = .ok (fun i j => mid (Equiv.swap 0 1 i) (Equiv.swap 0 1 j), fun i j => amid (Equiv.swap 0 1 i) (Equiv.swap 0 1 j)) := by
  obtain ⟨mid, amid, h2, -⟩ := C76_complete_partial (n := 2) (p := 2) (M := 2) 2 (by norm_num) (by norm_num) le_rfl
    (fun r i => if (r : ℕ) = 1 ∧ (i : ℕ) = 0 then 0 else 1) (fun r i => by split_ifs <;> norm_num) [2, 2] rfl
    (fun _ => [[1 / 2, 1 / 2], [1 / 2, 1 / 2]]) (fun r => by
      refine ⟨rfl, fun j v c hv hc => ?_⟩
      have hj : j < 2 := lt_of_getElem?_some hv
      interval_cases j <;>
        (obtain rfl : v = [1 / 2, 1 / 2] := by simpa using hv.symm
         obtain rfl : c = 2 := by simpa using hc.symm
         exact two_isDistribution _ _ (by norm_num) (by norm_num) (by norm_num)))
  have ht : (List.finRange 2).map (fun _ : Fin 2 => [[1 / 2, 1 / 2], [1 / 2, 1 / 2]]) = tablesOf 2 2 2 fun _ _ _ => (1 / 2 : ℝ) := by
    simp [tablesOf, List.range_succ, List.finRange_succ]
  have hx : (fun (r : Fin 2) (i : Fin 2) => (some ((if (r : ℕ) = 1 ∧ (i : ℕ) = 0 then 0 else 1 : ℕ) : ℤ) : Cell))
      = fun (r : Fin 2) (i : Fin 2) => exUnlikeAnswers r i := by
    funext r i
    unfold exUnlikeAnswers
    split_ifs <;> rfl
  rw [ht, hx] at h2
  exact ⟨mid, amid, h2, (C126_mutual_information (Equiv.swap 0 1) 2 2 _ _ _ _ (fun i _ => exItemsMoved fun _ _ => (1 / 2 : ℝ))
    (fun i _ => exItemsMoved (exUnlikeAnswers i)) 2).1 mid amid h2⟩

/-- The sum scores of items with three and two categories at one position, by the theta sample. -/
example (t : Fin 1 → ℝ) : sumScoreProbabilities (fun _ => [[1 / 2, 1 / 2, 0], [1 / 4, 1 / 4, 1 / 2]]) [2, 3] none "theta" false [t] 5 (fun _ => 1)
    = sumScoreProbabilities (fun _ => [[1 / 4, 1 / 4, 1 / 2], [1 / 2, 1 / 2, 0]]) [3, 2] none "theta" false [t] 5 fun _ => 1 :=
  C126_sum_score_probabilities (by norm_num) (Equiv.swap 0 1 : Equiv.Perm (Fin 2)) _ _ _ _ none none
    (fun _ => ⟨rfl, rfl, fun j => by fin_cases j <;> rfl⟩) ⟨rfl, rfl, fun j => by fin_cases j <;> rfl⟩ (Or.inl ⟨rfl, rfl⟩)
    (fun _ i h => by
      have h2 : i < 2 := h
      interval_cases i <;> simp) _ _ _ _ _

end Irt
