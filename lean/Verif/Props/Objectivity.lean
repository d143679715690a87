import Verif.Spec.Objectivity
import Verif.Props.TestScores

/-! # C136: in models with a common slope the number of points says everything about the latent variable -/

namespace Irt

open Finset Spec

/-- C136: items with a common slope (1PL, partial credit, for any number of latent variables): given the number of points, the answers
do not depend on the latent variables. -/
theorem C136_common_slope {d : ℕ} (cats : List ℕ) (hcats : cats ≠ []) (M : ℕ) (hM : ∀ c ∈ cats, 1 ≤ c ∧ c ≤ M)
    (table : (Fin d → ℝ) → List (List ℝ)) (ht : ∀ θ, PositiveTable cats M (table θ)) (a : Fin d → ℝ) (B : ℕ → ℕ → ℝ)
    (hm : LogitModel cats (fun θ => tableProb (table θ)) (fun _ r k => a k * r) B) :
    ∃ q, GivenPoints cats table q ∧ ∀ r r', PossibleAnswers cats r → PossibleAnswers cats r' → ∑ i, r i = ∑ i, r' i →
      q r / q r' = Real.exp (∑ i : Fin cats.length, (B i (r i) - B i (r' i))) := by
  classical
  set K : ℕ → ℝ := fun s => ∑ r ∈ Fintype.piFinset (fun i : Fin cats.length => range cats[i]) with ∑ i, r i = s,
    Real.exp (∑ i : Fin cats.length, B i (r i)) with hK
  set Z : (Fin d → ℝ) → ℝ := fun φ => ∏ i : Fin cats.length, (∑ x ∈ range cats[i], Real.exp (∑ k, a k * x * φ k + B i x))⁻¹ with hZ
  have hchance : ∀ φ r, PossibleAnswers cats r → answersChance (table φ) r
      = Real.exp ((∑ i, r i : ℕ) * ∑ k, a k * φ k) * Real.exp (∑ i : Fin cats.length, B i (r i)) * Z φ := by
    intro φ r hr
    have e : ∀ i : Fin cats.length, tableProb (table φ) i (r i)
        = Real.exp (r i * ∑ k, a k * φ k) * Real.exp (B i (r i)) * (∑ x ∈ range cats[i], Real.exp (∑ k, a k * x * φ k + B i x))⁻¹ := by
      intro i
      have h := hm φ i cats[i] (r i) (List.getElem?_eq_getElem i.2) (hr i)
      have e1 : ∑ k, a k * (r i : ℝ) * φ k = r i * ∑ k, a k * φ k := by
        rw [mul_sum]; exact sum_congr rfl fun k _ => by ring
      refine h.trans ?_
      rw [div_eq_mul_inv, Real.exp_add, e1]
    unfold answersChance
    simp only [e]
    rw [prod_mul_distrib, prod_mul_distrib, ← Real.exp_sum, ← Real.exp_sum, ← sum_mul]
    push_cast
    rfl
  have hscore : ∀ φ, ∃ dd, conditionalScoreDistribution (table φ) cats = .ok dd ∧
      ∀ s : ℕ, dd.getD s 0 = Real.exp (s * ∑ k, a k * φ k) * K s * Z φ := by
    intro φ
    obtain ⟨dd, h1, -, h3, -, -⟩ := score_dist cats hcats M hM _ (ht φ).1
    refine ⟨dd, h1, fun s => ?_⟩
    rw [h3, genPoly_coeff _ _ (ht φ).1.1, sumScoreMass, hK, mul_sum, sum_mul]
    refine sum_congr rfl fun r hr => ?_
    rw [mem_filter, Fintype.mem_piFinset] at hr
    have := hchance φ r fun i => mem_range.1 (hr.1 i)
    rw [hr.2] at this
    rw [← this]
    exact prod_congr rfl fun i _ => tableProb_getD _ _ _
  have hKpos : ∀ r, PossibleAnswers cats r → 0 < K (∑ i, r i) := fun r hr =>
    sum_pos (fun _ _ => Real.exp_pos _) ⟨r, mem_filter.2 ⟨Fintype.mem_piFinset.2 fun i => mem_range.2 (hr i), rfl⟩⟩
  refine ⟨fun r => Real.exp (∑ i : Fin cats.length, B i (r i)) / K (∑ i, r i), ⟨fun r hr => ?_, fun s hs => ?_, fun θ => ?_⟩, ?_⟩
  · exact div_pos (Real.exp_pos _) (hKpos r hr)
  · obtain ⟨dd, h1, h2⟩ := hscore 0
    obtain ⟨dd', h1', -, h3, -, -⟩ := score_dist cats hcats M hM _ (ht 0).1
    have hpos : 0 < (genPoly (table 0) cats).coeff s := genPoly_pos cats _ (ht 0).1.1 (fun c hc => (hM c hc).1) (ht 0).2 s hs
    rw [← h3 s] at hpos
    rw [h1] at h1'
    obtain rfl := Except.ok.inj h1'
    rw [h2 s] at hpos
    have hne : K s ≠ 0 := fun h => by rw [h] at hpos; simp at hpos
    have e : ∑ r ∈ Fintype.piFinset (fun i : Fin cats.length => range cats[i]) with ∑ i, r i = s,
        Real.exp (∑ i : Fin cats.length, B i (r i)) / K (∑ i, r i)
        = ∑ r ∈ Fintype.piFinset (fun i : Fin cats.length => range cats[i]) with ∑ i, r i = s,
          Real.exp (∑ i : Fin cats.length, B i (r i)) / K s :=
      sum_congr rfl fun r hr => by rw [(mem_filter.1 hr).2]
    rw [e, ← sum_div]
    exact div_self hne
  · obtain ⟨dd, h1, h2⟩ := hscore θ
    refine ⟨dd, h1, fun r hr => ?_⟩
    rw [h2, hchance θ r hr]
    have := (hKpos r hr).ne'
    field_simp
  · intro r r' hr hr' hs
    have := (hKpos r' hr').ne'
    dsimp only
    rw [hs, sum_sub_distrib, Real.exp_sub]
    field_simp

/-- C136: in every population, those with the same number of points have the same distribution of answers: two populations, each with
groups `(share, θ)`, give the same ratio of the share of the answers `r` to the share of their number of points. -/
theorem C136_populations {Θ : Type} (cats : List ℕ) (table : Θ → List (List ℝ)) (q : (Fin cats.length → ℕ) → ℝ)
    (hq : GivenPoints cats table q) (r : Fin cats.length → ℕ) (hr : PossibleAnswers cats r) (dist : Θ → List ℝ)
    (hdist : ∀ θ, conditionalScoreDistribution (table θ) cats = .ok (dist θ)) (population : List (ℝ × Θ))
    (hpos : (population.map fun g => g.1 * (dist g.2).getD (∑ i, r i) 0).sum ≠ 0) :
    (population.map fun g => g.1 * answersChance (table g.2) r).sum
      / (population.map fun g => g.1 * (dist g.2).getD (∑ i, r i) 0).sum = q r := by
  have e : (population.map fun g => g.1 * answersChance (table g.2) r)
      = population.map fun g => g.1 * (dist g.2).getD (∑ i, r i) 0 * q r := by
    refine List.map_congr_left fun g _ => ?_
    obtain ⟨d, h1, h2⟩ := hq.factor g.2
    rw [hdist g.2] at h1
    obtain rfl := Except.ok.inj h1
    rw [h2 r hr, mul_assoc]
  rw [e, List.sum_map_mul_right, mul_div_assoc, mul_comm, div_mul_cancel₀ _ hpos]

/-- C136, one-parameter logistic model. -/
theorem C136_onePL (m : OnePL) (hwf : m.WF) (hne : 0 < m.items) :
    ∃ q, GivenPoints (List.replicate m.items 2) m.probs q := by
  obtain ⟨q, ⟨h1, h2, h3⟩, -⟩ := C136_common_slope (d := 1) (List.replicate m.items 2) (by simpa using hne.ne') 2 (by simp)
    (fun θ => m.probs (θ 0)) (fun θ => positiveTable_pairs (C01_onePL_distribution m hwf (θ 0))) (fun _ => 1)
    (fun j r => r * m.itemParameters.getD j 0) (by
      have := m.logitModel hwf
      simpa only [one_mul] using this)
  exact ⟨q, h1, h2, fun θ => h3 fun _ => θ⟩

/-- C136: the comparison of two items of a one-parameter logistic model does not depend on who answers them: of those who solve exactly
one of the items `j` and `k`, the share who solve `j` is `logistic(b_j - b_k)` for every latent score. -/
theorem C136_two_items (m : OnePL) (hwf : m.WF) (θ : ℝ) (j k : ℕ) (bj bk : ℝ) (hj : m.itemParameters[j]? = some bj)
    (hk : m.itemParameters[k]? = some bk) :
    tableProb (m.probs θ) j 1 * tableProb (m.probs θ) k 0
      / (tableProb (m.probs θ) j 1 * tableProb (m.probs θ) k 0 + tableProb (m.probs θ) j 0 * tableProb (m.probs θ) k 1)
      = logistic (bj - bk) := by
  rw [tableProb_row _ _ _ _ (C03_onePL_formula m hwf _ j bj hj), tableProb_row _ _ _ _ (C03_onePL_formula m hwf _ k bk hk),
    tableProb_row _ _ _ _ (C03_onePL_formula m hwf _ j bj hj), tableProb_row _ _ _ _ (C03_onePL_formula m hwf _ k bk hk)]
  simp only [List.getD_cons_zero, List.getD_cons_succ, logistic]
  rw [Real.exp_sub, Real.exp_add, Real.exp_add]
  have h1 := Real.exp_pos θ
  have h2 := Real.exp_pos bj
  have h3 := Real.exp_pos bk
  have h4 : Real.exp bk + Real.exp bj ≠ 0 := by positivity
  field_simp
  ring_nf
  rw [← add_mul, mul_inv_cancel₀ h4]

example : ∃ q, GivenPoints [2, 2] exOnePL.probs q := C136_onePL exOnePL exOnePL_wf (by simp [exOnePL])

/-- C136, generalized partial credit model whose items have the same slopes (a partial credit model). -/
theorem C136_gpc (m : GPC) (hwf : m.WF) (hne : m.cats ≠ []) (d : ℕ) (a : Fin d → ℝ)
    (hs : ∀ j, j < m.cats.length → ∀ k : Fin d, slopeOf m.itemParameters j k = a k) :
    ∃ q, GivenPoints m.cats (fun θ : Fin d → ℝ => m.probs (List.ofFn θ)) q := by
  obtain ⟨q, h, -⟩ := C136_common_slope m.cats hne m.M (fun c hc => ⟨hwf.catsPos c hc, le_maxCats _ _ hc⟩)
    (fun θ : Fin d → ℝ => m.probs (List.ofFn θ)) (fun θ => positiveTable_of (C01_gpc_distribution m hwf _)) a
    (fun j r => ((m.itemParameters[j]?).map fun p => p.2.getD r 0).getD 0) (by
      intro θ j c r hc hr
      rw [m.logitModel hwf d θ j c r hc hr]
      simp only [hs j (lt_of_getElem?_some hc), mul_comm])
  exact ⟨q, h⟩

example : ∃ q, GivenPoints exScore.cats (fun θ : Fin 1 → ℝ => exScore.probs (List.ofFn θ)) q :=
  C136_gpc exScore exScore_wf (by simp [exScore]) 1 (fun _ => 1) fun j hj k => by
    have hj2 : j < 2 := hj
    obtain rfl : k = 0 := Subsingleton.elim _ _
    interval_cases j <;> simp [slopeOf, exScore_parameters]

/-- The claim for two-parameter logistic models. -/
def SlopesDoNotMatter : Prop :=
  ∀ m : TwoPL, m.WF → 0 < m.items → ∃ q, GivenPoints (List.replicate m.items 2) (fun θ : ℝ => m.probs [θ]) q

/-- Two items with slopes 1 and 2. -/
noncomputable def exTwoSlopes : TwoPL := { items := 2, lv := 1, rel := [[true], [true]], weight := [1, 2], bias := [0, 0] }

theorem exTwoSlopes_wf : exTwoSlopes.WF where
  relLen := by simp [exTwoSlopes]
  relRow := by simp [exTwoSlopes]
  weightLen := by simp [exTwoSlopes, countTrue]
  biasLen := by simp [exTwoSlopes]

/-- C136: with different slopes the number of points does not say everything. -/
theorem C136_twoPL_false : ¬ SlopesDoNotMatter := by
  intro h
  obtain ⟨q, hq⟩ := h exTwoSlopes exTwoSlopes_wf (by simp [exTwoSlopes])
  have p0 : exTwoSlopes.itemParameters[0]? = some ([1], 0) := by
    simp [TwoPL.itemParameters, TwoPL.weights, exTwoSlopes, viewRows, scatterMask]
  have p1 : exTwoSlopes.itemParameters[1]? = some ([2], 0) := by
    simp [TwoPL.itemParameters, TwoPL.weights, exTwoSlopes, viewRows, scatterMask]
  have hprob : ∀ θ c, tableProb (exTwoSlopes.probs [θ]) 0 c = [1 - logistic θ, logistic θ].getD c 0 ∧
      tableProb (exTwoSlopes.probs [θ]) 1 c = [1 - logistic (θ * 2), logistic (θ * 2)].getD c 0 := by
    intro θ c
    rw [tableProb_row _ _ _ _ (C03_twoPL_formula _ exTwoSlopes_wf [θ] 0 _ _ p0),
      tableProb_row _ _ _ _ (C03_twoPL_formula _ exTwoSlopes_wf [θ] 1 _ _ p1)]
    simp [dot]
  have key : ∀ θ : ℝ, ((1 - logistic θ) * logistic (θ * 2)) * q ![1, 0] = (logistic θ * (1 - logistic (θ * 2))) * q ![0, 1] := by
    intro θ
    obtain ⟨d, -, h2⟩ := hq.factor θ
    have a1 := h2 ![1, 0] (by intro i; fin_cases i <;> simp [exTwoSlopes])
    have a2 := h2 ![0, 1] (by intro i; fin_cases i <;> simp [exTwoSlopes])
    change (∏ i : Fin 2, tableProb (exTwoSlopes.probs [θ]) i ((![1, 0] : Fin 2 → ℕ) i)) = d.getD (∑ i : Fin 2, (![1, 0] : Fin 2 → ℕ) i) 0 * _ at a1
    change (∏ i : Fin 2, tableProb (exTwoSlopes.probs [θ]) i ((![0, 1] : Fin 2 → ℕ) i)) = d.getD (∑ i : Fin 2, (![0, 1] : Fin 2 → ℕ) i) 0 * _ at a2
    rw [Fin.prod_univ_two, Fin.sum_univ_two] at a1 a2
    simp only [Fin.isValue, Fin.val_zero, Fin.val_one, Matrix.cons_val_zero, Matrix.cons_val_one, (hprob θ _).1, (hprob θ _).2,
      List.getD_cons_zero, List.getD_cons_succ, zero_add, add_zero] at a1 a2
    rw [a1, a2]
    ring
  have hexp : ∀ θ : ℝ, Real.exp θ * q ![1, 0] = q ![0, 1] := by
    intro θ
    have h1 := key θ
    have h2 := Real.exp_pos θ
    have h3 := Real.exp_pos (θ * 2)
    have h4 : Real.exp (θ * 2) = Real.exp θ * Real.exp θ := by rw [← Real.exp_add]; ring_nf
    unfold logistic at h1
    rw [h4] at h1
    have e1 : (1 - Real.exp θ / (1 + Real.exp θ)) * (Real.exp θ * Real.exp θ / (1 + Real.exp θ * Real.exp θ))
        = Real.exp θ * (Real.exp θ / ((1 + Real.exp θ) * (1 + Real.exp θ * Real.exp θ))) := by field_simp; ring
    have e2 : Real.exp θ / (1 + Real.exp θ) * (1 - Real.exp θ * Real.exp θ / (1 + Real.exp θ * Real.exp θ))
        = Real.exp θ / ((1 + Real.exp θ) * (1 + Real.exp θ * Real.exp θ)) := by field_simp; ring
    rw [e1, e2] at h1
    have h5 : Real.exp θ / ((1 + Real.exp θ) * (1 + Real.exp θ * Real.exp θ)) ≠ 0 := by positivity
    apply mul_left_cancel₀ h5
    linarith
  have hpos := hq.positive ![1, 0] (by intro i; fin_cases i <;> simp [exTwoSlopes])
  have h0 := hexp 0
  have h1 := hexp 1
  rw [Real.exp_zero] at h0
  have he : (1 : ℝ) < Real.exp 1 := Real.one_lt_exp_iff.2 one_pos
  nlinarith

end Irt
