import Verif.Model.Scorers
import Verif.Spec.LogitModel
import Verif.Props.Scoring
import Verif.Props.Categorical
import Verif.Props.Information
import Verif.Props.Mix

/-! # Which of the models are multinomial logit models, and that they can be scored -/

namespace Irt

open Finset

theorem tableProb_row (t : List (List ℝ)) (j r : ℕ) (p : List ℝ) (h : t[j]? = some p) :
    tableProb t j r = p.getD r 0 := by
  simp [tableProb, h, List.getD_eq_getElem?_getD]

theorem pair_pow (x : ℝ) (r : ℕ) (hr : r < 2) :
    ([1 - logistic x, logistic x]).getD r 0
      = Real.exp (r * x) / ∑ s ∈ range 2, Real.exp (s * x) := by
  have h : (0 : ℝ) < 1 + Real.exp x := by positivity
  rw [sum_range_succ, sum_range_one]
  interval_cases r
  · simp only [logistic, List.getD_cons_zero]
    field_simp
    simp
  · simp [logistic]

theorem replicate_getElem? {α : Type*} (n j : ℕ) (a c : α) (h : (List.replicate n a)[j]? = some c) : j < n ∧ c = a := by
  rw [List.getElem?_replicate] at h
  split at h
  · exact ⟨by assumption, (Option.some.inj h).symm⟩
  · simp at h

/-! ## 1PL -/

theorem OnePL.length_forwardRow (m : OnePL) (θ : ℝ) : (m.forwardRow θ).length = m.items * 2 := by
  simp [OnePL.forwardRow, maskFill, length_firstMask, length_scatterMask, length_freeMask]

theorem OnePL.isScorer (m : OnePL) (hwf : m.WF) (hne : 0 < m.items) :
    IsScorer m.scorer (List.replicate m.items 2) fun θ => tableProb (m.probs (θ 0)) := by
  have h := softmaxScorer_isScorer (d := 1) (List.replicate m.items 2) (by simp; omega) 2
    (fun c hc => (List.eq_of_mem_replicate hc).le) (fun θ => m.forwardRow (θ 0))
    (fun θ => by rw [m.length_forwardRow, List.length_replicate]) (by
      intro θ row hrow
      rw [List.length_replicate] at hrow
      obtain ⟨j, hj⟩ := List.mem_iff_getElem?.1 hrow
      have hlt : j < m.items := by
        have := lt_of_getElem?_some hj; rwa [length_viewRows] at this
      obtain ⟨b, hb⟩ := getElem?_of_lt m.bias j (by rw [hwf]; exact hlt)
      rw [m.forward_row hwf _ j b hb] at hj
      rw [← Option.some.inj hj]
      exact ⟨0, by simp⟩)
  rwa [List.length_replicate] at h

theorem OnePL.logitModel (m : OnePL) (hwf : m.WF) :
    LogitModel (d := 1) (List.replicate m.items 2) (fun θ => tableProb (m.probs (θ 0)))
      (fun _ r _ => r) (fun j r => r * m.itemParameters.getD j 0) := by
  intro θ j c r hc hr
  obtain ⟨hj, rfl⟩ := replicate_getElem? _ _ _ _ hc
  obtain ⟨b, hb⟩ := getElem?_of_lt m.itemParameters j (by rw [OnePL.itemParameters, hwf]; exact hj)
  dsimp only
  rw [tableProb_row _ _ _ _ (C03_onePL_formula m hwf _ j b hb), pair_pow _ _ hr]
  simp only [univ_unique, Fin.default_eq_zero, Fin.isValue, sum_singleton, List.getD_eq_getElem?_getD, hb,
    Option.getD_some, mul_add]

/-! ## 2PL -/

theorem TwoPL.length_forwardRow (m : TwoPL) (θ : List ℝ) : (m.forwardRow θ).length = m.items * 2 := by
  simp [TwoPL.forwardRow, maskFill, length_firstMask, length_scatterMask, length_freeMask, length_repeatInterleave,
    TwoPL.weights, length_viewRows]

theorem TwoPL.isScorer (m : TwoPL) (hwf : m.WF) (hne : 0 < m.items) (d : ℕ) :
    IsScorer (m.scorer d) (List.replicate m.items 2) fun θ => tableProb (m.probs (List.ofFn θ)) := by
  have h := softmaxScorer_isScorer (d := d) (List.replicate m.items 2) (by simp; omega) 2
    (fun c hc => (List.eq_of_mem_replicate hc).le) (fun θ => m.forwardRow (List.ofFn θ))
    (fun θ => by rw [m.length_forwardRow, List.length_replicate]) (by
      intro θ row hrow
      rw [List.length_replicate] at hrow
      obtain ⟨j, hj⟩ := List.mem_iff_getElem?.1 hrow
      have hlt : j < m.items := by
        have := lt_of_getElem?_some hj; rwa [length_viewRows] at this
      obtain ⟨w, b, hp⟩ := m.exists_params hwf j hlt
      rw [m.forward_row hwf _ j w b hp] at hj
      rw [← Option.some.inj hj]
      exact ⟨0, by simp⟩)
  rwa [List.length_replicate] at h

/-- Slope of item `j` on latent variable `k` as printed by `item_parameters`. -/
noncomputable def slopeOf {β : Type*} (ps : List (List ℝ × β)) (j k : ℕ) : ℝ :=
  ((ps[j]?).map fun p => p.1.getD k 0).getD 0

theorem slopeOf_eq {β : Type*} (ps : List (List ℝ × β)) (j : ℕ) (w : List ℝ) (b : β) (h : ps[j]? = some (w, b)) (k : ℕ) :
    slopeOf ps j k = w.getD k 0 := by simp [slopeOf, h]

theorem TwoPL.logitModel (m : TwoPL) (hwf : m.WF) (d : ℕ) :
    LogitModel (d := d) (List.replicate m.items 2) (fun θ => tableProb (m.probs (List.ofFn θ)))
      (fun j r k => r * slopeOf m.itemParameters j k) (fun j r => r * ((m.itemParameters[j]?).map Prod.snd).getD 0) := by
  intro θ j c r hc hr
  obtain ⟨hj, rfl⟩ := replicate_getElem? _ _ _ _ hc
  obtain ⟨w, b, hp⟩ := m.exists_params hwf j hj
  dsimp only
  rw [tableProb_row _ _ _ _ (C03_twoPL_formula m hwf _ j w b hp), pair_pow _ _ hr]
  have e : ∀ s : ℕ, ∑ k : Fin d, (s : ℝ) * slopeOf m.itemParameters j k * θ k + s * ((m.itemParameters[j]?).map Prod.snd).getD 0
      = s * (dot (List.ofFn θ) w + b) := by
    intro s
    rw [dot_ofFn, hp, mul_add, mul_sum]
    simp only [slopeOf_eq _ _ _ _ hp, Option.map_some, Option.getD_some]
    congr 1
    exact sum_congr rfl fun k _ => by ring
  simp only [e]

/-! ## Generalized partial credit -/

theorem GPC.logitModel (m : GPC) (hwf : m.WF) (d : ℕ) :
    LogitModel (d := d) m.cats (fun θ => tableProb (m.probs (List.ofFn θ)))
      (fun j r k => r * slopeOf m.itemParameters j k)
      (fun j r => ((m.itemParameters[j]?).map fun p => p.2.getD r 0).getD 0) := by
  intro θ j c r hc hr
  have hj := lt_of_getElem?_some hc
  obtain ⟨w, dl, hp, hdl⟩ := m.exists_params j hj
  have hcM : c ≤ m.M := le_maxCats _ _ (List.mem_of_getElem? hc)
  have hd : ∀ k, k < m.M → dl[k]? = some (dl.getD k 0) := by
    intro k hk
    obtain ⟨x, hx⟩ := getElem?_of_lt dl k (by omega)
    simp [List.getD_eq_getElem?_getD, hx]
  dsimp only
  rw [tableProb_row _ _ _ _ (m.probs_row hwf _ j c w dl _ hc hp hd), multinomialLogit_getD _ _ hcM, if_pos hr]
  have e : ∀ s : ℕ, ∑ k : Fin d, (s : ℝ) * slopeOf m.itemParameters j k * θ k
      + ((m.itemParameters[j]?).map fun p => p.2.getD s 0).getD 0
      = s * dot (List.ofFn θ) w + dl.getD s 0 := by
    intro s
    rw [dot_ofFn, hp, mul_sum]
    simp only [slopeOf_eq _ _ _ _ hp, Option.map_some, Option.getD_some]
    congr 1
    exact sum_congr rfl fun k _ => by ring
  simp only [e]

/-! ## Nominal response -/

theorem NRM.row_finite (m : NRM) (hwf : m.WF) (θ : List ℝ) :
    ∀ row ∈ viewRows m.cats.length m.M (m.forwardRow θ), ∃ v, Logit.fin v ∈ row := by
  intro row hrow
  obtain ⟨j, hj⟩ := List.mem_iff_getElem?.1 hrow
  have hlt : j < m.cats.length := by
    have := lt_of_getElem?_some hj; rwa [length_viewRows] at this
  obtain ⟨c, hc⟩ := getElem?_of_lt m.cats j hlt
  obtain ⟨wl, dl, hp, hwl, hdl⟩ := m.exists_params j hlt
  obtain ⟨w, hw⟩ := exists_entry_fun wl
  obtain ⟨d, hd⟩ := exists_entry_fun dl
  have hmem := List.mem_of_getElem? hc
  have hc0 := hwf.catsPos c hmem
  have hcM : c ≤ m.M := le_maxCats _ _ hmem
  rw [m.forward_row θ j c wl dl w d hc hp (fun k hk => hw k (by omega)) (fun k hk => hd k (by omega))] at hj
  rw [← Option.some.inj hj]
  exact ⟨dot θ (w 0) + d 0, List.mem_map.2 ⟨0, by simp; omega, by simp [hc0]⟩⟩

theorem NRM.isScorer (m : NRM) (hwf : m.WF) (hne : m.cats ≠ []) (d : ℕ) :
    IsScorer (m.scorer d) m.cats fun θ => tableProb (m.probs (List.ofFn θ)) :=
  softmaxScorer_isScorer m.cats hne m.M (fun _ hc => le_maxCats _ _ hc) _
    (fun _ => m.length_forwardRow _) (fun _ => m.row_finite hwf _)

/-- Slope of category `r` of item `j` on latent variable `k` as printed by `item_parameters`. -/
noncomputable def categorySlopeOf (ps : List (List (List ℝ) × List ℝ)) (j r k : ℕ) : ℝ :=
  ((ps[j]?).map fun p => (p.1.getD r []).getD k 0).getD 0

theorem NRM.logitModel (m : NRM) (d : ℕ) :
    LogitModel (d := d) m.cats (fun θ => tableProb (m.probs (List.ofFn θ)))
      (fun j r k => categorySlopeOf m.itemParameters j r k)
      (fun j r => ((m.itemParameters[j]?).map fun p => p.2.getD r 0).getD 0) := by
  intro θ j c r hc hr
  have hj := lt_of_getElem?_some hc
  obtain ⟨wl, dl, hp, hwl, hdl⟩ := m.exists_params j hj
  have hcM : c ≤ m.M := le_maxCats _ _ (List.mem_of_getElem? hc)
  have hw : ∀ k, k < m.M → wl[k]? = some (wl.getD k []) := by
    intro k hk
    obtain ⟨x, hx⟩ := getElem?_of_lt wl k (by omega)
    simp [List.getD_eq_getElem?_getD, hx]
  have hd : ∀ k, k < m.M → dl[k]? = some (dl.getD k 0) := by
    intro k hk
    obtain ⟨x, hx⟩ := getElem?_of_lt dl k (by omega)
    simp [List.getD_eq_getElem?_getD, hx]
  dsimp only
  rw [tableProb_row _ _ _ _ (m.probs_row _ j c wl dl _ _ hc hp hw hd), multinomialLogit_getD _ _ hcM, if_pos hr]
  have e : ∀ s : ℕ, ∑ k : Fin d, categorySlopeOf m.itemParameters j s k * θ k
      + ((m.itemParameters[j]?).map fun p => p.2.getD s 0).getD 0
      = dot (List.ofFn θ) (wl.getD s []) + dl.getD s 0 := by
    intro s
    rw [dot_ofFn, hp]
    simp only [categorySlopeOf, hp, Option.map_some, Option.getD_some]
    congr 1
    exact sum_congr rfl fun k _ => by ring
  simp only [e]

/-! ## 3PL -/

theorem ThreePL.exists_params (m : ThreePL) (hwf : m.WF) (j : ℕ) (hj : j < m.items) :
    ∃ w b c, m.itemParameters[j]? = some (w, b, c) := by
  obtain ⟨w, hw⟩ := getElem?_of_lt m.weights j (by rw [ThreePL.weights, length_viewRows]; exact hj)
  obtain ⟨b, hb⟩ := getElem?_of_lt m.bias j (by rw [hwf.biasLen]; exact hj)
  obtain ⟨c, hc⟩ := getElem?_of_lt (m.guessing.map sigmoid) j (by rw [List.length_map, hwf.guessLen]; exact hj)
  exact ⟨w, b, c, by
    rw [ThreePL.itemParameters, List.getElem?_zip_eq_some, List.getElem?_zip_eq_some]; exact ⟨hw, hb, hc⟩⟩

theorem ThreePL.length_probs (m : ThreePL) (hwf : m.WF) (θ : List ℝ) : (m.probs θ).length = m.items := by
  simp [ThreePL.probs, ThreePL.forwardRow, ThreePL.weights, length_viewRows, hwf.biasLen, hwf.guessLen]

theorem ThreePL.isScorer (m : ThreePL) (hwf : m.WF) (hne : 0 < m.items) (d : ℕ) :
    IsScorer (m.scorer d) (List.replicate m.items 2) fun θ => tableProb (m.probs (List.ofFn θ)) := by
  have row : ∀ (θ : List ℝ) (p : List ℝ) (j : ℕ), (m.probs θ)[j]? = some p → ∃ q, p = [1 - q, q] ∧ 0 < q ∧ q < 1 := by
    intro θ p j hp
    have hj := lt_of_getElem?_some hp
    rw [m.length_probs hwf] at hj
    obtain ⟨w, b, c, hpar⟩ := m.exists_params hwf j hj
    obtain ⟨h0, h1, q, hq, hcq, hq1⟩ := C03_threePL_bounds m θ j w b c hpar
    rw [hp] at hq
    exact ⟨q, Option.some.inj hq, by linarith, hq1⟩
  have h := tableScorer_isScorer (d := d) (List.replicate m.items 2) (by simp; omega)
    (fun θ => m.probs (List.ofFn θ)) (fun θ => by rw [m.length_probs hwf, List.length_replicate]) (by
      intro θ j c p hc hp
      obtain ⟨_, rfl⟩ := replicate_getElem? _ _ _ _ hc
      obtain ⟨q, rfl, _⟩ := row _ _ _ hp
      simp) (by
      intro θ p hp x hx
      obtain ⟨j, hj⟩ := List.mem_iff_getElem?.1 hp
      obtain ⟨q, rfl, h0, h1⟩ := row _ _ _ hj
      simp only [List.mem_cons, List.not_mem_nil, or_false] at hx
      rcases hx with rfl | rfl <;> linarith)
  rwa [List.length_replicate] at h

end Irt
