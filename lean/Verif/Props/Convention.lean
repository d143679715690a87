import Verif.Spec.Convention
import Verif.Props.Recode
import Verif.Props.Information
import Verif.Props.GroupFit
import Verif.Lemmas.Fisher
import Verif.Props.QuadratureLimit

/-! # Property C143: the origin and the units of the latent variables are a convention -/

namespace Irt
open Spec Finset

/-! ## The families are closed under changes of scale -/

section Families

theorem oldScores_logit {d : ℕ} (T : Matrix (Fin d) (Fin d) ℝ) (c φ a : Fin d → ℝ) :
    ∑ l, a l * oldScores T c φ l = ∑ k, (∑ l, a l * T l k) * φ k + ∑ l, a l * c l := by
  unfold oldScores Matrix.mulVec dotProduct
  simp only [Pi.add_apply, mul_add, sum_add_distrib, mul_sum, sum_mul]
  rw [sum_comm]
  congr 1
  exact sum_congr rfl fun k _ => sum_congr rfl fun l _ => by ring

/-- Two multinomial logit models whose logits are related by the change of scale. -/
theorem logit_newScale {d : ℕ} {cats : List ℕ} {T : Matrix (Fin d) (Fin d) ℝ} {c : Fin d → ℝ} {P Q : (Fin d → ℝ) → ℕ → ℕ → ℝ}
    {A A' : ℕ → ℕ → Fin d → ℝ} {B B' : ℕ → ℕ → ℝ} (h : LogitModel cats P A B) (h' : LogitModel cats Q A' B')
    (hs : ∀ j n r : ℕ, cats[j]? = some n → r < n → (∀ k, A' j r k = ∑ l, A j r l * T l k) ∧ B' j r = B j r + ∑ l, A j r l * c l) :
    SameOnNewScale cats T c P Q := by
  intro φ j n r hn hr
  have e : ∀ s, s < n → ∑ k, A' j s k * φ k + B' j s = ∑ k, A j s k * oldScores T c φ k + B j s := by
    intro s hs'
    rw [oldScores_logit, (hs j n s hn hs').2]
    simp only [(hs j n s hn hs').1]
    ring
  rw [h' φ j n r hn hr, h _ j n r hn hr, e r hr]
  congr 1
  exact sum_congr rfl fun s hs' => by rw [e s (mem_range.1 hs')]

/-- Slopes of unrelated latent variables stay zero. -/
theorem newSlope_zero {d : ℕ} {rel : List (List Bool)} {T : Matrix (Fin d) (Fin d) ℝ} (hT : RespectsRelations rel T) {j k : ℕ} (hk : k < d)
    {row : List Bool} (hr : rel[j]? = some row) (hlen : row.length = d) (hkf : row[k]? = some false) (a : Fin d → ℝ)
    (ha : ∀ l : Fin d, row[(l : ℕ)]? = some false → a l = 0) : ∑ l, a l * T l ⟨k, hk⟩ = 0 := by
  refine sum_eq_zero fun l _ => ?_
  obtain ⟨b, hb⟩ := getElem?_of_lt row l (by rw [hlen]; exact l.2)
  cases b
  · rw [ha l hb, zero_mul]
  · by_cases h0 : T l ⟨k, hk⟩ = 0
    · rw [h0, mul_zero]
    · have := hT j row l ⟨k, hk⟩ hr hb h0
      simp only at this
      rw [hkf] at this
      simp at this

/-- C143, 2PL: on every new scale there is a 2PL model with the same relationships that says the same. -/
theorem C143_twoPL (m : TwoPL) (hwf : m.WF) (T : Matrix (Fin m.lv) (Fin m.lv) ℝ) (hT : RespectsRelations m.rel T) (c : Fin m.lv → ℝ) :
    ∃ n : TwoPL, n.WF ∧ n.items = m.items ∧ n.lv = m.lv ∧ n.rel = m.rel ∧
      (∀ (j : ℕ) (k : Fin m.lv), j < m.items → slopeOf n.itemParameters j k = ∑ l : Fin m.lv, slopeOf m.itemParameters j l * T l k) ∧
      SameOnNewScale (List.replicate m.items 2) T c (fun θ => tableProb (m.probs (List.ofFn θ)))
        (fun θ => tableProb (n.probs (List.ofFn θ))) := by
  classical
  let A : ℕ → ℕ → ℝ := fun j k => if hk : k < m.lv then ∑ l : Fin m.lv, slopeOf m.itemParameters j l * T l ⟨k, hk⟩ else 0
  let b : ℕ → ℝ := fun j => ((m.itemParameters[j]?).map Prod.snd).getD 0
  obtain ⟨n, hn, hit, hlv, hrel, hpar⟩ := twoPL_exists m.items m.lv m.rel hwf.relLen hwf.relRow A
    (fun j => b j + ∑ l : Fin m.lv, slopeOf m.itemParameters j l * c l) (by
      intro j k r hr hk
      simp only [A]
      split
      · rename_i hkd
        refine newSlope_zero hT hkd hr (hwf.relRow r (List.mem_of_getElem? hr)) hk _ fun l hl => ?_
        obtain ⟨⟨a, e, hp, ha⟩, -⟩ := C16_twoPL_unrelated m hwf [] 0 j l r hr hl
        simp only [slopeOf_eq _ _ _ _ hp, List.getD_eq_getElem?_getD, ha, Option.getD_some]
      · rfl)
  have hs : ∀ (j : ℕ) (k : Fin m.lv), j < m.items → slopeOf n.itemParameters j k = ∑ l : Fin m.lv, slopeOf m.itemParameters j l * T l k := by
    intro j k hj
    rw [slopeOf_range _ _ _ _ _ (hpar j hj) k]
    simp only [A, k.2, dif_pos, Fin.eta]
  refine ⟨n, hn, hit, hlv, hrel, hs, ?_⟩
  have h2 := n.logitModel hn m.lv
  rw [hit] at h2
  refine logit_newScale (m.logitModel hwf m.lv) h2 ?_
  intro j n' r hc hr
  obtain ⟨hj, rfl⟩ := replicate_getElem? _ _ _ _ hc
  refine ⟨fun k => ?_, ?_⟩
  · rw [hs j k hj, mul_sum]
    exact sum_congr rfl fun l _ => by ring
  · rw [hpar j hj, Option.map_some, Option.getD_some, mul_add, mul_sum]
    congr 1
    exact sum_congr rfl fun l _ => by ring

/-- C143, generalized partial credit. -/
theorem C143_gpc (m : GPC) (hwf : m.WF) (T : Matrix (Fin m.lv) (Fin m.lv) ℝ) (hT : RespectsRelations m.rel T) (c : Fin m.lv → ℝ) :
    ∃ n : GPC, n.WF ∧ n.lv = m.lv ∧ n.cats = m.cats ∧ n.rel = m.rel ∧
      (∀ (j : ℕ) (k : Fin m.lv), j < m.cats.length →
        slopeOf n.itemParameters j k = ∑ l : Fin m.lv, slopeOf m.itemParameters j l * T l k) ∧
      SameOnNewScale m.cats T c (fun θ => tableProb (m.probs (List.ofFn θ))) (fun θ => tableProb (n.probs (List.ofFn θ))) := by
  classical
  let A : ℕ → ℕ → ℝ := fun j k => if hk : k < m.lv then ∑ l : Fin m.lv, slopeOf m.itemParameters j l * T l ⟨k, hk⟩ else 0
  let b : ℕ → ℕ → ℝ := fun j r => ((m.itemParameters[j]?).map fun p => p.2.getD r 0).getD 0
  let B : ℕ → ℕ → ℝ := fun j r => if r < m.cats.getD j 0 then b j r + r * ∑ l : Fin m.lv, slopeOf m.itemParameters j l * c l else 0
  have hc' : ∀ j n : ℕ, m.cats[j]? = some n → m.cats.getD j 0 = n := fun j n hn => by simp [List.getD_eq_getElem?_getD, hn]
  have hb0 : ∀ j n : ℕ, m.cats[j]? = some n → b j 0 = 0 := by
    intro j n hn
    obtain ⟨w, dl, hp, hdl⟩ := m.exists_params j (lt_of_getElem?_some hn)
    have hcM : n ≤ m.M := le_maxCats _ _ (List.mem_of_getElem? hn)
    have := (C05_gpc_formula_partial m hwf [] j n w dl (fun k => dl.getD k 0) hn hp (fun k hk => by
      obtain ⟨x, hx⟩ := getElem?_of_lt dl k (by omega)
      simp [List.getD_eq_getElem?_getD, hx])).1
    simpa [b, hp] using this
  obtain ⟨n, hn, hlv, hcats, hrel, hpar⟩ := gpc_exists m.lv m.cats m.rel hwf.catsPos hwf.relLen hwf.relRow A B (by
      intro j k r hr hk
      simp only [A]
      split
      · rename_i hkd
        refine newSlope_zero hT hkd hr (hwf.relRow r (List.mem_of_getElem? hr)) hk _ fun l hl => ?_
        obtain ⟨⟨a, e, hp, ha⟩, -⟩ := C16_gpc_unrelated m hwf [] 0 j l r hr hl
        simp only [slopeOf_eq _ _ _ _ hp, List.getD_eq_getElem?_getD, ha, Option.getD_some]
      · rfl) (by
      intro j n k hn hk
      rcases hk with rfl | hk
      · simp [B, hb0 j n hn]
      · simp only [B, hc' j n hn]
        rw [if_neg (by omega)])
  have hs : ∀ (j : ℕ) (k : Fin m.lv), j < m.cats.length →
      slopeOf n.itemParameters j k = ∑ l : Fin m.lv, slopeOf m.itemParameters j l * T l k := by
    intro j k hj
    rw [slopeOf_range _ _ _ _ _ (hpar j hj) k]
    simp only [A, k.2, dif_pos, Fin.eta]
  refine ⟨n, hn, hlv, hcats, hrel, hs, ?_⟩
  have h2 := n.logitModel hn m.lv
  rw [hcats] at h2
  refine logit_newScale (m.logitModel hwf m.lv) h2 ?_
  intro j n' r hc hr
  have hcM : n' ≤ maxCats m.cats := le_maxCats _ _ (List.mem_of_getElem? hc)
  have hj := lt_of_getElem?_some hc
  refine ⟨fun k => ?_, ?_⟩
  · rw [hs j k hj, mul_sum]
    exact sum_congr rfl fun l _ => by ring
  · rw [hpar j hj, Option.map_some, Option.getD_some, ofRange_getD _ _ _ (by omega)]
    simp only [B, hc' j n' hc, if_pos hr, mul_sum]
    congr 1
    exact sum_congr rfl fun l _ => by ring

theorem grmGeq_shift (c : ℕ) (η x : ℝ) (e e' : ℕ → ℝ) (h : ∀ k, 0 < k → k < c → e' k = e k + x) (k : ℕ) :
    grmGeq c η e' k = grmGeq c (η + x) e k := by
  unfold grmGeq
  split
  · rfl
  · split
    · rw [h k (by omega) (by omega)]
      congr 1
      ring
    · rfl

/-- C143, graded response: the intercepts of an item are all shifted by the same amount, so that ordered intercepts stay ordered. -/
theorem C143_grm (m : GRM) (hwf : m.WF) (T : Matrix (Fin m.lv) (Fin m.lv) ℝ) (hT : RespectsRelations m.rel T) (c : Fin m.lv → ℝ) :
    ∃ n : GRM, n.WF ∧ n.lv = m.lv ∧ n.cats = m.cats ∧ n.rel = m.rel ∧
      (∀ (j : ℕ) (k : Fin m.lv), j < m.cats.length →
        slopeOf n.itemParameters j k = ∑ l : Fin m.lv, slopeOf m.itemParameters j l * T l k) ∧
      (m.Ordered → n.Ordered) ∧
      SameOnNewScale m.cats T c (fun θ => tableProb (m.probs (List.ofFn θ))) (fun θ => tableProb (n.probs (List.ofFn θ))) := by
  classical
  let A : ℕ → ℕ → ℝ := fun j k => if hk : k < m.lv then ∑ l : Fin m.lv, slopeOf m.itemParameters j l * T l ⟨k, hk⟩ else 0
  let b : ℕ → ℕ → ℝ := fun j k => ((m.itemParameters[j]?).map fun p => p.2.getD (k - 1) 0).getD 0
  let B : ℕ → ℕ → ℝ := fun j k => if 0 < k ∧ k < m.cats.getD j 0 then b j k + ∑ l : Fin m.lv, slopeOf m.itemParameters j l * c l else 0
  have hc' : ∀ j n : ℕ, m.cats[j]? = some n → m.cats.getD j 0 = n := fun j n hn => by simp [List.getD_eq_getElem?_getD, hn]
  obtain ⟨n, hn, hlv, hcats, hrel, hpar⟩ := grm_exists m.lv m.cats m.rel hwf.catsPos hwf.relLen hwf.relRow A B (by
      intro j k r hr hk
      simp only [A]
      split
      · rename_i hkd
        refine newSlope_zero hT hkd hr (hwf.relRow r (List.mem_of_getElem? hr)) hk _ fun l hl => ?_
        obtain ⟨⟨a, e, hp, ha⟩, -⟩ := C16_grm_unrelated m hwf [] 0 j l r hr hl
        simp only [slopeOf_eq _ _ _ _ hp, List.getD_eq_getElem?_getD, ha, Option.getD_some]
      · rfl) (by
      intro j n k hn hk
      have := hc' j n hn
      simp only [B]
      rw [if_neg (by omega)])
  have hb : ∀ (j n' k : ℕ) (w dl : List ℝ), m.cats[j]? = some n' → n.itemParameters[j]? = some (w, dl) → 0 < k → k < n' →
      dl.getD (k - 1) 0 = b j k + ∑ l : Fin m.lv, slopeOf m.itemParameters j l * c l := by
    intro j n' k w dl hc hp hk hkc
    have hcM : n' ≤ maxCats m.cats := le_maxCats _ _ (List.mem_of_getElem? hc)
    rw [hpar j (lt_of_getElem?_some hc)] at hp
    obtain ⟨rfl, rfl⟩ := Prod.mk.inj (Option.some.inj hp)
    rw [tail_getD _ _ _ hk (by omega)]
    simp only [B, hc' j n' hc]
    rw [if_pos ⟨hk, hkc⟩]
  have hs : ∀ (j : ℕ) (k : Fin m.lv), j < m.cats.length →
      slopeOf n.itemParameters j k = ∑ l : Fin m.lv, slopeOf m.itemParameters j l * T l k := by
    intro j k hj
    rw [slopeOf_range _ _ _ _ _ (hpar j hj) k]
    simp only [A, k.2, dif_pos, Fin.eta]
  refine ⟨n, hn, hlv, hcats, hrel, hs, ?_, ?_⟩
  · intro hord j n' w dl hc hp k hk
    rw [hcats] at hc
    have h1 := hb j n' (k + 1) w dl hc hp (by omega) (by omega)
    have h2 := hb j n' (k + 2) w dl hc hp (by omega) (by omega)
    rw [show k + 1 - 1 = k by omega] at h1
    rw [show k + 2 - 1 = k + 1 by omega] at h2
    rw [h1, h2]
    obtain ⟨wm, dm, hpm, -⟩ := m.exists_params j (lt_of_getElem?_some hc)
    have hbm : ∀ k, b j k = dm.getD (k - 1) 0 := by intro k; simp [b, hpm]
    have := hord j n' wm dm hc hpm k hk
    rw [hbm, hbm, show k + 2 - 1 = k + 1 by omega, show k + 1 - 1 = k by omega]
    linarith
  · intro φ j n' r hc hr
    have hcM : n' ≤ m.M := le_maxCats _ _ (List.mem_of_getElem? hc)
    have hj := lt_of_getElem?_some hc
    obtain ⟨wm, dm, hpm, -⟩ := m.exists_params j hj
    have hp := hpar j hj
    have hMn : n.M = m.M := by simp [GRM.M, hcats]
    have hcn : n.cats[j]? = some n' := by rw [hcats]; exact hc
    have hbm : ∀ k, b j k = dm.getD (k - 1) 0 := by intro k; simp [b, hpm]
    dsimp only
    rw [m.row_at m.lv j n' hc wm dm hpm _ r (by omega), n.row_at m.lv j n' hcn _ _ hp φ r (by omega)]
    have hη : ∑ k : Fin m.lv, oldScores T c φ k * wm.getD k 0 = ∑ k : Fin m.lv, φ k * ((List.range m.lv).map (A j)).getD k 0
        + ∑ l : Fin m.lv, slopeOf m.itemParameters j l * c l := by
      have := oldScores_logit T c φ fun l => slopeOf m.itemParameters j l
      rw [sum_congr rfl fun k _ => show oldScores T c φ k * wm.getD k 0 = slopeOf m.itemParameters j k * oldScores T c φ k by
        rw [slopeOf_eq _ _ _ _ hpm, mul_comm], this]
      congr 1
      refine sum_congr rfl fun k _ => ?_
      rw [ofRange_getD _ _ _ k.2]
      simp only [A, k.2, dif_pos, Fin.eta]
      ring
    have g := grmGeq_shift n' (∑ k : Fin m.lv, φ k * ((List.range m.lv).map (A j)).getD k 0)
      (∑ l : Fin m.lv, slopeOf m.itemParameters j l * c l) (fun k => dm.getD (k - 1) 0)
      (fun k => (((List.range (maxCats m.cats)).map (B j)).tail).getD (k - 1) 0) (fun k hk hkc => by
        have := hb j n' k _ _ hc hp hk hkc
        rw [hbm] at this
        exact this)
    rw [g, g, hη]

/-- C143, nominal response. -/
theorem C143_nrm (m : NRM) (hwf : m.WF) (T : Matrix (Fin m.lv) (Fin m.lv) ℝ) (hT : RespectsRelations m.rel T) (c : Fin m.lv → ℝ) :
    ∃ n : NRM, n.WF ∧ n.lv = m.lv ∧ n.cats = m.cats ∧ n.rel = m.rel ∧
      SameOnNewScale m.cats T c (fun θ => tableProb (m.probs (List.ofFn θ))) (fun θ => tableProb (n.probs (List.ofFn θ))) := by
  classical
  let S : ℕ → ℕ → ℕ → ℝ := fun j r k => categorySlopeOf m.itemParameters j r k
  let A : ℕ → ℕ → ℕ → ℝ := fun j r k => if hk : k < m.lv then ∑ l : Fin m.lv, S j r l * T l ⟨k, hk⟩ else 0
  let B : ℕ → ℕ → ℝ := fun j r => ((m.itemParameters[j]?).map fun p => p.2.getD r 0).getD 0 + ∑ l : Fin m.lv, S j r l * c l
  obtain ⟨n, hn, hlv, hcats, hrel, hpr⟩ := nrm_exists m.lv m.cats m.rel hwf.catsPos hwf.relLen hwf.relRow A B (by
      intro j s k r hr hk
      simp only [A]
      split
      · rename_i hkd
        refine newSlope_zero hT hkd hr (hwf.relRow r (List.mem_of_getElem? hr)) hk _ fun l hl => ?_
        obtain ⟨⟨wl, dl, hp, hz⟩, -⟩ := C16_nrm_unrelated m hwf [] 0 j l r hr hl
        simp only [S, categorySlopeOf, hp, Option.map_some, Option.getD_some]
        cases hw : wl[s]? with
        | none => simp [List.getD_eq_getElem?_getD, hw]
        | some w => simp [List.getD_eq_getElem?_getD, hw, hz w (List.mem_of_getElem? hw)]
      · rfl)
  refine ⟨n, hn, hlv, hcats, hrel, ?_⟩
  have h2 : LogitModel (d := m.lv) m.cats (fun θ => tableProb (n.probs (List.ofFn θ))) (fun j r k => A j r k) B := by
    intro θ j n' r hc hr
    have hcM : n' ≤ maxCats m.cats := le_maxCats _ _ (List.mem_of_getElem? hc)
    dsimp only
    rw [tableProb_row _ _ _ _ (hpr (List.ofFn θ) (by simp) j n' hc), multinomialLogit_getD _ _ hcM, if_pos hr]
    have e : ∀ s : ℕ, dot (List.ofFn θ) ((List.range m.lv).map (A j s)) = ∑ k : Fin m.lv, A j s k * θ k := by
      intro s
      rw [dot_ofFn]
      exact sum_congr rfl fun k _ => by rw [ofRange_getD _ _ _ k.2, mul_comm]
    simp only [e]
  refine logit_newScale (m.logitModel m.lv) h2 fun j n' r hc hr => ⟨fun k => ?_, rfl⟩
  simp only [A, k.2, dif_pos, Fin.eta, S]

/-- C143, 1PL: another origin is absorbed by the intercepts. -/
theorem C143_onePL (m : OnePL) (hwf : m.WF) (c : ℝ) :
    ∃ n : OnePL, n.WF ∧ n.items = m.items ∧
      SameOnNewScale (List.replicate m.items 2) (1 : Matrix (Fin 1) (Fin 1) ℝ) (fun _ => c) (fun θ => tableProb (m.probs (θ 0)))
        (fun θ => tableProb (n.probs (θ 0))) := by
  have hn : (⟨m.items, m.bias.map (· + c)⟩ : OnePL).WF := by
    show (m.bias.map (· + c)).length = m.items
    rw [List.length_map]; exact hwf
  refine ⟨⟨m.items, m.bias.map (· + c)⟩, hn, rfl, ?_⟩
  intro φ j n r hc hr
  obtain ⟨hj, rfl⟩ := replicate_getElem? _ _ _ _ hc
  obtain ⟨b, hb⟩ := getElem?_of_lt m.bias j (by rw [hwf]; exact hj)
  dsimp only
  rw [tableProb_row _ _ _ _ (C03_onePL_formula m hwf _ j b hb),
    tableProb_row _ _ _ _ (C03_onePL_formula _ hn (φ 0) j (b + c) (by simp [OnePL.itemParameters, hb]))]
  have : oldScores 1 (fun _ => c) φ 0 + b = φ 0 + (b + c) := by
    simp only [oldScores, Matrix.one_mulVec, Pi.add_apply]; ring
  rw [this]

/-- Every 1PL model has a counterpart in every other unit of the latent variable. -/
def OnePLAbsorbsUnits : Prop :=
  ∀ (m : OnePL), m.WF → 0 < m.items → ∀ s : ℝ, 0 < s → ∃ n : OnePL, n.WF ∧ n.items = m.items ∧
    SameOnNewScale (List.replicate m.items 2) (Matrix.of fun _ _ : Fin 1 => s) 0 (fun θ => tableProb (m.probs (θ 0)))
      (fun θ => tableProb (n.probs (θ 0)))

/-- C143: the unit of a 1PL is not a convention: its slope is fixed to one. -/
theorem C143_onePL_unit_false : ¬ OnePLAbsorbsUnits := by
  intro h
  have hwf : (⟨1, [0]⟩ : OnePL).WF := rfl
  obtain ⟨n, hn, hi, hs⟩ := h ⟨1, [0]⟩ hwf (by norm_num) 2 (by norm_num)
  have hi' : n.items = 1 := hi
  obtain ⟨b, hb⟩ := getElem?_of_lt n.bias 0 (by rw [hn, hi']; norm_num)
  have key : ∀ x : ℝ, x + b = 2 * x + 0 := by
    intro x
    have := hs (fun _ => x) 0 2 1 rfl (by norm_num)
    dsimp only at this
    rw [tableProb_row _ _ _ _ (C03_onePL_formula n hn x 0 b hb),
      tableProb_row _ _ _ _ (C03_onePL_formula ⟨1, [0]⟩ hwf _ 0 0 rfl)] at this
    have e : oldScores (Matrix.of fun _ _ : Fin 1 => (2 : ℝ)) 0 (fun _ => x) 0 = 2 * x := by
      simp [oldScores, Matrix.mulVec, dotProduct]
    rw [e] at this
    exact logistic_strictMono.injective (by simpa using this)
  have h0 := key 0
  have h1 := key 1
  linarith

end Families

/-! ## What the two models compute -/

section General
variable {d : ℕ} {cats : List ℕ} {T : Matrix (Fin d) (Fin d) ℝ} {c : Fin d → ℝ} {P Q : (Fin d → ℝ) → ℕ → ℕ → ℝ}

theorem newScale_likelihood (h : SameOnNewScale cats T c P Q) (row : ℕ → Cell) (hrow : ValidResponses cats row) (φ : Fin d → ℝ) :
    observedLikelihood Q cats.length row φ = observedLikelihood P cats.length row (oldScores T c φ) := by
  unfold observedLikelihood
  refine prod_congr rfl fun j hj => ?_
  split
  · rfl
  · rename_i hm
    rw [Bool.not_eq_true] at hm
    obtain ⟨n, hn⟩ := getElem?_of_lt cats j (mem_range.1 hj)
    obtain ⟨r, hr, hrn⟩ := hrow j n hn hm
    rw [hr]
    exact h φ j n r hn hrn

theorem newScale_cell (h : SameOnNewScale cats T c P Q) (row : ℕ → Cell) (hrow : ValidResponses cats row) (φ : Fin d → ℝ) (j : ℕ)
    (hj : j < cats.length) : (if cellMissing (row j) then none else some (logE (Q φ j (responseOf (row j)))))
      = if cellMissing (row j) then none else some (logE (P (oldScores T c φ) j (responseOf (row j)))) := by
  split
  · rfl
  · rename_i hm
    rw [Bool.not_eq_true] at hm
    obtain ⟨n, hn⟩ := getElem?_of_lt cats j hj
    obtain ⟨r, hr, hrn⟩ := hrow j n hn hm
    rw [hr]
    exact congrArg (fun x => some (logE x)) (h φ j n r hn hrn)

theorem newScale_logLikAt (h : SameOnNewScale cats T c P Q) (row : ℕ → Cell) (hrow : ValidResponses cats row) (φ : Fin d → ℝ) :
    logLikAt Q cats.length row φ = logLikAt P cats.length row (oldScores T c φ) := by
  unfold logLikAt
  congr 1
  exact List.map_congr_left fun j hj => newScale_cell h row hrow φ j (List.mem_range.1 hj)

variable {m m' : Scorer d} (hm : IsScorer m cats P) (hm' : IsScorer m' cats Q) (h : SameOnNewScale cats T c P Q) (N : ℕ)
  (y : ℕ → ℕ → Cell) (hy : ∀ i, i < N → ValidResponses cats (y i))

include hm hm' h hy

theorem newScale_cells (φ : ℕ → Fin d → ℝ) :
    m'.logLik (((List.range N).map φ).map m'.forward) (rowsOf N cats.length y).flatten
        ((rowsOf N cats.length y).map fun r => r.map cellMissing).flatten
      = m.logLik (((List.range N).map fun i => oldScores T c (φ i)).map m.forward) (rowsOf N cats.length y).flatten
        ((rowsOf N cats.length y).map fun r => r.map cellMissing).flatten := by
  have h1 := hm'.logLik N φ y hy
  have h2 := hm.logLik N (fun i => oldScores T c (φ i)) y hy
  rw [hm'.items] at h1
  rw [hm.items] at h2
  rw [mask_eq, rowsOf_flatten, rowsOf_flatten, List.map_map, List.map_map]
  refine h1.trans (Eq.trans ?_ h2.symm)
  congr 1
  exact flatTensor_congr _ _ _ _ fun i hi j hj => newScale_cell h (y i) (hy i hi) (φ i) j hj

/-- C143: the log-likelihood of respondents with scores on the new scale, cell by cell and with every reduction, is that of the same
respondents with scores on the old scale. -/
theorem C143_log_likelihood (φ : ℕ → Fin d → ℝ) (reduction level : String) :
    evaluatorLogLikelihood m' reduction level ((List.range N).map φ) (rowsOf N cats.length y)
      = evaluatorLogLikelihood m reduction level ((List.range N).map fun i => oldScores T c (φ i)) (rowsOf N cats.length y) := by
  have e : m'.items = m.items := by rw [hm.items, hm'.items]
  unfold evaluatorLogLikelihood
  dsimp only
  rw [newScale_cells hm hm' h N y hy φ, e]

/-- C143: the function that the search for ML scores maximises is the same. -/
theorem C143_ml_objective (φ : ℕ → Fin d → ℝ) :
    scoreObjective m' none (rowsOf N cats.length y) ((List.range N).map φ)
      = scoreObjective m none (rowsOf N cats.length y) ((List.range N).map fun i => oldScores T c (φ i)) := by
  unfold scoreObjective
  dsimp only
  rw [newScale_cells hm hm' h N y hy φ]

/-- C143: the marginal loss with points on the new scale is the loss of the old model at the same points on the old scale. -/
theorem C143_mml_points (pts : Thetas d) (lw : List ℝ) :
    mmlLoss m' (rowsOf N cats.length y) pts lw = mmlLoss m (rowsOf N cats.length y) (pts.map (oldScores T c)) lw := by
  have hll : pointMajorLL m' (rowsOf N cats.length y) pts = pointMajorLL m (rowsOf N cats.length y) (pts.map (oldScores T c)) := by
    have h1 := pointMajorLL_eq hm' N y hy pts
    have h2 := pointMajorLL_eq hm N y hy (pts.map (oldScores T c))
    rw [hm'.items] at h1
    rw [hm.items] at h2
    rw [h1, h2, List.length_map]
    congr 1
    refine flatTensor_congr _ _ _ _ fun g hg i hi => ?_
    rw [newScale_logLikAt h (y i) (hy i hi)]
    congr 1
    rw [List.getD_eq_getElem _ _ hg, List.getD_eq_getElem _ _ (by simpa using hg), List.getElem_map]
  unfold mmlLoss
  rw [hll, List.length_map]

end General

/-! ## Scores -/

section Scores
variable {d : ℕ} {cats : List ℕ} {T : Matrix (Fin d) (Fin d) ℝ} {c : Fin d → ℝ} {P Q : (Fin d → ℝ) → ℕ → ℕ → ℝ}

/-- Every respondent has exactly one place on the new scale. -/
theorem oldScores_surjective (hT : T.det ≠ 0) (t : Fin d → ℝ) : ∃ φ, oldScores T c φ = t := by
  have hu : IsUnit T.det := isUnit_iff_ne_zero.2 hT
  refine ⟨T⁻¹.mulVec (t - c), ?_⟩
  rw [oldScores, Matrix.mulVec_mulVec, Matrix.mul_nonsing_inv _ hu, Matrix.one_mulVec, sub_add_cancel]

/-- C143: the ML scores on the new scale are the ML scores on the old scale. -/
theorem C143_ml (h : SameOnNewScale cats T c P Q) (hT : T.det ≠ 0) (row : ℕ → Cell) (hrow : ValidResponses cats row) (φ : Fin d → ℝ) :
    IsMode (observedLikelihood Q cats.length row) φ ↔ IsMode (observedLikelihood P cats.length row) (oldScores T c φ) := by
  constructor
  · intro hq t
    obtain ⟨ψ, rfl⟩ := oldScores_surjective (c := c) hT t
    rw [← newScale_likelihood h row hrow, ← newScale_likelihood h row hrow]
    exact hq ψ
  · intro hp ψ
    rw [newScale_likelihood h row hrow, newScale_likelihood h row hrow]
    exact hp _

theorem mvn_newScale (hT : T.det ≠ 0) (C : Matrix (Fin d) (Fin d) ℝ) (hC : C.PosDef) (φ : Fin d → ℝ) :
    mvnLogDensity 0 C φ = mvnLogDensity 0 (T * C * T.transpose) (oldScores T 0 φ) + Real.log |T.det| := by
  have hu : IsUnit T.det := isUnit_iff_ne_zero.2 hT
  have hinv : T.transpose * (T * C * T.transpose)⁻¹ * T = C⁻¹ := by
    rw [Matrix.mul_inv_rev, Matrix.mul_inv_rev, ← Matrix.transpose_nonsing_inv]
    calc T.transpose * (T⁻¹.transpose * (C⁻¹ * T⁻¹)) * T = (T.transpose * T⁻¹.transpose) * C⁻¹ * (T⁻¹ * T) := by
          simp only [Matrix.mul_assoc]
      _ = C⁻¹ := by
          rw [← Matrix.transpose_mul, Matrix.nonsing_inv_mul _ hu, Matrix.transpose_one, Matrix.one_mul, Matrix.mul_one]
  have hq : (oldScores T 0 φ - 0) ⬝ᵥ ((T * C * T.transpose)⁻¹.mulVec (oldScores T 0 φ - 0)) = (φ - 0) ⬝ᵥ (C⁻¹.mulVec (φ - 0)) := by
    rw [sub_zero, sub_zero, oldScores, add_zero, ← hinv]
    generalize (T * C * T.transpose)⁻¹ = M
    rw [Matrix.mul_assoc, ← Matrix.mulVec_mulVec φ T.transpose, Matrix.dotProduct_mulVec φ T.transpose, Matrix.vecMul_transpose,
      Matrix.mulVec_mulVec]
  unfold mvnLogDensity
  rw [hq, Matrix.det_mul, Matrix.det_mul, Matrix.det_transpose,
    show T.det * C.det * T.det = |T.det| ^ 2 * C.det by rw [sq_abs]; ring,
    Real.log_mul (by positivity) hC.det_pos.ne', Real.log_pow]
  push_cast
  ring

/-- C143: with the origin kept and the prior covariance expressed in the same units, the MAP scores on the new scale are the MAP scores
on the old scale. -/
theorem C143_map (h : SameOnNewScale cats T 0 P Q) (hT : T.det ≠ 0) (C : Matrix (Fin d) (Fin d) ℝ) (hC : C.PosDef) (row : ℕ → Cell)
    (hrow : ValidResponses cats row) (φ : Fin d → ℝ) :
    IsMode (posteriorWeight Q cats.length C row) φ
      ↔ IsMode (posteriorWeight P cats.length (T * C * T.transpose) row) (oldScores T 0 φ) := by
  have hpos : 0 < |T.det| := abs_pos.2 hT
  have key : ∀ ψ, posteriorWeight Q cats.length C row ψ
      = posteriorWeight P cats.length (T * C * T.transpose) row (oldScores T 0 ψ) * |T.det| := by
    intro ψ
    unfold posteriorWeight
    rw [mvn_newScale hT C hC, Real.exp_add, Real.exp_log hpos, newScale_likelihood h row hrow]
    ring
  constructor
  · intro hq t
    obtain ⟨ψ, rfl⟩ := oldScores_surjective (c := (0 : Fin d → ℝ)) hT t
    have := hq ψ
    rw [key, key] at this
    exact le_of_mul_le_mul_right this hpos
  · intro hp ψ
    rw [key, key]
    exact mul_le_mul_of_nonneg_right (hp _) hpos.le

/-- C143: the sample covariance of training scores, which MAP scoring uses as the prior covariance, changes with the units as a
covariance does and does not depend on the origin. -/
theorem C143_training_covariance (T : Matrix (Fin d) (Fin d) ℝ) (c : Fin d → ℝ) (ts : Thetas d) :
    sampleCov (ts.map (oldScores T c)) = T * sampleCov ts * T.transpose := by
  rcases eq_or_ne ts [] with rfl | hne
  · ext a b
    simp [sampleCov, Matrix.mul_apply]
  have hn : (ts.length : ℝ) ≠ 0 := by
    have := List.length_pos_iff.2 hne
    positivity
  have sums : ∀ (f : Fin d → (Fin d → ℝ) → ℝ) (l : Thetas d), (l.map fun t => ∑ k, f k t).sum = ∑ k, (l.map (f k)).sum := by
    intro f l
    induction l with
    | nil => simp
    | cons a l ih => simp [ih, sum_add_distrib]
  have hmean : ∀ a, ((ts.map (oldScores T c)).map fun t => t a).sum / ts.length
      = ∑ k, T a k * ((ts.map fun t => t k).sum / ts.length) + c a := by
    intro a
    have e : ((ts.map (oldScores T c)).map fun t => t a) = ts.map fun t => (∑ k, T a k * t k) + c a := by
      rw [List.map_map]; rfl
    rw [e, List.sum_map_add, sums]
    simp only [List.sum_map_mul_left, List.map_const', List.sum_replicate, nsmul_eq_mul]
    rw [add_div, sum_div, mul_div_cancel_left₀ _ hn]
    congr 1
    exact sum_congr rfl fun k _ => by ring
  ext a b
  unfold sampleCov
  dsimp only
  rw [Matrix.mul_assoc, Matrix.mul_apply]
  simp only [Matrix.of_apply, Matrix.mul_apply, Matrix.transpose_apply, List.length_map, hmean]
  have hdev : ∀ a (t : Fin d → ℝ), oldScores T c t a - (∑ k, T a k * ((ts.map fun t => t k).sum / ts.length) + c a)
      = ∑ k, T a k * (t k - (ts.map fun t => t k).sum / ts.length) := by
    intro a t
    simp only [oldScores, Matrix.mulVec, dotProduct, Pi.add_apply, mul_sub, sum_sub_distrib]
    ring
  rw [List.map_map]
  have e : ((fun t : Fin d → ℝ => (t a - (∑ k, T a k * ((ts.map fun t => t k).sum / ts.length) + c a))
      * (t b - (∑ k, T b k * ((ts.map fun t => t k).sum / ts.length) + c b))) ∘ oldScores T c)
      = fun t => ∑ k, ∑ l, T a k * T b l * ((t k - (ts.map fun t => t k).sum / ts.length) * (t l - (ts.map fun t => t l).sum / ts.length)) := by
    funext t
    simp only [Function.comp, hdev]
    rw [sum_mul_sum]
    exact sum_congr rfl fun k _ => sum_congr rfl fun l _ => by ring
  rw [e, sums, sum_div]
  refine sum_congr rfl fun k _ => ?_
  rw [sums, sum_div, mul_sum]
  refine sum_congr rfl fun l _ => ?_
  rw [List.sum_map_mul_left]
  ring

end Scores

/-- MAP scores do not depend on the origin of the latent variable either. -/
def MapIgnoresOrigin : Prop :=
  ∀ (m n : OnePL), m.WF → n.WF → n.items = m.items → ∀ c : ℝ,
    SameOnNewScale (List.replicate m.items 2) (1 : Matrix (Fin 1) (Fin 1) ℝ) (fun _ => c) (fun θ => tableProb (m.probs (θ 0)))
      (fun θ => tableProb (n.probs (θ 0))) →
    ∀ row, ValidResponses (List.replicate m.items 2) row → ∀ φ : Fin 1 → ℝ,
      IsMode (posteriorWeight (fun θ : Fin 1 → ℝ => tableProb (n.probs (θ 0))) m.items 1 row) φ
        ↔ IsMode (posteriorWeight (fun θ : Fin 1 → ℝ => tableProb (m.probs (θ 0))) m.items 1 row) (oldScores 1 (fun _ => c) φ)

/-- C143: it does matter for MAP scores where the origin is: the prior always has mean zero, also when the training scores do not. -/
theorem C143_map_origin_false : ¬ MapIgnoresOrigin := by
  intro h
  obtain ⟨n, hn, hi, hs⟩ := C143_onePL exOnePL exOnePL_wf 1
  have hnone : ∀ (Q : (Fin 1 → ℝ) → ℕ → ℕ → ℝ) k t, observedLikelihood Q k (fun _ => none) t = 1 := by
    intro Q k t
    exact prod_eq_one fun j _ => by simp [cellMissing]
  have hdens : ∀ (Q : (Fin 1 → ℝ) → ℕ → ℕ → ℝ) k (t : Fin 1 → ℝ), posteriorWeight Q k 1 (fun _ => none) t
      = Real.exp (-(1 / 2) * (Real.log (2 * Real.pi) + t 0 ^ 2)) := by
    intro Q k t
    rw [posteriorWeight, hnone, mul_one]
    congr 1
    simp [mvnLogDensity, dotProduct, sq]
  have hmode := (h exOnePL n exOnePL_wf hn hi 1 hs (fun _ => none) (fun j c _ hm => by simp [cellMissing] at hm) 0).1 (by
    intro t
    rw [hdens, hdens]
    refine Real.exp_le_exp.2 ?_
    have := sq_nonneg (t 0)
    simp only [Pi.zero_apply]
    nlinarith) 0
  rw [hdens, hdens, Real.exp_le_exp] at hmode
  simp [oldScores] at hmode
  linarith

/-! ## Marginal maximum likelihood -/

section Mml
variable {d : ℕ} {cats : List ℕ} {T : Matrix (Fin d) (Fin d) ℝ} {P Q : (Fin d → ℝ) → ℕ → ℕ → ℝ}

/-- C143: with Gauss-Hermite integration the covariance of the latent variables sets their units and nothing else: the loss of a model
with covariance `T C Tᵀ` is the loss, with covariance `C`, of the model that says the same on the scale of `C`. -/
theorem C143_mml {m m' : Scorer d} (hm : IsScorer m cats P) (hm' : IsScorer m' cats Q) (h : SameOnNewScale cats T 0 P Q) (N : ℕ)
    (y : ℕ → ℕ → Cell) (hy : ∀ i, i < N → ValidResponses cats (y i)) {hg : ℕ → Except PyErr (List ℝ × List ℝ)}
    {ch : Matrix (Fin d) (Fin d) ℝ → Except PyErr (Matrix (Fin d) (Fin d) ℝ)} {points : Option ℕ} {n : ℕ} (hpts : mmlPoints d points = .ok n)
    {x w : List ℝ} (hx : hg n = .ok (x, w)) {cov cov' : Option CovArg} {C L : Matrix (Fin d) (Fin d) ℝ}
    (hcov : mmlCovariance d cov = .ok (T * C * T.transpose)) (hcov' : mmlCovariance d cov' = .ok C)
    (hL' : ch C = .ok L) (hL : ch (T * C * T.transpose) = .ok (T * L)) :
    ∃ pts pts' lw, mmlIntegration hg ch "gauss_hermite" points cov = .ok (pts, lw) ∧
      mmlIntegration hg ch "gauss_hermite" points cov' = .ok (pts', lw) ∧
      mmlLoss m' (rowsOf N cats.length y) pts' lw = mmlLoss m (rowsOf N cats.length y) pts lw := by
  have int : ∀ (k : Option CovArg) (V R : Matrix (Fin d) (Fin d) ℝ), mmlCovariance d k = .ok V → ch V = .ok R →
      mmlIntegration hg ch "gauss_hermite" points k = .ok ((gridProduct x d).map fun v => fun i => Real.sqrt 2 * (R.mulVec v) i + (0 : Fin d → ℝ) i,
        (((gridProduct w d).map fun v => ∏ i, v i).map fun v => v * Real.pi ^ (-(1 / 2 : ℝ) * d)).map Real.log) := by
    intro k V R hk hR
    unfold mmlIntegration
    rw [hpts, hk]
    simp only [bind_ok, if_true]
    rw [gaussHermite_ok 0 hx hR]
    rfl
  refine ⟨_, _, _, int cov _ _ hcov hL, int cov' _ _ hcov' hL', ?_⟩
  rw [C143_mml_points hm hm' h N y hy]
  congr 1
  rw [List.map_map]
  refine List.map_congr_left fun v _ => ?_
  funext i
  have : (fun i => Real.sqrt 2 * (L.mulVec v) i) = Real.sqrt 2 • L.mulVec v := by
    funext i; simp
  simp only [Function.comp, oldScores, add_zero, Pi.zero_apply]
  rw [this]
  simp only [Matrix.mulVec_smul, Matrix.mulVec_mulVec, Pi.smul_apply, smul_eq_mul]

end Mml

/-- A one by one matrix given by the caller. -/
def oneCov (v : ℝ) : CovArg := ⟨1, 1, fun _ _ => v⟩

/-- C143: fitting one latent variable with variance `s²` instead of one changes the best partial credit model only by the unit: it has
the same loss, the same probabilities for the same respondents and slopes divided by `s`. -/
theorem C143_best_gpc (cats : List ℕ) (hne : cats ≠ []) (rel : List (List Bool)) (N : ℕ) (y : ℕ → ℕ → Cell)
    (hy : ∀ i, i < N → ValidResponses cats (y i)) {hg : ℕ → Except PyErr (List ℝ × List ℝ)}
    {ch : Matrix (Fin 1) (Fin 1) ℝ → Except PyErr (Matrix (Fin 1) (Fin 1) ℝ)}
    (hch : ∀ v : ℝ, 0 < v → ch (Matrix.of fun _ _ => v) = .ok (Matrix.of fun _ _ => Real.sqrt v)) {n : ℕ} {x w : List ℝ} (hx : hg n = .ok (x, w))
    (s : ℝ) (hs : 0 < s) {pts pts' : Thetas 1} {lw lw' : List ℝ}
    (hint : mmlIntegration hg ch "gauss_hermite" (some n) (some (oneCov (s ^ 2))) = .ok (pts, lw))
    (hint' : mmlIntegration hg ch "gauss_hermite" (some n) none = .ok (pts', lw')) (m : GPC)
    (hm : BestOf (fun q : GPC => q.WF ∧ q.lv = 1 ∧ q.cats = cats ∧ q.rel = rel)
      (fun q => mmlLoss (q.scorer 1) (rowsOf N cats.length y) pts' lw') m) :
    ∃ q : GPC, BestOf (fun q : GPC => q.WF ∧ q.lv = 1 ∧ q.cats = cats ∧ q.rel = rel)
        (fun q => mmlLoss (q.scorer 1) (rowsOf N cats.length y) pts lw) q ∧
      mmlLoss (q.scorer 1) (rowsOf N cats.length y) pts lw = mmlLoss (m.scorer 1) (rowsOf N cats.length y) pts' lw' ∧
      (∀ j, j < cats.length → slopeOf q.itemParameters j 0 = slopeOf m.itemParameters j 0 / s) ∧
      ∀ (θ : ℝ) (j c r : ℕ), cats[j]? = some c → r < c → tableProb (q.probs [s * θ]) j r = tableProb (m.probs [θ]) j r := by
  have sc : ∀ q : GPC, (q.WF ∧ q.lv = 1 ∧ q.cats = cats ∧ q.rel = rel) →
      IsScorer (q.scorer 1) cats fun θ : Fin 1 → ℝ => tableProb (q.probs (List.ofFn θ)) := by
    rintro q ⟨hq, -, rfl, -⟩
    exact q.isScorer hq hne 1
  have unit : ∀ u : ℝ, ∀ q : GPC, (q.WF ∧ q.lv = 1 ∧ q.cats = cats ∧ q.rel = rel) →
      ∃ p : GPC, (p.WF ∧ p.lv = 1 ∧ p.cats = cats ∧ p.rel = rel) ∧
        (∀ j, j < cats.length → slopeOf p.itemParameters j 0 = slopeOf q.itemParameters j 0 * u) ∧
        SameOnNewScale cats (Matrix.of fun _ _ : Fin 1 => u) 0 (fun θ => tableProb (q.probs (List.ofFn θ)))
          (fun θ => tableProb (p.probs (List.ofFn θ))) := by
    rintro u ⟨lv, cats', rel', ww, bb⟩ ⟨hq, hlv, hc, hr⟩
    obtain rfl : lv = 1 := hlv
    obtain rfl : cats' = cats := hc
    obtain rfl : rel' = rel := hr
    obtain ⟨p, hp, h1, h2, h3, h4, h5⟩ := C143_gpc _ hq (Matrix.of fun _ _ => u) (by
      intro j row l k hr hl _
      have h1 : (l : Fin 1) = 0 := Subsingleton.elim (α := Fin 1) _ _
      have h2 : (k : Fin 1) = 0 := Subsingleton.elim (α := Fin 1) _ _
      rw [h1] at hl
      rw [h2]
      exact hl) 0
    refine ⟨p, ⟨hp, h1, h2, h3⟩, fun j hj => ?_, h5⟩
    have := h4 j 0 hj
    simpa using this
  have one : (Matrix.of fun _ _ : Fin 1 => (1 : ℝ)) = 1 := by
    ext i j
    have hi : i = 0 := Subsingleton.elim _ _
    have hj : j = 0 := Subsingleton.elim _ _
    subst hi hj
    simp
  have hsq : (Matrix.of fun _ _ : Fin 1 => s) * 1 * (Matrix.of fun _ _ : Fin 1 => s).transpose = Matrix.of fun _ _ : Fin 1 => s ^ 2 := by
    ext i j
    simp [Matrix.mul_apply, sq]
  have hch1 : ch 1 = .ok 1 := by
    have := hch 1 one_pos
    rwa [Real.sqrt_one, one] at this
  have hchs : ch ((Matrix.of fun _ _ : Fin 1 => s) * 1 * (Matrix.of fun _ _ : Fin 1 => s).transpose)
      = .ok ((Matrix.of fun _ _ : Fin 1 => s) * 1) := by
    rw [hsq, hch _ (by positivity), Real.sqrt_sq hs.le, Matrix.mul_one]
  have hcov : mmlCovariance 1 (some (oneCov (s ^ 2)))
      = .ok ((Matrix.of fun _ _ : Fin 1 => s) * 1 * (Matrix.of fun _ _ : Fin 1 => s).transpose) := by
    rw [hsq]
    rfl
  have loss : ∀ q p : GPC, (q.WF ∧ q.lv = 1 ∧ q.cats = cats ∧ q.rel = rel) → (p.WF ∧ p.lv = 1 ∧ p.cats = cats ∧ p.rel = rel) →
      SameOnNewScale cats (Matrix.of fun _ _ : Fin 1 => s) 0 (fun θ => tableProb (q.probs (List.ofFn θ)))
          (fun θ => tableProb (p.probs (List.ofFn θ))) →
      mmlLoss (p.scorer 1) (rowsOf N cats.length y) pts' lw' = mmlLoss (q.scorer 1) (rowsOf N cats.length y) pts lw := by
    intro q p hq hp hqp
    obtain ⟨a, b, l, e1, e2, e3⟩ := C143_mml (sc q hq) (sc p hp) hqp N y hy (hg := hg) (ch := ch) (points := some n) rfl hx
      (cov := some (oneCov (s ^ 2))) (cov' := none) hcov rfl hch1 hchs
    rw [hint] at e1
    rw [hint'] at e2
    obtain ⟨rfl, rfl⟩ := Prod.mk.inj (Except.ok.inj e1)
    obtain ⟨rfl, rfl⟩ := Prod.mk.inj (Except.ok.inj e2)
    exact e3
  have old : ∀ (u : ℝ) (φ : Fin 1 → ℝ), oldScores (Matrix.of fun _ _ : Fin 1 => u) 0 φ = fun _ => u * φ 0 := by
    intro u φ
    funext i
    simp [oldScores, Matrix.mulVec, dotProduct]
  obtain ⟨q, hq, hslope, hsame⟩ := unit s⁻¹ m hm.1
  have back : SameOnNewScale cats (Matrix.of fun _ _ : Fin 1 => s) 0 (fun θ => tableProb (q.probs (List.ofFn θ)))
      (fun θ => tableProb (m.probs (List.ofFn θ))) := by
    intro φ j c r hc hr
    rw [hsame _ j c r hc hr, old, old]
    congr 3
    funext i
    rw [Subsingleton.elim i 0]
    field_simp
  have hloss := loss q m hq hm.1 back
  refine ⟨q, best_carried hm hq hloss.symm fun p hp => ?_, hloss.symm, fun j hj => ?_, fun θ j c r hc hr => ?_⟩
  · obtain ⟨p', hp', -, hsame'⟩ := unit s p hp
    exact ⟨p', hp', loss p p' hp hp' hsame'⟩
  · rw [hslope j hj]; rfl
  · have := back (fun _ => θ) j c r hc hr
    rw [old] at this
    simpa using this.symm

/-- The covariance only sets the unit for the equidistant grid as well. -/
def QuasiMcIgnoresUnit : Prop :=
  ∀ (m m' : TwoPL), m.WF → m'.WF → m'.items = m.items → 0 < m.items → ∀ s : ℝ, 0 < s →
    SameOnNewScale (List.replicate m.items 2) (Matrix.of fun _ _ : Fin 1 => s) 0 (fun θ => tableProb (m.probs (List.ofFn θ)))
      (fun θ => tableProb (m'.probs (List.ofFn θ))) →
    ∀ (N : ℕ) (y : ℕ → ℕ → Cell), (∀ i, i < N → ValidResponses (List.replicate m.items 2) (y i)) → ∀ n, 0 < n →
      ∀ pts lw pts' lw', quasiMc n (Matrix.of fun _ _ : Fin 1 => s ^ 2) = .ok (pts, lw) → quasiMc n (1 : Matrix (Fin 1) (Fin 1) ℝ) = .ok (pts', lw') →
        mmlLoss (m'.scorer 1) (rowsOf N m.items y) pts' lw' = mmlLoss (m.scorer 1) (rowsOf N m.items y) pts lw

/-- C143: with the equidistant grid, which always covers the range from -3 to 3 and whose weights are not normalised, the covariance does
more than set the unit. -/
theorem C143_quasi_mc_false : ¬ QuasiMcIgnoresUnit := by
  intro h
  let m : TwoPL := ⟨1, 1, [[true]], [1], [0]⟩
  have hwf : m.WF := ⟨rfl, by simp [m], by simp [m, countTrue], rfl⟩
  obtain ⟨m', hwf', hi, -, -, -, hs⟩ := C143_twoPL m hwf (Matrix.of fun _ _ : Fin 1 => (2 : ℝ)) (by
    intro j row l k hr hl _
    have h1 : (l : Fin 1) = 0 := Subsingleton.elim (α := Fin 1) _ _
    have h2 : (k : Fin 1) = 0 := Subsingleton.elim (α := Fin 1) _ _
    rw [h1] at hl
    rw [h2]
    exact hl) 0
  have hi1 : m'.items = 1 := hi
  have hv : ∀ i, i < 1 → ValidResponses (List.replicate 1 2) ((fun _ _ => none : ℕ → ℕ → Cell) i) :=
    fun i _ j c _ hm => by simp [cellMissing] at hm
  have p1 : (1 : Matrix (Fin 1) (Fin 1) ℝ).PosDef := Matrix.PosDef.one
  have p4 : (Matrix.of fun _ _ : Fin 1 => (2 : ℝ) ^ 2).PosDef := by
    have e : (Matrix.of fun _ _ : Fin 1 => (2 : ℝ) ^ 2) = (4 : ℝ) • (1 : Matrix (Fin 1) (Fin 1) ℝ) := by
      ext i j
      rw [Subsingleton.elim i 0, Subsingleton.elim j 0]
      norm_num
    rw [e]
    exact p1.smul (by norm_num)
  have pos : ∀ q : TwoPL, q.WF → q.items = 1 →
      PositiveProbs (fun θ : Fin 1 → ℝ => tableProb (q.probs (List.ofFn θ))) (List.replicate 1 2) := by
    intro q hq h1
    have h := q.logitModel hq 1
    rw [h1] at h
    intro θ j c r hc hr
    rw [h θ j c r hc hr]
    exact div_pos (Real.exp_pos _) (sum_pos (fun s _ => Real.exp_pos _) ⟨r, mem_range.2 hr⟩)
  have sc : ∀ q : TwoPL, q.WF → q.items = 1 →
      IsScorer (q.scorer 1) (List.replicate 1 2) (fun θ : Fin 1 → ℝ => tableProb (q.probs (List.ofFn θ))) := by
    intro q hq h1
    have := q.isScorer hq (by omega) 1
    rwa [h1] at this
  obtain ⟨g, w, hg, hl⟩ := C80_objective (sc m hwf rfl) (pos m hwf rfl) 1 (fun _ _ => none) hv _ p4 1 le_rfl
  obtain ⟨g', w', hg', hl'⟩ := C80_objective (sc m' hwf' hi1) (pos m' hwf' hi1) 1 (fun _ _ => none) hv _ p1 1 le_rfl
  have key := h m m' hwf hwf' hi (by simp [m]) 2 (by norm_num) hs 1 (fun _ _ => none) hv 1 one_pos g w g' w' hg hg'
  rw [List.length_replicate] at hl hl'
  rw [show m.items = 1 from rfl, hl, hl'] at key
  have key := Option.some.inj (Except.ok.inj key)
  have hnone : ∀ (Q : (Fin 1 → ℝ) → ℕ → ℕ → ℝ) k t, observedLikelihood Q k (fun _ => none) t = 1 := by
    intro Q k t
    exact prod_eq_one fun j _ => by simp [cellMissing]
  have hgrid : (cartesianProd fun _ : Fin 1 => linspace (-3) 3 1) = [fun _ => -3] := by
    simp [cartesianProd, linspace]
    funext i
    match i with
    | ⟨0, _⟩ => rfl
  rw [hgrid] at key
  simp only [sum_range_one, List.map_cons, List.map_nil, List.sum_cons, List.sum_nil, add_zero, hnone, mul_one, Real.log_exp, neg_inj] at key
  have hinv : (Matrix.of fun _ _ : Fin 1 => (2 : ℝ) ^ 2)⁻¹ = Matrix.of fun _ _ : Fin 1 => (1 / 4 : ℝ) := by
    refine Matrix.inv_eq_right_inv ?_
    ext i j
    rw [Subsingleton.elim i 0, Subsingleton.elim j 0]
    norm_num [Matrix.mul_apply]
  have hlog : Real.log 2 ≤ 1 := by
    have := Real.log_le_sub_one_of_pos (show (0 : ℝ) < 2 by norm_num)
    linarith
  simp only [mvnLogDensity, hinv, Matrix.det_unique, Matrix.of_apply, inv_one, Matrix.one_mulVec, Matrix.one_apply_eq, Real.log_one] at key
  simp [dotProduct, Matrix.mulVec] at key
  norm_num at key
  linarith

/-! ## Information -/

section Fisher
variable {d : ℕ} {T : Matrix (Fin d) (Fin d) ℝ} {c : Fin d → ℝ}

theorem oldScores_hasFDerivAt (φ : Fin d → ℝ) : HasFDerivAt (oldScores T c) (LinearMap.toContinuousLinearMap T.mulVecLin) φ := by
  have := (LinearMap.toContinuousLinearMap T.mulVecLin).hasFDerivAt (x := φ)
  exact this.add_const c

/-- The chain rule. -/
theorem partialD_newScale {f : (Fin d → ℝ) → ℝ} (φ : Fin d → ℝ) (hf : DifferentiableAt ℝ f (oldScores T c φ)) (k : Fin d) :
    partialD (fun s => f (oldScores T c s)) φ k = ∑ l, T l k * partialD f (oldScores T c φ) l := by
  have hcomp := hf.hasFDerivAt.comp φ (oldScores_hasFDerivAt (T := T) (c := c) φ)
  have h1 := (partialD_fderiv hcomp.differentiableAt k).deriv
  rw [hcomp.fderiv] at h1
  have h2 : ∀ l, partialD f (oldScores T c φ) l = fderiv ℝ f (oldScores T c φ) (Pi.single l 1) := fun l => (partialD_fderiv hf l).deriv
  refine h1.trans ?_
  simp only [h2]
  show fderiv ℝ f (oldScores T c φ) (T.mulVec (Pi.single k 1)) = _
  have e : T.mulVec (Pi.single k 1) = ∑ l, T l k • (Pi.single l 1 : Fin d → ℝ) := by
    funext i
    simp [Matrix.mulVec, dotProduct, Finset.sum_apply, Pi.single_apply]
  rw [e, map_sum]
  exact sum_congr rfl fun l _ => by rw [map_smul, smul_eq_mul]

theorem fisher_newScale (P Q : (Fin d → ℝ) → List ℝ) (φ : Fin d → ℝ) (hlen : (Q φ).length = (P (oldScores T c φ)).length)
    (hPQ : ∀ k s, (Q s).getD k 0 = (P (oldScores T c s)).getD k 0)
    (hdiff : ∀ k, DifferentiableAt ℝ (fun t => (P t).getD k 0) (oldScores T c φ)) :
    fisherInformation Q φ = T.transpose * fisherInformation P (oldScores T c φ) * T := by
  ext i j
  rw [Matrix.mul_apply]
  simp only [Matrix.mul_apply, Matrix.transpose_apply, fisherInformation, Matrix.of_apply, hlen, sum_mul, mul_sum]
  have step : ∀ r, (Q φ).getD r 0 * (partialD (fun s => Real.log ((Q s).getD r 0)) φ i * partialD (fun s => Real.log ((Q s).getD r 0)) φ j)
      = ∑ b, ∑ a, T a i * ((P (oldScores T c φ)).getD r 0 * (partialD (fun s => Real.log ((P s).getD r 0)) (oldScores T c φ) a
        * partialD (fun s => Real.log ((P s).getD r 0)) (oldScores T c φ) b)) * T b j := by
    intro r
    simp only [hPQ r]
    by_cases h0 : (P (oldScores T c φ)).getD r 0 = 0
    · simp only [h0, zero_mul, mul_zero, sum_const_zero]
    · have hl : DifferentiableAt ℝ (fun t => Real.log ((P t).getD r 0)) (oldScores T c φ) := (hdiff r).log h0
      have e := partialD_newScale (T := T) (c := c) φ hl
      rw [e i, e j, sum_mul_sum, mul_sum, sum_comm]
      refine sum_congr rfl fun b _ => ?_
      rw [mul_sum]
      exact sum_congr rfl fun a _ => by ring
  rw [sum_congr rfl fun r _ => step r, sum_comm]
  refine sum_congr rfl fun b _ => ?_
  rw [sum_comm]

/-- C143: the information of the items and of the test on the new scale is that on the old scale with both sides multiplied by the
matrix of the change of units, whatever the origin. -/
theorem C143_information {cats : List ℕ} {M : ℕ} {probs probs' : (Fin d → ℝ) → List (List ℝ)} (ht : ∀ t, IsTable cats M (probs t))
    (ht' : ∀ t, IsTable cats M (probs' t))
    (h : SameOnNewScale cats T c (fun θ => tableProb (probs θ)) (fun θ => tableProb (probs' θ)))
    (hdiff : ∀ j r, Differentiable ℝ fun t => tableProb (probs t) j r) (φs : Thetas d) :
    ∃ Is : List (List (Matrix (Fin d) (Fin d) ℝ)),
      information probs cats.length M [] true none false (φs.map (oldScores T c)) = .ok (.items Is) ∧
      information probs' cats.length M [] true none false φs = .ok (.items (Is.map fun r => r.map fun I => T.transpose * I * T)) ∧
      information probs cats.length M [] false none false (φs.map (oldScores T c)) = .ok (.test (Is.map List.sum)) ∧
      information probs' cats.length M [] false none false φs
        = .ok (.test ((Is.map List.sum).map fun I => T.transpose * I * T)) := by
  have shape : ∀ p : (Fin d → ℝ) → List (List ℝ), (∀ t, IsTable cats M (p t)) → TableShape cats.length M p := by
    intro p hp t
    refine ⟨(hp t).1, fun r hr => ?_⟩
    obtain ⟨j, hj⟩ := List.mem_iff_getElem?.1 hr
    obtain ⟨n, hn⟩ := getElem?_of_lt cats j (by rw [← (hp t).1]; exact lt_of_getElem?_some hj)
    exact ((hp t).2 j r n hj hn).length
  have zero : ∀ p : (Fin d → ℝ) → List (List ℝ), (∀ t, IsTable cats M (p t)) → ∀ t j r,
      (¬ ∃ n, cats[j]? = some n ∧ r < n) → tableProb (p t) j r = 0 := by
    intro p hp t j r hr
    unfold tableProb
    cases hj : (p t)[j]? with
    | none => rfl
    | some row =>
      obtain ⟨n, hn⟩ := getElem?_of_lt cats j (by rw [← (hp t).1]; exact lt_of_getElem?_some hj)
      have hd := (hp t).2 j row n hj hn
      have hnr : n ≤ r := by
        by_contra hlt
        exact hr ⟨n, hn, by omega⟩
      rw [Option.bind_some]
      by_cases hrM : r < M
      · rw [hd.missing r hnr hrM]; rfl
      · rw [List.getElem?_eq_none (by rw [hd.length]; omega)]; rfl
  have same : ∀ s j r, tableProb (probs' s) j r = tableProb (probs (oldScores T c s)) j r := by
    intro s j r
    by_cases hr : ∃ n, cats[j]? = some n ∧ r < n
    · obtain ⟨n, hn, hrn⟩ := hr
      exact h s j n r hn hrn
    · rw [zero probs' ht' s j r hr, zero probs ht _ j r hr]
  have hdiff' : ∀ j r, Differentiable ℝ fun t => tableProb (probs' t) j r := by
    intro j r
    have : (fun t => tableProb (probs' t) j r) = (fun t => tableProb (probs t) j r) ∘ oldScores T c := by
      funext t; exact same t j r
    rw [this]
    exact (hdiff j r).comp fun φ => (oldScores_hasFDerivAt φ).differentiableAt
  have along : ∀ p : (Fin d → ℝ) → List (List ℝ), (∀ j r, Differentiable ℝ fun t => tableProb (p t) j r) → ∀ t i k (l : Fin d),
      DifferentiableAt ℝ (fun v => ((p (Function.update t l v)).getD i []).getD k 0) (t l) := by
    intro p hp t i k l
    simp only [tableProb_getD]
    exact (partialD_fderiv (hp i k t) l).differentiableAt
  have f1 := C31_fisher probs cats.length M (shape probs ht) (along probs hdiff) [] false (Or.inl rfl) (φs.map (oldScores T c))
  have f2 := C31_fisher probs' cats.length M (shape probs' ht') (along probs' hdiff') [] false (Or.inl rfl) φs
  have hT : ∀ l : List (Matrix (Fin d) (Fin d) ℝ), (l.map fun I => T.transpose * I * T).sum = T.transpose * l.sum * T := by
    intro l
    induction l with
    | nil => simp
    | cons a l ih => rw [List.map_cons, List.sum_cons, List.sum_cons, ih, Matrix.mul_add, Matrix.add_mul]
  have key : (φs.map fun t => (List.range cats.length).map fun i => fisherInformation (fun s => (probs' s).getD i []) t)
      = ((φs.map (oldScores T c)).map fun t => (List.range cats.length).map fun i => fisherInformation (fun s => (probs s).getD i []) t).map
        fun r => r.map fun I => T.transpose * I * T := by
    rw [List.map_map, List.map_map]
    refine List.map_congr_left fun φ _ => ?_
    simp only [Function.comp, List.map_map]
    refine List.map_congr_left fun i hi => ?_
    have hi' := List.mem_range.1 hi
    refine fisher_newScale _ _ φ ?_ (fun k s => ?_) fun k => ?_
    · have len : ∀ p : (Fin d → ℝ) → List (List ℝ), (∀ t, IsTable cats M (p t)) → ∀ t, ((p t).getD i []).length = M := by
        intro p hp t
        refine (shape p hp t).2 _ ?_
        rw [List.getD_eq_getElem _ _ (by rw [(hp t).1]; exact hi')]
        exact List.getElem_mem _
      rw [len probs' ht', len probs ht]
    · rw [tableProb_getD, tableProb_getD]
      exact same s i k
    · have := hdiff i k (oldScores T c φ)
      simp only [tableProb_getD]
      exact this
  rw [key] at f2
  refine ⟨_, f1, f2, C31_test_is_sum _ _ _ _ _ _ _ f1, ?_⟩
  rw [C31_test_is_sum _ _ _ _ _ _ _ f2]
  congr 2
  simp only [List.map_map]
  refine List.map_congr_left fun φ _ => ?_
  simp only [Function.comp]
  exact hT _

theorem logitModel_differentiable {cats : List ℕ} {P : (Fin d → ℝ) → ℕ → ℕ → ℝ} {A : ℕ → ℕ → Fin d → ℝ} {B : ℕ → ℕ → ℝ}
    (h : LogitModel cats P A B) (j n r : ℕ) (hn : cats[j]? = some n) (hr : r < n) : Differentiable ℝ fun t => P t j r := by
  have e : (fun t => P t j r) = fun t => Real.exp (∑ k, A j r k * t k + B j r)
      / ∑ s ∈ range n, Real.exp (∑ k, A j s k * t k + B j s) := funext fun t => h t j n r hn hr
  rw [e]
  have hnum : ∀ s, Differentiable ℝ fun t : Fin d → ℝ => Real.exp (∑ k, A j s k * t k + B j s) := by
    intro s
    fun_prop
  have hden : Differentiable ℝ fun t : Fin d → ℝ => ∑ s ∈ range n, Real.exp (∑ k, A j s k * t k + B j s) :=
    Differentiable.fun_sum fun s _ => hnum s
  have hpos : ∀ t : Fin d → ℝ, ∑ s ∈ range n, Real.exp (∑ k, A j s k * t k + B j s) ≠ 0 := fun t =>
    (sum_pos (fun s _ => Real.exp_pos _) ⟨r, mem_range.2 hr⟩).ne'
  simp only [div_eq_mul_inv]
  exact (hnum r).mul (hden.inv hpos)

/-- The probabilities of a partial credit model are differentiable. -/
theorem GPC.differentiable (m : GPC) (hwf : m.WF) (j r : ℕ) :
    Differentiable ℝ fun t : Fin d → ℝ => tableProb (m.probs (List.ofFn t)) j r := by
  by_cases hr : ∃ n, m.cats[j]? = some n ∧ r < n
  · obtain ⟨n, hn, hrn⟩ := hr
    exact logitModel_differentiable (m.logitModel hwf d) j n r hn hrn
  · have : (fun t : Fin d → ℝ => tableProb (m.probs (List.ofFn t)) j r) = fun _ => 0 := by
      funext t
      have hp := isTable_gpc m hwf (List.ofFn t)
      unfold tableProb
      cases hj : (m.probs (List.ofFn t))[j]? with
      | none => rfl
      | some row =>
        obtain ⟨n, hn⟩ := getElem?_of_lt m.cats j (by rw [← hp.1]; exact lt_of_getElem?_some hj)
        have hd := hp.2 j row n hj hn
        have hnr : n ≤ r := by
          by_contra hlt
          exact hr ⟨n, hn, by omega⟩
        rw [Option.bind_some]
        by_cases hrM : r < m.M
        · rw [hd.missing r hnr hrM]; rfl
        · rw [List.getElem?_eq_none (by rw [hd.length]; omega)]; rfl
    rw [this]
    exact differentiable_const 0

end Fisher

/-! ## The hypotheses are met: two items on two latent variables, the first item related to the first variable only -/

/-- New units: the first new variable is measured in halves, and the second new variable is the second old one without three times the first. -/
noncomputable def exUnits : Matrix (Fin 2) (Fin 2) ℝ := !![2, 0; 3, 1]

theorem exUnits_respects : RespectsRelations exGPC.rel exUnits := by
  intro j row l k hr hl h0
  match j, hr with
  | 0, hr =>
    obtain rfl : [true, false] = row := by simpa [exGPC] using hr
    fin_cases l <;> fin_cases k <;> simp_all [exUnits]
  | 1, hr =>
    obtain rfl : [true, true] = row := by simpa [exGPC] using hr
    fin_cases k <;> rfl
  | j + 2, hr => simp [exGPC] at hr

theorem exUnits_det : exUnits.det ≠ 0 := by simp [exUnits, Matrix.det_fin_two]

example : ∃ n : GPC, n.WF ∧ n.cats = exGPC.cats ∧
    SameOnNewScale exGPC.cats exUnits ![1, -1] (fun θ => tableProb (exGPC.probs (List.ofFn θ))) (fun θ => tableProb (n.probs (List.ofFn θ))) := by
  obtain ⟨n, h1, -, h2, -, -, h3⟩ := C143_gpc exGPC exGPC_wf exUnits exUnits_respects ![1, -1]
  exact ⟨n, h1, h2, h3⟩

example : ∃ n : TwoPL, n.WF ∧ n.items = 2 ∧ SameOnNewScale (List.replicate exTwoPL.items 2) exUnits ![1, -1]
    (fun θ => tableProb (exTwoPL.probs (List.ofFn θ))) (fun θ => tableProb (n.probs (List.ofFn θ))) := by
  obtain ⟨n, h1, h2, -, -, -, h3⟩ := C143_twoPL exTwoPL exTwoPL_wf exUnits exUnits_respects ![1, -1]
  exact ⟨n, h1, h2, h3⟩

example : ∃ n : GRM, n.WF ∧ n.cats = exGRM.cats ∧
    SameOnNewScale exGRM.cats exUnits ![1, -1] (fun θ => tableProb (exGRM.probs (List.ofFn θ))) (fun θ => tableProb (n.probs (List.ofFn θ))) := by
  obtain ⟨n, h1, -, h2, -, -, -, h3⟩ := C143_grm exGRM exGRM_wf exUnits exUnits_respects ![1, -1]
  exact ⟨n, h1, h2, h3⟩

example : ∃ n : NRM, n.WF ∧ n.cats = exNRM.cats ∧
    SameOnNewScale exNRM.cats exUnits ![1, -1] (fun θ => tableProb (exNRM.probs (List.ofFn θ))) (fun θ => tableProb (n.probs (List.ofFn θ))) := by
  obtain ⟨n, h1, -, h2, -, h3⟩ := C143_nrm exNRM exNRM_wf exUnits exUnits_respects ![1, -1]
  exact ⟨n, h1, h2, h3⟩

/-- Scores, priors, losses and information of the example and of its counterpart on the new scale. -/
example : ∃ n : GPC, n.WF ∧
    (∀ row, ValidResponses exGPC.cats row → ∀ φ : Fin 2 → ℝ,
      IsMode (posteriorWeight (fun θ : Fin 2 → ℝ => tableProb (n.probs (List.ofFn θ))) exGPC.cats.length 1 row) φ
        ↔ IsMode (posteriorWeight (fun θ : Fin 2 → ℝ => tableProb (exGPC.probs (List.ofFn θ))) exGPC.cats.length
          (exUnits * 1 * exUnits.transpose) row) (oldScores exUnits 0 φ)) ∧
    (∀ row, ValidResponses exGPC.cats row → ∀ φ : Fin 2 → ℝ,
      IsMode (observedLikelihood (fun θ : Fin 2 → ℝ => tableProb (n.probs (List.ofFn θ))) exGPC.cats.length row) φ
        ↔ IsMode (observedLikelihood (fun θ : Fin 2 → ℝ => tableProb (exGPC.probs (List.ofFn θ))) exGPC.cats.length row)
          (oldScores exUnits 0 φ)) ∧
    (∀ (N : ℕ) (y : ℕ → ℕ → Cell), (∀ i, i < N → ValidResponses exGPC.cats (y i)) → ∀ φ : ℕ → Fin 2 → ℝ,
      scoreObjective (n.scorer 2) none (rowsOf N exGPC.cats.length y) ((List.range N).map φ)
        = scoreObjective (exGPC.scorer 2) none (rowsOf N exGPC.cats.length y) ((List.range N).map fun i => oldScores exUnits 0 (φ i))) ∧
    ∃ Is, information (fun t : Fin 2 → ℝ => exGPC.probs (List.ofFn t)) exGPC.cats.length exGPC.M [] true none false
        ([fun _ => 1].map (oldScores exUnits 0)) = .ok (.items Is) ∧
      information (fun t : Fin 2 → ℝ => n.probs (List.ofFn t)) exGPC.cats.length exGPC.M [] true none false [fun _ => 1]
        = .ok (.items (Is.map fun r => r.map fun I => exUnits.transpose * I * exUnits)) := by
  obtain ⟨n, h1, hlv, h2, -, -, h3⟩ := C143_gpc exGPC exGPC_wf exUnits exUnits_respects 0
  have hne : exGPC.cats ≠ [] := by simp [exGPC]
  have hsn : IsScorer (n.scorer 2) exGPC.cats (fun θ : Fin 2 → ℝ => tableProb (n.probs (List.ofFn θ))) := by
    rw [← h2]; exact n.isScorer h1 (by rw [h2]; exact hne) 2
  have hM : n.M = exGPC.M := by simp [GPC.M, h2]
  refine ⟨n, h1, fun row hrow φ => C143_map h3 exUnits_det 1 Matrix.PosDef.one row hrow φ, fun row hrow φ => C143_ml h3 exUnits_det row hrow φ,
    fun N y hy φ => C143_ml_objective (exGPC.isScorer exGPC_wf hne 2) hsn h3 N y hy φ, ?_⟩
  obtain ⟨Is, e1, e2, -⟩ := C143_information (fun t : Fin 2 → ℝ => isTable_gpc exGPC exGPC_wf (List.ofFn t))
    (fun t : Fin 2 → ℝ => by rw [← h2, ← hM]; exact isTable_gpc n h1 (List.ofFn t)) h3
    (fun j r => exGPC.differentiable exGPC_wf j r) [fun _ => 1]
  exact ⟨Is, e1, e2⟩

/-- The rule with one point, and square roots. -/
noncomputable def exOneNode (_ : ℕ) : Except PyErr (List ℝ × List ℝ) := .ok ([0], [Real.sqrt Real.pi])

noncomputable def exRoot (V : Matrix (Fin 1) (Fin 1) ℝ) : Except PyErr (Matrix (Fin 1) (Fin 1) ℝ) := .ok (Matrix.of fun _ _ => Real.sqrt (V 0 0))

theorem exOneNode_points (cov : Option CovArg) (V : Matrix (Fin 1) (Fin 1) ℝ) (h : mmlCovariance 1 cov = .ok V) :
    mmlIntegration exOneNode exRoot "gauss_hermite" (some 1) cov = .ok ([fun _ => 0], [0]) := by
  unfold mmlIntegration
  rw [h]
  simp only [mmlPoints, bind_ok, if_true]
  rw [gaussHermite_ok (hg := exOneNode) (ch := exRoot) (n := 1) (cov := V) (x := [0]) (w := [Real.sqrt Real.pi]) 0 rfl rfl]
  have hpi : Real.sqrt Real.pi * Real.pi ^ (-(1 / 2) * (1 : ℝ)) = 1 := by
    rw [Real.sqrt_eq_rpow, ← Real.rpow_add Real.pi_pos]
    norm_num
  have h1 : (gridProduct ([0] : List ℝ) 1).map (fun v => fun i => Real.sqrt 2 * ((Matrix.of fun _ _ : Fin 1 => Real.sqrt (V 0 0)).mulVec v) i
      + (0 : Fin 1 → ℝ) i) = [fun _ => 0] := by
    rw [← cartesianProd_const]
    simp [cartesianProd, Matrix.mulVec, dotProduct]
  have h2 : (((gridProduct [Real.sqrt Real.pi] 1).map fun v : Fin 1 → ℝ => ∏ i, v i).map fun v => v * Real.pi ^ (-(1 / 2 : ℝ) * (1 : ℕ))).map
      Real.log = [0] := by
    rw [← cartesianProd_const]
    simp [cartesianProd]
    rw [show (Real.pi ^ (-2⁻¹ : ℝ)) = Real.pi ^ (-(1 / 2) * (1 : ℝ)) by norm_num, hpi]
    simp
  show Except.ok (_, _) = _
  rw [h1, h2]

/-- Variance four instead of one: the best model has half the slope. -/
example : ∃ q : GPC, BestOf (fun q : GPC => q.WF ∧ q.lv = 1 ∧ q.cats = [2] ∧ q.rel = [[true]])
      (fun q => mmlLoss (q.scorer 1) (rowsOf 2 1 exCodes) [fun _ => 0] [0]) q ∧ slopeOf q.itemParameters 0 0 = 1 / 2 := by
  obtain ⟨q, h1, -, h2, -⟩ := C143_best_gpc [2] (by simp) [[true]] 2 exCodes exCodes_valid (hg := exOneNode) (ch := exRoot)
    (fun v _ => rfl) (n := 1) rfl 2 (by norm_num) (exOneNode_points _ _ rfl) (exOneNode_points _ _ rfl) exEvenGpc exEvenGpc_best
  refine ⟨q, h1, ?_⟩
  rw [h2 0 (by simp)]
  simp [slopeOf, GPC.itemParameters, GPC.weights, GPC.biases, exEvenGpc, viewRows, scatterMask, GPC.M, maxCats, freeMask, freeRow,
    List.range_succ]

end Irt
