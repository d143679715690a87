import Verif.Props.Identify
import Verif.Props.MmlSymmetry
import Verif.Props.ScoreOrder

/-! # Property C108: the special cases among the models -/

namespace Irt
open Spec Filter

/-! ## The 1PL is a 2PL with slopes one -/

/-- C108: every 1PL model is a 2PL model with one latent variable and slopes one. -/
theorem C108_onePL_in_twoPL (m : OnePL) (hwf : m.WF) :
    ∃ n : TwoPL, n.WF ∧ n.lv = 1 ∧ n.items = m.items ∧ n.itemParameters = m.itemParameters.map (fun d => ([1], d)) ∧
      ∀ θ : ℝ, n.probs [θ] = m.probs θ := by
  let n : TwoPL := ⟨m.items, 1, List.replicate m.items [true], List.replicate m.items 1, m.bias⟩
  have hflat : ∀ k : ℕ, (List.replicate k [true]).flatten = List.replicate k true := by
    intro k
    induction k with
    | zero => rfl
    | succ k ih => simp [List.replicate_succ, ih]
  have hcount : ∀ k : ℕ, countTrue (List.replicate k true) = k := by
    intro k
    induction k with
    | zero => rfl
    | succ k ih => simp [countTrue]
  have hw : n.weights = List.replicate m.items [1] := by
    show viewRows m.items 1 (scatterMask 0 (List.replicate m.items [true]).flatten (List.replicate m.items 1)) = _
    rw [hflat, scatterMask_replicate_true _ _ (by simp)]
    generalize m.items = k
    induction k with
    | zero => rfl
    | succ k ih => simp [viewRows, List.replicate_succ, ih]
  have hn : n.WF := ⟨by simp [n], fun r hr => by rw [List.eq_of_mem_replicate hr]; rfl, by
    show (List.replicate m.items (1 : ℝ)).length = countTrue (List.replicate m.items [true]).flatten
    rw [hflat, hcount, List.length_replicate], hwf⟩
  have hip : n.itemParameters = m.itemParameters.map (fun d => ([1], d)) := by
    rw [TwoPL.itemParameters, hw]
    show List.zip _ m.bias = m.bias.map _
    rw [← show m.bias.length = m.items from hwf]
    generalize m.bias = l
    induction l with
    | nil => rfl
    | cons x l ih => simp [List.replicate_succ, ih]
  refine ⟨n, hn, rfl, rfl, hip, fun θ => List.ext_getElem? fun j => ?_⟩
  by_cases hj : j < m.items
  · obtain ⟨d, hd⟩ := getElem?_of_lt m.itemParameters j (by rw [OnePL.itemParameters, hwf]; exact hj)
    rw [C03_onePL_formula m hwf θ j d hd, C03_twoPL_formula n hn [θ] j [1] d (by rw [hip, List.getElem?_map, hd]; rfl)]
    simp [dot]
  · rw [List.getElem?_eq_none, List.getElem?_eq_none]
    · simp [OnePL.probs, probabilitiesFromOutput, length_viewRows]; omega
    · simp [TwoPL.probs, probabilitiesFromOutput, length_viewRows, n]; omega

/-! ## The 2PL is the partial credit and the graded response model of two categories -/

theorem maxCats_two (k : ℕ) (hk : 0 < k) : maxCats (List.replicate k 2) = 2 := by
  have h1 := le_maxCats (List.replicate k 2) 2 (List.mem_replicate.2 ⟨by omega, rfl⟩)
  have h2 : ∀ l : List ℕ, (∀ c ∈ l, c ≤ 2) → maxCats l ≤ 2 := by
    intro l hl
    unfold maxCats
    induction l with
    | nil => simp
    | cons c l ih => simp only [List.foldr_cons]; exact max_le (hl c (by simp)) (ih fun c hc => hl c (by simp [hc]))
  exact le_antisymm (h2 _ fun c hc => (List.eq_of_mem_replicate hc).le) h1

theorem freeMask_two (k : ℕ) (b : List ℝ) (hb : b.length = k) :
    viewRows k 2 (scatterMask 0 (freeMask 2 (List.replicate k 2)) b) = b.map fun x => [0, x] := by
  induction k generalizing b with
  | zero => simp at hb; simp [hb, viewRows]
  | succ k ih =>
    cases b with
    | nil => simp at hb
    | cons x b =>
      have := ih b (by simpa using hb)
      simp only [List.replicate_succ, freeMask, List.flatMap_cons] at this ⊢
      simp [freeRow, List.range_succ, scatterMask, viewRows] at this ⊢
      exact this

/-- C108: every 2PL model is a generalized partial credit model of items with two categories, with the same slopes and the same
parameter tensors. -/
theorem C108_twoPL_in_gpc (m : TwoPL) (hwf : m.WF) :
    ∃ n : GPC, n.WF ∧ n.lv = m.lv ∧ n.cats = List.replicate m.items 2 ∧ n.weight = m.weight ∧ n.bias = m.bias ∧
      ∀ θ : List ℝ, n.probs θ = m.probs θ := by
  let n : GPC := ⟨m.lv, List.replicate m.items 2, m.rel, m.weight, m.bias⟩
  have hn : n.WF := ⟨fun c hc => by rw [List.eq_of_mem_replicate hc]; norm_num, by rw [hwf.relLen]; simp [n], hwf.relRow, hwf.weightLen, by
    rw [show n.bias = m.bias from rfl, hwf.biasLen]; simp [n]; omega⟩
  refine ⟨n, hn, rfl, rfl, rfl, rfl, fun θ => List.ext_getElem? fun j => ?_⟩
  by_cases hj : j < m.items
  · obtain ⟨a, b, hp⟩ := m.exists_params hwf j hj
    have hM : n.M = 2 := maxCats_two m.items (by omega)
    have hip : n.itemParameters[j]? = some (a, [0, b]) := by
      rw [TwoPL.itemParameters, List.getElem?_zip_eq_some] at hp
      rw [GPC.itemParameters, List.getElem?_zip_eq_some]
      constructor
      · have h1 := hp.1
        rw [TwoPL.weights] at h1
        rw [GPC.weights, show n.cats.length = m.items by simp [n]]
        exact h1
      · rw [GPC.biases, hM, show n.cats.length = m.items by simp [n], show n.cats = List.replicate m.items 2 from rfl,
          freeMask_two m.items n.bias hwf.biasLen, List.getElem?_map, show n.bias[j]? = some b from hp.2]
        rfl
    rw [C03_twoPL_formula m hwf θ j a b hp, (C05_gpc_formula_partial n hn θ j 2 a [0, b] (fun k => ([0, b] : List ℝ).getD k 0)
      (by simp [n, hj]) hip (by intro k hk; rw [hM] at hk; interval_cases k <;> rfl)).2, hM]
    simp only [multinomialLogit, List.range_succ, List.range_zero, List.nil_append, List.cons_append, List.map_cons, List.map_nil,
      Finset.sum_range_succ, Finset.sum_range_zero]
    simp [logistic]
    have := Real.exp_pos (dot θ a + b)
    field_simp
    ring
  · rw [List.getElem?_eq_none, List.getElem?_eq_none]
    · simp [TwoPL.probs, probabilitiesFromOutput, length_viewRows]; omega
    · simp [GPC.probs, probabilitiesFromOutput, length_viewRows, n]; omega

/-- C108: every 2PL model is a graded response model of items with two categories. -/
theorem C108_twoPL_in_grm (m : TwoPL) (hwf : m.WF) :
    ∃ n : GRM, n.WF ∧ n.lv = m.lv ∧ n.cats = List.replicate m.items 2 ∧ n.weight = m.weight ∧ n.bias = m.bias ∧
      ∀ θ : List ℝ, n.probs θ = m.probs θ := by
  let n : GRM := ⟨m.lv, List.replicate m.items 2, m.rel, m.weight, m.bias⟩
  have hcats : ∀ c ∈ n.cats, 0 < c := fun c hc => by rw [List.eq_of_mem_replicate hc]; norm_num
  have hn : n.WF := ⟨hcats, by rw [hwf.relLen]; simp [n], hwf.relRow, hwf.weightLen, by
    rw [count_freeMask n.M n.cats hcats fun c hc => le_maxCats _ _ hc, show n.bias = m.bias from rfl, hwf.biasLen]; simp [n]; omega⟩
  refine ⟨n, hn, rfl, rfl, rfl, rfl, fun θ => List.ext_getElem? fun j => ?_⟩
  by_cases hj : j < m.items
  · obtain ⟨a, b, hp⟩ := m.exists_params hwf j hj
    have hM : n.M = 2 := maxCats_two m.items (by omega)
    have hip : n.itemParameters[j]? = some (a, [b]) := by
      rw [TwoPL.itemParameters, List.getElem?_zip_eq_some] at hp
      rw [GRM.itemParameters, List.getElem?_zip_eq_some]
      constructor
      · have h1 := hp.1
        rw [TwoPL.weights] at h1
        rw [GRM.weights, show n.cats.length = m.items by simp [n]]
        exact h1
      · rw [GRM.biases, hM, show n.cats.length = m.items by simp [n], show n.cats = List.replicate m.items 2 from rfl,
          freeMask_two m.items n.bias hwf.biasLen, List.getElem?_map, List.getElem?_map, show n.bias[j]? = some b from hp.2]
        rfl
    rw [C03_twoPL_formula m hwf θ j a b hp, n.probs_row θ j 2 a [b] (fun _ => b)
      (by simp [n, hj]) hip (by intro k hk; rw [hM] at hk; obtain rfl : k = 0 := by omega
                                rfl), hM]
    simp [List.range_succ, logistic_eq_sigmoid]
  · rw [List.getElem?_eq_none, List.getElem?_eq_none]
    · simp [TwoPL.probs, probabilitiesFromOutput, length_viewRows]; omega
    · simp [GRM.probs, length_viewRows, n]; omega

/-! ## The partial credit model is a nominal response model -/

theorem scatter_gather (m : List Bool) (xs : List ℝ) (hlen : xs.length = m.length) (i : ℕ) (h : m[i]? = some true) :
    (scatterMask 0 m (gatherMask m xs))[i]? = xs[i]? := by
  induction m generalizing xs i with
  | nil => simp at h
  | cons b m ih =>
    cases xs with
    | nil => simp at hlen
    | cons x xs =>
      cases i with
      | zero => simp at h; simp [h, gatherMask, scatterMask]
      | succ i =>
        have := ih xs (by simpa using hlen) i (by simpa using h)
        cases b <;> simp [gatherMask, scatterMask, this]

theorem multinomialLogit_shift (c M : ℕ) (l l' : ℕ → ℝ) (K : ℝ) (h : ∀ k, k < c → l' k = l k + K) :
    multinomialLogit c M l' = multinomialLogit c M l := by
  unfold multinomialLogit
  have hs : ∑ x ∈ Finset.range c, Real.exp (l' x) = (∑ x ∈ Finset.range c, Real.exp (l x)) * Real.exp K := by
    rw [Finset.sum_mul]
    exact Finset.sum_congr rfl fun x hx => by rw [h x (Finset.mem_range.1 hx), Real.exp_add]
  refine List.map_congr_left fun k _ => ?_
  split
  · rename_i hk
    rw [hs, h k hk, Real.exp_add, mul_div_mul_right _ _ (Real.exp_pos K).ne']
  · rfl

theorem gauss_sum (c : ℕ) : ∑ k ∈ Finset.range c, ((k + 1 : ℕ) : ℝ) = (c : ℝ) * (c + 1) / 2 := by
  induction c with
  | zero => simp
  | succ c ih => rw [Finset.sum_range_succ, ih]; push_cast; ring

/-- C108: every generalized partial credit model is a nominal response model with the same relationships between items and latent
variables. -/
theorem C108_gpc_in_nrm (m : GPC) (hwf : m.WF) :
    ∃ n : NRM, n.WF ∧ n.lv = m.lv ∧ n.cats = m.cats ∧ n.rel = m.rel ∧ ∀ θ : List ℝ, θ.length = m.lv → n.probs θ = m.probs θ := by
  let par : ℕ → List ℝ × List ℝ := fun j => m.itemParameters.getD j ([], [])
  let cat : ℕ → ℕ := fun j => m.cats.getD j 0
  let A : ℕ → ℕ → ℕ → ℝ := fun j k i => ((k : ℝ) - ((cat j : ℝ) - 1) / 2) * (par j).1.getD i 0
  let D : ℕ → ℝ := fun j => (∑ k ∈ Finset.range (cat j), (par j).2.getD k 0) / cat j
  let ws : List ℝ := (List.range (m.cats.length * m.M)).flatMap fun q => (List.range m.lv).map fun i => A (q / m.M) (q % m.M) i
  let bs : List ℝ := (List.range (m.cats.length * m.M)).map fun q => (par (q / m.M)).2.getD (q % m.M) 0 - D (q / m.M)
  let n₀ : NRM := ⟨m.lv, m.cats, m.rel, [], []⟩
  let n : NRM := ⟨m.lv, m.cats, m.rel, gatherMask n₀.freeWeights.flatten ws, gatherMask (freeMask m.M m.cats) bs⟩
  have hfree : n.freeWeights = n₀.freeWeights := rfl
  have hMn : n.M = m.M := rfl
  have hlenFree : n₀.freeWeights.length = m.cats.length * m.M ∧ ∀ x ∈ n₀.freeWeights, x.length = m.lv :=
    NRM.freeWeights_len ⟨m.lv, m.cats, m.rel, List.replicate (countTrue n₀.freeWeights.flatten) 0,
      List.replicate (m.cats.sum - m.cats.length) 0⟩ ⟨hwf.catsPos, hwf.relLen, hwf.relRow, by simp; rfl, by simp⟩
  have hlw : ws.length = n₀.freeWeights.flatten.length := by
    rw [length_flatten_const m.lv _ hlenFree.2, hlenFree.1, length_flatMap_const m.lv _ _ (by simp), List.length_range]
  have hlb : bs.length = (freeMask m.M m.cats).length := by rw [length_freeMask]; simp [bs]
  have hn : n.WF := ⟨hwf.catsPos, hwf.relLen, hwf.relRow, by
    show (gatherMask n₀.freeWeights.flatten ws).length = _; rw [length_gatherMask _ _ hlw]; rfl, by
    show (gatherMask (freeMask m.M m.cats) bs).length = _
    rw [length_gatherMask _ _ hlb, count_freeMask m.M m.cats hwf.catsPos fun c hc => le_maxCats _ _ hc]⟩
  refine ⟨n, hn, rfl, rfl, rfl, fun θ hθ => List.ext_getElem? fun j => ?_⟩
  by_cases hj : j < m.cats.length
  · obtain ⟨c, hc⟩ := getElem?_of_lt m.cats j hj
    obtain ⟨a, dl, hp, hdl⟩ := m.exists_params j hj
    obtain ⟨r, hr⟩ := getElem?_of_lt m.rel j (by rw [hwf.relLen]; exact hj)
    have hcpos := hwf.catsPos c (List.mem_of_getElem? hc)
    have hcM : c ≤ m.M := le_maxCats _ _ (List.mem_of_getElem? hc)
    have hpar : par j = (a, dl) := by simp [par, List.getD_eq_getElem?_getD, hp]
    have hcat : cat j = c := by simp [cat, List.getD_eq_getElem?_getD, hc]
    have hla := m.slopes_length hwf j a dl hp
    obtain ⟨wl, dn, hpn, hwl, hdn⟩ := n.exists_params j hj
    obtain ⟨w, hw⟩ := exists_entry_fun wl
    obtain ⟨e, he⟩ := exists_entry_fun dn
    have hw' : ∀ k, k < n.M → wl[k]? = some (w k) := fun k hk => hw k (by omega)
    have he' : ∀ k, k < n.M → dn[k]? = some (e k) := fun k hk => he k (by omega)
    have hpn' := hpn
    rw [NRM.itemParameters, List.getElem?_zip_eq_some] at hpn'
    have hdiv : ∀ k, k < m.M → (j * m.M + k) / m.M = j ∧ (j * m.M + k) % m.M = k := by
      intro k hk
      constructor
      · rw [mul_comm, Nat.mul_add_div (by omega), Nat.div_eq_of_lt hk, add_zero]
      · rw [mul_comm, Nat.mul_add_mod, Nat.mod_eq_of_lt hk]
    have hlt : ∀ k, k < m.M → j * m.M + k < m.cats.length * m.M := by
      intro k hk
      calc j * m.M + k < j * m.M + m.M := by omega
        _ = (j + 1) * m.M := by ring
        _ ≤ _ := Nat.mul_le_mul_right _ (by omega)
    -- intercepts of the categories after the first
    have hee : ∀ k, 0 < k → k < c → e k = dl.getD k 0 - D j := by
      intro k hk hkc
      obtain ⟨raw, hraw, hrl, hdneq⟩ := n.biases_row j dn hpn'.2 (by omega)
      have h1 := he' k (by omega)
      rw [hdneq, show k = (k - 1) + 1 by omega, List.getElem?_cons_succ, List.getElem?_tail, ← show k = (k - 1) + 1 by omega,
        ← viewRows_row_entry _ _ _ n.length_flatBias j raw hraw k (by omega)] at h1
      rw [show n.bias = gatherMask (freeMask m.M m.cats) bs from rfl, hMn, show n.cats = m.cats from rfl,
        scatter_gather _ _ hlb _ (by rw [freeMask_getElem? m.M m.cats j k c hc (by omega)]; simp; omega)] at h1
      rw [List.getElem?_map, List.getElem?_range (hlt k (by omega)), Option.map_some, (hdiv k (by omega)).1, (hdiv k (by omega)).2,
        hpar, Option.some_inj] at h1
      exact h1.symm
    -- slopes of the categories after the first
    have hww : ∀ k, 0 < k → k < c → dot θ (w k) = ((k : ℝ) - ((c : ℝ) - 1) / 2) * dot θ a := by
      intro k hk hkc
      obtain ⟨raw, hraw, hrl, hwleq⟩ := n.weights_row j wl hpn'.1 (by omega)
      have h1 := hw' k (by omega)
      rw [hwleq, show k = (k - 1) + 1 by omega, List.getElem?_cons_succ, List.getElem?_tail, ← show k = (k - 1) + 1 by omega] at h1
      have e1 := viewRows_row_entry _ _ _ n.length_rawRows j raw hraw k (by omega)
      rw [h1] at e1
      have hlen : (w k).length = m.lv := n.rawRows_row_length hn _ (List.mem_of_getElem? e1)
      have hent : w k = a.map fun x => ((k : ℝ) - ((c : ℝ) - 1) / 2) * x := by
        refine List.ext_getElem? fun i => ?_
        by_cases hi : i < m.lv
        · obtain ⟨s, hs⟩ := getElem?_of_lt a i (by omega)
          rw [List.getElem?_map, hs, Option.map_some]
          have e2 := viewRows_row_entry _ _ _ (n.length_flatWeights hn) (j * n.M + k) (w k) e1 i hi
          rw [← e2]
          have hmask : n₀.freeWeights.flatten[(j * m.M + k) * m.lv + i]? = r[i]? := by
            rw [flatten_getElem? m.lv _ hlenFree.2 _ i hi]
            have := n.freeWeights_getElem? hn j k c r hc hr (by omega)
            rw [hfree, hMn] at this
            rw [this, Option.bind_some, if_pos (by simp; omega)]
          have hwsi : ws[(j * m.M + k) * m.lv + i]? = some (((k : ℝ) - ((c : ℝ) - 1) / 2) * s) := by
            rw [flatMap_getElem? m.lv _ _ (by simp) _ i hi, List.getElem?_range (hlt k (by omega)), Option.bind_some,
              List.getElem?_map, List.getElem?_range hi, Option.map_some, (hdiv k (by omega)).1, (hdiv k (by omega)).2]
            simp only [A, hcat, hpar, List.getD_eq_getElem?_getD, hs, Option.getD_some]
          have hrl' : r.length = m.lv := hwf.relRow r (List.mem_of_getElem? hr)
          obtain ⟨b, hb⟩ := getElem?_of_lt r i (by omega)
          cases b
          · obtain ⟨a', d', hp', ha'⟩ := (C16_gpc_unrelated m hwf θ 0 j i r hr hb).1
            rw [hp] at hp'
            obtain ⟨rfl, rfl⟩ : a = a' ∧ dl = d' := by simpa using hp'
            rw [hs] at ha'
            obtain rfl : s = 0 := by simpa using ha'
            rw [mul_zero]
            exact scatterMask_false _ _ _ _ (hmask.trans hb)
          · exact (scatter_gather _ _ hlw _ (hmask.trans hb)).trans hwsi
        · rw [List.getElem?_eq_none (by omega), List.getElem?_eq_none (by simp; omega)]
      rw [hent, dot_comm', dot_smul, dot_comm']
    have hsum := n.sum_logits hn θ hθ j c wl dn w e hc hpn hw' he'
    rw [n.probs_row θ j c wl dn w e hc hpn hw' he',
      (C05_gpc_formula_partial m hwf θ j c a dl (fun k => dl.getD k 0) hc hp (fun k hk => by
        obtain ⟨x, hx⟩ := getElem?_of_lt dl k (by omega)
        simp [List.getD_eq_getElem?_getD, hx])).2, hMn]
    congr 1
    refine multinomialLogit_shift c m.M _ _ (-(((c : ℝ) - 1) / 2) * dot θ a - D j) fun k hk => ?_
    have hpos : ∀ k, 0 < k → k < c →
        dot θ (w k) + e k = k * dot θ a + dl.getD k 0 + (-(((c : ℝ) - 1) / 2) * dot θ a - D j) := by
      intro k h0 hk
      rw [hww k h0 hk, hee k h0 hk]; ring
    by_cases h0 : k = 0
    · subst h0
      obtain ⟨c, rfl⟩ : ∃ c', c = c' + 1 := ⟨c - 1, by omega⟩
      rw [Finset.sum_range_succ', Finset.sum_congr rfl fun k hk => hpos (k + 1) (by omega) (by
        have := Finset.mem_range.1 hk; omega)] at hsum
      have hD : D j * ((c + 1 : ℕ) : ℝ) = ∑ k ∈ Finset.range (c + 1), dl.getD k 0 := by
        simp only [D, hcat, hpar]
        rw [div_mul_cancel₀]
        positivity
      rw [Finset.sum_range_succ'] at hD
      rw [Finset.sum_add_distrib, Finset.sum_add_distrib, ← Finset.sum_mul, Finset.sum_const, Finset.card_range, nsmul_eq_mul] at hsum
      rw [gauss_sum] at hsum
      push_cast at hsum hD ⊢
      simp only [Nat.cast_zero, zero_mul, zero_add]
      nlinarith [hsum, hD]
    · exact hpos k (by omega) hk
  · rw [List.getElem?_eq_none, List.getElem?_eq_none]
    · simp [GPC.probs, probabilitiesFromOutput, length_viewRows]; omega
    · simp [NRM.probs, probabilitiesFromOutput, length_viewRows, n]; omega

/-! ## The 2PL and the 3PL -/

/-- The claim that the 3PL contains the 2PL. -/
def TwoPLInThreePL : Prop :=
  ∀ m : TwoPL, m.WF → ∃ n : ThreePL, n.WF ∧ n.lv = m.lv ∧ n.items = m.items ∧ ∀ θ : List ℝ, θ.length = m.lv → n.probs θ = m.probs θ

/-- One item with slope one. -/
noncomputable def exSteep : TwoPL := { items := 1, lv := 1, rel := [[true]], weight := [1], bias := [0] }

theorem exSteep_wf : exSteep.WF := ⟨by simp [exSteep], by simp [exSteep], by simp [exSteep, countTrue], by simp [exSteep]⟩

/-- C108 is false for the 3PL: the guessing parameter `sigmoid(...)` is never zero, so no 3PL model is the 2PL model of an item whose
success probability falls to zero. -/
theorem C108_threePL_false : ¬ TwoPLInThreePL := by
  intro h
  obtain ⟨n, hn, hlv, hit, hp⟩ := h exSteep exSteep_wf
  obtain ⟨a, b, c, hpar⟩ := n.exists_params hn 0 (by rw [hit]; simp [exSteep])
  have hc := C03_threePL_bounds n [] 0 a b c hpar
  obtain ⟨x, hx⟩ := (logistic_atBot.eventually (gt_mem_nhds hc.1)).exists
  have h1 := congrArg (fun l : List (List ℝ) => l[0]?) (hp [x] (by simp [exSteep]))
  rw [C03_threePL_formula n [x] 0 a b c hpar, C03_twoPL_formula exSteep exSteep_wf [x] 0 [1] 0
    (by simp [TwoPL.itemParameters, TwoPL.weights, exSteep, viewRows, scatterMask])] at h1
  simp only [Option.some.injEq, List.cons.injEq, and_true] at h1
  have h2 := h1.2
  have hd : dot [x] [1] + 0 = x := by simp [dot]
  rw [hd] at h2
  have := mul_pos (sub_pos.2 hc.2.1) (logistic_pos (dot [x] a + b))
  linarith

/-- C108: there are 3PL models with the same slopes and intercepts as close as one likes to a 2PL model. -/
theorem C108_threePL_partial (m : TwoPL) (hwf : m.WF) (ε : ℝ) (hε : 0 < ε) :
    ∃ n : ThreePL, n.WF ∧ n.lv = m.lv ∧ n.items = m.items ∧ n.weights = m.weights ∧ n.bias = m.bias ∧
      ∀ (θ : List ℝ) (j r : ℕ), |tableProb (n.probs θ) j r - tableProb (m.probs θ) j r| ≤ ε := by
  obtain ⟨g, hg⟩ := (logistic_atBot.eventually (gt_mem_nhds hε)).exists
  let n : ThreePL := ⟨m.items, m.lv, m.rel, m.weight, m.bias, List.replicate m.items g⟩
  have hn : n.WF := ⟨hwf.relLen, hwf.relRow, hwf.weightLen, hwf.biasLen, by simp [n]⟩
  refine ⟨n, hn, rfl, rfl, rfl, rfl, fun θ j r => ?_⟩
  by_cases hj : j < m.items
  · obtain ⟨a, b, hp⟩ := m.exists_params hwf j hj
    have hp' : n.itemParameters[j]? = some (a, b, sigmoid g) := by
      rw [TwoPL.itemParameters, List.getElem?_zip_eq_some] at hp
      rw [ThreePL.itemParameters, List.getElem?_zip_eq_some, List.getElem?_zip_eq_some]
      exact ⟨hp.1, hp.2, by simp [n, hj]⟩
    rw [tableProb_row _ _ _ _ (C03_twoPL_formula m hwf θ j a b hp), tableProb_row _ _ _ _ (C03_threePL_formula n θ j a b _ hp'),
      ← logistic_eq_sigmoid]
    have h0 := logistic_pos g
    have h1 := logistic_pos (dot θ a + b)
    have h2 := logistic_lt_one (dot θ a + b)
    have h3 : 0 ≤ logistic g * (1 - logistic (dot θ a + b)) := mul_nonneg h0.le (by linarith)
    have h4 : logistic g * (1 - logistic (dot θ a + b)) ≤ logistic g * 1 := mul_le_mul_of_nonneg_left (by linarith) h0.le
    match r with
    | 0 => rw [List.getD_cons_zero, List.getD_cons_zero, abs_le]; constructor <;> nlinarith
    | 1 => rw [List.getD_cons_succ, List.getD_cons_zero, List.getD_cons_succ, List.getD_cons_zero, abs_le]; constructor <;> nlinarith
    | r + 2 => simpa using hε.le
  · have e1 : (n.probs θ)[j]? = none := List.getElem?_eq_none (by
      simp [ThreePL.probs, ThreePL.forwardRow, ThreePL.weights, length_viewRows, n]; omega)
    have e2 : (m.probs θ)[j]? = none := List.getElem?_eq_none (by
      simp [TwoPL.probs, probabilitiesFromOutput, length_viewRows]; omega)
    simp [tableProb, e1, e2, hε.le]

/-! ## The likelihoods that MML compares -/

/-- Two models with the same probabilities have the same marginal loss. -/
theorem mmlLoss_same_probs {d : ℕ} {m n : Scorer d} {cats : List ℕ} {P : (Fin d → ℝ) → ℕ → ℕ → ℝ} (hm : IsScorer m cats P)
    (hn : IsScorer n cats P) (hpos : PositiveProbs P cats) (N : ℕ) (y : ℕ → ℕ → Cell) (hy : ∀ i, i < N → ValidResponses cats (y i))
    (pts : Thetas d) (lw : List ℝ) (hlen : lw.length = pts.length) (hne : pts ≠ []) :
    mmlLoss n (rowsOf N cats.length y) pts lw = mmlLoss m (rowsOf N cats.length y) pts lw := by
  rw [mmlLoss_weighted hm hpos N y hy pts lw hlen hne, mmlLoss_weighted hn hpos N y hy pts lw hlen hne]

/-- C108: for every 1PL model there is a 2PL model with the same marginal loss, on all data sets, points and weights, so that the
smallest loss of the 2PL is at most that of the 1PL. -/
theorem C108_mml_onePL (m : OnePL) (hwf : m.WF) (hne : 0 < m.items) :
    ∃ n : TwoPL, n.WF ∧ n.lv = 1 ∧ n.items = m.items ∧ ∀ (N : ℕ) (y : ℕ → ℕ → Cell),
      (∀ i, i < N → ValidResponses (List.replicate m.items 2) (y i)) → ∀ (pts : Thetas 1) (lw : List ℝ), lw.length = pts.length →
      pts ≠ [] → mmlLoss (n.scorer 1) (rowsOf N m.items y) pts lw = mmlLoss m.scorer (rowsOf N m.items y) pts lw := by
  obtain ⟨n, hn, hlv, hit, -, hp⟩ := C108_onePL_in_twoPL m hwf
  refine ⟨n, hn, hlv, hit, fun N y hy pts lw hlen hpts => ?_⟩
  have h1 := m.isScorer hwf hne
  have h2 := n.isScorer hn (by omega) 1
  have hP : (fun θ : Fin 1 → ℝ => tableProb (n.probs (List.ofFn θ))) = fun θ => tableProb (m.probs (θ 0)) := by
    funext θ
    rw [← hp]
    simp
  rw [hP, hit] at h2
  have hpos := n.positive hn 1
  rw [hP, hit] at hpos
  have := mmlLoss_same_probs h1 h2 hpos N y hy pts lw hlen hpts
  rwa [List.length_replicate] at this

/-- C108: for every 2PL model there are a partial credit and a graded response model with the same marginal loss. -/
theorem C108_mml_twoPL (m : TwoPL) (hwf : m.WF) (hne : 0 < m.items) (d : ℕ) :
    ∃ (n : GPC) (g : GRM), n.WF ∧ g.WF ∧ n.lv = m.lv ∧ g.lv = m.lv ∧ n.cats = List.replicate m.items 2 ∧
      g.cats = List.replicate m.items 2 ∧ ∀ (N : ℕ) (y : ℕ → ℕ → Cell),
      (∀ i, i < N → ValidResponses (List.replicate m.items 2) (y i)) → ∀ (pts : Thetas d) (lw : List ℝ), lw.length = pts.length →
      pts ≠ [] → mmlLoss (n.scorer d) (rowsOf N m.items y) pts lw = mmlLoss (m.scorer d) (rowsOf N m.items y) pts lw ∧
        mmlLoss (g.scorer d) (rowsOf N m.items y) pts lw = mmlLoss (m.scorer d) (rowsOf N m.items y) pts lw := by
  obtain ⟨n, hn, hlv, hcats, -, -, hp⟩ := C108_twoPL_in_gpc m hwf
  obtain ⟨g, hg, hlv', hcats', -, -, hp'⟩ := C108_twoPL_in_grm m hwf
  refine ⟨n, g, hn, hg, hlv, hlv', hcats, hcats', fun N y hy pts lw hlen hpts => ?_⟩
  have hn0 : List.replicate m.items 2 ≠ [] := by simp; omega
  have h1 := m.isScorer hwf hne d
  have h2 := n.isScorer hn (by rw [hcats]; exact hn0) d
  have hord : g.Ordered := by
    intro j c w dl hc _ k hk
    rw [hcats'] at hc
    have := (replicate_getElem? _ _ _ _ hc).2
    omega
  have h3 := g.isScorer hord (by rw [hcats']; exact hn0) d
  simp only [hp, hcats] at h2
  simp only [hp', hcats'] at h3
  have hpos := m.positive hwf d
  have e1 := mmlLoss_same_probs h1 h2 hpos N y hy pts lw hlen hpts
  have e2 := mmlLoss_same_probs h1 h3 hpos N y hy pts lw hlen hpts
  rw [List.length_replicate] at e1 e2
  exact ⟨e1, e2⟩

/-- C108: for every partial credit model there is a nominal response model with the same marginal loss. -/
theorem C108_mml_gpc (m : GPC) (hwf : m.WF) (hne : m.cats ≠ []) :
    ∃ n : NRM, n.WF ∧ n.lv = m.lv ∧ n.cats = m.cats ∧ n.rel = m.rel ∧ ∀ (N : ℕ) (y : ℕ → ℕ → Cell),
      (∀ i, i < N → ValidResponses m.cats (y i)) → ∀ (pts : Thetas m.lv) (lw : List ℝ), lw.length = pts.length →
      pts ≠ [] → mmlLoss (n.scorer m.lv) (rowsOf N m.cats.length y) pts lw
        = mmlLoss (m.scorer m.lv) (rowsOf N m.cats.length y) pts lw := by
  obtain ⟨n, hn, hlv, hcats, hrel, hp⟩ := C108_gpc_in_nrm m hwf
  refine ⟨n, hn, hlv, hcats, hrel, fun N y hy pts lw hlen hpts => ?_⟩
  have h1 := m.isScorer hwf hne m.lv
  have h2 := n.isScorer hn (by rw [hcats]; exact hne) m.lv
  have hP : (fun θ : Fin m.lv → ℝ => tableProb (n.probs (List.ofFn θ))) = fun θ => tableProb (m.probs (List.ofFn θ)) := by
    funext θ
    rw [hp _ (by simp)]
  rw [hP, hcats] at h2
  exact mmlLoss_same_probs h1 h2 (m.positive hwf m.lv) N y hy pts lw hlen hpts

/-! ## Non-vacuity -/

example : ∃ n : TwoPL, n.lv = 1 ∧ n.itemParameters = exOnePL.itemParameters.map (fun d => ([1], d)) ∧
    ∀ θ, n.probs [θ] = exOnePL.probs θ := by
  obtain ⟨n, -, h1, -, h2, h3⟩ := C108_onePL_in_twoPL exOnePL exOnePL_wf
  exact ⟨n, h1, h2, h3⟩

example : ∃ (n : GPC) (g : GRM), ∀ θ, n.probs θ = exTwoPL.probs θ ∧ g.probs θ = exTwoPL.probs θ := by
  obtain ⟨n, -, -, -, -, -, h⟩ := C108_twoPL_in_gpc exTwoPL exTwoPL_wf
  obtain ⟨g, -, -, -, -, -, h'⟩ := C108_twoPL_in_grm exTwoPL exTwoPL_wf
  exact ⟨n, g, fun θ => ⟨h θ, h' θ⟩⟩

/-- Three categories and a restricted relationship. -/
example : ∃ n : NRM, n.cats = [3, 2] ∧ n.rel = [[true, false], [true, true]] ∧ ∀ x y : ℝ, n.probs [x, y] = exGPC.probs [x, y] := by
  obtain ⟨n, -, -, h1, h2, h3⟩ := C108_gpc_in_nrm exGPC exGPC_wf
  exact ⟨n, h1, h2, fun x y => h3 _ rfl⟩

example : ∃ n : ThreePL, ∀ θ j r, |tableProb (n.probs θ) j r - tableProb (exTwoPL.probs θ) j r| ≤ 1 / 1000 := by
  obtain ⟨n, -, -, -, -, -, h⟩ := C108_threePL_partial exTwoPL exTwoPL_wf (1 / 1000) (by norm_num)
  exact ⟨n, h⟩

/-- Data with a missing answer, two integration points. -/
example : ∃ n : NRM, mmlLoss (n.scorer 2) (rowsOf 2 2 fun i j => if i = 0 ∧ j = 0 then none else some 1) [fun _ => 0, fun _ => 1] [-1, -2]
    = mmlLoss (exGPC.scorer 2) (rowsOf 2 2 fun i j => if i = 0 ∧ j = 0 then none else some 1) [fun _ => 0, fun _ => 1] [-1, -2] := by
  obtain ⟨n, -, -, -, -, h⟩ := C108_mml_gpc exGPC exGPC_wf (by simp [exGPC])
  refine ⟨n, h 2 _ ?_ [fun _ => 0, fun _ => 1] [-1, -2] rfl (by simp)⟩
  intro i _ j c hc
  have hc2 : 2 ≤ c := by
    have hj := lt_of_getElem?_some hc
    simp only [exGPC, List.length_cons, List.length_nil] at hj hc
    interval_cases j <;> simp at hc <;> omega
  intro hm
  refine ⟨1, ?_, by omega⟩
  by_cases h0 : i = 0 ∧ j = 0
  · simp [h0, cellMissing] at hm
  · simp [h0]

end Irt
