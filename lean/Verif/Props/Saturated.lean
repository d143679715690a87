import Verif.Spec.Saturated
import Verif.Props.Booklets

/-! # C161: no model fits better than the observed relative frequencies -/

namespace Irt
open Spec Finset

theorem log_shares {N : ℕ} {M q : Fin N → ℝ} (hM : ∀ i, 0 < M i) (hq : ∀ i, 0 < q i) (h : ∑ i, M i / q i ≤ N) :
    ∑ i, Real.log (M i) ≤ ∑ i, Real.log (q i) ∧ (∑ i, Real.log (M i) = ∑ i, Real.log (q i) → ∀ i, M i = q i) := by
  have ht : ∀ i, Real.log (M i) ≤ Real.log (q i) + (M i / q i - 1) := fun i => by
    have := Real.log_le_sub_one_of_pos (div_pos (hM i) (hq i))
    rw [Real.log_div (hM i).ne' (hq i).ne'] at this
    linarith
  have hs : ∑ i, (Real.log (q i) + (M i / q i - 1)) ≤ ∑ i, Real.log (q i) := by
    rw [sum_add_distrib, sum_sub_distrib]
    simp only [sum_const, card_univ, Fintype.card_fin, nsmul_eq_mul, mul_one]
    linarith
  refine ⟨(sum_le_sum fun i _ => ht i).trans hs, fun heq i => ?_⟩
  by_contra hne
  have hlt : Real.log (M i) < Real.log (q i) + (M i / q i - 1) := by
    have := Real.log_lt_sub_one_of_pos (div_pos (hM i) (hq i)) fun e => hne (by rwa [div_eq_one_iff_eq (hq i).ne'] at e)
    rw [Real.log_div (hM i).ne' (hq i).ne'] at this
    linarith
  have := sum_lt_sum (fun i _ => ht i) ⟨i, mem_univ i, hlt⟩
  linarith

section Bound

variable {d : ℕ} {m : Scorer d} {cats : List ℕ} {P : (Fin d → ℝ) → ℕ → ℕ → ℝ} (hm : IsScorer m cats P) (hpos : PositiveProbs P cats)
  (hP : ProperProbs P cats) (pts : Thetas d) (lw : List ℝ) (hlen : lw.length = pts.length) (hne : pts ≠ []) (hw : (lw.map Real.exp).sum = 1)

include hP hlen hw in
/-- The marginal likelihoods of all answers to the same items add up to one. -/
theorem sameItems_total (T : Finset (Fin cats.length)) :
    ∑ z ∈ seenAnswers cats with ({j | (z j).isSome} : Finset (Fin cats.length)) = T,
      weighted pts (lw.map Real.exp) (observedLikelihood P cats.length (seenRow z)) = 1 := by
  classical
  have hπ0 : ∀ S, 0 ≤ (if S = T then (1 : ℝ) else 0) := fun S => by split_ifs <;> norm_num
  have hask := byBooklet_asking cats hπ0 (by simp)
  have h := seenFrom_sum hask (p := fun x => weighted pts (lw.map Real.exp) fun θ => answerProb P θ x) (by
    rw [← weighted_sum]
    simp only [answerProb_sum hP]
    rw [weighted_const_one pts _ (by simpa using hlen), hw])
  rw [← h]
  have hset : possiblySeen cats (byBooklet fun S => if S = T then (1 : ℝ) else 0)
      = {z ∈ seenAnswers cats | ({j | (z j).isSome} : Finset (Fin cats.length)) = T} := by
    ext z
    simp only [possiblySeen, mem_filter, byBooklet]
    constructor
    · intro hz
      obtain ⟨h1, h2⟩ := mem_filter.1 hz
      refine ⟨h1, ?_⟩
      by_contra hn
      rw [if_neg hn] at h2
      exact lt_irrefl _ h2
    · rintro ⟨h1, h2⟩
      exact mem_filter.2 ⟨h1, by rw [if_pos h2]; exact one_pos⟩
  rw [hset]
  refine sum_congr rfl fun z hz => ?_
  obtain ⟨hz, hT⟩ := mem_filter.1 hz
  rw [seenFrom_eq _ hz, byBooklet, if_pos hT, one_mul, ← weighted_sum]
  congr 1
  funext θ
  exact observedLikelihood_completions hP _ θ

theorem sameAnswers_pos {N K : ℕ} (s : Fin N → Fin K → Option ℕ) (i : Fin N) : 0 < sameAnswers s i :=
  card_pos.2 ⟨i, by simp⟩

theorem sameItems_pos {N K : ℕ} (s : Fin N → Fin K → Option ℕ) (i : Fin N) : 0 < sameItems s i :=
  card_pos.2 ⟨i, by simp⟩

include hpos hP hlen hne hw in
theorem shares_total {N : ℕ} (s : Fin N → Fin cats.length → Option ℕ) (hs : ∀ i, s i ∈ seenAnswers cats) :
    ∑ i, weighted pts (lw.map Real.exp) (observedLikelihood P cats.length (seenRow (s i))) / ((sameAnswers s i : ℝ) / sameItems s i) ≤ N := by
  classical
  let M : (Fin cats.length → Option ℕ) → ℝ := fun z => weighted pts (lw.map Real.exp) (observedLikelihood P cats.length (seenRow z))
  let a : (Fin cats.length → Option ℕ) → Finset (Fin cats.length) := fun z => {j | (z j).isSome}
  have ha : ∀ z z', (∀ j, (z j).isSome = (z' j).isSome) ↔ a z = a z' := by
    intro z z'
    simp only [a, Finset.ext_iff, mem_filter, mem_univ, true_and]
    exact forall_congr' fun j => Bool.eq_iff_iff
  have hM : ∀ z ∈ seenAnswers cats, 0 < M z := fun z hz => weighted_seen_pos hpos pts lw hlen hne hz
  have hitems : ∀ i, sameItems s i = #{i' | a (s i') = a (s i)} := fun i => by simp only [sameItems, ha]
  have e1 : ∑ i, M (s i) / ((sameAnswers s i : ℝ) / sameItems s i)
      = ∑ i, (fun z => M z / ((#{i' | s i' = z} : ℝ) / #{i' | a (s i') = a z})) (s i) :=
    sum_congr rfl fun i _ => by rw [hitems i]; rfl
  have e2 : ∀ z ∈ univ.image s, #{i ∈ univ | s i = z} • (M z / ((#{i' | s i' = z} : ℝ) / #{i' | a (s i') = a z}))
      = ∑ i, if a (s i) = a z then M z else 0 := by
    intro z hz
    obtain ⟨i, _, rfl⟩ := mem_image.1 hz
    have h1 : (0 : ℝ) < #{i' | s i' = s i} := by exact_mod_cast sameAnswers_pos s i
    rw [nsmul_eq_mul, ← sum_filter, sum_const, nsmul_eq_mul]
    field_simp
  show ∑ i, M (s i) / ((sameAnswers s i : ℝ) / sameItems s i) ≤ N
  rw [e1, sum_comp (fun z => M z / ((#{i' | s i' = z} : ℝ) / #{i' | a (s i') = a z})) s, sum_congr rfl e2, sum_comm]
  calc ∑ i, ∑ z ∈ univ.image s, (if a (s i) = a z then M z else 0) ≤ ∑ i : Fin N, (1 : ℝ) := sum_le_sum fun i _ => ?_
    _ = N := by simp
  rw [← sameItems_total hP pts lw hlen hw (a (s i)), ← sum_filter]
  refine sum_le_sum_of_subset_of_nonneg (fun z hz => ?_) fun z hz _ => (hM z (mem_filter.1 hz).1).le
  obtain ⟨hz, hT⟩ := mem_filter.1 hz
  obtain ⟨i', _, rfl⟩ := mem_image.1 hz
  exact mem_filter.2 ⟨hs i', hT.symm⟩

include hm hpos hP hlen hne hw in
/-- C161: whatever the model, its parameters, its integration rule and the missing answers, the loss of marginal maximum likelihood is at least that of the
observed shares; and it is equal to it just for models that give every respondent's answers their observed share. -/
theorem C161_bound {N : ℕ} (s : Fin N → Fin cats.length → Option ℕ) (hs : ∀ i, s i ∈ seenAnswers cats) :
    ∃ L, mmlLoss m (rowsOf N cats.length (seenCells s)) pts lw = .ok (some L) ∧ saturatedLoss s ≤ L ∧
      (L = saturatedLoss s ↔ ∀ i, weighted pts (lw.map Real.exp) (observedLikelihood P cats.length (seenRow (s i)))
        = (sameAnswers s i : ℝ) / sameItems s i) := by
  have hrun := mmlLoss_weighted hm hpos N (seenCells s) (fun i hi => by rw [seenCells, dif_pos hi]; exact seenRow_valid (hs _)) pts lw hlen hne
  rw [sum_range] at hrun
  have hrow : ∀ i : Fin N, seenCells s i = seenRow (s i) := fun i => by rw [seenCells, dif_pos i.2]
  simp only [hrow] at hrun
  refine ⟨_, hrun, ?_⟩
  have hMpos : ∀ i, 0 < weighted pts (lw.map Real.exp) (observedLikelihood P cats.length (seenRow (s i))) :=
    fun i => weighted_seen_pos hpos pts lw hlen hne (hs i)
  have htot := shares_total hpos hP pts lw hlen hne hw s hs
  obtain ⟨hle, heq⟩ := log_shares hMpos (fun i => div_pos (Nat.cast_pos.2 (sameAnswers_pos s i)) (Nat.cast_pos.2 (sameItems_pos s i))) htot
  unfold saturatedLoss
  refine ⟨neg_le_neg hle, fun h => heq (neg_injective h), fun h => ?_⟩
  simp only [h]

theorem weighted_divided (pts : Thetas d) (w : List ℝ) (c : ℝ) (F : (Fin d → ℝ) → ℝ) :
    weighted pts (w.map fun a => a / c) F = weighted pts w F / c := by
  unfold weighted
  induction pts generalizing w with
  | nil => simp
  | cons p pts ih =>
    cases w with
    | nil => simp
    | cons a w =>
      have := ih w
      simp at this ⊢
      rw [this]
      ring

include hm hpos hP hlen hne in
/-- C161 for rules with other weights, such as the equidistant grid: the floor is lower by the logarithm of the sum of the weights for every respondent. -/
theorem C161_any_weights {N : ℕ} (s : Fin N → Fin cats.length → Option ℕ) (hs : ∀ i, s i ∈ seenAnswers cats) :
    ∃ L, mmlLoss m (rowsOf N cats.length (seenCells s)) pts lw = .ok (some L) ∧ saturatedLoss s - N * Real.log (lw.map Real.exp).sum ≤ L ∧
      (L = saturatedLoss s - N * Real.log (lw.map Real.exp).sum ↔
        ∀ i, weighted pts (lw.map Real.exp) (observedLikelihood P cats.length (seenRow (s i))) / (lw.map Real.exp).sum
          = (sameAnswers s i : ℝ) / sameItems s i) := by
  set W := (lw.map Real.exp).sum with hWdef
  have hW : 0 < W := weights_sum_pos pts lw hlen hne
  have hexp : (lw.map fun l => l - Real.log W).map Real.exp = (lw.map Real.exp).map fun a => a / W := by
    simp only [List.map_map]
    refine List.map_congr_left fun l _ => ?_
    simp only [Function.comp, Real.exp_sub, Real.exp_log hW]
  have hsum : ((lw.map fun l => l - Real.log W).map Real.exp).sum = 1 := by
    rw [hexp, ← weighted_const_one pts _ (by simpa using hlen), weighted_divided, weighted_const_one pts _ (by simpa using hlen), ← hWdef, div_self hW.ne']
  have hvalid : ∀ i, i < N → ValidResponses cats (seenCells s i) := fun i hi => by rw [seenCells, dif_pos hi]; exact seenRow_valid (hs _)
  have hrun := mmlLoss_weighted hm hpos N (seenCells s) hvalid pts lw hlen hne
  obtain ⟨L, hL, hle, heq⟩ := C161_bound hm hpos hP pts (lw.map fun l => l - Real.log W) (by simpa using hlen) hne hsum s hs
  have hrun' := mmlLoss_weighted hm hpos N (seenCells s) hvalid pts (lw.map fun l => l - Real.log W) (by simpa using hlen) hne
  rw [hL] at hrun'
  have hLe := Option.some.inj (Except.ok.inj hrun')
  simp only [hexp, weighted_divided] at hLe heq
  have hlog : ∀ i ∈ range N, Real.log (weighted pts (lw.map Real.exp) (observedLikelihood P cats.length (seenCells s i)) / W)
      = Real.log (weighted pts (lw.map Real.exp) (observedLikelihood P cats.length (seenCells s i))) - Real.log W := by
    intro i hi
    have hrow : seenCells s i = seenRow (s ⟨i, mem_range.1 hi⟩) := by rw [seenCells, dif_pos (mem_range.1 hi)]
    rw [Real.log_div _ hW.ne', ]
    rw [hrow]
    exact (weighted_seen_pos hpos pts lw hlen hne (hs _)).ne'
  rw [sum_congr rfl hlog, sum_sub_distrib, sum_const, card_range, nsmul_eq_mul] at hLe
  refine ⟨_, hrun, by linarith, ?_⟩
  rw [← heq]
  constructor <;> intro h <;> linarith

include hm hpos hP in
/-- C161 as `fit` computes the loss, with Gauss-Hermite integration, any number of points and any covariance matrix. -/
theorem C161_gauss_hermite {hg : ℕ → Except PyErr (List ℝ × List ℝ)} (hrules : ExactRules hg)
    {ch : Matrix (Fin d) (Fin d) ℝ → Except PyErr (Matrix (Fin d) (Fin d) ℝ)} (cov : Option CovArg) {C Q : Matrix (Fin d) (Fin d) ℝ}
    (hC : cov = none ∧ C = 1 ∨ ∃ c, cov = some c ∧ c.rows = d ∧ c.cols = d ∧ C = Matrix.of fun i j : Fin d => c.entry i j) (hQ : ch C = .ok Q)
    {n : ℕ} (hn : 1 ≤ n) {N : ℕ} (s : Fin N → Fin cats.length → Option ℕ) (hs : ∀ i, s i ∈ seenAnswers cats) :
    ∃ pts lw L, mmlIntegration hg ch "gauss_hermite" (some n) cov = .ok (pts, lw) ∧
      mmlLoss m (rowsOf N cats.length (seenCells s)) pts lw = .ok (some L) ∧ saturatedLoss s ≤ L := by
  obtain ⟨x, w, hx, hexact⟩ := hrules n hn
  obtain ⟨pts, lw, hok, hl, hne, hsum⟩ := integration_rule cov hC hQ hn hx hexact
  have hone := hsum fun _ => 1
  rw [nodeSum_one hn hexact, weighted_const_one pts _ (by simpa using hl)] at hone
  obtain ⟨L, hL, hle, _⟩ := C161_bound hm hpos hP pts lw hl hne hone s hs
  exact ⟨pts, lw, L, hok, hL, hle⟩

end Bound

/-- If everybody answers every item, the shares are those among all respondents. -/
theorem C161_complete {N K : ℕ} (s : Fin N → Fin K → Option ℕ) (h : ∀ i j, (s i j).isSome) :
    saturatedLoss s = -∑ i, Real.log ((sameAnswers s i : ℝ) / N) := by
  have : ∀ i, sameItems s i = N := fun i => by simp [sameItems, h]
  simp only [saturatedLoss, this]

/-- The claim for the equidistant grid. -/
def SaturatedAnyGrid : Prop := ∀ (m : Scorer 1) (cats : List ℕ) (P : (Fin 1 → ℝ) → ℕ → ℕ → ℝ), IsScorer m cats P → PositiveProbs P cats →
  ProperProbs P cats → ∀ (n : ℕ) (pts : Thetas 1) (lw : List ℝ), 0 < n → quasiMc n 1 = .ok (pts, lw) →
    ∀ (N : ℕ) (s : Fin N → Fin cats.length → Option ℕ), (∀ i, s i ∈ seenAnswers cats) →
      ∀ L, mmlLoss m (rowsOf N cats.length (seenCells s)) pts lw = .ok (some L) → saturatedLoss s ≤ L

/-- The weights of the equidistant grid grow with the number of points: one respondent with one answer has a negative loss, as if the answer had a
probability above one. -/
theorem C161_quasi_mc_false : ¬ SaturatedAnyGrid := by
  intro h
  have hm := exFlat.isScorer exFlat_wf (by simp [exFlat]) 1
  have hpos := exFlat.positive exFlat_wf 1
  have hP := properProbs_of_isTable fun θ : Fin 1 → ℝ => isTable_twoPL exFlat exFlat_wf (List.ofFn θ)
  let P : (Fin 1 → ℝ) → ℕ → ℕ → ℝ := fun θ => tableProb (exFlat.probs (List.ofFn θ))
  let z : Fin (List.replicate exFlat.items 2).length → Option ℕ := fun _ => some 0
  have hz : z ∈ seenAnswers (List.replicate exFlat.items 2) := Fintype.mem_piFinset.2 fun j => by simp [z]
  let c : ℝ := observedLikelihood P (List.replicate exFlat.items 2).length (seenRow z) 0
  have hc : 0 < c := observedLikelihood_pos hpos _ (seenRow_valid hz) 0
  have hlik : observedLikelihood P (List.replicate exFlat.items 2).length (seenRow z) = fun _ => c * 1 := by
    funext θ
    simp only [c, P, observedLikelihood, exFlat_probs, mul_one]
  let e : ℝ := Real.exp (mvnLogDensity 0 1 fun _ : Fin 1 => (3 : ℝ))
  have he : 0 < e := Real.exp_pos _
  obtain ⟨n, hn⟩ := exists_nat_gt (1 / (c * e) + 1)
  have hn1 : (1 : ℝ) < n := by linarith [div_pos one_pos (mul_pos hc he)]
  have hn' : 1 < n := by exact_mod_cast hn1
  let grid : Thetas 1 := cartesianProd fun _ : Fin 1 => linspace (-3) 3 n
  have hgrid : grid.length = n := by simp [grid, cartesianProd, length_linspace]
  have hq : quasiMc n (1 : Matrix (Fin 1) (Fin 1) ℝ) = .ok (grid, grid.map (mvnLogDensity 0 1)) := by
    simp [quasiMc, mvnLogProbs, Matrix.PosDef.one, pure, Except.pure, bind, Except.bind, grid]
  have hge : ∀ w ∈ (grid.map (mvnLogDensity 0 1)).map Real.exp, e ≤ w := by
    intro w hw
    simp only [List.map_map, List.mem_map, Function.comp] at hw
    obtain ⟨θ, hθ, rfl⟩ := hw
    obtain ⟨i, hi, hx⟩ := (mem_linspace _ _ _ _).1 ((mem_cartesianProd _ _).1 hθ 0)
    have h0 : (0 : ℝ) ≤ i := Nat.cast_nonneg i
    have h1 : (i : ℝ) ≤ n - 1 := by
      have : (i : ℝ) + 1 ≤ n := by exact_mod_cast hi
      linarith
    have h2 : 0 ≤ (i : ℝ) / (n - 1) := div_nonneg h0 (by linarith)
    have h3 : (i : ℝ) / (n - 1) ≤ 1 := (div_le_one (by linarith)).2 h1
    have hx' : θ 0 = -3 + 6 * ((i : ℝ) / (n - 1)) := by rw [hx]; ring
    refine Real.exp_le_exp.2 ?_
    simp [mvnLogDensity, dotProduct]
    nlinarith
  have hW : (n : ℝ) * e ≤ ((grid.map (mvnLogDensity 0 1)).map Real.exp).sum := by
    have := List.card_nsmul_le_sum _ e hge
    simpa [hgrid] using this
  have hrun := mmlLoss_weighted hm hpos 1 (seenCells fun _ : Fin 1 => z) (fun i hi => by rw [seenCells, dif_pos hi]; exact seenRow_valid hz) grid
    (grid.map (mvnLogDensity 0 1)) (by simp) (by rintro h0; rw [h0] at hgrid; simp at hgrid; omega)
  have key := h _ _ _ hm hpos hP n _ _ (by omega) hq 1 (fun _ => z) (fun _ => hz) _ hrun
  have hs0 : saturatedLoss (fun _ : Fin 1 => z) = 0 := by simp [saturatedLoss, sameAnswers, sameItems]
  have hrow : seenCells (fun _ : Fin 1 => z) 0 = seenRow z := by rw [seenCells, dif_pos one_pos]
  rw [hs0, sum_range_one, hrow, show observedLikelihood (fun θ : Fin 1 → ℝ => tableProb (exFlat.probs (List.ofFn θ)))
    (List.replicate exFlat.items 2).length (seenRow z) = fun _ => c * 1 from hlik, weighted_smul, weighted_const_one grid _ (by simp)] at key
  have hbig : 1 < c * ((grid.map (mvnLogDensity 0 1)).map Real.exp).sum := by
    have h1 : 1 / (c * e) < n := by linarith
    rw [div_lt_iff₀ (mul_pos hc he)] at h1
    calc 1 < n * (c * e) := h1
      _ = c * (n * e) := by ring
      _ ≤ _ := mul_le_mul_of_nonneg_left hW hc.le
  linarith [Real.log_pos hbig]

/-! ## Three respondents, two items, one answer missing -/

def exThreeRows : Fin 3 → Fin (List.replicate 2 2).length → Option ℕ
  | 0 => fun _ => some 1
  | 1 => fun _ => some 1
  | 2 => fun j => if (j : ℕ) = 0 then some 0 else none

theorem exThreeRows_seen (i : Fin 3) : exThreeRows i ∈ seenAnswers (List.replicate 2 2) :=
  Fintype.mem_piFinset.2 fun j => by
    rw [show (List.replicate 2 2)[j] = 2 from List.getElem_replicate ..]
    fin_cases i
    · simp [exThreeRows]
    · simp [exThreeRows]
    · simp only [exThreeRows]
      split_ifs <;> simp

example {hg : ℕ → Except PyErr (List ℝ × List ℝ)} (hrules : ExactRules hg) {n : ℕ} (hn : 1 ≤ n) :=
  C161_gauss_hermite (simpleTwoPL_isScorer (fun _ : Fin 2 => (0 : Fin 1)) (by norm_num) (![1, 2], ![0, 1]))
    (simpleTwoPL_positive (fun _ : Fin 2 => (0 : Fin 1)) (![1, 2], ![0, 1])) (simpleTwoPL_proper (fun _ : Fin 2 => (0 : Fin 1)) (![1, 2], ![0, 1])) hrules
    (ch := fun _ => .ok (1 : Matrix (Fin 1) (Fin 1) ℝ)) none (Or.inl ⟨rfl, rfl⟩) rfl hn exThreeRows exThreeRows_seen

/-- Two points with weights one. -/
example := C161_any_weights (simpleTwoPL_isScorer (fun _ : Fin 2 => (0 : Fin 1)) (by norm_num) (![1, 2], ![0, 1]))
  (simpleTwoPL_positive (fun _ : Fin 2 => (0 : Fin 1)) (![1, 2], ![0, 1])) (simpleTwoPL_proper (fun _ : Fin 2 => (0 : Fin 1)) (![1, 2], ![0, 1]))
  [fun _ => -1, fun _ => 1] [0, 0] rfl (by simp) exThreeRows exThreeRows_seen

/-- The bound is attained: an item that says nothing about the latent variable, solved by one of two respondents. -/
example : ∃ L, mmlLoss ((simpleTwoPL (fun _ : Fin 1 => (0 : Fin 1)) (0, 0)).scorer 1)
      (rowsOf 2 (List.replicate 1 2).length (seenCells fun (i : Fin 2) (_ : Fin (List.replicate 1 2).length) => some (i : ℕ))) [0] [0] = .ok (some L) ∧
    L = saturatedLoss fun (i : Fin 2) (_ : Fin (List.replicate 1 2).length) => some (i : ℕ) := by
  obtain ⟨L, hL, _, h⟩ := C161_bound (simpleTwoPL_isScorer (fun _ : Fin 1 => (0 : Fin 1)) (by norm_num) (0, 0))
    (simpleTwoPL_positive (fun _ : Fin 1 => (0 : Fin 1)) (0, 0)) (simpleTwoPL_proper (fun _ : Fin 1 => (0 : Fin 1)) (0, 0)) [0] [0] rfl (by simp) (by simp)
    (fun (i : Fin 2) (_ : Fin (List.replicate 1 2).length) => some (i : ℕ)) (fun i => Fintype.mem_piFinset.2 fun j => by
      rw [show (List.replicate 1 2)[j] = 2 from List.getElem_replicate .., Finset.some_mem_insertNone, Finset.mem_range]
      exact i.2)
  refine ⟨L, hL, h.2 fun i => ?_⟩
  have h1 : ∀ i : Fin 2, sameAnswers (fun (i : Fin 2) (_ : Fin (List.replicate 1 2).length) => some (i : ℕ)) i = 1 := by decide
  have h2 : ∀ i : Fin 2, sameItems (fun (i : Fin 2) (_ : Fin (List.replicate 1 2).length) => some (i : ℕ)) i = 2 := by decide
  rw [h1, h2]
  have hl : logistic 0 = 1 / 2 := by norm_num [logistic]
  have hp : ∀ r : ℕ, r < 2 → tableProb ((simpleTwoPL (fun _ : Fin 1 => (0 : Fin 1)) (0, 0)).probs [0]) 0 r = 1 / 2 := by
    intro r hr
    have := simpleTwoPL_prob (fun _ : Fin 1 => (0 : Fin 1)) (0, 0) (0 : Fin 1 → ℝ) 0 r
    simp only [List.ofFn_succ, List.ofFn_zero, Pi.zero_apply] at this
    rw [this]
    interval_cases r <;> norm_num [hl]
  fin_cases i <;> simp [weighted, observedLikelihood, seenRow, cellMissing, responseOf, hp]

end Irt
