import Verif.Lemmas.Composite
import Verif.Props.Scores

/-! # Property C08: surprisal splines -/

namespace Irt

theorem surprisalProbs_head (n : ℕ) (s : ℕ → ℝ) (x : ℕ) (hx : x ≤ n) :
    ((surprisalProbs ((List.range n).map s)).take (x + 1)).sum
      = Real.exp (-∑ i ∈ Finset.range (n - x), s i) := by
  rw [surprisalProbs_entry, List.take_reverse, List.sum_reverse, List.length_map, List.length_range,
    ← List.map_drop, ← surpTerm_tail n s (n - x) (by omega)]
  congr 2
  have e1 : n + 1 - (x + 1) = n - x := by omega
  rw [e1, List.range_eq_range', List.drop_range']
  simp

/-- C08: the probability of scoring at most `x` is `exp` of minus the summed surprisals of the steps
above `x`; in particular the probabilities sum to one. For every list of surprisals. -/
theorem C08_cumulative (s : List ℝ) (x : ℕ) (hx : x ≤ s.length) :
    ((surprisalProbs s).take (x + 1)).sum = Real.exp (-(s.take (s.length - x)).sum) := by
  have h := surprisalProbs_head s.length (fun i => s.getD i 0) x hx
  rw [← eq_range_map s] at h
  rw [h]
  congr 2
  conv_rhs => rw [eq_range_map s]
  rw [← List.map_take, List.take_range, List.length_map, List.length_range,
    Nat.min_eq_left (Nat.sub_le _ _), list_sum_range]

example : (1:ℕ) ≤ ([3/10, 2] : List ℝ).length := by simp

/-- C08: for a model with nonnegative basis values, the probabilities of every item are a distribution on
the categories the item has, and every category of an item has positive probability when the item is
related to a latent variable with a positive basis value. -/
theorem C08_distribution (m : Surprisal) (hwf : m.WF) (basis : ℕ → ℕ → ℝ)
    (hB : ∀ l, l < m.lv → ∀ b, b < m.nb → 0 ≤ basis l b) :
    IsTable m.cats m.M (m.probs basis) ∧
    ∀ (j c : ℕ) (p : List ℝ) (r : List Bool) (l b : ℕ), m.cats[j]? = some c → (m.probs basis)[j]? = some p →
      m.rel[j]? = some r → l < m.lv → r.getD l false = true → b < m.nb → 0 < basis l b → AllPositive c p := by
  have key : ∀ (j : ℕ) (p : List ℝ), (m.probs basis)[j]? = some p → j < m.cats.length ∧
      p = ((List.range (m.M - 1 + 1)).map (surpTerm (m.M - 1) (m.step basis j))).reverse := by
    intro j p hp
    have hj : j < m.cats.length := by simpa [Surprisal.probs] using lt_of_getElem?_some hp
    refine ⟨hj, ?_⟩
    rw [Surprisal.probs, List.getElem?_map, List.getElem?_range hj, Option.map_some, m.surprisal_eq,
      surprisalProbs_entry] at hp
    exact (Option.some.inj hp).symm
  have entry : ∀ (s : ℕ → ℝ) (n k : ℕ), k < n + 1 →
      (((List.range (n + 1)).map (surpTerm n s)).reverse)[k]? = some (surpTerm n s (n - k)) := by
    intro s n k hk
    rw [List.getElem?_reverse (by simpa using hk), List.getElem?_map, List.length_map, List.length_range,
      show n + 1 - 1 - k = n - k by omega, List.getElem?_range (by omega)]
    rfl
  refine ⟨⟨by simp [Surprisal.probs], ?_⟩, ?_⟩
  · intro j p c hp hc
    obtain ⟨hj, rfl⟩ := key j p hp
    have hmem := List.mem_of_getElem? hc
    have hc0 := hwf.catsPos c hmem
    have hcM : c ≤ m.M := le_maxCats _ _ hmem
    have hnn : ∀ t, 0 ≤ surpTerm (m.M - 1) (m.step basis j) t := fun t =>
      surpTerm_nonneg _ _ (fun i hi => m.step_nonneg hwf basis hB j i hj hi) t
    have hsum : (((List.range (m.M - 1 + 1)).map (surpTerm (m.M - 1) (m.step basis j))).reverse).sum = 1 := by
      have := surpTerm_tail (m.M - 1) (m.step basis j) 0 (by omega)
      rw [List.sum_reverse]
      simpa [List.range_eq_range'] using this
    have hnn' : ∀ x ∈ ((List.range (m.M - 1 + 1)).map (surpTerm (m.M - 1) (m.step basis j))).reverse, 0 ≤ x := by
      intro x hx
      rw [List.mem_reverse] at hx
      obtain ⟨t, _, rfl⟩ := List.mem_map.1 hx
      exact hnn t
    refine ⟨by simp; omega, hnn', ?_, hsum, ?_⟩
    · intro x hx
      rw [← hsum]
      exact List.single_le_sum hnn' x hx
    · intro k hck hkM
      rw [entry _ _ k (by omega)]
      have hlt : m.M - 1 - k < m.M - 1 := by omega
      simp only [surpTerm, hlt, if_true]
      rw [Finset.sum_range_succ, m.step_zero basis j (m.M - 1 - k) c hc hlt (by omega), add_zero, sub_self]
  · intro j c p r l b hc hp hr hl hrl hb hpos k hk
    obtain ⟨hj, rfl⟩ := key j p hp
    have hcM : c ≤ m.M := le_maxCats _ _ (List.mem_of_getElem? hc)
    refine ⟨_, entry _ _ k (by omega), ?_⟩
    unfold surpTerm
    split
    · next hlt =>
      rw [sub_pos, Real.exp_lt_exp, Finset.sum_range_succ]
      have := m.step_pos hwf basis hB j (m.M - 1 - k) c l b r hc hlt (by omega) hr hl hb hrl hpos
      linarith
    · rw [sub_zero]; exact Real.exp_pos _

/-- C08, ordering: when the tail sums of the basis do not decrease (as for B-splines when theta grows),
the chance of scoring at most `x` does not increase, for every item and every `x`. -/
theorem C08_ordered (m : Surprisal) (hwf : m.WF) (B B' : ℕ → ℕ → ℝ)
    (hB : ∀ l, l < m.lv → ∀ b, b < m.nb →
      ∑ x ∈ Finset.Ico b m.nb, B l x ≤ ∑ x ∈ Finset.Ico b m.nb, B' l x)
    (j x : ℕ) (p p' : List ℝ) (hp : (m.probs B)[j]? = some p) (hp' : (m.probs B')[j]? = some p')
    (hx : x < m.M) : (p'.take (x + 1)).sum ≤ (p.take (x + 1)).sum := by
  have hj : j < m.cats.length := by simpa [Surprisal.probs] using lt_of_getElem?_some hp
  rw [Surprisal.probs, List.getElem?_map, List.getElem?_range hj, Option.map_some, m.surprisal_eq] at hp hp'
  rw [← Option.some.inj hp, ← Option.some.inj hp', surprisalProbs_head _ _ x (by omega),
    surprisalProbs_head _ _ x (by omega), Real.exp_le_exp, neg_le_neg_iff]
  apply Finset.sum_le_sum
  intro i hi
  have := Finset.mem_range.1 hi
  exact m.step_mono hwf B B' hB j i hj (by omega)

/-- Two items with 3 and 2 categories, two latent variables, two basis functions. -/
noncomputable def exSurprisal : Surprisal :=
  { lv := 2, cats := [3, 2], nb := 2, rel := [[true, false], [true, true]],
    coef := [1, 2, 3, -1, 0, 1, 5, 2] }

theorem exSurprisal_wf : exSurprisal.WF where
  catsPos := by simp [exSurprisal]
  relLen := by simp [exSurprisal]
  coefLen := by
    simp [exSurprisal, Surprisal.mask, Surprisal.maskAt, Surprisal.M, maxCats, countTrue, List.range_succ]

/-- A basis that moves mass to the later function has larger tail sums. -/
example : (∀ l, l < 2 → ∀ b, b < 2 → 0 ≤ (fun _ b : ℕ => if b = 0 then (1/4 : ℝ) else 3/4) l b) ∧
    ∀ l, l < 2 → ∀ b, b < 2 →
      ∑ x ∈ Finset.Ico b 2, (fun _ b : ℕ => if b = 0 then (1/2 : ℝ) else 1/2) l x
        ≤ ∑ x ∈ Finset.Ico b 2, (fun _ b : ℕ => if b = 0 then (1/4 : ℝ) else 3/4) l x := by
  constructor
  · intro l _ b _; dsimp only; split <;> norm_num
  · intro l _ b hb
    interval_cases b
    · norm_num [Finset.sum_range_succ]
    · norm_num [Finset.sum_Ico_succ_top]

end Irt
