import Verif.Spec.Population
import Verif.Lemmas.Scoring

/-! # Lemmas on respondents whose answers follow the model -/

namespace Irt
open Spec

variable {d : ℕ} {P : (Fin d → ℝ) → ℕ → ℕ → ℝ}

theorem cellMissing_nat (r : ℕ) : cellMissing (some (r : ℤ)) = false := by
  simp [cellMissing]

theorem observedLikelihood_fin (K : ℕ) (row : ℕ → Cell) (θ : Fin d → ℝ) :
    observedLikelihood P K row θ = ∏ j : Fin K, if cellMissing (row j) then 1 else P θ j (responseOf (row j)) := by
  unfold observedLikelihood
  rw [Finset.prod_range]

theorem observedLikelihood_all {K : ℕ} (x : Fin K → ℕ) (θ : Fin d → ℝ) :
    observedLikelihood P K (answersToAll x) θ = answerProb P θ x := by
  rw [observedLikelihood_fin]
  refine Finset.prod_congr rfl fun j _ => ?_
  have e : answersToAll x j = some (x j : ℤ) := by simp [answersToAll, answersTo]
  rw [e, cellMissing_nat]
  simp [responseOf]

/-- The likelihood of the given answers is the sum over all answers to the others. -/
theorem observedLikelihood_completions {cats : List ℕ} (hP : ProperProbs P cats) (row : ℕ → Cell) (θ : Fin d → ℝ) :
    observedLikelihood P cats.length row θ = ∑ x ∈ completions cats row, answerProb P θ x := by
  rw [observedLikelihood_fin]
  unfold answerProb completions
  rw [← Finset.prod_univ_sum (fun j : Fin cats.length => if cellMissing (row j) then Finset.range cats[j] else {responseOf (row j)})
    fun j r => P θ j r]
  refine Finset.prod_congr rfl fun j _ => ?_
  split_ifs with h
  · exact (hP θ j cats[j] (by simp)).symm
  · simp

theorem list_sum_finset {α β : Type} (l : List α) (s : Finset β) (f : α → β → ℝ) :
    (l.map fun a => ∑ x ∈ s, f a x).sum = ∑ x ∈ s, (l.map fun a => f a x).sum := by
  induction l with
  | nil => simp
  | cons a l ih => simp [ih, Finset.sum_add_distrib]

theorem list_sum_mul_left {α : Type} (l : List α) (c : ℝ) (f : α → ℝ) : (l.map fun a => c * f a).sum = c * (l.map f).sum := by
  induction l with
  | nil => simp
  | cons a l ih => simp [ih, mul_add]

theorem completions_valid {cats : List ℕ} {row : ℕ → Cell} (hrow : ValidResponses cats row) {x : Fin cats.length → ℕ}
    (hx : x ∈ completions cats row) : x ∈ fullAnswers cats := by
  unfold completions at hx
  rw [Fintype.mem_piFinset] at hx
  unfold fullAnswers
  rw [Fintype.mem_piFinset]
  intro j
  have h := hx j
  split_ifs at h with hm
  · exact h
  · obtain ⟨r, hr, hlt⟩ := hrow j cats[j] (by simp) (by simpa using hm)
    rw [Finset.mem_singleton, hr] at h
    rw [Finset.mem_range, h]
    exact hlt

theorem answersTo_valid {cats : List ℕ} (T : Finset (Fin cats.length)) {x : Fin cats.length → ℕ} (hx : x ∈ fullAnswers cats) :
    ValidResponses cats (answersTo T x) := by
  intro j c hc hobs
  have hj := lt_of_getElem?_some hc
  unfold answersTo at hobs ⊢
  rw [dif_pos hj] at hobs ⊢
  split_ifs at hobs ⊢ with hT
  · refine ⟨x ⟨j, hj⟩, rfl, ?_⟩
    have h := Fintype.mem_piFinset.1 hx ⟨j, hj⟩
    rw [List.getElem?_eq_getElem hj] at hc
    rw [Finset.mem_range] at h
    simpa [← Option.some.inj hc] using h
  · cases hobs

/-- The answers to the items in `T`, the others put to zero. -/
def keepOnly {K : ℕ} (T : Finset (Fin K)) (x : Fin K → ℕ) : Fin K → ℕ := fun j => if j ∈ T then x j else 0

theorem keepOnly_agree {K : ℕ} (T : Finset (Fin K)) (x : Fin K → ℕ) : ∀ j ∈ T, keepOnly T x j = x j := by
  intro j hj
  simp [keepOnly, hj]

theorem answersTo_congr {K : ℕ} (T : Finset (Fin K)) {x x' : Fin K → ℕ} (h : ∀ j ∈ T, x j = x' j) : answersTo T x = answersTo T x' := by
  funext j
  unfold answersTo
  split_ifs with hj hT
  · rw [h _ hT]
  · rfl
  · rfl

theorem mem_completions_answersTo {cats : List ℕ} (T : Finset (Fin cats.length)) (u x : Fin cats.length → ℕ) (hu : u ∈ fullAnswers cats) :
    x ∈ completions cats (answersTo T u) ↔ x ∈ fullAnswers cats ∧ ∀ j ∈ T, x j = u j := by
  unfold completions fullAnswers at *
  rw [Fintype.mem_piFinset, Fintype.mem_piFinset] at *
  have e : ∀ j : Fin cats.length, answersTo T u j = if j ∈ T then some (u j : ℤ) else none := by
    intro j; simp [answersTo]
  constructor
  · intro h
    have h2 : ∀ j ∈ T, x j = u j := by
      intro j hj
      have := h j
      rw [e j, if_pos hj, cellMissing_nat] at this
      simpa [responseOf] using this
    refine ⟨fun j => ?_, h2⟩
    by_cases hj : j ∈ T
    · rw [h2 j hj]; exact hu j
    · have := h j
      rw [e j, if_neg hj] at this
      simpa [cellMissing] using this
  · rintro ⟨h1, h2⟩ j
    rw [e j]
    by_cases hj : j ∈ T
    · rw [if_pos hj, cellMissing_nat]
      simp [responseOf, h2 j hj]
    · rw [if_neg hj]
      simpa [cellMissing] using h1 j

/-- A sum over all answers vanishes if it does for all answers that agree on the items in `T`. -/
theorem sum_full_eq_zero {cats : List ℕ} (T : Finset (Fin cats.length)) (G : (Fin cats.length → ℕ) → ℝ)
    (h : ∀ u ∈ fullAnswers cats, ∑ x ∈ completions cats (answersTo T u), G x = 0) : ∑ x ∈ fullAnswers cats, G x = 0 := by
  classical
  rw [← Finset.sum_fiberwise_of_maps_to (s := fullAnswers cats) (t := (fullAnswers cats).image (keepOnly T)) (g := keepOnly T)
    fun x hx => Finset.mem_image_of_mem _ hx]
  refine Finset.sum_eq_zero fun v hv => ?_
  obtain ⟨u, hu, rfl⟩ := Finset.mem_image.1 hv
  rw [← h u hu]
  refine Finset.sum_congr (Finset.ext fun x => ?_) fun _ _ => rfl
  rw [Finset.mem_filter, mem_completions_answersTo T u x hu]
  refine and_congr_right fun _ => ⟨fun he j hj => ?_, fun he => ?_⟩
  · rw [← keepOnly_agree T x j hj, he, keepOnly_agree T u j hj]
  · funext j
    unfold keepOnly
    split_ifs with hj
    · exact he j hj
    · rfl

theorem answerProb_sum {cats : List ℕ} (hP : ProperProbs P cats) (θ : Fin d → ℝ) : ∑ x ∈ fullAnswers cats, answerProb P θ x = 1 := by
  unfold answerProb fullAnswers
  rw [← Finset.prod_univ_sum (fun j : Fin cats.length => Finset.range cats[j]) fun j r => P θ j r]
  exact Finset.prod_eq_one fun j _ => hP θ j cats[j] (by simp)

theorem sum_eq_range (p : List ℝ) : p.sum = ∑ r ∈ Finset.range p.length, (p[r]?).getD 0 := by
  induction p with
  | nil => simp
  | cons x p ih => rw [List.length_cons, Finset.sum_range_succ', List.sum_cons, ih]; simp [add_comm]

/-- A table of probabilities per latent score gives proper probabilities. -/
theorem properProbs_of_isTable {cats : List ℕ} {M : ℕ} {t : (Fin d → ℝ) → List (List ℝ)} (h : ∀ θ, IsTable cats M (t θ)) :
    ProperProbs (fun θ => tableProb (t θ)) cats := by
  intro θ j c hc
  obtain ⟨hl, ht⟩ := h θ
  have hj : j < (t θ).length := by rw [hl]; exact lt_of_getElem?_some hc
  have hp : (t θ)[j]? = some (t θ)[j] := List.getElem?_eq_getElem hj
  have D := ht j _ c hp hc
  have e : ∀ r, tableProb (t θ) j r = ((t θ)[j][r]?).getD 0 := fun r => by simp [tableProb, hp]
  dsimp only
  rw [Finset.sum_congr rfl fun r _ => e r]
  have hs : ∑ r ∈ Finset.range M, ((t θ)[j][r]?).getD 0 = 1 := by
    rw [← D.sum_one, ← D.length]
    exact (sum_eq_range _).symm
  rw [← hs]
  rcases le_total c M with hcM | hMc
  · refine Finset.sum_subset (Finset.range_mono hcM) fun r hr hn => ?_
    rw [D.missing r (by simpa using hn) (by simpa using hr)]
    rfl
  · refine (Finset.sum_subset (Finset.range_mono hMc) fun r _ hn => ?_).symm
    rw [List.getElem?_eq_none (by rw [D.length]; simpa using hn)]
    rfl

/-- The expectation of a function of one answer. -/
theorem answerProb_item {cats : List ℕ} (hP : ProperProbs P cats) (θ : Fin d → ℝ) (j : Fin cats.length) (g : ℕ → ℝ) :
    ∑ x ∈ fullAnswers cats, answerProb P θ x * g (x j) = ∑ r ∈ Finset.range cats[j], P θ j r * g r := by
  have h := Finset.prod_univ_sum (fun k : Fin cats.length => Finset.range cats[k]) fun k r => if k = j then P θ k r * g r else P θ k r
  rw [← Finset.mul_prod_erase _ _ (Finset.mem_univ j)] at h
  simp only [if_true] at h
  rw [Finset.prod_eq_one (s := Finset.univ.erase j)] at h
  · rw [mul_one] at h
    rw [h]
    refine Finset.sum_congr rfl fun x _ => ?_
    unfold answerProb
    rw [← Finset.mul_prod_erase _ _ (Finset.mem_univ j),
      ← Finset.mul_prod_erase _ (fun k => if k = j then P θ k (x k) * g (x k) else P θ k (x k)) (Finset.mem_univ j), if_pos rfl]
    rw [Finset.prod_congr (s₁ := Finset.univ.erase j) (g := fun k => P θ k (x k)) rfl fun k hk => if_neg (Finset.ne_of_mem_erase hk)]
    ring
  · intro k hk
    simp only [if_neg (Finset.ne_of_mem_erase hk)]
    exact hP θ k cats[k] (by simp)

section Expectation

variable {cats : List ℕ} {prior : (Fin d → ℝ) → ℝ} {grid : List (Fin d → ℝ)} {F G : (Fin d → ℝ) → (Fin cats.length → ℕ) → ℝ}

theorem expectation_swap : expectation P cats prior grid F
    = (∑ x ∈ fullAnswers cats, (grid.map fun θ => prior θ * (answerProb P θ x * F θ x)).sum) / (grid.map prior).sum := by
  unfold expectation
  rw [← list_sum_finset]
  congr 3
  funext θ
  rw [Finset.mul_sum]

theorem expectation_add : expectation P cats prior grid (fun θ x => F θ x + G θ x)
    = expectation P cats prior grid F + expectation P cats prior grid G := by
  unfold expectation
  rw [← add_div, ← List.sum_map_add]
  congr 3
  funext θ
  rw [← mul_add, ← Finset.sum_add_distrib]
  simp only [mul_add]

theorem expectation_mul (c : ℝ) : expectation P cats prior grid (fun θ x => c * F θ x) = c * expectation P cats prior grid F := by
  unfold expectation
  rw [mul_div_assoc', ← list_sum_mul_left]
  congr 3
  funext θ
  have e : ∑ x ∈ fullAnswers cats, answerProb P θ x * (c * F θ x) = c * ∑ x ∈ fullAnswers cats, answerProb P θ x * F θ x := by
    rw [Finset.mul_sum]
    exact Finset.sum_congr rfl fun x _ => by ring
  rw [e, mul_left_comm]

theorem expectation_sub : expectation P cats prior grid (fun θ x => F θ x - G θ x)
    = expectation P cats prior grid F - expectation P cats prior grid G := by
  have h := expectation_add (P := P) (prior := prior) (grid := grid) (F := F) (G := fun θ x => (-1) * G θ x)
  rw [expectation_mul] at h
  simpa [sub_eq_add_neg] using h

theorem expectation_nonneg (hP : ∀ θ j r, 0 ≤ P θ j r) (hprior : ∀ θ, 0 ≤ prior θ) (hF : ∀ θ x, 0 ≤ F θ x) :
    0 ≤ expectation P cats prior grid F := by
  unfold expectation
  refine div_nonneg (List.sum_nonneg ?_) (List.sum_nonneg ?_)
  · intro v hv
    obtain ⟨θ, _, rfl⟩ := List.mem_map.1 hv
    exact mul_nonneg (hprior θ) (Finset.sum_nonneg fun x _ => mul_nonneg (Finset.prod_nonneg fun j _ => hP θ j (x j)) (hF θ x))
  · intro v hv
    obtain ⟨θ, _, rfl⟩ := List.mem_map.1 hv
    exact hprior θ

theorem expectation_latent (hP : ProperProbs P cats) (f : (Fin d → ℝ) → ℝ) : expectation P cats prior grid (fun θ _ => f θ)
    = (grid.map fun θ => prior θ * f θ).sum / (grid.map prior).sum := by
  unfold expectation
  congr 3
  funext θ
  rw [← Finset.sum_mul, answerProb_sum hP, one_mul]

theorem expectation_const (hP : ProperProbs P cats) (hz : (grid.map prior).sum ≠ 0) (c : ℝ) :
    expectation P cats prior grid (fun _ _ => c) = c := by
  rw [expectation_latent hP fun _ => c]
  have : (grid.map fun θ => prior θ * c).sum = c * (grid.map prior).sum := by
    rw [← list_sum_mul_left]
    simp only [mul_comm]
  rw [this, mul_div_cancel_right₀ _ hz]

end Expectation

end Irt
