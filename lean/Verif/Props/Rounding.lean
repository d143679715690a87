import Verif.Lemmas.Rounding
import Verif.Lemmas.Truncation
import Verif.Lemmas.LogConcave
import Verif.Lemmas.LogitModel
import Verif.Props.Categorical

/-! # C139: rounding and the order of summation change results by bounded amounts -/

namespace Irt
open Spec

variable {F : FloatOps} {u η : ℝ}

/-! ## Sums in any order -/

/-- C139: a sum is off by at most `(1 + u) ^ h - 1` times the sum of the absolute values, in whatever order it is taken. -/
theorem C139_sum (hF : SoundFloats F u η) {h : ℕ} {xs : List ℝ} {s : ℝ} (hs : SumsTo F h xs s) :
    |s - xs.sum| ≤ ((1 + u) ^ h - 1) * (xs.map abs).sum :=
  hs.error hF.rnd hF.u_nonneg

/-- C139: two orders of the same numbers, for example of respondents or on different numbers of threads. -/
theorem C139_any_order (hF : SoundFloats F u η) {h : ℕ} {xs xs' : List ℝ} {s s' : ℝ} (hp : xs.Perm xs') (hs : SumsTo F h xs s)
    (hs' : SumsTo F h xs' s') : |s - s'| ≤ 2 * ((1 + u) ^ h - 1) * (xs.map abs).sum := by
  have h1 := C139_sum hF hs
  have h2 := C139_sum hF hs'
  rw [← hp.sum_eq, ← (hp.map abs).sum_eq] at h2
  rw [abs_le] at *
  constructor <;> linarith [h1.1, h1.2, h2.1, h2.2]

/-! ## Log likelihoods -/

theorem shiftedSumError_mono (hF : SoundFloats F u η) (h : ℕ) {n n' : ℕ} (hn : n ≤ n') :
    shiftedSumError u η h n ≤ shiftedSumError u η h n' := by
  have hu := hF.u_nonneg
  have hη := hF.η_nonneg
  have h1 : 1 ≤ (1 + u) ^ h := one_le_pow₀ (by linarith)
  have hn' : (n : ℝ) ≤ n' := by exact_mod_cast hn
  unfold shiftedSumError
  exact mul_le_mul_of_nonneg_right hn' (by nlinarith)

/-- C139: the log probability of one answer. -/
theorem C139_log_softmax (hF : SoundFloats F u η) {h : ℕ} {xs : List ℝ} {x y : ℝ} (hx : x ∈ xs)
    (hσ : shiftedSumError u η h xs.length ≤ 1 / 2) (hy : flLogSoftmax F h xs x y) :
    |y - logProb xs x| ≤ ((1 + u) ^ 2 - 1) * |logProb xs x| + (1 + u) ^ 2 * (2 * shiftedSumError u η h xs.length) := by
  obtain ⟨s, hs, rfl⟩ := hy
  have hne := List.ne_nil_of_mem hx
  have h1 := hF.log_shifted hne hs hσ
  have hd : x - columnMax xs ≤ 0 := by linarith [le_columnMax hx]
  have h2 := hF.rnd (x - columnMax xs)
  have hlog := Real.log_nonneg (one_le_shiftedSum hne)
  have e : logProb xs x = (x - columnMax xs) - Real.log (shiftedSum xs) := by
    rw [logProb, log_sum_exp_shift hne]; ring
  have habs : |logProb xs x| = -(x - columnMax xs) + Real.log (shiftedSum xs) := by
    rw [e, abs_of_nonpos (by linarith)]; ring
  have h3 := hF.rnd (F.rnd (x - columnMax xs) - F.log s)
  have hu := hF.u_nonneg
  rw [abs_of_nonpos hd] at h2
  set σ := shiftedSumError u η h xs.length
  have h4 : |(F.rnd (x - columnMax xs) - F.log s) - logProb xs x| ≤ u * |logProb xs x| + (1 + u) * (2 * σ) := by
    rw [habs, e]
    rw [abs_le] at h1 h2 ⊢
    constructor <;> nlinarith [h1.1, h1.2, h2.1, h2.2]
  have h5 : |F.rnd (x - columnMax xs) - F.log s| ≤ (1 + u) * |logProb xs x| + (1 + u) * (2 * σ) := by
    have := abs_add_le ((F.rnd (x - columnMax xs) - F.log s) - logProb xs x) (logProb xs x)
    rw [sub_add_cancel] at this
    linarith
  have h6 := mul_le_mul_of_nonneg_left h5 hu
  have h7 := abs_add_le (F.rnd (F.rnd (x - columnMax xs) - F.log s) - (F.rnd (x - columnMax xs) - F.log s))
    ((F.rnd (x - columnMax xs) - F.log s) - logProb xs x)
  rw [sub_add_sub_cancel] at h7
  nlinarith

theorem logProb_nonpos {xs : List ℝ} {x : ℝ} (hx : x ∈ xs) : logProb xs x ≤ 0 := by
  have hne := List.ne_nil_of_mem hx
  rw [logProb, log_sum_exp_shift hne]
  linarith [le_columnMax hx, Real.log_nonneg (one_le_shiftedSum hne)]

theorem sum_abs_nonpos (xs : List ℝ) (h : ∀ x ∈ xs, x ≤ 0) : (xs.map abs).sum = |xs.sum| := by
  have e : (xs.map abs).sum = -xs.sum ∧ xs.sum ≤ 0 := by
    induction xs with
    | nil => simp
    | cons x xs ih =>
      obtain ⟨h1, h2⟩ := ih fun y hy => h y (List.mem_cons_of_mem _ hy)
      have hx := h x (List.mem_cons_self ..)
      rw [List.map_cons, List.sum_cons, List.sum_cons, h1, abs_of_nonpos hx]
      exact ⟨by ring, by linarith⟩
  rw [e.1, abs_of_nonpos e.2]

theorem neg_sum_forall {α : Type*} {cells : List α} {ys : List ℝ} {R : α → ℝ → Prop} (h : List.Forall₂ R cells ys) :
    List.Forall₂ (fun c z => R c (-z)) cells (ys.map fun y => -y) := by
  induction h with
  | nil => exact .nil
  | cons hxy _ ih => exact .cons (by simpa using hxy) ih

theorem sum_map_neg' {α : Type*} (f : α → ℝ) (l : List α) : (l.map fun x => -f x).sum = -(l.map f).sum := by
  induction l with
  | nil => simp
  | cons x l ih => rw [List.map_cons, List.sum_cons, ih, List.map_cons, List.sum_cons]; ring

/-- C139: the log likelihood of any number of answers, computed from given logits with any order of all sums, has a small relative error plus a
small error per answer: there is no cancellation. -/
theorem C139_log_likelihood (hF : SoundFloats F u η) {h h' n : ℕ} (hσ : shiftedSumError u η h n ≤ 1 / 2) {cells : List (List ℝ × ℝ)}
    (hc : ∀ c ∈ cells, c.2 ∈ c.1 ∧ c.1.length ≤ n) {ll : ℝ} (hll : flLogLikelihood F h h' cells ll) :
    |ll - (cells.map fun c => logProb c.1 c.2).sum|
      ≤ ((1 + u) ^ (h' + 2) - 1) * |(cells.map fun c => logProb c.1 c.2).sum| + (1 + u) ^ (h' + 2) * (2 * shiftedSumError u η h n) * cells.length := by
  obtain ⟨ys, hys, s, hs, rfl⟩ := hll
  have key := SumsTo.total hF.rnd hF.u_nonneg (fun c : List ℝ × ℝ => -logProb c.1 c.2) (a := (1 + u) ^ 2 - 1)
    (b := (1 + u) ^ 2 * (2 * shiftedSumError u η h n)) (neg_sum_forall hys) (by
      intro c hcm z hz
      obtain ⟨h1, h2⟩ := hc c hcm
      have h3 := shiftedSumError_mono hF h h2
      have := C139_log_softmax hF h1 (h3.trans hσ) hz
      rw [abs_neg, show z - -logProb c.1 c.2 = -(-z - logProb c.1 c.2) by ring, abs_neg]
      have hu := hF.u_nonneg
      have : (1 + u) ^ 2 * (2 * shiftedSumError u η h c.1.length) ≤ (1 + u) ^ 2 * (2 * shiftedSumError u η h n) :=
        mul_le_mul_of_nonneg_left (by linarith) (by positivity)
      linarith) hs
  rw [sum_map_neg'] at key
  have e : ((cells.map fun c => -logProb c.1 c.2).map abs).sum = |(cells.map fun c => logProb c.1 c.2).sum| := by
    rw [← sum_abs_nonpos]
    · simp [List.map_map, Function.comp_def, abs_neg]
    · intro x hx
      obtain ⟨c, hcm, rfl⟩ := List.mem_map.1 hx
      exact logProb_nonpos (hc c hcm).1
  rw [e] at key
  rw [show -s - (cells.map fun c => logProb c.1 c.2).sum = -(s - -(cells.map fun c => logProb c.1 c.2).sum) by ring, abs_neg]
  refine key.trans (le_of_eq ?_)
  rw [pow_add]
  ring

/-- Logits that are off by `l` give log probabilities that are off by at most `2 l`. -/
theorem logProb_close {α : Type*} (cs : List α) (f g : α → ℝ) (l : ℝ) (hl : ∀ c ∈ cs, |f c - g c| ≤ l) (c : α) (hc : c ∈ cs) :
    |logProb (cs.map f) (f c) - logProb (cs.map g) (g c)| ≤ 2 * l := by
  have one : ∀ f g : α → ℝ, (∀ c ∈ cs, |f c - g c| ≤ l) →
      Real.log ((cs.map f).map Real.exp).sum ≤ Real.log ((cs.map g).map Real.exp).sum + l := by
    intro f g hl
    have pos : ∀ f : α → ℝ, 0 < ((cs.map f).map Real.exp).sum := fun f =>
      lt_of_lt_of_le (Real.exp_pos (f c)) (List.single_le_sum (by simp [Real.exp_nonneg]) _ (by simpa using ⟨c, hc, rfl⟩))
    rw [← Real.log_exp l, ← Real.log_mul (pos g).ne' (Real.exp_pos l).ne']
    refine Real.log_le_log (pos f) ?_
    rw [← List.sum_map_mul_right, List.map_map, List.map_map]
    refine List.sum_le_sum fun c hc => ?_
    simp only [Function.comp_apply]
    rw [← Real.exp_add]
    have := hl c hc
    rw [abs_le] at this
    exact Real.exp_le_exp.2 (by linarith [this.2])
  have h1 := one f g hl
  have h2 := one g f fun c hc => by rw [abs_sub_comm]; exact hl c hc
  have h3 := hl c hc
  unfold logProb
  rw [abs_le] at h3 ⊢
  constructor <;> linarith [h3.1, h3.2]

theorem forall₂_refl_map {α : Type*} (cs : List α) (f g : α → ℝ) :
    |(cs.map f).sum - (cs.map g).sum| ≤ (cs.map fun c => |f c - g c|).sum := by
  induction cs with
  | nil => simp
  | cons c cs ih =>
    simp only [List.map_cons, List.sum_cons]
    have := abs_add_le (f c - g c) ((cs.map f).sum - (cs.map g).sum)
    rw [show f c + (cs.map f).sum - (g c + (cs.map g).sum) = f c - g c + ((cs.map f).sum - (cs.map g).sum) by ring]
    linarith

/-- C139: the log likelihood of a multinomial logit model when the logits themselves are off by at most `l`. `asked` lists the answered cells
(respondent, item), `y` the answers, `z` the computed logits. -/
theorem C139_logit_model (hF : SoundFloats F u η) {d : ℕ} {cats : List ℕ} {P : (Fin d → ℝ) → ℕ → ℕ → ℝ} {A : ℕ → ℕ → Fin d → ℝ}
    {B : ℕ → ℕ → ℝ} (hm : LogitModel cats P A B) (θ : ℕ → Fin d → ℝ) (asked : List (ℕ × ℕ)) (y : ℕ → ℕ → ℕ) (z : ℕ → ℕ → ℕ → ℝ)
    {h h' n : ℕ} (hσ : shiftedSumError u η h n ≤ 1 / 2) (l : ℝ)
    (hcell : ∀ q ∈ asked, ∃ c, cats[q.2]? = some c ∧ y q.1 q.2 < c ∧ c ≤ n ∧
      ∀ r, r < c → |z q.1 q.2 r - (∑ k, A q.2 r k * θ q.1 k + B q.2 r)| ≤ l)
    {ll : ℝ} (hll : flLogLikelihood F h h' (asked.map fun q => ((List.range (cats.getD q.2 0)).map (z q.1 q.2), z q.1 q.2 (y q.1 q.2))) ll) :
    |ll - (asked.map fun q => Real.log (P (θ q.1) q.2 (y q.1 q.2))).sum|
      ≤ ((1 + u) ^ (h' + 2) - 1) * |(asked.map fun q => Real.log (P (θ q.1) q.2 (y q.1 q.2))).sum|
        + (1 + u) ^ (h' + 2) * (2 * l + 2 * shiftedSumError u η h n) * asked.length := by
  have h1 := C139_log_likelihood hF hσ (by
    intro c hc
    obtain ⟨q, hq, rfl⟩ := List.mem_map.1 hc
    obtain ⟨k, hk, hy, hn, -⟩ := hcell q hq
    have e : cats.getD q.2 0 = k := by simp [List.getD_eq_getElem?_getD, hk]
    simp only [e]
    exact ⟨List.mem_map.2 ⟨_, List.mem_range.2 hy, rfl⟩, by simpa using hn⟩) hll
  rw [List.length_map, List.map_map] at h1
  have h2 : |(asked.map ((fun c : List ℝ × ℝ => logProb c.1 c.2) ∘
      fun q => ((List.range (cats.getD q.2 0)).map (z q.1 q.2), z q.1 q.2 (y q.1 q.2)))).sum
      - (asked.map fun q => Real.log (P (θ q.1) q.2 (y q.1 q.2))).sum| ≤ 2 * l * asked.length := by
    refine (forall₂_refl_map _ _ _).trans ?_
    have := List.sum_le_card_nsmul (asked.map fun q => |((fun c : List ℝ × ℝ => logProb c.1 c.2) ∘
      fun q => ((List.range (cats.getD q.2 0)).map (z q.1 q.2), z q.1 q.2 (y q.1 q.2))) q - Real.log (P (θ q.1) q.2 (y q.1 q.2))|) (2 * l) (by
      intro x hx
      obtain ⟨q, hq, rfl⟩ := List.mem_map.1 hx
      obtain ⟨k, hk, hy, hn, hl⟩ := hcell q hq
      have e : cats.getD q.2 0 = k := by simp [List.getD_eq_getElem?_getD, hk]
      have := logProb_close (List.range k) (z q.1 q.2) (fun r => ∑ k, A q.2 r k * θ q.1 k + B q.2 r) l
        (fun r hr => hl r (List.mem_range.1 hr)) (y q.1 q.2) (List.mem_range.2 hy)
      have e2 : logProb ((List.range k).map fun r => ∑ k, A q.2 r k * θ q.1 k + B q.2 r) (∑ k, A q.2 (y q.1 q.2) k * θ q.1 k + B q.2 (y q.1 q.2))
          = Real.log (P (θ q.1) q.2 (y q.1 q.2)) := by
        rw [hm.log_eq _ _ _ _ hk hy, logProb, List.map_map, Finset.sum_range]
        congr 2
        rw [← List.sum_ofFn]
        congr 1
        exact List.ext_getElem (by simp) fun i _ _ => by simp
      simp only [Function.comp_apply, e]
      rwa [e2] at this)
    simpa [mul_comm] using this
  set X := (asked.map ((fun c : List ℝ × ℝ => logProb c.1 c.2) ∘
      fun q => ((List.range (cats.getD q.2 0)).map (z q.1 q.2), z q.1 q.2 (y q.1 q.2)))).sum
  set Y := (asked.map fun q => Real.log (P (θ q.1) q.2 (y q.1 q.2))).sum
  have h3 : |X| ≤ |Y| + 2 * l * asked.length := by
    have := abs_add_le (X - Y) Y
    rw [sub_add_cancel] at this
    linarith
  have hu := hF.u_nonneg
  have h4 : 0 ≤ (1 + u) ^ (h' + 2) - 1 := by linarith [one_le_pow₀ (by linarith : (1:ℝ) ≤ 1 + u) (n := h' + 2)]
  have h5 := mul_le_mul_of_nonneg_left h3 h4
  have h6 := abs_add_le (ll - X) (X - Y)
  rw [sub_add_sub_cancel] at h6
  have e1 : ((1 + u) ^ (h' + 2) - 1) * (|Y| + 2 * l * asked.length)
      = ((1 + u) ^ (h' + 2) - 1) * |Y| + (1 + u) ^ (h' + 2) * (2 * l) * asked.length - 2 * l * asked.length := by ring
  have e2 : (1 + u) ^ (h' + 2) * (2 * l + 2 * shiftedSumError u η h n) * asked.length
      = (1 + u) ^ (h' + 2) * (2 * l) * asked.length + (1 + u) ^ (h' + 2) * (2 * shiftedSumError u η h n) * asked.length := by ring
  linarith

/-! ## Logits -/

theorem zipWith_eq_map (f : ℝ → ℝ → ℝ) (xs ys : List ℝ) : List.zipWith f xs ys = (xs.zip ys).map fun p => f p.1 p.2 := by
  simp [List.zip, List.map_zipWith]

/-- C139: the logit of an item: products, sum in any order, and intercept. -/
theorem C139_linear (hF : SoundFloats F u η) {h : ℕ} {theta w : List ℝ} {b z : ℝ} (hz : flLinear F h theta w b z) :
    |z - (dot theta w + b)| ≤ ((1 + u) ^ (h + 2) - 1) * ((List.zipWith (fun t v => |t * v|) theta w).sum + |b|)
      + (1 + u) ^ (h + 1) * (theta.length * η) := by
  obtain ⟨s, hs, rfl⟩ := hz
  have hu := hF.u_nonneg
  have hη := hF.η_nonneg
  rw [zipWith_eq_map] at hs
  have key := SumsTo.total hF.rnd hu (fun p : ℝ × ℝ => p.1 * p.2) (a := u) (b := η)
    (forall₂_map_self (theta.zip w) fun p => F.mul p.1 p.2) (by rintro p _ _ rfl; exact hF.mul p.1 p.2) hs
  have e1 : ((theta.zip w).map fun p => p.1 * p.2).sum = dot theta w := by
    rw [dot, zipWith_eq_map]
  have e2 : (((theta.zip w).map fun p => p.1 * p.2).map abs).sum = (List.zipWith (fun t v => |t * v|) theta w).sum := by
    rw [zipWith_eq_map, List.map_map]; rfl
  rw [e1, e2] at key
  set T := (List.zipWith (fun t v => |t * v|) theta w).sum with hT
  have hT0 : 0 ≤ T := by
    rw [← e2]
    refine List.sum_nonneg fun x hx => ?_
    obtain ⟨y, -, rfl⟩ := List.mem_map.1 hx
    exact abs_nonneg y
  have hd : |dot theta w| ≤ T := by rw [← e1, ← e2]; exact abs_sum_le _
  have hlen : ((theta.zip w).length : ℝ) * η ≤ theta.length * η := by
    refine mul_le_mul_of_nonneg_right ?_ hη
    exact_mod_cast (by simp : (theta.zip w).length ≤ theta.length)
  have hp : 1 ≤ (1 + u) ^ h := one_le_pow₀ (by linarith)
  have key' : |s - dot theta w| ≤ ((1 + u) ^ (h + 1) - 1) * T + (1 + u) ^ h * (theta.length * η) := by
    refine key.trans ?_
    rw [pow_succ]
    have := mul_le_mul_of_nonneg_left hlen (by linarith : 0 ≤ (1 + u) ^ h)
    linarith
  have h1 := hF.rnd (s + b)
  have hb := abs_nonneg b
  have h2 : |s + b| ≤ (1 + u) ^ (h + 1) * (T + |b|) + (1 + u) ^ h * (theta.length * η) := by
    have a1 := abs_add_le s b
    have a2 := abs_add_le (s - dot theta w) (dot theta w)
    rw [sub_add_cancel] at a2
    have a3 : 1 * |b| ≤ (1 + u) ^ (h + 1) * |b| := mul_le_mul_of_nonneg_right (one_le_pow₀ (by linarith)) hb
    nlinarith
  have h3 := mul_le_mul_of_nonneg_left h2 hu
  have h4 := abs_add_le (F.rnd (s + b) - (s + b)) (s - dot theta w)
  rw [show F.rnd (s + b) - (s + b) + (s - dot theta w) = F.rnd (s + b) - (dot theta w + b) by ring] at h4
  have a4 : 0 ≤ ((1 + u) ^ (h + 1) - 1) * |b| := mul_nonneg (by linarith [one_le_pow₀ (by linarith : (1:ℝ) ≤ 1 + u) (n := h + 1)]) hb
  have e3 : (1 + u) ^ (h + 2) = (1 + u) ^ (h + 1) + u * (1 + u) ^ (h + 1) := by ring
  have e4 : (1 + u) ^ (h + 1) * (theta.length * η) = (1 + u) ^ h * (theta.length * η) + u * ((1 + u) ^ h * (theta.length * η)) := by ring
  rw [e3, e4]
  linarith

/-- C139: the log likelihood of a two-parameter logistic model from the parameters and the latent scores: every product, sum, exponential and
logarithm is rounded, and all sums are taken in any order. `D` bounds the sizes of slopes times scores plus intercept. -/
theorem C139_twoPL (hF : SoundFloats F u η) (m : TwoPL) (hwf : m.WF) {d : ℕ} (θ : ℕ → Fin d → ℝ) (asked : List (ℕ × ℕ)) (y : ℕ → ℕ → ℕ)
    (z : ℕ → ℕ → ℝ) {g h h' : ℕ} (hσ : shiftedSumError u η h 2 ≤ 1 / 2) (D : ℝ)
    (hcell : ∀ q ∈ asked, y q.1 q.2 < 2 ∧ ∃ w b, m.itemParameters[q.2]? = some (w, b) ∧
      (List.zipWith (fun t v => |t * v|) (List.ofFn (θ q.1)) w).sum + |b| ≤ D ∧ flLinear F g (List.ofFn (θ q.1)) w b (z q.1 q.2))
    {ll : ℝ} (hll : flLogLikelihood F h h' (asked.map fun q => ([0, z q.1 q.2], if y q.1 q.2 = 0 then 0 else z q.1 q.2)) ll) :
    |ll - (asked.map fun q => Real.log (tableProb (m.probs (List.ofFn (θ q.1))) q.2 (y q.1 q.2))).sum|
      ≤ ((1 + u) ^ (h' + 2) - 1) * |(asked.map fun q => Real.log (tableProb (m.probs (List.ofFn (θ q.1))) q.2 (y q.1 q.2))).sum|
        + (1 + u) ^ (h' + 2) * (2 * (((1 + u) ^ (g + 2) - 1) * D + (1 + u) ^ (g + 1) * (d * η)) + 2 * shiftedSumError u η h 2) * asked.length := by
  have hu := hF.u_nonneg
  have hη := hF.η_nonneg
  have hpos : 0 ≤ (1 + u) ^ (g + 2) - 1 := by linarith [one_le_pow₀ (by linarith : (1:ℝ) ≤ 1 + u) (n := g + 2)]
  have hitem : ∀ q ∈ asked, (List.replicate m.items 2)[q.2]? = some 2 := by
    intro q hq
    obtain ⟨-, w, b, hp, -⟩ := hcell q hq
    have : q.2 < m.items := by
      have h1 := lt_of_getElem?_some hp
      rw [TwoPL.itemParameters, List.length_zip] at h1
      have h2 : q.2 < m.weights.length := by omega
      rwa [TwoPL.weights, length_viewRows] at h2
    simp [this]
  refine C139_logit_model hF (m.logitModel hwf d) θ asked y (fun i j r => if r = 0 then 0 else z i j) hσ _ (fun q hq => ?_) ?_
  · obtain ⟨hy, w, b, hp, hD, hz⟩ := hcell q hq
    refine ⟨2, hitem q hq, hy, le_rfl, fun r hr => ?_⟩
    have hl := C139_linear hF hz
    have hle : |z q.1 q.2 - (dot (List.ofFn (θ q.1)) w + b)| ≤ ((1 + u) ^ (g + 2) - 1) * D + (1 + u) ^ (g + 1) * (d * η) := by
      refine hl.trans ?_
      rw [List.length_ofFn]
      have := mul_le_mul_of_nonneg_left hD hpos
      linarith
    interval_cases r
    · simp only [if_true, CharP.cast_eq_zero, zero_mul, Finset.sum_const_zero, add_zero, sub_zero, abs_zero]
      exact (abs_nonneg _).trans hle
    · have e : ∑ k : Fin d, ((1 : ℕ) : ℝ) * slopeOf m.itemParameters q.2 k * θ q.1 k
          + ((1 : ℕ) : ℝ) * ((m.itemParameters[q.2]?).map Prod.snd).getD 0 = dot (List.ofFn (θ q.1)) w + b := by
        rw [dot_ofFn, hp]
        simp only [slopeOf_eq _ _ _ _ hp, Option.map_some, Option.getD_some, Nat.cast_one, one_mul]
        congr 1
        exact Finset.sum_congr rfl fun k _ => mul_comm _ _
      rw [e]
      simpa using hle
  · have e : (asked.map fun q => ((List.range ((List.replicate m.items 2).getD q.2 0)).map (fun r => if r = 0 then 0 else z q.1 q.2),
        if y q.1 q.2 = 0 then 0 else z q.1 q.2)) = asked.map fun q => ([0, z q.1 q.2], if y q.1 q.2 = 0 then 0 else z q.1 q.2) := by
      refine List.map_congr_left fun q hq => ?_
      rw [List.getD_eq_getElem?_getD, hitem q hq]
      rfl
    rw [e]
    exact hll

/-! ## Probabilities and expected scores -/

theorem SumTree.eval_ge (hF : OrderlyFloats F) (t : SumTree) (ht : ∀ x ∈ t.leaves, 0 ≤ x ∧ F.rnd x = x) :
    0 ≤ t.eval F ∧ ∀ x ∈ t.leaves, x ≤ t.eval F := by
  induction t with
  | zero => simp [SumTree.eval, SumTree.leaves]
  | leaf x => simpa [SumTree.eval, SumTree.leaves] using (ht x (by simp [SumTree.leaves])).1
  | node l r hl hr =>
    simp only [SumTree.leaves, List.mem_append] at ht ⊢
    obtain ⟨l0, lx⟩ := hl fun x hx => ht x (Or.inl hx)
    obtain ⟨r0, rx⟩ := hr fun x hx => ht x (Or.inr hx)
    simp only [SumTree.eval]
    refine ⟨hF.zero ▸ hF.mono _ _ (by linarith), fun x hx => ?_⟩
    rcases hx with hx | hx
    · rw [← (ht x (Or.inl hx)).2]
      exact hF.mono _ _ (by linarith [lx x hx])
    · rw [← (ht x (Or.inr hx)).2]
      exact hF.mono _ _ (by linarith [rx x hx])

/-- C139: computed probabilities of categories are never below zero or above one, whatever the logits and the order of summation. -/
theorem C139_range (hF : OrderlyFloats F) {h : ℕ} {xs : List ℝ} {x p : ℝ} (hx : x ∈ xs) (hp : flSoftmax F h xs x p) : 0 ≤ p ∧ p ≤ 1 := by
  obtain ⟨s, ⟨t, hperm, -, rfl⟩, rfl⟩ := hp
  obtain ⟨-, hge⟩ := t.eval_ge hF fun y hy => by
    obtain ⟨c, -, rfl⟩ := List.mem_map.1 (hperm.subset hy)
    exact ⟨hF.exp_nonneg _, hF.exp_rounded _⟩
  have hmem : ∀ c ∈ xs, F.exp (F.rnd (c - columnMax xs)) ≤ t.eval F := fun c hc =>
    hge _ (hperm.symm.subset (List.mem_map.2 ⟨c, hc, rfl⟩))
  have hmax := hmem _ (columnMax_isGreatest xs (List.ne_nil_of_mem hx)).1
  rw [sub_self, hF.zero, hF.exp_zero] at hmax
  exact hF.div_range _ _ (hF.exp_nonneg _) (hmem x hx) (by linarith)

/-- C139: computed probabilities of categories are close to the exact ones, also where the exponentials underflow. -/
theorem C139_softmax (hF : SoundFloats F u η) {h : ℕ} {xs : List ℝ} {x p : ℝ} (hx : x ∈ xs)
    (hσ : shiftedSumError u η h xs.length ≤ 1 / 2) (hp : flSoftmax F h xs x p) :
    |p - probOf xs x| ≤ u + η + (1 + u) * (2 * (2 * u + η) + 2 * shiftedSumError u η h xs.length) := by
  obtain ⟨s, hs, rfl⟩ := hp
  have hne := List.ne_nil_of_mem hx
  have hu := hF.u_nonneg
  have h0 := hF.shifted hs
  have hS := one_le_shiftedSum hne
  have he := hF.exp_shift (x - columnMax xs) (by linarith [le_columnMax hx])
  set σ := shiftedSumError u η h xs.length
  set S := shiftedSum xs with hSdef
  set e := F.exp (F.rnd (x - columnMax xs))
  set a := Real.exp (x - columnMax xs) with ha
  have hprob : probOf xs x = a / S := by
    rw [probOf, sum_exp_eq, ha, Real.exp_sub, ← hSdef]
    have := (Real.exp_pos (columnMax xs)).ne'
    field_simp
  have haS : a ≤ S := List.single_le_sum (l := xs.map fun x => Real.exp (x - columnMax xs)) (by simp [Real.exp_nonneg]) _
    (List.mem_map.2 ⟨x, hx, rfl⟩)
  have ha0 : 0 < a := Real.exp_pos _
  rw [abs_le] at h0
  have hs0 : 1 / 2 ≤ s := by linarith
  have hs1 : 0 < s := by linarith
  have hq : |e / s - a / S| ≤ 2 * (2 * u + η) + 2 * σ := by
    have e1 : e / s - a / S = (e - a) / s + a / S * ((S - s) / s) := by
      have : S ≠ 0 := by linarith
      field_simp
      ring
    rw [e1]
    refine (abs_add_le _ _).trans (add_le_add ?_ ?_)
    · rw [abs_div, abs_of_pos hs1, div_le_iff₀ hs1]
      have := abs_nonneg (e - a)
      nlinarith
    · have h1 : |a / S| ≤ 1 := by
        rw [abs_of_pos (by positivity), div_le_one (by linarith)]; exact haS
      have h2 : |(S - s) / s| ≤ 2 * σ := by
        rw [abs_div, abs_of_pos hs1, div_le_iff₀ hs1]
        have : |S - s| ≤ σ := by rw [abs_le]; constructor <;> linarith
        have h3 := abs_nonneg (S - s)
        nlinarith
      rw [abs_mul]
      calc |a / S| * |(S - s) / s| ≤ 1 * |(S - s) / s| := mul_le_mul_of_nonneg_right h1 (abs_nonneg _)
        _ ≤ _ := by linarith
  have hdiv := hF.div e s hs1.ne'
  have hP1 : |a / S| ≤ 1 := by
    rw [abs_of_pos (by positivity), div_le_one (by linarith)]; exact haS
  have h5 : |e / s| ≤ 1 + (2 * (2 * u + η) + 2 * σ) := by
    have := abs_add_le (e / s - a / S) (a / S)
    rw [sub_add_cancel] at this
    linarith
  have h6 := mul_le_mul_of_nonneg_left h5 hu
  have h7 := abs_add_le (F.div e s - e / s) (e / s - a / S)
  rw [sub_add_sub_cancel, ← hprob] at h7
  rw [← hprob] at hq
  linarith

/-- C139: the expected score of an item has a small relative error, given its probabilities. -/
theorem C139_expected_score (hF : SoundFloats F u η) {h : ℕ} {ps : List ℝ} (hps : ∀ p ∈ ps, 0 ≤ p) {s : ℝ} (hs : flExpectedScore F h ps s) :
    |s - (List.zipWith (fun (r : ℕ) p => (r : ℝ) * p) (List.range ps.length) ps).sum|
      ≤ ((1 + u) ^ (h + 1) - 1) * (List.zipWith (fun (r : ℕ) p => (r : ℝ) * p) (List.range ps.length) ps).sum
        + (1 + u) ^ h * (ps.length * η) := by
  have zip : ∀ (f : ℕ → ℝ → ℝ), List.zipWith f (List.range ps.length) ps = ((List.range ps.length).zip ps).map fun q => f q.1 q.2 := by
    intro f
    simp [List.zip, List.map_zipWith]
  unfold flExpectedScore at hs
  rw [zip] at hs
  have key := SumsTo.total hF.rnd hF.u_nonneg (fun q : ℕ × ℝ => (q.1 : ℝ) * q.2) (a := u) (b := η)
    (forall₂_map_self ((List.range ps.length).zip ps) fun q => F.mul q.2 q.1) (by
      rintro q _ _ rfl
      have := hF.mul q.2 q.1
      rwa [mul_comm q.2] at this) hs
  rw [zip]
  have e : ((((List.range ps.length).zip ps).map fun q : ℕ × ℝ => (q.1 : ℝ) * q.2).map abs).sum
      = (((List.range ps.length).zip ps).map fun q : ℕ × ℝ => (q.1 : ℝ) * q.2).sum := by
    rw [List.map_map]
    congr 1
    refine List.map_congr_left fun q hq => ?_
    have := hps q.2 (List.of_mem_zip hq).2
    exact abs_of_nonneg (mul_nonneg (Nat.cast_nonneg _) this)
  have hlen : ((List.range ps.length).zip ps).length = ps.length := by simp
  rw [e, hlen] at key
  rw [pow_succ]
  exact key

/-! ## Marginal likelihood -/

theorem logSumExp_close {α : Type*} (cs : List α) (hne : cs ≠ []) (f g : α → ℝ) (l : ℝ) (hl : ∀ c ∈ cs, |f c - g c| ≤ l) :
    |Real.log ((cs.map f).map Real.exp).sum - Real.log ((cs.map g).map Real.exp).sum| ≤ l := by
  have pos : ∀ f : α → ℝ, 0 < ((cs.map f).map Real.exp).sum := fun f => by
    obtain ⟨c, hc⟩ := List.exists_mem_of_ne_nil cs hne
    exact lt_of_lt_of_le (Real.exp_pos (f c)) (List.single_le_sum (by simp [Real.exp_nonneg]) _ (by simpa using ⟨c, hc, rfl⟩))
  have one : ∀ f g : α → ℝ, (∀ c ∈ cs, |f c - g c| ≤ l) →
      Real.log ((cs.map f).map Real.exp).sum ≤ Real.log ((cs.map g).map Real.exp).sum + l := by
    intro f g hl
    rw [← Real.log_exp l, ← Real.log_mul (pos g).ne' (Real.exp_pos l).ne']
    refine Real.log_le_log (pos f) ?_
    rw [← List.sum_map_mul_right, List.map_map, List.map_map]
    refine List.sum_le_sum fun c hc => ?_
    simp only [Function.comp_apply]
    rw [← Real.exp_add]
    have := hl c hc
    rw [abs_le] at this
    exact Real.exp_le_exp.2 (by linarith [this.2])
  have h1 := one f g hl
  have h2 := one g f fun c hc => by rw [abs_sub_comm]; exact hl c hc
  rw [abs_le]
  constructor <;> linarith

/-- C139: the marginal likelihood loss. `cols` has, for every respondent and every point, the computed and the exact log weight plus log
likelihood, which are off by at most `l`. -/
theorem C139_mml_loss (hF : SoundFloats F u η) {h h' n : ℕ} (hσ : shiftedSumError u η h n ≤ 1 / 2) (l : ℝ) (cols : List (List (ℝ × ℝ)))
    (hc : ∀ c ∈ cols, c ≠ [] ∧ c.length ≤ n ∧ ∀ p ∈ c, |p.1 - p.2| ≤ l) {loss : ℝ}
    (hloss : flMmlLoss F h h' (cols.map fun c => c.map Prod.fst) loss) :
    |loss - -(cols.map fun c => Real.log ((c.map Prod.snd).map Real.exp).sum).sum|
      ≤ ((1 + u) ^ (h' + 1) - 1) * ((cols.map fun c => Real.log ((c.map Prod.snd).map Real.exp).sum).map abs).sum
        + (1 + u) ^ (h' + 1) * (cols.length * (l + u * Real.log n + (1 + u) * (2 * shiftedSumError u η h n))) := by
  obtain ⟨ys, hys, s, hs, rfl⟩ := hloss
  have hu := hF.u_nonneg
  rw [List.forall₂_map_left_iff] at hys
  have key := SumsTo.total hF.rnd hu (fun c : List (ℝ × ℝ) => Real.log ((c.map Prod.snd).map Real.exp).sum) (a := u)
    (b := (1 + u) * (l + u * Real.log n + (1 + u) * (2 * shiftedSumError u η h n))) hys (by
      intro c hcm y hy
      obtain ⟨hne, hlen, hl⟩ := hc c hcm
      obtain ⟨t, ht, rfl⟩ := hy
      have hne' : c.map Prod.fst ≠ [] := by simpa using hne
      have hσ' : shiftedSumError u η h (c.map Prod.fst).length ≤ shiftedSumError u η h n := shiftedSumError_mono hF h (by simpa using hlen)
      have h1 := hF.log_shifted hne' ht (hσ'.trans hσ)
      have h2 := logSumExp_close c hne Prod.fst Prod.snd l hl
      have h3 : Real.log (shiftedSum (c.map Prod.fst)) ≤ Real.log n :=
        Real.log_le_log (by linarith [one_le_shiftedSum hne']) ((shiftedSum_le _).trans (by simpa using hlen))
      have h4 := hF.rnd (F.log t + columnMax (c.map Prod.fst))
      rw [log_sum_exp_shift hne'] at h2
      set L := Real.log ((c.map Prod.snd).map Real.exp).sum
      have h5 : |F.log t + columnMax (c.map Prod.fst) - L| ≤ l + u * Real.log n + (1 + u) * (2 * shiftedSumError u η h n) := by
        have a1 := mul_le_mul_of_nonneg_left h3 hu
        have a2 := mul_le_mul_of_nonneg_left hσ' (by linarith : 0 ≤ 1 + u)
        rw [abs_le] at h1 h2 ⊢
        constructor <;> linarith [h1.1, h1.2, h2.1, h2.2]
      have h6 : |F.log t + columnMax (c.map Prod.fst)| ≤ |L| + (l + u * Real.log n + (1 + u) * (2 * shiftedSumError u η h n)) := by
        have := abs_add_le (F.log t + columnMax (c.map Prod.fst) - L) L
        rw [sub_add_cancel] at this
        linarith
      have h7 := mul_le_mul_of_nonneg_left h6 hu
      have h8 := abs_add_le (F.rnd (F.log t + columnMax (c.map Prod.fst)) - (F.log t + columnMax (c.map Prod.fst)))
        (F.log t + columnMax (c.map Prod.fst) - L)
      rw [sub_add_sub_cancel] at h8
      linarith) hs
  rw [show -s - -(cols.map fun c => Real.log ((c.map Prod.snd).map Real.exp).sum).sum
    = -(s - (cols.map fun c => Real.log ((c.map Prod.snd).map Real.exp).sum).sum) by ring, abs_neg]
  refine key.trans (le_of_eq ?_)
  rw [pow_succ]
  ring

/-! ## EAP scores -/

theorem SumTree.eval_lower (hF : ∀ x, |F.rnd x - x| ≤ u * |x|) (hu : 0 ≤ u) (hu1 : u ≤ 1) (t : SumTree) (ht : ∀ x ∈ t.leaves, 0 ≤ x) :
    (1 - u) ^ t.depth * t.leaves.sum ≤ t.eval F := by
  induction t with
  | zero => simp [SumTree.eval, SumTree.leaves, SumTree.depth]
  | leaf x => simp [SumTree.eval, SumTree.leaves, SumTree.depth]
  | node l r hl hr =>
    simp only [SumTree.leaves, List.mem_append] at ht
    have hl := hl fun x hx => ht x (Or.inl hx)
    have hr := hr fun x hx => ht x (Or.inr hx)
    have l0 : 0 ≤ l.leaves.sum := List.sum_nonneg fun x hx => ht x (Or.inl hx)
    have r0 : 0 ≤ r.leaves.sum := List.sum_nonneg fun x hx => ht x (Or.inr hx)
    have down : ∀ a b : ℕ, a ≤ b → (1 - u) ^ b ≤ (1 - u) ^ a := fun a b h => pow_le_pow_of_le_one (by linarith) (by linarith) h
    have hl' := (mul_le_mul_of_nonneg_right (down _ _ (le_max_left l.depth r.depth)) l0).trans hl
    have hr' := (mul_le_mul_of_nonneg_right (down _ _ (le_max_right l.depth r.depth)) r0).trans hr
    simp only [SumTree.eval, SumTree.leaves, SumTree.depth, List.sum_append, pow_succ]
    have hp : 0 ≤ (1 - u) ^ max l.depth r.depth := pow_nonneg (by linarith) _
    have h0 : 0 ≤ l.eval F + r.eval F := by nlinarith
    have h1 := hF (l.eval F + r.eval F)
    rw [abs_of_nonneg h0, abs_le] at h1
    have h2 : (1 - u) ^ max l.depth r.depth * (l.leaves.sum + r.leaves.sum) ≤ l.eval F + r.eval F := by linarith
    have h3 := mul_le_mul_of_nonneg_right h2 (by linarith : 0 ≤ 1 - u)
    nlinarith [h1.1]

/-- C139: EAP scores. `points` has the value of the latent variable, the computed log posterior, which is off by at most `l`, and the exact
one; the exponentials do not underflow (see C103 for those that do). -/
theorem C139_eap {G : FloatOps} {u' : ℝ} (hF : SoundFloats F u 0) (hG : SoundFloats G u' η) {h h' : ℕ} (l M : ℝ) (points : List (ℝ × ℝ × ℝ))
    (hne : points ≠ []) (hp : ∀ p ∈ points, |p.1| ≤ M ∧ |p.2.1 - p.2.2| ≤ l ∧ |F.exp p.2.1 - Real.exp p.2.1| ≤ u * Real.exp p.2.1)
    {e : ℝ} (he : flEap F G h h' (points.map fun p => (p.1, p.2.1)) e) :
    |e - softMean (points.map fun p => (p.1, p.2.2))| ≤ ((1 + u') * ((1 - u)⁻¹ ^ (h + h' + 4) * Real.exp (2 * l)) - 1) * M := by
  obtain ⟨s, hs, e', he', rfl⟩ := he
  rw [List.map_map] at hs he'
  have hu := hF.u_nonneg
  have hu2 := hF.u_le
  set v := (1 - u)⁻¹ with hv
  have hv0 : 0 < v := inv_pos.2 (by linarith)
  have hvu : (1 - u) * v = 1 := mul_inv_cancel₀ (by linarith)
  have hv1 : 1 + u ≤ v := by nlinarith
  have hone : 1 ≤ v := by linarith
  set E := Real.exp l with hE
  have hE0 : 0 < E := Real.exp_pos l
  obtain ⟨p0, hp0⟩ := List.exists_mem_of_ne_nil points hne
  have hl0 : 0 ≤ l := (abs_nonneg _).trans (hp p0 hp0).2.1
  have hE1 : 1 ≤ E := Real.one_le_exp hl0
  have hM0 : 0 ≤ M := (abs_nonneg _).trans (hp p0 hp0).1
  -- the weights
  have hw : ∀ p ∈ points, F.exp p.2.1 ≤ v * E * Real.exp p.2.2 ∧ Real.exp p.2.2 ≤ v * E * F.exp p.2.1 := by
    intro p hpm
    obtain ⟨-, h2, h3⟩ := hp p hpm
    rw [abs_le] at h2 h3
    have a1 : Real.exp p.2.1 ≤ E * Real.exp p.2.2 := by
      rw [hE, ← Real.exp_add]; exact Real.exp_le_exp.2 (by linarith)
    have a2 : Real.exp p.2.2 ≤ E * Real.exp p.2.1 := by
      rw [hE, ← Real.exp_add]; exact Real.exp_le_exp.2 (by linarith)
    have b1 := Real.exp_pos p.2.1
    have b2 := Real.exp_pos p.2.2
    constructor
    · calc F.exp p.2.1 ≤ (1 + u) * Real.exp p.2.1 := by linarith
        _ ≤ v * (E * Real.exp p.2.2) := mul_le_mul hv1 a1 b1.le hv0.le
        _ = _ := by ring
    · have c1 : Real.exp p.2.1 ≤ v * F.exp p.2.1 := by
        have : (1 - u) * Real.exp p.2.1 ≤ F.exp p.2.1 := by linarith
        have := mul_le_mul_of_nonneg_left this hv0.le
        nlinarith
      calc Real.exp p.2.2 ≤ E * Real.exp p.2.1 := a2
        _ ≤ E * (v * F.exp p.2.1) := mul_le_mul_of_nonneg_left c1 hE0.le
        _ = _ := by ring
  set W := (points.map fun p => Real.exp p.2.2).sum with hW
  have hW0 : 0 < W := lt_of_lt_of_le (Real.exp_pos p0.2.2) (List.single_le_sum (by
    intro x hx
    obtain ⟨q, -, rfl⟩ := List.mem_map.1 hx
    exact Real.exp_nonneg _) _
    (List.mem_map.2 ⟨p0, hp0, rfl⟩))
  have hwpos : ∀ p ∈ points, 0 < F.exp p.2.1 := by
    intro p hpm
    have := (hw p hpm).2
    have h1 := Real.exp_pos p.2.2
    by_contra hcon
    push Not at hcon
    have : v * E * F.exp p.2.1 ≤ 0 := mul_nonpos_of_nonneg_of_nonpos (by positivity) hcon
    linarith
  -- their sum
  set W' := (points.map fun p => F.exp p.2.1).sum with hW'
  have sumle : ∀ (f g : ℝ × ℝ × ℝ → ℝ) (c : ℝ), (∀ p ∈ points, f p ≤ c * g p) → (points.map f).sum ≤ c * (points.map g).sum := by
    intro f g c hfg
    rw [← List.sum_map_mul_left]
    exact List.sum_le_sum hfg
  have hWW' : W' ≤ v * E * W := sumle _ _ _ fun p hpm => (hw p hpm).1
  have hW'W : W ≤ v * E * W' := sumle _ _ _ fun p hpm => (hw p hpm).2
  have hW'0 : 0 < W' := by
    by_contra hcon
    push Not at hcon
    have : v * E * W' ≤ 0 := mul_nonpos_of_nonneg_of_nonpos (by positivity) hcon
    linarith
  have hcomp : (points.map ((fun p : ℝ × ℝ => F.exp p.2) ∘ fun p => (p.1, p.2.1))) = points.map fun p => F.exp p.2.1 := rfl
  rw [hcomp] at hs
  have hpow : 0 < v ^ h := pow_pos hv0 h
  have hsup : s ≤ v ^ h * W' := by
    have h1 := hs.error hF.rnd hu
    have e1 : ((points.map fun p => F.exp p.2.1).map abs).sum = W' := by
      rw [List.map_map, hW']
      congr 1
      exact List.map_congr_left fun p hpm => abs_of_pos (hwpos p hpm)
    rw [e1, ← hW', abs_le] at h1
    have h2 : (1 + u) ^ h ≤ v ^ h := pow_le_pow_left₀ (by linarith) hv1 h
    nlinarith [h1.2]
  have hslow : W' ≤ v ^ h * s := by
    obtain ⟨t, htp, htd, rfl⟩ := hs
    have h1 := t.eval_lower hF.rnd hu (by linarith) (fun x hx => by
      obtain ⟨p, hpm, rfl⟩ := List.mem_map.1 (htp.subset hx)
      exact (hwpos p hpm).le)
    rw [htp.sum_eq, ← hW'] at h1
    have h2 : (1 - u) ^ h ≤ (1 - u) ^ t.depth := pow_le_pow_of_le_one (by linarith) (by linarith) htd
    have h3 : (1 - u) ^ h * W' ≤ t.eval F := (mul_le_mul_of_nonneg_right h2 hW'0.le).trans h1
    have h4 := mul_le_mul_of_nonneg_left h3 hpow.le
    have h5 : v ^ h * ((1 - u) ^ h * W') = W' := by
      rw [← mul_assoc, ← mul_pow, mul_comm v, hvu, one_pow, one_mul]
    linarith
  have hs0 : 0 < s := by
    by_contra hcon
    push Not at hcon
    have : v ^ h * s ≤ 0 := mul_nonpos_of_nonneg_of_nonpos hpow.le hcon
    linarith
  -- the posterior
  set K := v ^ (h + 3) * (E * E) with hK
  have hK1 : 1 ≤ K := one_le_mul_of_one_le_of_one_le (one_le_pow₀ hone) (one_le_mul_of_one_le_of_one_le hE1 hE1)
  have hq : ∀ p ∈ points, F.div (F.exp p.2.1) s ≤ K * (Real.exp p.2.2 / W) ∧ Real.exp p.2.2 / W ≤ K * F.div (F.exp p.2.1) s := by
    intro p hpm
    have h1 := hF.div (F.exp p.2.1) s hs0.ne'
    have hr0 : 0 < F.exp p.2.1 / s := div_pos (hwpos p hpm) hs0
    rw [abs_of_pos hr0, add_zero, abs_le] at h1
    obtain ⟨w1, w2⟩ := hw p hpm
    have x1 : F.exp p.2.1 / s ≤ v ^ (h + 2) * (E * E) * (Real.exp p.2.2 / W) := by
      rw [mul_div_assoc', div_le_div_iff₀ hs0 hW0]
      have b := Real.exp_pos p.2.2
      calc F.exp p.2.1 * W ≤ (v * E * Real.exp p.2.2) * (v * E * W') := mul_le_mul w1 hW'W hW0.le (by positivity)
        _ ≤ (v * E * Real.exp p.2.2) * (v * E * (v ^ h * s)) := by
          refine mul_le_mul_of_nonneg_left (mul_le_mul_of_nonneg_left hslow (by positivity)) (by positivity)
        _ = _ := by ring
    have x2 : Real.exp p.2.2 / W ≤ v ^ (h + 2) * (E * E) * (F.exp p.2.1 / s) := by
      rw [mul_div_assoc', div_le_div_iff₀ hW0 hs0]
      have b := hwpos p hpm
      calc Real.exp p.2.2 * s ≤ (v * E * F.exp p.2.1) * (v ^ h * W') := mul_le_mul w2 hsup hs0.le (by positivity)
        _ ≤ (v * E * F.exp p.2.1) * (v ^ h * (v * E * W)) := by
          refine mul_le_mul_of_nonneg_left (mul_le_mul_of_nonneg_left hWW' (by positivity)) (by positivity)
        _ = _ := by ring
    constructor
    · calc F.div (F.exp p.2.1) s ≤ (1 + u) * (F.exp p.2.1 / s) := by linarith [h1.2]
        _ ≤ v * (v ^ (h + 2) * (E * E) * (Real.exp p.2.2 / W)) := mul_le_mul hv1 x1 hr0.le hv0.le
        _ = _ := by rw [hK]; ring
    · have y1 : F.exp p.2.1 / s ≤ v * F.div (F.exp p.2.1) s := by
        have : (1 - u) * (F.exp p.2.1 / s) ≤ F.div (F.exp p.2.1) s := by linarith [h1.1]
        have := mul_le_mul_of_nonneg_left this hv0.le
        nlinarith
      calc Real.exp p.2.2 / W ≤ v ^ (h + 2) * (E * E) * (F.exp p.2.1 / s) := x2
        _ ≤ v ^ (h + 2) * (E * E) * (v * F.div (F.exp p.2.1) s) := mul_le_mul_of_nonneg_left y1 (by positivity)
        _ = _ := by rw [hK]; ring
  -- the terms of the mean
  have hcomp2 : (points.map ((fun p : ℝ × ℝ => F.mul p.1 (F.div (F.exp p.2) s)) ∘ fun p => (p.1, p.2.1)))
      = points.map fun p => F.mul p.1 (F.div (F.exp p.2.1) s) := rfl
  rw [hcomp2] at he'
  have key := SumsTo.total hF.rnd hu (fun p : ℝ × ℝ × ℝ => p.1 * (Real.exp p.2.2 / W)) (a := v * K - 1) (b := 0)
    (forall₂_map_self points fun p => F.mul p.1 (F.div (F.exp p.2.1) s)) (by
      rintro p hpm _ rfl
      obtain ⟨q1, q2⟩ := hq p hpm
      set π := Real.exp p.2.2 / W with hπ
      set q := F.div (F.exp p.2.1) s
      have hπ0 : 0 < π := div_pos (Real.exp_pos _) hW0
      have hq0 : 0 < q := by
        by_contra hcon
        push Not at hcon
        have : K * q ≤ 0 := mul_nonpos_of_nonneg_of_nonpos (by linarith) hcon
        linarith
      have h1 := hF.mul p.1 q
      have h2 : |q - π| ≤ (K - 1) * π := by
        rw [abs_le]
        constructor
        · have : K * q ≥ π := q2
          nlinarith [mul_nonneg (by linarith : (0:ℝ) ≤ K - 1) (by linarith : (0:ℝ) ≤ K - 1)]
        · linarith
      have h3 : |p.1 * q - p.1 * π| ≤ |p.1| * ((K - 1) * π) := by
        rw [← mul_sub, abs_mul]; exact mul_le_mul_of_nonneg_left h2 (abs_nonneg _)
      have h4 := abs_add_le (F.mul p.1 q - p.1 * q) (p.1 * q - p.1 * π)
      rw [sub_add_sub_cancel] at h4
      have h5 : |p.1 * q| ≤ |p.1| * (K * π) := by
        rw [abs_mul, abs_of_pos hq0]; exact mul_le_mul_of_nonneg_left q1 (abs_nonneg _)
      have h6 := mul_le_mul_of_nonneg_left h5 hu
      have h7 : (1 + u) * (|p.1| * (K * π)) ≤ v * (|p.1| * (K * π)) := mul_le_mul_of_nonneg_right hv1 (by positivity)
      rw [abs_mul, abs_of_pos hπ0]
      rw [add_zero] at h1 ⊢
      linarith) he'
  have hmean : softMean (points.map fun p => (p.1, p.2.2)) = (points.map fun p => p.1 * (Real.exp p.2.2 / W)).sum := by
    rw [softMean, List.map_map, List.map_map, div_eq_mul_inv, ← List.sum_map_mul_right]
    congr 1
    refine List.map_congr_left fun p _ => ?_
    simp only [Function.comp_apply]
    rw [hW, div_eq_mul_inv, mul_assoc]
    rfl
  have habs : ((points.map fun p => p.1 * (Real.exp p.2.2 / W)).map abs).sum ≤ M := by
    rw [List.map_map]
    have h1 := sumle (fun p => |p.1 * (Real.exp p.2.2 / W)|) (fun p => Real.exp p.2.2) (M / W) (by
      intro p hpm
      rw [abs_mul, abs_of_pos (div_pos (Real.exp_pos p.2.2) hW0), div_mul_eq_mul_div, mul_div_assoc']
      exact div_le_div_of_nonneg_right (mul_le_mul_of_nonneg_right (hp p hpm).1 (Real.exp_pos _).le) hW0.le)
    rw [← hW, div_mul_cancel₀ _ hW0.ne'] at h1
    exact h1
  rw [← hmean] at key
  set A := ((points.map fun p => p.1 * (Real.exp p.2.2 / W)).map abs).sum with hA
  set m := softMean (points.map fun p => (p.1, p.2.2))
  have hA0 : 0 ≤ A := by
    rw [hA]
    refine List.sum_nonneg fun x hx => ?_
    obtain ⟨y, -, rfl⟩ := List.mem_map.1 hx
    exact abs_nonneg y
  have hmA : |m| ≤ A := by rw [hmean]; exact abs_sum_le _
  set Q := v ^ (h + h' + 4) * Real.exp (2 * l) with hQ
  have hQe : Q = v ^ h' * (v * K) := by
    rw [hQ, hK, show 2 * l = l + l by ring, Real.exp_add, ← hE]
    ring
  have hvK : 1 ≤ v * K := one_le_mul_of_one_le_of_one_le hone hK1
  have hQ1 : 1 ≤ Q := by rw [hQe]; exact one_le_mul_of_one_le_of_one_le (one_le_pow₀ hone) hvK
  have hfirst : |e' - m| ≤ (Q - 1) * M := by
    have h2 : (1 + u) ^ h' ≤ v ^ h' := pow_le_pow_left₀ (by linarith) hv1 h'
    have h3 : (1 + u) ^ h' * (1 + (v * K - 1)) ≤ Q := by
      rw [hQe, show 1 + (v * K - 1) = v * K by ring]
      exact mul_le_mul_of_nonneg_right h2 (by linarith)
    calc |e' - m| ≤ ((1 + u) ^ h' * (1 + (v * K - 1)) - 1) * A := by simpa using key
      _ ≤ (Q - 1) * A := mul_le_mul_of_nonneg_right (by linarith) hA0
      _ ≤ (Q - 1) * M := mul_le_mul_of_nonneg_left habs (by linarith)
  have hlast := hG.rnd e'
  have hu' := hG.u_nonneg
  have h5 : |e'| ≤ Q * M := by
    have := abs_add_le (e' - m) m
    rw [sub_add_cancel] at this
    linarith
  have h6 := mul_le_mul_of_nonneg_left h5 hu'
  have h7 := abs_add_le (G.rnd e' - e') (e' - m)
  rw [sub_add_sub_cancel] at h7
  have e3 : ((1 + u') * Q - 1) * M = u' * (Q * M) + (Q - 1) * M := by ring
  rw [e3]
  linarith

/-! ## Numbers for 32 bits, and a floating point arithmetic that meets the hypotheses -/

/-- C139: 32-bit numbers, with operations whose relative errors are at most 2⁻²³ and that may set results below 2⁻¹²⁶ to zero: with at most eight
categories, and sums in which no number takes part in more than 128 additions, the log likelihood is right to 2·10⁻⁵ of its size, plus 2·10⁻⁵ per
answer. -/
theorem C139_float32 (hF : SoundFloats F (2 ^ (-23 : ℤ)) (2 ^ (-126 : ℤ))) {cells : List (List ℝ × ℝ)}
    (hc : ∀ c ∈ cells, c.2 ∈ c.1 ∧ c.1.length ≤ 8) {ll : ℝ} (hll : flLogLikelihood F 8 128 cells ll) :
    |ll - (cells.map fun c => logProb c.1 c.2).sum|
      ≤ 2 / 10 ^ 5 * |(cells.map fun c => logProb c.1 c.2).sum| + 2 / 10 ^ 5 * cells.length := by
  have h1 := C139_log_likelihood hF (h := 8) (h' := 128) (n := 8) (by unfold shiftedSumError; norm_num) hc hll
  refine h1.trans (add_le_add (mul_le_mul_of_nonneg_right ?_ (abs_nonneg _)) (mul_le_mul_of_nonneg_right ?_ (Nat.cast_nonneg _)))
  · norm_num
  · unfold shiftedSumError
    norm_num

/-- C139: the same sum can have two values, so that `C139_any_order` cannot be improved to equality: with two binary digits, adding two quarters
one after the other to one has no effect, while adding the two first does. -/
theorem C139_order_matters : ∃ (F : FloatOps) (u : ℝ) (xs : List ℝ) (s s' : ℝ), SoundFloats F u 0 ∧ OrderlyFloats F ∧
    SumsTo F 2 xs s ∧ SumsTo F 2 xs s' ∧ s ≠ s' := by
  have r54 : truncDigits 1 (1 + 1 / 4) = 1 := by
    rw [truncDigits_int 1 (k := 0) _ (by norm_num)]
    · have : ⌊((1:ℝ) + 1 / 4) * 2 ^ (((1 : ℕ) : ℤ) - 0)⌋ = 2 := by
        rw [Int.floor_eq_iff]; norm_num
      rw [this]; norm_num
    · refine le_antisymm ?_ ?_
      · have := (Int.lt_zpow_iff_log_lt (R := ℝ) (b := 2) (by norm_num) (x := 1) (r := 1 + 1 / 4) (by norm_num)).1 (by norm_num)
        omega
      · exact (Int.zpow_le_iff_le_log (R := ℝ) (b := 2) (by norm_num) (by norm_num)).1 (by norm_num)
  have r12 : truncDigits 1 (1 / 4 + 1 / 4) = 1 / 2 := by
    rw [truncDigits_int 1 (k := -1) _ (by norm_num)]
    · have : ⌊((1:ℝ) / 4 + 1 / 4) * 2 ^ (((1 : ℕ) : ℤ) - -1)⌋ = 2 := by
        rw [Int.floor_eq_iff]; norm_num
      rw [this]; norm_num
    · refine le_antisymm ?_ ?_
      · have := (Int.lt_zpow_iff_log_lt (R := ℝ) (b := 2) (by norm_num) (x := 0) (r := 1 / 4 + 1 / 4) (by norm_num)).1 (by norm_num)
        omega
      · exact (Int.zpow_le_iff_le_log (R := ℝ) (b := 2) (by norm_num) (by norm_num)).1 (by norm_num)
  have r32 : truncDigits 1 (1 + 1 / 2) = 1 + 1 / 2 := by
    rw [truncDigits_int 1 (k := 0) _ (by norm_num)]
    · have : ⌊((1:ℝ) + 1 / 2) * 2 ^ (((1 : ℕ) : ℤ) - 0)⌋ = 3 := by
        rw [Int.floor_eq_iff]; norm_num
      rw [this]; norm_num
    · refine le_antisymm ?_ ?_
      · have := (Int.lt_zpow_iff_log_lt (R := ℝ) (b := 2) (by norm_num) (x := 1) (r := 1 + 1 / 2) (by norm_num)).1 (by norm_num)
        omega
      · exact (Int.zpow_le_iff_le_log (R := ℝ) (b := 2) (by norm_num) (by norm_num)).1 (by norm_num)
  refine ⟨truncFloats 1, _, [1, 1 / 4, 1 / 4], 1, 1 + 1 / 2, truncFloats_sound 1 le_rfl, truncFloats_orderly 1,
    ⟨.node (.node (.leaf 1) (.leaf (1 / 4))) (.leaf (1 / 4)), by simp [SumTree.leaves], by simp [SumTree.depth], ?_⟩,
    ⟨.node (.leaf 1) (.node (.leaf (1 / 4)) (.leaf (1 / 4))), by simp [SumTree.leaves], by simp [SumTree.depth], ?_⟩, by norm_num⟩
  · simp only [SumTree.eval, truncFloats]
    rw [r54, r54]
  · simp only [SumTree.eval, truncFloats]
    rw [r12, r32]

/-- Numbers with 24 binary digits that are cut off meet the hypotheses of all theorems for 32-bit numbers. -/
theorem trunc24_sound : SoundFloats (truncFloats 23) (2 ^ (-23 : ℤ)) (2 ^ (-126 : ℤ)) := by
  have h := truncFloats_sound 23 (by norm_num)
  have e : ((1:ℝ) / 2) ^ 23 = 2 ^ (-23 : ℤ) := by norm_num
  rw [e] at h
  have hη : (0:ℝ) ≤ 2 ^ (-126 : ℤ) := by positivity
  exact ⟨h.u_nonneg, h.u_le, hη, h.rnd, fun x y => (h.mul x y).trans (by linarith), fun x y hy => (h.div x y hy).trans (by linarith),
    fun x hx => (h.exp x hx).trans (by linarith), h.log⟩

/-- Three answers to items with three categories, with logits 0, 1 and -2: the computation has a result, with an error of at most
2·10⁻⁵ of its size plus 6·10⁻⁵. -/
example : ∃ ll, flLogLikelihood (truncFloats 23) 8 128 [([0, 1, -2], 1), ([0, 1, -2], 0), ([0, 1, -2], -2)] ll ∧
    |ll - (logProb [0, 1, -2] 1 + logProb [0, 1, -2] 0 + logProb [0, 1, -2] (-2))|
      ≤ 2 / 10 ^ 5 * |logProb [0, 1, -2] 1 + logProb [0, 1, -2] 0 + logProb [0, 1, -2] (-2)| + 6 / 10 ^ 5 := by
  obtain ⟨s, hs⟩ := exists_sumsTo (truncFloats 23) ([0, 1, -2].map fun x => (truncFloats 23).exp ((truncFloats 23).rnd (x - columnMax [0, 1, -2])))
  have hs8 := hs.mono (show _ ≤ 8 by simp)
  set y : ℝ → ℝ := fun x => (truncFloats 23).rnd ((truncFloats 23).rnd (x - columnMax [0, 1, -2]) - (truncFloats 23).log s) with hy
  obtain ⟨t, ht⟩ := exists_sumsTo (truncFloats 23) ([y 1, y 0, y (-2)].map fun y => -y)
  have hll : flLogLikelihood (truncFloats 23) 8 128 [([0, 1, -2], 1), ([0, 1, -2], 0), ([0, 1, -2], -2)] (-t) :=
    ⟨[y 1, y 0, y (-2)], .cons ⟨s, hs8, rfl⟩ (.cons ⟨s, hs8, rfl⟩ (.cons ⟨s, hs8, rfl⟩ .nil)), t, ht.mono (by simp), rfl⟩
  refine ⟨_, hll, ?_⟩
  have h := C139_float32 trunc24_sound (by simp) hll
  simp only [List.map_cons, List.map_nil, List.sum_cons, List.sum_nil, add_zero, List.length_cons, List.length_nil] at h
  rw [← add_assoc] at h
  refine h.trans (le_of_eq ?_)
  norm_num

/-- The probabilities of the three categories are between zero and one, however they are computed. -/
example (p : ℝ) (hp : flSoftmax (truncFloats 23) 8 [0, 1, -2] 1 p) : 0 ≤ p ∧ p ≤ 1 := C139_range (truncFloats_orderly 23) (by simp) hp

/-- An EAP score from three points, with log posteriors that are off by at most 10⁻⁵, in 53 binary digits, cut off to 24 at the end: the
error is at most 3·10⁻⁵ of the largest point. -/
example : ∃ e, flEap (truncFloats 52) (truncFloats 23) 8 8 [(-1, -2), (0, -1 / 2), (1, -1 + 1 / 10 ^ 5)] e ∧
    |e - softMean [(-1, -2), (0, -1 / 2), (1, -1)]| ≤ 3 / 10 ^ 5 * 1 := by
  obtain ⟨s, hs⟩ := exists_sumsTo (truncFloats 52) (([(-1, -2), (0, -1 / 2), (1, -1 + 1 / 10 ^ 5)] : List (ℝ × ℝ)).map fun p => (truncFloats 52).exp p.2)
  obtain ⟨t, ht⟩ := exists_sumsTo (truncFloats 52) (([(-1, -2), (0, -1 / 2), (1, -1 + 1 / 10 ^ 5)] : List (ℝ × ℝ)).map fun p =>
    (truncFloats 52).mul p.1 ((truncFloats 52).div ((truncFloats 52).exp p.2) s))
  have he : flEap (truncFloats 52) (truncFloats 23) 8 8 [(-1, -2), (0, -1 / 2), (1, -1 + 1 / 10 ^ 5)] ((truncFloats 23).rnd t) :=
    ⟨s, hs.mono (by simp), t, ht.mono (by simp), rfl⟩
  refine ⟨_, he, ?_⟩
  have hF := truncFloats_sound 52 (by norm_num)
  have h := C139_eap hF (truncFloats_sound 23 (by norm_num)) (h := 8) (h' := 8) (1 / 10 ^ 5) 1
    [(-1, -2, -2), (0, -1 / 2, -1 / 2), (1, -1 + 1 / 10 ^ 5, -1)] (by simp) (by
      intro p hp
      have hexp := hF.exp p.2.1 (by
        rcases List.mem_cons.1 hp with rfl | hp
        · norm_num
        rcases List.mem_cons.1 hp with rfl | hp
        · norm_num
        rcases List.mem_cons.1 hp with rfl | hp
        · norm_num
        · simp at hp)
      rw [add_zero] at hexp
      refine ⟨?_, ?_, hexp⟩
      all_goals
        rcases List.mem_cons.1 hp with rfl | hp
        · norm_num
        rcases List.mem_cons.1 hp with rfl | hp
        · norm_num
        rcases List.mem_cons.1 hp with rfl | hp
        · norm_num
        · simp at hp) he
  refine h.trans (mul_le_mul_of_nonneg_right ?_ zero_le_one)
  have hexp : Real.exp (2 * (1 / 10 ^ 5)) ≤ 1 + 21 / 10 ^ 6 := by
    have h1 := Real.add_one_le_exp (-(2 * (1 / 10 ^ 5)) : ℝ)
    have h2 : Real.exp (2 * (1 / 10 ^ 5)) * Real.exp (-(2 * (1 / 10 ^ 5))) = 1 := by rw [← Real.exp_add]; simp
    have h3 := Real.exp_pos (2 * (1 / 10 ^ 5))
    by_contra hcon
    push Not at hcon
    nlinarith
  have h20 : ((1 - (1 / 2) ^ 52 : ℝ)⁻¹) ^ (8 + 8 + 4) ≤ 1 + 1 / 10 ^ 6 := by norm_num
  have h4 := mul_le_mul h20 hexp (Real.exp_pos _).le (by norm_num)
  have h5 : (1 + (1 / 2 : ℝ) ^ 23) * (((1 - (1 / 2) ^ 52 : ℝ)⁻¹) ^ (8 + 8 + 4) * Real.exp (2 * (1 / 10 ^ 5)))
      ≤ (1 + (1 / 2 : ℝ) ^ 23) * ((1 + 1 / 10 ^ 6) * (1 + 21 / 10 ^ 6)) := mul_le_mul_of_nonneg_left h4 (by positivity)
  refine (sub_le_sub_right h5 1).trans ?_
  norm_num

/-- The two items of a small two-parameter logistic model, one respondent: a computation of the log likelihood from parameters and scores exists,
and the theorem bounds its error. -/
example : ∃ (z : ℕ → ℕ → ℝ) (ll : ℝ), (∀ q ∈ [(0, 0), (0, 1)], ∃ w b, exTwoPL.itemParameters[q.2]? = some (w, b) ∧
      flLinear (truncFloats 23) 2 (List.ofFn fun _ : Fin 2 => (1 / 3 : ℝ)) w b (z q.1 q.2)) ∧
    flLogLikelihood (truncFloats 23) 2 2 ([(0, 0), (0, 1)].map fun q => ([0, z q.1 q.2], if q.2 = 0 then 0 else z q.1 q.2)) ll ∧
    |ll - ([(0, 0), (0, 1)].map fun q => Real.log (tableProb (exTwoPL.probs (List.ofFn fun _ : Fin 2 => (1 / 3 : ℝ))) q.2 q.2)).sum|
      ≤ ((1 + (1 / 2) ^ 23) ^ 4 - 1) * |([(0, 0), (0, 1)].map fun q =>
          Real.log (tableProb (exTwoPL.probs (List.ofFn fun _ : Fin 2 => (1 / 3 : ℝ))) q.2 q.2)).sum|
        + (1 + (1 / 2) ^ 23) ^ 4 * (2 * (((1 + (1 / 2) ^ 23) ^ 4 - 1) * 10) + 2 * shiftedSumError ((1 / 2) ^ 23) 0 2 2) * 2 := by
  set F := truncFloats 23
  set θ : List ℝ := List.ofFn fun _ : Fin 2 => (1 / 3 : ℝ) with hθ
  have hlin : ∀ w b, ∃ z, flLinear F 2 θ w b z := fun w b => by
    obtain ⟨s, hs⟩ := exists_sumsTo F (List.zipWith F.mul θ w)
    exact ⟨_, s, hs.mono (by simp [hθ]), rfl⟩
  have hsome : ∀ j < 2, ∃ w b, exTwoPL.itemParameters[j]? = some (w, b) ∧ (List.zipWith (fun t v => |t * v|) θ w).sum + |b| ≤ 10 := by
    intro j hj
    interval_cases j
    · refine ⟨_, _, rfl, ?_⟩
      simp [hθ, exTwoPL, scatterMask]
      norm_num
    · refine ⟨_, _, rfl, ?_⟩
      simp [hθ, exTwoPL, scatterMask]
      norm_num
  have hz : ∃ z : ℕ → ℝ, ∀ j < 2, ∃ w b, exTwoPL.itemParameters[j]? = some (w, b) ∧
      (List.zipWith (fun t v => |t * v|) θ w).sum + |b| ≤ 10 ∧ flLinear F 2 θ w b (z j) := by
    obtain ⟨w0, b0, e0, d0⟩ := hsome 0 (by norm_num)
    obtain ⟨w1, b1, e1, d1⟩ := hsome 1 (by norm_num)
    obtain ⟨z0, h0⟩ := hlin w0 b0
    obtain ⟨z1, h1⟩ := hlin w1 b1
    refine ⟨fun j => if j = 0 then z0 else z1, fun j hj => ?_⟩
    interval_cases j
    · exact ⟨w0, b0, e0, d0, h0⟩
    · exact ⟨w1, b1, e1, d1, h1⟩
  obtain ⟨z, hz⟩ := hz
  have hsm : ∀ x y : ℝ, ∃ s, flShiftedSum F 2 [x, y] s := fun x y => by
    obtain ⟨s, hs⟩ := exists_sumsTo F ([x, y].map fun v => F.exp (F.rnd (v - columnMax [x, y])))
    exact ⟨s, hs⟩
  obtain ⟨s0, hs0⟩ := hsm 0 (z 0)
  obtain ⟨s1, hs1⟩ := hsm 0 (z 1)
  obtain ⟨t, ht⟩ := exists_sumsTo F ([F.rnd (F.rnd (0 - columnMax [0, z 0]) - F.log s0), F.rnd (F.rnd (z 1 - columnMax [0, z 1]) - F.log s1)].map fun y => -y)
  have hll : flLogLikelihood F 2 2 ([(0, 0), (0, 1)].map fun q : ℕ × ℕ => ([0, z q.2], if q.2 = 0 then 0 else z q.2)) (-t) :=
    ⟨_, .cons ⟨s0, hs0, rfl⟩ (.cons ⟨s1, hs1, rfl⟩ .nil), t, ht, rfl⟩
  refine ⟨fun _ j => z j, -t, fun q hq => ?_, hll, ?_⟩
  · have : q.2 < 2 := by rcases List.mem_cons.1 hq with rfl | hq <;> simp_all
    obtain ⟨w, b, h1, -, h2⟩ := hz q.2 this
    exact ⟨w, b, h1, h2⟩
  · have h := C139_twoPL (truncFloats_sound 23 (by norm_num)) exTwoPL exTwoPL_wf (fun _ _ => 1 / 3) [(0, 0), (0, 1)] (fun _ j => j) (fun _ j => z j)
      (g := 2) (h := 2) (h' := 2) (by unfold shiftedSumError; norm_num) 10 (by
        intro q hq
        have : q.2 < 2 := by rcases List.mem_cons.1 hq with rfl | hq <;> simp_all
        exact ⟨this, hz q.2 this⟩) hll
    simpa [hθ] using h

/-- The loss for two respondents and two points. -/
example : ∃ loss, flMmlLoss (truncFloats 52) 8 8 [[-1, -2], [-3, -1]] loss ∧
    |loss - -(Real.log (Real.exp (-1) + Real.exp (-2)) + Real.log (Real.exp (-3) + Real.exp (-1)))|
      ≤ 1 / 10 ^ 12 * (|Real.log (Real.exp (-1) + Real.exp (-2))| + |Real.log (Real.exp (-3) + Real.exp (-1))|) + 1 / 10 ^ 12 := by
  set F := truncFloats 52
  have hsm : ∀ x y : ℝ, ∃ s, flShiftedSum F 8 [x, y] s := fun x y => by
    obtain ⟨s, hs⟩ := exists_sumsTo F ([x, y].map fun v => F.exp (F.rnd (v - columnMax [x, y])))
    exact ⟨s, hs.mono (by simp)⟩
  obtain ⟨s0, hs0⟩ := hsm (-1) (-2)
  obtain ⟨s1, hs1⟩ := hsm (-3) (-1)
  obtain ⟨t, ht⟩ := exists_sumsTo F [F.rnd (F.log s0 + columnMax [-1, -2]), F.rnd (F.log s1 + columnMax [-3, -1])]
  have hl : flMmlLoss F 8 8 [[-1, -2], [-3, -1]] (-t) := ⟨_, .cons ⟨s0, hs0, rfl⟩ (.cons ⟨s1, hs1, rfl⟩ .nil), t, ht.mono (by simp), rfl⟩
  refine ⟨-t, hl, ?_⟩
  have h := C139_mml_loss (truncFloats_sound 52 (by norm_num)) (h := 8) (h' := 8) (n := 2) (by unfold shiftedSumError; norm_num) 0
    [[(-1, -1), (-2, -2)], [(-3, -3), (-1, -1)]] (by
      simp only [List.mem_cons, List.not_mem_nil, or_false]
      rintro c (rfl | rfl) <;> refine ⟨by simp, by simp, ?_⟩ <;> simp only [List.mem_cons, List.not_mem_nil, or_false] <;>
        rintro p (rfl | rfl) <;> simp) hl
  simp only [List.map_cons, List.map_nil, List.sum_cons, List.sum_nil, add_zero, List.length_cons, List.length_nil, zero_add] at h
  refine h.trans (add_le_add (mul_le_mul_of_nonneg_right (by norm_num) (by positivity)) ?_)
  have hlog : Real.log ((2 : ℕ) : ℝ) ≤ 1 := by
    have := Real.log_le_sub_one_of_pos (show (0:ℝ) < 2 by norm_num)
    push_cast
    linarith
  have hlog2 := mul_le_mul_of_nonneg_left hlog (by positivity : (0:ℝ) ≤ (1 / 2) ^ 52)
  have : (1 + (1 / 2 : ℝ) ^ 52) ^ (8 + 1) * (((1 + 1 : ℕ) : ℝ) * ((1 / 2) ^ 52 * Real.log ((2 : ℕ) : ℝ) + (1 + (1 / 2) ^ 52) * (2 * shiftedSumError ((1 / 2) ^ 52) 0 8 2)))
      ≤ (1 + (1 / 2 : ℝ) ^ 52) ^ (8 + 1) * (((1 + 1 : ℕ) : ℝ) * ((1 / 2) ^ 52 * 1 + (1 + (1 / 2) ^ 52) * (2 * shiftedSumError ((1 / 2) ^ 52) 0 8 2))) :=
    mul_le_mul_of_nonneg_left (mul_le_mul_of_nonneg_left (by linarith) (by positivity)) (by positivity)
  refine le_trans (by simpa using this) ?_
  unfold shiftedSumError
  norm_num

end Irt
