import Verif.Props.Nested
import Verif.Props.LogLik

/-! # Properties C09 and C10: model mix -/

namespace Irt

/-- C09: the probabilities of a mix are the components' tables one after the other, each row padded with
zeros to the widest component. -/
theorem C09_mix_probs {α : Type} (ms : List (MixComponent α)) (θ : List ℝ)
    (hlen : ∀ m ∈ ms, (m.forward θ).length = m.M * m.items) :
    mixProbs ms (mixForward ms θ)
      = .ok ((ms.map fun m => (m.probsFrom (m.forward θ)).map
          fun p => p ++ List.replicate (((ms.map fun m => m.M).foldr max 0) - p.length) 0).flatten) := by
  have h := splitChecked_flatten 1 ms (fun m => m.M * m.items) (fun m _ => m.forward θ)
    (fun m hm _ _ => hlen m hm)
  simp only [List.range_one, List.map_cons, List.map_nil] at h
  unfold mixProbs mixForward
  rw [h]
  simp only [bind, Except.bind, pure, Except.pure]
  congr 2
  rw [List.zipWith_map_right, List.zipWith_self]
  simp [padTo, maxCats]

theorem padTo_distribution (c M M' : ℕ) (hM : M ≤ M') (p : List ℝ) (h : IsDistribution c M p) :
    IsDistribution c M' (padTo M' p) := by
  unfold padTo
  refine ⟨?_, ?_, ?_, ?_, ?_⟩
  · simp [h.length]; omega
  · intro x hx
    rcases List.mem_append.1 hx with hx | hx
    · exact h.nonneg x hx
    · rw [List.eq_of_mem_replicate hx]
  · intro x hx
    rcases List.mem_append.1 hx with hx | hx
    · exact h.le_one x hx
    · rw [List.eq_of_mem_replicate hx]; exact zero_le_one
  · simp [h.sum_one]
  · intro k hck hk
    by_cases hkM : k < M
    · rw [List.getElem?_append_left (by rw [h.length]; exact hkM)]; exact h.missing k hck hkM
    · rw [List.getElem?_append_right (by rw [h.length]; omega), List.getElem?_replicate, h.length,
        if_pos (by omega)]

theorem isTable_append (c1 c2 : List ℕ) (M : ℕ) (t1 t2 : List (List ℝ)) (h1 : IsTable c1 M t1)
    (h2 : IsTable c2 M t2) : IsTable (c1 ++ c2) M (t1 ++ t2) := by
  refine ⟨by simp [h1.1, h2.1], ?_⟩
  intro j p c hp hc
  by_cases hj : j < c1.length
  · rw [List.getElem?_append_left (by rw [h1.1]; exact hj)] at hp
    rw [List.getElem?_append_left hj] at hc
    exact h1.2 j p c hp hc
  · rw [List.getElem?_append_right (by rw [h1.1]; omega), h1.1] at hp
    rw [List.getElem?_append_right (by omega)] at hc
    exact h2.2 _ p c hp hc

/-- C09: if every component gives distributions over its own items, so does the mix over all items. -/
theorem C09_mix_distribution {α : Type} (ms : List (MixComponent α)) (cats : MixComponent α → List ℕ)
    (θ : List ℝ)
    (hlen : ∀ m ∈ ms, (m.forward θ).length = m.M * m.items)
    (hd : ∀ m ∈ ms, IsTable (cats m) m.M (m.probsFrom (m.forward θ))) :
    ∃ t, mixProbs ms (mixForward ms θ) = .ok t ∧
      IsTable (ms.map cats).flatten (maxCats (ms.map fun m => m.M)) t := by
  refine ⟨_, C09_mix_probs ms θ hlen, ?_⟩
  change IsTable _ _ ((ms.map fun m => (m.probsFrom (m.forward θ)).map
    (padTo (maxCats (ms.map fun m => m.M)))).flatten)
  have hle : ∀ m ∈ ms, m.M ≤ maxCats (ms.map fun m => m.M) := fun m hm =>
    le_maxCats _ _ (List.mem_map.2 ⟨m, hm, rfl⟩)
  generalize maxCats (ms.map fun m => m.M) = W at hle ⊢
  clear hlen
  induction ms with
  | nil => exact ⟨rfl, by intro j p c hp; simp at hp⟩
  | cons m ms ih =>
    simp only [List.map_cons, List.flatten_cons]
    apply isTable_append
    · have h := hd m (by simp)
      refine ⟨by simp [h.1], ?_⟩
      intro j p c hp hc
      rw [List.getElem?_map, Option.map_eq_some_iff] at hp
      obtain ⟨q, hq, rfl⟩ := hp
      exact padTo_distribution c m.M W (hle m (by simp)) q
        (h.2 j q c hq hc)
    · exact ih (fun m hm => hd m (by simp [hm]))
        (fun m hm => hle m (by simp [hm]))

theorem GPC.component_ok (m : GPC) (hwf : m.WF) (θ : List ℝ) :
    (m.component.forward θ).length = m.component.M * m.component.items ∧
    IsTable m.cats m.component.M (m.component.probsFrom (m.component.forward θ)) :=
  ⟨by simp only [GPC.component]; rw [m.length_forwardRow, mul_comm], isTable_gpc m hwf θ⟩

theorem NRM.length_forwardRow (m : NRM) (θ : List ℝ) : (m.forwardRow θ).length = m.cats.length * m.M := by
  have h1 : m.weights.flatten.length = m.cats.length * m.M := by
    rw [length_flatten_const m.M _ m.weights_rows_length, m.length_weights]
  have h2 : m.biases.flatten.length = m.cats.length * m.M := by
    rw [length_flatten_const m.M _ m.biases_rows_length, m.length_biases]
  simp only [NRM.forwardRow, maskFill, List.length_zipWith, List.length_map, length_missingMask, h1, h2,
    min_self]

/-- C09 for a mix of a generalized partial credit and a nominal response model. -/
theorem C09_mix_gpc_nrm (a : GPC) (b : NRM) (ha : a.WF) (hb : b.WF) (θ : List ℝ) :
    ∃ t, mixProbs [a.component, b.component] (mixForward [a.component, b.component] θ) = .ok t ∧
      IsTable (a.cats ++ b.cats) (max a.M b.M) t := by
  have h := C09_mix_probs [a.component, b.component] θ (by
    intro m hm
    simp only [List.mem_cons, List.not_mem_nil, or_false] at hm
    rcases hm with rfl | rfl
    · exact (a.component_ok ha θ).1
    · simp only [NRM.component]; rw [b.length_forwardRow, mul_comm])
  refine ⟨_, h, ?_⟩
  change IsTable _ _ (([a.component, b.component].map fun m => (m.probsFrom (m.forward θ)).map
    (padTo (maxCats ([a.component, b.component].map fun m => m.M)))).flatten)
  have e : maxCats ([a.component, b.component].map fun m => m.M) = max a.M b.M := by
    simp [maxCats, GPC.component, NRM.component]
  rw [e]
  simp only [List.map_cons, List.map_nil, List.flatten_cons, List.flatten_nil, List.append_nil]
  have pad : ∀ (cats : List ℕ) (M : ℕ) (t : List (List ℝ)), M ≤ max a.M b.M →
      IsTable cats M t → IsTable cats (max a.M b.M) (t.map (padTo (max a.M b.M))) := by
    intro cats M t hM ht
    refine ⟨by simp [ht.1], ?_⟩
    intro j p c hp hcj
    rw [List.getElem?_map, Option.map_eq_some_iff] at hp
    obtain ⟨q, hq, rfl⟩ := hp
    exact padTo_distribution c M _ hM q (ht.2 j q c hq hcj)
  apply isTable_append
  · exact pad a.cats a.M _ (le_max_left _ _) (isTable_gpc a ha θ)
  · exact pad b.cats b.M _ (le_max_right _ _) (isTable_nrm b hb θ)

example : exGPC.WF ∧ exNRM.WF := ⟨exGPC_wf, exNRM_wf⟩

/-! ## Log likelihood -/

/-- A component together with the model output, the responses and the mask of respondents `0, 1, ...` on
its own items. -/
structure MixPart (α : Type) where
  comp : MixComponent α
  out : ℕ → List α
  y : ℕ → List Cell
  μ : ℕ → List Bool

/-- Rows of respondents `0..N-1`, each made of the blocks of all parts side by side. -/
def blockRows {α β : Type} (N : ℕ) (ps : List (MixPart α)) (block : MixPart α → ℕ → List β) :
    List (List β) :=
  (List.range N).map fun i => (ps.map fun p => block p i).flatten

/-- The blocks have the widths of their component for the first `N` respondents. -/
def MixPart.Fits {α : Type} (N : ℕ) (p : MixPart α) : Prop :=
  ∀ i, i < N → (p.out i).length = p.comp.M * p.comp.items ∧ (p.y i).length = p.comp.items ∧
    (p.μ i).length = p.comp.items

/-- The missing mask of a call: all blocks side by side, or `None`. -/
def maskArg {α : Type} (masked : Bool) (N : ℕ) (ps : List (MixPart α)) : Option (List (List Bool)) :=
  if masked then some (blockRows N ps MixPart.μ) else none

/-- `log_likelihood` of the component alone on its own block, called with its mask or without one. -/
noncomputable def MixPart.ownLL {α : Type} (N : ℕ) (p : MixPart α) (masked : Bool) (red : Reduction) : Except PyErr LL :=
  p.comp.ll ((List.range N).map p.out) ((List.range N).map p.y) (if masked then some ((List.range N).map p.μ) else none) red

theorem mix_lls {α : Type} (N : ℕ) (ps : List (MixPart α)) (hfit : ∀ p ∈ ps, p.Fits N)
    (masked : Bool) (red : Reduction) (v : MixPart α → LL) (hll : ∀ p ∈ ps, p.ownLL N masked red = .ok (v p)) :
    mixLogLikelihood (ps.map MixPart.comp) (blockRows N ps MixPart.out) (blockRows N ps MixPart.y)
        (maskArg masked N ps) red
      = (match red with
        | .mean => .error .notImplemented
        | .sum => do
          let vs ← (ps.map v).mapM LL.toScalar
          return .scalar (Logit.sum vs)
        | .none => do
          let vs ← (ps.map v).mapM LL.toCells
          return .cells vs.flatten) := by
  have h1 := splitChecked_flatten N ps (fun p => p.comp.M * p.comp.items) MixPart.out
    (fun p hp i hi => (hfit p hp i hi).1)
  have h2 := splitChecked_flatten N ps (fun p => p.comp.items) MixPart.y
    (fun p hp i hi => (hfit p hp i hi).2.1)
  have h3 := splitChecked_flatten N ps (fun p => p.comp.items) MixPart.μ
    (fun p hp i hi => (hfit p hp i hi).2.2)
  have hmask : mixMasks (ps.map MixPart.comp) (maskArg masked N ps)
      = .ok (ps.map fun p => if masked then some ((List.range N).map p.μ) else none) := by
    have e : (ps.map MixPart.comp).map (fun m => m.items) = ps.map fun p => p.comp.items := by simp
    cases masked with
    | true =>
      simp only [maskArg, if_true, mixMasks, blockRows, e, h3, List.map_map]
      rfl
    | false => simp [maskArg, mixMasks, List.map_const']
  have hm : (List.zip (ps.map MixPart.comp) (List.zip (ps.map fun p => (List.range N).map p.y)
      (List.zip (ps.map fun p => if masked then some ((List.range N).map p.μ) else none) (ps.map fun p => (List.range N).map p.out)))).mapM
      (fun (p : MixComponent α × List (List Cell) × Option (List (List Bool)) × List (List α)) =>
        p.1.ll p.2.2.2 p.2.1 p.2.2.1 red) = .ok (ps.map v) := by
    rw [zip_map_same, zip_map_same, zip_map_same, mapM_map]
    exact mapM_ok _ _ _ hll
  have e1 : (ps.map MixPart.comp).map (fun m => m.M * m.items) = ps.map fun p => p.comp.M * p.comp.items := by
    simp
  have e2 : (ps.map MixPart.comp).map (fun m => m.items) = ps.map fun p => p.comp.items := by simp
  unfold mixLogLikelihood
  rw [e1, e2]
  simp only [bind, Except.bind, hmask]
  simp only [blockRows] at *
  rw [h1, h2]
  simp only [hm]
  cases red <;> rfl

theorem Logit.sum_map_fin {β : Type*} (l : List β) (f : β → ℝ) :
    Logit.sum (l.map fun x => Logit.fin (f x)) = .fin (l.map f).sum := by
  induction l with
  | nil => rfl
  | cons x l ih =>
    simp only [List.map_cons, List.sum_cons]
    simp only [Logit.sum, List.foldr_cons] at *
    rw [ih]; rfl

/-- C09: with `loss_reduction="sum"` the log likelihood of a mix is the sum of the log likelihoods of its
components on their own items, for any number of components and respondents, with any mask or without one. -/
theorem C09_mix_ll_sum {α : Type} (N : ℕ) (ps : List (MixPart α)) (hfit : ∀ p ∈ ps, p.Fits N)
    (masked : Bool) (v : MixPart α → ℝ) (hll : ∀ p ∈ ps, p.ownLL N masked .sum = .ok (.scalar (.fin (v p)))) :
    mixLogLikelihood (ps.map MixPart.comp) (blockRows N ps MixPart.out) (blockRows N ps MixPart.y)
        (maskArg masked N ps) .sum
      = .ok (.scalar (.fin (ps.map v).sum)) := by
  rw [mix_lls N ps hfit masked .sum _ hll]
  simp only
  simp only [mapM_map, LL.toScalar]
  rw [mapM_ok _ _ (fun p => Logit.fin (v p)) (fun p _ => rfl)]
  simp only [bind, Except.bind, pure, Except.pure, Logit.sum_map_fin]

/-- C09: if the responses to the items of one component are impossible (log likelihood minus infinity), so are those to all
items. -/
theorem C09_mix_ll_sum_impossible {α : Type} (N : ℕ) (ps : List (MixPart α)) (hfit : ∀ p ∈ ps, p.Fits N)
    (masked : Bool) (v : MixPart α → Logit) (hll : ∀ p ∈ ps, p.ownLL N masked .sum = .ok (.scalar (v p)))
    (p : MixPart α) (hp : p ∈ ps) (hv : v p = .negInf) :
    mixLogLikelihood (ps.map MixPart.comp) (blockRows N ps MixPart.out) (blockRows N ps MixPart.y)
        (maskArg masked N ps) .sum = .ok (.scalar .negInf) := by
  rw [mix_lls N ps hfit masked .sum _ hll]
  simp only
  simp only [mapM_map, LL.toScalar]
  rw [mapM_ok _ _ v (fun p _ => rfl)]
  simp only [bind, Except.bind, pure, Except.pure]
  rw [Logit.sum_negInf _ (List.mem_map.2 ⟨p, hp, hv⟩)]

/-- C09: `mean` is refused. -/
theorem C09_mix_mean_refused {α : Type} (N : ℕ) (ps : List (MixPart α)) (hfit : ∀ p ∈ ps, p.Fits N)
    (masked : Bool) (v : MixPart α → LL) (hll : ∀ p ∈ ps, p.ownLL N masked .mean = .ok (v p)) :
    mixLogLikelihood (ps.map MixPart.comp) (blockRows N ps MixPart.out) (blockRows N ps MixPart.y)
        (maskArg masked N ps) .mean = .error .notImplemented := by
  rw [mix_lls N ps hfit masked .mean v hll]

/-- A generalized partial credit model with the output, responses and mask of a batch. -/
noncomputable def gpcPart (m : GPC) (θ : ℕ → List ℝ) (y : ℕ → ℕ → Cell) (μ : ℕ → ℕ → Bool) : MixPart Logit where
  comp := m.component
  out := fun i => m.forwardRow (θ i)
  y := fun i => (List.range m.cats.length).map (y i)
  μ := fun i => (List.range m.cats.length).map (μ i)

theorem gpcPart_fits (m : GPC) (θ : ℕ → List ℝ) (y : ℕ → ℕ → Cell) (μ : ℕ → ℕ → Bool) (N : ℕ) :
    (gpcPart m θ y μ).Fits N := by
  intro i _
  refine ⟨?_, by simp [gpcPart, GPC.component], by simp [gpcPart, GPC.component]⟩
  simp only [gpcPart, GPC.component]
  rw [m.length_forwardRow, mul_comm]

theorem gpcPart_ownLL (m : GPC) (θ : ℕ → List ℝ) (y : ℕ → ℕ → Cell) (μ : ℕ → ℕ → Bool) (N : ℕ)
    (red : Reduction) : (gpcPart m θ y μ).ownLL N true red
      = baseLogLikelihood (reshapedOutput N m.cats.length m.M fun i => m.forwardRow (θ i))
        (flatTensor N m.cats.length y) (some (flatTensor N m.cats.length μ)) red := by
  simp only [if_true, MixPart.ownLL, gpcPart, GPC.component, baseLL2D, reshapedOutput, flatTensor, List.flatMap_def,
    List.length_map, List.length_range, Option.map_some]

/-- C09 for two generalized partial credit models: the total is the sum over all observed cells of all
items of the log probability of the response. -/
theorem C09_mix_two_gpc_ll (a b : GPC) (ha : a.WF) (hb : b.WF) (N : ℕ) (θ : ℕ → List ℝ)
    (ya yb : ℕ → ℕ → Cell) (μa μb : ℕ → ℕ → Bool) (Pa Pb : ℕ → ℕ → ℝ)
    (hobsa : ∀ i, i < N → ∀ j c, a.cats[j]? = some c → μa i j = false →
      ∃ r : ℕ, ya i j = some (r : ℤ) ∧ r < c ∧ ∃ p, (a.probs (θ i))[j]? = some p ∧ p[r]? = some (Pa i j))
    (hobsb : ∀ i, i < N → ∀ j c, b.cats[j]? = some c → μb i j = false →
      ∃ r : ℕ, yb i j = some (r : ℤ) ∧ r < c ∧ ∃ p, (b.probs (θ i))[j]? = some p ∧ p[r]? = some (Pb i j)) :
    mixLogLikelihood [a.component, b.component]
        (blockRows N [gpcPart a θ ya μa, gpcPart b θ yb μb] MixPart.out)
        (blockRows N [gpcPart a θ ya μa, gpcPart b θ yb μb] MixPart.y)
        (some (blockRows N [gpcPart a θ ya μa, gpcPart b θ yb μb] MixPart.μ)) .sum
      = .ok (.scalar (.fin (
        (∑ i ∈ Finset.range N, ∑ j ∈ Finset.range a.cats.length, if μa i j then 0 else Real.log (Pa i j))
        + ∑ i ∈ Finset.range N, ∑ j ∈ Finset.range b.cats.length, if μb i j then 0 else Real.log (Pb i j)))) := by
  have h1 : (gpcPart a θ ya μa).ownLL N true .sum = _ :=
    (gpcPart_ownLL a θ ya μa N .sum).trans (C02_gpc_sum a ha N θ ya μa Pa hobsa)
  have h2 : (gpcPart b θ yb μb).ownLL N true .sum = _ :=
    (gpcPart_ownLL b θ yb μb N .sum).trans (C02_gpc_sum b hb N θ yb μb Pb hobsb)
  have := mix_lls N [gpcPart a θ ya μa, gpcPart b θ yb μb] (by
    intro p hp
    simp only [List.mem_cons, List.not_mem_nil, or_false] at hp
    rcases hp with rfl | rfl <;> exact gpcPart_fits _ _ _ _ _) true .sum
    (fun p => (match p.ownLL N true .sum with | .ok v => v | .error _ => .cells [])) (by
    intro p hp
    simp only [List.mem_cons, List.not_mem_nil, or_false] at hp
    rcases hp with rfl | rfl
    · rw [h1]
    · rw [h2])
  simp only [List.map_cons, List.map_nil, h1, h2] at this
  refine Eq.trans this ?_
  simp [LL.toScalar, List.mapM_cons, bind, Except.bind, pure, Except.pure, Logit.sum, Logit.add]

theorem gpcPart_ownLL_no_mask (m : GPC) (θ : ℕ → List ℝ) (y : ℕ → ℕ → Cell) (μ : ℕ → ℕ → Bool) (N : ℕ) :
    (gpcPart m θ y μ).ownLL N false .sum
      = baseLogLikelihood (reshapedOutput N m.cats.length m.M fun i => m.forwardRow (θ i))
        (flatTensor N m.cats.length y) (some (flatTensor N m.cats.length fun _ _ => false)) .sum := by
  have e : (gpcPart m θ y μ).ownLL N false .sum
      = baseLogLikelihood (reshapedOutput N m.cats.length m.M fun i => m.forwardRow (θ i))
        (flatTensor N m.cats.length y) none .sum := by
    simp only [MixPart.ownLL, gpcPart, GPC.component, baseLL2D, reshapedOutput, flatTensor, List.flatMap_def,
      List.length_map, List.length_range, Option.map_none, Bool.false_eq_true, if_false]
  have hl : (reshapedOutput N m.cats.length m.M fun i => m.forwardRow (θ i)).length
      = (flatTensor N m.cats.length y).length := by
    simp [reshapedOutput, length_viewRows, flatTensor, List.length_flatMap]
  have hr : List.replicate (flatTensor N m.cats.length y).length false = flatTensor N m.cats.length fun _ _ => false := by
    symm
    rw [List.eq_replicate_iff]
    refine ⟨by simp [flatTensor, List.length_flatMap], fun b hb => ?_⟩
    obtain ⟨i, -, j, -, rfl⟩ := mem_flatTensor.1 hb
    rfl
  rw [e, C02_base_no_mask _ _ _ hl (by simp), hr]

/-- C09 for two generalized partial credit models called without a mask. -/
theorem C09_mix_two_gpc_ll_no_mask (a b : GPC) (ha : a.WF) (hb : b.WF) (N : ℕ) (θ : ℕ → List ℝ)
    (ya yb : ℕ → ℕ → Cell) (Pa Pb : ℕ → ℕ → ℝ)
    (hobsa : ∀ i, i < N → ∀ j c, a.cats[j]? = some c →
      ∃ r : ℕ, ya i j = some (r : ℤ) ∧ r < c ∧ ∃ p, (a.probs (θ i))[j]? = some p ∧ p[r]? = some (Pa i j))
    (hobsb : ∀ i, i < N → ∀ j c, b.cats[j]? = some c →
      ∃ r : ℕ, yb i j = some (r : ℤ) ∧ r < c ∧ ∃ p, (b.probs (θ i))[j]? = some p ∧ p[r]? = some (Pb i j)) :
    mixLogLikelihood [a.component, b.component]
        (blockRows N [gpcPart a θ ya fun _ _ => false, gpcPart b θ yb fun _ _ => false] MixPart.out)
        (blockRows N [gpcPart a θ ya fun _ _ => false, gpcPart b θ yb fun _ _ => false] MixPart.y) none .sum
      = .ok (.scalar (.fin (
        (∑ i ∈ Finset.range N, ∑ j ∈ Finset.range a.cats.length, Real.log (Pa i j))
        + ∑ i ∈ Finset.range N, ∑ j ∈ Finset.range b.cats.length, Real.log (Pb i j)))) := by
  have h1 : (gpcPart a θ ya fun _ _ => false).ownLL N false .sum = _ :=
    (gpcPart_ownLL_no_mask a θ ya _ N).trans (C02_gpc_sum a ha N θ ya _ Pa fun i hi j c hc _ => hobsa i hi j c hc)
  have h2 : (gpcPart b θ yb fun _ _ => false).ownLL N false .sum = _ :=
    (gpcPart_ownLL_no_mask b θ yb _ N).trans (C02_gpc_sum b hb N θ yb _ Pb fun i hi j c hc _ => hobsb i hi j c hc)
  have := mix_lls N [gpcPart a θ ya fun _ _ => false, gpcPart b θ yb fun _ _ => false] (by
    intro p hp
    simp only [List.mem_cons, List.not_mem_nil, or_false] at hp
    rcases hp with rfl | rfl <;> exact gpcPart_fits _ _ _ _ _) false .sum
    (fun p => (match p.ownLL N false .sum with | .ok v => v | .error _ => .cells [])) (by
    intro p hp
    simp only [List.mem_cons, List.not_mem_nil, or_false] at hp
    rcases hp with rfl | rfl
    · rw [h1]
    · rw [h2])
  simp only [List.map_cons, List.map_nil, h1, h2] at this
  refine Eq.trans this ?_
  simp [LL.toScalar, List.mapM_cons, bind, Except.bind, pure, Except.pure, Logit.sum, Logit.add]

/-- C09: a component whose output has one column per item (the 3PL model) cannot be part of a mix that is
evaluated: splitting the output is refused. -/
theorem C09_mix_three_pl_refused (m : ThreePL) (hwf : m.WF) (h : 0 < m.items) (θ : List ℝ) :
    mixProbs [m.component] (mixForward [m.component] θ) = .error .runtimeError := by
  have hlen : (m.forwardRow θ).length = m.items := by
    simp [ThreePL.forwardRow, hwf.biasLen, hwf.guessLen, length_viewRows, ThreePL.weights]
  have hs : splitChecked ([m.component].map fun c => c.M * c.items) [mixForward [m.component] θ]
      = .error .runtimeError := by
    unfold splitChecked
    rw [if_neg]
    simp only [List.mem_singleton, forall_eq, mixForward, ThreePL.component, List.map_cons, List.map_nil,
      List.flatten_cons, List.flatten_nil, List.append_nil, List.sum_cons, List.sum_nil, hlen]
    omega
  unfold mixProbs
  rw [hs]
  rfl

example : exThreePL.WF ∧ 0 < exThreePL.items := ⟨exThreePL_wf, by simp [exThreePL]⟩

/-! ## C10: per-response log likelihoods -/

/-- What the code returns with `loss_reduction="none"`: all cells of the first component, then all cells
of the second, and so on. -/
theorem C10_mix_cells {α : Type} (N : ℕ) (ps : List (MixPart α)) (hfit : ∀ p ∈ ps, p.Fits N)
    (L : MixPart α → ℕ → ℕ → Option Logit)
    (masked : Bool) (hll : ∀ p ∈ ps, p.ownLL N masked .none = .ok (.cells (flatTensor N p.comp.items (L p)))) :
    mixLogLikelihood (ps.map MixPart.comp) (blockRows N ps MixPart.out) (blockRows N ps MixPart.y)
        (maskArg masked N ps) .none
      = .ok (.cells (ps.map fun p => flatTensor N p.comp.items (L p)).flatten) := by
  rw [mix_lls N ps hfit masked .none _ hll]
  simp only
  simp only [mapM_map, LL.toCells]
  rw [mapM_ok _ _ (fun p => flatTensor N p.comp.items (L p)) (fun p _ => rfl)]
  rfl

/-- The layout a user expects: for each respondent, the cells of the first component, then those of the
second, and so on. -/
def respondentMajor {α : Type} (N : ℕ) (ps : List (MixPart α)) (L : MixPart α → ℕ → ℕ → Option Logit) :
    List (Option Logit) :=
  (List.range N).flatMap fun i => ps.flatMap fun p => (List.range p.comp.items).map (L p i)

/-- C10, partial: with one respondent the result has the expected layout. Missing: more than one
respondent, where it is false. -/
theorem C10_mix_cells_one_respondent_partial {α : Type} (ps : List (MixPart α)) (hfit : ∀ p ∈ ps, p.Fits 1)
    (L : MixPart α → ℕ → ℕ → Option Logit)
    (masked : Bool) (hll : ∀ p ∈ ps, p.ownLL 1 masked .none = .ok (.cells (flatTensor 1 p.comp.items (L p)))) :
    mixLogLikelihood (ps.map MixPart.comp) (blockRows 1 ps MixPart.out) (blockRows 1 ps MixPart.y)
        (maskArg masked 1 ps) .none
      = .ok (.cells (respondentMajor 1 ps L)) := by
  rw [C10_mix_cells 1 ps hfit L masked hll]
  simp [respondentMajor, flatTensor, List.flatMap_def]

/-- C10, partial: with one component the result has the expected layout. -/
theorem C10_mix_cells_one_model_partial {α : Type} (N : ℕ) (p : MixPart α) (hfit : p.Fits N)
    (L : MixPart α → ℕ → ℕ → Option Logit)
    (masked : Bool) (hll : p.ownLL N masked .none = .ok (.cells (flatTensor N p.comp.items (L p)))) :
    mixLogLikelihood [p.comp] (blockRows N [p] MixPart.out) (blockRows N [p] MixPart.y)
        (maskArg masked N [p]) .none
      = .ok (.cells (respondentMajor N [p] L)) := by
  have := C10_mix_cells N [p] (by simpa using hfit) L masked (by simpa using hll)
  simp only [List.map_cons, List.map_nil, List.flatten_cons, List.flatten_nil, List.append_nil] at this
  rw [this]
  simp [respondentMajor, flatTensor]

theorem mix_two_gpc_cells (a b : GPC) (ha : a.WF) (hb : b.WF) (N : ℕ) (θ : ℕ → List ℝ)
    (ya yb : ℕ → ℕ → Cell) (μa μb : ℕ → ℕ → Bool) (Pa Pb : ℕ → ℕ → ℝ)
    (hobsa : ∀ i, i < N → ∀ j, j < a.cats.length → μa i j = false →
      ObservedProb (fun i => a.probs (θ i)) ya Pa i j)
    (hobsb : ∀ i, i < N → ∀ j, j < b.cats.length → μb i j = false →
      ObservedProb (fun i => b.probs (θ i)) yb Pb i j) :
    mixLogLikelihood [a.component, b.component]
        (blockRows N [gpcPart a θ ya μa, gpcPart b θ yb μb] MixPart.out)
        (blockRows N [gpcPart a θ ya μa, gpcPart b θ yb μb] MixPart.y)
        (some (blockRows N [gpcPart a θ ya μa, gpcPart b θ yb μb] MixPart.μ)) .none
      = .ok (.cells (flatTensor N a.cats.length (fun i j => if μa i j then none else some (logE (Pa i j)))
        ++ flatTensor N b.cats.length (fun i j => if μb i j then none else some (logE (Pb i j))))) := by
  have h1 : (gpcPart a θ ya μa).ownLL N true .none = _ :=
    (gpcPart_ownLL a θ ya μa N .none).trans (C02_base_cells N _ _ (fun i => a.forwardRow (θ i)) ya μa Pa
      (fun i _ => a.length_forwardRow _) (fun i _ => a.row_finite ha _) hobsa)
  have h2 : (gpcPart b θ yb μb).ownLL N true .none = _ :=
    (gpcPart_ownLL b θ yb μb N .none).trans (C02_base_cells N _ _ (fun i => b.forwardRow (θ i)) yb μb Pb
      (fun i _ => b.length_forwardRow _) (fun i _ => b.row_finite hb _) hobsb)
  have := mix_lls N [gpcPart a θ ya μa, gpcPart b θ yb μb] (by
    intro p hp
    simp only [List.mem_cons, List.not_mem_nil, or_false] at hp
    rcases hp with rfl | rfl <;> exact gpcPart_fits _ _ _ _ _) true .none
    (fun p => (match p.ownLL N true .none with | .ok v => v | .error _ => .cells [])) (by
    intro p hp
    simp only [List.mem_cons, List.not_mem_nil, or_false] at hp
    rcases hp with rfl | rfl
    · rw [h1]
    · rw [h2])
  simp only [List.map_cons, List.map_nil, h1, h2] at this
  refine Eq.trans this ?_
  simp [LL.toCells, List.mapM_cons, bind, Except.bind, pure, Except.pure]

/-- One binary item answered correctly with chance 1/2. -/
noncomputable def exHalf : GPC := { lv := 1, cats := [2], rel := [[true]], weight := [0], bias := [0] }

/-- One binary item answered correctly with chance 3/4. -/
noncomputable def exThreeQuarters : GPC :=
  { lv := 1, cats := [2], rel := [[true]], weight := [0], bias := [Real.log 3] }

theorem exHalf_wf : exHalf.WF where
  catsPos := by simp [exHalf]
  relLen := by simp [exHalf]
  relRow := by simp [exHalf]
  weightLen := by simp [exHalf, countTrue]
  biasLen := by simp [exHalf]

theorem exThreeQuarters_wf : exThreeQuarters.WF where
  catsPos := by simp [exThreeQuarters]
  relLen := by simp [exThreeQuarters]
  relRow := by simp [exThreeQuarters]
  weightLen := by simp [exThreeQuarters, countTrue]
  biasLen := by simp [exThreeQuarters]

theorem exHalf_probs (x : ℝ) : exHalf.probs [x] = [[1/2, 1/2]] := by
  simp [exHalf, GPC.probs, probabilitiesFromOutput, GPC.forwardRow, GPC.M, maxCats, GPC.weights, GPC.biases,
    viewRows, scatterMask, freeMask, freeRow, dot, repeatInterleave, tile, maskFill, missingMask, missingRow,
    firstMask, firstRow, List.range_succ, softmax, Logit.exp, List.replicate]
  norm_num

theorem exThreeQuarters_probs (x : ℝ) : exThreeQuarters.probs [x] = [[1/4, 3/4]] := by
  have : Real.exp (Real.log 3) = 3 := Real.exp_log (by norm_num)
  simp [exThreeQuarters, GPC.probs, probabilitiesFromOutput, GPC.forwardRow, GPC.M, maxCats, GPC.weights, GPC.biases,
    viewRows, scatterMask, freeMask, freeRow, dot, repeatInterleave, tile, maskFill, missingMask, missingRow,
    firstMask, firstRow, List.range_succ, softmax, Logit.exp, List.replicate]
  rw [this]; norm_num

/-- C10 is false: two binary one-item models, two respondents, all answers correct. The cell that
reshaping to (respondents, items) puts at respondent 0, item 1 holds `log 1/2`, the value of respondent 1
on item 0; the model's probability of that response is 3/4. -/
theorem C10_mix_layout_false :
    ∃ (a b : GPC) (_ : a.WF) (_ : b.WF) (θ : ℕ → List ℝ) (cells : List (Option Logit)),
      mixLogLikelihood [a.component, b.component]
        (blockRows 2 [gpcPart a θ (fun _ _ => some 1) (fun _ _ => false),
          gpcPart b θ (fun _ _ => some 1) (fun _ _ => false)] MixPart.out)
        (blockRows 2 [gpcPart a θ (fun _ _ => some 1) (fun _ _ => false),
          gpcPart b θ (fun _ _ => some 1) (fun _ _ => false)] MixPart.y)
        (some (blockRows 2 [gpcPart a θ (fun _ _ => some 1) (fun _ _ => false),
          gpcPart b θ (fun _ _ => some 1) (fun _ _ => false)] MixPart.μ)) .none = .ok (.cells cells) ∧
      cells.length = 4 ∧ b.probs (θ 0) = [[1/4, 3/4]] ∧
      cells[0 * 2 + 1]? = some (some (.fin (Real.log (1/2)))) ∧
      cells[0 * 2 + 1]? ≠ some (some (.fin (Real.log (3/4)))) := by
  refine ⟨exHalf, exThreeQuarters, exHalf_wf, exThreeQuarters_wf, fun _ => [0],
    [some (.fin (Real.log (1/2))), some (.fin (Real.log (1/2))), some (.fin (Real.log (3/4))),
      some (.fin (Real.log (3/4)))], ?_, rfl, exThreeQuarters_probs 0, rfl, ?_⟩
  · refine Eq.trans (mix_two_gpc_cells exHalf exThreeQuarters exHalf_wf exThreeQuarters_wf 2 (fun _ => [0]) _ _ _ _
      (fun _ _ => 1/2) (fun _ _ => 3/4) ?_ ?_) ?_
    · intro i _ j hj _
      obtain rfl : j = 0 := by simp [exHalf] at hj; exact hj
      exact ⟨[1/2, 1/2], 1, by simp only [exHalf_probs]; rfl, rfl, rfl⟩
    · intro i _ j hj _
      obtain rfl : j = 0 := by simp [exThreeQuarters] at hj; exact hj
      exact ⟨[1/4, 3/4], 1, by simp only [exThreeQuarters_probs]; rfl, rfl, rfl⟩
    · simp [flatTensor, exHalf, exThreeQuarters, List.range_succ, logE]
  · intro h
    have h : Real.log (1/2) = Real.log (3/4) := by simpa using h
    have := Real.log_lt_log (x := 1/2) (y := 3/4) (by norm_num) (by norm_num)
    linarith

end Irt
