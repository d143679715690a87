import Verif.Lemmas.Monotone
import Verif.Lemmas.Composite

/-! # Monotone polynomial and monotone neural network: the value of one slot -/

namespace Irt

open Finset

/-! ## Polynomial model -/

/-- The slots of the polynomial model before the cumulative sums. -/
noncomputable def MonoPolyModel.slots (m : MonoPolyModel) (theta : ℕ → ℝ) : List ℝ :=
  m.sep.expand m.M ((List.range m.poly.outDim).map (m.poly.forward theta))

theorem MonoPolyModel.length_slots (m : MonoPolyModel) (theta : ℕ → ℝ) :
    (m.slots theta).length = m.cats.length * m.M :=
  length_expand m.sep m.cats.length m.M _ (by simp [MonoPolyModel.poly])

theorem MonoPolyModel.slots_getD (m : MonoPolyModel) (theta : ℕ → ℝ) (j k : ℕ) (hj : j < m.cats.length)
    (hk : k < m.M) : (m.slots theta).getD (j * m.M + k) 0 = m.poly.forward theta (m.sep.unit m.M j k) := by
  unfold MonoPolyModel.slots
  rw [expand_getD m.sep m.M _ j k hk, List.getD_eq_getElem?_getD, List.getElem?_map,
    List.getElem?_range (by exact unit_lt m.sep m.cats.length m.M j k hj hk)]
  rfl

theorem MonoPolyModel.unit_div (m : MonoPolyModel) (j k : ℕ) (hk : k < m.M) :
    m.sep.unit m.M j k / m.shared = j := by
  unfold MonoPolyModel.shared
  cases h : m.sep with
  | items => simp [Separate.unit]
  | categories =>
    simp only [Separate.unit]
    rw [Nat.mul_comm, Nat.mul_add_div (by omega), Nat.div_eq_of_lt hk, Nat.add_zero]

/-- The factor in front of the increasing polynomial of item `j` and latent variable `i`. -/
noncomputable def MonoPolyModel.gain (m : MonoPolyModel) (i j : ℕ) : ℝ :=
  if (m.rel.getD j []).getD i false then (match m.directions with | some d => d i j | none => 1) else 0

theorem MonoPolyModel.gain_eq (m : MonoPolyModel) (i j k : ℕ) (hk : k < m.M) :
    m.poly.gain i (m.sep.unit m.M j k) = m.gain i j := by
  have h := m.unit_div j k hk
  have hs : 0 < m.shared := by
    unfold MonoPolyModel.shared
    cases m.sep with
    | items => simp
    | categories => simp only; omega
  unfold MonoPoly.gain MonoPoly.related MonoPoly.direction MonoPolyModel.gain
  have h3 := Nat.mul_div_cancel j hs
  simp only [MonoPolyModel.poly, h, h3]
  by_cases hr : (m.rel.getD j []).getD i false = true
  · simp only [hr, if_true]
    rw [List.getD_eq_getElem?_getD, List.getD_eq_getElem?_getD] at hr
    cases m.directions <;> simp [h3, hr]
  · simp only [hr, if_false]
    simp

theorem MonoPolyModel.reported_eq (m : MonoPolyModel) (i j : ℕ) (d : ℕ → ℕ → ℝ) (hd : m.directions = some d) :
    m.reportedDirection j i = SignType.sign (m.gain i j) := by
  unfold MonoPolyModel.reportedDirection MonoPolyModel.gain
  rw [hd]
  by_cases hr : (m.rel.getD j []).getD i false = true
  · simp only [hr, if_true, mul_one]
  · simp only [hr, if_false]
    simp

/-! ## Activation of the network -/

/-- The activation applied to a unit at position `r` within its group. -/
noncomputable def act (bounded : Bool) (r : ℕ) (x : ℝ) : ℝ :=
  if r = 0 then elu x else if r = 1 then -elu (-x) else if bounded then belu 1 x else x

theorem elu_mono : Monotone elu := by
  intro x y h
  unfold elu
  by_cases hx : 0 < x
  · rw [if_pos hx, if_pos (lt_of_lt_of_le hx h)]; exact h
  · rw [if_neg hx]
    by_cases hy : 0 < y
    · rw [if_pos hy]
      have := Real.exp_le_one_iff.2 (not_lt.1 hx)
      linarith
    · rw [if_neg hy]
      have := Real.exp_le_exp.2 h
      linarith

theorem act_mono (bounded : Bool) (r : ℕ) : Monotone (act bounded r) := by
  intro x y h
  unfold act
  split_ifs
  · exact elu_mono h
  · exact neg_le_neg (elu_mono (neg_le_neg h))
  · exact belu_monotone 1 (by norm_num) h
  · exact h

theorem act_zero (bounded : Bool) (r : ℕ) : act bounded r 0 = 0 := by
  have h : elu 0 = 0 := by simp [elu]
  have h2 : belu 1 0 = 0 := by rw [belu, if_neg (by norm_num), if_neg (by norm_num)]
  unfold act
  split_ifs <;> simp [h, h2]

/-- Units per group of the activation. -/
def actWidth (bounded : Bool) : ℕ := if bounded then 3 else 2

theorem splitActivation_eq (ov : ℝ) (hov : 0 ≤ ov) (bounded : Bool) (x : List ℝ)
    (hx : actWidth bounded ∣ x.length) : splitActivation ov bounded x =
      (List.range x.length).map fun i => act bounded (i % actWidth bounded) (x.getD i 0) := by
  unfold splitActivation
  obtain ⟨q, hq⟩ := hx
  cases bounded with
  | true =>
    simp only [actWidth, if_true] at hq ⊢
    rw [hq, Nat.mul_div_cancel_left _ (by norm_num)]
    clear hq
    induction q with
    | zero => simp
    | succ q ih =>
      rw [List.range_succ, List.flatMap_append, ih, show 3 * (q + 1) = 3 * q + 1 + 1 + 1 by ring, List.range_succ,
        List.range_succ, List.range_succ]
      simp only [List.map_append, List.append_assoc, List.flatMap_cons, List.flatMap_nil, List.map_cons, List.map_nil]
      rw [show 3 * q % 3 = 0 by omega, show (3 * q + 1) % 3 = 1 by omega, show (3 * q + 1 + 1) % 3 = 2 by omega]
      simp [act, boundedElu_eq ov 1 _ hov one_pos]
  | false =>
    simp only [actWidth] at hq ⊢
    simp only [Bool.false_eq_true, if_false] at hq ⊢
    rw [hq, Nat.mul_div_cancel_left _ (by norm_num)]
    clear hq
    induction q with
    | zero => simp
    | succ q ih =>
      rw [List.range_succ, List.flatMap_append, ih, show 2 * (q + 1) = 2 * q + 1 + 1 by ring, List.range_succ,
        List.range_succ]
      simp only [List.map_append, List.append_assoc, List.flatMap_cons, List.flatMap_nil, List.map_cons, List.map_nil]
      rw [show 2 * q % 2 = 0 by omega, show (2 * q + 1) % 2 = 1 by omega]
      simp [act]

/-! ## Stacks of layers -/

/-- Entrywise `≤` of two rows of the same length. -/
def RowLE (x y : List ℝ) : Prop := x.length = y.length ∧ ∀ i, i < x.length → x.getD i 0 ≤ y.getD i 0

theorem map_getD_range (n : ℕ) (f : ℕ → ℝ) (i : ℕ) (h : i < n) : ((List.range n).map f).getD i 0 = f i := by
  rw [List.getD_eq_getElem?_getD, List.getElem?_map, List.getElem?_range h]; rfl

theorem splitActivation_length (ov : ℝ) (hov : 0 ≤ ov) (bounded : Bool) (x : List ℝ)
    (hx : actWidth bounded ∣ x.length) : (splitActivation ov bounded x).length = x.length := by
  rw [splitActivation_eq ov hov bounded x hx]; simp

theorem splitActivation_getD (ov : ℝ) (hov : 0 ≤ ov) (bounded : Bool) (x : List ℝ)
    (hx : actWidth bounded ∣ x.length) (i : ℕ) (hi : i < x.length) :
    (splitActivation ov bounded x).getD i 0 = act bounded (i % actWidth bounded) (x.getD i 0) := by
  rw [splitActivation_eq ov hov bounded x hx, map_getD_range _ _ _ hi]

theorem splitActivation_mono (ov : ℝ) (hov : 0 ≤ ov) (bounded : Bool) (x y : List ℝ)
    (hx : actWidth bounded ∣ x.length) (h : RowLE x y) :
    RowLE (splitActivation ov bounded x) (splitActivation ov bounded y) := by
  have hy : actWidth bounded ∣ y.length := h.1 ▸ hx
  refine ⟨by rw [splitActivation_length ov hov _ _ hx, splitActivation_length ov hov _ _ hy, h.1], fun i hi => ?_⟩
  rw [splitActivation_length ov hov _ _ hx] at hi
  rw [splitActivation_getD ov hov _ _ hx i hi, splitActivation_getD ov hov _ _ hy i (h.1 ▸ hi)]
  exact act_mono _ _ (h.2 i hi)

theorem SoftplusLinear.forward_length (l : SoftplusLinear) (h : l.WF) (x : List ℝ) (hx : x.length = l.inF) :
    (l.forward x).length = l.outF := by
  obtain ⟨W, b, hf, -, -⟩ := l.matrix h
  rw [eq_range_map x, hx, hf]; simp

theorem SoftplusLinear.forward_mono (l : SoftplusLinear) (h : l.WF) (hpos : l.positive = true) (x y : List ℝ)
    (hx : x.length = l.inF) (hxy : RowLE x y) : RowLE (l.forward x) (l.forward y) := by
  have hy : y.length = l.inF := hxy.1 ▸ hx
  refine ⟨by rw [l.forward_length h x hx, l.forward_length h y hy], fun o ho => ?_⟩
  rw [l.forward_length h x hx] at ho
  obtain ⟨W, b, hf, hW, -⟩ := l.matrix h
  rw [eq_range_map x, eq_range_map y, hx, hy, hf, hf, map_getD_range _ _ _ ho, map_getD_range _ _ _ ho]
  refine add_le_add (sum_le_sum fun i hi => ?_) le_rfl
  have hi' := mem_range.1 hi
  refine mul_le_mul_of_nonneg_right (hxy.2 i (by omega)) ?_
  obtain ⟨r, hr⟩ := getElem?_of_lt l.freeWeight o (by rw [h.rows]; exact ho)
  have hrl := h.cols r (List.mem_of_getElem? hr)
  obtain ⟨q, hq⟩ := getElem?_of_lt r i (by omega)
  have := hW o ho i hi' r hr
  cases q with
  | true => exact (this.2 hq hpos).le
  | false => exact (this.1 hq).ge

theorem SoftplusLinear.forward_zero (l : SoftplusLinear) (h : l.WF) (x : List ℝ) (hx : x.length = l.inF) (o : ℕ)
    (ho : o < l.outF) (hb : l.freeBias[o]? = some false)
    (hw : ∀ r, l.freeWeight[o]? = some r → ∀ i, i < l.inF → r[i]? = some false) : (l.forward x).getD o 0 = 0 := by
  obtain ⟨W, b, hf, hW, hB⟩ := l.matrix h
  rw [eq_range_map x, hx, hf, map_getD_range _ _ _ ho, hB o hb, add_zero]
  obtain ⟨r, hr⟩ := getElem?_of_lt l.freeWeight o (by rw [h.rows]; exact ho)
  refine sum_eq_zero fun i hi => ?_
  rw [(hW o ho i (mem_range.1 hi) r hr).1 (hw r hr i (mem_range.1 hi)), mul_zero]

/-- Layers that fit together: widths `w, n * h₁, n * h₂, …`, positive weights. -/
def NNChain (n : ℕ) : ℕ → List ℕ → List SoftplusLinear → Prop
  | _, [], [] => True
  | w, h :: hs, l :: ls => l.WF ∧ l.positive = true ∧ l.inF = w ∧ l.outF = n * h ∧ NNChain n (n * h) hs ls
  | _, _, _ => False

theorem nnStack_mono (ov : ℝ) (hov : 0 ≤ ov) (bounded : Bool) (n : ℕ) (hs : List ℕ) (ls : List SoftplusLinear)
    (w : ℕ) (hc : NNChain n w hs ls) (hd : ∀ h ∈ hs, actWidth bounded ∣ h) (x y : List ℝ) (hx : x.length = w)
    (hxy : RowLE x y) : RowLE (nnStack ov bounded ls x) (nnStack ov bounded ls y) := by
  induction hs generalizing w ls x y with
  | nil =>
    cases ls with
    | nil => exact hxy
    | cons l ls => exact hc.elim
  | cons h hs ih =>
    cases ls with
    | nil => exact hc.elim
    | cons l ls =>
      obtain ⟨h1, h2, h3, h4, h5⟩ := hc
      have hl := l.forward_length h1 x (by rw [hx, h3])
      have hdv : actWidth bounded ∣ (l.forward x).length := by
        rw [hl, h4]; exact Dvd.dvd.mul_left (hd h (by simp)) n
      unfold nnStack
      rw [List.foldl_cons, List.foldl_cons]
      refine ih ls (n * h) h5 (fun q hq => hd q (by simp [hq])) _ _ ?_ ?_
      · rw [splitActivation_length ov hov _ _ hdv, hl, h4]
      · exact splitActivation_mono ov hov bounded _ _ hdv (l.forward_mono h1 h2 x y (by rw [hx, h3]) hxy)

theorem nnStack_length (ov : ℝ) (hov : 0 ≤ ov) (bounded : Bool) (n : ℕ) (hs : List ℕ) (ls : List SoftplusLinear)
    (w : ℕ) (hne : hs ≠ []) (hc : NNChain n w hs ls) (hd : ∀ h ∈ hs, actWidth bounded ∣ h) (x : List ℝ)
    (hx : x.length = w) : (nnStack ov bounded ls x).length = n * hs.getLastD 0 := by
  induction hs generalizing w ls x with
  | nil => exact absurd rfl hne
  | cons h hs ih =>
    cases ls with
    | nil => exact hc.elim
    | cons l ls =>
      obtain ⟨h1, h2, h3, h4, h5⟩ := hc
      have hl := l.forward_length h1 x (by rw [hx, h3])
      have hdv : actWidth bounded ∣ (l.forward x).length := by
        rw [hl, h4]; exact Dvd.dvd.mul_left (hd h (by simp)) n
      have hsl : (splitActivation ov bounded (l.forward x)).length = n * h := by
        rw [splitActivation_length ov hov _ _ hdv, hl, h4]
      unfold nnStack
      rw [List.foldl_cons]
      cases hs with
      | nil =>
        cases ls with
        | nil => simpa using hsl
        | cons q qs => exact h5.elim
      | cons h' hs' =>
        have := ih ls (n * h) (by simp) h5 (fun q hq => hd q (by simp [hq])) _ hsl
        rw [nnStack] at this
        rw [this]
        congr 1

/-- Units of the last layer that are zeroed stay zero for every input. -/
theorem nnStack_zero (ov : ℝ) (hov : 0 ≤ ov) (bounded : Bool) (n : ℕ) (hs : List ℕ) (ls : List SoftplusLinear)
    (w : ℕ) (hne : hs ≠ []) (hc : NNChain n w hs ls) (hd : ∀ h ∈ hs, actWidth bounded ∣ h) (x : List ℝ)
    (hx : x.length = w) (o : ℕ) (ho : o < n * hs.getLastD 0)
    (hz : ∀ l, ls.getLast? = some l → l.freeBias[o]? = some false ∧
      ∀ r, l.freeWeight[o]? = some r → ∀ i, i < l.inF → r[i]? = some false) :
    (nnStack ov bounded ls x).getD o 0 = 0 := by
  induction hs generalizing w ls x with
  | nil => exact absurd rfl hne
  | cons h hs ih =>
    cases ls with
    | nil => exact hc.elim
    | cons l ls =>
      obtain ⟨h1, h2, h3, h4, h5⟩ := hc
      have hl := l.forward_length h1 x (by rw [hx, h3])
      have hdv : actWidth bounded ∣ (l.forward x).length := by
        rw [hl, h4]; exact Dvd.dvd.mul_left (hd h (by simp)) n
      have hsl : (splitActivation ov bounded (l.forward x)).length = n * h := by
        rw [splitActivation_length ov hov _ _ hdv, hl, h4]
      unfold nnStack
      rw [List.foldl_cons]
      cases hs with
      | nil =>
        cases ls with
        | nil =>
          have ho' : o < n * h := by simpa using ho
          obtain ⟨hb, hw⟩ := hz l (by simp)
          rw [List.foldl_nil, splitActivation_getD ov hov _ _ hdv o (by rw [hl, h4]; exact ho'),
            l.forward_zero h1 x (by rw [hx, h3]) o (by rw [h4]; exact ho') hb hw, act_zero]
        | cons q qs => exact h5.elim
      | cons h' hs' =>
        cases ls with
        | nil => exact h5.elim
        | cons q qs =>
          have := ih (q :: qs) (n * h) (by simp) h5 (fun q hq => hd q (by simp [hq])) _ hsl
            (by simpa using ho) (fun l' hl' => hz l' (by simpa using hl'))
          rw [nnStack] at this
          exact this

/-! ## The network model -/

/-- `m` is the model `m0` after training: same structure, parameters of the same shapes with any values. -/
structure MonoNN.Trained (m0 m : MonoNN) : Prop where
  lv : m.lv = m0.lv
  cats : m.cats = m0.cats
  mc : m.mc = m0.mc
  sep : m.sep = m0.sep
  hidden : m.hidden = m0.hidden
  bounded : m.bounded = m0.bounded
  layers : List.Forall₂ (List.Forall₂ SoftplusLinear.Trained) m0.layers m.layers
  negNone : m0.negs = none → m.negs = none
  negSome : ∀ ns0, m0.negs = some ns0 → ∃ ns, m.negs = some ns ∧ List.Forall₂ (fun n0 n : Negation =>
    n.perItem = n0.perItem ∧ n.rel = n0.rel ∧ n.zeroOut = n0.zeroOut ∧
      n.weightParam.length = n0.weightParam.length) ns0 ns
  biasLen : m.bias.length = m0.bias.length

theorem SoftplusLinear.trained_chain {inF outF : ℕ} {sepIn sepOut : Option (List ℕ)}
    {zeroIn zeroOut : Option (List Bool)} {l0 l : SoftplusLinear}
    (h : SoftplusLinear.init inF outF sepIn sepOut zeroIn zeroOut true = .ok l0) (ht : l0.Trained l) :
    l.WF ∧ l.positive = true ∧ l.inF = inF ∧ l.outF = outF := by
  obtain ⟨block, -, -, -, -, h1, h2, h3, -⟩ := SoftplusLinear.init_ok h
  exact ⟨ht.wf h, by rw [ht.positive, h3], by rw [ht.inF, h1], by rw [ht.outF, h2]⟩

theorem SoftplusLinear.trained_zero {inF outF : ℕ} {sepIn sepOut : Option (List ℕ)}
    {zeroIn : Option (List Bool)} {zo : List Bool} {p : Bool} {l0 l : SoftplusLinear}
    (h : SoftplusLinear.init inF outF sepIn sepOut zeroIn (some zo) p = .ok l0) (ht : l0.Trained l) (o : ℕ)
    (ho : zo[o]? = some true) : l.freeBias[o]? = some false ∧
      ∀ r : List Bool, l.freeWeight[o]? = some r → ∀ i, i < l.inF → r[i]? = some false := by
  obtain ⟨block, -, -, hzl, -, h1, h2, h3, h4, h5, -⟩ := SoftplusLinear.init_ok h
  simp only [Option.getD_some] at h4 h5 hzl
  refine ⟨by rw [ht.freeBias, h5, List.getElem?_map, ho]; rfl, fun r hr i hi => ?_⟩
  have hoF : o < outF := by rw [← hzl]; exact lt_of_getElem?_some ho
  rw [ht.freeWeight, h4, List.getElem?_map, List.getElem?_range hoF, Option.map_some, Option.some.injEq] at hr
  rw [ht.inF, h1] at hi
  rw [← hr, List.getElem?_map, List.getElem?_range hi, Option.map_some, List.getD_eq_getElem?_getD, ho]
  simp

theorem nnHiddenLayers_chain (sep : Separate) (M : ℕ) (cats : List ℕ) (r : List Bool) (prev : ℕ) (hs : List ℕ)
    (ls0 ls : List SoftplusLinear) (h : nnHiddenLayers sep M cats r prev hs = .ok ls0)
    (ht : List.Forall₂ SoftplusLinear.Trained ls0 ls) :
    NNChain (sep.count cats.length M) (sep.count cats.length M * prev) hs ls ∧
    ∀ l : SoftplusLinear, ls.getLast? = some l → ∀ o : ℕ, (nnZeroOut sep M cats r (hs.getLastD prev))[o]? = some true →
      l.freeBias[o]? = some false ∧
      ∀ r : List Bool, l.freeWeight[o]? = some r → ∀ i, i < l.inF → r[i]? = some false := by
  induction hs generalizing prev ls0 ls with
  | nil =>
    cases h
    cases ht
    exact ⟨trivial, by simp⟩
  | cons q hs ih =>
    unfold nnHiddenLayers at h
    simp only at h
    cases h1 : SoftplusLinear.init (prev * sep.count cats.length M) (sep.count cats.length M * q)
      (some (List.replicate (sep.count cats.length M) prev)) (some (List.replicate (sep.count cats.length M) q))
      (some (nnZeroOut sep M cats r prev)) (some (nnZeroOut sep M cats r q)) true with
    | error e => rw [h1] at h; cases h
    | ok l0 =>
      rw [h1] at h
      cases h2 : nnHiddenLayers sep M cats r q hs with
      | error e => rw [h2] at h; cases h
      | ok rest0 =>
        rw [h2] at h
        cases h
        cases ht with
        | cons hl hrest =>
          rename_i l rest
          obtain ⟨c1, c2, c3, c4⟩ := SoftplusLinear.trained_chain h1 hl
          obtain ⟨d1, d2⟩ := ih q rest0 rest h2 hrest
          refine ⟨⟨c1, c2, by rw [c3, Nat.mul_comm], c4, d1⟩, ?_⟩
          intro l' hl' o ho
          cases rest with
          | nil =>
            cases hrest
            have hhs : hs = [] := by
              cases hs with
              | nil => rfl
              | cons a as => exact d1.elim
            subst hhs
            simp at hl' ho
            subst hl'
            exact SoftplusLinear.trained_zero h1 hl o ho
          | cons a as =>
            refine d2 l' (by simpa using hl') o ?_
            cases hs with
            | nil => exact d1.elim
            | cons b bs => simp only [List.getLastD_cons] at ho ⊢; exact ho

theorem nnLayers_chain (sep : Separate) (M : ℕ) (cats : List ℕ) (r : List Bool) (hs : List ℕ)
    (ls0 ls : List SoftplusLinear) (h : nnLayers sep M cats r hs = .ok ls0)
    (ht : List.Forall₂ SoftplusLinear.Trained ls0 ls) :
    hs ≠ [] ∧ NNChain (sep.count cats.length M) 1 hs ls ∧
    ∀ l : SoftplusLinear, ls.getLast? = some l → ∀ o : ℕ, (nnZeroOut sep M cats r (hs.getLastD 0))[o]? = some true →
      l.freeBias[o]? = some false ∧
      ∀ r : List Bool, l.freeWeight[o]? = some r → ∀ i, i < l.inF → r[i]? = some false := by
  cases hs with
  | nil => cases h
  | cons q hs =>
    refine ⟨by simp, ?_⟩
    unfold nnLayers at h
    simp only at h
    cases h1 : SoftplusLinear.init 1 (sep.count cats.length M * q) none none none
      (some (nnZeroOut sep M cats r q)) true with
    | error e => rw [h1] at h; cases h
    | ok l0 =>
      rw [h1] at h
      cases h2 : nnHiddenLayers sep M cats r q hs with
      | error e => rw [h2] at h; cases h
      | ok rest0 =>
        rw [h2] at h
        cases h
        cases ht with
        | cons hl hrest =>
          rename_i l rest
          obtain ⟨c1, c2, c3, c4⟩ := SoftplusLinear.trained_chain h1 hl
          obtain ⟨d1, d2⟩ := nnHiddenLayers_chain sep M cats r q hs rest0 rest h2 hrest
          refine ⟨⟨c1, c2, c3, c4, d1⟩, ?_⟩
          intro l' hl' o ho
          cases rest with
          | nil =>
            cases hrest
            have hhs : hs = [] := by
              cases hs with
              | nil => rfl
              | cons a as => exact d1.elim
            subst hhs
            simp at hl' ho
            subst hl'
            exact SoftplusLinear.trained_zero h1 hl o ho
          | cons a as =>
            refine d2 l' (by simpa using hl') o ?_
            cases hs with
            | nil => exact d1.elim
            | cons b bs => simp only [List.getLastD_cons] at ho ⊢; exact ho

/-- Units of an unrelated item are zeroed. -/
theorem nnZeroOut_unrelated (sep : Separate) (M : ℕ) (cats : List ℕ) (r : List Bool) (h j k x : ℕ)
    (hr : r[j]? = some false) (hj : j < cats.length) (hk : k < M) (hx : x < h) :
    (nnZeroOut sep M cats r h)[sep.unit M j k * h + x]? = some true := by
  cases sep with
  | items =>
    simp only [nnZeroOut, Separate.unit]
    rw [repeatInterleave_getElem? h _ j x hx, List.getElem?_map, hr]; rfl
  | categories =>
    simp only [nnZeroOut, Separate.unit]
    obtain ⟨c, hc⟩ := getElem?_of_lt cats j hj
    rw [List.getElem?_zipWith, repeatInterleave_getElem? h _ _ x hx, missingMask_getElem? M cats j k c hc hk]
    have hlt : k * h + x < h * M := by rw [Nat.mul_comm h M]; exact slot_lt hk hx
    rw [show (j * M + k) * h + x = j * (h * M) + (k * h + x) by ring,
      repeatInterleave_getElem? (h * M) _ j _ hlt, List.getElem?_map, hr]
    simp

theorem bind_eq_ok {ε α β : Type} {x : Except ε α} {f : α → Except ε β} {b : β} (h : x >>= f = .ok b) :
    ∃ a, x = .ok a ∧ f a = .ok b := by
  cases x with
  | error e => cases h
  | ok a => exact ⟨a, rfl, h⟩

theorem checkHidden_dvd (hidden : Option (List ℕ)) (bounded : Bool) (h : List ℕ)
    (hh : checkHidden hidden bounded = .ok h) : ∀ x ∈ h, actWidth bounded ∣ x := by
  unfold checkHidden at hh
  cases hidden with
  | none =>
    cases bounded <;> cases hh <;> simp [actWidth]
  | some q =>
    simp only at hh
    split_ifs at hh with h1 h2
    cases hh
    intro x hx
    cases bounded with
    | true =>
      simp only [Bool.true_and, Bool.not_eq_true', Bool.not_eq_false] at h1
      have := List.all_eq_true.1 h1 x hx
      simp at this
      exact Nat.dvd_of_mod_eq_zero this
    | false =>
      simp only [Bool.not_false, Bool.true_and, Bool.not_eq_true', Bool.not_eq_false] at h2
      have := List.all_eq_true.1 h2 x hx
      simp at this
      exact Nat.dvd_of_mod_eq_zero (by simpa [actWidth] using this)

/-- The relationships of all items with latent variable `d`. -/
def relColumn (r : List (List Bool)) (d : ℕ) : List Bool := r.map fun row => row.getD d false

/-- What construction and training guarantee. -/
structure MonoNN.Facts (m : MonoNN) (negative : Bool) (r : List (List Bool)) : Prop where
  relLen : r.length = m.cats.length
  dvd : ∀ h ∈ m.hidden, actWidth m.bounded ∣ h
  chain : ∀ d, d < m.lv → m.hidden ≠ [] ∧
    NNChain (m.sep.count m.cats.length m.M) 1 m.hidden (m.layers.getD d []) ∧
    ∀ l : SoftplusLinear, (m.layers.getD d []).getLast? = some l → ∀ o : ℕ,
      (nnZeroOut m.sep m.M m.cats (relColumn r d) (m.hidden.getLastD 0))[o]? = some true →
      l.freeBias[o]? = some false ∧
      ∀ q : List Bool, l.freeWeight[o]? = some q → ∀ i, i < l.inF → q[i]? = some false
  negNone : negative = false → m.negs = none
  negSome : negative = true → ∃ ns, m.negs = some ns ∧ ∀ d, d < m.lv → ∃ n, ns[d]? = some n ∧
    n.perItem = (nnNegation m.sep m.M m.cats (relColumn r d)).perItem ∧ n.rel = relColumn r d ∧
    n.zeroOut = (nnNegation m.sep m.M m.cats (relColumn r d)).zeroOut ∧
    n.weightParam.length = countTrue (relColumn r d)

theorem checkRelationships_length {items lv : ℕ} {rel : Option (List (List Bool))} {r : List (List Bool)}
    (h : checkRelationships items lv rel = .ok r) : r.length = items ∧ ∀ q ∈ r, q.length = lv := by
  unfold checkRelationships at h
  cases rel with
  | none =>
    cases h
    exact ⟨by simp, fun q hq => by rw [List.eq_of_mem_replicate hq]; simp⟩
  | some q =>
    simp only at h
    split_ifs at h with h1 h2
    cases h
    exact h1

theorem MonoNN.facts {lv : ℕ} {cats : List ℕ} {hidden : Option (List ℕ)} {mc : Option (List ℕ)}
    {rel : Option (List (List Bool))} {sep : Separate} {negative bounded : Bool} {m0 m : MonoNN}
    (h : MonoNN.init lv cats hidden mc rel sep negative bounded = .ok m0) (ht : m0.Trained m) :
    m.lv = lv ∧ m.cats = cats ∧ m.mc = mc ∧ ∃ r, checkRelationships cats.length lv rel = .ok r ∧
      m.Facts negative r := by
  unfold MonoNN.init at h
  obtain ⟨-, -, h⟩ := bind_eq_ok h
  obtain ⟨r, hr, h⟩ := bind_eq_ok h
  obtain ⟨hd, hhd, h⟩ := bind_eq_ok h
  obtain ⟨layers, hl, h⟩ := bind_eq_ok h
  have hm : m0 = ⟨lv, cats, mc, sep, hd, bounded, layers,
      if negative then some ((List.range lv).map fun d => nnNegation sep (maxCats cats) cats (relColumn r d)) else none,
      List.replicate cats.sum 0⟩ := (Except.ok.inj h).symm
  clear h
  subst hm
  have e1 := ht.lv
  have e2 := ht.cats
  have e3 := ht.mc
  have e4 := ht.sep
  have e5 := ht.hidden
  have e6 := ht.bounded
  simp only at e1 e2 e3 e4 e5 e6
  refine ⟨e1, e2, e3, r, hr, ?_⟩
  have hM : m.M = maxCats cats := by rw [MonoNN.M, e2]
  constructor
  · rw [e2]; exact (checkRelationships_length hr).1
  · rw [e5, e6]; exact checkHidden_dvd _ _ _ hhd
  · intro d hd'
    rw [e1] at hd'
    rw [hM, e2, e4, e5]
    obtain ⟨hlen, hent⟩ := (mapM_ok_iff _ _ _).1 hl
    obtain ⟨ls0, hls0, hok⟩ := hent d d (by rw [List.getElem?_range hd'])
    have hf := ht.layers
    simp only at hf
    have hlen' := hf.length_eq
    obtain ⟨ls, hls⟩ := getElem?_of_lt m.layers d (by rw [← hlen', hlen]; simpa using hd')
    have hpair := (List.forall₂_iff_get.1 hf).2 d (by rw [hlen]; simpa using hd') (lt_of_getElem?_some hls)
    have g1 : layers.get ⟨d, by rw [hlen]; simpa using hd'⟩ = ls0 := by
      have := List.getElem?_eq_getElem (l := layers) (i := d) (by rw [hlen]; simpa using hd')
      rw [hls0] at this
      exact (Option.some.inj this).symm
    have g2 : m.layers.get ⟨d, lt_of_getElem?_some hls⟩ = ls := by
      have := List.getElem?_eq_getElem (l := m.layers) (i := d) (lt_of_getElem?_some hls)
      rw [hls] at this
      exact (Option.some.inj this).symm
    rw [g1, g2] at hpair
    rw [List.getD_eq_getElem?_getD, hls, Option.getD_some]
    exact nnLayers_chain sep (maxCats cats) cats (relColumn r d) hd ls0 ls hok hpair
  · intro hn
    exact ht.negNone (by simp [hn])
  · intro hn
    obtain ⟨ns, hns, hf⟩ := ht.negSome _ (if_pos hn)
    refine ⟨ns, hns, fun d hd' => ?_⟩
    rw [e1] at hd'
    rw [hM, e2, e4]
    have hl1 := hf.length_eq
    rw [List.length_map, List.length_range] at hl1
    obtain ⟨n, hnd⟩ := getElem?_of_lt ns d (by omega)
    have hpair := (List.forall₂_iff_get.1 hf).2 d (by simpa using hd') (by omega)
    have g2 : ns.get ⟨d, by omega⟩ = n := by
      have := List.getElem?_eq_getElem (l := ns) (i := d) (by omega)
      rw [hnd] at this
      exact (Option.some.inj this).symm
    rw [g2] at hpair
    simp only [List.get_eq_getElem, List.getElem_map, List.getElem_range] at hpair
    refine ⟨n, hnd, hpair.1, hpair.2.1, hpair.2.2.1, ?_⟩
    rw [hpair.2.2.2]
    simp [nnNegation]

theorem scatterMask_repeat (p : ℕ) (m : List Bool) (v : List ℝ) (h : v.length = countTrue m) :
    scatterMask 0 (repeatInterleave p m) (repeatInterleave p v) = repeatInterleave p (scatterMask 0 m v) := by
  have hT : ∀ (p : ℕ) (x : ℝ) (rest : List Bool) (vs : List ℝ),
      scatterMask 0 (List.replicate p true ++ rest) (List.replicate p x ++ vs) =
        List.replicate p x ++ scatterMask 0 rest vs := by
    intro p x rest vs
    induction p with
    | zero => rfl
    | succ p ih => rw [List.replicate_succ, List.replicate_succ, List.cons_append, List.cons_append, scatterMask, ih]
                   rfl
  have hF : ∀ (p : ℕ) (rest : List Bool) (vs : List ℝ),
      scatterMask 0 (List.replicate p false ++ rest) vs = List.replicate p 0 ++ scatterMask 0 rest vs := by
    intro p rest vs
    induction p with
    | zero => rfl
    | succ p ih => rw [List.replicate_succ, List.replicate_succ, List.cons_append, List.cons_append, scatterMask, ih]
  induction m generalizing v with
  | nil => rfl
  | cons b m ih =>
    unfold repeatInterleave at *
    cases b with
    | false =>
      rw [List.flatMap_cons, hF, scatterMask, List.flatMap_cons, ih v (by simpa [countTrue] using h)]
    | true =>
      cases v with
      | nil => simp [countTrue] at h
      | cons x v =>
        rw [List.flatMap_cons, List.flatMap_cons, hT, scatterMask, List.flatMap_cons,
          ih v (by simpa [countTrue] using h)]

/-- The factor in front of the increasing network of item `j` and latent variable `d`. -/
noncomputable def MonoNN.gain (m : MonoNN) (d j : ℕ) : ℝ :=
  match m.negs with
  | some ns => match ns[d]? with
    | some n => n.allItemWeights.getD j 0
    | none => 0
  | none => 1

theorem MonoNN.reported_eq (m : MonoNN) (d j : ℕ) (ns : List Negation) (hn : m.negs = some ns) :
    m.reportedDirection j d = SignType.sign (m.gain d j) := by
  unfold MonoNN.reportedDirection MonoNN.gain
  rw [hn]
  cases h : ns[d]? <;> simp [h]

theorem rowSum_getD (n h : ℕ) (out : List ℝ) (hl : out.length = n * h) (u : ℕ) (hu : u < n) :
    ((viewRows n h out).map List.sum).getD u 0 = ∑ x ∈ range h, out.getD (u * h + x) 0 := by
  obtain ⟨r, hr⟩ := getElem?_of_lt (viewRows n h out) u (by rw [length_viewRows]; exact hu)
  have hrl := mem_viewRows_length n h out hl r (List.mem_of_getElem? hr)
  rw [List.getD_eq_getElem?_getD, List.getElem?_map, hr, Option.map_some, Option.getD_some]
  have := take_sum_range r h (by omega)
  rw [List.take_of_length_le (by omega)] at this
  rw [this]
  refine sum_congr rfl fun x hx => ?_
  rw [List.getD_eq_getElem?_getD, List.getD_eq_getElem?_getD,
    viewRows_row_entry n h out hl u r hr x (mem_range.1 hx)]

/-- Every unit of a latent variable is a nondecreasing function times the factor of its item; the function
is zero for unrelated items. -/
theorem MonoNN.dim_unit (m : MonoNN) (negative : Bool) (r : List (List Bool)) (hf : m.Facts negative r) (ov : ℝ)
    (hov : 0 ≤ ov) (d : ℕ) (hd : d < m.lv) :
    (∀ t, (m.dimOut ov d t).length = m.sep.count m.cats.length m.M) ∧
    ∀ j k, j < m.cats.length → k < m.M → ∃ f : ℝ → ℝ, Monotone f ∧
      ((relColumn r d)[j]? = some false → ∀ t, f t = 0) ∧
      ∀ t, (m.dimOut ov d t).getD (m.sep.unit m.M j k) 0 = f t * m.gain d j := by
  obtain ⟨hne, hch, hz⟩ := hf.chain d hd
  set n := m.sep.count m.cats.length m.M with hn
  set h := m.hidden.getLastD 0 with hh
  set ls := m.layers.getD d [] with hls
  have hlen : ∀ t : ℝ, (nnStack ov m.bounded ls [t]).length = n * h := fun t =>
    nnStack_length ov hov m.bounded n m.hidden ls 1 hne hch hf.dvd [t] rfl
  set core : ℝ → List ℝ := fun t => (viewRows n h (nnStack ov m.bounded ls [t])).map List.sum with hcore
  have hcl : ∀ t, (core t).length = n := fun t => by simp [hcore, length_viewRows]
  have hcd : ∀ t u, u < n → (core t).getD u 0 = ∑ x ∈ range h, (nnStack ov m.bounded ls [t]).getD (u * h + x) 0 :=
    fun t u hu => rowSum_getD n h _ (hlen t) u hu
  have hmono : ∀ u, u < n → Monotone fun t => (core t).getD u 0 := by
    intro u hu s t hst
    show (core s).getD u 0 ≤ (core t).getD u 0
    rw [hcd s u hu, hcd t u hu]
    have hR : RowLE (nnStack ov m.bounded ls [s]) (nnStack ov m.bounded ls [t]) :=
      nnStack_mono ov hov m.bounded n m.hidden ls 1 hch hf.dvd [s] [t] rfl ⟨rfl, fun i hi => by
        have : i = 0 := by simpa using hi
        subst this; simpa using hst⟩
    exact sum_le_sum fun x hx => hR.2 _ (by rw [hlen s]; exact slot_lt hu (mem_range.1 hx))
  have hzero : ∀ j k, j < m.cats.length → k < m.M → (relColumn r d)[j]? = some false →
      ∀ t, (core t).getD (m.sep.unit m.M j k) 0 = 0 := by
    intro j k hj hk hr t
    have hu := unit_lt m.sep m.cats.length m.M j k hj hk
    rw [hcd t _ hu]
    refine sum_eq_zero fun x hx => ?_
    have hx' := mem_range.1 hx
    have hzo := nnZeroOut_unrelated m.sep m.M m.cats (relColumn r d) h j k x hr hj hk hx'
    exact nnStack_zero ov hov m.bounded n m.hidden ls 1 hne hch hf.dvd [t] rfl _ (slot_lt hu hx')
      fun l hl => hz l hl _ hzo
  cases hneg : negative with
  | false =>
    have hnn := hf.negNone hneg
    have hdo : ∀ t, m.dimOut ov d t = core t := fun t => by
      unfold MonoNN.dimOut; rw [hnn]
    refine ⟨fun t => by rw [hdo, hcl], fun j k hj hk => ?_⟩
    have hu := unit_lt m.sep m.cats.length m.M j k hj hk
    refine ⟨fun t => (core t).getD (m.sep.unit m.M j k) 0, hmono _ hu, fun hr t => hzero j k hj hk hr t, fun t => ?_⟩
    rw [hdo]
    unfold MonoNN.gain
    rw [hnn]; simp
  | true =>
    obtain ⟨ns, hns, hall⟩ := hf.negSome hneg
    obtain ⟨neg, hnd, hper, hrel, hzo, hwl⟩ := hall d hd
    have hdo : ∀ t, m.dimOut ov d t = neg.forward (core t) := fun t => by
      unfold MonoNN.dimOut; rw [hns]; simp only [hnd]; rfl
    have hrc : (relColumn r d).length = m.cats.length := by rw [relColumn, List.length_map, hf.relLen]
    have hw : neg.weight = repeatInterleave neg.perItem neg.allItemWeights := by
      unfold Negation.weight Negation.allItemWeights
      rw [scatterMask_repeat _ _ _ (by rw [hrel, hwl])]
    have hal : neg.allItemWeights.length = m.cats.length := by
      rw [Negation.allItemWeights, length_scatterMask, hrel, hrc]
    have hwlen : neg.weight.length = n := by
      rw [hw, length_repeatInterleave, hal, hper, hn]
      cases hs : m.sep <;> simp [nnNegation, Separate.count] <;> try ring
    have hzlen : neg.zeroOut.length = n := by
      rw [hzo, hn]
      cases hs : m.sep <;> simp [nnNegation, Separate.count, length_missingMask]
    have hlenF : ∀ t, (m.dimOut ov d t).length = n := fun t => by
      rw [hdo, Negation.forward, List.length_zipWith, maskFill, List.length_zipWith, hcl, hzlen, hwlen]; simp
    refine ⟨hlenF, fun j k hj hk => ?_⟩
    have hu : m.sep.unit m.M j k < n := unit_lt m.sep m.cats.length m.M j k hj hk
    obtain ⟨z, hzz⟩ := getElem?_of_lt neg.zeroOut (m.sep.unit m.M j k) (by rw [hzlen]; exact hu)
    refine ⟨fun t => if z then 0 else (core t).getD (m.sep.unit m.M j k) 0, ?_, ?_, ?_⟩
    · intro s t hst
      show (if z then (0 : ℝ) else _) ≤ if z then 0 else _
      split_ifs
      · exact le_rfl
      · exact hmono _ hu hst
    · intro hr t
      show (if z then (0 : ℝ) else _) = 0
      rw [hzero j k hj hk hr t]; simp
    · intro t
      rw [hdo, Negation.forward, List.getD_eq_getElem?_getD, List.getElem?_zipWith,
        maskFill_getElem? _ _ _ _ z ((core t).getD (m.sep.unit m.M j k) 0) hzz
          (getElem?_getD (by rw [hcl]; exact hu)), getElem?_getD (by rw [hwlen]; exact hu)]
      simp only [Option.getD_some]
      congr 1
      unfold MonoNN.gain
      rw [hns]
      simp only [hnd]
      rw [hw, hper]
      cases hs : m.sep with
      | items =>
        simp only [nnNegation, Separate.unit]
        rw [List.getD_eq_getElem?_getD, List.getD_eq_getElem?_getD]
        have := repeatInterleave_getElem? 1 neg.allItemWeights j 0 one_pos
        simp only [mul_one, add_zero] at this
        rw [this]
      | categories =>
        simp only [nnNegation, Separate.unit]
        rw [List.getD_eq_getElem?_getD, List.getD_eq_getElem?_getD, repeatInterleave_getElem? m.M _ j k hk]

/-- The slots of the network before the cumulative sums. -/
noncomputable def MonoNN.slots (m : MonoNN) (ov : ℝ) (theta : ℕ → ℝ) : List ℝ :=
  m.sep.expand m.M
    (sumRows (m.sep.count m.cats.length m.M) ((List.range m.lv).map fun d => m.dimOut ov d (theta d)))

theorem MonoNN.slots_spec (m : MonoNN) (negative : Bool) (r : List (List Bool)) (hf : m.Facts negative r) (ov : ℝ)
    (hov : 0 ≤ ov) : (∀ theta, (m.slots ov theta).length = m.cats.length * m.M) ∧
    ∀ j k, j < m.cats.length → k < m.M → ∃ f : ℕ → ℝ → ℝ, (∀ d, d < m.lv → Monotone (f d)) ∧
      (∀ d, d < m.lv → (relColumn r d)[j]? = some false → ∀ t, f d t = 0) ∧
      ∀ theta, (m.slots ov theta).getD (j * m.M + k) 0 = ∑ d ∈ range m.lv, f d (theta d) * m.gain d j := by
  have hrows : ∀ theta : ℕ → ℝ, ∀ q ∈ (List.range m.lv).map fun d => m.dimOut ov d (theta d),
      q.length = m.sep.count m.cats.length m.M := by
    intro theta q hq
    obtain ⟨d, hd, rfl⟩ := List.mem_map.1 hq
    exact (m.dim_unit negative r hf ov hov d (List.mem_range.1 hd)).1 _
  refine ⟨fun theta => length_expand m.sep m.cats.length m.M _ (length_sumRows _ _ (hrows theta)), ?_⟩
  intro j k hj hk
  have hex : ∀ d, ∃ f : ℝ → ℝ, d < m.lv → Monotone f ∧
      ((relColumn r d)[j]? = some false → ∀ t, f t = 0) ∧
      ∀ t, (m.dimOut ov d t).getD (m.sep.unit m.M j k) 0 = f t * m.gain d j := by
    intro d
    by_cases hd : d < m.lv
    · obtain ⟨f, h1, h2, h3⟩ := (m.dim_unit negative r hf ov hov d hd).2 j k hj hk
      exact ⟨f, fun _ => ⟨h1, h2, h3⟩⟩
    · exact ⟨fun _ => 0, fun h => absurd h hd⟩
  choose f hfd using hex
  refine ⟨f, fun d hd => (hfd d hd).1, fun d hd => (hfd d hd).2.1, fun theta => ?_⟩
  unfold MonoNN.slots
  rw [expand_getD m.sep m.M _ j k hk, sumRows_getD _ _ (hrows theta) _ (unit_lt _ _ _ _ _ hj hk), List.map_map,
    list_sum_range]
  exact sum_congr rfl fun d hd => (hfd d (mem_range.1 hd)).2.2 _

/-! ## The spline model -/

theorem MonoBSpline.catCoef_nonneg (m : MonoBSpline) (hwf : m.WF) (b item c : ℕ) : 0 ≤ m.catCoef b item c := by
  unfold MonoBSpline.catCoef
  set i := (b * m.cats.length + item) * m.M + c
  rw [List.getD_eq_getElem?_getD]
  cases h : m.splineMask[i]? with
  | none =>
    rw [List.getElem?_eq_none]
    · simp
    · rw [length_scatterMask]; exact List.getElem?_eq_none_iff.1 h
  | some q =>
    cases q with
    | false => rw [scatterMask_false _ _ _ _ h]; simp
    | true =>
      obtain ⟨v, hv, he⟩ := scatterMask_mem 0 m.splineMask (m.coefCats.map softplus) i
        (by rw [List.length_map, hwf.coefLen]) h
      obtain ⟨a, -, rfl⟩ := List.mem_map.1 hv
      rw [he]; exact (softplus_pos a).le

/-- The logit of category `c` before the intercept, written with tail sums of the basis. -/
noncomputable def MonoBSpline.logit (m : MonoBSpline) (basis : ℕ → ℕ → ℝ) (item c : ℕ) : ℝ :=
  match m.sep with
  | .items => ∑ l ∈ range m.lv, (∑ b ∈ range m.nb, softplus (m.coefItems l b item) *
      ∑ x ∈ Ico b m.nb, basis l x) * (c : ℝ)
  | .categories => ∑ c' ∈ range (c + 1), ∑ b ∈ range m.nb, m.catCoef b item c' * ∑ x ∈ Ico b m.nb, basis 0 x

theorem MonoBSpline.itemLogits_eq (m : MonoBSpline) (basis : ℕ → ℕ → ℝ) (item : ℕ) :
    m.itemLogits basis item = (List.range m.M).map (m.logit basis item) := by
  unfold MonoBSpline.itemLogits MonoBSpline.logit
  refine List.map_congr_left fun c _ => ?_
  cases m.sep with
  | items =>
    simp only [list_sum_range]
    exact sum_congr rfl fun l _ => by rw [abel_tail]
  | categories =>
    simp only [list_sum_range]
    exact sum_congr rfl fun l _ => by rw [abel_tail]

theorem MonoBSpline.probs_row (m : MonoBSpline) (basis : ℕ → ℕ → ℝ) (t : List (List ℝ)) (ht : m.probs basis = .ok t) :
    (m.sep = .categories → m.lv = 1) ∧ t.length = m.cats.length ∧ ∀ j c : ℕ, m.cats[j]? = some c →
      t[j]? = some (multinomialLogit c m.M fun k =>
        (if k < m.M then m.logit basis j k else 0) +
          (scatterMask 0 (freeMask m.M m.cats) m.bias).getD (j * m.M + k) 0) := by
  unfold MonoBSpline.probs at ht
  obtain ⟨row, hrow, ht⟩ := bind_eq_ok ht
  unfold MonoBSpline.forwardRow at hrow
  split_ifs at hrow with hc
  cases hrow
  cases ht
  refine ⟨fun hs => by_contra fun hl => hc ⟨hs, hl⟩, by simp [probabilitiesFromOutput, length_viewRows], ?_⟩
  intro j c hj
  have hlen : ((List.range m.cats.length).flatMap (m.itemLogits basis)).length = m.cats.length * m.M := by
    rw [length_flatMap_const m.M _ _ (fun _ _ => by simp [MonoBSpline.itemLogits]), List.length_range]
  rw [finish_probs_gen m.M m.cats _ _ (fun c hc => le_maxCats _ _ hc)
    (by rw [length_scatterMask, length_freeMask]) hlen j c hj]
  congr 1
  have hcM : c ≤ m.M := le_maxCats _ _ (List.mem_of_getElem? hj)
  refine multinomialLogit_congr c m.M _ _ fun k hk => ?_
  congr 1
  rw [if_pos (by omega), List.getD_eq_getElem?_getD,
    flatMap_getElem? m.M _ _ (fun _ _ => by simp [MonoBSpline.itemLogits]) j k (by omega),
    List.getElem?_range (lt_of_getElem?_some hj), Option.bind_some, m.itemLogits_eq, List.getElem?_map,
    List.getElem?_range (by omega)]
  rfl

end Irt
