import Verif.Spec.ItemFigures
import Verif.Props.Plotter
import Verif.Lemmas.Scoring
import Verif.Lemmas.LogitModel
import Verif.Props.SumScores
import Mathlib.Algebra.Order.Floor.Semifield

/-! # C112: figures of item probabilities -/

namespace Irt

open Spec

/-! ## Lines -/

theorem filter_flatMap_map {α β : Type} (l : List α) (f : α → List β) (p : β → Bool) :
    (l.flatMap f).filter p = l.flatMap fun a => (f a).filter p := by
  induction l with
  | nil => rfl
  | cons a l ih => simp [List.flatMap_cons, ih]

theorem linesOf_itemFigure (nanInt : ℤ) (palette : List Colour) (gray hasKey : Bool) (n : ℕ) (pts : List (ℝ × List ℝ))
    (groups : Option GroupFit) :
    linesOf (itemFigure nanInt palette gray hasKey n pts groups)
      = (List.range n).map fun i => ⟨.line, categoryLabel hasKey i,
          (lineColors nanInt palette gray n)[i % (lineColors nanInt palette gray n).length]?,
          pts.map fun p => (some p.1, p.2[i]?)⟩ := by
  unfold linesOf itemFigure
  rw [filter_flatMap_map, List.flatMap_eq_foldl, ← List.flatMap_eq_foldl]
  rw [← List.flatMap_pure_eq_map]
  congr 1
  funext i
  cases groups <;> simp [categoryTraces, categoryLabel, List.filter_cons]

theorem range_map_getElem? {α : Type} (n : ℕ) (f : ℕ → α) (i : ℕ) (hi : i < n) : ((List.range n).map f)[i]? = some (f i) := by
  simp [hi]

/-- C112: without transformations `item_probabilities` draws one line for each category of the item, labelled with the category.
Each has one point per step: the abscissas are equally spaced over the requested range, and the height of the line of category `c`
is the probability of that category at the latent position with this value of the plotted variable and the fixed values of the
others. -/
theorem C112_lines {d : ℕ} (nanInt : ℤ) (palette : List Colour) (m : PlotModel d) (probs : (Fin d → ℝ) → List (List ℝ))
    (cats : List ℕ) (M : ℕ) (h : ∀ θ, IsTable cats M (probs θ)) (hasKey gray : Bool) (item n : ℕ) (hc : cats[item]? = some n)
    (hM : n ≤ M) (i : Fin d) (a b : ℝ) (hab : a < b) (steps : ℕ) (hs : 2 ≤ steps) (f : Fin d → ℝ) (rescale : Bool)
    (hraw : rescale = false ∨ m.scales = []) (groups : Option GroupFit) :
    ∃ fig, probabilityFigure nanInt palette m probs cats hasKey gray item i (some (a, b)) steps (some f) rescale groups = .ok fig ∧
      (linesOf fig).map (fun t => (t.name, t.points)) = (List.range n).map fun c => (categoryLabel hasKey c,
        (List.range steps).map fun s => (some (stepValue a b steps s),
          some (tableProb (probs (Function.update f i (stepValue a b steps s))) item c))) := by
  have h1 := C87_line m _ _ (C87_probabilities probs cats M h item n hc hM) i a b hab steps hs f rescale hraw
  suffices hx : ∀ pts, pts = (List.range steps).map (fun s => (stepValue a b steps s,
      (List.range n).map (tableProb (probs (Function.update f i (stepValue a b steps s))) item))) → _ from hx _ rfl
  intro pts hpts
  refine ⟨itemFigure nanInt palette gray hasKey n pts groups, ?_, ?_⟩
  · unfold probabilityFigure probabilityPlot probabilityFixed plotFixed
    rw [h1, bind_ok, hc, hpts]
    rfl
  · rw [linesOf_itemFigure, List.map_map, hpts]
    refine List.map_congr_left fun c hc' => ?_
    simp only [Function.comp, List.map_map, Prod.mk.injEq, true_and]
    refine List.map_congr_left fun s _ => ?_
    simp only [Function.comp, Prod.mk.injEq, true_and]
    exact range_map_getElem? _ _ _ (List.mem_range.1 hc')

/-- C112: with invertible transformations and training scores the abscissas are equally spaced transformed scores. -/
theorem C112_lines_scale {d : ℕ} (nanInt : ℤ) (palette : List Colour) (m : PlotModel d) (hsc : m.scales ≠ [])
    (hinv : ∀ s ∈ m.scales, s.2 = true) (t : Thetas d) (htr : m.training = some t) (T S : (Fin d → ℝ) → Fin d → ℝ)
    (hT : ActsRowwise m.scaleList T) (hS : InvertsRowwise m.scaleList S) (hTS : ∀ u, T (S u) = u)
    (probs : (Fin d → ℝ) → List (List ℝ))
    (cats : List ℕ) (M : ℕ) (h : ∀ θ, IsTable cats M (probs θ)) (hasKey gray : Bool) (item n : ℕ) (hc : cats[item]? = some n)
    (hM : n ≤ M) (i : Fin d) (a b : ℝ) (hab : a < b) (steps : ℕ) (hs : 2 ≤ steps) (f : Fin d → ℝ) (groups : Option GroupFit) :
    ∃ (fig : List Trace) (θ : ℕ → Fin d → ℝ),
      probabilityFigure nanInt palette m probs cats hasKey gray item i (some (a, b)) steps (some f) true groups = .ok fig ∧
      (∀ s, T (θ s) = Function.update f i (stepValue a b steps s)) ∧
      (linesOf fig).map (fun t => (t.name, t.points)) = (List.range n).map fun c => (categoryLabel hasKey c,
        (List.range steps).map fun s => (some (stepValue a b steps s), some (tableProb (probs (θ s)) item c))) := by
  obtain ⟨θ, hθ, h1⟩ := C87_line_scale m hsc hinv t htr T S hT hS hTS _ _ (C87_probabilities probs cats M h item n hc hM) i a b hab
    steps hs f
  suffices hx : ∀ pts, pts = (List.range steps).map (fun s => (stepValue a b steps s,
      (List.range n).map (tableProb (probs (θ s)) item))) → _ from hx _ rfl
  intro pts hpts
  refine ⟨itemFigure nanInt palette gray hasKey n pts groups, θ, ?_, hθ, ?_⟩
  · unfold probabilityFigure probabilityPlot probabilityFixed plotFixed
    rw [h1, bind_ok, hc, hpts]
    rfl
  · rw [linesOf_itemFigure, List.map_map, hpts]
    refine List.map_congr_left fun c hc' => ?_
    simp only [Function.comp, List.map_map, Prod.mk.injEq, true_and]
    refine List.map_congr_left fun s _ => ?_
    simp only [Function.comp, Prod.mk.injEq, true_and]
    exact range_map_getElem? _ _ _ (List.mem_range.1 hc')

/-- Reversed scores of two latent variables meet the hypotheses. -/
example : ∃ (fig : List Trace) (θ : ℕ → Fin 2 → ℝ),
    probabilityFigure 0 [.named "blue"] plotReversed2 plotItem [2] false false 0 0 (some (0, 1)) 3 (some 0) true none = .ok fig ∧
    (∀ s, (fun k => -(θ s k)) = Function.update (0 : Fin 2 → ℝ) 0 (stepValue 0 1 3 s)) ∧
    (linesOf fig).map (fun t => (t.name, t.points)) = (List.range 2).map fun c => (categoryLabel false c,
      (List.range 3).map fun s => (some (stepValue 0 1 3 s), some (tableProb (plotItem (θ s)) 0 c))) :=
  C112_lines_scale 0 _ plotReversed2 (by simp [plotReversed2]) (by simp [plotReversed2]) [fun _ => 1] rfl _ _
    plotReversed2_rowwise plotReversed2_inverse (fun u => by simp) plotItem [2] 2 plotItem_table false false 0 2 rfl le_rfl 0 0 1
    (by norm_num) 3 (by norm_num) 0 none

/-- C112: at every abscissa the heights of the lines sum to one, whatever has been trimmed or transformed. -/
theorem C112_heights {d : ℕ} (nanInt : ℤ) (palette : List Colour) (m : PlotModel d) (probs : (Fin d → ℝ) → List (List ℝ))
    (cats : List ℕ) (M : ℕ) (h : ∀ θ, IsTable cats M (probs θ)) (hasKey gray : Bool) (item n : ℕ) (hc : cats[item]? = some n)
    (hM : n ≤ M) (i : Fin d) (range : Option (ℝ × ℝ)) (steps : ℕ) (fixed : Option (Fin d → ℝ)) (rescale : Bool)
    (groups : Option GroupFit) (fig : List Trace)
    (hfig : probabilityFigure nanInt palette m probs cats hasKey gray item i range steps fixed rescale groups = .ok fig) :
    (linesOf fig).length = n ∧ ∃ N : ℕ, (∀ t ∈ linesOf fig, t.points.length = N) ∧
      ∀ s < N, ∃ heights : List ℝ, (linesOf fig).map (fun t => (t.points[s]?).bind Prod.snd) = heights.map some ∧
        (∀ p ∈ heights, 0 ≤ p) ∧ heights.sum = 1 := by
  unfold probabilityFigure at hfig
  obtain ⟨pts, hpts, hfig⟩ := bind_eq_ok hfig
  rw [hc] at hfig
  simp only [pure, Except.pure, Except.ok.injEq] at hfig
  subst hfig
  rw [linesOf_itemFigure]
  refine ⟨by simp, pts.length, ?_, ?_⟩
  · intro t ht
    obtain ⟨c, _, rfl⟩ := List.mem_map.1 ht
    simp
  intro s hsN
  have hmem : ∃ θ, (pts[s]).2 = (List.range n).map (tableProb (probs θ) item) := by
    unfold probabilityPlot linePlot at hpts
    obtain ⟨grid, -, hpts⟩ := bind_eq_ok hpts
    rw [C87_probabilities probs cats M h item n hc hM, bind_ok] at hpts
    obtain ⟨scores, -, hpts⟩ := bind_eq_ok hpts
    have hm : ((pts[s]).1, (pts[s]).2) ∈ pts := List.getElem_mem hsN
    generalize (pts[s]).1 = x0 at hm
    generalize (pts[s]).2 = y0 at hm ⊢
    have hv : y0 ∈ grid.map fun θ => (List.range n).map (tableProb (probs θ) item) := by
      unfold trimCurve at hpts
      split at hpts
      · simp at hpts
      · simp only at hpts
        split at hpts
        · simp only [Except.ok.injEq] at hpts
          rw [← hpts] at hm
          exact List.mem_of_mem_take (List.of_mem_zip hm).2
        · simp only [Except.ok.injEq] at hpts
          rw [← hpts] at hm
          exact List.mem_of_mem_drop (List.of_mem_zip hm).2
    obtain ⟨θ, _, hθ⟩ := List.mem_map.1 hv
    exact ⟨θ, hθ.symm⟩
  obtain ⟨θ, hθ⟩ := hmem
  have hj : item < (probs θ).length := by rw [(h θ).1]; exact lt_of_getElem?_some hc
  have hd := (h θ).2 item _ _ (List.getElem?_eq_getElem hj) hc
  have ht : ∀ c, tableProb (probs θ) item c = (probs θ)[item].getD c 0 := fun c => tableProb_row _ _ _ _ (List.getElem?_eq_getElem hj)
  have e : (List.range n).map (tableProb (probs θ) item) = (probs θ)[item].take n := by
    apply List.ext_getElem (by simp [hd.length]; omega)
    intro k h1 h2
    have hk' : k < (probs θ)[item].length := by simp at h2; omega
    simp [ht, List.getElem?_eq_getElem hk']
  refine ⟨(probs θ)[item].take n, ?_, fun p hp => hd.nonneg p (List.mem_of_mem_take hp), take_sum_of_distribution hd⟩
  rw [← e, List.map_map, List.map_map]
  refine List.map_congr_left fun c hc' => ?_
  simp only [Function.comp, List.getElem?_map, List.getElem?_eq_getElem hsN, Option.map_some, Option.bind_some, hθ]
  simp [List.mem_range.1 hc']

/-- A figure that meets the hypotheses: an item with two categories over three steps. -/
example : ∃ fig, probabilityFigure 0 [.named "blue"] (⟨[], none⟩ : PlotModel 2) plotItem [2] true false 0 1 (some (-1, 1)) 3 (some 0) true
      none = .ok fig ∧ (linesOf fig).map (fun t => t.name) = ["Option 1", "Option 2"] := by
  obtain ⟨fig, h1, h2⟩ := C112_lines 0 [.named "blue"] (⟨[], none⟩ : PlotModel 2) plotItem [2] 2 plotItem_table true false 0 2 rfl le_rfl 1
    (-1) 1 (by norm_num) 3 (by norm_num) 0 true (Or.inr rfl) none
  refine ⟨fig, h1, ?_⟩
  have := congrArg (List.map Prod.fst) h2
  rw [List.map_map, List.map_map] at this
  exact this

/-! ## Groups of respondents -/

/-- C112: with a group fit, each category also has one marker per group for the data and one for the model, at the mean score of the
group, in the colour of the line of the category. -/
theorem C112_groups (nanInt : ℤ) (palette : List Colour) (gray hasKey : Bool) (n : ℕ) (pts : List (ℝ × List ℝ)) (G : ℕ)
    (means : ℕ → Num) (data model : ℕ → ℕ → Num) (g : GroupFit) (hm : g.means = (List.range G).map means)
    (hda : g.data = (List.range G).map fun r => (List.range n).map (data r))
    (hmo : g.model = (List.range G).map fun r => (List.range n).map (model r)) :
    let fig := itemFigure nanInt palette gray hasKey n pts (some g)
    (markersOf .data fig).map (fun t => (t.color, t.points)) = (List.range n).map (fun c => (((linesOf fig)[c]?).bind Trace.color,
        (List.range G).map fun r => (means r, data r c))) ∧
      (markersOf .model fig).map (fun t => (t.color, t.points)) = (List.range n).map (fun c => (((linesOf fig)[c]?).bind Trace.color,
        (List.range G).map fun r => (means r, model r c))) := by
  intro fig
  have hl := linesOf_itemFigure nanInt palette gray hasKey n pts (some g)
  have hcol : ∀ c < n, ((linesOf fig)[c]?).bind Trace.color
      = (lineColors nanInt palette gray n)[c % (lineColors nanInt palette gray n).length]? := by
    intro c hc
    show ((linesOf (itemFigure nanInt palette gray hasKey n pts (some g)))[c]?).bind Trace.color = _
    rw [hl, range_map_getElem? _ _ _ hc]
    rfl
  have hpts : ∀ (F : ℕ → ℕ → Num) (c : ℕ), c < n →
      List.zip g.means (((List.range G).map fun r => (List.range n).map (F r)).map fun r => r.getD c none)
        = (List.range G).map fun r => (means r, F r c) := by
    intro F c hc
    rw [hm, List.map_map, List.zip_map', List.map_inj_left]
    intro r _
    simp [hc]
  have key : ∀ k, markersOf k fig = (List.range n).flatMap fun i =>
      (categoryTraces hasKey (lineColors nanInt palette gray n) pts (some g) i).filter fun t => decide (t.kind = k) := fun k =>
    filter_flatMap_map _ _ _
  constructor
  · rw [key, List.map_flatMap, ← List.flatMap_pure_eq_map]
    refine List.flatMap_congr fun c hc => ?_
    have hc' := List.mem_range.1 hc
    simp only [Function.comp]
    rw [hcol c hc', ← hpts data c hc', ← hda]
    simp [categoryTraces, List.filter_cons]
  · rw [key, List.map_flatMap, ← List.flatMap_pure_eq_map]
    refine List.flatMap_congr fun c hc => ?_
    have hc' := List.mem_range.1 hc
    simp only [Function.comp]
    rw [hcol c hc', ← hpts model c hc', ← hmo]
    simp [categoryTraces, List.filter_cons]

/-- Two groups and two categories. -/
example : ∃ (g : GroupFit) (means : ℕ → Num) (data model : ℕ → ℕ → Num), g.means = (List.range 2).map means ∧
    g.data = (List.range 2).map (fun r => (List.range 2).map (data r)) ∧
    g.model = (List.range 2).map (fun r => (List.range 2).map (model r)) ∧ g.means = [some (-1), some 1] :=
  ⟨⟨[some (-1), some 1], [[some (1/4), some (3/4)], [some (1/2), some (1/2)]], [[some (1/3), some (2/3)], [some 1, some 0]]⟩,
    fun r => if r = 0 then some (-1) else some 1,
    fun r c => if r = 0 then (if c = 0 then some (1/4) else some (3/4)) else some (1/2),
    fun r c => if r = 0 then (if c = 0 then some (1/3) else some (2/3)) else (if c = 0 then some 1 else some 0),
    rfl, rfl, rfl, rfl⟩

/-! ## Surfaces -/

/-- C112: for two latent variables without transformations there is one surface per category, over the square grid of the two
ranges: row `s`, column `s'` is the pair of scores of those steps with the probability of the category there. -/
theorem C112_surfaces {d : ℕ} (nanInt : ℤ) (palette : List Colour) (m : PlotModel d) (probs : (Fin d → ℝ) → List (List ℝ))
    (cats : List ℕ) (M : ℕ) (h : ∀ θ, IsTable cats M (probs θ)) (gray : Bool) (item n : ℕ) (hc : cats[item]? = some n)
    (hM : n ≤ M) (i j : Fin d) (hij : i ≠ j) (a b a' b' : ℝ) (steps : ℕ) (f : Fin d → ℝ) (rescale : Bool)
    (hraw : rescale = false ∨ m.scales = []) :
    ∃ fig, probabilitySurfaces nanInt palette m probs cats gray item i j (some (a, b)) (some (a', b')) steps (some f) rescale = .ok fig ∧
      fig.map (fun t => (t.name, t.points)) = (List.range n).map fun c => ("Response " ++ toString c,
        (List.range steps).map fun s => (List.range steps).map fun s' => (stepValue a b steps s, stepValue a' b' steps s',
          some (tableProb (probs (Function.update (Function.update f i (stepValue a b steps s)) j (stepValue a' b' steps s'))) item
            c))) := by
  have h1 := C87_surface m _ _ (C87_probabilities probs cats M h item n hc hM) i j hij a b a' b' steps f rescale hraw
  have hlen : ((List.range steps).flatMap fun s => (List.range steps).map fun s' =>
          (stepValue a b steps s, stepValue a' b' steps s',
            (List.range n).map (tableProb (probs (Function.update (Function.update f i (stepValue a b steps s)) j
              (stepValue a' b' steps s'))) item))).length = steps * steps := by
    simp [List.length_flatMap]
  generalize hpts : ((List.range steps).flatMap fun s => (List.range steps).map fun s' =>
          (stepValue a b steps s, stepValue a' b' steps s',
            (List.range n).map (tableProb (probs (Function.update (Function.update f i (stepValue a b steps s)) j
              (stepValue a' b' steps s'))) item))) = pts at h1 hlen
  refine ⟨(List.range n).map fun c => ⟨"Response " ++ toString c,
      (surfaceColors nanInt palette gray n).1[c % (surfaceColors nanInt palette gray n).1.length]?,
      viewRows steps steps (pts.map fun p => (p.1, p.2.1, p.2.2[c]?))⟩, ?_, ?_⟩
  · unfold probabilitySurfaces probabilityFixed plotFixed
    rw [h1, bind_ok, hc]
    simp only [itemSurfaces, hlen, Nat.sqrt_eq, ne_eq, not_true_eq_false, if_false]
  · rw [List.map_map]
    refine List.map_congr_left fun c hc' => ?_
    simp only [Function.comp, Prod.mk.injEq, true_and]
    refine Eq.trans ?_ (viewRows_flatTensor steps steps fun s s' => (stepValue a b steps s, stepValue a' b' steps s',
          some (tableProb (probs (Function.update (Function.update f i (stepValue a b steps s)) j (stepValue a' b' steps s'))) item
            c)))
    congr 1
    rw [← hpts, List.map_flatMap]
    unfold flatTensor
    refine List.flatMap_congr fun s _ => ?_
    rw [List.map_map]
    refine List.map_congr_left fun s' _ => ?_
    simp [List.mem_range.1 hc']

example : ∃ fig, probabilitySurfaces 0 [.named "blue"] (⟨[], none⟩ : PlotModel 2) plotItem [2] false 0 0 1 (some (-1, 1)) (some (0, 1)) 3
      (some 0) true = .ok fig ∧ fig.map (fun t => t.name) = ["Response 0", "Response 1"] := by
  obtain ⟨fig, h1, h2⟩ := C112_surfaces 0 [.named "blue"] (⟨[], none⟩ : PlotModel 2) plotItem [2] 2 plotItem_table false 0 2 rfl le_rfl
    0 1 (by decide) (-1) 1 0 1 3 0 true (Or.inr rfl)
  refine ⟨fig, h1, ?_⟩
  have := congrArg (List.map Prod.fst) h2
  rw [List.map_map, List.map_map] at this
  exact this

/-! ## Colours -/

theorem length_pyRepeat {α : Type} (k : ℕ) (l : List α) : (pyRepeat k l).length = k * l.length := by
  simp [pyRepeat]

theorem pyRepeat_succ {α : Type} (k : ℕ) (l : List α) : pyRepeat (k + 1) l = l ++ pyRepeat k l := by
  simp [pyRepeat, List.replicate_succ]

theorem pyRepeat_add {α : Type} (j k : ℕ) (l : List α) : pyRepeat (j + k) l = pyRepeat j l ++ pyRepeat k l := by
  induction j with
  | zero => simp [pyRepeat]
  | succ j ih => rw [show j + 1 + k = (j + k) + 1 by omega, pyRepeat_succ, ih, pyRepeat_succ, List.append_assoc]

theorem pyRepeat_mul {α : Type} (j k : ℕ) (l : List α) : pyRepeat j (pyRepeat k l) = pyRepeat (j * k) l := by
  induction j with
  | zero => simp [pyRepeat]
  | succ j ih => rw [pyRepeat_succ, ih, ← pyRepeat_add]; congr 1; ring

theorem pyRepeat_getElem? {α : Type} (k : ℕ) (l : List α) (i : ℕ) (hi : i < k * l.length) : (pyRepeat k l)[i]? = l[i % l.length]? := by
  induction k generalizing i with
  | zero => simp at hi
  | succ k ih =>
    rw [pyRepeat_succ]
    rcases Nat.lt_or_ge i l.length with h | h
    · rw [List.getElem?_append_left h, Nat.mod_eq_of_lt h]
    · rw [List.getElem?_append_right h, ih _ (by rw [Nat.add_mul] at hi; omega)]
      congr 1
      exact (Nat.mod_eq_sub_mod h).symm

/-- Using a repeated palette in turn is using the palette in turn. -/
theorem turn_repeat (k : ℕ) (hk : 1 ≤ k) (l : List Colour) (hl : l ≠ []) (i : ℕ) :
    (pyRepeat k l)[i % (pyRepeat k l).length]? = turnColour l i := by
  have hpos : 0 < l.length := List.length_pos_iff.2 hl
  rw [length_pyRepeat, pyRepeat_getElem? k l _ (Nat.mod_lt _ (Nat.mul_pos hk hpos)), Nat.mod_mul_left_mod]
  rfl

theorem pyRepeat_ne_nil {k : ℕ} (hk : 1 ≤ k) {l : List Colour} (hl : l ≠ []) : pyRepeat k l ≠ [] := by
  have hpos : 0 < l.length := List.length_pos_iff.2 hl
  have := Nat.mul_pos hk hpos
  rw [← length_pyRepeat] at this
  exact List.length_pos_iff.1 this

/-- After any session the palette is a repetition of the one at the start. -/
theorem palette_session (nanInt : ℤ) (p : List Colour) (calls : List FigureCall) :
    ∃ k, 1 ≤ k ∧ paletteAfter nanInt p calls = pyRepeat k p := by
  unfold paletteAfter
  suffices h : ∀ (q : List Colour), (∃ k, 1 ≤ k ∧ q = pyRepeat k p) →
      ∃ k, 1 ≤ k ∧ calls.foldl (fun q c => c.palette nanInt q) q = pyRepeat k p from
    h p ⟨1, le_rfl, by simp [pyRepeat]⟩
  induction calls with
  | nil => exact fun q h => h
  | cons c calls ih =>
    rintro q ⟨k, hk, rfl⟩
    refine ih _ ?_
    cases c with
    | lines => exact ⟨k, hk, rfl⟩
    | surfaces gray n pts =>
      simp only [FigureCall.palette, itemSurfaces]
      split_ifs
      · exact ⟨k, hk, rfl⟩
      · unfold surfaceColors
        cases gray
        · simp only [Bool.false_eq_true, if_false]
          split_ifs
          · rw [pyRepeat_mul, ← pyRepeat_add]
            exact ⟨_, by omega, rfl⟩
          · exact ⟨k, hk, rfl⟩
        · exact ⟨k, hk, rfl⟩

/-- C112: whatever figures have been drawn before, the lines and the surfaces of the categories of a coloured figure have the colours
of the palette of the start of the session, in turn. -/
theorem C112_colours (nanInt : ℤ) (p : List Colour) (hp : p ≠ []) (before : List FigureCall) :
    (∀ hasKey n pts groups, (linesOf (itemFigure nanInt (paletteAfter nanInt p before) false hasKey n pts groups)).map Trace.color
      = (List.range n).map (turnColour p)) ∧
    ∀ n pts fig, (itemSurfaces nanInt (paletteAfter nanInt p before) false n pts).1 = .ok fig →
      fig.map Surface.color = (List.range n).map (turnColour p) := by
  obtain ⟨k, hk, hpal⟩ := palette_session nanInt p before
  rw [hpal]
  constructor
  · intro hasKey n pts groups
    rw [linesOf_itemFigure, List.map_map]
    refine List.map_congr_left fun i _ => ?_
    simp only [Function.comp, lineColors, Bool.false_eq_true, if_false]
    split_ifs
    · rw [pyRepeat_mul]
      exact turn_repeat _ (Nat.mul_pos (Nat.succ_pos _) hk) p hp i
    · exact turn_repeat k hk p hp i
  · intro n pts fig hfig
    unfold itemSurfaces at hfig
    simp only at hfig
    split_ifs at hfig
    simp only [Except.ok.injEq] at hfig
    rw [← hfig, List.map_map]
    refine List.map_congr_left fun i _ => ?_
    simp only [Function.comp, surfaceColors, Bool.false_eq_true, if_false]
    split_ifs
    · rw [pyRepeat_mul, ← pyRepeat_add]
      exact turn_repeat _ (by omega) p hp i
    · exact turn_repeat k hk p hp i

/-- Figures do not change the palette every other figure of the process is drawn with. -/
def PaletteKept : Prop := ∀ (nanInt : ℤ) (p : List Colour) (call : FigureCall), p ≠ [] → call.palette nanInt p = p

/-- C112, negation: the surfaces of an item with more categories than colours lengthen the palette itself. -/
theorem C112_palette_false : ¬ PaletteKept := by
  intro h
  have := congrArg List.length (h 0 [.named "blue"] (.surfaces false 2 [(0, 0, [1 / 2, 1 / 2])]) (by simp))
  simp [FigureCall.palette, itemSurfaces, surfaceColors, pyRepeat] at this

/-- C112, exactly when the palette grows, and to what: a coloured figure with surfaces over a square grid, of an item with more
categories than the palette has colours. -/
theorem C112_palette_iff (nanInt : ℤ) (p : List Colour) (hp : p ≠ []) (call : FigureCall) :
    call.palette nanInt p ≠ p ↔ ∃ n pts, call = .surfaces false n pts ∧ p.length < n ∧ ∃ s, pts.length = s * s := by
  have hpos : 0 < p.length := List.length_pos_iff.2 hp
  cases call with
  | lines => simp [FigureCall.palette]
  | surfaces gray n pts =>
    simp only [FigureCall.palette, itemSurfaces, FigureCall.surfaces.injEq]
    constructor
    · intro h
      split_ifs at h with hs
      · exact absurd rfl h
      · cases gray
        · simp only [surfaceColors, Bool.false_eq_true, if_false] at h
          split_ifs at h with hn
          · exact ⟨n, pts, ⟨rfl, rfl, rfl⟩, hn, Nat.sqrt pts.length, (not_not.1 hs).symm⟩
          · exact absurd rfl h
        · exact absurd rfl h
    · rintro ⟨n', pts', ⟨rfl, rfl, rfl⟩, hn, s, hs⟩
      rw [if_neg (by rw [hs, Nat.sqrt_eq]; simp)]
      simp only [surfaceColors, Bool.false_eq_true, if_false, if_pos hn]
      intro h
      have := congrArg List.length h
      rw [List.length_append, length_pyRepeat] at this
      have h2 : 0 < (n / p.length + 1) * p.length := Nat.mul_pos (Nat.succ_pos _) hpos
      omega

/-- Ten colours, eleven categories and a grid of 25 times 25 points. -/
example : ∃ pts : List (ℝ × ℝ × List ℝ), (FigureCall.surfaces false 11 pts).palette 0 (List.replicate 10 (.named "x"))
    ≠ List.replicate 10 (.named "x") :=
  ⟨List.replicate 625 (0, 0, []), (C112_palette_iff 0 _ (by simp) _).2 ⟨11, _, rfl, by simp, 25, by rw [List.length_replicate]⟩⟩

/-! ## Grays -/

theorem grayLevel_eq (nanInt : ℤ) (n i : ℕ) (hn : 2 ≤ n) (hi : i < n) : grayLevel nanInt n i = ((176 * (n - 1 - i) / (n - 1) : ℕ) : ℤ) := by
  obtain ⟨k, rfl⟩ : ∃ k, n = k + 2 := ⟨n - 2, by omega⟩
  unfold grayLevel
  rw [if_neg (by omega)]
  have hk : (0 : ℝ) < (k : ℝ) + 1 := by positivity
  have e : (176 + (0 - 176) * (i : ℝ) / (((k + 2 : ℕ) : ℝ) - 1)) = ((176 * (k + 1 - i) : ℕ) : ℝ) / ((k + 1 : ℕ) : ℝ) := by
    push_cast [Nat.cast_sub (show i ≤ k + 1 by omega)]
    rw [show (k : ℝ) + 2 - 1 = k + 1 by ring]
    field_simp
    ring
  rw [e, truncInt, if_pos (by positivity), ← Int.natCast_floor_eq_floor (by positivity), Nat.floor_div_eq_div]
  congr 1

/-- C112: in gray figures of items with at least two categories the grays go from the light gray 176 of the first category to the
black of the last, and never get lighter. -/
theorem C112_gray (nanInt : ℤ) (n : ℕ) (hn : 2 ≤ n) :
    grayLevel nanInt n 0 = 176 ∧ grayLevel nanInt n (n - 1) = 0 ∧
      (∀ i < n, 0 ≤ grayLevel nanInt n i ∧ grayLevel nanInt n i ≤ 176) ∧
      ∀ i j, i ≤ j → j < n → grayLevel nanInt n j ≤ grayLevel nanInt n i := by
  refine ⟨?_, ?_, fun i hi => ?_, fun i j hij hj => ?_⟩
  · rw [grayLevel_eq _ _ _ hn (by omega), Nat.sub_zero, Nat.mul_div_cancel _ (by omega)]
    rfl
  · rw [grayLevel_eq _ _ _ hn (by omega)]
    simp
  · rw [grayLevel_eq _ _ _ hn hi]
    refine ⟨by positivity, ?_⟩
    have : 176 * (n - 1 - i) / (n - 1) ≤ 176 := Nat.div_le_of_le_mul (by
      rw [Nat.mul_comm (n - 1)]; exact Nat.mul_le_mul_left _ (by omega))
    exact_mod_cast this
  · rw [grayLevel_eq _ _ _ hn hj, grayLevel_eq _ _ _ hn (by omega)]
    exact_mod_cast Nat.div_le_div_right (Nat.mul_le_mul_left _ (by omega))

/-- C112: the grays of a figure tell the categories apart exactly up to 177 categories. -/
theorem C112_gray_distinct (nanInt : ℤ) (n : ℕ) (hn : 2 ≤ n) : (grayscaleColors nanInt n).Nodup ↔ n ≤ 177 := by
  have hg : grayscaleColors nanInt n = (List.range n).map fun i => Colour.gray (grayLevel nanInt n i) := rfl
  constructor
  · intro h
    by_contra hlt
    have hmem : ∀ c ∈ grayscaleColors nanInt n, c ∈ (List.range 177).map fun v : ℕ => Colour.gray (v : ℤ) := by
      intro c hc
      rw [hg] at hc
      obtain ⟨i, hi, rfl⟩ := List.mem_map.1 hc
      have hb := (C112_gray nanInt n hn).2.2.1 i (List.mem_range.1 hi)
      refine List.mem_map.2 ⟨(grayLevel nanInt n i).toNat, List.mem_range.2 (by omega), ?_⟩
      rw [Int.toNat_of_nonneg hb.1]
    have := (h.subperm hmem).length_le
    simp [hg] at this
    omega
  · intro h
    rw [hg]
    refine List.Nodup.map_on (fun i hi j hj hij => ?_) List.nodup_range
    rw [List.mem_range] at hi hj
    simp only [Colour.gray.injEq] at hij
    have key : ∀ i j, i < j → j < n → grayLevel nanInt n j < grayLevel nanInt n i := by
      intro i j hij hj
      rw [grayLevel_eq _ _ _ hn hj, grayLevel_eq _ _ _ hn (by omega)]
      have h1 : 176 * (n - 1 - j) / (n - 1) + 1 ≤ 176 * (n - 1 - i) / (n - 1) := by
        rw [← Nat.add_div_right _ (by omega)]
        refine Nat.div_le_div_right ?_
        have : n - 1 - j + 1 ≤ n - 1 - i := by omega
        have := Nat.mul_le_mul_left 176 this
        omega
      exact_mod_cast h1
    rcases Nat.lt_trichotomy i j with hlt | rfl | hlt
    · have := key i j hlt hj; omega
    · rfl
    · have := key j i hlt hi; omega

/-- The gray figures of an item with a single category have a proper gray. -/
def SingleGray : Prop := ∀ nanInt : ℤ, 0 ≤ grayLevel nanInt 1 0 ∧ grayLevel nanInt 1 0 ≤ 255

/-- C112, negation: with a single category the level is zero divided by zero, turned into an integer. On the usual platforms that is
the smallest 64-bit integer. -/
theorem C112_gray_single_false : ¬ SingleGray ∧ ∀ nanInt, grayscaleColors nanInt 1 = [.gray nanInt] := by
  refine ⟨fun h => ?_, fun nanInt => by simp [grayscaleColors, grayLevel]⟩
  have := (h (-(2 ^ 63))).1
  simp [grayLevel] at this

/-- Five categories. -/
example : grayLevel 0 5 1 = 132 := by rw [grayLevel_eq _ _ _ (by norm_num) (by norm_num)]; norm_num

end Irt
