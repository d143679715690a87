import Verif.Model.Splits
import Verif.Lemmas.Data
import Mathlib.Data.List.Perm.Basic

/-!
# Lemmas about splitting and cross-validation
-/

namespace Irt

theorem takeRows_range {α : Type} (data : List α) : takeRows data (List.range data.length) = data := by
  unfold takeRows
  induction data with
  | nil => rfl
  | cons a l ih =>
    rw [List.length_cons, List.range_succ_eq_map, List.filterMap_cons]
    simp only [List.getElem?_cons_zero, List.filterMap_map, Function.comp_def, List.getElem?_cons_succ, ih]

theorem takeRows_perm {α : Type} (data : List α) (perm : List ℕ)
    (h : perm.Perm (List.range data.length)) : (takeRows data perm).Perm data := by
  have := h.filterMap (fun i => data[i]?)
  rw [show (List.range data.length).filterMap (fun i => data[i]?) = data from takeRows_range data] at this
  exact this

theorem blocks_flatten {α : Type} (k : ℕ) (xs : List α) : (blocks k xs).flatten = xs := by
  induction xs using blocks.induct (k := k) with
  | case1 => simp [blocks]
  | case2 x xs ih => rw [blocks, List.flatten_cons, ih]; simp

theorem blocks_ne_nil {α : Type} (k : ℕ) (xs : List α) : ∀ b ∈ blocks k xs, b ≠ [] := by
  induction xs using blocks.induct (k := k) with
  | case1 => simp [blocks]
  | case2 x xs ih =>
    rw [blocks]
    intro b hb
    rcases List.mem_cons.1 hb with rfl | hb
    · simp
    · exact ih b hb

theorem blocks_length_le {α : Type} (k : ℕ) (xs : List α) : ∀ b ∈ blocks k xs, b.length ≤ k + 1 := by
  induction xs using blocks.induct (k := k) with
  | case1 => simp [blocks]
  | case2 x xs ih =>
    rw [blocks]
    intro b hb
    rcases List.mem_cons.1 hb with rfl | hb
    · simp
    · exact ih b hb

theorem blocks_length {α : Type} (k : ℕ) (xs : List α) :
    (blocks k xs).length = (xs.length + k) / (k + 1) := by
  induction xs using blocks.induct (k := k) with
  | case1 => simp only [blocks, List.length_nil, zero_add]; rw [Nat.div_eq_of_lt (by omega)]
  | case2 x xs ih =>
    rw [blocks, List.length_cons, ih, List.length_drop, List.length_cons]
    rcases le_or_gt xs.length k with h | h
    · have e1 : (xs.length - k + k) / (k + 1) = 0 := by
        rw [Nat.sub_eq_zero_of_le h, zero_add]; exact Nat.div_eq_of_lt (by omega)
      have e2 : (xs.length + 1 + k) / (k + 1) = 1 := by
        apply Nat.div_eq_of_lt_le <;> omega
      omega
    · rw [show xs.length + 1 + k = (xs.length - k + k) + (k + 1) by omega,
        Nat.add_div_right _ (Nat.succ_pos k)]

theorem eraseIdx_flatten_perm {α : Type} (fs : List (List α)) (i : ℕ) (f : List α)
    (h : fs[i]? = some f) : ((fs.eraseIdx i).flatten ++ f).Perm fs.flatten := by
  obtain ⟨hi, rfl⟩ := List.getElem?_eq_some_iff.1 h
  have h1 : (fs[i] :: fs.eraseIdx i).Perm fs := List.getElem_cons_eraseIdx_perm hi
  have h2 := h1.flatten
  rw [List.flatten_cons] at h2
  exact List.perm_append_comm.trans h2

/-! ## Dictionaries -/

theorem lookup_cons' (p : String × PyVal) (l : PyDict) (k : String) :
    List.lookup k (p :: l) = if k = p.1 then some p.2 else List.lookup k l := by
  obtain ⟨a, b⟩ := p
  by_cases h : k = a
  · subst h; simp [List.lookup]
  · have : (k == a) = false := by simpa using h
    simp [List.lookup, this, h]

theorem lookup_map_set (d : PyDict) (k : String) (v : PyVal) (j : String) :
    List.lookup j (d.map fun p => if p.1 = k then (k, v) else p) =
      if j = k then (if k ∈ d.map Prod.fst then some v else none) else List.lookup j d := by
  induction d with
  | nil => simp
  | cons p l ih =>
    rw [List.map_cons, lookup_cons', ih, lookup_cons']
    by_cases hp : p.1 = k
    · simp only [hp, if_true, List.map_cons, List.mem_cons, true_or]
      by_cases hj : j = k <;> simp [hj]
    · have hp' : k ≠ p.1 := fun h => hp h.symm
      by_cases hj : j = k
      · subst hj
        simp only [hp, hp', if_true, if_false, List.map_cons, List.mem_cons, false_or]
      · simp [hp, hj]

theorem lookup_append (d e : PyDict) (j : String) :
    List.lookup j (d ++ e) = (List.lookup j d).or (List.lookup j e) := by
  induction d with
  | nil => simp
  | cons p l ih =>
    rw [List.cons_append, lookup_cons', lookup_cons', ih]
    by_cases h : j = p.1 <;> simp [h]

theorem lookup_eq_none (d : PyDict) (j : String) : List.lookup j d = none ↔ j ∉ d.map Prod.fst := by
  induction d with
  | nil => simp
  | cons p l ih =>
    rw [lookup_cons', List.map_cons, List.mem_cons]
    by_cases h : j = p.1
    · simp [h]
    · simp only [h, if_false, ih, false_or]

theorem lookup_set (d : PyDict) (k : String) (v : PyVal) (j : String) :
    List.lookup j (PyDict.set d k v) = if j = k then some v else List.lookup j d := by
  unfold PyDict.set
  split
  · rename_i h
    rw [lookup_map_set]
    simp [h]
  · rename_i h
    rw [lookup_append, lookup_cons']
    by_cases hj : j = k
    · subst hj
      rw [(lookup_eq_none d j).2 h]; simp
    · simp [hj]

theorem lookup_update (d kw : PyDict) (hk : (kw.map Prod.fst).Nodup) (j : String) :
    List.lookup j (PyDict.update d kw) = (List.lookup j kw).or (List.lookup j d) := by
  unfold PyDict.update
  induction kw generalizing d with
  | nil => simp
  | cons p l ih =>
    rw [List.map_cons, List.nodup_cons] at hk
    rw [List.foldl_cons, ih _ hk.2, lookup_set, lookup_cons']
    by_cases h : j = p.1
    · subst h
      rw [(lookup_eq_none l p.1).2 hk.1]
      simp
    · simp [h]

theorem lookup_filter_ne (d : PyDict) (k j : String) (h : j ≠ k) :
    List.lookup j (d.filter fun p => p.1 ≠ k) = List.lookup j d := by
  induction d with
  | nil => rfl
  | cons p l ih =>
    rw [List.filter_cons, lookup_cons']
    by_cases hp : p.1 = k
    · simp only [hp, ne_eq, not_true_eq_false, decide_false, Bool.false_eq_true, if_false, h]
      simpa using ih
    · have : (decide (p.1 ≠ k)) = true := by simpa using hp
      rw [if_pos this, lookup_cons', ih]

theorem mem_of_lookup (d : PyDict) (k : String) (v : PyVal) (h : List.lookup k d = some v) :
    (k, v) ∈ d := by
  induction d with
  | nil => simp at h
  | cons p l ih =>
    rw [lookup_cons'] at h
    by_cases hk : k = p.1
    · subst hk
      simp only [if_true, Option.some.injEq] at h
      subst h; simp
    · simp only [hk, if_false] at h
      exact List.mem_cons_of_mem _ (ih h)

theorem lookup_mapM (f : String × PyVal → Except PyErr (String × PyVal))
    (hf : ∀ p q, f p = .ok q → q.1 = p.1) (r row : PyDict) (h : r.mapM f = .ok row) (k : String) (v : PyVal)
    (hk : List.lookup k r = some v) : ∃ w, f (k, v) = .ok (k, w) ∧ List.lookup k row = some w := by
  induction r generalizing row with
  | nil => simp at hk
  | cons p l ih =>
    rw [List.mapM_cons] at h
    rcases hp : f p with e | q
    · rw [hp] at h; simp [bind, Except.bind] at h
    · rw [hp] at h
      simp only [bind_ok] at h
      rcases hl : l.mapM f with e | rest
      · rw [hl] at h; simp [bind, Except.bind] at h
      · rw [hl] at h
        simp only [bind_ok, pure, Except.pure, Except.ok.injEq] at h
        subst h
        have hq := hf p q hp
        rw [lookup_cons'] at hk
        by_cases hkp : k = p.1
        · simp only [hkp, if_true, Option.some.injEq] at hk
          refine ⟨q.2, ?_, ?_⟩
          · rw [hkp, ← hk, ← hq]
            have e : (q.1, p.2) = p := by rw [hq]
            rw [e, hp]
          · rw [lookup_cons', hq, if_pos hkp]
        · simp only [hkp, if_false] at hk
          obtain ⟨w, h1, h2⟩ := ih rest hl hk
          exact ⟨w, h1, by rw [lookup_cons', hq, if_neg hkp, h2]⟩

theorem lookup_mapM_none (f : String × PyVal → Except PyErr (String × PyVal))
    (hf : ∀ p q, f p = .ok q → q.1 = p.1) (r row : PyDict) (h : r.mapM f = .ok row) (k : String)
    (hk : List.lookup k r = none) : List.lookup k row = none := by
  induction r generalizing row with
  | nil =>
    simp only [List.mapM_nil, pure, Except.pure, Except.ok.injEq] at h
    subst h; rfl
  | cons p l ih =>
    rw [List.mapM_cons] at h
    rcases hp : f p with e | q
    · rw [hp] at h; simp [bind, Except.bind] at h
    · rw [hp] at h
      simp only [bind_ok] at h
      rcases hl : l.mapM f with e | rest
      · rw [hl] at h; simp [bind, Except.bind] at h
      · rw [hl] at h
        simp only [bind_ok, pure, Except.pure, Except.ok.injEq] at h
        subst h
        rw [lookup_cons'] at hk
        by_cases hkp : k = p.1
        · simp [hkp] at hk
        · simp only [hkp, if_false] at hk
          rw [lookup_cons', hf p q hp, if_neg hkp]
          exact ih rest hl hk

theorem averageEntry_fst (results : List PyDict) (p q : String × PyVal)
    (h : averageEntry results p = .ok q) : q.1 = p.1 := by
  unfold averageEntry at h
  split at h
  · injection h with h; rw [h]
  · rcases hv : (results.mapM fun d => PyDict.getItem d p.1) with e | vals
    · rw [hv] at h; simp [bind, Except.bind] at h
    · rw [hv] at h
      simp only [bind_ok] at h
      rcases ha : pyAverage vals with e | v
      · rw [ha] at h; simp [bind, Except.bind] at h
      · rw [ha] at h
        simp only [bind_ok, pure, Except.pure, Except.ok.injEq] at h
        rw [← h]

theorem pyAverage_nums (xs : List ℝ) :
    pyAverage (xs.map fun x : ℝ => PyVal.num x) = .ok (.num (xs.sum / xs.length)) := by
  have : (xs.map fun x : ℝ => PyVal.num x).mapM pyNumber = .ok xs := by
    induction xs with
    | nil => rfl
    | cons a l ih =>
      rw [List.map_cons, List.mapM_cons, ih]
      rfl
  unfold pyAverage
  rw [this]
  rfl

theorem pyAverage_ok (vals : List PyVal) (w : PyVal) (h : pyAverage vals = .ok w) :
    ∃ xs : List ℝ, vals = xs.map fun x : ℝ => PyVal.num x := by
  unfold pyAverage at h
  rcases hm : (vals.mapM pyNumber) with e | xs
  · rw [hm] at h; simp [bind, Except.bind] at h
  · refine ⟨xs, ?_⟩
    clear h
    induction vals generalizing xs with
    | nil =>
      simp only [List.mapM_nil, pure, Except.pure, Except.ok.injEq] at hm
      subst hm; rfl
    | cons v l ih =>
      rw [List.mapM_cons] at hm
      cases v with
      | none => simp [bind, Except.bind, pyNumber] at hm
      | other s => simp [bind, Except.bind, pyNumber] at hm
      | num x =>
        simp only [pyNumber, bind_ok] at hm
        rcases hl : (l.mapM pyNumber) with e | ys
        · rw [hl] at hm; simp [bind, Except.bind] at hm
        · rw [hl] at hm
          simp only [bind_ok, pure, Except.pure, Except.ok.injEq] at hm
          subst hm
          rw [List.map_cons, ih ys hl]

theorem mem_pyProduct {α : Type} (ls : List (List α)) (vs : List α) :
    vs ∈ pyProduct ls ↔ List.Forall₂ (fun v l => v ∈ l) vs ls := by
  induction ls generalizing vs with
  | nil => simp [pyProduct]
  | cons l ls ih =>
    simp only [pyProduct, List.mem_flatMap, List.mem_map]
    constructor
    · rintro ⟨x, hx, r, hr, rfl⟩
      exact .cons hx ((ih r).1 hr)
    · intro h
      cases h with
      | cons h1 h2 => exact ⟨_, h1, _, (ih _).2 h2, rfl⟩

theorem length_pyProduct {α : Type} (ls : List (List α)) :
    (pyProduct ls).length = (ls.map List.length).prod := by
  induction ls with
  | nil => rfl
  | cons l ls ih =>
    simp only [pyProduct, List.length_flatMap, List.length_map, ih, List.map_const', List.sum_replicate,
      List.map_cons, List.prod_cons, smul_eq_mul]

theorem nodup_pyProduct {α : Type} (ls : List (List α)) (h : ∀ l ∈ ls, l.Nodup) : (pyProduct ls).Nodup := by
  induction ls with
  | nil => simp [pyProduct]
  | cons l ls ih =>
    have ih' := ih fun x hx => h x (List.mem_cons_of_mem _ hx)
    simp only [pyProduct]
    rw [List.nodup_flatMap]
    refine ⟨fun x _ => ih'.map fun a b hab => by simpa using hab, ?_⟩
    refine (h l (by simp)).imp ?_
    intro a b hab
    simp only [Function.onFun, List.disjoint_left, List.mem_map]
    rintro _ ⟨r, _, rfl⟩ ⟨r', _, h'⟩
    simp only [List.cons.injEq] at h'
    exact hab h'.1.symm

end Irt
