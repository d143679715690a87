import Verif.Torch.Basic

/-! # Lemmas about the torch operations -/

namespace Irt

variable {α β : Type*}

theorem viewRows_flatten (k : ℕ) (L : List (List α)) (h : ∀ l ∈ L, l.length = k) :
    viewRows L.length k L.flatten = L := by
  induction L with
  | nil => rfl
  | cons l L ih =>
    have hl : l.length = k := h l (by simp)
    simp only [List.length_cons, viewRows, List.flatten_cons]
    rw [List.take_append_of_le_length (by omega), List.drop_append_of_le_length (by omega)]
    rw [List.take_of_length_le (by omega), List.drop_of_length_le (by omega)]
    rw [List.nil_append, ih (fun l' hl' => h l' (by simp [hl']))]

theorem length_flatten_const (k : ℕ) (L : List (List α)) (h : ∀ l ∈ L, l.length = k) :
    L.flatten.length = L.length * k := by
  induction L with
  | nil => simp
  | cons l L ih =>
    simp only [List.flatten_cons, List.length_append, List.length_cons]
    rw [ih (fun l' hl' => h l' (by simp [hl'])), h l (by simp)]; ring

theorem view_flatten (k : ℕ) (hk : 0 < k) (L : List (List α)) (h : ∀ l ∈ L, l.length = k) :
    view k L.flatten = L := by
  unfold view
  rw [length_flatten_const k L h, Nat.mul_div_cancel _ hk, viewRows_flatten k L h]

theorem length_viewRows (n k : ℕ) (xs : List α) : (viewRows n k xs).length = n := by
  induction n generalizing xs with
  | zero => rfl
  | succ n ih => simp [viewRows, ih]

theorem mem_viewRows_length (n k : ℕ) (xs : List α) (h : xs.length = n * k) :
    ∀ l ∈ viewRows n k xs, l.length = k := by
  induction n generalizing xs with
  | zero => simp [viewRows]
  | succ n ih =>
    intro l hl
    simp only [viewRows, List.mem_cons] at hl
    rw [Nat.succ_mul] at h
    rcases hl with rfl | hl
    · rw [List.length_take]; omega
    · exact ih (xs.drop k) (by rw [List.length_drop]; omega) l hl

theorem flatten_viewRows (n k : ℕ) (xs : List α) (h : xs.length = n * k) :
    (viewRows n k xs).flatten = xs := by
  induction n generalizing xs with
  | zero =>
    simp only [Nat.zero_mul, List.length_eq_zero_iff] at h
    simp [viewRows, h]
  | succ n ih =>
    rw [Nat.succ_mul] at h
    simp only [viewRows, List.flatten_cons]
    rw [ih (xs.drop k) (by rw [List.length_drop]; omega), List.take_append_drop]

theorem flatten_getElem? (k : ℕ) (L : List (List α)) (h : ∀ l ∈ L, l.length = k) (i j : ℕ)
    (hj : j < k) : L.flatten[i * k + j]? = L[i]?.bind (fun l => l[j]?) := by
  induction L generalizing i with
  | nil => simp
  | cons l L ih =>
    have hl : l.length = k := h l (by simp)
    cases i with
    | zero =>
      simp only [List.flatten_cons, Nat.zero_mul, Nat.zero_add, List.getElem?_cons_zero,
        Option.bind_some]
      rw [List.getElem?_append_left (by omega)]
    | succ i =>
      simp only [List.flatten_cons, List.getElem?_cons_succ]
      rw [List.getElem?_append_right (by rw [hl, Nat.succ_mul]; omega)]
      have : (i + 1) * k + j - l.length = i * k + j := by rw [hl, Nat.succ_mul]; omega
      rw [this, ih (fun l' hl' => h l' (by simp [hl']))]

theorem viewRows_getElem? (n k : ℕ) (xs : List α) (h : xs.length = n * k) (i j : ℕ)
    (hj : j < k) :
    ((viewRows n k xs)[i]?.bind (fun l => l[j]?)) = xs[i * k + j]? := by
  rw [← flatten_getElem? k _ (mem_viewRows_length n k xs h) i j hj, flatten_viewRows n k xs h]

theorem length_scatterMask (z : α) (m : List Bool) (p : List α) :
    (scatterMask z m p).length = m.length := by
  induction m generalizing p with
  | nil => rfl
  | cons b m ih => cases b <;> cases p <;> simp [scatterMask, ih]

theorem scatterMask_append (z : α) (m₁ m₂ : List Bool) (p : List α)
    (h : countTrue m₁ ≤ p.length) :
    scatterMask z (m₁ ++ m₂) p =
      scatterMask z m₁ (p.take (countTrue m₁)) ++ scatterMask z m₂ (p.drop (countTrue m₁)) := by
  unfold countTrue at *
  induction m₁ generalizing p with
  | nil => simp [scatterMask]
  | cons b m ih =>
    cases b with
    | false =>
      simp only [List.cons_append, scatterMask]
      rw [ih p (by simpa using h)]
      simp
    | true =>
      cases p with
      | nil => simp at h
      | cons x p =>
        simp only [List.cons_append, scatterMask, List.count_cons_self, List.take_succ_cons,
          List.drop_succ_cons]
        rw [ih p (by simpa using h)]

/-- Every parameter is used exactly once, in order: reading back the mask positions gives the
parameter vector. -/
theorem gather_scatterMask (z : α) (m : List Bool) (p : List α) (h : p.length = countTrue m) :
    gatherMask m (scatterMask z m p) = p := by
  unfold countTrue at h
  induction m generalizing p with
  | nil => simp at h; simp [h, gatherMask]
  | cons b m ih =>
    cases b with
    | false => simp only [scatterMask, gatherMask]; exact ih p (by simpa using h)
    | true =>
      cases p with
      | nil => simp at h
      | cons x p => simp only [scatterMask, gatherMask]; rw [ih p (by simpa using h)]

theorem scatterMask_false (z : α) (m : List Bool) (p : List α) (i : ℕ)
    (h : m[i]? = some false) : (scatterMask z m p)[i]? = some z := by
  induction m generalizing p i with
  | nil => simp at h
  | cons b m ih =>
    cases i with
    | zero => simp at h; subst h; simp [scatterMask]
    | succ i =>
      simp at h
      cases b <;> cases p <;> simp [scatterMask, ih _ i h]

theorem length_gatherMask (m : List Bool) (xs : List α) (h : xs.length = m.length) :
    (gatherMask m xs).length = countTrue m := by
  unfold countTrue
  induction m generalizing xs with
  | nil => simp [gatherMask]
  | cons b m ih =>
    cases xs with
    | nil => simp at h
    | cons x xs => cases b <;> simp [gatherMask, ih xs (by simpa using h)]

theorem length_repeatInterleave (k : ℕ) (xs : List α) :
    (repeatInterleave k xs).length = xs.length * k := by
  induction xs with
  | nil => simp [repeatInterleave]
  | cons x xs ih =>
    simp only [repeatInterleave] at ih
    simp [repeatInterleave]; ring

theorem length_tile (n : ℕ) (xs : List α) : (tile n xs).length = n * xs.length := by
  simp [tile]

theorem length_softmax (xs : List Logit) : (softmax xs).length = xs.length := by simp [softmax]

theorem Logit.exp_nonneg (x : Logit) : 0 ≤ x.exp := by
  cases x with
  | negInf => exact le_refl _
  | fin v => exact (Real.exp_pos v).le

theorem sum_exp_nonneg (xs : List Logit) : 0 ≤ (xs.map Logit.exp).sum := by
  apply List.sum_nonneg
  intro y hy
  obtain ⟨x, _, rfl⟩ := List.mem_map.1 hy
  exact x.exp_nonneg

theorem sum_exp_pos (xs : List Logit) (v : ℝ) (h : Logit.fin v ∈ xs) :
    0 < (xs.map Logit.exp).sum := by
  induction xs with
  | nil => simp at h
  | cons x xs ih =>
    simp only [List.map_cons, List.sum_cons]
    rcases List.mem_cons.1 h with rfl | h
    · have := sum_exp_nonneg xs
      have := Real.exp_pos v
      show 0 < Real.exp v + _
      linarith
    · have := ih h
      have := x.exp_nonneg
      linarith

theorem list_sum_map_div (xs : List ℝ) (c : ℝ) : (xs.map (fun x => x / c)).sum = xs.sum / c := by
  induction xs with
  | nil => simp
  | cons x xs ih => simp [ih, add_div]

theorem list_sum_map_mul_right {γ : Type*} (xs : List γ) (f : γ → ℝ) (c : ℝ) :
    (xs.map (fun x => f x * c)).sum = (xs.map f).sum * c := by
  induction xs with
  | nil => simp
  | cons x xs ih => simp [ih, add_mul]

theorem softmax_sum (xs : List Logit) (v : ℝ) (h : Logit.fin v ∈ xs) : (softmax xs).sum = 1 := by
  have hp := sum_exp_pos xs v h
  have : (softmax xs) = (xs.map Logit.exp).map (fun x => x / (xs.map Logit.exp).sum) := by
    simp [softmax]
  rw [this, list_sum_map_div]
  exact div_self hp.ne'

theorem softmax_nonneg (xs : List Logit) : ∀ p ∈ softmax xs, 0 ≤ p := by
  intro p hp
  obtain ⟨x, _, rfl⟩ := List.mem_map.1 hp
  exact div_nonneg x.exp_nonneg (sum_exp_nonneg xs)

theorem softmax_getElem? (xs : List Logit) (i : ℕ) :
    (softmax xs)[i]? = xs[i]?.map (fun x => x.exp / (xs.map Logit.exp).sum) := by
  simp [softmax]

theorem sigmoid_pos (x : ℝ) : 0 < sigmoid x := by
  unfold sigmoid; have := Real.exp_pos (-x); positivity

theorem sigmoid_lt_one (x : ℝ) : sigmoid x < 1 := by
  unfold sigmoid
  have := Real.exp_pos (-x)
  rw [div_lt_one (by linarith)]; linarith

theorem sigmoid_strictMono : StrictMono sigmoid := by
  intro x y h
  unfold sigmoid
  have h1 := Real.exp_pos (-y)
  have h2 : Real.exp (-y) < Real.exp (-x) := Real.exp_lt_exp.2 (by linarith)
  exact one_div_lt_one_div_of_lt (by linarith) (by linarith)

theorem sigmoid_eq (x : ℝ) : sigmoid x = Real.exp x / (1 + Real.exp x) := by
  unfold sigmoid
  have h := Real.exp_pos x
  rw [Real.exp_neg]
  field_simp
  ring

theorem softplus_pos (x : ℝ) : 0 < softplus x := by
  unfold softplus
  exact Real.log_pos (by have := Real.exp_pos x; linarith)

end Irt
