import Verif.Model.Constructors
import Verif.Model.Monotone
import Verif.Model.Spline

/-!
# Constructors of the monotone models and of the surprisal spline, with all their arguments

irtorch/models/monotone_polynomial.py, monotone_nn.py, monotone_b_spline.py, surprisal_spline.py.
-/

namespace Irt

/-- monotone_polynomial.py 41-95; `dirs` are the random starting directions. `torch.zeros(sum(item_categories))` raises for a negative sum.
-/
noncomputable def MonoPolyModel.construct (data : Option ResponseData) (lv : ℕ) (cats : Option (List ℕ)) (degree : ℕ)
    (rel : Option (List (List Bool))) (sep : Separate) (negative : Bool) (dirs : ℕ → ℕ → ℝ) : Except PyErr MonoPolyModel := do
  let c ← chosenCategories data cats
  let _ ← baseInit c none
  let _ ← checkRelationships c.length lv rel
  if c.sum < 0 then .error .runtimeError
  else MonoPolyModel.init lv (c.map Int.toNat) degree rel sep negative dirs

/-- monotone_nn.py 73-193. -/
noncomputable def MonoNN.construct (data : Option ResponseData) (lv : ℕ) (cats : Option (List ℕ)) (hidden : Option (List ℕ))
    (mc : Option (List ℕ)) (rel : Option (List (List Bool))) (sep : Separate) (negative bounded : Bool) : Except PyErr MonoNN := do
  let c ← chosenCategories data cats
  let _ ← baseInit c (mc.map fun ks => ks.map fun k : ℕ => (k : ℤ))
  let _ ← checkRelationships c.length lv rel
  if c.sum < 0 then .error .runtimeError
  else MonoNN.init lv (c.map Int.toNat) hidden mc rel sep negative bounded

/-- monotone_b_spline.py 75-80, surprisal_spline.py 80-83: the default interior knots. -/
noncomputable def chosenKnots (knots : Option (List ℝ)) : List ℝ := knots.getD [-1.7, -0.7, 0, 0.7, 1.7]

/-- monotone_b_spline.py 57-114. The tensors of size `max_item_responses` raise for a negative maximum, `free_bias[:, 0]` for 0. -/
noncomputable def MonoBSpline.construct (data : Option ResponseData) (lv : ℕ) (cats : Option (List ℕ)) (knots : Option (List ℝ))
    (degree : ℕ) (sep : Separate) : Except PyErr MonoBSpline := do
  let c ← chosenCategories data cats
  let mx ← baseInit c none
  if mx < 0 then .error .runtimeError
  else if mx = 0 then .error .indexError
  else
    let m : MonoBSpline := ⟨lv, splineBases (chosenKnots knots) degree, c.map Int.toNat, sep, fun _ _ _ => -2.5, [], []⟩
    .ok { m with coefCats := List.replicate (countTrue m.splineMask) (-2.5), bias := List.replicate (countTrue (freeMask m.M m.cats)) 0 }

/-- surprisal_spline.py 57-102. `repeat` with a negative number raises. -/
noncomputable def Surprisal.construct (data : Option ResponseData) (lv : ℕ) (cats : Option (List ℕ)) (rel : Option (List (List Bool)))
    (knots : Option (List ℝ)) (degree : ℕ) : Except PyErr Surprisal := do
  let c ← chosenCategories data cats
  let mx ← baseInit c none
  let r ← checkRelationships c.length lv rel
  if mx < 1 then .error .runtimeError
  else
    let m : Surprisal := ⟨lv, c.map Int.toNat, splineBases (chosenKnots knots) degree, r, []⟩
    .ok { m with coef := List.replicate (countTrue m.mask) (-2.5) }

end Irt
