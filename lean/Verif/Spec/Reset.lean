import Verif.Model.Reset

/-!
# Specification: parameters of the same shape
-/

namespace Irt.Spec

/-- The same class, items, categories and relationships, and parameter tensors of the same sizes: what training and loading leave alone. -/
def SameShape : IrtModel → IrtModel → Prop
  | .onePL m, .onePL m' => m'.items = m.items ∧ m'.bias.length = m.bias.length
  | .twoPL m, .twoPL m' => m'.items = m.items ∧ m'.lv = m.lv ∧ m'.rel = m.rel ∧ m'.weight.length = m.weight.length ∧
      m'.bias.length = m.bias.length
  | .threePL m, .threePL m' => m'.items = m.items ∧ m'.lv = m.lv ∧ m'.rel = m.rel ∧ m'.weight.length = m.weight.length ∧
      m'.bias.length = m.bias.length ∧ m'.guessing.length = m.guessing.length
  | .gpc m, .gpc m' => m'.lv = m.lv ∧ m'.cats = m.cats ∧ m'.rel = m.rel ∧ m'.weight.length = m.weight.length ∧ m'.bias.length = m.bias.length
  | .nrm m, .nrm m' => m'.lv = m.lv ∧ m'.cats = m.cats ∧ m'.rel = m.rel ∧ m'.weight.length = m.weight.length ∧ m'.bias.length = m.bias.length
  | .grm m, .grm m' => m'.lv = m.lv ∧ m'.cats = m.cats ∧ m'.rel = m.rel ∧ m'.weight.length = m.weight.length ∧ m'.bias.length = m.bias.length
  | .other p, .other p' => p'.length = p.length
  | .mix ms, .mix ms' => ms'.length = ms.length
  | _, _ => False

/-- Training and loading in a history keep the shape of the parameters. -/
def KeepsShape {d : ℕ} (s : ObjectStep d) : Prop :=
  match s with
  | .fit write _ => ∀ m, SameShape m (write m)
  | .load write _ _ => ∀ m, SameShape m (write m)
  | _ => True

end Irt.Spec
