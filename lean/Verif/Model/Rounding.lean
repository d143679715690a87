import Verif.Model.Scoring

/-!
# Results with rounding in every operation

The other model files compute with real numbers. Here numbers are still real, but every operation is that of a floating point
arithmetic `F`, and sums are taken in any order: torch splits sums over vector lanes, blocks and threads, in an order that depends
on the sizes, the build and the number of threads. The definitions are therefore relations: `SumsTo F h xs s` says that `s` is one of
the values that the sum of `xs` can have. The `-inf` logits of categories that an item does not have are left out of the lists; their
exponentials are exact zeros. Overflow and NaN are not modelled here.
-/

namespace Irt

/-- A floating point arithmetic: rounding of sums and differences, products, quotients, exponential and logarithm. -/
structure FloatOps where
  rnd : ℝ → ℝ
  mul : ℝ → ℝ → ℝ
  div : ℝ → ℝ → ℝ
  exp : ℝ → ℝ
  log : ℝ → ℝ

/-- An order of summation: a binary tree of additions. Accumulators may start at zero. -/
inductive SumTree where
  | zero
  | leaf (x : ℝ)
  | node (l r : SumTree)

/-- The numbers that are added. -/
def SumTree.leaves : SumTree → List ℝ
  | .zero => []
  | .leaf x => [x]
  | .node l r => l.leaves ++ r.leaves

/-- The largest number of additions that a number takes part in. -/
def SumTree.depth : SumTree → ℕ
  | .zero => 0
  | .leaf _ => 0
  | .node l r => max l.depth r.depth + 1

/-- The sum, with every addition rounded. -/
def SumTree.eval (F : FloatOps) : SumTree → ℝ
  | .zero => 0
  | .leaf x => x
  | .node l r => F.rnd (l.eval F + r.eval F)

/-- `s` is a sum of `xs` in some order in which every number takes part in at most `h` additions (`torch.sum`). -/
def SumsTo (F : FloatOps) (h : ℕ) (xs : List ℝ) (s : ℝ) : Prop :=
  ∃ t : SumTree, t.leaves.Perm xs ∧ t.depth ≤ h ∧ t.eval F = s

/-- two_parameter_logistic.py 107-111 (`torch.matmul(theta, weights.T)`, then `+ bias`): the logit of one item. -/
def flLinear (F : FloatOps) (h : ℕ) (theta w : List ℝ) (b z : ℝ) : Prop :=
  ∃ s, SumsTo F h (List.zipWith F.mul theta w) s ∧ z = F.rnd (s + b)

/-- The sum of the exponentials in `softmax`, `log_softmax` and mml.py 275-277, after the largest entry has been subtracted. -/
def flShiftedSum (F : FloatOps) (h : ℕ) (xs : List ℝ) (s : ℝ) : Prop :=
  SumsTo F h (xs.map fun x => F.exp (F.rnd (x - columnMax xs))) s

/-- base_irt_model.py 201 (`F.softmax`): the probability of the category with logit `x` among the logits `xs`. -/
def flSoftmax (F : FloatOps) (h : ℕ) (xs : List ℝ) (x p : ℝ) : Prop :=
  ∃ s, flShiftedSum F h xs s ∧ p = F.div (F.exp (F.rnd (x - columnMax xs))) s

/-- base_irt_model.py 257 (`F.cross_entropy`) for one answer: `log_softmax` of the logits `xs` at the answer's logit `x`. -/
def flLogSoftmax (F : FloatOps) (h : ℕ) (xs : List ℝ) (x y : ℝ) : Prop :=
  ∃ s, flShiftedSum F h xs s ∧ y = F.rnd (F.rnd (x - columnMax xs) - F.log s)

/-- base_irt_model.py 247-264 (`log_likelihood(loss_reduction="sum")`). A cell is the list of the item's logits and the logit of the
answer; unanswered cells have been removed (251-255). -/
def flLogLikelihood (F : FloatOps) (h h' : ℕ) (cells : List (List ℝ × ℝ)) (ll : ℝ) : Prop :=
  ∃ ys, List.Forall₂ (fun c y => flLogSoftmax F h c.1 c.2 y) cells ys ∧ ∃ s, SumsTo F h' (ys.map fun y => -y) s ∧ ll = -s

/-- base_irt_model.py 286-290 (`expected_scores`) for one item without an answer key. -/
def flExpectedScore (F : FloatOps) (h : ℕ) (ps : List ℝ) (s : ℝ) : Prop :=
  SumsTo F h (List.zipWith (fun (r : ℕ) p => F.mul p r) (List.range ps.length) ps) s

/-- mml.py 274-277 for one respondent: `xs` are the log weights plus log likelihoods at the points. -/
def flLogSumExp (F : FloatOps) (h : ℕ) (xs : List ℝ) (y : ℝ) : Prop :=
  ∃ s, flShiftedSum F h xs s ∧ y = F.rnd (F.log s + columnMax xs)

/-- mml.py 273-277: the loss; one list per respondent. -/
def flMmlLoss (F : FloatOps) (h h' : ℕ) (cols : List (List ℝ)) (loss : ℝ) : Prop :=
  ∃ ys, List.Forall₂ (flLogSumExp F h) cols ys ∧ ∃ s, SumsTo F h' ys s ∧ loss = -s

/-- base_irt_model.py 927-935 for one respondent and one latent variable: `points` are the grid points with their log posteriors. The
operations `F` are those of 64-bit numbers, `G` rounds to 32 bits at the end. -/
def flEap (F G : FloatOps) (h h' : ℕ) (points : List (ℝ × ℝ)) (e : ℝ) : Prop :=
  ∃ s, SumsTo F h (points.map fun p => F.exp p.2) s ∧
    ∃ e', SumsTo F h' (points.map fun p => F.mul p.1 (F.div (F.exp p.2) s)) e' ∧ e = G.rnd e'

end Irt
