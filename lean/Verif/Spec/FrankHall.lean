import Verif.Model.FrankHall
import Verif.Spec.Decomp
import Verif.Spec.CvEstimator

/-!
# Specification for the Frank and Hall classifiers
-/

namespace Verif.Spec

open Verif.Model

/-- The rule of Frank and Hall for class `c` of `n` classes: `left i` is the probability of belonging to the first `i + 1` classes. -/
noncomputable def frankHall (n : ℕ) (left : ℕ → ℝ) (c : ℕ) : ℝ :=
  if c = 0 then left 0 else if c + 1 = n then 1 - left (c - 1) else (1 - left (c - 1)) * left c

/-- The probability of reaching the leaf of class `c` descending a tree of models: at the node of model `p`, which separates classes up to `p` from the rest, go left with probability `left p` and right with
probability `right p`. -/
noncomputable def pathProb (left right : ℕ → ℝ) : QTree → ℕ → ℝ
  | .leaf, _ => 1
  | .node p l r, c => if c ≤ p then left p * pathProb left right l c else right p * pathProb left right r c

/-- The models of a tree, from left to right. -/
def inorder : QTree → List ℕ
  | .leaf => []
  | .node p l r => inorder l ++ p :: inorder r

/-- Every node of the tree has the first model with the smallest score among the models `first, ..., first + count - 1` of its subtree. -/
def BestTree (score : ℕ → ℝ) : QTree → ℕ → ℕ → Prop
  | .leaf, _, count => count = 0
  | .node p l r, first, count => first ≤ p ∧ p < first + count ∧ (∀ j, first ≤ j → j < first + count → score p ≤ score j) ∧ (∀ j, first ≤ j → j < p → score p < score j)
      ∧ BestTree score l first (p - first) ∧ BestTree score r (p + 1) (first + count - p - 1)

/-- The proportion of examples whose class is in a group. -/
noncomputable def groupShare {α : Type} [DecidableEq α] (group : List α) (y : List α) : ℝ := (y.countP fun a => decide (a ∈ group) : ℕ) / (y.length : ℝ)

/-- The probability that an example gets, of belonging to the first `i + 1` classes, from the binary model trained to tell them from the rest. -/
noncomputable def leftProb {M D α : Type} [LinearOrder α] (ops : FhOps M D) (X : List D) (y : List α) (i : ℕ) (x : D) : ℝ :=
  (ops.proba (ops.fit i X (groupVsRest ((labelsOf y).take (i + 1)) y)) x).getD 1 0

/-- The probability of the rest of the classes. -/
noncomputable def rightProb {M D α : Type} [LinearOrder α] (ops : FhOps M D) (X : List D) (y : List α) (i : ℕ) (x : D) : ℝ :=
  (ops.proba (ops.fit i X (groupVsRest ((labelsOf y).take (i + 1)) y)) x).getD 0 0

end Verif.Spec
