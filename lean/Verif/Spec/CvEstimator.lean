import Verif.Model.CvEstimator
import Verif.Spec.Eoq

/-!
# Specification for cross validation
-/

namespace Verif.Spec

open Verif.Model

/-- The folds of a repetition of a cross validation over `n` examples: every example is in exactly one testing set, no testing set is empty and the training examples of a fold are not among its testing examples. -/
structure IsKFold (n : ℕ) (folds : List Fold) : Prop where
  partition : (folds.flatMap fun f => f.2).Perm (List.range n)
  nonempty : ∀ f ∈ folds, f.2 ≠ []
  disjoint : ∀ f ∈ folds, ∀ i ∈ f.1, i ∉ f.2
  inside : ∀ f ∈ folds, ∀ i ∈ f.1, i < n

/-- `m` is the model trained on the training part of a fold. -/
def IsFoldModel {M D α : Type} (ops : CvOps M D α) (X : List D) (y : List α) (f : Fold) (m : M) : Prop := ∃ rows ys, BagOf X f.1 rows ∧ BagOf y f.1 ys ∧ m = ops.fit rows ys

/-- `i` is the first position where `f` is the greatest. -/
def IsFirstMax {k : ℕ} (f : Fin k → ℝ) (i : Fin k) : Prop := (∀ j, f j ≤ f i) ∧ ∀ j, j < i → f j < f i

end Verif.Spec
