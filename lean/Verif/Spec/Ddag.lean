import Verif.Model.Ddag
import Verif.Spec.FrankHall

/-!
# Specification for decision directed acyclic graphs
-/

namespace Verif.Spec

open Verif.Model

/-- All the sequences of `d` decisions; `true` is going to the right. -/
def words : ℕ → List (List Bool)
  | 0 => [[]]
  | d + 1 => (words d).map (false :: ·) ++ (words d).map (true :: ·)

/-- The product of the probabilities of a sequence of decisions from the node of classes `i` and `j`: going left discards class `j` and going right discards class `i`. -/
noncomputable def decisionsProb (left right : ℕ → ℕ → ℝ) : ℕ → ℕ → List Bool → ℝ
  | _, _, [] => 1
  | i, j, false :: w => left i j * decisionsProb left right i (j - 1) w
  | i, j, true :: w => right i j * decisionsProb left right (i + 1) j w

/-- The sum, over all the paths from the node of classes `i` and `i + d` to the leaf of class `c`, of the product of the probabilities of their decisions: `d` decisions, `c - i` of them to the right. -/
noncomputable def dagProb (left right : ℕ → ℕ → ℝ) (d i c : ℕ) : ℝ := (((words d).filter fun w => decide (i + w.count true = c)).map (decisionsProb left right i (i + d))).sum

/-- The first of the two consecutive classes reached from the node of classes `i` and `i + d` following the class with the largest probability (the left one with ties). -/
noncomputable def majority (left : ℕ → ℕ → ℝ) : ℕ → ℕ → ℕ
  | d + 2, i => if 1 / 2 ≤ left i (i + (d + 2)) then majority left (d + 1) i else majority left (d + 1) (i + 1)
  | _, i => i

/-- The examples of two classes. -/
def ofTwo {D α : Type} [DecidableEq α] (X : List D) (y : List α) (a b : α) : List D := ((X.zip y).filter fun e => decide (e.2 = a ∨ e.2 = b)).map fun e => e.1

/-- Their labels: 0 for the first class and 1 for the second one. -/
def labelsOfTwo {α : Type} [DecidableEq α] (y : List α) (a b : α) : List ℤ := (y.filter fun c => decide (c = a ∨ c = b)).map fun c => if c = b then 1 else 0

/-- The probability of class `i` for the binary model trained with the examples of classes `i` and `j`. -/
noncomputable def pairLeft {M D α : Type} [LinearOrder α] [Inhabited α] (ops : FhOps M D) (X : List D) (y : List α) (x : D) (i j : ℕ) : ℝ :=
  (ops.proba (ops.fit 0 (ofTwo X y ((labelsOf y).getD i default) ((labelsOf y).getD j default)) (labelsOfTwo y ((labelsOf y).getD i default) ((labelsOf y).getD j default))) x).getD 0 0

/-- The probability of class `j` for that model. -/
noncomputable def pairRight {M D α : Type} [LinearOrder α] [Inhabited α] (ops : FhOps M D) (X : List D) (y : List α) (x : D) (i j : ℕ) : ℝ :=
  (ops.proba (ops.fit 0 (ofTwo X y ((labelsOf y).getD i default) ((labelsOf y).getD j default)) (labelsOfTwo y ((labelsOf y).getD i default) ((labelsOf y).getD j default))) x).getD 1 0

end Verif.Spec
