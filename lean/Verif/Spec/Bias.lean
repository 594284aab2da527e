import Verif.Spec.PriorShift

/-!
# Specification of C157: mistakes of a classifier on a bag

The examples of a bag are pairs: the true class and the predicted one.
-/

namespace Verif.Spec

variable {α : Type*} [DecidableEq α]

/-- How many examples of other classes are predicted as `c`. -/
def falsePositives (bag : List (α × α)) (c : α) : ℕ := bag.countP fun t => decide (t.1 ≠ c ∧ t.2 = c)

/-- How many examples of class `c` are predicted as something else. -/
def falseNegatives (bag : List (α × α)) (c : α) : ℕ := bag.countP fun t => decide (t.1 = c ∧ t.2 ≠ c)

/-- How many examples are misclassified. -/
def mistakes (bag : List (α × α)) : ℕ := bag.countP fun t => decide (t.1 ≠ t.2)

end Verif.Spec
