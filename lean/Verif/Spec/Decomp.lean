import Verif.Spec.Prevalence

/-!
# Specification for the decompositions
-/

namespace Verif.Spec

variable {α : Type*} [DecidableEq α]

/-- Binary labels for "class `c` against the rest". -/
def oneVsRest (c : α) (y : List α) : List ℤ := y.map fun a => if a = c then 1 else 0

/-- Binary labels for "one of the classes of the group against the rest". -/
def groupVsRest (group : List α) (y : List α) : List ℤ := y.map fun a => if a ∈ group then 1 else 0

/-- The two columns of a binary posterior matrix, from its column for the positive class. -/
noncomputable def twoColumns (c : List ℝ) : List (List ℝ) := [c.map fun v => 1 - v, c]

/-- `v` is the average of the greatest value up to position `i` and the smallest value from position `i` on. -/
def EnvelopeMean (x : List ℝ) (i : ℕ) (v : ℝ) : Prop :=
  ∃ u l, IsGreatest {a | ∃ j ≤ i, x[j]? = some a} u ∧ IsLeast {a | ∃ j, i ≤ j ∧ x[j]? = some a} l ∧ v = (u + l) / 2

/-- The columns of a matrix given by its rows. -/
def columnsOf {n : ℕ} (rows : List (Fin n → ℝ)) : List (List ℝ) := List.ofFn fun i => rows.map fun row => row i

end Verif.Spec
