import Verif.Num.Fl

/-!
# Specification: predictions that are not numbers

A classifier that failed on an example may return NaN. A method that uses its predictions hides this when it answers with numbers.
-/

namespace Verif.Spec

/-- Some prediction of the bag is NaN. -/
def HasNan {k : ℕ} (rows : List (Fin k → Fl)) : Prop := ∃ r ∈ rows, ∃ j, r j = Fl.nan

/-- The caller can see that something is wrong: the method raises an exception, or its answer has a NaN in it. -/
def Noticed {ε : Type*} {k : ℕ} (answer : Except ε (Fin k → Fl)) : Prop :=
  match answer with
  | .ok p => ∃ j, p j = Fl.nan
  | .error _ => True

/-- Predictions that are numbers, as NumPy floats. -/
def floats {k : ℕ} (rows : List (Fin k → ℝ)) : List (Fin k → Fl) := rows.map fun r j => Fl.fin (r j)

/-- The predictions of a bag that are numbers: the rows without NaN in column `j`. -/
noncomputable def usable {k : ℕ} (rows : List (Fin k → Fl)) (j : Fin k) : List (Fin k → Fl) :=
  rows.filter fun r => @decide (r j ≠ Fl.nan) (Classical.dec _)

/-- NaN replaced by zero. -/
noncomputable def nanToZero : Fl → Fl
  | .nan => Fl.fin 0
  | x => x

end Verif.Spec
