import Verif.Spec.Units

/-!
# Specification: other columns with the same information
-/

namespace Verif.Spec

/-- The sample with only the columns `ι 0`, `ι 1`, ..., in this order. -/
def keepColumns {nf nf' : ℕ} (ι : Fin nf → Fin nf') (rows : List (Fin nf' → ℝ)) : List (Fin nf → ℝ) := rows.map fun r d => r (ι d)

/-- Only columns with the same value in all the rows are left out, and no column is taken twice: a change of the order of the columns, with or without columns that say nothing. -/
def LeavesOutConstants {nf nf' : ℕ} (ι : Fin nf → Fin nf') (rows : List (Fin nf' → ℝ)) : Prop :=
  Function.Injective ι ∧ ∀ d, (∀ j, ι j ≠ d) → ¬ Varies (rows.map fun r => r d)

end Verif.Spec
