import Verif.Spec.Prevalence

/-!
# Specification for the regression quantifiers
-/

namespace Verif.Spec

/-- The point of [0,1] nearest to a number, possibly infinite. -/
noncomputable def nearestUnit : Fl → ℝ
  | .fin x => max 0 (min x 1)
  | .pinf => 1
  | .ninf => 0
  | .nan => 0

end Verif.Spec
