import Mathlib.Data.Real.Basic

/-!
# Numbers that lie between two others
-/

namespace Verif.Spec

/-- `c` lies between `a` and `b`, whichever of them is larger. -/
def Between (a b c : ℝ) : Prop := (a ≤ c ∧ c ≤ b) ∨ (b ≤ c ∧ c ≤ a)

end Verif.Spec
