import Verif.Spec.Rounding
import Mathlib.Analysis.SpecialFunctions.Log.Base

/-!
# Specification of C147: error measures in floating-point arithmetic
-/

namespace Verif.Spec

/-- `x` is `a` (not negative) except for `j` roundings of results that are multiplied or added, and `k` of results by which one divides. -/
def Within (u : ℝ) (j k : ℕ) (x a : ℝ) : Prop := 0 ≤ a ∧ (1 - u) ^ j / (1 + u) ^ k * a ≤ x ∧ x ≤ (1 + u) ^ j / (1 - u) ^ k * a

/-- A computed natural logarithm with relative error at most `w`. -/
def LogOk (w : ℝ) (L : ℝ → ℝ) : Prop := ∀ x, |L x - Real.log x| ≤ w * |Real.log x|

/-- A computed logarithm of base 2 with relative error at most `w`. -/
def Log2Ok (w : ℝ) (L : ℝ → ℝ) : Prop := ∀ x, |L x - Real.logb 2 x| ≤ w * |Real.logb 2 x|

/-- Positive and negative numbers are rounded in the same way. -/
def Symmetric (A : Arith) : Prop := ∀ x, A.rnd (-x) = -A.rnd x

end Verif.Spec
