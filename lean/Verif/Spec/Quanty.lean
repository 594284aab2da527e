import Mathlib.Data.Real.Basic
import Mathlib.Data.List.Count
import Mathlib.Algebra.BigOperators.Group.List.Basic

/-!
# Specification for QUANTy
-/

namespace Verif.Spec

/-- The mean of a sample. -/
noncomputable def sampleMean (l : List ℝ) : ℝ := l.sum / l.length

/-- The mean of the scores of the examples of class `c`. -/
noncomputable def classMean {L : Type*} [DecidableEq L] (y : List L) (probs : List ℝ) (c : L) : ℝ := sampleMean (((probs.zip y).filter fun t => decide (t.2 = c)).map Prod.fst)

/-- The adjusted probabilistic count of (Bella et al. 2010) for the positive class, clipped to [0, 1]. -/
noncomputable def adjustedProbCount (mNeg mPos mTest : ℝ) : ℝ := min (max ((mTest - mNeg) / (mPos - mNeg)) 0) 1

end Verif.Spec
