import Mathlib.Data.Real.Basic
import Mathlib.Data.List.Count

/-!
# Specification vocabulary: empirical distribution functions
-/

namespace Verif.Spec

open Classical in
/-- The empirical cumulative distribution function: the fraction of the values that are at most `t`. -/
noncomputable def ecdf (l : List ℝ) (t : ℝ) : ℝ := (l.countP fun u => decide (u ≤ t) : ℝ) / (l.length : ℝ)

/-- The scores of the examples with label `c`. -/
def scoresOf {L : Type*} [DecidableEq L] (l : List (ℝ × L)) (c : L) : List ℝ := (l.filter fun ul => ul.2 = c).map Prod.fst

end Verif.Spec
