import Mathlib.Data.Real.Basic
import Mathlib.Algebra.BigOperators.Group.Finset.Basic

/-!
# Specification vocabulary: splitting an ordered weighted sample in consecutive groups of equal weight
-/

namespace Verif.Spec

/-- `A i j` is the part of the weight `w i` of the example `i` (of `N`) that goes to the group `j` (of `n`):
nothing is lost or created, the groups have the same weight and they are consecutive. -/
structure EqualSplit (N n : ℕ) (w : ℕ → ℝ) (A : ℕ → ℕ → ℝ) : Prop where
  nonneg : ∀ i j, 0 ≤ A i j
  rows : ∀ i, i < N → ∑ j ∈ Finset.range n, A i j = w i
  cols : ∀ j, j < n → ∑ i ∈ Finset.range N, A i j = (∑ i ∈ Finset.range N, w i) / n
  consecutive : ∀ i i' j j', i < N → i' < N → 0 < A i j → 0 < A i' j' → j < j' → i ≤ i'

end Verif.Spec
