import Mathlib.Analysis.InnerProductSpace.PiL2

/-!
# Distances of negative type
-/

namespace Verif.Spec

/-- `d` is of negative type: weighted sums of pairwise distances are never positive when the weights
add up to 0. This is what makes the energy distance of two samples nonnegative. -/
def NegType {P : Type*} (d : P → P → ℝ) : Prop :=
  ∀ (ι : Type) [Fintype ι] (c : ι → ℝ) (x : ι → P), ∑ i, c i = 0 → ∑ i, ∑ j, c i * c j * d (x i) (x j) ≤ 0

/-- `sklearn.metrics.pairwise.manhattan_distances`, entry by entry. -/
def manhattan {f : ℕ} (x y : Fin f → ℝ) : ℝ := ∑ i, |x i - y i|

/-- `sklearn.metrics.pairwise.euclidean_distances`, entry by entry. -/
noncomputable def euclidean {f : ℕ} (x y : Fin f → ℝ) : ℝ := Real.sqrt (∑ i, (x i - y i) ^ 2)

end Verif.Spec
