import Verif.Spec.Prevalence

/-!
# Transport plans between two distributions over ordered classes
-/

namespace Verif.Spec

variable {n : ℕ}

/-- `T i j` is the mass moved from class `i` to class `j`: a way of turning `p` into `q`. -/
structure IsPlan (p q : Fin n → ℝ) (T : Fin n → Fin n → ℝ) : Prop where
  nonneg : ∀ i j, 0 ≤ T i j
  source : ∀ i, ∑ j, T i j = p i
  target : ∀ j, ∑ i, T i j = q j

/-- Total work of a plan: mass times the number of class steps it travels. -/
noncomputable def planCost (T : Fin n → Fin n → ℝ) : ℝ :=
  ∑ i, ∑ j, T i j * |(i.val : ℝ) - (j.val : ℝ)|

end Verif.Spec
