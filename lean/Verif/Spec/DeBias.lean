import Verif.Spec.Confusion

/-!
# Specification for DeBias: calibrated posteriors
-/

namespace Verif.Spec

variable {α : Type*} [DecidableEq α]

open Classical in
/-- The posteriors are calibrated on a labelled set: among the examples that get posterior `v` for the positive class, a fraction `v` is positive. -/
noncomputable def Calibrated (y : List α) (pos : α) (rows : List (Fin 2 → ℝ)) : Prop :=
  ∀ v : ℝ, ((y.zip rows).countP (fun t => decide (t.2 1 = v ∧ t.1 = pos)) : ℝ) = v * ((y.zip rows).countP (fun t => decide (t.2 1 = v)) : ℝ)

/-- Mean squared deviation of the posteriors of the positive class from its prevalence, divided by the product of the prevalences. -/
noncomputable def relVariance (π : ℝ) (rows : List (Fin 2 → ℝ)) : ℝ := meanOf rows (fun r => (r 1 - π) ^ 2) / (π * (1 - π))

end Verif.Spec
