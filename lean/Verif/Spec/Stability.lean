import Mathlib.Algebra.BigOperators.Fin
import Mathlib.Analysis.SpecialFunctions.Sqrt
import Verif.Spec.Prevalence
import Verif.Spec.Ordinal
import Verif.Spec.NegType

/-!
# Errors of prevalence vectors
-/

namespace Verif.Spec

open scoped BigOperators

/-- The L1 distance between two vectors: the sum of the absolute errors. -/
noncomputable def totalError {n : ℕ} (x y : Fin n → ℝ) : ℝ := ∑ i, |x i - y i|

/-- The distribution of the predictions that is expected for a bag with prevalences `p`, when `M i j` is the frequency of the prediction `j` among the examples of class `i`. -/
def expectedPreds {n m : ℕ} (M : Fin n → Fin m → ℝ) (p : Fin n → ℝ) : Fin m → ℝ := fun j => ∑ i, p i * M i j

/-- `κ` says how well the predictions tell prevalences apart: two prevalence vectors are never further apart than `κ` times the distance between the predictions expected for them. -/
def TellsApart {n m : ℕ} (M : Fin n → Fin m → ℝ) (κ : ℝ) : Prop :=
  ∀ p q : Fin n → ℝ, ∑ i, p i = ∑ i, q i → totalError p q ≤ κ * totalError (expectedPreds M p) (expectedPreds M q)

/-- The Hellinger distance (without the factor that makes it at most 1). -/
noncomputable def hellingerDist {m : ℕ} (v w : Fin m → ℝ) : ℝ := Real.sqrt (∑ k, (Real.sqrt (v k) - Real.sqrt (w k)) ^ 2)

/-- As `TellsApart`, for mixtures of representations compared with the distance `D`. -/
def MixturesTellApart {m n : ℕ} (D : (Fin m → ℝ) → (Fin m → ℝ) → ℝ) (T : Fin m → Fin n → ℝ) (κ : ℝ) : Prop :=
  ∀ p q : Fin n → ℝ, IsPrev p → IsPrev q → totalError p q ≤ κ * D (mixtureOf T p) (mixtureOf T q)

end Verif.Spec
