import Verif.Spec.Prevalence
import Mathlib.Analysis.SpecialFunctions.Log.Base

/-!
# Distances between prevalence vectors, as found in textbooks

Over the real numbers, without smoothing constants.
-/

namespace Verif.Spec

variable {n : ℕ}

/-- The total variation distance. -/
noncomputable def totalVariation (p q : Fin n → ℝ) : ℝ := (∑ j, |p j - q j|) / 2

/-- The Bhattacharyya coefficient. -/
noncomputable def bhattacharyya (p q : Fin n → ℝ) : ℝ := ∑ j, Real.sqrt (p j * q j)

/-- The Kullback-Leibler divergence in nats, with `0 log 0 = 0`. -/
noncomputable def klDivergence (p q : Fin n → ℝ) : ℝ := ∑ j, if p j = 0 then 0 else p j * Real.log (p j / q j)

/-- The mixture of two vectors in equal parts. -/
noncomputable def halfMixture (p q : Fin n → ℝ) : Fin n → ℝ := fun j => (p j + q j) / 2

/-- The probabilistic symmetric chi-square divergence; classes absent from both contribute 0. -/
noncomputable def chiSquareSym (p q : Fin n → ℝ) : ℝ := 2 * ∑ j, if p j + q j = 0 then 0 else (p j - q j) ^ 2 / (p j + q j)

end Verif.Spec
