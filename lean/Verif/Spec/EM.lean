import Verif.Spec.Prevalence
import Mathlib.Analysis.SpecialFunctions.Log.Basic

/-!
# Specification for the EM quantifier, in real numbers

A row holds the posteriors `P(c | x)` of an example in the training distribution, `ptr` the training prevalences. By Bayes, the density of `x` in a
population with prevalences `p` is proportional to `∑ c, p c * P(c | x) / ptr c`.
-/

namespace Verif.Spec

variable {k : ℕ}

/-- The density of an example under prevalences `p`, up to a factor that does not depend on `p`. -/
noncomputable def mixDensity (ptr p : Fin k → ℝ) (x : Fin k → ℝ) : ℝ := ∑ c, p c * (x c / ptr c)

/-- The log-likelihood of a bag under prevalences `p`. -/
noncomputable def logLik (ptr : Fin k → ℝ) (bag : List (Fin k → ℝ)) (p : Fin k → ℝ) : ℝ := (bag.map fun x => Real.log (mixDensity ptr p x)).sum

/-- The posterior of class `c` for example `x` in a population with prevalences `p`. -/
noncomputable def posterior (ptr p : Fin k → ℝ) (x : Fin k → ℝ) (c : Fin k) : ℝ := p c * (x c / ptr c) / mixDensity ptr p x

/-- One EM iteration: the mean posterior over the bag. -/
noncomputable def emMap (ptr : Fin k → ℝ) (bag : List (Fin k → ℝ)) (p : Fin k → ℝ) : Fin k → ℝ :=
  fun c => (bag.map fun x => posterior ptr p x c).sum / bag.length

/-- The iterates of EM from the training prevalences. -/
noncomputable def emIterate (ptr : Fin k → ℝ) (bag : List (Fin k → ℝ)) (t : ℕ) : Fin k → ℝ := (emMap ptr bag)^[t] ptr

/-- Mean absolute difference. -/
noncomputable def meanChange (p q : Fin k → ℝ) : ℝ := (∑ j, |p j - q j|) / k

end Verif.Spec
