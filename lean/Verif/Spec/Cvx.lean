import Verif.Model.Solve
import Verif.Spec.Prevalence

/-!
# What is assumed of cvxpy, in exact arithmetic
-/

namespace Verif.Spec

open Verif.Model Matrix

/-- `x` minimises `g` among all valid prevalence vectors. -/
def BestPrev {n : ℕ} (g : (Fin n → ℝ) → ℝ) (x : Fin n → ℝ) : Prop := IsPrev x ∧ ∀ p, IsPrev p → g x ≤ g p

/-- An exact solver: whatever the starting point, it returns a valid prevalence vector with the least objective.
(Which one, if there are several, may depend on the starting point.) -/
def ExactCvx (sv : CvxSolver) : Prop :=
  ∀ (loss : CvxLoss) {m n : ℕ} (T : Matrix (Fin m) (Fin n) ℝ) (q : Fin m → ℝ) (start : Option (Fin n → ℝ)), 0 < n → (∀ k, 0 ≤ q k) →
    BestPrev (cvxObjective loss T q) (sv.solve loss T q start)

/-- The data of the last call of `fit`. -/
def lastFit {F B : Type*} (f : F) : List (WarmCall F B) → F
  | [] => f
  | .fit f' :: cs => lastFit f' cs
  | .predict _ :: cs => lastFit f cs

end Verif.Spec
