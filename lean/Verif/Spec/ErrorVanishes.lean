import Verif.Model.Base
import Verif.Spec.Prevalence
import Mathlib.Topology.Instances.Real.Lemmas

/-!
# Specification of C158: the error of a sequence of predictions vanishes
-/

namespace Verif.Spec

open Verif.Model Filter Topology

/-- The metric gives numbers for all the predictions, and they tend to 0. -/
def ErrorVanishes {n : ℕ} (m : (Fin n → ℝ) → (Fin n → ℝ) → Fl) (p : Fin n → ℝ) (q : ℕ → Fin n → ℝ) : Prop :=
  ∃ e : ℕ → ℝ, (∀ t, m p (q t) = Fl.fin (e t)) ∧ Tendsto e atTop (𝓝 0)

end Verif.Spec
