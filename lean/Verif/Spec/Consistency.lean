import Verif.Spec.PriorShift
import Verif.Spec.Confusion
import Mathlib.Probability.Independence.Basic
import Mathlib.Probability.IdentDistrib

/-!
# Specification of C143: streams of test examples
-/

namespace Verif.Spec

open MeasureTheory ProbabilityTheory Filter Topology

variable {Ω α β : Type*} [MeasurableSpace Ω]

/-- A stream of random test examples, pairs of the class and what is seen of the example: the examples are pairwise independent and have the same distribution. An example has class `c` with probability `p c`, and what is
seen of the examples of a class has the frequencies that it has in the training set (prior probability shift). -/
structure ShiftedStream [LinearOrder α] [MeasurableSpace α] [MeasurableSpace β] (μ : Measure Ω) (train : List (α × β)) (y : List α) (p : Fin (labelsOf y).length → ℝ) (Z : ℕ → Ω → α × β) : Prop where
  indep : Pairwise fun i j => IndepFun (Z i) (Z j) μ
  same : ∀ i, IdentDistrib (Z i) (Z 0) μ μ
  law : open Classical in ∀ c v, μ.real {ω | Z 0 ω = ((labelsOf y)[c], v)} = p c * freq (ofClass train (labelsOf y)[c]) v

/-- What is seen of the first `n` examples of a stream. -/
def firstSeen (Z : ℕ → Ω → α × β) (n : ℕ) (ω : Ω) : List β := (List.range n).map fun i => (Z i ω).2

/-- With probability one, the answers to the bags of the first 1, 2, 3, ... examples are vectors of numbers, and they converge to `p`. -/
def Consistent {E : Type*} (μ : Measure Ω) (Z : ℕ → Ω → α × β) {n : ℕ} (p : Fin n → ℝ) (answer : List β → Except E (Option (List Fl))) : Prop :=
  ∀ᵐ ω ∂μ, ∃ x : ℕ → Fin n → ℝ, (∀ m, answer (firstSeen Z (m + 1) ω) = .ok (some (List.ofFn fun i => Fl.fin (x m i)))) ∧ Tendsto x atTop (𝓝 p)

end Verif.Spec
