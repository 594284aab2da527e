import Verif.Spec.Prevalence
import Mathlib.Probability.Independence.Basic
import Mathlib.Probability.IdentDistrib

/-!
# Specification of C165: streams of examples of a population
-/

namespace Verif.Spec

open MeasureTheory ProbabilityTheory Filter Topology

variable {Ω α β : Type*} [MeasurableSpace Ω]

/-- A stream of random examples, pairs of the class and what is seen of the example: the examples are pairwise independent and have the same distribution. An example has class `cs[c]` with probability `p c`, and what is seen
of the examples of that class has the distribution `ν c`. -/
structure Population [MeasurableSpace α] [MeasurableSpace β] (μ : Measure Ω) (cs : List α) (p : Fin cs.length → ℝ) (ν : Fin cs.length → Measure β) (Z : ℕ → Ω → α × β) : Prop where
  indep : Pairwise fun i j => IndepFun (Z i) (Z j) μ
  same : ∀ i, IdentDistrib (Z i) (Z 0) μ μ
  law : ∀ c (B : Set β), MeasurableSet B → μ {ω | (Z 0 ω).1 = cs[c] ∧ (Z 0 ω).2 ∈ B} = ENNReal.ofReal (p c) * ν c B

/-- The first `n` examples of a stream. -/
def firstExamples (Z : ℕ → Ω → α × β) (n : ℕ) (ω : Ω) : List (α × β) := (List.range n).map fun i => Z i ω

/-- With probability one, when the number of training examples and the number of test examples both grow, the answers are vectors of numbers from some sizes on, and they converge to `p`. `answer y seen bag` is the answer
to the bag after training with the classes `y` and what is seen of the training examples. -/
def LearnsAndConverges {E : Type*} (μ : Measure Ω) (W Z : ℕ → Ω → α × β) {n : ℕ} (p : Fin n → ℝ) (answer : List α → List β → List β → Except E (Option (List Fl))) : Prop :=
  ∀ᵐ ω ∂μ, ∃ x : ℕ × ℕ → Fin n → ℝ,
    (∀ᶠ s in atTop, answer ((firstExamples W s.1 ω).map Prod.fst) ((firstExamples W s.1 ω).map Prod.snd) ((firstExamples Z s.2 ω).map Prod.snd) = .ok (some (List.ofFn fun i => Fl.fin (x s i)))) ∧ Tendsto x atTop (𝓝 p)

/-- The values in bin `b` of the `n` bins of equal width of [0, 1]; the first and the last bin have also the values out of [0, 1]. -/
def widthBin (n : ℕ) (b : Fin n) : Set ℝ := {v | ((b : ℕ) ≠ 0 → (b : ℕ) / (n : ℝ) ≤ v) ∧ ((b : ℕ) + 1 ≠ n → v < ((b : ℕ) + 1) / (n : ℝ))}

end Verif.Spec
