import Verif.Spec.Consistency
import Verif.Spec.Stability

/-!
# Specification of C154: errors of a bag of random examples
-/

namespace Verif.Spec

open MeasureTheory

variable {Ω α β : Type*} [MeasurableSpace Ω]

/-- Except with probability at most `δ`, the answer to the bag of the first `n` examples of a stream is a vector of numbers whose total error, against `p`, is below `ε`. -/
def AnswersWithin {E : Type*} (μ : Measure Ω) (Z : ℕ → Ω → α × β) (n : ℕ) {k : ℕ} (p : Fin k → ℝ) (answer : List β → Except E (Option (List Fl))) (ε δ : ℝ) : Prop :=
  μ {ω | ¬ ∃ x : Fin k → ℝ, answer (firstSeen Z n ω) = .ok (some (List.ofFn fun i => Fl.fin (x i))) ∧ totalError x p < ε} ≤ ENNReal.ofReal δ

/-- With probability one, the answer to the bag of the first `n` examples of a stream is a vector of numbers, with the expectations `mean` and the variances `var`. -/
def AnswersMoments {E : Type*} (μ : Measure Ω) (Z : ℕ → Ω → α × β) (n : ℕ) {k : ℕ} (mean var : Fin k → ℝ) (answer : List β → Except E (Option (List Fl))) : Prop :=
  ∃ x : Ω → Fin k → ℝ, (∀ᵐ ω ∂μ, answer (firstSeen Z n ω) = .ok (some (List.ofFn fun i => Fl.fin (x ω i)))) ∧ (∀ i, Integrable (fun ω => x ω i) μ) ∧ (∀ i, ∫ ω, x ω i ∂μ = mean i)
    ∧ (∀ i, Integrable (fun ω => (x ω i - mean i) ^ 2) μ) ∧ ∀ i, ∫ ω, (x ω i - mean i) ^ 2 ∂μ = var i

end Verif.Spec
