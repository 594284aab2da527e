import Verif.Spec.Prevalence
import Verif.Spec.Confusion
import Verif.Num.Fl

/-!
# Specification of C142: averages of predictions
-/

namespace Verif.Spec

variable {n : ℕ}

/-- The average of several predictions: for each class the mean of the prevalences predicted. -/
noncomputable def averageOf (qs : List (Fin n → ℝ)) : Fin n → ℝ := fun j => meanOf qs fun q => q j

/-- The error of the average of several predictions is at most the average of their errors. -/
def AverageHelps (err : (Fin n → ℝ) → Fl) : Prop :=
  ∀ qs : List (Fin n → ℝ), qs ≠ [] → (∀ q ∈ qs, IsPrev q) →
    ∃ (a : ℝ) (es : List ℝ), err (averageOf qs) = .fin a ∧ qs.map err = es.map .fin ∧ a ≤ es.sum / es.length

/-- The score of the average of several predictions is at least the average of their scores. -/
def AverageHelpsScore (score : (Fin n → ℝ) → Fl) : Prop :=
  ∀ qs : List (Fin n → ℝ), qs ≠ [] → (∀ q ∈ qs, IsPrev q) →
    ∃ (a : ℝ) (es : List ℝ), score (averageOf qs) = .fin a ∧ qs.map score = es.map .fin ∧ es.sum / es.length ≤ a

/-- The error of the average of several predictions is at most the error of the worst of them. -/
def AverageNotWorst (err : (Fin n → ℝ) → Fl) : Prop :=
  ∀ qs : List (Fin n → ℝ), qs ≠ [] → (∀ q ∈ qs, IsPrev q) →
    ∃ q ∈ qs, ∃ a b : ℝ, err (averageOf qs) = .fin a ∧ err q = .fin b ∧ a ≤ b

/-- The same for the prevalence of the positive class: the error of the average is at most the average of the errors. -/
def AverageHelps1 (err : ℝ → Fl) : Prop :=
  ∀ qs : List ℝ, qs ≠ [] → (∀ q ∈ qs, 0 ≤ q ∧ q ≤ 1) →
    ∃ (a : ℝ) (es : List ℝ), err (meanOf qs id) = .fin a ∧ qs.map err = es.map .fin ∧ a ≤ es.sum / es.length

/-- The score of the average prevalence is at least the average of the scores. -/
def AverageHelpsScore1 (score : ℝ → Fl) : Prop :=
  ∀ qs : List ℝ, qs ≠ [] → (∀ q ∈ qs, 0 ≤ q ∧ q ≤ 1) →
    ∃ (a : ℝ) (es : List ℝ), score (meanOf qs id) = .fin a ∧ qs.map score = es.map .fin ∧ es.sum / es.length ≤ a

/-- The error of the average prevalence is at most the error of the worst. -/
def AverageNotWorst1 (err : ℝ → Fl) : Prop :=
  ∀ qs : List ℝ, qs ≠ [] → (∀ q ∈ qs, 0 ≤ q ∧ q ≤ 1) →
    ∃ q ∈ qs, ∃ a b : ℝ, err (meanOf qs id) = .fin a ∧ err q = .fin b ∧ a ≤ b

end Verif.Spec
