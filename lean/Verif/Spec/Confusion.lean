import Verif.Spec.Prevalence

/-!
# Specification vocabulary: conditional frequencies and class means
-/

namespace Verif.Spec

variable {α : Type*} [DecidableEq α]

/-- Among the positions whose true label is `a`, the fraction predicted as `b`. -/
noncomputable def condFreq (yTrue yPred : List α) (a b : α) : ℝ :=
  ((yTrue.zip yPred).countP (fun t => decide (t.1 = a ∧ t.2 = b)) : ℝ) / (yTrue.count a : ℝ)

/-- The mean of the values `f row` over the positions whose true label is `a`. -/
noncomputable def condMean {β : Type*} (yTrue : List α) (rows : List β) (f : β → ℝ) (a : α) : ℝ :=
  (((yTrue.zip rows).filter (fun t => decide (t.1 = a))).map fun t => f t.2).sum
    / (yTrue.count a : ℝ)

/-- The mean of `f row` over all rows. -/
noncomputable def meanOf {β : Type*} (rows : List β) (f : β → ℝ) : ℝ :=
  (rows.map f).sum / (rows.length : ℝ)

/-- `r` copies of the training labels, one after the other: the true labels of `r` stacked
predictions per training example. -/
def stacked (y : List α) (r : ℕ) : List α := (List.replicate r y).flatten

end Verif.Spec
