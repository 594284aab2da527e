import Verif.Spec.SameFrequencies
import Verif.Spec.Prevalence

/-!
# Prior probability shift

Training examples and testing examples are pairs: the true class and what the quantifier sees of the example (a prediction, or a row of attributes).
-/

namespace Verif.Spec

variable {α β : Type*}

/-- What is seen of the examples of class `c`. -/
def ofClass [DecidableEq α] (s : List (α × β)) (c : α) : List β := (s.filter fun t => t.1 = c).map Prod.snd

/-- The bag differs from the training set in the class prevalences only: within each class found in the bag, what is seen of the examples has in the bag the frequencies that it has in the training set.
Classes may be missing in the bag. -/
structure PriorShift [DecidableEq α] (train bag : List (α × β)) : Prop where
  nonempty : bag ≠ []
  same : ∀ c ∈ bag.map Prod.fst, SameFrequencies (ofClass bag c) (ofClass train c)

/-- The prevalences of the classes of `y` in the bag, in the order of the labels. -/
noncomputable def bagPrevs [LinearOrder α] (y : List α) (bag : List (α × β)) : Fin (labelsOf y).length → ℝ := fun i => freq (bag.map Prod.fst) (labelsOf y)[i]

end Verif.Spec
