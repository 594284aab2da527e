import Verif.Spec.PriorShift
import Verif.Spec.Confusion
import Verif.Spec.Stability

/-!
# Specification of C156: bags that are not only prior probability shift
-/

namespace Verif.Spec

variable {α β ι : Type*}

/-- How much the examples of the classes have changed from the training set to the bag, as seen through the features `F`: the sum of the changes of their means within a class, averaged over the examples of the bag. It is 0
under prior probability shift. -/
noncomputable def drift [LinearOrder α] [Fintype ι] (F : ι → β → ℝ) (y : List α) (train bag : List (α × β)) : ℝ :=
  ∑ c : Fin (labelsOf y).length, bagPrevs y bag c * ∑ j, |meanOf (ofClass bag (labelsOf y)[c]) (F j) - meanOf (ofClass train (labelsOf y)[c]) (F j)|

end Verif.Spec
