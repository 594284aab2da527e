import Verif.Spec.Prevalence

/-!
# Renaming the classes in any way

The library sorts the classes, so a renaming that does not keep their order changes the position of each class in the prevalences and in the columns of the probabilities.
-/

namespace Verif.Spec

variable {α β : Type*} [LinearOrder α] [LinearOrder β]

/-- `v` has one entry for each class of `y` and `v'` one for each class of `y` renamed by `g`; each class has the same entry in both. -/
def SameByClass (g : α → β) (y : List α) {V : Type*} (v : Fin (labelsOf y).length → V) (v' : Fin (labelsOf (y.map g)).length → V) : Prop :=
  ∀ i j, (labelsOf (y.map g))[j] = g (labelsOf y)[i] → v' j = v i

end Verif.Spec
