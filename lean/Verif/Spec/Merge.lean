import Verif.Spec.Prevalence

/-!
# Merging classes

A map `g` of the classes, not necessarily injective, says which classes are taken as one.
-/

namespace Verif.Spec

variable {α β : Type*} [LinearOrder α] [LinearOrder β]

/-- `v` has one entry for each class of `y` and `v'` one for each class that is left when `g` is applied to the labels; the entry of a merged class is the sum of the entries of the classes it is made of. -/
def MergedByClass (g : α → β) (y : List α) (v : Fin (labelsOf y).length → ℝ) (v' : Fin (labelsOf (y.map g)).length → ℝ) : Prop :=
  ∀ j, v' j = ∑ i, if g (labelsOf y)[i] = (labelsOf (y.map g))[j] then v i else 0

/-- The vector of `m` entries in which entry `j` is the sum of the entries of `v` that `f` sends to `j`. -/
noncomputable def merged {n m : ℕ} (f : Fin n → Fin m) (v : Fin n → ℝ) : Fin m → ℝ := fun j => ∑ i, if f i = j then v i else 0

end Verif.Spec
