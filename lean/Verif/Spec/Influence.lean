import Verif.Spec.Prevalence

/-!
# Specification of C144: bags that differ in one example
-/

namespace Verif.Spec

/-- `bag'` is `bag` with one example, `v`, replaced by `v'`. -/
def OneReplaced {β : Type*} (bag bag' : List β) (v v' : β) : Prop := ∃ A B, bag = A ++ v :: B ∧ bag' = A ++ v' :: B

end Verif.Spec
