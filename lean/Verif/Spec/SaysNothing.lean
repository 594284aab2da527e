import Verif.Spec.PriorShift

/-!
# Predictions that say nothing about the class
-/

namespace Verif.Spec

variable {α β : Type*}

/-- What is seen of the examples (a prediction, for instance) has the same frequencies in all the classes. -/
def SaysNothing [DecidableEq α] (s : List (α × β)) : Prop := ∀ c ∈ s.map Prod.fst, ∀ c' ∈ s.map Prod.fst, SameFrequencies (ofClass s c) (ofClass s c')

end Verif.Spec
