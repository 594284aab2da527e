import Verif.Spec.Prevalence

/-!
# Specification vocabulary: samples with the same distribution
-/

namespace Verif.Spec

open Classical in
/-- Two nonempty samples in which every value has the same relative frequency: what is left of a sample when the order of its elements and the number of times the whole sample is repeated are forgotten. -/
def SameFrequencies {β : Type*} (l l' : List β) : Prop := l ≠ [] ∧ l' ≠ [] ∧ ∀ a, freq l a = freq l' a

end Verif.Spec
