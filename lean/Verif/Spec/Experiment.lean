import Verif.Model.Experiment
import Verif.Spec.Bags
import Verif.Spec.Eoq

/-!
# What the report of an experiment has to say
-/

namespace Verif.Spec

open Verif.Model

variable {α G : Type} [LinearOrder α] {k : ℕ}

/-- A class whose `predict` changes nothing in the object. -/
def Steady (cls : UcClass α k) : Prop := ∀ m s p, (cls.answer m s p).1 = m

/-- The generator of the experiment: fresh, with a sound source of randomness and something to draw from, and it returned bags. -/
structure Generated (rng : Rng G) (fuel : ℕ) (gen : PriorGen G) (glob : G) (test : BagData α) (b : Bags) : Prop where
  rng_ok : RngOk rng
  fresh : gen.bags = none
  nonempty : test.y ≠ []
  size : 0 < gen.bagSize.getD test.y.length
  returned : ∃ g' glob', priorGenerate rng fuel gen glob test = some (g', glob', .ok b)

/-- The list of errors `es` has one entry for each of the bags `b`, and each is related by `R` to the positions of the examples of its bag and their labels. -/
def ErrorsOf (test : List α) (b : Bags) (n size : ℕ) (R : List ℕ → List α → Fl → Prop) (es : List Fl) : Prop :=
  es.length = n ∧ b.idx.length = n ∧ ∀ i (h : i < es.length) (h' : i < b.idx.length), ∃ labels, BagOf test b.idx[i] labels ∧ labels.length = size ∧ R b.idx[i] labels es[i]

end Verif.Spec
