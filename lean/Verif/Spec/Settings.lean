import Verif.Model.Settings

/-!
# Settings: what scikit-learn expects

An object keeps its settings when the attributes with the names of the arguments of the constructor hold the values that were given.
-/

namespace Verif.Spec

open Verif.Model

variable {V : Type}

/-- The classes whose settings cannot be used as in scikit-learn. -/
def unreadable : List Cls := [.em, .edx, .pwk, .pwkQuantifier]

/-- `o` is an object of the class `c` made with the arguments `args` and then used: the methods `fit` and `predict` may have been called any
number of times, so the attributes that they assign hold anything. -/
def MadeAndUsed (c : Cls) (args : String → Val V) (o : Attrs V) : Prop := ∀ n, n ∉ assigned c → o n = init c args n

/-- `args'` are the arguments `args` with the changes in `params`. -/
def Changed (args args' : String → Val V) (params : List (String × Val V)) : Prop :=
  (∀ t ∈ params, args' t.1 = t.2) ∧ ∀ n, n ∉ params.map Prod.fst → args' n = args n

end Verif.Spec
