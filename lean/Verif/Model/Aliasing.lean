import Verif.Model.Pipeline
import Verif.Model.Bags

/-!
# Arrays shared between an object and the program that uses it

Attributes that are the very array given to a method, or returned by it, change when the program writes into that array. The attributes computed by the classes derived from `UsingClassifiers` are new arrays (indexing
with a mask or a list, `np.histogram`, arithmetic); only the two attributes of `base.py` below can be arrays of the caller.
-/

namespace Verif.Model

variable {α : Type} {k : ℕ}

/-- The program overwrites, after `fit(X, y, predictions_train)`, the array `predictions_train` with `P'` and the array `y` with `y'` (arrays of the same sizes). `self.predictions_train_ = predictions_train` (base.py:244-247) is the
array itself when predictions are given to a probabilistic method; when they are converted to labels, it is a copy (base.py:317-347). `self.y_ext_ = y` (base.py:257-258) is the array itself unless the predictions are
repeated (`np.tile` makes a copy). -/
def overwriteTrain (o : UcObj α k) (y : List α) (pt : Option (Preds α k)) (y' : List α) (P' : Preds α k) (s : UcState o) : UcState o :=
  let preds := if o.cls.needsTrain && o.cls.probabilistic && pt.isSome then some P' else s.base.predsTrain
  let ye := if o.cls.needsTrain && decide ((s.base.predsTrain.map Preds.len) = some y.length) then some y' else s.base.yExt
  ⟨⟨s.base.classes, preds, ye⟩, s.own⟩

/-- The program overwrites the arrays returned by `generate_bags` with `b'`: they are the attributes `prevalences_` and `indexes_` (bag_generator.py:137-138, 255, 312). -/
def overwriteBags {G : Type*} (b' : Bags) (s : PriorGen G) : PriorGen G := { s with bags := s.bags.map fun _ => b' }

end Verif.Model
