import Verif.Model.AC

/-!
# Model of `quantificationlib/multiclass/knn.py`

`PWKQuantifier`: its classifier (modelled in `Verif.Model.WeightedKnn`) enters through the
predictions it makes on the training set and on the testing bag.
-/

namespace Verif.Model

variable {α : Type*}

/-- `PWKQuantifier.fit` (knn.py:81-115), given the training predictions of the classifier. -/
noncomputable def pwkqFit [LinearOrder α] (y : List α) (predsTrain : List α) : Except Err (ACFit α) :=
  (confusionMatrix (npUnique y) y predsTrain).map fun cm => ⟨npUnique y, normalizeRows cm⟩

/-- `PWKQuantifier.predict` (knn.py:117-180), given the test predictions of the classifier. -/
noncomputable def pwkqPredict [DecidableEq α] (sol : Solvers) (f : ACFit α) (predsTest : List α) :
    Fin f.classes.length → Fl :=
  let p0 := classFreqs f.classes predsTest
  go f.cm p0
where
  /-- Two classes: Forman's adjustment; otherwise the L1 solver. -/
  go : {n : ℕ} → (Fin n → Fin n → Fl) → (Fin n → Fl) → Fin n → Fl
    | 2, cm, p0 => binaryAdjust cm p0
    | _, cm, p0 => sol.l1 (fun i j => cm j i) p0

end Verif.Model
