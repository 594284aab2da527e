import Verif.Model.FrankHall

/-!
# Model of `quantificationlib/ordinal/trees.py`

`OrdinalQuantificationTree` is PCC with its own `FrankAndHallTreeClassifier`; the parts of `UsingClassifiers` and `PCC` that it uses are written out here, with the tree classifier of `Verif.Model.FrankHall` as the
estimator. Not modelled: verbose printing.
-/

namespace Verif.Model

section
variable {M D α : Type}

/-- `FrankAndHallTreeClassifier.predict` (frank_and_hall.py:685-707). -/
noncomputable def fhtPredict [LinearOrder α] (ops : FhOps M D) (f : FhFit M α × QTree) (X : List D) : Except Err (List α) :=
  fhtPredictProba ops f X >>= fun rows => rows.mapM fun row => fhLabel f.1.classes fun i : Fin row.length => row[i]

/-- The attributes: `classes_` of the quantifier; `classes_`, `estimators_` and `tree_` of the tree classifier. The classifier has `classes_` but no tree when an exception ended its `fit` while the tree was built. -/
structure OqtState (M α : Type) where
  classes : List α
  clf : Option (FhFit M α × Option QTree)

/-- A new object (trees.py:36-38, cc.py:206-208, frank_and_hall.py:653-658). -/
def oqtNew : OqtState M α := ⟨[], none⟩

/-- `OrdinalQuantificationTree.fit` (base.py:162-265 with `needs_predictions_train=False`): the classifier is trained only when its `predict` raises NotFittedError. -/
noncomputable def oqtFit [LinearOrder α] (perf : ℝ → ℝ → Fl) (ops : FhOps M D) (s : OqtState M α) (X : List D) (y : List α) : OqtState M α × Option Err :=
  match s.clf with
  | some (f, some t) =>
    match fhtPredict ops (f, t) (X.take 1) with
    | .error e => (⟨npUnique y, s.clf⟩, some e)
    | .ok _ => (⟨npUnique y, s.clf⟩, none)
  | some (_, none) => (⟨npUnique y, s.clf⟩, some .valueError)  -- 'Tree does not exist' (frank_and_hall.py:755-756)
  | none =>
    if X = [] ∨ X.length ≠ y.length then (⟨npUnique y, none⟩, some .valueError)
    else
      match fhFit ops X y with
      | .error e => (⟨npUnique y, none⟩, some e)
      | .ok f =>
        match fhtGenerate perf ops f X y with
        | .error e => (⟨npUnique y, some (f, none)⟩, some e)
        | .ok t => (⟨npUnique y, some (f, some t)⟩, none)

/-- `np.mean(rows, axis=0)` (cc.py:261). The mean of an array without rows, which is NaN, is zero here. -/
noncomputable def oqtMean (n : ℕ) (rows : List (List ℝ)) : List ℝ := (List.range n).map fun c => (rows.map fun r => r.getD c 0).sum / rows.length

/-- `OrdinalQuantificationTree.predict(X)` (cc.py:228-266, base.py:267-315): the mean of the rows of `predict_proba`. `check_array` rejects an empty bag. -/
noncomputable def oqtPredict [LinearOrder α] (ops : FhOps M D) (s : OqtState M α) (X : List D) : Except Err (List ℝ) :=
  if X = [] then .error .valueError
  else
    match s.clf with
    | none => .error .notFittedError
    | some (_, none) => .error .valueError
    | some (f, some t) => (fhtPredictProba ops (f, t) X).map fun rows => oqtMean f.classes.length rows

/-- `OrdinalQuantificationTree.predict(X, predictions_test)` (base.py:300-302, cc.py:261): given predictions, a matrix with `n` columns, are used as they are, without `X` nor the classifier. -/
noncomputable def oqtPredictWith [LinearOrder α] (ops : FhOps M D) (s : OqtState M α) (X : List D) {n : ℕ} (given : Option (List (Fin n → ℝ))) : Except Err (List ℝ) :=
  match given with
  | some rows => .ok (oqtMean n (rows.map List.ofFn))
  | none => oqtPredict ops s X

end

end Verif.Model
