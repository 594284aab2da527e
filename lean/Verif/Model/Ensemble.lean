import Verif.Model.CvEstimator

/-!
# Model of `quantificationlib/estimators/ensembles.py`

The base estimator is an object: `fit` changes it and returns it. `EnsState` holds what the object of class `EnsembleOfClassifiers` refers to: `estimators_` is a list of references, and `heap` gives the fitted
model that the object behind a reference holds now. Reference 0 is `base_estimator`; references from 1 on are the copies that joblib makes when it sends a task to another process and unpickles the result.

`CvOps` (`Verif/Model/CvEstimator.lean`) gives `fit` and `predict_proba` of the base estimator; `label` is `predict`. `indexes` is given as the list of its columns.

Simplifications: the base estimator is given (None raises ValueError) and a call to `fit` forgets the previous ones; the predictions have one row per example; labels that are strings are stored whole (an array with the
type of the first prediction truncates longer ones). The calls to `fit` of threads are atomic.
-/

namespace Verif.Model

/-- How joblib runs the tasks: in the same process, one after another (`n_jobs` None or 1) or with threads, where the calls to `fit` take place in some order; or in other processes. -/
inductive Schedule where
  | shared (order : List ℕ)
  | processes

section
variable {M D α : Type} {k : ℕ}

/-- The attributes computed by `fit`. -/
structure EnsState (M α : Type) where
  classes : Option (List α)
  estimators : Option (List ℕ)
  heap : ℕ → Option M

/-- A new object: the base estimator has not been fitted. -/
def ensNew : EnsState M α := ⟨none, none, fun _ => none⟩

/-- `base_estimator.fit(X[indexes[:, n_est], :], y[indexes[:, n_est]])`: the model it leaves in the object. -/
def ensTask (ops : CvOps M D α) (X : List D) (y : List α) (col : List ℕ) : Except Err M := do
  let rows ← col.mapM (item X)
  let ys ← col.mapM (item y)
  pure (ops.fit rows ys)

/-- The result of running the tasks (ensembles.py:112-114), given the models that they compute: references and objects. -/
def ensRun (sch : Schedule) (models : List M) : List ℕ × (ℕ → Option M) :=
  match sch with
  | .shared order => (models.map fun _ => 0, fun r => if r = 0 then order.getLast?.bind fun i => models[i]? else none)
  | .processes => ((List.range models.length).map (· + 1), fun r => if r = 0 then none else models[r - 1]?)

/-- `EnsembleOfClassifiers.fit` (ensembles.py:79-117). -/
def ensFit [LinearOrder α] (sch : Schedule) (ops : CvOps M D α) (s : EnsState M α) (X : List D) (y : List α) (indexes : List (List ℕ)) : Except Err (EnsState M α) :=
  if s.classes.isNone && s.estimators.isNone then
    if X.length ≠ y.length ∨ X = [] then .error .valueError
    else do
      let models ← indexes.mapM (ensTask ops X y)
      pure ⟨some (npUnique y), some (ensRun sch models).1, (ensRun sch models).2⟩
  else pure { s with classes := some (npUnique y) }

/-- `self.estimators_[i]`, as the model held by the object. -/
def ensModel (s : EnsState M α) (i : ℕ) : Except Err M :=
  match s.estimators with
  | none => .error .typeError
  | some refs => item refs i >>= fun r => match s.heap r with
    | none => .error .notFittedError
    | some m => .ok m

/-- `EnsembleOfClassifiers.predict` (ensembles.py:119-146) for an example; `label` is `predict` of the estimators. -/
def ensPredictRow (label : M → D → α) (s : EnsState M α) (x : D) : Except Err (List α) :=
  match s.estimators with
  | none => .error .typeError
  | some refs => (ensModel s 0) >>= fun _ => (List.range refs.length).mapM fun i => (ensModel s i).map fun m => label m x

/-- `EnsembleOfClassifiers.predict` (ensembles.py:119-146). -/
def ensPredict (label : M → D → α) (s : EnsState M α) (X : List D) : Except Err (List (List α)) :=
  match s.classes with
  | none => .error .notFittedError
  | some _ => X.mapM (ensPredictRow label s)

/-- `EnsembleOfClassifiers.predict_proba` (ensembles.py:148-176) for an example. -/
def ensProbaRow (k : ℕ) (ops : CvOps M D α) (s : EnsState M α) (x : D) : Except Err (List (Fin k → ℝ)) :=
  match s.estimators with
  | none => .error .typeError
  | some refs => (ensModel s 0) >>= fun _ => (List.range refs.length).mapM fun i => ensModel s i >>= fun m => storeRow k (ops.proba m x)

/-- `EnsembleOfClassifiers.predict_proba` (ensembles.py:148-176); `k` is the number of classes. -/
def ensPredictProba (k : ℕ) (ops : CvOps M D α) (s : EnsState M α) (X : List D) : Except Err (List (List (Fin k → ℝ))) :=
  match s.classes with
  | none => .error .notFittedError
  | some _ => X.mapM (ensProbaRow k ops s)

end

end Verif.Model
