import Verif.Model.FrankHall
import Verif.Model.Ensemble

/-!
# Estimators whose training may fail

`Verif/Model/FrankHall.lean`, `CvEstimator.lean` and `Ensemble.lean` describe what the estimators of the library learn when `fit` returns. Here are their attributes from the constructor on, through calls to `fit` that may raise: what a
call leaves behind in that case depends on the order of the assignments. `check_X_y` of scikit-learn rejects empty sets, different lengths and values that are not finite (`finite`); `raises` are the exceptions of the base estimator.

Simplifications: the base estimator is given (None raises ValueError before anything is assigned); labels have a type that LabelBinarizer accepts. When the training of one of the base estimators raises, joblib raises the
exception of one of them: the first one is modelled.
-/

namespace Verif.Model

variable {M D α S : Type} {k : ℕ}

/-- `check_X_y(X, y)`. -/
def acceptsXy (finite : List D → Bool) (X : List D) (y : List α) : Bool := decide (X.length = y.length) && decide (X ≠ []) && finite X

/-! ## FrankAndHallClassifier -/

/-- The attributes of a `FrankAndHallClassifier`: `classes_` and `estimators_`, which is None or an array whose elements may be None. -/
structure FhObj (M α : Type) where
  classes : Option (List α)
  estimators : Option (List (Option M))

/-- A new object (frank_and_hall.py:84-92), also of `FrankAndHallMonotoneClassifier`. -/
def fhNew : FhObj M α := ⟨none, none⟩

/-- The base estimator: what it learns, its probabilities and the exceptions of `fit`. -/
structure FhRaising (M D : Type) where
  ops : FhOps M D
  raises : ℕ → List D → List ℤ → Option Err

/-- `_fit_binary` (frank_and_hall.py:93-119). -/
def fhFitBinary (b : FhRaising M D) (X : List D) (i : ℕ) (yBin : List ℤ) : Except Err M :=
  match b.raises i X yBin with
  | some e => .error e
  | none => .ok (b.ops.fit i X yBin)

/-- `FrankAndHallClassifier.fit` (frank_and_hall.py:121-164): the object after the call and the exception, if any. `classes_` is assigned before `check_X_y`, and `estimators_` is an array of None while the base estimators are trained. -/
def fhObjFit [LinearOrder α] (finite : List D → Bool) (b : FhRaising M D) (o : FhObj M α) (X : List D) (y : List α) : FhObj M α × Option Err :=
  if y = [] then (o, some .valueError)
  else
    match fhTransform 0 1 (npUnique y) y with
    | .error e => (o, some e)
    | .ok yBin =>
      if acceptsXy finite X y = false then (⟨some (npUnique y), o.estimators⟩, some .valueError)
      else
        match (List.range ((npUnique y).length - 1)).mapM fun i => item yBin i >>= fhFitBinary b X i with
        | .error e => (⟨some (npUnique y), some (List.replicate ((npUnique y).length - 1) none)⟩, some e)
        | .ok ms => (⟨some (npUnique y), some (ms.map some)⟩, none)

/-- What `predict` and `predict_proba` read (frank_and_hall.py:186, 237, 274-281, 466): NotFittedError when `classes_` is None, and only then; `None[0]` is a TypeError, and `None.predict_proba` an AttributeError. -/
def fhObjRead (o : FhObj M α) : Except Err (FhFit M α) :=
  match o.classes with
  | none => .error .notFittedError
  | some cs =>
    match o.estimators with
    | none => .error .typeError
    | some es =>
      match es.mapM id with
      | none => .error .attributeError
      | some ms => .ok ⟨cs, ms⟩

/-- `FrankAndHallClassifier.predict` (frank_and_hall.py:166-191). -/
noncomputable def fhObjPredict (ops : FhOps M D) (o : FhObj M α) (X : List D) : Except Err (List α) := fhObjRead o >>= fun f => fhPredict ops f X

/-- `FrankAndHallClassifier.predict_proba` (frank_and_hall.py:193-257). -/
noncomputable def fhObjProba (n : ℕ) (ops : FhOps M D) (o : FhObj M α) (X : List D) : Except Err (List (Fin n → ℝ)) := fhObjRead o >>= fun f => fhPredictProba n ops f X

/-- `FrankAndHallMonotoneClassifier.predict_proba` (frank_and_hall.py:416-491). -/
noncomputable def fhmObjProba (ops : FhOps M D) (o : FhObj M α) (X : List D) : Except Err (List (List ℝ)) := fhObjRead o >>= fun f => fhmPredictProba ops f X

/-! ## FrankAndHallTreeClassifier -/

/-- The attributes of a `FrankAndHallTreeClassifier` (frank_and_hall.py:652-658). -/
structure FhtObj (M α : Type) where
  base : FhObj M α
  tree : Option QTree

/-- A new object. -/
def fhtNew : FhtObj M α := ⟨fhNew, none⟩

/-- `FrankAndHallTreeClassifier.fit` (frank_and_hall.py:660-683): `tree_` is assigned last. -/
noncomputable def fhtObjFit [LinearOrder α] (perf : ℝ → ℝ → Fl) (finite : List D → Bool) (b : FhRaising M D) (o : FhtObj M α) (X : List D) (y : List α) : FhtObj M α × Option Err :=
  match fhObjFit finite b o.base X y with
  | (base, some e) => (⟨base, o.tree⟩, some e)
  | (base, none) =>
    match fhObjRead base >>= fun f => fhtGenerate perf b.ops f X y with
    | .error e => (⟨base, o.tree⟩, some e)
    | .ok t => (⟨base, some t⟩, none)

/-- `FrankAndHallTreeClassifier.predict_proba` (frank_and_hall.py:709-763). -/
noncomputable def fhtObjProba [LinearOrder α] (ops : FhOps M D) (o : FhtObj M α) (X : List D) : Except Err (List (List ℝ)) :=
  match o.base.classes with
  | none => .error .notFittedError
  | some _ =>
    match o.tree with
    | none => .error .valueError
    | some t => fhObjRead o.base >>= fun f => fhtPredictProba ops (f, t) X

/-! ## CV_estimator -/

/-- A new object (cross_validation.py:117-133): `estimators_` is `()`; the other attributes are None, but they are not read until `estimators_` is not empty. -/
def cvNew : CvFit M D α := ⟨[], [], [], []⟩

/-- `CV_estimator.fit` (cross_validation.py:134-161): `estimators_` is assigned last. `fails` are the exceptions of `check_cv` and `cross_validate` other than those of reading folds. -/
def cvObjFit [LinearOrder α] (fails : List D → List α → Option Err) (split : Splitter S) (ops : CvOps M D α) (s : S) (o : CvFit M D α) (X : List D) (y : List α) : S × CvFit M D α × Option Err :=
  match fails X y with
  | some e => (s, ⟨o.estimators, X, y, npUnique y⟩, some e)
  | none =>
    match cvFit split ops s X y with
    | (s, .error e) => (s, ⟨o.estimators, X, y, npUnique y⟩, some e)
    | (s, .ok f) => (s, f, none)

/-! ## EnsembleOfClassifiers -/

/-- The attributes of an `EnsembleOfClassifiers`. `blank`: `estimators_` is an array of that many Nones (ensembles.py:108). -/
structure EnsObj (M α : Type) where
  state : EnsState M α
  blank : Option ℕ

/-- A new object (ensembles.py:69-77). -/
def ensObjNew : EnsObj M α := ⟨ensNew, none⟩

/-- `EnsembleOfClassifiers.fit` (ensembles.py:79-117): `raises` are the exceptions of the base estimator. An array of None is not None: the estimators are not trained again. -/
def ensObjFit [LinearOrder α] (finite : List D → Bool) (raises : List D → List α → List (List ℕ) → Option Err) (sch : Schedule) (ops : CvOps M D α) (o : EnsObj M α) (X : List D) (y : List α) (indexes : List (List ℕ)) :
    EnsObj M α × Option Err :=
  if o.state.classes.isNone && o.state.estimators.isNone && o.blank.isNone then
    if acceptsXy finite X y = false then (o, some .valueError)
    else
      match raises X y indexes with
      | some e => (⟨o.state, some indexes.length⟩, some e)
      | none =>
        match ensFit sch ops o.state X y indexes with
        | .error e => (⟨o.state, some indexes.length⟩, some e)
        | .ok s => (⟨s, none⟩, none)
  else (⟨{ o.state with classes := some (npUnique y) }, o.blank⟩, none)

/-- What `predict` and `predict_proba` read first (ensembles.py:136-141, 166-171). -/
def ensObjRead (o : EnsObj M α) : Except Err (EnsState M α) :=
  match o.state.classes with
  | none => .error .notFittedError
  | some _ =>
    match o.blank with
    | some 0 => .error .indexError
    | some (_ + 1) => .error .attributeError
    | none => .ok o.state

/-- `EnsembleOfClassifiers.predict` (ensembles.py:119-146). -/
def ensObjPredict (label : M → D → α) (o : EnsObj M α) (X : List D) : Except Err (List (List α)) := ensObjRead o >>= fun s => ensPredict label s X

/-- `EnsembleOfClassifiers.predict_proba` (ensembles.py:148-176). -/
def ensObjProba (k : ℕ) (ops : CvOps M D α) (o : EnsObj M α) (X : List D) : Except Err (List (List (Fin k → ℝ))) := ensObjRead o >>= fun s => ensPredictProba k ops s X

/-! ## The quantifiers -/

/-- An estimator as a quantifier sees it: `predict` tells whether it is fitted, and `fit` changes it, also when it raises. -/
structure EstX (σ D α : Type) where
  ask : σ → List D → Option Err
  fit : σ → List D → List α → σ × Option Err

/-- Fitting `estimator_train` or `estimator_test` of a quantifier (base.py:201-218, 220-238): only a NotFittedError leads to a call to `fit`; other exceptions are not caught. -/
def estStep {σ : Type} (finite : List D → Bool) (est : EstX σ D α) (s : σ) (X : List D) (y : List α) : σ × Option Err :=
  match est.ask s (X.take 1) with
  | none => (s, none)
  | some .notFittedError => if acceptsXy finite X y = false then (s, some .valueError) else est.fit s X y
  | some e => (s, some e)

/-- The exception of a computation, if any. -/
def raised {β : Type} : Except Err β → Option Err
  | .ok _ => none
  | .error e => some e

/-- A `FrankAndHallClassifier` as the estimator of a quantifier. -/
noncomputable def fhEst [LinearOrder α] (finite : List D → Bool) (b : FhRaising M D) : EstX (FhObj M α) D α := ⟨fun o X => raised (fhObjPredict b.ops o X), fhObjFit finite b⟩

end Verif.Model
