import Verif.Num.Fl
import Mathlib.Data.Finset.Sort
import Mathlib.Data.List.MinMax

/-!
# Model of `quantificationlib/base.py`

`UsingClassifiers`: fitting the estimators when needed, choosing between supplied
predictions and estimator predictions, converting probabilities to crisp labels.

Not modelled: verbose printing, sparse matrices, the content checks of
`check_X_y`/`check_array` (inputs are assumed to pass them), float32 predictions
(`isinstance(x, np.float)` is true for Python/NumPy float64 only; NumPy < 1.24 is assumed,
since `np.float` was removed afterwards).
-/

namespace Verif.Model

/-- Python exceptions raised by the modelled code. -/
inductive Err where
  | valueError
  | typeError
  | indexError
  | attributeError
  | zeroDivisionError
  | notFittedError
  | linAlgError
  deriving DecidableEq, Repr

/-- `np.unique(y)` (base.py:64, base.py:194): the distinct labels in increasing order. -/
def npUnique {α : Type*} [LinearOrder α] (y : List α) : List α := y.toFinset.sort (· ≤ ·)

/-- `np.tile(y, r)` for a one-dimensional array (base.py:260). -/
def npTile {α : Type*} (y : List α) (r : ℕ) : List α := (List.replicate r y).flatten

/-- `row.argmax()` (base.py:347): the first position of the maximum; `none` models the
`ValueError` NumPy raises for an empty row. -/
noncomputable def npArgmax {k : ℕ} (row : Fin k → ℝ) : Option (Fin k) :=
  (List.finRange k).argmax row

/-- The arrays of predictions a user can hand to `fit`/`predict` (base.py:162, 267), told
apart by the tests of `__probs2crisps` (base.py:330-347): a 1-D or one-column array whose
first element is not a Python float, a 1-D or one-column array of floats, a matrix with
`k ≥ 2` columns. -/
inductive Preds (α : Type*) (k : ℕ) where
  | crisp (l : List α)
  | probs1 (l : List ℝ)
  | probs (l : List (Fin k → ℝ))

namespace Preds
variable {α : Type*} {k : ℕ}

/-- `len(preds)`. -/
def len : Preds α k → ℕ
  | crisp l => l.length
  | probs1 l => l.length
  | probs l => l.length

end Preds

/-- `labels.take(i)` (base.py:347): IndexError when out of range. -/
def takeLabel {α : Type*} (labels : List α) (i : ℕ) : Except Err α :=
  match labels[i]? with
  | some c => .ok c
  | none => .error .indexError

/-- `UsingClassifiers.__probs2crisps` (base.py:317-347). `enc b` is the label that the NumPy
integer `1` (`b = true`) or `0` (`b = false`) compares equal to; for integer labels
`enc b = if b then 1 else 0`. The threshold branch stores the integers 0/1, not labels. -/
noncomputable def probs2crisps {α : Type*} {k : ℕ} (enc : Bool → α) (labels : List α) :
    Preds α k → Except Err (List α)
  | .crisp l => .ok l
  | .probs1 l => .ok (l.map fun p => @ite _ (p ≥ 1/2) (Classical.dec _) (enc true) (enc false))
  | .probs l => l.mapM fun row =>
      match npArgmax row with
      | some i => takeLabel labels i
      | none => .error .valueError

/-- The estimator objects: `σ` is the estimator's hidden state, `D` the type of examples.
`notFitted s` is true when `predict` raises `NotFittedError`. -/
structure EstOps (σ D α : Type*) (k : ℕ) where
  notFitted : σ → Bool
  fit : σ → List D → List α → σ
  predict : σ → List D → List α
  predictProba : σ → List D → List (Fin k → ℝ)

/-- Constructor arguments of a quantifier (base.py:147-160). Estimators are references
into a heap, since several quantifiers may share one object. -/
structure QuantCfg where
  estTrain : Option ℕ
  estTest : Option ℕ
  needsTrain : Bool
  probabilistic : Bool

/-- Computed attributes (base.py:157-160). -/
structure QState (α : Type*) (k : ℕ) where
  classes : Option (List α)
  predsTrain : Option (Preds α k)
  yExt : Option (List α)

/-- The heap of estimator objects, with a log of the calls made to their `fit` methods. -/
structure World (σ D α : Type*) where
  est : ℕ → σ
  log : List (ℕ × List D × List α)

section
variable {σ D α : Type*} {k : ℕ}

/-- Fitting one estimator when its `predict` raises `NotFittedError`
(base.py:201-218 for `estimator_train`, 220-238 for `estimator_test`). -/
def fitIfNeeded (ops : EstOps σ D α k) (w : World σ D α) (r : Option ℕ) (X : List D) (y : List α) :
    World σ D α :=
  match r with
  | none => w
  | some e =>
    if ops.notFitted (w.est e) then
      { est := fun e' => if e' = e then ops.fit (w.est e) X y else w.est e'
        log := w.log ++ [(e, X, y)] }
    else w

/-- `y_ext_` (base.py:256-260); `len(y) == 0` with nonempty predictions is a
`ZeroDivisionError`. -/
def extendLabels (y : List α) (nPreds : ℕ) : Except Err (List α) :=
  if y.length = nPreds then .ok y
  else if y.length = 0 then .error .zeroDivisionError
  else .ok (npTile y (nPreds / y.length))

/-- The predictions stored in `predictions_train_` (base.py:244-254). -/
noncomputable def trainPreds (ops : EstOps σ D α k) (enc : Bool → α) (classes : List α)
    (w : World σ D α) (q : QuantCfg) (X : List D) (pt : Option (Preds α k)) :
    Except Err (Preds α k) :=
  match pt with
  | some p =>
    if q.probabilistic then .ok p
    else (probs2crisps enc classes p).map Preds.crisp
  | none =>
    match q.estTrain with
    | none => .error .attributeError
    | some e =>
      if q.probabilistic then .ok (.probs (ops.predictProba (w.est e) X))
      else .ok (.crisp (ops.predict (w.est e) X))

/-- `UsingClassifiers.fit` (base.py:162-265). Returns the new heap, the new attribute values
(also after an exception: `classes_` is assigned first) and the exception, if any. -/
noncomputable def usingFit [LinearOrder α] (ops : EstOps σ D α k) (enc : Bool → α)
    (w : World σ D α) (q : QuantCfg) (s : QState α k) (X : List D) (y : List α)
    (pt : Option (Preds α k)) : World σ D α × QState α k × Option Err :=
  let s := { s with classes := some (npUnique y) }
  if q.needsTrain && q.estTrain.isNone && pt.isNone then (w, s, some .valueError)
  else
    let w := fitIfNeeded ops w q.estTrain X y
    let w := fitIfNeeded ops w q.estTest X y
    if q.needsTrain then
      match trainPreds ops enc (npUnique y) w q X pt with
      | .error e => (w, s, some e)
      | .ok p =>
        match extendLabels y p.len with
        | .error e => (w, { s with predsTrain := some p }, some e)
        | .ok ye => (w, { s with predsTrain := some p, yExt := some ye }, none)
    else (w, s, none)

/-- `UsingClassifiers.predict` (base.py:267-315): the value stored in `predictions_test_`. -/
noncomputable def usingPredict (ops : EstOps σ D α k) (enc : Bool → α) (w : World σ D α)
    (q : QuantCfg) (classes : List α) (X : List D) (pt : Option (Preds α k)) :
    Except Err (Preds α k) :=
  match q.estTest, pt with
  | none, none => .error .valueError
  | _, some p =>
    if q.probabilistic then .ok p
    else (probs2crisps enc classes p).map Preds.crisp
  | some e, none =>
    if q.probabilistic then .ok (.probs (ops.predictProba (w.est e) X))
    else .ok (.crisp (ops.predict (w.est e) X))

end

end Verif.Model
