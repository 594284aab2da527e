import Verif.Model.CC

/-!
# Model of `quantificationlib/decomposition/` and of `FHLabelBinarizer` (`estimators/frank_and_hall.py`)

Matrices are lists of columns; taking a column that does not exist raises IndexError.

A base quantifier is given by its `fit` and `predict`; `ε` is the type of its (fitted) binary estimators. It returns a list of prevalences. `deepcopy` makes the
copies independent, so the state of each is the result of its own `fit`.

Simplification: that `estimator_train` and `estimator_test` are of the required class, and fitting them, is done by the caller; they are given as their lists
`estimators_` of fitted binary estimators. Quantifiers that derive from neither `WithoutClassifiers` nor `UsingClassifiers` are not modelled.
-/

namespace Verif.Model

variable {α D ε σ : Type}

/-- Element `i` of a sequence, or column `i` of a matrix (`m[:, i]`): IndexError if there is none. -/
def item {β : Type} (m : List β) (i : ℕ) : Except Err β :=
  match m[i]? with
  | some c => .ok c
  | none => .error .indexError

/-- `LabelBinarizer.transform` of scikit-learn: one column per class for three or more classes, one column that marks the second class for two classes, one
column with the negative label for one class. -/
def lbTransform [DecidableEq α] (neg pos : ℤ) (classes : List α) (y : List α) : List (List ℤ) :=
  if classes.length = 1 then [y.map fun _ => neg]
  else if classes.length = 2 then [y.map fun a => if classes[1]? = some a then pos else neg]
  else classes.map fun c => y.map fun a => if a = c then pos else neg

/-- `np.sum(y_bin[:, 0:i + 1], axis=1)` for a matrix with `n` rows. -/
def sumFirst (n : ℕ) (m : List (List ℤ)) (i : ℕ) : List ℤ := (List.range n).map fun r => ((m.take (i + 1)).map fun c => c.getD r 0).sum

/-- `FHLabelBinarizer.transform` (frank_and_hall.py:975-999): the loop writes column `i` of a copy, which must exist. -/
def fhTransform [DecidableEq α] (neg pos : ℤ) (classes : List α) (y : List α) : Except Err (List (List ℤ)) :=
  let yBin := lbTransform neg pos classes y
  (List.range classes.length).mapM fun i => if i < yBin.length then .ok (sumFirst y.length yBin i) else .error .indexError

/-- A base quantifier. -/
structure BinQuant (D ε σ : Type) where
  /-- `isinstance(q, UsingClassifiers)` (otherwise `WithoutClassifiers`). -/
  usesClassifiers : Bool
  /-- `needs_predictions_train`. -/
  needsTrain : Bool
  /-- `fit(X, y, predictions_train)` after `estimator_train` and `estimator_test` have been assigned; the predictions are a matrix with two columns. -/
  fit : Option ε → Option ε → List D → List ℤ → Option (List (List ℝ)) → Except Err σ
  /-- `predict(X, predictions_test)`. -/
  predict : σ → List D → Option (List (List ℝ)) → Except Err (List Fl)

/-- `np.array([1 - preds[:, i], preds[:, i]]).T`, or no predictions. -/
noncomputable def binPreds (preds : Option (List (List ℝ))) (i : ℕ) : Except Err (Option (List (List ℝ))) :=
  match preds with
  | none => .ok none
  | some m => (item m i).map fun c => some [c.map fun v => 1 - v, c]

/-- `estimator.estimators_[i]`, or None. -/
def estAt (ests : Option (List ε)) (i : ℕ) : Except Err (Option ε) :=
  match ests with
  | none => .ok none
  | some l => (item l i).map some

/-- Fitting the `i`-th copy of the base quantifier (multiclass.py:138-139 and 155-168, ordinal.py:141-142 and 159-174). -/
noncomputable def fitCopy (Q : BinQuant D ε σ) (estTrain estTest : Option (List ε)) (X : List D) (yBin : List (List ℤ)) (preds : Option (List (List ℝ))) (i : ℕ) : Except Err σ :=
  if Q.usesClassifiers then do
    let e1 ← estAt estTrain i
    let e2 ← estAt estTest i
    let p ← binPreds preds i
    let yi ← item yBin i
    Q.fit e1 e2 X yi p
  else do
    let yi ← item yBin i
    Q.fit none none X yi none

/-- `OneVsRestQuantifier.fit` (multiclass.py:96-169): `classes_` and `quantifiers_`. -/
noncomputable def ovrFit [LinearOrder α] (Q : BinQuant D ε σ) (estTrain estTest : Option (List ε)) (X : List D) (y : List α) (preds : Option (List (List ℝ))) :
    Except Err (List α × List σ) :=
  let classes := npUnique y
  let yBin := lbTransform 0 1 classes y
  if Q.usesClassifiers && Q.needsTrain && estTrain.isNone && preds.isNone then .error .valueError
  else do
    let qs ← (List.range classes.length).mapM fun i => fitCopy Q estTrain estTest X yBin preds i
    return (classes, qs)

/-- The predictions given to the `i`-th copy: none if the base quantifier does not use classifiers. -/
noncomputable def askPreds (Q : BinQuant D ε σ) (preds : Option (List (List ℝ))) (i : ℕ) : Except Err (Option (List (List ℝ))) :=
  if Q.usesClassifiers then binPreds preds i else .ok none

/-- `quantifiers_[i].predict(X, ...)[1]` (multiclass.py:187-198, ordinal.py:234-245). -/
noncomputable def askCopy (Q : BinQuant D ε σ) (qs : List σ) (X : List D) (preds : Option (List (List ℝ))) (i : ℕ) : Except Err Fl := do
  let p ← askPreds Q preds i
  let s ← item qs i
  let l ← Q.predict s X p
  item l 1

open Classical in
/-- The last step of `OneVsRestQuantifier.predict` (multiclass.py:200-201). -/
noncomputable def ovrNormalize (l : List Fl) : List Fl := if (0 : Fl) < l.sum then l.map (· / l.sum) else l

/-- `OneVsRestQuantifier.predict` (multiclass.py:171-203). -/
noncomputable def ovrPredict (Q : BinQuant D ε σ) (f : List α × List σ) (X : List D) (preds : Option (List (List ℝ))) : Except Err (List Fl) := do
  let l ← (List.range f.1.length).mapM fun i => askCopy Q f.2 X preds i
  return ovrNormalize l

/-- `FrankAndHallQuantifier.fit` (ordinal.py:98-175). -/
noncomputable def fhqFit [LinearOrder α] (Q : BinQuant D ε σ) (estTrain estTest : Option (List ε)) (X : List D) (y : List α) (preds : Option (List (List ℝ))) :
    Except Err (List α × List σ) := do
  let classes := npUnique y
  let yBin ← fhTransform 0 1 classes y
  if Q.usesClassifiers && Q.needsTrain && estTrain.isNone && preds.isNone then .error .valueError
  else do
    let qs ← (List.range (classes.length - 1)).mapM fun i => fitCopy Q estTrain estTest X yBin preds i
    return (classes, qs)

section
variable {β : Type*} [LT β] [DecidableRel ((· < ·) : β → β → Prop)]

/-- Left to right corrections (ordinal.py:313-316): an entry smaller than its predecessor, as corrected, is replaced by it. -/
def raiseFrom : β → List β → List β
  | _, [] => []
  | prev, x :: xs =>
    let v := if x < prev then prev else x
    v :: raiseFrom v xs

/-- The whole pass from left to right. -/
def raiseAll : List β → List β
  | [] => []
  | x :: xs => x :: raiseFrom x xs

/-- Right to left corrections (ordinal.py:318-321): an entry greater than its successor, as corrected, is replaced by it. -/
def lowerAll : List β → List β
  | [] => []
  | x :: xs =>
    match lowerAll xs with
    | [] => [x]
    | z :: zs => (if z < x then z else x) :: z :: zs

end

/-- `np.all(prevalences[1:] >= prevalences[:-1])` (ordinal.py:308). -/
def isAsc {β : Type*} [LE β] : List β → Prop
  | x :: y :: l => x ≤ y ∧ isAsc (y :: l)
  | _ => True

open Classical in
/-- `FrankAndHallQuantifier.check_and_correct_prevalences_asc` (ordinal.py:266-323). -/
noncomputable def correctAsc (l : List Fl) : List Fl :=
  if isAsc l then l else List.zipWith (fun a b => (a + b) / Fl.fin 2) (raiseAll l) (lowerAll l)

/-- The loop over the classes (ordinal.py:256-261); `done` are the prevalences computed so far. -/
noncomputable def fhqLoop (done : List Fl) : List Fl → List Fl
  | [] => done
  | pLeft :: rest => fhqLoop (done ++ [(pLeft - done.sum).clip01]) rest

/-- From corrected left-group prevalences to class prevalences (ordinal.py:252-263). -/
noncomputable def fhqClasses : List Fl → Except Err (List Fl)
  | [] => .error .indexError
  | l0 :: rest => .ok (let p := fhqLoop [l0] rest; p ++ [1 - p.sum])

/-- `FrankAndHallQuantifier.predict` (ordinal.py:177-264). -/
noncomputable def fhqPredict (Q : BinQuant D ε σ) (f : List α × List σ) (X : List D) (preds : Option (List (List ℝ))) : Except Err (List Fl) := do
  let l ← (List.range (f.1.length - 1)).mapM fun i => askCopy Q f.2 X preds i
  fhqClasses (correctAsc l)

end Verif.Model
