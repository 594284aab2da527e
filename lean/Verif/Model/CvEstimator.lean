import Verif.Model.Eoq

/-!
# Model of `quantificationlib/estimators/cross_validation.py`

`CV_estimator`. The base estimator is arbitrary (`cross_validate` clones it for every fold, so that models are independent); its `predict_proba` works example by
example. Splitters are arbitrary too, with a state `S`: those that shuffle without a fixed seed give other folds every time `split` is called.

Not modelled: `check_cv`, `groups`, `fit_params`, the scores computed by `cross_validate`, empty testing sets (scikit-learn estimators reject them).
-/

namespace Verif.Model

variable {M D α S : Type}

/-- The base estimator: training, and the probabilities it gives to an example (a column per class in its own training set). -/
structure CvOps (M D α : Type) where
  fit : List D → List α → M
  proba : M → D → List ℝ

/-- A fold: training and testing indexes. -/
abbrev Fold := List ℕ × List ℕ

/-- `cv.split(X, y)`: a splitter gives the folds and changes its state. -/
abbrev Splitter (S : Type) := S → S × List Fold

/-- What `fit` leaves in the object (cross_validation.py:150-160). -/
structure CvFit (M D α : Type) where
  estimators : List M
  X : List D
  y : List α
  classes : List α

/-- Training the model of a fold (within `cross_validate`). -/
def cvTrainFold (ops : CvOps M D α) (X : List D) (y : List α) (f : Fold) : Except Err M := do
  let rows ← f.1.mapM (item X)
  let ys ← f.1.mapM (item y)
  pure (ops.fit rows ys)

/-- `CV_estimator.fit` (cross_validation.py:138-161). -/
def cvFit [LinearOrder α] (split : Splitter S) (ops : CvOps M D α) (s : S) (X : List D) (y : List α) : S × Except Err (CvFit M D α) :=
  ((split s).1, ((split s).2.mapM (cvTrainFold ops X y)).map fun est => ⟨est, X, y, npUnique y⟩)

section
variable {k : ℕ}

/-- `preds[r, j, :] = v`. -/
def cvWrite (arr : List (List (Fin k → ℝ))) (r j : ℕ) (v : Fin k → ℝ) : Except Err (List (List (Fin k → ℝ))) :=
  match arr[r]? with
  | none => .error .indexError
  | some rows => if j < rows.length then .ok (arr.set r (rows.set j v)) else .error .indexError

/-- `preds[r, test_index, :] = P`, example by example; `g j` is the row of `P` for example `j`. -/
def cvWriteAll (g : ℕ → Except Err (Fin k → ℝ)) (r : ℕ) : List ℕ → List (List (Fin k → ℝ)) → Except Err (List (List (Fin k → ℝ)))
  | [], arr => .ok arr
  | j :: t, arr => (g j >>= cvWrite arr r j) >>= cvWriteAll g r t

/-- An iteration over a fold (cross_validation.py:276-277): the repetition has to exist. -/
def cvFold (g : ℕ → Except Err (Fin k → ℝ)) (r : ℕ) (test : List ℕ) (arr : List (List (Fin k → ℝ))) : Except Err (List (List (Fin k → ℝ))) :=
  if r < arr.length then cvWriteAll g r test arr else .error .indexError

/-- The loop over the folds (cross_validation.py:273-281) from fold `i` on; `r` is `n_rep` and `c` is `n_preds`. -/
def cvLoop (n : ℕ) (g : ℕ → ℕ → Except Err (Fin k → ℝ)) : ℕ → List Fold → List (List (Fin k → ℝ)) → ℕ → ℕ → Except Err (List (List (Fin k → ℝ)))
  | _, [], arr, _, _ => .ok arr
  | i, f :: fs, arr, r, c => cvFold (g i) r f.2 arr >>= fun arr' => if c + f.2.length = n then cvLoop n g (i + 1) fs arr' (r + 1) 0 else cvLoop n g (i + 1) fs arr' r (c + f.2.length)

/-- The row that the model of fold `i` gives to example `j` of `X`, stored in an array with `k` columns. -/
def cvRow (k : ℕ) (ops : CvOps M D α) (est : List M) (X : List D) (i j : ℕ) : Except Err (Fin k → ℝ) := do
  let m ← item est i
  let x ← item X j
  storeRow k (ops.proba m x)

/-- The predictions over the training set (cross_validation.py:265-281); `folds` and `folds'` are given by the two calls to `split`. -/
def cvTrain (k : ℕ) (ops : CvOps M D α) (fit : CvFit M D α) (X : List D) (folds folds' : List Fold) : Except Err (List (List (Fin k → ℝ))) :=
  if X.length = 0 then .error .zeroDivisionError
  else cvLoop X.length (cvRow k ops fit.estimators X) 0 folds' (List.replicate ((folds.map fun f => f.2.length).sum / X.length) (List.replicate X.length 0)) 0 0

/-- The predictions over a testing set (cross_validation.py:283-286). -/
def cvTest (k : ℕ) (ops : CvOps M D α) (fit : CvFit M D α) (X : List D) : Except Err (List (List (Fin k → ℝ))) :=
  fit.estimators.mapM fun m => X.mapM fun x => storeRow k (ops.proba m x)

/-- `CV_estimator._predict_proba` (cross_validation.py:244-288). -/
def cvRaw [DecidableEq D] (k : ℕ) (split : Splitter S) (ops : CvOps M D α) (fit : CvFit M D α) (s : S) (X : List D) : S × Except Err (List (List (Fin k → ℝ))) :=
  if X = fit.X then ((split (split s).1).1, cvTrain k ops fit X (split s).2 (split (split s).1).2) else (s, cvTest k ops fit X)

/-- `np.mean(preds, axis=0)`, for at least one row of predictions. -/
noncomputable def cvMean (n : ℕ) (arr : List (List (Fin k → ℝ))) : List (Fin k → ℝ) := (List.range n).map fun j => meanRows (arr.map fun rows => rows.getD j 0)

/-- `CV_estimator.predict_proba` (cross_validation.py:212-242). -/
noncomputable def cvPredictProba [DecidableEq D] (k : ℕ) (split : Splitter S) (ops : CvOps M D α) (averaged : Bool) (fit : CvFit M D α) (s : S) (X : List D) : S × Except Err (List (Fin k → ℝ)) :=
  if fit.estimators.length = 0 then (s, .error .notFittedError)
  else ((cvRaw k split ops fit s X).1, (cvRaw k split ops fit s X).2.map fun arr => if averaged then cvMean X.length arr else arr.flatten)

/-- `le_.inverse_transform` of the position of the first maximum. -/
noncomputable def cvLabel (classes : List α) (row : Fin k → ℝ) : Except Err α :=
  match npArgmax row with
  | none => .error .valueError
  | some i => item classes i

/-- The votes for every class (cross_validation.py:196-198) that an example gets from its rows of probabilities. -/
noncomputable def cvVotes (rows : List (Fin k → ℝ)) : Fin k → ℝ := fun i => (rows.countP fun row => decide (npArgmax row = some i) : ℕ)

/-- `CV_estimator.predict` (cross_validation.py:163-210). -/
noncomputable def cvPredict [DecidableEq D] (k : ℕ) (split : Splitter S) (ops : CvOps M D α) (averaged soft : Bool) (fit : CvFit M D α) (s : S) (X : List D) : S × Except Err (List α) :=
  if fit.estimators.length = 0 then (s, .error .notFittedError)
  else ((cvRaw k split ops fit s X).1, (cvRaw k split ops fit s X).2 >>= fun arr =>
    if averaged then
      if soft then (cvMean X.length arr).mapM (cvLabel fit.classes)
      else ((List.range X.length).map fun j => cvVotes (arr.map fun rows => rows.getD j 0)).mapM (cvLabel fit.classes)
    else arr.flatten.mapM (cvLabel fit.classes))

end

end Verif.Model
