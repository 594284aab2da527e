import Verif.Model.Decomp
import Verif.Model.Search

/-!
# Model of `quantificationlib/estimators/frank_and_hall.py`

The binary estimators are given by their `fit` (which may depend on the position, because of `params_fit`) and their `predict_proba`, example by example. `deepcopy` makes the copies independent, so every
one is the result of its own `fit`, whatever `n_jobs`.

Simplifications: the estimator is given (None raises ValueError) and has `predict_proba`; its predictions are one row per example; labels have a type that LabelBinarizer accepts; messages are not modelled.
-/

namespace Verif.Model

/-- A base estimator. -/
structure FhOps (M D : Type) where
  /-- Fitting the copy of position `pos_class` to the data and binary labels (frank_and_hall.py:93-119). -/
  fit : ℕ → List D → List ℤ → M
  /-- The row of `predict_proba` of an example: label 0 (right group) and label 1 (left group). -/
  proba : M → D → List ℝ

/-- `classes_` and `estimators_`. -/
structure FhFit (M α : Type) where
  classes : List α
  estimators : List M

section
variable {M D α : Type} {n : ℕ}

/-- `FrankAndHallClassifier.fit` (frank_and_hall.py:121-164), also of `FrankAndHallMonotoneClassifier` (363-384). -/
def fhFit [LinearOrder α] (ops : FhOps M D) (X : List D) (y : List α) : Except Err (FhFit M α) := do
  if y = [] then .error .valueError
  else
    let classes := npUnique y
    let yBin ← fhTransform 0 1 classes y
    if X.length ≠ y.length then .error .valueError
    else
      let ests ← (List.range (classes.length - 1)).mapM fun i => (item yBin i).map (ops.fit i X)
      pure ⟨classes, ests⟩

/-- A row of `__compute_binary_proba`: the probability of the left group for every estimator. -/
def fhLeftRow (ops : FhOps M D) (f : FhFit M α) (x : D) : Except Err (List ℝ) := (List.range (f.classes.length - 1)).mapM fun i => item f.estimators i >>= fun m => item (ops.proba m x) 1

/-- `FrankAndHallClassifier.__compute_binary_proba` (frank_and_hall.py:259-289). -/
def fhBinary (ops : FhOps M D) (f : FhFit M α) (X : List D) : Except Err (List (List ℝ)) :=
  if f.estimators.length = 0 then .error .indexError else X.mapM (fhLeftRow ops f)

/-- A row of `FrankAndHallClassifier.predict_proba` (frank_and_hall.py:243-255) from `l i`, the probability of the left group for estimator `i`. -/
noncomputable def fhRow (n : ℕ) (l : ℕ → ℝ) : Fin n → ℝ := fun c =>
  if (c : ℕ) = n - 1 then 1 - l (n - 1 - 1)
  else if (c : ℕ) = 0 then l 0
  else 1 - l (c - 1) * l c

/-- `FrankAndHallClassifier.predict_proba` (frank_and_hall.py:193-257). -/
noncomputable def fhPredictProba (n : ℕ) (ops : FhOps M D) (f : FhFit M α) (X : List D) : Except Err (List (Fin n → ℝ)) := (fhBinary ops f X).map fun rows => rows.map fun l => fhRow n fun i => l.getD i 0

/-- `self.classes_[np.argmax(probs)]` for a row of probabilities. -/
noncomputable def fhLabel (classes : List α) (row : Fin n → ℝ) : Except Err α :=
  match npArgmax row with
  | none => .error .valueError
  | some i => item classes i

/-- `FrankAndHallClassifier.predict` (frank_and_hall.py:166-191). -/
noncomputable def fhPredict (ops : FhOps M D) (f : FhFit M α) (X : List D) : Except Err (List α) := fhPredictProba f.classes.length ops f X >>= fun rows => rows.mapM (fhLabel f.classes)

/-! ## FrankAndHallMonotoneClassifier -/

/-- `np.nonzero(ascending is False)[0]` (frank_and_hall.py:538): `ascending` is an array, which is not the object `False`, so `ascending is False` is `False` and there are no nonzero positions. (Releases of
NumPy from 2.1 on raise an error here.) -/
def fhmToCorrect (_rows : List (List ℝ)) : List ℕ := []

/-- `FrankAndHallMonotoneClassifier.__check_and_correct_probabilities_asc` (frank_and_hall.py:493-558). -/
noncomputable def fhmCorrect (rows : List (List ℝ)) : List (List ℝ) :=
  if (fhmToCorrect rows).length = 0 then rows
  else rows.mapIdx fun i l => if i ∈ fhmToCorrect rows then List.zipWith (fun a b => (a + b) / 2) (raiseAll l) (lowerAll l) else l

/-- `np.clip(x, 0, 1)`. -/
noncomputable def clipUnit (x : ℝ) : ℝ := min (max x 0) 1

/-- The loop over the classes (frank_and_hall.py:483-488); `done` are the probabilities computed so far. -/
noncomputable def fhmLoop (done : List ℝ) : List ℝ → List ℝ
  | [] => done
  | pLeft :: rest => fhmLoop (done ++ [clipUnit (pLeft - done.sum)]) rest

/-- A row of `predict_proba` (frank_and_hall.py:476-490) from corrected left-group probabilities; there is at least one. -/
noncomputable def fhmRow : List ℝ → List ℝ
  | [] => []
  | p0 :: rest => fhmLoop [p0] rest ++ [1 - (fhmLoop [p0] rest).sum]

/-- `FrankAndHallMonotoneClassifier.predict_proba` (frank_and_hall.py:416-491). -/
noncomputable def fhmPredictProba (ops : FhOps M D) (f : FhFit M α) (X : List D) : Except Err (List (List ℝ)) := (fhBinary ops f X).map fun rows => (fhmCorrect rows).map fhmRow

/-! ## FrankAndHallTreeClassifier -/

/-- `QTree` (frank_and_hall.py:890-946); a leaf is a tree without subtrees. -/
inductive QTree where
  | leaf : QTree
  | node : ℕ → QTree → QTree → QTree

open Classical in
/-- The loop of `np.argmin` over floats: `i` is the position of the next element and `b` the best so far, at position `p`. A NaN ends the search. -/
noncomputable def argminLoop : ℕ → ℕ → Fl → List Fl → ℕ
  | _, p, _, [] => p
  | i, p, b, x :: xs => if b = Fl.nan then p else if b ≤ x then argminLoop (i + 1) p b xs else argminLoop (i + 1) i x xs

/-- `np.argmin` of a nonempty array. -/
noncomputable def npArgmin : List Fl → ℕ
  | [] => 0
  | x :: xs => argminLoop 1 0 x xs

theorem argminLoop_lt (i p : ℕ) (b : Fl) (xs : List Fl) (h : p < i) : argminLoop i p b xs < i + xs.length := by
  induction xs generalizing i p b with
  | nil => simpa [argminLoop] using h
  | cons x xs ih =>
    unfold argminLoop
    rw [List.length_cons]
    split_ifs
    · omega
    · have := ih (i + 1) p b (by omega); omega
    · have := ih (i + 1) i x (by omega); omega

theorem npArgmin_lt (xs : List Fl) (h : xs ≠ []) : npArgmin xs < xs.length := by
  cases xs with
  | nil => exact absurd rfl h
  | cons x xs =>
    show argminLoop 1 0 x xs < (x :: xs).length
    have := argminLoop_lt 1 0 x xs (by omega)
    rw [List.length_cons]
    omega

/-- `__build_recursive_tree(scores, first, last)` (frank_and_hall.py:810-833), with `count = last - first + 1` scores in the range. -/
noncomputable def qtBuild (scores : ℕ → Fl) (first count : ℕ) : QTree :=
  if h : count = 0 then .leaf
  else
    let k := npArgmin ((List.range' first count).map scores)
    have hk : k < count := by
      have := npArgmin_lt ((List.range' first count).map scores) (by simpa using h)
      simpa using this
    .node (first + k) (qtBuild scores first k) (qtBuild scores (first + k + 1) (count - k - 1))
termination_by count

/-- `np.mean(predictions_left, axis=0)[i]`. -/
noncomputable def fhMeanLeft (rows : List (List ℝ)) (i : ℕ) : ℝ := (rows.map fun l => l.getD i 0).sum / rows.length

/-- `__generate_tree` (frank_and_hall.py:765-808): `perf p_true p_pred` is the performance measure; `num_left` counts the examples labelled 0. -/
noncomputable def fhtGenerate [LinearOrder α] (perf : ℝ → ℝ → Fl) (ops : FhOps M D) (f : FhFit M α) (X : List D) (y : List α) : Except Err QTree := do
  let rows ← fhBinary ops f X
  let scores ← (List.range (f.classes.length - 1)).mapM fun i => do
    let yBin ← fhTransform 0 1 f.classes y
    let c ← item yBin i
    pure (perf ((c.countP fun v => decide (v = 0) : ℕ) / (y.length : ℝ)) (fhMeanLeft rows i))
  pure (qtBuild (fun i => scores.getD i 0) 0 (f.classes.length - 1))

/-- `FrankAndHallTreeClassifier.fit` (frank_and_hall.py:660-683). -/
noncomputable def fhtFit [LinearOrder α] (perf : ℝ → ℝ → Fl) (ops : FhOps M D) (X : List D) (y : List α) : Except Err (FhFit M α × QTree) := do
  let f ← fhFit ops X y
  let t ← fhtGenerate perf ops f X y
  pure (f, t)

/-- `np.setdiff1d(a, b)`. -/
def npSetdiff [LinearOrder α] (a b : List α) : List α := (npUnique a).filter fun c => decide (c ∉ b)

/-- `for cl in group: probs[classes.index(cl)] *= v` (frank_and_hall.py:878-884). -/
noncomputable def fhtMul [DecidableEq α] (classes : List α) (v : ℝ) : List α → List ℝ → Except Err (List ℝ)
  | [], probs => .ok probs
  | cl :: group, probs => if cl ∈ classes then fhtMul classes v group (probs.modify (classes.idxOf cl) (· * v)) else .error .valueError

/-- `__compute_probabilities` (frank_and_hall.py:835-887) for an example. -/
noncomputable def fhtCompute [LinearOrder α] (ops : FhOps M D) (f : FhFit M α) (x : D) : QTree → List α → List ℝ → Except Err (List ℝ)
  | .leaf, _, probs => .ok probs
  | .node pos l r, sub, probs => do
    let m ← item f.estimators pos
    let left ← item (ops.proba m x) 1
    let right ← item (ops.proba m x) 0
    let subL := if sub.length = 0 then f.classes.take (pos + 1) else npSetdiff sub (f.classes.drop (pos + 1))
    let subR := if sub.length = 0 then f.classes.drop (pos + 1) else npSetdiff sub (f.classes.take (pos + 1))
    let p1 ← fhtMul f.classes left subL probs
    let p2 ← fhtMul f.classes right subR p1
    let p3 ← fhtCompute ops f x l subL p2
    fhtCompute ops f x r subR p3

/-- `FrankAndHallTreeClassifier.predict_proba` (frank_and_hall.py:709-763). -/
noncomputable def fhtPredictProba [LinearOrder α] (ops : FhOps M D) (f : FhFit M α × QTree) (X : List D) : Except Err (List (List ℝ)) :=
  X.mapM fun x => fhtCompute ops f.1 x f.2 [] (List.replicate f.1.classes.length 1)

end

end Verif.Model
