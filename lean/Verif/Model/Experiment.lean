import Verif.Model.Pipeline
import Verif.Model.Bags
import Verif.Model.MetricsMulti
import Verif.Model.Decomp

/-!
# Model of the experiments in `examples/`

The scripts train a quantifier, generate testing bags with `PriorShift_BagGenerator`, and report for each bag the `mean_absolute_error` between the prevalences that the generator reports and the answer of the quantifier
(`examples/multiclass_quantifiers.py:155-191`, `examples/tutorial_example.py:58-73`). The same object answers for all the bags.

Simplifications: one repetition (`n_reps`) and one quantifier; the partition into training and testing set and `normalize` have been done; the results are a list instead of a column of a matrix.
-/

namespace Verif.Model

variable {σ D α G : Type} {k : ℕ}

/-- `a[indexes[:, n_bag], :]` (multiclass_quantifiers.py:163-187, tutorial_example.py:64): IndexError for a position that does not exist. -/
def rowsAt {β : Type} (l : List β) (idx : List ℕ) : Except Err (List β) := idx.mapM (item l)

/-- `X_test[indexes[:, n_bag], :]`, for `predict(X)` (multiclass_quantifiers.py:163-187). -/
def bagRows (X : List D) (idx : List ℕ) : Except Err (List D × Option (Preds α k)) := (rowsAt X idx).map fun r => (r, none)

/-- `predictions_test=preds[indexes[:, n_bag], :]`, with `X=None` (tutorial_example.py:62-71). -/
def bagPreds (p : Preds α k) (idx : List ℕ) : Except Err (List D × Option (Preds α k)) :=
  match p with
  | .crisp l => (rowsAt l idx).map fun r => ([], some (.crisp r))
  | .probs1 l => (rowsAt l idx).map fun r => ([], some (.probs1 r))
  | .probs l => (rowsAt l idx).map fun r => ([], some (.probs r))

/-- `check_array` on a vector (metrics/multiclass.py:20-52): ValueError unless all the entries are finite. -/
noncomputable def finiteEntries (l : List Fl) : Except Err (List ℝ) :=
  l.mapM fun x => match x with
    | .fin v => .ok v
    | _ => .error .valueError

/-- `mean_absolute_error(prev_true[:, n_bag], prev_pred)` (multiclass_quantifiers.py:190-191, tutorial_example.py:66, 72). `None` as an answer is not an array of numbers. -/
noncomputable def reportedError (prevTrue : List Fl) (answer : Option (List Fl)) : Except Err Fl :=
  match answer with
  | none => .error .valueError
  | some a => do
    let p ← finiteEntries prevTrue
    let q ← finiteEntries a
    callMetric (fun {n} => meanAbsoluteError (n := n)) p q

/-- The loop over the bags (multiclass_quantifiers.py:160-191, tutorial_example.py:61-73). `input` is what `predict` gets for the bag: the rows of `X_test`, or the rows of the predictions. -/
noncomputable def bagLoop (ops : EstOps σ D α k) (enc : Bool → α) (w : World σ D α) (o : UcObj α k) (input : List ℕ → Except Err (List D × Option (Preds α k))) :
    UcState o → List (List Fl × List ℕ) → Except Err (List Fl)
  | _, [] => .ok []
  | st, (prevTrue, idx) :: rest => do
    let x ← input idx
    let r := ucPredict ops enc w o st x.1 x.2
    let a ← r.2
    let e ← reportedError prevTrue a
    let es ← bagLoop ops enc w o input r.1 rest
    pure (e :: es)

/-- The experiment (multiclass_quantifiers.py:65-191, tutorial_example.py:43-73): `fit` on the training set, `generate_bags(X_test, y_test)` and the loop. `none` when `generate_bags` does not end within `fuel` iterations. -/
noncomputable def experiment [LinearOrder α] (ops : EstOps σ D α k) (enc : Bool → α) (w : World σ D α) (o : UcObj α k) (X : List D) (y : List α) (pt : Option (Preds α k)) (rng : Rng G) (fuel : ℕ) (gen : PriorGen G) (glob : G)
    (test : BagData α) (input : List ℕ → Except Err (List D × Option (Preds α k))) : Option (Except Err (List Fl)) :=
  let r := ucFit ops enc w o (ucNew o) X y pt
  match r.2.2 with
  | some e => some (.error e)
  | none =>
    (priorGenerate rng fuel gen glob test).map fun g =>
      match g.2.2 with
      | .error e => .error e
      | .ok b => bagLoop ops enc r.1 o input r.2.1 (b.prevs.zip b.idx)

end Verif.Model
