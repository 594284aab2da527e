import Verif.Model.Solve
import Verif.Model.Search
import Verif.Model.MetricsMulti

/-!
# Model of `quantificationlib/binary/quantiles.py` (QUANTy)

As in `Verif.Model.Sordy`, `sort` stands for `np.argsort` of the scores followed by indexing scores and labels, with the order of ties left open, and the column of positive probabilities is an argument: the part
inherited from `UsingClassifiers` is in `Verif.Model.Base`. `y` are the labels of the predictions (`y_ext_`).
-/

namespace Verif.Model

variable {L : Type*}

/-- `classes_`, `train_distrib_` and `train_labels_`. -/
structure QuantyFit (L : Type*) where
  classes : List L
  train : List (ℝ × L)

/-- `QUANTy.fit` (quantiles.py:142-183). -/
def quantyFit [LinearOrder L] (sort : List (ℝ × L) → List (ℝ × L)) (y : List L) (probs : List ℝ) : Except Err (QuantyFit L) :=
  if (npUnique y).length > 2 then .error .typeError
  else .ok ⟨npUnique y, sort (probs.zip y)⟩

/-- The vector of quantiles that `compute_quantiles` returns for the training set (quantiles.py:232-236), with the keyword arguments given by `predict`. -/
noncomputable def quantyMixture [DecidableEq L] (n : ℕ) (c0 c1 : L) (train : List (ℝ × L)) (p : ℝ) : Fin n → Fl :=
  match computeQuantiles (some p) train.length (fun i => (train.map Prod.fst).getD i 0) n (fun i => (train.map Prod.snd).getD i c0) c0 c1 with
  | .ok q => q
  | .error _ => fun _ => Fl.nan  -- unreachable: the quantiles of the bag raise the error first

/-- `l2` (metrics/multiclass.py:158-179) on vectors of quantiles. -/
noncomputable def l2Quantiles {n : ℕ} (a b : Fin n → Fl) : Fl := (∑ j, (a j - b j).sq).sqrt

/-- `QUANTy.predict` (quantiles.py:185-240) as an object that keeps the mixtures of `global_search`: the sorted probabilities of the bag, their quantiles, and the search; `classes[1]` is an IndexError when there is
only one class. The quantiles of an empty bag are NaN, which the metrics of the library reject (ValueError of `check_array`); simplification: other distances do not get to see them. -/
noncomputable def quantyQ [DecidableEq L] (n : ℕ) (dist : (Fin n → Fl) → (Fin n → Fl) → Fl) (tol : ℝ) (d : L) : MixQuantifier (QuantyFit L) (List ℝ) (Fin n → Fl) (Fin n → Fl) where
  dist := dist
  mix f p := quantyMixture n (f.classes.getD 0 d) (f.classes.getD 1 d) f.train p
  test f bag :=
    match computeQuantiles none bag.length (fun i => (bag.mergeSort (fun a b => decide (a ≤ b))).getD i 0) n (fun _ => d) d d with
    | .error e => .error e
    | .ok q => if f.classes.length < 2 then .error .indexError else if bag = [] then .error .valueError else .ok q
  tol := tol

/-- `QUANTy.predict`: the state and the vector of prevalences (`none` is the number 2, see `globalCore`). -/
noncomputable def quantyPredict [DecidableEq L] (n : ℕ) (dist : (Fin n → Fl) → (Fin n → Fl) → Fl) (tol : ℝ) (d : L) (s : MixState (QuantyFit L) (Fin n → Fl)) (bag : List ℝ) :
    MixState (QuantyFit L) (Fin n → Fl) × Except Err (Option (Fin 2 → ℝ)) :=
  let r := mixPredict (quantyQ n dist tol d) s bag
  (r.1, r.2.map fun p => p.map fun p => ![1 - p, p])

end Verif.Model
