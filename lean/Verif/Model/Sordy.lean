import Verif.Model.Search

/-!
# Model of `quantificationlib/binary/emd.py` (SORDy) and `quantificationlib/binary/quantiles.py` (QUANTy)

`sort` stands for `np.argsort` followed by indexing: it returns the list of pairs ordered by score; the
order of ties is left open. Labels are integers, since the code adds 1 to the largest label. The part of
`fit`/`predict` inherited from `UsingClassifiers` is modelled in `Model/Base.lean`; here the column of
positive probabilities is an argument.
-/

namespace Verif.Model

/-- `train_distrib_`, `train_labels_` and `classes_` of SORDy (emd.py:144-153). -/
structure SordyFit where
  classes : List ℤ
  train : List (ℝ × ℤ)

/-- `SORDy.fit` (emd.py:119-158) given the labels and the probabilities of the positive class. -/
def sordyFit (sort : List (ℝ × ℤ) → List (ℝ × ℤ)) (y : List ℤ) (probs : List ℝ) : Except Err SordyFit :=
  if (npUnique y).length > 2 then .error .typeError
  else .ok ⟨npUnique y, sort (probs.zip y)⟩

/-- `union_distrib_` and `union_labels_` (emd.py:202-209): the label of the testing examples is one more than
the largest class. -/
def sordyUnion (sort : List (ℝ × ℤ) → List (ℝ × ℤ)) (f : SordyFit) (test : List ℝ) : List (ℝ × ℤ) :=
  sort (f.train ++ test.map fun u => (u, f.classes.max?.getD 0 + 1))

/-- The distance minimised by SORDy: `sord(compute_sord_weights(p), union_distrib_)` (emd.py:214-217). Not a
number stands for the exception of an empty union. -/
noncomputable def sordyLoss (classes : List ℤ) (union : List (ℝ × ℤ)) (p : ℝ) : Fl :=
  match sord (union.map fun ul => (ul.1, sordWeight p classes (union.map Prod.snd) ul.2)) with
  | .ok v => Fl.fin v
  | .error _ => Fl.nan

/-- `SORDy.predict` (emd.py:160-221): the vector of prevalences. `np.max` of an empty array is a ValueError. -/
noncomputable def sordyPredict (sort : List (ℝ × ℤ) → List (ℝ × ℤ)) (tol : ℝ) (f : SordyFit) (test : List ℝ) :
    Except Err (Fin 2 → ℝ) :=
  let union := sordyUnion sort f test
  if union = [] then .error .valueError
  else (goldenSectionSearch (sordyLoss f.classes union) tol 0 1).map fun r => ![1 - r.2, r.2]

end Verif.Model
