import Verif.Model.CC

/-!
# Model of `quantificationlib/estimators/weighted_knn.py`

The search for neighbours (`KNeighborsClassifier.kneighbors`) is not modelled: the model takes the positions it returns. They are positions of training examples,
so they are given as elements of `Fin y.length`.
-/

namespace Verif.Model

variable {α : Type*}

/-- `PWK.fit` (weighted_knn.py:94-112): ones, overwritten class by class. -/
noncomputable def pwkWeights [LinearOrder α] (y : List α) : Fin y.length → ℝ :=
  (npUnique y).foldl (fun w c i => if y[i] = c then 1 - (y.count c : ℝ) / y.length else w i) fun _ => 1

/-- `np.sum(weights_[neigh_ind[i, kneigh_classes == cls]])` (weighted_knn.py:152); also the `counts` of scikit-learn's `weighted_mode`. -/
noncomputable def classWeight [DecidableEq α] (y : List α) (w : Fin y.length → ℝ) (neigh : List (Fin y.length)) (c : α) : ℝ :=
  ((neigh.filter fun i => y[i] = c).map w).sum

open Classical in
/-- `normalizer[normalizer == 0.0] = 1.0` (weighted_knn.py:156). -/
noncomputable def nonzero (s : ℝ) : ℝ := if s = 0 then 1 else s

/-- One row of `PWK.predict_proba` (weighted_knn.py:133-159). -/
noncomputable def pwkProba [LinearOrder α] (y : List α) (neigh : List (Fin y.length)) : Fin (npUnique y).length → ℝ :=
  let w := pwkWeights y
  let s := ∑ j : Fin (npUnique y).length, classWeight y w neigh (npUnique y)[j]
  fun j => classWeight y w neigh (npUnique y)[j] / nonzero s

open Classical in
/-- One step of scikit-learn's `weighted_mode`: `np.where(counts > oldcounts, score, oldmostfreq)` and `np.maximum(counts, oldcounts)`. -/
noncomputable def modeStep (f : α → ℝ) (s : α × ℝ) (c : α) : α × ℝ := (if s.2 < f c then c else s.1, max (f c) s.2)

/-- scikit-learn's `weighted_mode` along a row, with the given sorted `scores`; `zero` is the label `0.0` it starts from. -/
noncomputable def weightedMode (zero : α) (f : α → ℝ) (scores : List α) : α := (scores.foldl (modeStep f) (zero, 0)).1

/-- `PWK.predict` (weighted_knn.py:114-131), for the neighbours of every example of the bag: the scores are the labels that occur in any row. Simplification:
`weighted_mode` returns floats, which compare equal to the integer labels. -/
noncomputable def pwkPredict [LinearOrder α] (zero : α) (y : List α) (bag : List (List (Fin y.length))) : List α :=
  let scores := npUnique (bag.flatten.map fun i => y[i])
  bag.map fun neigh => weightedMode zero (classWeight y (pwkWeights y) neigh) scores

end Verif.Model
