import Verif.Model.Optimization

/-!
# Model of `quantificationlib/multiclass/energy.py`

`EDy`, `EDX` and `CvMy` from the point where the (train and test) predictions are known; how they
are obtained is `UsingClassifiers`, modelled in `Verif.Model.Base`. Not modelled: verbose
printing, `check_array`.
-/

namespace Verif.Model

variable {α P : Type*} {n k : ℕ}

/-- `rows[y == cls]` (energy.py:171, 425, 525) for arrays of equal length. -/
def selectRows [DecidableEq α] (y : List α) (rows : List P) (c : α) : List P :=
  ((y.zip rows).filter fun t => t.1 = c).map Prod.snd

/-- What `fit` leaves in `train_distrib_`, `K_` and `G_, C_, b_`. -/
structure EDFit (P : Type*) (n : ℕ) where
  train : Fin (n + 1) → List P
  K : Matrix (Fin (n + 1)) (Fin (n + 1)) ℝ
  par : QPParams n (n + 1)

/-- `EDy.fit` (energy.py:136-179) after the predictions are known, with `y = y_ext_`, and
`EDX.fit` (energy.py:502-533). `classes` are the sorted labels. `none` when the loop of
`nearest_pd` has not finished within `fuel` iterations. -/
noncomputable def edFit [DecidableEq α] (la : LinAlg n) (fuel : ℕ) (d : P → P → ℝ) (classes : Fin (n + 1) → α)
    (y : List α) (rows : List P) : Option (EDFit P n) :=
  let train := fun i => selectRows y rows (classes i)
  let K := edK d train
  (computeEdParamTrain la fuel K).map fun par => ⟨train, K, par⟩

/-- `EDy.predict` (energy.py:181-225) and `EDX.predict` (energy.py:535-564). -/
noncomputable def edPredict (qp : QPSolver) (d : P → P → ℝ) (f : EDFit P n) (test : List P) :
    Except Err (Fin (n + 1) → ℝ) :=
  solveEd qp f.par (edA f.K (edKt d f.train test))

/-- `scipy.stats.rankdata(col)` at value `v` (energy.py:415): ties get the average rank. -/
noncomputable def rankdata (col : List ℝ) (v : ℝ) : ℝ :=
  open Classical in
  (col.countP fun u => decide (u < v) : ℕ) + ((col.countP fun u => decide (u = v) : ℕ) + 1) / 2

/-- One row of `Hn` (energy.py:412-415): every column replaced by its ranks. -/
noncomputable def rankRow (all : List (Fin k → ℝ)) (row : Fin k → ℝ) : Fin k → ℝ :=
  fun i => rankdata (all.map fun r => r i) (row i)

/-- `CvMy.predict` (energy.py:375-445): rank the training and testing predictions together, then
build and solve the energy problem on the ranks. -/
noncomputable def cvmPredict [DecidableEq α] (la : LinAlg n) (fuel : ℕ) (qp : QPSolver)
    (d : (Fin k → ℝ) → (Fin k → ℝ) → ℝ) (classes : Fin (n + 1) → α) (y : List α) (ptrain ptest : List (Fin k → ℝ)) :
    Option (Except Err (Fin (n + 1) → ℝ)) :=
  let all := ptrain ++ ptest
  let Htr := ptrain.map (rankRow all)
  let Htst := ptest.map (rankRow all)
  (edFit la fuel d classes y Htr).map fun f => edPredict qp d f Htst

end Verif.Model
