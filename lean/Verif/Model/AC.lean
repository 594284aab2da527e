import Verif.Model.CC
import Mathlib.LinearAlgebra.Matrix.NonsingularInverse

/-!
# Model of `quantificationlib/baselines/ac.py`

`AC` and `PAC`. The numerical solvers used when the matrix is singular (`solve_hd`, `solve_l2`,
`solve_l1`) are a parameter here; their problems are modelled in `Verif.Model.Optimization`.
-/

namespace Verif.Model

open Classical

variable {σ D α : Type*} {k : ℕ}

/-- `sklearn.metrics.confusion_matrix(y_true, y_pred, labels=classes)` (ac.py:161, knn.py:105,
ac_ordinal.py:152): entry `(i, j)` counts the positions with true label `classes[i]` and
predicted label `classes[j]`; pairs with an unknown label are dropped; arrays of different
length are a `ValueError`. -/
def confusionMatrix [DecidableEq α] (classes : List α) (yTrue yPred : List α) :
    Except Err (Fin classes.length → Fin classes.length → ℕ) :=
  if yTrue.length = yPred.length then
    .ok fun i j => (yTrue.zip yPred).count (classes[i], classes[j])
  else .error .valueError

/-- Row normalisation (ac.py:163): `cm.astype('float') / cm.sum(axis=1)[:, np.newaxis]`; a row
of zeros becomes NaN. -/
noncomputable def normalizeRows {n : ℕ} (cm : Fin n → Fin n → ℕ) : Fin n → Fin n → Fl :=
  fun i j => Fl.fin (cm i j : ℝ) / Fl.fin ((∑ l, cm i l : ℕ) : ℝ)

/-- What `fit` leaves in `classes_` and `cm_`. -/
structure ACFit (α : Type*) where
  classes : List α
  cm : Fin classes.length → Fin classes.length → Fl

/-- `AC.fit` (ac.py:131-174). The QP parameters `G_, C_, b_` (lines 166-167) are a function of
`cm_` and are modelled in `Verif.Model.Optimization`. -/
noncomputable def acFit [LinearOrder α] (ops : EstOps σ D α k) (enc : Bool → α) (w : World σ D α)
    (etrain etest : Option ℕ) (s : QState α k) (X : List D) (y : List α) (pt : Option (Preds α k)) :
    Except Err (ACFit α) :=
  match usingFit ops enc w ⟨etrain, etest, true, false⟩ s X y pt with
  | (_, _, some e) => .error e
  | (_, s', none) =>
    match s'.yExt, s'.predsTrain with
    | some ye, some (.crisp p) =>
      (confusionMatrix (npUnique y) ye p).map fun cm => ⟨npUnique y, normalizeRows cm⟩
    | _, _ => .error .typeError

/-- The two-class branch (ac.py:233-246, 484-498, knn.py:159-172): Forman's adjustment when
`|tpr - fpr| > 0.001`, the unadjusted estimate otherwise; then clipping to [0,1] and division
by the sum when the sum is positive. -/
noncomputable def binaryAdjust (cm : Fin 2 → Fin 2 → Fl) (p0 : Fin 2 → Fl) : Fin 2 → Fl :=
  let d := cm 1 1 - cm 0 1
  let prev : Fin 2 → Fl :=
    if Fl.fin (1/1000) < d.abs then
      let p := (p0 1 - cm 0 1) / d
      ![1 - p, p]
    else p0
  let clipped : Fin 2 → Fl := fun i => (prev i).clip01
  if Fl.fin 0 < ∑ i, clipped i then fun i => clipped i / ∑ i, clipped i else clipped

/-- `scipy.linalg.inv` in exact arithmetic: `ValueError` when an entry is not finite
(`check_finite`), `LinAlgError` when the matrix is singular. -/
noncomputable def scipyInv {n : ℕ} (M : Fin n → Fin n → Fl) : Except Err (Fin n → Fin n → Fl) :=
  if h : ∃ R : Matrix (Fin n) (Fin n) ℝ, M = fun i j => Fl.fin (R i j) then
    if h.choose.det = 0 then .error .linAlgError
    else .ok fun i j => Fl.fin (h.choose⁻¹ i j)
  else .error .valueError

/-- Names accepted by the `distance` argument (ac.py:258-268). -/
inductive Dist where
  | HD | L1 | L2 | other
  deriving DecidableEq, Repr

/-- The three numerical solvers as functions of `train_distrib` and `test_distrib`
(optimization.py:22-195). -/
structure Solvers where
  hd : ∀ {m n : ℕ}, (Fin m → Fin n → Fl) → (Fin m → Fl) → Fin n → Fl
  l1 : ∀ {m n : ℕ}, (Fin m → Fin n → Fl) → (Fin m → Fl) → Fin n → Fl
  l2 : ∀ {m n : ℕ}, (Fin m → Fin n → Fl) → (Fin m → Fl) → Fin n → Fl

/-- The branch for other numbers of classes (ac.py:248-268, 500-519): invert `cm_.T`, set
negative values to 0, divide by the sum; if the inversion raises `LinAlgError` call the solver
for the chosen distance. Any other exception propagates. -/
noncomputable def multiAdjust (sol : Solvers) (dist : Dist) {n : ℕ} (cm : Fin n → Fin n → Fl)
    (p0 : Fin n → Fl) : Except Err (Fin n → Fl) :=
  let cmT : Fin n → Fin n → Fl := fun i j => cm j i
  match scipyInv cmT with
  | .ok inv =>
    let prev : Fin n → Fl := fun i => ∑ j, inv i j * p0 j
    let pos : Fin n → Fl := fun i => if prev i < 0 then 0 else prev i
    .ok fun i => pos i / ∑ i, pos i
  | .error .linAlgError =>
    match dist with
    | .HD => .ok (sol.hd cmT p0)
    | .L2 => .ok (sol.l2 cmT p0)
    | .L1 => .ok (sol.l1 cmT p0)
    | .other => .error .valueError
  | .error e => .error e

/-- `AC.predict`/`PAC.predict` after the observed prevalences `prevalences_0` are known
(ac.py:233-273, 484-524). -/
noncomputable def adjust (sol : Solvers) (dist : Dist) :
    {n : ℕ} → (Fin n → Fin n → Fl) → (Fin n → Fl) → Except Err (Fin n → Fl)
  | 2, cm, p0 => .ok (binaryAdjust cm p0)
  | _, cm, p0 => multiAdjust sol dist cm p0

/-- `AC.predict` (ac.py:176-273) of an object fitted to `f`. -/
noncomputable def acPredict [DecidableEq α] (ops : EstOps σ D α k) (enc : Bool → α)
    (w : World σ D α) (etrain etest : Option ℕ) (sol : Solvers) (dist : Dist) (f : ACFit α)
    (X : List D) (pt : Option (Preds α k)) : Except Err (Fin f.classes.length → Fl) :=
  match usingPredict ops enc w ⟨etrain, etest, true, false⟩ f.classes X pt with
  | .error e => .error e
  | .ok (.crisp l) => adjust sol dist f.cm (classFreqs f.classes l)
  | .ok _ => .error .typeError  -- unreachable: the predictions are crisp

/-- Boolean-mask row selection `preds[y == cls]` (ac.py:418) for arrays of equal length. -/
def rowsOf [DecidableEq α] (y : List α) (rows : List (Fin k → ℝ)) (c : α) : List (Fin k → ℝ) :=
  ((y.zip rows).filter fun t => t.1 = c).map Prod.snd

/-- `PAC.fit` (ac.py:385-428). A mask of the wrong length is an `IndexError`, rows with a number
of columns other than the number of classes a `ValueError` (one column would be broadcast;
not modelled). Handing crisp or one-column predictions is not modelled (`typeError`). -/
noncomputable def pacFit [LinearOrder α] (ops : EstOps σ D α k) (enc : Bool → α) (w : World σ D α)
    (etrain etest : Option ℕ) (s : QState α k) (X : List D) (y : List α) (pt : Option (Preds α k)) :
    Except Err (ACFit α) :=
  match usingFit ops enc w ⟨etrain, etest, true, true⟩ s X y pt with
  | (_, _, some e) => .error e
  | (_, s', none) =>
    match s'.yExt, s'.predsTrain with
    | some ye, some (.probs p) =>
      if ye.length = p.length then
        if h : k = (npUnique y).length then
          .ok ⟨npUnique y, fun i j => colMeans (rowsOf ye p (npUnique y)[i]) (Fin.cast h.symm j)⟩
        else .error .valueError
      else .error .indexError
    | _, _ => .error .typeError

/-- `PAC.predict` (ac.py:430-524) of an object fitted to `f`. -/
noncomputable def pacPredict (ops : EstOps σ D α k) (enc : Bool → α) (w : World σ D α)
    (etrain etest : Option ℕ) (sol : Solvers) (dist : Dist) (f : ACFit α) (X : List D)
    (pt : Option (Preds α k)) : Except Err (Fin f.classes.length → Fl) :=
  match usingPredict ops enc w ⟨etrain, etest, true, true⟩ f.classes X pt with
  | .error e => .error e
  | .ok (.probs rows) =>
    if h : k = f.classes.length then
      adjust sol dist f.cm fun j => colMeans rows (Fin.cast h.symm j)
    else .error .valueError
  | .ok _ => .error .typeError

end Verif.Model
