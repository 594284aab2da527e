import Verif.Model.Base

/-!
# Model of `quantificationlib/baselines/cc.py`
-/

namespace Verif.Model

variable {σ D α : Type*} {k : ℕ}

/-- Class counts divided by the bag size (cc.py:134-145; the same lines appear in
ac.py, ac_ordinal.py and knn.py): `freq[n_cls] = np.equal(preds, cls).sum()`, then
`freq / float(len(preds))`. -/
noncomputable def classFreqs [DecidableEq α] (classes : List α) (preds : List α) :
    Fin classes.length → Fl :=
  fun i => Fl.fin (preds.count classes[i] : ℝ) / Fl.fin (preds.length : ℝ)

/-- Constructor arguments of `CC` (cc.py:77-79). -/
def ccCfg (estTest : Option ℕ) : QuantCfg :=
  { estTrain := none, estTest := estTest, needsTrain := false, probabilistic := false }

/-- Constructor arguments of `PCC` (cc.py:206-208). -/
def pccCfg (estTest : Option ℕ) : QuantCfg :=
  { estTrain := none, estTest := estTest, needsTrain := false, probabilistic := true }

/-- `CC.fit` (cc.py:81-98): `predictions_train=[]` is passed on, whatever the caller gave. -/
noncomputable def ccFit [LinearOrder α] (ops : EstOps σ D α k) (enc : Bool → α) (w : World σ D α)
    (estTest : Option ℕ) (s : QState α k) (X : List D) (y : List α) :
    World σ D α × QState α k × Option Err :=
  usingFit ops enc w (ccCfg estTest) s X y (some (.crisp []))

/-- `CC.predict` (cc.py:100-145) of an object whose `classes_` is `classes`. `np.squeeze`
only drops the unit dimension of the column vector (for one class it yields a scalar; the
model keeps a vector of length one). -/
noncomputable def ccPredict [DecidableEq α] (ops : EstOps σ D α k) (enc : Bool → α) (w : World σ D α)
    (estTest : Option ℕ) (classes : List α) (X : List D) (pt : Option (Preds α k)) :
    Except Err (Fin classes.length → Fl) :=
  match usingPredict ops enc w (ccCfg estTest) classes X pt with
  | .error e => .error e
  | .ok (.crisp l) => .ok (classFreqs classes l)
  | .ok _ => .error .typeError  -- unreachable: `usingPredict` is crisp for `ccCfg`

/-- `PCC.fit` (cc.py:210-226): the same as that of `CC`. -/
noncomputable def pccFit [LinearOrder α] (ops : EstOps σ D α k) (enc : Bool → α) (w : World σ D α)
    (estTest : Option ℕ) (s : QState α k) (X : List D) (y : List α) :
    World σ D α × QState α k × Option Err :=
  usingFit ops enc w (pccCfg estTest) s X y (some (.crisp []))

/-- `np.mean(rows, axis=0)` (cc.py:261): NaN in every column for an empty matrix. -/
noncomputable def colMeans (rows : List (Fin k → ℝ)) : Fin k → Fl :=
  fun j => Fl.fin ((rows.map fun r => r j).sum) / Fl.fin (rows.length : ℝ)

/-- `PCC.predict` (cc.py:228-266) on a probability matrix; handing a one-dimensional array
to `np.mean(axis=0)` gives a scalar, which is not modelled (`typeError`). -/
noncomputable def pccPredict (ops : EstOps σ D α k) (enc : Bool → α) (w : World σ D α)
    (estTest : Option ℕ) (classes : List α) (X : List D) (pt : Option (Preds α k)) :
    Except Err (Fin k → Fl) :=
  match usingPredict ops enc w (pccCfg estTest) classes X pt with
  | .error e => .error e
  | .ok (.probs rows) => .ok (colMeans rows)
  | .ok _ => .error .typeError

end Verif.Model
