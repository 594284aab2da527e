import Verif.Model.CC

/-!
# Model of `quantificationlib/binary/debias.py`

From the point where the (probabilistic) predictions are known; how they are obtained is `UsingClassifiers`, modelled in `Verif.Model.Base`.
-/

namespace Verif.Model

variable {α : Type*}

/-- The attributes `classes_`, `train_prevs_` and `Vt_`. -/
structure DeBiasFit (α : Type*) where
  classes : List α
  trainPrevs : Fin 2 → Fl
  vt : Fl

/-- `np.unique(y, return_counts=True)[1] / len(y)` (debias.py:141), for two classes. -/
noncomputable def classShare [DecidableEq α] (classes : List α) (y : List α) (i : ℕ) : Fl :=
  match classes[i]? with
  | some c => Fl.fin (y.count c : ℝ) / Fl.fin (y.length : ℝ)
  | none => Fl.nan

/-- `DeBias.fit` (debias.py:105-149), given `predictions_train_`. -/
noncomputable def deBiasFit [LinearOrder α] (y : List α) (preds : List (Fin 2 → ℝ)) : Except Err (DeBiasFit α) :=
  if (npUnique y).length ≠ 2 then .error .attributeError
  else
    let tp : Fin 2 → Fl := fun i => classShare (npUnique y) y i
    let at_ := (preds.map fun row => (Fl.fin (row 1) - tp 1).sq).sum / Fl.fin (preds.length : ℝ)
    .ok ⟨npUnique y, tp, at_ / (tp 1 * tp 0)⟩

open Classical in
/-- `[1 - p, p]` clipped to [0,1] and divided by its sum when that is positive (debias.py:185-190). -/
noncomputable def deBiasClip (p : Fl) : Fin 2 → Fl :=
  let prevs : Fin 2 → Fl := ![(1 - p).clip01, p.clip01]
  if (0 : Fl) < prevs 0 + prevs 1 then fun i => prevs i / (prevs 0 + prevs 1) else prevs

/-- `DeBias.predict` (debias.py:151-195), given `predictions_test_`. -/
noncomputable def deBiasPredict (f : DeBiasFit α) (preds : List (Fin 2 → ℝ)) : Fin 2 → Fl :=
  let m := (preds.map fun row => Fl.fin (row 1)).sum / Fl.fin (preds.length : ℝ)
  deBiasClip (f.trainPrevs 1 + (m - f.trainPrevs 1) / f.vt)

end Verif.Model
