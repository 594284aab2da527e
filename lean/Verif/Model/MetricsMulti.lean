import Verif.Model.Base
import Verif.Spec.Prevalence

/-!
# Model of `quantificationlib/metrics/multiclass.py`

The metrics take two prevalence vectors; `checkPrevalences` models the length test made first by
each of them. After that the vectors are `Fin n → ℝ` (finite entries: `check_array` rejects NaN
and inf). Two-dimensional arguments are in `Verif.Model.Shapes`.
-/

namespace Verif.Model

open Classical

/-- `check_prevalences(p_true, p_pred)` (multiclass.py:20-52) for one-dimensional arguments with
finite entries: `ValueError` for different lengths (`check_consistent_length`) or no entries
(`check_array`). -/
noncomputable def checkPrevalences (p q : List ℝ) :
    Except Err ((Fin p.length → ℝ) × (Fin p.length → ℝ)) :=
  if h : p.length = q.length then
    if p.length = 0 then .error .valueError
    else .ok (fun i => p[i], fun i => q[Fin.cast h i])
  else .error .valueError

/-- Calling a metric on two Python sequences. -/
noncomputable def callMetric (m : {n : ℕ} → (Fin n → ℝ) → (Fin n → ℝ) → Fl) (p q : List ℝ) :
    Except Err Fl :=
  (checkPrevalences p q).map fun v => m v.1 v.2

variable {n : ℕ}

/-- `kld` (multiclass.py:55-83). -/
noncomputable def kld (eps : ℝ) (p q : Fin n → ℝ) : Fl :=
  ∑ j, Fl.fin (p j) * (Fl.fin (p j) / (Fl.fin (q j) + Fl.fin eps)).log2

/-- `mean_absolute_error` (multiclass.py:86-107). -/
noncomputable def meanAbsoluteError (p q : Fin n → ℝ) : Fl :=
  (∑ j, (Fl.fin (q j) - Fl.fin (p j)).abs) / Fl.fin (n : ℝ)

/-- `l1` (multiclass.py:110-131). -/
noncomputable def l1 (p q : Fin n → ℝ) : Fl := ∑ j, (Fl.fin (p j) - Fl.fin (q j)).abs

/-- `mean_squared_error` (multiclass.py:134-155). -/
noncomputable def meanSquaredError (p q : Fin n → ℝ) : Fl :=
  (∑ j, (Fl.fin (q j) - Fl.fin (p j)).sq) / Fl.fin (n : ℝ)

/-- `l2` (multiclass.py:158-179). -/
noncomputable def l2 (p q : Fin n → ℝ) : Fl := (∑ j, (Fl.fin (p j) - Fl.fin (q j)).sq).sqrt

/-- `hd` (multiclass.py:182-204). -/
noncomputable def hd (p q : Fin n → ℝ) : Fl :=
  (∑ j, ((Fl.fin (q j)).sqrt - (Fl.fin (p j)).sqrt).sq).sqrt

/-- `bray_curtis` (multiclass.py:207-228). -/
noncomputable def brayCurtis (p q : Fin n → ℝ) : Fl :=
  (∑ j, (Fl.fin (p j) - Fl.fin (q j)).abs) / ∑ j, (Fl.fin (p j) + Fl.fin (q j))

/-- `topsoe` (multiclass.py:231-261). -/
noncomputable def topsoe (eps : ℝ) (p q : Fin n → ℝ) : Fl :=
  ∑ j, (Fl.fin (p j) * (Fl.fin (2 * p j + eps) / Fl.fin (p j + q j + eps)).log
    + Fl.fin (q j) * (Fl.fin (2 * q j + eps) / Fl.fin (p j + q j + eps)).log)

/-- `jensenshannon` (multiclass.py:264-293). -/
noncomputable def jensenshannon (eps : ℝ) (p q : Fin n → ℝ) : Fl :=
  (∑ j, (Fl.fin (p j) * (Fl.fin (p j + eps)).log + Fl.fin (q j) * (Fl.fin (q j + eps)).log
    - Fl.fin (p j + q j) * (Fl.fin ((p j + q j + eps) / 2)).log)) / Fl.fin 2

/-- `probsymmetric` (multiclass.py:296-322). -/
noncomputable def probsymmetric (eps : ℝ) (p q : Fin n → ℝ) : Fl :=
  Fl.fin 2 * ∑ j, (Fl.fin (p j) - Fl.fin (q j)).sq / Fl.fin (q j + p j + eps)

/-- `brier_multi` (multiclass.py:325-348): `p_true`, `p_pred` are lists of rows of equal length. -/
noncomputable def brierMulti (t p : List (Fin n → ℝ)) : Fl :=
  ((List.zipWith (fun a b => ∑ j, (Fl.fin (b j) - Fl.fin (a j)).sq) t p).sum)
    / Fl.fin (t.length : ℝ)

/-- The recall vector of `geometric_mean` (multiclass.py:381-409): for every label occurring in
`y_true` or `y_pred`, the fraction of its examples that are recognised (0 for a label that does not
occur in `y_true`), zeros replaced by `correction`. `LabelEncoder`, `bincount` and `searchsorted`
only translate between labels and positions. The arrays have equal lengths. -/
noncomputable def correctedRecalls {α : Type*} [LinearOrder α] (correction : ℝ) (yTrue yPred : List α) :
    List ℝ :=
  (npUnique (yTrue ++ yPred)).map fun c =>
    let tp : ℝ := (((yTrue.zip yPred).filter fun t => decide (t.1 = t.2)).map Prod.fst).count c
    let trueSum : ℝ := yTrue.count c
    let recall : ℝ := if trueSum = 0 then 0 else tp / trueSum
    if recall = 0 then correction else recall

/-- `scipy.stats.gmean(a)` (multiclass.py:412): `exp(mean(log a))`. -/
noncomputable def gmean (a : List ℝ) : Fl :=
  ((a.map fun x => (Fl.fin x).log).sum / Fl.fin (a.length : ℝ)).exp

/-- `geometric_mean(y_true, y_pred, correction)` (multiclass.py:351-413). -/
noncomputable def geometricMean {α : Type*} [LinearOrder α] (correction : ℝ) (yTrue yPred : List α) : Fl :=
  gmean (correctedRecalls correction yTrue yPred)

end Verif.Model
