import Verif.Num.Fl
import Mathlib.Data.List.Sort
import Mathlib.Analysis.Real.Sqrt

/-!
# Model of `quantificationlib/data_utils.py` (`normalize`) and `quantificationlib/plot/qlplot.py` (`plot_line_prevalences`)

`load_data` is in `Model/LoadData`. `plot_boxes` is in `Model/Plot`. Not modelled: the colours of the lines, and what matplotlib draws: the model of a plot is the list of segments handed to `LineCollection`.
-/

namespace Verif.Model

variable {d n : ℕ}

/-- `StandardScaler().fit(X)` for one column: its mean, and its standard deviation with 0 replaced by 1. (scikit-learn also replaces deviations that are tiny compared with the rounding error; not modelled.) -/
noncomputable def scalerStats (col : List ℝ) : ℝ × ℝ :=
  let m : ℝ := col.sum / col.length
  let v : ℝ := (col.map fun x => (x - m) ^ 2).sum / col.length
  (m, open Classical in if v = 0 then 1 else Real.sqrt v)

/-- `scaler.transform` of one example. -/
noncomputable def scaleRow (stats : Fin d → ℝ × ℝ) (row : Fin d → ℝ) : Fin d → ℝ := fun j => (row j - (stats j).1) / (stats j).2

/-- `normalize(X_train, X_test)` (data_utils.py:14-19). -/
noncomputable def normalizeData (train test : List (Fin d → ℝ)) : List (Fin d → ℝ) × List (Fin d → ℝ) :=
  let stats := fun j => scalerStats (train.map fun r => r j)
  (train.map (scaleRow stats), test.map (scaleRow stats))

open Classical in
/-- `np.lexsort` followed by indexing (qlplot.py:22-25), for rows with one key per column of `columns` (in order of importance, i.e. after `columns.reverse()` the last key given to `lexsort` is the first of the
list): a stable sort. -/
noncomputable def lexSorted (columns : List (Fin n)) (m : List (Fin n → ℝ)) : List (Fin n → ℝ) :=
  m.mergeSort fun r s => decide (columns.map r ≤ columns.map s)

/-- `_sort_rows_bycolumns(m, columns, order)` (qlplot.py:16-26): the sorted rows and the list of columns as the call leaves it. -/
noncomputable def sortRowsByColumns (m : List (Fin n → ℝ)) (columns : List (Fin n)) (descending : Bool) : List (Fin n → ℝ) × List (Fin n) :=
  let s := lexSorted columns m
  (if descending then s.reverse else s, columns.reverse)

/-- The argument `order` of `plot_line_prevalences`. -/
inductive PlotOrder where
  | none | ascending | descending
  deriving DecidableEq

/-- The segments of one line (qlplot.py:78-86): start and end of each class. -/
def lineSegments (x0 : ℝ) : List ℝ → List (ℝ × ℝ)
  | [] => []
  | prev :: r => (x0, x0 + 100 * prev) :: lineSegments (x0 + 100 * prev) r

/-- `plot_line_prevalences(ax, prevalence_matrix, order)` (qlplot.py:43-89): the lines from the bottom to the top, with their heights. The default list of columns is `[0]`; reversing it in place changes nothing. -/
noncomputable def plotLines (m : List (Fin (n + 1) → ℝ)) (order : PlotOrder) : List (ℕ × List (ℝ × ℝ)) :=
  let rows := match order with
    | .none => m
    | .ascending => (sortRowsByColumns m [0] false).1
    | .descending => (sortRowsByColumns m [0] true).1
  rows.zipIdx.map fun ri => (ri.2 + 1, lineSegments 0 (List.ofFn ri.1))

end Verif.Model
