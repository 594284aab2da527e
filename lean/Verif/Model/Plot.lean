import Mathlib.Data.List.Basic

/-!
# Model of `plot_boxes` (`quantificationlib/plot/qlplot.py`)

What matplotlib draws is not modelled: `ax.boxplot` is a parameter that gives the artists of the plot, and the model follows the colours that `plot_boxes` gives to them.
-/

namespace Verif.Model

/-- The colours of a box: its edge and its inside. -/
structure BoxColors (C : Type*) where
  edge : C
  face : C

/-- What `ax.boxplot` returns, as far as `plot_boxes` uses it: the boxes and the lines of the medians, one per column of the matrix, from the first column to the last. -/
structure BoxPlot (C : Type*) where
  boxes : List (BoxColors C)
  medians : List C

/-- `for patch, color in zip(bplot['boxes'], colors): patch.set_color(color); patch.set_facecolor(color)` (qlplot.py:132-134). The loop ends with the shorter of the two lists. -/
def paintBoxes {C : Type*} : List (BoxColors C) → List C → List (BoxColors C)
  | _ :: bs, c :: cs => ⟨c, c⟩ :: paintBoxes bs cs
  | [], _ => []
  | bs, [] => bs

/-- `plot_boxes(ax, error_matrix, colors=colors)` (qlplot.py:123-137): the artists when it returns. `boxplot m patch` is `ax.boxplot(error_matrix, ..., patch_artist=patch)` for the columns `m` of the matrix. The titles of the
axes and the labels are only handed over to matplotlib. -/
def plotBoxes {C E : Type*} (boxplot : List E → Bool → BoxPlot C) (black : C) (m : List E) (colors : Option (List C)) : BoxPlot C :=
  match colors with
  | none => boxplot m false
  | some cs =>
    let b := boxplot m true
    ⟨paintBoxes b.boxes cs, b.medians.map fun _ => black⟩

end Verif.Model
