import Verif.Model.Shapes
import Mathlib.Data.Real.Archimedean

/-!
# Model of `load_data` (`quantificationlib/data_utils.py`)

The text of the file is given as its lines, and each line as its fields after `float`: a field that is not a number is NaN (this is what `np.genfromtxt` does by default). Empty lines and comments are left out.
-/

namespace Verif.Model

/-- `np.genfromtxt(dfile, delimiter=',')` (data_utils.py:23): ValueError if two lines have different numbers of fields; dimensions of size one are dropped (the function ends in `np.squeeze`); a file without lines is an empty
one-dimensional array. -/
noncomputable def genfromtxt (lines : List (List Fl)) : Except Err (NdArr Fl) :=
  match lines with
  | [] => .ok (.vec 0 Fin.elim0)
  | l :: rest =>
    if ∀ l' ∈ rest, l'.length = l.length then .ok (npSqueeze (.mat (l :: rest).length l.length fun i j => (l :: rest)[i].getD j .nan))
    else .error .valueError

/-- `.astype(int)` (data_utils.py:26): truncation towards zero. What NaN and infinities become depends on the platform (`junk`); the width of the integers is not modelled. -/
noncomputable def astypeInt (junk : ℤ) : Fl → ℤ
  | .fin x => if 0 ≤ x then ⌊x⌋ else ⌈x⌉
  | _ => junk

/-- `load_data(dfile)` (data_utils.py:22-27): `data[:, :-1]` and `data[:, -1]` raise IndexError unless `data` has two dimensions. -/
noncomputable def loadData (junk : ℤ) (lines : List (List Fl)) : Except Err (List (List Fl) × List ℤ) :=
  match genfromtxt lines with
  | .error e => .error e
  | .ok (.mat _ _ a) => .ok (List.ofFn fun i => (List.ofFn (a i)).dropLast, List.ofFn fun i => astypeInt junk ((List.ofFn (a i)).getLastD .nan))
  | .ok _ => .error .indexError

end Verif.Model
