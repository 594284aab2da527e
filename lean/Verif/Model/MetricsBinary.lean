import Verif.Num.Fl

/-!
# Model of `quantificationlib/metrics/binary.py`

Arguments are finite floats (real numbers); results are `Fl` values. Python's `if x == 0`
is decided classically.
-/

namespace Verif.Model

open Classical

/-- `binary_kld(p_true, p_pred, eps)` (binary.py:15-44). -/
noncomputable def binaryKld (p q eps : ℝ) : Fl :=
  let kld := if q = 0 then Fl.fin p * (Fl.fin p / Fl.fin eps).log2
    else Fl.fin p * (Fl.fin p / Fl.fin q).log2
  if q = 1 then kld + Fl.fin (1 - p) * (Fl.fin (1 - p) / Fl.fin eps).log2
  else kld + Fl.fin (1 - p) * (Fl.fin (1 - p) / Fl.fin (1 - q)).log2

/-- `bias(p_true, p_pred)` (binary.py:47-69). -/
noncomputable def bias (p q : ℝ) : Fl := Fl.fin q - Fl.fin p

/-- `absolute_error(p_true, p_pred)` (binary.py:72-92). -/
noncomputable def absoluteError (p q : ℝ) : Fl := (Fl.fin q - Fl.fin p).abs

/-- `squared_error(p_true, p_pred)` (binary.py:95-118). -/
noncomputable def squaredError (p q : ℝ) : Fl := (Fl.fin q - Fl.fin p).sq

/-- `relative_absolute_error(p_true, p_pred, eps)` (binary.py:121-147). -/
noncomputable def relativeAbsoluteError (p q eps : ℝ) : Fl :=
  if p = 0 then (Fl.fin q - Fl.fin p).abs / (Fl.fin p + Fl.fin eps)
  else (Fl.fin q - Fl.fin p).abs / Fl.fin p

/-- `symmetric_absolute_percentage_error(p_true, p_pred)` (binary.py:150-171). -/
noncomputable def sape (p q : ℝ) : Fl :=
  if q + p = 0 then Fl.fin 0
  else (Fl.fin q - Fl.fin p).abs / (Fl.fin q + Fl.fin p)

/-- `normalized_absolute_score(p_true, p_pred)` (binary.py:174-192). -/
noncomputable def normalizedAbsoluteScore (p q : ℝ) : Fl :=
  Fl.fin 1 - (Fl.fin q - Fl.fin p).abs / Fl.fin (max p (1 - p))

/-- `normalized_squared_score(p_true, p_pred)` (binary.py:195-213). -/
noncomputable def normalizedSquaredScore (p q : ℝ) : Fl :=
  Fl.fin 1 - ((Fl.fin q - Fl.fin p).abs / Fl.fin (max p (1 - p))).sq

end Verif.Model
