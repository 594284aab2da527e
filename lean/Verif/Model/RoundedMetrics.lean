import Verif.Model.Rounding
import Mathlib.Analysis.SpecialFunctions.Log.Basic

/-!
# Models of the metrics with rounding

The metrics of `quantificationlib/metrics/multiclass.py` and `quantificationlib/metrics/ordinal.py`, operation by operation, in an arithmetic `A` that rounds (`Verif.Spec.Rounding`). `L` is the
natural logarithm as computed (for `kld`, that of base 2). The vectors hold finite numbers and have equal lengths; the models do not have NaN nor infinities.
-/

namespace Verif.Model

open Verif.Spec

variable {n : ℕ} (A : Arith) (L : ℝ → ℝ)

/-- `l1` (multiclass.py:131). -/
noncomputable def l1A (p q : Fin n → ℝ) : ℝ := A.sum (List.ofFn fun j => |A.rnd (p j - q j)|)

/-- `mean_squared_error` (multiclass.py:155). -/
noncomputable def mseA (p q : Fin n → ℝ) : ℝ := A.rnd (A.sum (List.ofFn fun j => A.rnd (A.rnd (q j - p j) ^ 2)) / (n : ℝ))

/-- `l2` (multiclass.py:179). -/
noncomputable def l2A (p q : Fin n → ℝ) : ℝ := A.rnd (Real.sqrt (A.sum (List.ofFn fun j => A.rnd (A.rnd (p j - q j) ^ 2))))

/-- `hd` (multiclass.py:203). -/
noncomputable def hdA (p q : Fin n → ℝ) : ℝ :=
  A.rnd (Real.sqrt (A.sum (List.ofFn fun j => A.rnd (A.rnd (A.rnd (Real.sqrt (q j)) - A.rnd (Real.sqrt (p j))) ^ 2))))

/-- `bray_curtis` (multiclass.py:228). -/
noncomputable def brayCurtisA (p q : Fin n → ℝ) : ℝ := A.rnd (A.sum (List.ofFn fun j => |A.rnd (p j - q j)|) / A.sum (List.ofFn fun j => A.rnd (p j + q j)))

/-- `probsymmetric` (multiclass.py:321). -/
noncomputable def probsymmetricA (eps : ℝ) (p q : Fin n → ℝ) : ℝ :=
  A.rnd (2 * A.sum (List.ofFn fun j => A.rnd (A.rnd (A.rnd (p j - q j) ^ 2) / A.rnd (A.rnd (q j + p j) + eps))))

/-- `topsoe` (multiclass.py:259-260). -/
noncomputable def topsoeA (eps : ℝ) (p q : Fin n → ℝ) : ℝ :=
  A.sum (List.ofFn fun j =>
    let s := A.rnd (A.rnd (p j + q j) + eps)
    A.rnd (A.rnd (p j * L (A.rnd (A.rnd (A.rnd (2 * p j) + eps) / s))) + A.rnd (q j * L (A.rnd (A.rnd (A.rnd (2 * q j) + eps) / s)))))

/-- `jensenshannon` (multiclass.py:291-292). -/
noncomputable def jensenshannonA (eps : ℝ) (p q : Fin n → ℝ) : ℝ :=
  A.rnd (A.sum (List.ofFn fun j =>
    A.rnd (A.rnd (A.rnd (p j * L (A.rnd (p j + eps))) + A.rnd (q j * L (A.rnd (q j + eps))))
      - A.rnd (A.rnd (p j + q j) * L (A.rnd (A.rnd (A.rnd (p j + q j) + eps) / 2))))) / 2)

/-- `kld` (multiclass.py:83); `L` is the logarithm of base 2. -/
noncomputable def kldA (eps : ℝ) (p q : Fin n → ℝ) : ℝ := A.sum (List.ofFn fun j => A.rnd (p j * L (A.rnd (p j / A.rnd (q j + eps)))))

/-- `np.cumsum` (ordinal.py:34, 65) of the numbers of a list after `s`, the last sum computed: from left to right. -/
noncomputable def cumsumFromA (s : ℝ) : List ℝ → List ℝ
  | [] => []
  | x :: l => A.rnd (s + x) :: cumsumFromA (A.rnd (s + x)) l

/-- `np.cumsum` (ordinal.py:34, 65): the first sum is the first number. -/
noncomputable def cumsumA : List ℝ → List ℝ
  | [] => []
  | x :: l => x :: cumsumFromA A x l

/-- `emd` (ordinal.py:34). -/
noncomputable def emdA (p q : Fin n → ℝ) : ℝ := A.sum ((cumsumA A (List.ofFn fun j => A.rnd (p j - q j))).map abs)

/-- `emd_score` (ordinal.py:60-66) for at least one class. -/
noncomputable def emdScoreA (p q : Fin (n + 1) → ℝ) : ℝ :=
  let maxEmd := max (emdA A p fun j => if j = 0 then 1 else 0) (emdA A p fun j => if j = Fin.last n then 1 else 0)
  A.rnd (A.rnd (maxEmd - emdA A p q) / maxEmd)

end Verif.Model
