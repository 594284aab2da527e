import Verif.Model.MetricsMulti

/-!
# Model of `quantificationlib/metrics/ordinal.py`

Only finite sums, differences and absolute values occur in `emd` and `emd_distances`, so they
are real valued; `emd_score` divides and returns an `Fl`.
-/

namespace Verif.Model

variable {n : ℕ}

/-- `np.cumsum(v)[k]` (ordinal.py:34, 65, 98, 99). -/
def cumsum (v : Fin n → ℝ) (k : Fin n) : ℝ := ∑ j, if j ≤ k then v j else 0

/-- `emd(p_true, p_pred)` (ordinal.py:19-34). -/
def emd (p q : Fin n → ℝ) : ℝ := ∑ k, |cumsum (fun j => p j - q j) k|

/-- All the mass on one class: `left_mass`, `right_mass` (ordinal.py:60-63). -/
def massAt (k : Fin n) : Fin n → ℝ := fun j => if j = k then 1 else 0

/-- `emd_score(p_true, p_pred)` (ordinal.py:38-66) for at least one class. -/
noncomputable def emdScore (p q : Fin (n + 1) → ℝ) : Fl :=
  let maxEmd := max (emd p (massAt 0)) (emd p (massAt (Fin.last n)))
  Fl.fin (maxEmd - ∑ k, |cumsum (fun j => p j - q j) k|) / Fl.fin maxEmd

/-- One entry of `emd_distances(A, B)` (ordinal.py:69-103): column 0, then columns
`1 .. n_columns-2` of the cumulative sums. -/
def emdDistancesEntry (a b : Fin (n + 1) → ℝ) : ℝ :=
  (List.range' 1 (n + 1 - 1 - 1)).foldl
    (fun d i => d + |cumsum a (Fin.ofNat (n + 1) i) - cumsum b (Fin.ofNat (n + 1) i)|)
    |cumsum a 0 - cumsum b 0|

/-- `emd_distances(A, B)` (ordinal.py:69-103). -/
def emdDistances {r s : ℕ} (A : Fin r → Fin (n + 1) → ℝ) (B : Fin s → Fin (n + 1) → ℝ) :
    Fin r → Fin s → ℝ := fun i j => emdDistancesEntry (A i) (B j)

end Verif.Model
