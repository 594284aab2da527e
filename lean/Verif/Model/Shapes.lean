import Verif.Model.AC
import Verif.Model.MetricsOrdinal
import Verif.Model.Search

/-!
# Shapes of NumPy arrays

The other modules model prevalences, distributions and predictions as vectors, whatever the shape of the array that holds them. Here the shape is kept, for the places of the code where it matters:
`check_prevalences` and the metrics (metrics/multiclass.py, metrics/ordinal.py), the distributions that `global_search` hands to the distance (search.py), the predictions given by the user (base.py:317-347) and the
arrays returned by `CC`, `PCC`, `AC` and `PAC`.

Not modelled: arrays with three or more dimensions, types of the elements.
-/

namespace Verif.Model

/-- An array with zero, one or two dimensions. -/
inductive NdArr (β : Type) where
  | scalar (x : β)
  | vec (n : ℕ) (v : Fin n → β)
  | mat (r c : ℕ) (a : Fin r → Fin c → β)

section
variable {β : Type} {n : ℕ}

/-- `v.reshape(-1, 1)`: an array with one column. -/
def NdArr.col (v : Fin n → β) : NdArr β := .mat n 1 fun i _ => v i

/-- `v.reshape(1, -1)`: an array with one row. -/
def NdArr.row (v : Fin n → β) : NdArr β := .mat 1 n fun _ j => v j

/-- `np.squeeze(a)`: dimensions of size one are dropped. -/
def npSqueeze : NdArr β → NdArr β
  | .scalar x => .scalar x
  | .vec 1 v => .scalar (v 0)
  | .vec n v => .vec n v
  | .mat 1 1 a => .scalar (a 0 0)
  | .mat r 1 a => .vec r fun i => a i 0
  | .mat 1 c a => .vec c (a 0)
  | .mat r c a => .mat r c a

/-- The elements of a matrix in the order of `np.sum`, `np.mean` and `np.cumsum` without an axis: row by row. -/
def flattenMat {r c : ℕ} (a : Fin r → Fin c → β) : Fin (r * c) → β := fun k => a (finProdFinEquiv.symm k).1 (finProdFinEquiv.symm k).2

end

/-! ## Metrics -/

/-- The two arrays that `check_prevalences` returns have the same shape. -/
structure SamePair where
  r : ℕ
  c : ℕ
  p : Fin r → Fin c → ℝ
  q : Fin r → Fin c → ℝ

/-- The array as a matrix: one-dimensional arrays become columns (multiclass.py:43-47). `check_consistent_length` rejects scalars (TypeError). -/
def toColumns : NdArr ℝ → Except Err (Σ r : ℕ, Σ c : ℕ, (Fin r → Fin c → ℝ))
  | .scalar _ => .error .typeError
  | .vec n v => .ok ⟨n, 1, fun i _ => v i⟩
  | .mat r c a => .ok ⟨r, c, a⟩

/-- `check_prevalences(p_true, p_pred)` (multiclass.py:20-52) for arrays of finite numbers: ValueError for different lengths, different numbers of columns, or no entries. -/
def checkPrevalencesNd (p q : NdArr ℝ) : Except Err SamePair :=
  match toColumns p, toColumns q with
  | .error e, _ => .error e
  | _, .error e => .error e
  | .ok ⟨r, c, a⟩, .ok ⟨r', c', b⟩ =>
    if hr : r = r' then
      if r = 0 ∨ c = 0 ∨ c' = 0 then .error .valueError
      else if hc : c = c' then .ok ⟨r, c, a, fun i j => b (Fin.cast hr i) (Fin.cast hc j)⟩
      else .error .valueError
    else .error .valueError

/-- A metric that combines the two arrays element by element and adds the results up (all of multiclass.py:55-322, and `emd`: `np.cumsum` without an axis goes through the rows one after another): the shape only
fixes the order of the elements. `m` is the metric on vectors (`Verif.Model.MetricsMulti`, `Verif.Model.MetricsOrdinal`). -/
noncomputable def metricNd (m : {n : ℕ} → (Fin n → ℝ) → (Fin n → ℝ) → Fl) (p q : NdArr ℝ) : Except Err Fl :=
  (checkPrevalencesNd p q).map fun s => m (flattenMat s.p) (flattenMat s.q)

/-- `left_mass` and `right_mass` (ordinal.py:60-63): `np.zeros_like(p_true)`, and then the first (last) *row* is set to 1. -/
def rowMass {r c : ℕ} (k : ℕ) : Fin r → Fin c → ℝ := fun i _ => if (i : ℕ) = k then 1 else 0

/-- `emd_score(p_true, p_pred)` (ordinal.py:38-66). -/
noncomputable def emdScoreNd (p q : NdArr ℝ) : Except Err Fl :=
  (checkPrevalencesNd p q).map fun s =>
    let maxEmd := max (emd (flattenMat s.p) (flattenMat (rowMass 0))) (emd (flattenMat s.p) (flattenMat (rowMass (s.r - 1))))
    Fl.fin (maxEmd - emd (flattenMat s.p) (flattenMat s.q)) / Fl.fin maxEmd

/-! ## Distances given to global_search -/

/-- Rows and columns for broadcasting: a vector is a row. -/
def NdArr.dims {β : Type} : NdArr β → ℕ × ℕ
  | .scalar _ => (1, 1)
  | .vec n _ => (1, n)
  | .mat r c _ => (r, c)

/-- The element at a position, with the positions of `dims`. -/
def NdArr.elem : NdArr ℝ → ℕ → ℕ → ℝ
  | .scalar x, _, _ => x
  | .vec n v, _, j => if h : j < n then v ⟨j, h⟩ else 0
  | .mat r c a, i, j => if h : i < r ∧ j < c then a ⟨i, h.1⟩ ⟨j, h.2⟩ else 0

/-- The broadcast size of a dimension: equal, or one of the two is 1. -/
def bcastDim (a b : ℕ) : Except Err ℕ :=
  if a = b then .ok a else if a = 1 then .ok b else if b = 1 then .ok a else .error .valueError

/-- The position read in a dimension of size `size`: dimensions of size 1 are repeated. -/
def bcastIdx (size i : ℕ) : ℕ := if size = 1 then 0 else i

/-- `np.sum(f(a, b))` for an element-wise function of two arrays, with the broadcasting rules of NumPy: what a user would write as `lambda p, q: np.sum(np.abs(p - q))`. -/
noncomputable def npSumOf (f : ℝ → ℝ → ℝ) (a b : NdArr ℝ) : Except Err Fl := do
  let r ← bcastDim a.dims.1 b.dims.1
  let c ← bcastDim a.dims.2 b.dims.2
  pure (Fl.fin (∑ i ∈ Finset.range r, ∑ j ∈ Finset.range c,
    f (a.elem (bcastIdx a.dims.1 i) (bcastIdx a.dims.2 j)) (b.elem (bcastIdx b.dims.1 i) (bcastIdx b.dims.2 j))))

/-- `global_search(..., mixtures=None, return_mixtures=True, ...)` (search.py:71-111) as called by `DFy`, `DFX` and `FriedmanME` (df.py:348-352, 615-619, friedman.py:263-267): the mixtures and the test distribution
are columns, but the mixtures of the grid are kept in the rows of a matrix, and the distance gets `mixtures[i, :]`, which is flat. -/
noncomputable def globalSearchNd (dist : NdArr ℝ → NdArr ℝ → Except Err Fl) {m : ℕ} (mix : ℝ → Fin m → ℝ) (test : Fin m → ℝ) (tol : ℝ) : Except Err (Option ℝ) := do
  let losses ← (List.range 101).mapM fun i : ℕ => dist (.vec m (mix ((i : ℝ) / 100))) (.col test)
  globalCore (fun i => losses.getD i 0) (goldenSectionSearchX (fun p => dist (.col (mix p)) (.col test)) tol)

/-! ## Predictions given by the user -/

/-- Arrays of predictions: labels or numbers, flat or in a column, or a matrix with two or more columns. -/
inductive RawPreds (α : Type) (k : ℕ) where
  | labels (l : List α)
  | labelsCol (l : List α)
  | floats (l : List ℝ)
  | floatsCol (l : List ℝ)
  | probs (l : List (Fin k → ℝ))

/-- The predictions as modelled in `Verif.Model.Base`, where flat arrays and columns are the same. -/
def RawPreds.toPreds {α : Type} {k : ℕ} : RawPreds α k → Preds α k
  | .labels l => .crisp l
  | .labelsCol l => .crisp l
  | .floats l => .probs1 l
  | .floatsCol l => .probs1 l
  | .probs l => .probs l

/-- The number of examples of a column: `none` for the other arrays. -/
def RawPreds.columnLen {α : Type} {k : ℕ} : RawPreds α k → Option ℕ
  | .labelsCol l => some l.length
  | .floatsCol l => some l.length
  | _ => none

/-- `UsingClassifiers.__probs2crisps` (base.py:317-347): `preds.squeeze()` of a column with one element has no dimensions, and `preds_mod[0]` raises IndexError. -/
noncomputable def rawProbs2crisps {α : Type} {k : ℕ} (enc : Bool → α) (labels : List α) (p : RawPreds α k) : Except Err (List α) :=
  if p.columnLen = some 1 then .error .indexError else probs2crisps enc labels p.toPreds

/-- `CC.predict(X, predictions_test)` (cc.py:100-145) with given predictions. -/
noncomputable def ccPredictRaw {α : Type} [DecidableEq α] {k : ℕ} (enc : Bool → α) (classes : List α) (p : RawPreds α k) : Except Err (NdArr Fl) :=
  (rawProbs2crisps enc classes p).map fun l => npSqueeze (.col (classFreqs classes l))

/-! ## Shapes of the answers -/

section
variable {σ D α : Type} {k : ℕ}

/-- What `CC.predict` returns (cc.py:145): `np.squeeze` of a column. -/
noncomputable def ccAnswer [DecidableEq α] (ops : EstOps σ D α k) (enc : Bool → α) (w : World σ D α) (estTest : Option ℕ) (classes : List α) (X : List D) (pt : Option (Preds α k)) : Except Err (NdArr Fl) :=
  (ccPredict ops enc w estTest classes X pt).map fun v => npSqueeze (.col v)

/-- What `PCC.predict` returns (cc.py:261): `np.mean(predictions, axis=0)`. -/
noncomputable def pccAnswer (ops : EstOps σ D α k) (enc : Bool → α) (w : World σ D α) (estTest : Option ℕ) (classes : List α) (X : List D) (pt : Option (Preds α k)) : Except Err (NdArr Fl) :=
  (pccPredict ops enc w estTest classes X pt).map fun v => .vec k v

/-- What `AC.predict` returns (ac.py:233-273): with two classes and when the matrix is inverted, `squeeze` of a column; the solvers also return what `squeeze` leaves (ac.py:246, 254, optimization.py:76, 127). -/
noncomputable def acAnswer [DecidableEq α] (ops : EstOps σ D α k) (enc : Bool → α) (w : World σ D α) (etrain etest : Option ℕ) (sol : Solvers) (dist : Dist) (f : ACFit α) (X : List D) (pt : Option (Preds α k)) :
    Except Err (NdArr Fl) :=
  (acPredict ops enc w etrain etest sol dist f X pt).map fun v => npSqueeze (.col v)

/-- What `PAC.predict` returns (ac.py:482-524): the mean of the predictions is flat, and so is its product with the inverse matrix. (Simplification: with a single class whose mean probability is 0 the solvers would
squeeze the answer.) -/
noncomputable def pacAnswer (ops : EstOps σ D α k) (enc : Bool → α) (w : World σ D α) (etrain etest : Option ℕ) (sol : Solvers) (dist : Dist) (f : ACFit α) (X : List D) (pt : Option (Preds α k)) :
    Except Err (NdArr Fl) :=
  (pacPredict ops enc w etrain etest sol dist f X pt).map fun v => .vec f.classes.length v

end

end Verif.Model
