import Mathlib.LinearAlgebra.Matrix.PosDef
import Mathlib.Analysis.Real.Sqrt
import Verif.Model.Base

/-!
# Model of `quantificationlib/optimization.py`

Exact arithmetic over the reals. `quadprog.solve_qp`, `np.linalg.svd`, `np.linalg.eigvals`,
`np.spacing` and the cvxpy solvers are parameters; what is assumed of them is stated in
`Verif.Spec.Solvers`.
-/

namespace Verif.Model

open Classical

/-! ## `dpofa` and `is_pd` -/

/-- A two-dimensional array, by position. Entries outside the shape are never read. -/
abbrev Arr := ℕ → ℕ → ℝ

/-- `r[i, k] = t`. -/
noncomputable def Arr.set (r : Arr) (i k : ℕ) (t : ℝ) : Arr :=
  fun a b => if a = i ∧ b = k then t else r a b

/-- `np.array(m, copy=True)` (optimization.py:325) of an `n` by `n` float array. (An integer array
would keep its integer type and truncate; the callers pass floats.) -/
def toArr {n : ℕ} (m : Fin n → Fin n → ℝ) : Arr :=
  fun i j => if h : i < n ∧ j < n then m ⟨i, h.1⟩ ⟨j, h.2⟩ else 0

/-- One pass of the inner loop of `dpofa` (optimization.py:331-336). For `i = 0` the code skips a sum
that is empty. The divisor `r[i, i]` is the square root of a positive number, hence not 0. -/
noncomputable def dpofaRow (k : ℕ) (st : Arr × ℝ) (i : ℕ) : Arr × ℝ :=
  let r := st.1
  let t := r i k
  let t := if 0 < i then t - ∑ l ∈ Finset.range i, r l i * r l k else t
  let t := t / r i i
  (r.set i k t, st.2 + t * t)

/-- The inner loop over the rows above the diagonal (optimization.py:329-336). -/
noncomputable def dpofaCol (r : Arr) (k : ℕ) : Arr × ℝ := (List.range k).foldl (dpofaRow k) (r, 0)

/-- The outer loop of `dpofa` (optimization.py:327-340), started at column `k` with `fuel` columns
to go. -/
noncomputable def dpofaLoop : ℕ → ℕ → Arr → ℕ × Arr
  | 0, _, r => (0, r)
  | fuel + 1, k, r =>
    let (r, s) := dpofaCol r k
    let s := r k k - s
    if s ≤ 0 then (k + 1, r)
    else dpofaLoop fuel (k + 1) (r.set k k (Real.sqrt s))

/-- `dpofa(m)` (optimization.py:301-341). -/
noncomputable def dpofa {n : ℕ} (m : Fin n → Fin n → ℝ) : ℕ × Arr := dpofaLoop n 0 (toArr m)

/-- `is_pd(m)` (optimization.py:344-360). -/
noncomputable def isPd {n : ℕ} (m : Fin n → Fin n → ℝ) : Bool := decide ((dpofa m).1 = 0)

/-! ## `nearest_pd` -/

open Matrix

/-- The LAPACK routines used by `nearest_pd`: singular values and right factor of the SVD, the
smallest real part of the eigenvalues, and `np.spacing` of the Frobenius norm. -/
structure LinAlg (n : ℕ) where
  svd : Matrix (Fin n) (Fin n) ℝ → (Fin n → ℝ) × Matrix (Fin n) (Fin n) ℝ
  minEig : Matrix (Fin n) (Fin n) ℝ → ℝ
  spacing : Matrix (Fin n) (Fin n) ℝ → ℝ

variable {n : ℕ}

/-- The `while` loop of `nearest_pd` (optimization.py:293-296) with at most `fuel` iterations;
`none` when it has not finished by then. -/
noncomputable def nearestPdLoop (la : LinAlg n) (spacing : ℝ) :
    ℕ → ℕ → Matrix (Fin n) (Fin n) ℝ → Option (Matrix (Fin n) (Fin n) ℝ)
  | fuel, k, A3 =>
    if isPd A3 then some A3
    else match fuel with
      | 0 => none
      | fuel + 1 =>
        nearestPdLoop la spacing fuel (k + 1)
          (A3 + (-(la.minEig A3) * (k:ℝ)^2 + spacing) • (1 : Matrix (Fin n) (Fin n) ℝ))

/-- `A3` of `nearest_pd` (optimization.py:269-276). -/
noncomputable def nearestPdStart (la : LinAlg n) (A : Matrix (Fin n) (Fin n) ℝ) : Matrix (Fin n) (Fin n) ℝ :=
  let B := (1/2 : ℝ) • (A + Aᵀ)
  let (s, V) := la.svd B
  let H := Vᵀ * (Matrix.diagonal s * V)
  let A2 := (1/2 : ℝ) • (B + H)
  (1/2 : ℝ) • (A2 + A2ᵀ)

/-- `nearest_pd(A)` (optimization.py:257-298) when the loop is given `fuel` iterations. -/
noncomputable def nearestPd (la : LinAlg n) (fuel : ℕ) (A : Matrix (Fin n) (Fin n) ℝ) :
    Option (Matrix (Fin n) (Fin n) ℝ) :=
  let A3 := nearestPdStart la A
  if isPd A3 then some A3 else nearestPdLoop la (la.spacing A) fuel 1 A3

/-! ## Quadratic programs -/

/-- The arguments of `quadprog.solve_qp(G, a, C, b, meq)`. -/
structure QP (n m : ℕ) where
  G : Matrix (Fin n) (Fin n) ℝ
  a : Fin n → ℝ
  C : Matrix (Fin n) (Fin m) ℝ
  b : Fin m → ℝ
  meq : ℕ

/-- A QP solver: first component of the result of `quadprog.solve_qp`, or its exception. -/
abbrev QPSolver := ∀ {n m : ℕ}, QP n m → Except Err (Fin n → ℝ)

/-- The parameters computed in `fit` (`G_`, `C_`, `b_`). -/
structure QPParams (n m : ℕ) where
  G : Matrix (Fin n) (Fin n) ℝ
  C : Matrix (Fin n) (Fin m) ℝ
  b : Fin m → ℝ

/-- `if not is_pd(G): G = nearest_pd(G)` (optimization.py:244-245, 469-470); `none` when the loop of
`nearest_pd` has not finished within `fuel` iterations. -/
noncomputable def makePd (la : LinAlg n) (fuel : ℕ) (G : Matrix (Fin n) (Fin n) ℝ) :
    Option (Matrix (Fin n) (Fin n) ℝ) :=
  if isPd G then some G else nearestPd la fuel G

/-- `compute_l2_param_train(train_distrib, classes)` (optimization.py:198-250). -/
noncomputable def computeL2ParamTrain {m : ℕ} (la : LinAlg n) (fuel : ℕ) (T : Matrix (Fin m) (Fin n) ℝ) :
    Option (QPParams n (n + 1)) :=
  (makePd la fuel ((2:ℝ) • (Tᵀ * T))).map fun G =>
    { G := G
      C := fun i c => Fin.cases (motive := fun _ => ℝ) 1 (fun j => if j = i then 1 else 0) c
      b := Fin.cases (motive := fun _ => ℝ) 1 fun _ => 0 }

/-- `solve_l2(train_distrib, test_distrib, G, C, b)` (optimization.py:138-195). -/
noncomputable def solveL2 {m : ℕ} (qp : QPSolver) (T : Matrix (Fin m) (Fin n) ℝ) (q : Fin m → ℝ)
    (par : QPParams n (n + 1)) : Except Err (Fin n → ℝ) :=
  qp { G := par.G, a := (2:ℝ) • (Tᵀ *ᵥ q), C := par.C, b := par.b, meq := 1 }

/-! ## Energy distance -/

/-- `distance_func(A, B).sum()`: the sum of all pairwise distances. -/
def sumDist {P : Type*} (d : P → P → ℝ) (A B : List P) : ℝ :=
  (A.map fun x => (B.map fun y => d x y).sum).sum

/-- The matrix `K` of `compute_ed_param_train` (optimization.py:449-457): only the upper triangle is
computed and mirrored. Classes have at least one example (they come from `np.unique`). -/
noncomputable def edK {P : Type*} (d : P → P → ℝ) (train : Fin (n + 1) → List P) :
    Matrix (Fin (n + 1)) (Fin (n + 1)) ℝ :=
  fun i j => (if i ≤ j then sumDist d (train i) (train j) else sumDist d (train j) (train i))
    / (((train i).length : ℝ) * ((train j).length : ℝ))

/-- The matrix `B` (optimization.py:459-465). -/
noncomputable def edB (K : Matrix (Fin (n + 1)) (Fin (n + 1)) ℝ) : Matrix (Fin n) (Fin n) ℝ :=
  fun i j =>
    let l := Fin.last n
    if j = i then -K i.castSucc i.castSucc - K l l + 2 * K i.castSucc l
    else -K i.castSucc j.castSucc - K l l + K i.castSucc l + K j.castSucc l

/-- `compute_ed_param_train` (optimization.py:409-475): the parameters `G, C, b` given `K`. -/
noncomputable def computeEdParamTrain (la : LinAlg n) (fuel : ℕ) (K : Matrix (Fin (n + 1)) (Fin (n + 1)) ℝ) :
    Option (QPParams n (n + 1)) :=
  (makePd la fuel ((2:ℝ) • edB K)).map fun G =>
    { G := G
      C := fun i c => -Fin.cases (motive := fun _ => ℝ) 1 (fun j => -(if j = i then 1 else 0)) c
      b := fun c => -Fin.cases (motive := fun _ => ℝ) 1 (fun _ => 0) c }

/-- `Kt` of `compute_ed_param_test` (optimization.py:517-521). -/
noncomputable def edKt {P : Type*} (d : P → P → ℝ) (train : Fin (n + 1) → List P) (test : List P) :
    Fin (n + 1) → ℝ :=
  fun i => sumDist d (train i) test / (((train i).length : ℝ) * (test.length : ℝ))

/-- `a` of `compute_ed_param_test` (optimization.py:523). -/
noncomputable def edA (K : Matrix (Fin (n + 1)) (Fin (n + 1)) ℝ) (Kt : Fin (n + 1) → ℝ) : Fin n → ℝ :=
  fun i =>
    let l := Fin.last n
    2 * (-Kt i.castSucc + K i.castSucc l + Kt l - K l l)

/-- `solve_ed(G, a, C, b)` (optimization.py:366-406). -/
noncomputable def solveEd (qp : QPSolver) (par : QPParams n (n + 1)) (a : Fin n → ℝ) :
    Except Err (Fin (n + 1) → ℝ) :=
  (qp { G := par.G, a := a, C := par.C, b := par.b, meq := 0 }).map fun x => Fin.snoc x (1 - ∑ i, x i)

end Verif.Model
