import Verif.Model.Search
import Mathlib.Data.Matrix.Mul

/-!
# Model of `solve_l1`, `solve_hd` (optimization.py:22-132) and of the quantifiers that keep the solver's problem

`DFy`, `DFX`, `AC`, `PAC`, `FriedmanME`, `PWKQuantifier`, `ACOrdinal` and `PDFOrdinaly` store the cvxpy problem
returned by the first call and hand it back in the following ones; `DFy`, `DFX`, `FriedmanME` and `QUANTy` do the
same with the mixtures of `global_search`. cvxpy and its solvers are a parameter: a function of the problem data
and of the previous solution, which is the starting point of a warm start.
-/

namespace Verif.Model

open Matrix

/-- The two objectives given to cvxpy. -/
inductive CvxLoss where
  | l1 | hd
  deriving DecidableEq

/-- The objective of `solve_l1` (optimization.py:66) and of `solve_hd` (optimization.py:120-122), as a function of
the prevalences `p`, for training distributions `T` (one column per class) and testing distribution `q`. -/
noncomputable def cvxObjective (loss : CvxLoss) {m n : ℕ} (T : Matrix (Fin m) (Fin n) ℝ) (q : Fin m → ℝ) (p : Fin n → ℝ) : ℝ :=
  match loss with
  | .l1 => ∑ k, |q k - (T *ᵥ p) k|
  | .hd => 1 - ∑ k, Real.sqrt (q k * (T *ᵥ p) k)

/-- `problem.solve()`: the value of the variable, as a function of the data and of the starting point. -/
structure CvxSolver where
  solve : CvxLoss → {m n : ℕ} → Matrix (Fin m) (Fin n) ℝ → (Fin m → ℝ) → Option (Fin n → ℝ) → Fin n → ℝ

/-- A training distribution of any shape. -/
structure Train where
  m : ℕ
  n : ℕ
  T : Matrix (Fin m) (Fin n) ℝ

/-- A vector of any length. -/
abbrev Vec := Σ n : ℕ, (Fin n → ℝ)

/-- A cvxpy problem: the training distribution is a constant of the objective, the testing distribution a
parameter, and the last solution is kept. -/
structure CvxProblem extends Train where
  last : Fin n → ℝ

open Classical in
/-- Assigning the parameter (optimization.py:67, 78, 121, 129): it must have the declared length and, because of
`nonneg=True`, no negative entries; otherwise cvxpy raises a ValueError. (When the problem is built the declared
length is that of `test_distrib` and it is the product with `train_distrib` that fails.) Simplification: a
distribution with a single entry, which `np.squeeze` leaves without dimensions, is a vector here. -/
noncomputable def setParameter (m : ℕ) (q : Vec) : Except Err (Fin m → ℝ) :=
  if h : q.1 = m then
    if ∀ i, 0 ≤ q.2 i then .ok fun i => q.2 (Fin.cast h.symm i) else .error .valueError
  else .error .valueError

/-- `solve_l1` / `solve_hd` (optimization.py:63-84, 117-132): a new problem is built from the given training
distribution, an old one is reused with a new parameter, ignoring the given training distribution. -/
noncomputable def solveCvx (sv : CvxSolver) (loss : CvxLoss) (train : Train) (q : Vec) (problem : Option CvxProblem) :
    Except Err (CvxProblem × Vec) :=
  match problem with
  | none =>
    match setParameter train.m q with
    | .error e => .error e
    | .ok q' => let x := sv.solve loss train.T q' none; .ok (⟨train, x⟩, ⟨train.n, x⟩)
  | some pr =>
    match setParameter pr.m q with
    | .error e => .error e
    | .ok q' => let x := sv.solve loss pr.T q' (some pr.last); .ok ({ pr with last := x }, ⟨pr.n, x⟩)

/-- A quantifier that keeps the problem: what `fit` stores (`F`) yields the training distribution; from it and a
bag `predict` computes either a testing distribution for the solver or an answer without the solver (`AC` when
its matrix can be inverted or there are two classes), or raises; `post` is applied to the solution. -/
structure WarmQuantifier (F B : Type*) where
  train : F → Train
  prep : F → B → Except Err (Vec ⊕ Vec)
  post : F → Vec → Vec

/-- The state of such an object: what `fit` stored, and `problem_`. -/
structure WarmState (F : Type*) where
  fitted : F
  problem : Option CvxProblem

/-- Calls made on the object. Only calls of `fit` that return are considered. -/
inductive WarmCall (F B : Type*) where
  | fit (f : F)
  | predict (b : B)

/-- `fit` ends with `self.problem_ = None` (df.py:274, 563, friedman.py:201, knn.py:113, ac_ordinal.py:164,
pdf.py:209, ac.py:172, 426). -/
def warmFit {F : Type*} (f : F) : WarmState F := ⟨f, none⟩

/-- `predict`: the new state and the answer. An exception leaves the attributes as they were. -/
noncomputable def warmPredict {F B : Type*} (Q : WarmQuantifier F B) (sv : CvxSolver) (loss : CvxLoss) (s : WarmState F) (b : B) :
    WarmState F × Except Err Vec :=
  match Q.prep s.fitted b with
  | .error e => (s, .error e)
  | .ok (.inr direct) => (s, .ok direct)
  | .ok (.inl q) =>
    match solveCvx sv loss (Q.train s.fitted) q s.problem with
    | .error e => (s, .error e)
    | .ok (pr, x) => ({ s with problem := some pr }, .ok (Q.post s.fitted x))

/-- The state after a history of calls that starts with a `fit`. -/
noncomputable def warmRun {F B : Type*} (Q : WarmQuantifier F B) (sv : CvxSolver) (loss : CvxLoss) (s : WarmState F) :
    List (WarmCall F B) → WarmState F
  | [] => s
  | .fit f :: cs => warmRun Q sv loss (warmFit f) cs
  | .predict b :: cs => warmRun Q sv loss (warmPredict Q sv loss s b).1 cs

/-- A quantifier that keeps the mixtures of `global_search` (df.py:348-352, 615-619, friedman.py:263-267,
quantiles.py:232-236): `dist`, the mixture function and the testing distribution come from what was fitted. -/
structure MixQuantifier (F B M T : Type*) where
  dist : M → T → Fl
  mix : F → ℝ → M
  test : F → B → Except Err T
  tol : ℝ

/-- The state of such an object: what `fit` stored, and `mixtures_`. -/
structure MixState (F M : Type*) where
  fitted : F
  mixtures : Option (ℕ → M)

/-- `predict` with `return_mixtures=True`: the new state and the answer. -/
noncomputable def mixPredict {F B M T : Type*} (Q : MixQuantifier F B M T) (s : MixState F M) (b : B) :
    MixState F M × Except Err (Option ℝ) :=
  match Q.test s.fitted b with
  | .error e => (s, .error e)
  | .ok t =>
    match globalSearch Q.dist (Q.mix s.fitted) t Q.tol s.mixtures true with
    | .error e => (s, .error e)
    | .ok (m, p) => ({ s with mixtures := m }, .ok p)

/-- The state after a history of calls; `fit` ends with `self.mixtures_ = None` (df.py:275, 564, friedman.py:202,
quantiles.py:181). -/
noncomputable def mixRun {F B M T : Type*} (Q : MixQuantifier F B M T) (s : MixState F M) : List (WarmCall F B) → MixState F M
  | [] => s
  | .fit f :: cs => mixRun Q ⟨f, none⟩ cs
  | .predict b :: cs => mixRun Q (mixPredict Q s b).1 cs

end Verif.Model
