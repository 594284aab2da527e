import Verif.Model.Optimization

/-!
# What is assumed of the numerical libraries, in exact arithmetic
-/

namespace Verif.Spec

open Verif.Model Matrix

variable {n m : ℕ}

/-- The feasible set of `quadprog.solve_qp`: `C.T x >= b`, with equality in the first `meq` rows. -/
def QPFeasible (P : QP n m) (x : Fin n → ℝ) : Prop :=
  ∀ c : Fin m, (c.val < P.meq → (∑ i, P.C i c * x i) = P.b c) ∧ P.b c ≤ ∑ i, P.C i c * x i

/-- The objective of `quadprog.solve_qp`: `1/2 x^T G x - a^T x`. -/
noncomputable def qpObjective (P : QP n m) (x : Fin n → ℝ) : ℝ :=
  (1/2) * (x ⬝ᵥ (P.G *ᵥ x)) - P.a ⬝ᵥ x

/-- `x` solves the quadratic program. -/
def QPSolution (P : QP n m) (x : Fin n → ℝ) : Prop :=
  QPFeasible P x ∧ ∀ y, QPFeasible P y → qpObjective P x ≤ qpObjective P y

/-- An exact QP solver: on a strictly convex, feasible program with at least one variable it returns a
solution. -/
def ExactQP (qp : QPSolver) : Prop :=
  ∀ {n m : ℕ} (P : QP n m), 0 < n → P.G.PosDef → (∃ x, QPFeasible P x) → ∃ x, qp P = .ok x ∧ QPSolution P x

/-- Exact linear algebra: for symmetric `B`, `svd B = (s, V)` comes from a singular value
decomposition `B = U diag(s) V` with orthogonal `U`, `V` and `s >= 0`; `minEig` is the smallest eigenvalue of a
symmetric matrix; spacings are positive. -/
structure ExactLinAlg (la : LinAlg n) : Prop where
  svd : ∀ B : Matrix (Fin n) (Fin n) ℝ, B.IsSymm → ∃ U : Matrix (Fin n) (Fin n) ℝ, Uᵀ * U = 1 ∧ (la.svd B).2 * (la.svd B).2ᵀ = 1
    ∧ (∀ i, 0 ≤ (la.svd B).1 i) ∧ B = U * Matrix.diagonal (la.svd B).1 * (la.svd B).2
  minEig_mem : ∀ B : Matrix (Fin n) (Fin n) ℝ, B.IsSymm → 0 < n → ∃ v, v ≠ 0 ∧ B *ᵥ v = la.minEig B • v
  minEig_le : ∀ B : Matrix (Fin n) (Fin n) ℝ, B.IsSymm → ∀ (μ : ℝ) (v : Fin n → ℝ), v ≠ 0 → B *ᵥ v = μ • v → la.minEig B ≤ μ
  spacing_pos : ∀ B, 0 < la.spacing B

end Verif.Spec
