import Verif.Spec.Solvers
import Verif.Proof.NearestPd
import Mathlib.Analysis.Matrix.Spectrum
import Mathlib.Topology.Order.Compact
import Mathlib.Analysis.Normed.Group.Bounded
import Mathlib.Analysis.Normed.Module.FiniteDimension

/-!
# The contracts of the numerical libraries can be met

Exact solvers exist, so theorems that assume one are not vacuous.
-/

namespace Verif.Proof

open Verif.Model Verif.Spec Matrix

variable {n : ℕ}

theorem quad_lower (G : Matrix (Fin n) (Fin n) ℝ) (hG : G.PosDef) :
    ∃ c : ℝ, 0 < c ∧ ∀ x : Fin n → ℝ, c * ‖x‖ ^ 2 ≤ x ⬝ᵥ (G *ᵥ x) := by
  have hcont : Continuous fun x : Fin n → ℝ => x ⬝ᵥ (G *ᵥ x) := by
    unfold dotProduct Matrix.mulVec dotProduct
    fun_prop
  rcases Nat.eq_zero_or_pos n with h0 | hn
  · subst h0
    refine ⟨1, one_pos, fun x => ?_⟩
    have : x = 0 := Subsingleton.elim _ _
    subst this
    simp
  · have : Nonempty (Fin n) := ⟨⟨0, hn⟩⟩
    have hne : (Metric.sphere (0 : Fin n → ℝ) 1).Nonempty := by
      refine ⟨fun _ => 1, ?_⟩
      rw [mem_sphere_zero_iff_norm, pi_norm_const]
      simp
    obtain ⟨u, hu, hmin⟩ := (isCompact_sphere (0 : Fin n → ℝ) 1).exists_isMinOn hne hcont.continuousOn
    have hu0 : u ≠ 0 := by
      intro h
      rw [mem_sphere_zero_iff_norm, h, norm_zero] at hu
      exact zero_ne_one hu
    have hpos : 0 < u ⬝ᵥ (G *ᵥ u) := by
      have := (Matrix.posDef_iff_dotProduct_mulVec.1 hG).2 hu0
      simpa using this
    refine ⟨_, hpos, fun x => ?_⟩
    by_cases hx : x = 0
    · subst hx; simp
    · have hnx : 0 < ‖x‖ := norm_pos_iff.2 hx
      have hmem : ‖x‖⁻¹ • x ∈ Metric.sphere (0 : Fin n → ℝ) 1 := by
        rw [mem_sphere_zero_iff_norm, norm_smul, norm_inv, norm_norm, inv_mul_cancel₀ hnx.ne']
      have h1 : u ⬝ᵥ (G *ᵥ u) ≤ (‖x‖⁻¹ • x) ⬝ᵥ (G *ᵥ (‖x‖⁻¹ • x)) := hmin hmem
      rw [Matrix.mulVec_smul, dotProduct_smul, smul_dotProduct, smul_eq_mul, smul_eq_mul] at h1
      have h2 := mul_le_mul_of_nonneg_right h1 (sq_nonneg ‖x‖)
      calc _ ≤ _ := h2
        _ = _ := by field_simp

/-- Every strictly convex feasible program has a solution, so an exact solver exists. -/
theorem qp_solution_exists {m : ℕ} (P : QP n m) (hG : P.G.PosDef) (hf : ∃ x, QPFeasible P x) :
    ∃ x, QPSolution P x := by
  obtain ⟨x0, hx0⟩ := hf
  obtain ⟨c, hc, hlow⟩ := quad_lower P.G hG
  have hcont : Continuous fun x : Fin n → ℝ => qpObjective P x := by
    unfold qpObjective dotProduct Matrix.mulVec dotProduct
    fun_prop
  have hclosed : IsClosed {x | QPFeasible P x} := by
    unfold QPFeasible
    simp only [Set.ofPred_forall, Set.ofPred_and]
    refine isClosed_iInter fun k => IsClosed.inter ?_ ?_
    · refine isClosed_iInter fun _ => isClosed_eq (by fun_prop) continuous_const
    · exact isClosed_le continuous_const (by fun_prop)
  have hlin : ∀ x : Fin n → ℝ, P.a ⬝ᵥ x ≤ (∑ i, |P.a i|) * ‖x‖ := by
    intro x
    rw [Finset.sum_mul]
    refine Finset.sum_le_sum fun i _ => ?_
    calc P.a i * x i ≤ |P.a i * x i| := le_abs_self _
      _ = |P.a i| * |x i| := abs_mul _ _
      _ ≤ _ := mul_le_mul_of_nonneg_left (norm_le_pi_norm x i) (abs_nonneg _)
  have hev : ∀ᶠ x in Filter.cocompact (Fin n → ℝ), qpObjective P x0 ≤ qpObjective P x := by
    have h1 := tendsto_norm_cocompact_atTop (E := Fin n → ℝ)
    set S := ∑ i, |P.a i|
    have h2 := h1.eventually_ge_atTop (max 1 (2 * (S + |qpObjective P x0|) / c))
    filter_upwards [h2] with x hx
    have hx1 : 1 ≤ ‖x‖ := (le_max_left _ _).trans hx
    have hx2 : 2 * (S + |qpObjective P x0|) ≤ ‖x‖ * c := by
      have := (le_max_right _ _).trans hx
      rwa [div_le_iff₀ hc] at this
    have h3 := hlow x
    have h4 := hlin x
    have h5 : |qpObjective P x0| ≤ |qpObjective P x0| * ‖x‖ := le_mul_of_one_le_right (abs_nonneg _) hx1
    have h6 : 2 * (S + |qpObjective P x0|) * ‖x‖ ≤ ‖x‖ * c * ‖x‖ := mul_le_mul_of_nonneg_right hx2 (norm_nonneg _)
    have h7 := le_abs_self (qpObjective P x0)
    unfold qpObjective at *
    nlinarith
  obtain ⟨x, hx, hmin⟩ := hcont.continuousOn.exists_isMinOn' hclosed hx0 (hev.filter_mono inf_le_left)
  exact ⟨x, hx, fun y hy => hmin hy⟩

/-- An exact QP solver exists. -/
theorem exactQP_exists : ∃ qp : QPSolver, ExactQP qp := by
  classical
  refine ⟨fun {n m} P => if h : P.G.PosDef ∧ ∃ x, QPFeasible P x then
    .ok (qp_solution_exists P h.1 h.2).choose else .error .valueError, ?_⟩
  intro n m P _ hG hf
  refine ⟨(qp_solution_exists P hG hf).choose, ?_, (qp_solution_exists P hG hf).choose_spec⟩
  simp only [dif_pos (And.intro hG hf)]

theorem svd_symm_exists (B : Matrix (Fin n) (Fin n) ℝ) (hB : B.IsSymm) :
    ∃ (s : Fin n → ℝ) (V U : Matrix (Fin n) (Fin n) ℝ), Uᵀ * U = 1 ∧ V * Vᵀ = 1 ∧ (∀ i, 0 ≤ s i)
      ∧ B = U * Matrix.diagonal s * V := by
  have hH : B.IsHermitian := by
    rw [Matrix.IsHermitian, Matrix.conjTranspose_eq_transpose_of_trivial]; exact hB
  set Q : Matrix (Fin n) (Fin n) ℝ := hH.eigenvectorUnitary.1 with hQ
  set ev := hH.eigenvalues
  have hstar : star Q = Qᵀ := by
    rw [Matrix.star_eq_conjTranspose, Matrix.conjTranspose_eq_transpose_of_trivial]
  have hQQ : Qᵀ * Q = 1 := by
    rw [← hstar]; exact Unitary.coe_star_mul_self _
  have hdec : B = Q * Matrix.diagonal ev * Qᵀ := by
    have := hH.spectral_theorem
    rw [Unitary.conjStarAlgAut_apply] at this
    rw [← hstar]
    exact this
  set sg : Fin n → ℝ := fun i => if 0 ≤ ev i then 1 else -1 with hsg
  have hsg2 : ∀ i, sg i * sg i = 1 := by
    intro i; rw [hsg]; dsimp only; split <;> norm_num
  have hsga : ∀ i, sg i * |ev i| = ev i := by
    intro i; rw [hsg]; dsimp only; split
    · rw [abs_of_nonneg ‹_›, one_mul]
    · rw [abs_of_neg (not_le.1 ‹_›)]; ring
  refine ⟨fun i => |ev i|, Qᵀ, Q * Matrix.diagonal sg, ?_, ?_, fun i => abs_nonneg _, ?_⟩
  · rw [Matrix.transpose_mul, Matrix.diagonal_transpose]
    calc Matrix.diagonal sg * Qᵀ * (Q * Matrix.diagonal sg) = Matrix.diagonal sg * (Qᵀ * Q) * Matrix.diagonal sg := by
          simp only [Matrix.mul_assoc]
      _ = 1 := by
        rw [hQQ, Matrix.mul_one, Matrix.diagonal_mul_diagonal]
        simp only [hsg2, Matrix.diagonal_one]
  · rw [Matrix.transpose_transpose, hQQ]
  · rw [Matrix.mul_assoc Q, Matrix.diagonal_mul_diagonal]
    simp only [hsga]
    exact hdec

/-- Exact linear algebra exists for every size. -/
theorem exactLinAlg_exists (n : ℕ) : ∃ la : LinAlg n, ExactLinAlg la := by
  classical
  have hmin : ∀ B : Matrix (Fin n) (Fin n) ℝ, ∃ r : ℝ, B.IsSymm →
      (0 < n → ∃ v, v ≠ 0 ∧ B *ᵥ v = r • v) ∧ ∀ (μ : ℝ) (v : Fin n → ℝ), v ≠ 0 → B *ᵥ v = μ • v → r ≤ μ := by
    intro B
    by_cases hB : B.IsSymm
    · rcases Nat.eq_zero_or_pos n with h0 | hn
      · subst h0
        exact ⟨0, fun _ => ⟨fun h => absurd h (lt_irrefl _), fun μ v hv => absurd (Subsingleton.elim v 0) hv⟩⟩
      · have : Nonempty (Fin n) := ⟨⟨0, hn⟩⟩
        have hH : B.IsHermitian := by
          rw [Matrix.IsHermitian, Matrix.conjTranspose_eq_transpose_of_trivial]; exact hB
        obtain ⟨i, -, hi⟩ := Finset.exists_min_image Finset.univ hH.eigenvalues Finset.univ_nonempty
        refine ⟨hH.eigenvalues i, fun _ => ⟨fun _ => ⟨⇑(hH.eigenvectorBasis i), ?_, hH.mulVec_eigenvectorBasis i⟩,
          fun μ v hv hBv => ?_⟩⟩
        · intro h
          have := hH.eigenvectorBasis.orthonormal.ne_zero i
          exact this (by ext j; exact congrFun h j)
        · have : μ ∈ spectrum ℝ B := by
            rw [← Matrix.spectrum_toLin']
            refine Module.End.HasEigenvalue.mem_spectrum (Module.End.hasEigenvalue_of_hasEigenvector
              (x := v) ⟨Module.End.mem_eigenspace_iff.2 ?_, hv⟩)
            rw [Matrix.toLin'_apply, hBv]
          rw [hH.spectrum_real_eq_range_eigenvalues] at this
          obtain ⟨j, hj⟩ := this
          rw [← hj]
          exact hi j (Finset.mem_univ j)
    · exact ⟨0, fun h => absurd h hB⟩
  refine ⟨⟨fun B => if h : B.IsSymm then ((svd_symm_exists B h).choose, (svd_symm_exists B h).choose_spec.choose) else (0, 0),
    fun B => (hmin B).choose, fun _ => 1⟩, ?_, ?_, ?_, fun _ => one_pos⟩
  · intro B hB
    obtain ⟨U, h⟩ := (svd_symm_exists B hB).choose_spec.choose_spec
    refine ⟨U, ?_⟩
    simp only [dif_pos hB]
    exact h
  · exact fun B hB hn => ((hmin B).choose_spec hB).1 hn
  · exact fun B hB => ((hmin B).choose_spec hB).2

end Verif.Proof
