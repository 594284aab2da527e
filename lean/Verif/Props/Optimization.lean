import Verif.Proof.NearestPd
import Verif.Proof.Solvers
import Verif.Spec.Prevalence

/-!
# C26-C28, C75: the quadratic programs and the linear algebra behind them
-/

namespace Verif.Props

open Verif.Model Verif.Spec Verif.Proof Matrix

variable {n : ℕ}

/-! ## C27 -/

/-- **C27**: `is_pd` decides positive definiteness of symmetric matrices of every size. -/
theorem C27_is_pd (m : Matrix (Fin n) (Fin n) ℝ) (hm : m.IsSymm) : isPd m = true ↔ m.PosDef :=
  isPd_iff m hm

/-- **C27**: when `dpofa` returns 0, the upper triangle `R` of its array satisfies `R^T R = m` and the
strict lower triangle still holds the input. -/
theorem C27_factor (m : Matrix (Fin n) (Fin n) ℝ) (hm : m.IsSymm) (h : (dpofa m).1 = 0) :
    (∀ i j : Fin n, m i j = ∑ l : Fin n, (if l ≤ i then (dpofa m).2 l i else 0) * (if l ≤ j then (dpofa m).2 l j else 0))
    ∧ (∀ i j : Fin n, j < i → (dpofa m).2 i j = m i j) ∧ (∀ i : Fin n, 0 < (dpofa m).2 i i) := by
  rcases dpofaLoop_spec (toArr m) n 0 (toArr m) (inv_init _) with ⟨_, h2⟩ | ⟨k', r', _, h2, h3, _⟩
  · rw [zero_add] at h2
    refine ⟨fun i j => ?_, fun i j hij => ?_, fun i => h2.pos i.val i.2⟩
    · have := congrFun (congrFun (factor m hm n le_rfl _ h2) i) j
      rw [Matrix.mul_apply] at this
      exact this
    · rw [show (dpofa m).2 i.val j.val = toArr m i.val j.val from h2.rest i.val j.val (Or.inr hij)]
      unfold toArr
      rw [dif_pos ⟨i.2, j.2⟩]
  · unfold dpofa at h
    omega

/-- **C27**: otherwise `dpofa` returns the order of the first leading minor that is not positive
definite. -/
theorem C27_leading_minor (m : Matrix (Fin n) (Fin n) ℝ) (hm : m.IsSymm) (k : ℕ) (h : (dpofa m).1 = k + 1) :
    ∃ hk : k + 1 ≤ n, ¬ (m.submatrix (Fin.castLE hk) (Fin.castLE hk)).PosDef
      ∧ ∀ (j : ℕ) (hj : j ≤ k), (m.submatrix (Fin.castLE (by omega : j ≤ n)) (Fin.castLE (by omega : j ≤ n))).PosDef := by
  rcases dpofaLoop_spec (toArr m) n 0 (toArr m) (inv_init _) with ⟨h1, _⟩ | ⟨k', r', _, h2, h3, h4, _, h5⟩
  · unfold dpofa at h
    omega
  · unfold dpofa at h
    have hkk : k' = k := by omega
    subst hkk
    refine ⟨by omega, not_posDef_of_pivot m hm k' (by omega) r' h4 h5, fun j hj => ?_⟩
    have := (posDef_of_inv m hm k' (by omega) r' h4).submatrix (Fin.castLE_injective hj)
    exact this

/-- Non-vacuity: a positive definite and an indefinite symmetric matrix. -/
example : (!![2, 1; 1, 2] : Matrix (Fin 2) (Fin 2) ℝ).IsSymm ∧ (!![2, 1; 1, 2] : Matrix (Fin 2) (Fin 2) ℝ).PosDef := by
  refine ⟨by ext i j; fin_cases i <;> fin_cases j <;> rfl, ?_⟩
  refine Matrix.posDef_iff_dotProduct_mulVec.2 ⟨by ext i j; fin_cases i <;> fin_cases j <;> simp, fun {x} hx => ?_⟩
  simp only [star_trivial, dotProduct, Matrix.mulVec, Fin.sum_univ_two, Matrix.of_apply, Matrix.cons_val_zero,
    Matrix.cons_val_one, Matrix.cons_val_fin_one]
  have : x 0 ≠ 0 ∨ x 1 ≠ 0 := by
    by_contra hcon
    push Not at hcon
    exact hx (by ext i; fin_cases i; exact hcon.1; exact hcon.2)
  rcases this with h | h
  · have := mul_self_pos.2 h
    nlinarith [sq_nonneg (x 0 + x 1), sq_nonneg (x 1)]
  · have := mul_self_pos.2 h
    nlinarith [sq_nonneg (x 0 + x 1), sq_nonneg (x 0)]

/-! ## C75 -/

/-- Squared Frobenius norm. -/
noncomputable def frob (M : Matrix (Fin n) (Fin n) ℝ) : ℝ := ∑ i, ∑ j, M i j ^ 2

/-- `P` is a positive semidefinite matrix nearest to `A` in the Frobenius norm. -/
def IsNearestPSD (A P : Matrix (Fin n) (Fin n) ℝ) : Prop :=
  P.PosSemidef ∧ ∀ X : Matrix (Fin n) (Fin n) ℝ, X.PosSemidef → frob (A - P) ≤ frob (A - X)

theorem frob_eq_trace (M : Matrix (Fin n) (Fin n) ℝ) : frob M = (Mᵀ * M).trace := by
  unfold frob
  rw [Finset.sum_comm]
  simp only [Matrix.trace, Matrix.diag_apply, Matrix.mul_apply, Matrix.transpose_apply, pow_two]

open scoped MatrixOrder in
theorem trace_mul_psd {X N : Matrix (Fin n) (Fin n) ℝ} (hX : X.PosSemidef) (hN : N.PosSemidef) :
    0 ≤ (X * N).trace := by
  obtain ⟨Y, hY⟩ : ∃ Y : Matrix (Fin n) (Fin n) ℝ, N = Yᴴ * Y := CStarAlgebra.nonneg_iff_eq_star_mul_self.1 hN.nonneg
  rw [hY, ← Matrix.mul_assoc, Matrix.trace_mul_comm, ← Matrix.mul_assoc]
  exact (hX.mul_mul_conjTranspose_same Y).trace_nonneg

theorem frob_self_zero {M : Matrix (Fin n) (Fin n) ℝ} (h : frob M ≤ 0) : M = 0 := by
  have h0 : frob M = 0 := le_antisymm h (Finset.sum_nonneg fun i _ => Finset.sum_nonneg fun j _ => sq_nonneg _)
  have h1 := (Finset.sum_eq_zero_iff_of_nonneg (s := Finset.univ) (f := fun i => ∑ j, M i j ^ 2)
    fun i _ => Finset.sum_nonneg fun j _ => sq_nonneg _).1 h0
  ext i j
  have h2 := (Finset.sum_eq_zero_iff_of_nonneg (s := Finset.univ) (f := fun j => M i j ^ 2)
    fun j _ => sq_nonneg _).1 (h1 i (Finset.mem_univ i))
  exact (pow_eq_zero_iff two_ne_zero).1 (h2 j (Finset.mem_univ j))

theorem start_nearest (la : LinAlg n) (hla : ExactLinAlg la) (A : Matrix (Fin n) (Fin n) ℝ) :
    IsNearestPSD A (nearestPdStart la A) := by
  obtain ⟨B, H, hB, hBs, hst, hH, hsq, hc, hp, hm⟩ := start_eq la hla A
  have hP : (nearestPdStart la A).PosSemidef := by rw [hst]; exact hp.smul (by norm_num)
  refine ⟨hP, fun X hX => ?_⟩
  set P := nearestPdStart la A with hPd
  have hPs := psd_symm hP
  have hXs := psd_symm hX
  have hN : (P - B).PosSemidef := by
    have : P - B = (1/2:ℝ) • (H - B) := by
      rw [hst, smul_sub, smul_add]
      have : B = (1/2:ℝ) • B + (1/2:ℝ) • B := by rw [← add_smul]; norm_num
      nth_rewrite 2 [this]
      abel
    rw [this]
    exact hm.smul (by norm_num)
  have hPN : P * (P - B) = 0 := by
    have : P - B = (1/2:ℝ) • (H - B) := by
      rw [hst, smul_sub, smul_add]
      have : B = (1/2:ℝ) • B + (1/2:ℝ) • B := by rw [← add_smul]; norm_num
      nth_rewrite 2 [this]
      abel
    rw [this, hst, Matrix.smul_mul, Matrix.mul_smul, Matrix.add_mul, Matrix.mul_sub, Matrix.mul_sub, hsq, hc]
    simp
  have hsymsum : ∀ D : Matrix (Fin n) (Fin n) ℝ, D.IsSymm → ∑ i, ∑ j, D i j * (A i j - P i j) = -(D * (P - B)).trace := by
    intro D hD
    have e1 : (D * (P - B)).trace = ∑ i, ∑ j, D i j * (P i j - B i j) := by
      simp only [Matrix.trace, Matrix.diag_apply, Matrix.mul_apply, Matrix.sub_apply]
      refine Finset.sum_congr rfl fun i _ => Finset.sum_congr rfl fun j _ => ?_
      rw [hPs.apply, hBs.apply]
    have e2 : ∑ i, ∑ j, D i j * A i j = ∑ i, ∑ j, D i j * B i j := by
      have e3 : ∑ i, ∑ j, D i j * A i j = ∑ i, ∑ j, D i j * A j i := by
        rw [Finset.sum_comm]
        refine Finset.sum_congr rfl fun i _ => Finset.sum_congr rfl fun j _ => ?_
        rw [hD.apply]
      have e4 : ∑ i, ∑ j, D i j * B i j = (1/2) * ((∑ i, ∑ j, D i j * A i j) + ∑ i, ∑ j, D i j * A j i) := by
        rw [← Finset.sum_add_distrib, Finset.mul_sum]
        refine Finset.sum_congr rfl fun i _ => ?_
        rw [← Finset.sum_add_distrib, Finset.mul_sum]
        refine Finset.sum_congr rfl fun j _ => ?_
        rw [hB]
        simp only [Matrix.smul_apply, Matrix.add_apply, Matrix.transpose_apply, smul_eq_mul]
        ring
      rw [e4, ← e3]
      ring
    simp only [mul_sub, Finset.sum_sub_distrib] at *
    rw [e1, e2]
    ring
  have hexp : frob (A - X) = frob (A - P) + frob (P - X) + 2 * ∑ i, ∑ j, (P - X) i j * (A i j - P i j) := by
    unfold frob
    rw [Finset.mul_sum, ← Finset.sum_add_distrib, ← Finset.sum_add_distrib]
    refine Finset.sum_congr rfl fun i _ => ?_
    rw [Finset.mul_sum, ← Finset.sum_add_distrib, ← Finset.sum_add_distrib]
    refine Finset.sum_congr rfl fun j _ => ?_
    simp only [Matrix.sub_apply]
    ring
  have hDs : (P - X).IsSymm := by
    rw [Matrix.IsSymm, Matrix.transpose_sub, hPs, hXs]
  rw [hexp, hsymsum (P - X) hDs, Matrix.sub_mul, hPN, zero_sub, Matrix.trace_neg, neg_neg]
  have h1 := trace_mul_psd hX hN
  have h2 : 0 ≤ frob (P - X) := Finset.sum_nonneg fun i _ => Finset.sum_nonneg fun j _ => sq_nonneg _
  linarith

/-- **C75**: with exact linear algebra `nearest_pd` stops after at most one pass through its loop, and
returns a positive definite matrix: a nearest positive semidefinite matrix `P` of the input when `P`
is itself positive definite, and `P` plus one spacing on the diagonal otherwise. -/
theorem C75_nearest_pd (la : LinAlg n) (hla : ExactLinAlg la) (A : Matrix (Fin n) (Fin n) ℝ) (fuel : ℕ) :
    ∃ P R, IsNearestPSD A P ∧ nearestPd la (fuel + 1) A = some R ∧ R.PosDef
      ∧ (R = if isPd P then P else P + la.spacing A • (1 : Matrix (Fin n) (Fin n) ℝ)) := by
  obtain ⟨R, h1, h2, h3⟩ := nearestPd_spec la hla A fuel
  have hn := start_nearest la hla A
  refine ⟨nearestPdStart la A, R, hn, h1, h2, ?_⟩
  have hiff := isPd_iff _ (psd_symm hn.1)
  rcases h3 with ⟨h3, h4⟩ | ⟨h3, h4⟩
  · rw [if_pos (hiff.2 h3), h4]
  · rw [if_neg (fun h => h3 (hiff.1 h)), h4]

/-- **C75**: on a positive semidefinite matrix the only change is one spacing on the diagonal. -/
theorem C75_nearest_pd_of_psd (la : LinAlg n) (hla : ExactLinAlg la) (A : Matrix (Fin n) (Fin n) ℝ) (hA : A.PosSemidef)
    (fuel : ℕ) :
    makePd la (fuel + 1) A
      = some (if isPd A then A else A + la.spacing A • (1 : Matrix (Fin n) (Fin n) ℝ)) := by
  unfold makePd
  by_cases h : isPd A = true
  · rw [if_pos h, if_pos h]
  · rw [if_neg h, if_neg h]
    obtain ⟨P, R, h1, h2, h3, h4⟩ := C75_nearest_pd la hla A fuel
    have hPA : A = P := by
      have := h1.2 A hA
      rw [sub_self] at this
      have hz : frob (0 : Matrix (Fin n) (Fin n) ℝ) = 0 := by simp [frob]
      rw [hz] at this
      exact sub_eq_zero.1 (frob_self_zero this)
    rw [← hPA, if_neg h] at h4
    rw [h2, h4]

/-- A symmetric matrix whose eigenvalues are all above `-c` becomes positive definite when `c` is added to its diagonal. -/
theorem posDef_shift (S : Matrix (Fin n) (Fin n) ℝ) (hS : S.IsSymm) (c : ℝ) (h : ∀ (μ : ℝ) (v : Fin n → ℝ), v ≠ 0 → S *ᵥ v = μ • v → 0 < μ + c) : (S + c • (1 : Matrix (Fin n) (Fin n) ℝ)).PosDef := by
  have hH : (S + c • (1 : Matrix (Fin n) (Fin n) ℝ)).IsHermitian := by
    ext i j
    have := hS.apply i j
    by_cases hij : i = j
    · subst hij; simp
    · simp [Matrix.one_apply, hij, Ne.symm hij, this]
  rw [hH.posDef_iff_eigenvalues_pos]
  intro i
  have hv := hH.mulVec_eigenvectorBasis i
  set v : Fin n → ℝ := ⇑(hH.eigenvectorBasis i) with hvd
  have hv0 : v ≠ 0 := by
    intro h0
    have := (hH.eigenvectorBasis).orthonormal.ne_zero i
    exact this (by ext j; exact congrFun h0 j)
  have e : S *ᵥ v = (hH.eigenvalues i - c) • v := by
    rw [Matrix.add_mulVec, Matrix.smul_mulVec, Matrix.one_mulVec] at hv
    rw [sub_smul]
    exact eq_sub_of_add_eq hv
  have := h _ v hv0 e
  linarith

/-- **C75**, with inexact factorisations: whatever the SVD returns, if the eigenvalue used is less than one spacing above the smallest one, `nearest_pd` stops after at most one pass through its loop and returns a symmetric
positive definite matrix. -/
theorem C75_nearest_pd_any_svd (la : LinAlg n) (A : Matrix (Fin n) (Fin n) ℝ) (heig : ∀ B : Matrix (Fin n) (Fin n) ℝ, B.IsSymm → ∀ (μ : ℝ) (v : Fin n → ℝ), v ≠ 0 → B *ᵥ v = μ • v → la.minEig B < μ + la.spacing A) (fuel : ℕ) :
    ∃ R, nearestPd la (fuel + 1) A = some R ∧ R.PosDef := by
  have hs : (nearestPdStart la A).IsSymm := by
    unfold nearestPdStart Matrix.IsSymm
    simp only [Matrix.transpose_smul, Matrix.transpose_add, Matrix.transpose_transpose]
    rw [add_comm]
  simp only [nearestPd]
  by_cases h1 : isPd (nearestPdStart la A) = true
  · exact ⟨_, if_pos h1, (isPd_iff _ hs).1 h1⟩
  · rw [if_neg h1]
    unfold nearestPdLoop
    rw [if_neg h1]
    have h2 := posDef_shift _ hs (-(la.minEig (nearestPdStart la A)) * ((1 : ℕ) : ℝ) ^ 2 + la.spacing A) (by
      intro μ v hv he
      have := heig _ hs μ v hv he
      norm_num
      linarith)
    refine ⟨_, ?_, h2⟩
    show nearestPdLoop la (la.spacing A) fuel (1 + 1) _ = _
    unfold nearestPdLoop
    rw [if_pos ((isPd_iff _ (psd_symm h2.posSemidef)).2 h2)]

/-- Non-vacuity: a factorisation that always answers zero is within the hypothesis when the eigenvalues are exact; the start is then half of the symmetric part of the input, which can be indefinite. -/
example : ∃ la : LinAlg n, (∀ B, (la.svd B).1 = 0) ∧ ∀ A B : Matrix (Fin n) (Fin n) ℝ, B.IsSymm → ∀ (μ : ℝ) (v : Fin n → ℝ), v ≠ 0 → B *ᵥ v = μ • v → la.minEig B < μ + la.spacing A := by
  obtain ⟨la, h⟩ := exactLinAlg_exists n
  refine ⟨⟨fun _ => (0, 0), la.minEig, la.spacing⟩, fun _ => rfl, fun A B hB μ v hv he => ?_⟩
  have := h.minEig_le B hB μ v hv he
  have := h.spacing_pos A
  simp only
  linarith

/-- Non-vacuity: exact linear algebra exists for every size. -/
example : ∃ la : LinAlg n, ExactLinAlg la := exactLinAlg_exists n

/-! ## C26 -/

/-- The loss the user asks for: `||T p - q||^2`. -/
noncomputable def l2Loss {m : ℕ} (T : Matrix (Fin m) (Fin n) ℝ) (q : Fin m → ℝ) (p : Fin n → ℝ) : ℝ :=
  ∑ k, ((∑ i, T k i * p i) - q k) ^ 2

theorem l2_feasible_iff (G : Matrix (Fin n) (Fin n) ℝ) (a x : Fin n → ℝ) :
    QPFeasible (n := n) (m := n + 1) ⟨G, a, fun i c => Fin.cases (motive := fun _ => ℝ) 1 (fun j => if j = i then 1 else 0) c,
      Fin.cases (motive := fun _ => ℝ) 1 (fun _ => 0), 1⟩ x ↔ IsPrev x := by
  unfold QPFeasible IsPrev
  constructor
  · intro h
    refine ⟨fun i => ?_, ?_⟩
    · have := (h i.succ).2
      simpa using this
    · have := (h 0).1 (by simp)
      simpa using this
  · rintro ⟨h0, h1⟩ c
    refine Fin.cases ?_ (fun j => ?_) c
    · simp [h1]
    · simp [h0 j]

theorem l2_objective (T : Matrix (Fin m) (Fin n) ℝ) (q : Fin m → ℝ) (δ : ℝ) (C : Matrix (Fin n) (Fin (n+1)) ℝ) (b : Fin (n+1) → ℝ)
    (x : Fin n → ℝ) :
    qpObjective ⟨(2:ℝ) • (Tᵀ * T) + δ • (1 : Matrix (Fin n) (Fin n) ℝ), (2:ℝ) • (Tᵀ *ᵥ q), C, b, 1⟩ x
      = l2Loss T q x + δ / 2 * (∑ i, x i ^ 2) - ∑ k, q k ^ 2 := by
  have hTT : x ⬝ᵥ ((Tᵀ * T) *ᵥ x) = ∑ k, (∑ i, T k i * x i) ^ 2 := by
    rw [← Matrix.mulVec_mulVec, Matrix.dotProduct_mulVec, Matrix.vecMul_transpose]
    simp only [dotProduct, Matrix.mulVec, pow_two]
  have ha : (Tᵀ *ᵥ q) ⬝ᵥ x = ∑ k, (∑ i, T k i * x i) * q k := by
    rw [Matrix.mulVec_transpose, ← Matrix.dotProduct_mulVec]
    simp only [dotProduct, Matrix.mulVec]
    exact Finset.sum_congr rfl fun k _ => mul_comm _ _
  have hxx : x ⬝ᵥ x = ∑ i, x i ^ 2 := by simp only [dotProduct, pow_two]
  unfold qpObjective l2Loss
  simp only [Matrix.add_mulVec, Matrix.smul_mulVec, Matrix.one_mulVec, dotProduct_add, dotProduct_smul, smul_dotProduct,
    smul_eq_mul, hTT, ha, hxx]
  have : ∑ k, ((∑ i, T k i * x i) - q k) ^ 2
      = (∑ k, (∑ i, T k i * x i) ^ 2) - 2 * (∑ k, (∑ i, T k i * x i) * q k) + ∑ k, q k ^ 2 := by
    rw [Finset.mul_sum, ← Finset.sum_sub_distrib, ← Finset.sum_add_distrib]
    exact Finset.sum_congr rfl fun k _ => by ring
  rw [this]
  ring

theorem gram_psd (T : Matrix (Fin m) (Fin n) ℝ) : ((2:ℝ) • (Tᵀ * T)).PosSemidef := by
  have := Matrix.posSemidef_conjTranspose_mul_self T
  rw [Matrix.conjTranspose_eq_transpose_of_trivial] at this
  exact this.smul (by norm_num)

/-- The ridge added by `compute_l2_param_train`: 0 when the columns of `T` are linearly independent
(positive definite Gram matrix), one spacing otherwise. -/
noncomputable def ridge {m : ℕ} (la : LinAlg n) (T : Matrix (Fin m) (Fin n) ℝ) : ℝ :=
  open Classical in if ((2:ℝ) • (Tᵀ * T)).PosDef then 0 else la.spacing ((2:ℝ) • (Tᵀ * T))

theorem l2_params (la : LinAlg n) (hla : ExactLinAlg la) (T : Matrix (Fin m) (Fin n) ℝ) (fuel : ℕ) :
    computeL2ParamTrain la (fuel + 1) T = some
      ⟨(2:ℝ) • (Tᵀ * T) + ridge la T • (1 : Matrix (Fin n) (Fin n) ℝ),
        fun i c => Fin.cases (motive := fun _ => ℝ) 1 (fun j => if j = i then 1 else 0) c,
        Fin.cases (motive := fun _ => ℝ) 1 fun _ => 0⟩
    ∧ ((2:ℝ) • (Tᵀ * T) + ridge la T • (1 : Matrix (Fin n) (Fin n) ℝ)).PosDef := by
  have hpsd := gram_psd T
  have hiff := isPd_iff _ (psd_symm hpsd)
  unfold computeL2ParamTrain ridge
  rw [C75_nearest_pd_of_psd la hla _ hpsd fuel]
  by_cases h : ((2:ℝ) • (Tᵀ * T)).PosDef
  · rw [if_pos (hiff.2 h), if_pos h, zero_smul, add_zero]
    exact ⟨rfl, h⟩
  · rw [if_neg (fun h' => h (hiff.1 h')), if_neg h]
    exact ⟨rfl, posDef_add_smul_one _ hpsd (hla.spacing_pos _)⟩

theorem sum_sq_bounds (x : Fin n → ℝ) (hx : IsPrev x) : 0 ≤ ∑ i, x i ^ 2 ∧ ∑ i, x i ^ 2 ≤ 1 := by
  refine ⟨Finset.sum_nonneg fun _ _ => sq_nonneg _, ?_⟩
  rw [← hx.2]
  refine Finset.sum_le_sum fun i _ => ?_
  have h0 := hx.1 i
  have h1 := hx.le_one i
  nlinarith

theorem exists_prev (hn : 0 < n) : ∃ x : Fin n → ℝ, IsPrev x := by
  refine ⟨Pi.single ⟨0, hn⟩ 1, fun i => ?_, by simp⟩
  rw [Pi.single_apply]
  split <;> norm_num

/-- **C26**: for every training matrix and every test vector, computing the parameters and calling an
exact QP solver succeeds and returns a valid prevalence vector that minimises
`||T p - q||^2 + (ridge/2) ||p||^2` over all valid prevalence vectors. -/
theorem C26_l2 {m : ℕ} (qp : QPSolver) (hqp : ExactQP qp) (la : LinAlg n) (hla : ExactLinAlg la) (hn : 0 < n)
    (T : Matrix (Fin m) (Fin n) ℝ) (q : Fin m → ℝ) (fuel : ℕ) :
    ∃ par p, computeL2ParamTrain la (fuel + 1) T = some par ∧ solveL2 qp T q par = .ok p ∧ IsPrev p
      ∧ ∀ p', IsPrev p' → l2Loss T q p + ridge la T / 2 * (∑ i, p i ^ 2)
          ≤ l2Loss T q p' + ridge la T / 2 * (∑ i, p' i ^ 2) := by
  obtain ⟨hpar, hpd⟩ := l2_params la hla T fuel
  obtain ⟨x0, hx0⟩ := exists_prev hn
  obtain ⟨p, hp, hf, hmin⟩ := hqp
    (⟨(2:ℝ) • (Tᵀ * T) + ridge la T • (1 : Matrix (Fin n) (Fin n) ℝ), (2:ℝ) • (Tᵀ *ᵥ q),
      fun i c => Fin.cases (motive := fun _ => ℝ) 1 (fun j => if j = i then 1 else 0) c,
      Fin.cases (motive := fun _ => ℝ) 1 fun _ => 0, 1⟩ : QP n (n + 1)) hn hpd ⟨x0, (l2_feasible_iff _ _ x0).2 hx0⟩
  refine ⟨_, p, hpar, hp, (l2_feasible_iff _ _ p).1 hf, fun p' hp' => ?_⟩
  have := hmin p' ((l2_feasible_iff _ _ p').2 hp')
  have e1 := l2_objective T q (ridge la T)
    (fun i c => Fin.cases (motive := fun _ => ℝ) 1 (fun j => if j = i then 1 else 0) c)
    (Fin.cases (motive := fun _ => ℝ) 1 fun _ => 0)
  have := (e1 p).ge.trans (this.trans (e1 p').le)
  linarith

/-- Non-vacuity of C26: an exact QP solver and exact linear algebra exist. -/
example : (∃ qp : QPSolver, ExactQP qp) ∧ ∃ la : LinAlg 3, ExactLinAlg la := ⟨exactQP_exists, exactLinAlg_exists 3⟩

/-- **C26**: with a positive definite Gram matrix the result minimises the L2 loss exactly. -/
theorem C26_l2_exact {m : ℕ} (qp : QPSolver) (hqp : ExactQP qp) (la : LinAlg n) (hla : ExactLinAlg la) (hn : 0 < n)
    (T : Matrix (Fin m) (Fin n) ℝ) (q : Fin m → ℝ) (fuel : ℕ) (hT : ∀ x : Fin n → ℝ, T *ᵥ x = 0 → x = 0) :
    ∃ par p, computeL2ParamTrain la (fuel + 1) T = some par ∧ solveL2 qp T q par = .ok p ∧ IsPrev p
      ∧ ∀ p', IsPrev p' → l2Loss T q p ≤ l2Loss T q p' := by
  obtain ⟨par, p, h1, h2, h3, h4⟩ := C26_l2 qp hqp la hla hn T q fuel
  have hpd : ((2:ℝ) • (Tᵀ * T)).PosDef := by
    have : (Tᵀ * T).PosDef := by
      rw [← Matrix.conjTranspose_eq_transpose_of_trivial]
      refine Matrix.PosDef.conjTranspose_mul_self T fun x y hxy => ?_
      have := hT (x - y) (by rw [Matrix.mulVec_sub, hxy, sub_self])
      exact sub_eq_zero.1 this
    exact this.smul two_pos
  refine ⟨par, p, h1, h2, h3, fun p' hp' => ?_⟩
  have := h4 p' hp'
  unfold ridge at this
  rw [if_pos hpd] at this
  simpa using this

/-- **C26**: in every case the L2 loss of the result is within half a spacing of the minimum. -/
theorem C26_l2_near {m : ℕ} (qp : QPSolver) (hqp : ExactQP qp) (la : LinAlg n) (hla : ExactLinAlg la) (hn : 0 < n)
    (T : Matrix (Fin m) (Fin n) ℝ) (q : Fin m → ℝ) (fuel : ℕ) :
    ∃ par p, computeL2ParamTrain la (fuel + 1) T = some par ∧ solveL2 qp T q par = .ok p ∧ IsPrev p
      ∧ ∀ p', IsPrev p' → l2Loss T q p ≤ l2Loss T q p' + la.spacing ((2:ℝ) • (Tᵀ * T)) / 2 := by
  obtain ⟨par, p, h1, h2, h3, h4⟩ := C26_l2 qp hqp la hla hn T q fuel
  refine ⟨par, p, h1, h2, h3, fun p' hp' => ?_⟩
  have := h4 p' hp'
  have hr : 0 ≤ ridge la T ∧ ridge la T ≤ la.spacing ((2:ℝ) • (Tᵀ * T)) := by
    have := hla.spacing_pos ((2:ℝ) • (Tᵀ * T))
    unfold ridge
    split
    · exact ⟨le_rfl, this.le⟩
    · exact ⟨this.le, le_rfl⟩
  have b1 := sum_sq_bounds p h3
  have b2 := sum_sq_bounds p' hp'
  have i1 : 0 ≤ ridge la T / 2 * ∑ i, p i ^ 2 := mul_nonneg (by linarith) b1.1
  have i2 : ridge la T / 2 * ∑ i, p' i ^ 2 ≤ ridge la T / 2 * 1 := mul_le_mul_of_nonneg_left b2.2 (by linarith)
  linarith

/-! ## C28 -/

/-- Average distance between the points of two samples. -/
noncomputable def avgDist {P : Type*} (d : P → P → ℝ) (A B : List P) : ℝ :=
  (A.map fun x => (B.map fun y => d x y).sum).sum / (A.length * B.length)

/-- The energy loss: `2 E d(mix, test) - E d(mix, mix)`, where `mix` draws a class from `p` and then an
example of that class. (The energy distance is this minus `E d(test, test)`, which does not depend
on `p`.) -/
noncomputable def energyLoss {P : Type*} (d : P → P → ℝ) (train : Fin (n + 1) → List P) (test : List P)
    (p : Fin (n + 1) → ℝ) : ℝ :=
  2 * (∑ i, p i * avgDist d (train i) test) - ∑ i, ∑ j, p i * p j * avgDist d (train i) (train j)

theorem sumDist_comm {P : Type*} (d : P → P → ℝ) (hd : ∀ x y, d x y = d y x) (A B : List P) :
    sumDist d A B = sumDist d B A := by
  unfold sumDist
  induction A with
  | nil => simp
  | cons a A ih =>
    rw [List.map_cons, List.sum_cons, ih]
    have : (fun x => (List.map (fun y => d x y) (a :: A)).sum) = fun x => d a x + (List.map (fun y => d x y) A).sum := by
      funext x
      rw [List.map_cons, List.sum_cons, hd]
    rw [this, List.sum_map_add]

theorem edK_eq {P : Type*} (d : P → P → ℝ) (hd : ∀ x y, d x y = d y x) (train : Fin (n + 1) → List P)
    (i j : Fin (n + 1)) : edK d train i j = avgDist d (train i) (train j) := by
  unfold edK avgDist
  congr 1
  split
  · rfl
  · exact sumDist_comm d hd _ _

theorem edK_symm {P : Type*} (d : P → P → ℝ) (hd : ∀ x y, d x y = d y x) (train : Fin (n + 1) → List P)
    (i j : Fin (n + 1)) : edK d train i j = edK d train j i := by
  rw [edK_eq d hd, edK_eq d hd]
  unfold avgDist
  rw [show ((train i).map fun x => ((train j).map fun y => d x y).sum).sum = sumDist d (train i) (train j) from rfl,
    sumDist_comm d hd, mul_comm]
  rfl

theorem ed_objective (K : Matrix (Fin (n + 1)) (Fin (n + 1)) ℝ) (hK : ∀ i j, K i j = K j i) (Kt : Fin (n + 1) → ℝ)
    (δ : ℝ) (C : Matrix (Fin n) (Fin (n + 1)) ℝ) (b : Fin (n + 1) → ℝ) (x : Fin n → ℝ) :
    let p : Fin (n + 1) → ℝ := Fin.snoc x (1 - ∑ i, x i)
    qpObjective ⟨(2:ℝ) • edB K + δ • (1 : Matrix (Fin n) (Fin n) ℝ), edA K Kt, C, b, 0⟩ x
      = 2 * (∑ i, p i * Kt i) - (∑ i, ∑ j, p i * p j * K i j) + δ / 2 * (∑ i, x i ^ 2)
        - (2 * Kt (Fin.last n) - K (Fin.last n) (Fin.last n)) := by
  intro p
  set l := Fin.last n
  set s := ∑ i, x i with hs
  have hB : ∀ i j, edB K i j = -K i.castSucc j.castSucc - K l l + K i.castSucc l + K j.castSucc l := by
    intro i j
    unfold edB
    by_cases h : j = i
    · subst h; simp only [if_true]; ring
    · simp only [if_neg h]
      rfl
  have hq : x ⬝ᵥ (edB K *ᵥ x) = -(∑ i, ∑ j, x i * x j * K i.castSucc j.castSucc) - s ^ 2 * K l l
      + 2 * (s * ∑ i, x i * K i.castSucc l) := by
    simp only [dotProduct, Matrix.mulVec, hB]
    have e : ∀ i, x i * ∑ j, (-K i.castSucc j.castSucc - K l l + K i.castSucc l + K j.castSucc l) * x j
        = -(∑ j, x i * x j * K i.castSucc j.castSucc) - x i * s * K l l + x i * K i.castSucc l * s + x i * ∑ j, x j * K j.castSucc l := by
      intro i
      rw [hs]
      simp only [Finset.mul_sum, Finset.sum_mul]
      rw [← Finset.sum_neg_distrib, ← Finset.sum_sub_distrib, ← Finset.sum_add_distrib, ← Finset.sum_add_distrib]
      refine Finset.sum_congr rfl fun j _ => ?_
      ring
    simp only [e]
    rw [Finset.sum_add_distrib, Finset.sum_add_distrib, Finset.sum_sub_distrib, Finset.sum_neg_distrib,
      ← Finset.sum_mul, ← Finset.sum_mul, ← Finset.sum_mul, ← Finset.sum_mul, ← hs]
    ring
  have ha : edA K Kt ⬝ᵥ x = 2 * (-(∑ i, x i * Kt i.castSucc) + (∑ i, x i * K i.castSucc l) + s * (Kt l - K l l)) := by
    simp only [dotProduct, edA]
    rw [hs, Finset.sum_mul, ← Finset.sum_neg_distrib, ← Finset.sum_add_distrib, ← Finset.sum_add_distrib, Finset.mul_sum]
    refine Finset.sum_congr rfl fun i _ => ?_
    ring
  have hxx : x ⬝ᵥ x = ∑ i, x i ^ 2 := by simp only [dotProduct, pow_two]
  have h1 : ∑ i, p i * Kt i = (∑ i, x i * Kt i.castSucc) + (1 - s) * Kt l := by
    rw [Fin.sum_univ_castSucc]
    simp only [p, Fin.snoc_castSucc, Fin.snoc_last]
    rfl
  have h2 : ∑ i, ∑ j, p i * p j * K i j = (∑ i, ∑ j, x i * x j * K i.castSucc j.castSucc)
      + 2 * ((1 - s) * ∑ i, x i * K i.castSucc l) + (1 - s) ^ 2 * K l l := by
    rw [Fin.sum_univ_castSucc]
    simp only [Fin.sum_univ_castSucc]
    simp only [p, Fin.snoc_castSucc, Fin.snoc_last]
    rw [Finset.sum_add_distrib]
    have e1 : ∑ i, x i * (1 - s) * K i.castSucc l = (1 - s) * ∑ i, x i * K i.castSucc l := by
      rw [Finset.mul_sum]
      exact Finset.sum_congr rfl fun i _ => by ring
    have e2 : ∑ i, (1 - s) * x i * K l i.castSucc = (1 - s) * ∑ i, x i * K i.castSucc l := by
      rw [Finset.mul_sum]
      exact Finset.sum_congr rfl fun i _ => by rw [hK l]; ring
    rw [e1, e2]
    ring
  unfold qpObjective
  simp only [Matrix.add_mulVec, Matrix.smul_mulVec, Matrix.one_mulVec, dotProduct_add, dotProduct_smul, smul_eq_mul,
    hq, ha, hxx, h1, h2]
  ring

theorem ed_feasible_iff (G : Matrix (Fin n) (Fin n) ℝ) (a x : Fin n → ℝ) :
    QPFeasible (n := n) (m := n + 1) ⟨G, a,
      fun i c => -Fin.cases (motive := fun _ => ℝ) 1 (fun j => -(if j = i then 1 else 0)) c,
      fun c => -Fin.cases (motive := fun _ => ℝ) 1 (fun _ => 0) c, 0⟩ x
      ↔ IsPrev (Fin.snoc x (1 - ∑ i, x i) : Fin (n + 1) → ℝ) := by
  unfold QPFeasible IsPrev
  have hsum : ∑ i, (Fin.snoc x (1 - ∑ i, x i) : Fin (n + 1) → ℝ) i = 1 := by
    rw [Fin.sum_univ_castSucc]
    simp
  constructor
  · intro h
    refine ⟨fun i => ?_, hsum⟩
    refine Fin.lastCases ?_ (fun j => ?_) i
    · have := (h 0).2
      simp only [Fin.cases_zero, neg_mul, one_mul, Finset.sum_neg_distrib] at this
      simp only [Fin.snoc_last]
      linarith
    · have := (h j.succ).2
      simp only [Fin.cases_succ, neg_neg, neg_zero] at this
      simp only [Fin.snoc_castSucc]
      simpa using this
  · rintro ⟨h0, _⟩ c
    refine ⟨fun hc => absurd hc (by simp), ?_⟩
    refine Fin.cases ?_ (fun j => ?_) c
    · have := h0 (Fin.last n)
      simp only [Fin.snoc_last] at this
      simp only [Fin.cases_zero, neg_mul, one_mul, Finset.sum_neg_distrib]
      linarith
    · have := h0 j.castSucc
      simp only [Fin.snoc_castSucc] at this
      simp only [Fin.cases_succ, neg_neg, neg_zero]
      simpa using this

theorem snoc_of_prev (p : Fin (n + 1) → ℝ) (hp : IsPrev p) :
    (Fin.snoc (fun i => p i.castSucc) (1 - ∑ i : Fin n, p i.castSucc) : Fin (n + 1) → ℝ) = p := by
  have h := hp.2
  rw [Fin.sum_univ_castSucc] at h
  funext i
  refine Fin.lastCases ?_ (fun j => ?_) i
  · rw [Fin.snoc_last]; linarith
  · rw [Fin.snoc_castSucc]

theorem edB_symm (K : Matrix (Fin (n + 1)) (Fin (n + 1)) ℝ) (hK : ∀ i j, K i j = K j i) : (edB K).IsSymm := by
  ext i j
  rw [Matrix.transpose_apply]
  unfold edB
  by_cases h : j = i
  · subst h; rfl
  · rw [if_neg h, if_neg (Ne.symm h), hK j.castSucc i.castSucc]
    ring

theorem ed_general {P : Type*} (hn : 0 < n) (qp : QPSolver) (hqp : ExactQP qp) (la : LinAlg n) (d : P → P → ℝ) (hd : ∀ x y, d x y = d y x)
    (train : Fin (n + 1) → List P) (test : List P) (fuel : ℕ) (δ : ℝ)
    (hG : makePd la fuel ((2:ℝ) • edB (edK d train)) = some ((2:ℝ) • edB (edK d train) + δ • (1 : Matrix (Fin n) (Fin n) ℝ)))
    (hpd : ((2:ℝ) • edB (edK d train) + δ • (1 : Matrix (Fin n) (Fin n) ℝ)).PosDef) :
    ∃ par p, computeEdParamTrain la fuel (edK d train) = some par
      ∧ solveEd qp par (edA (edK d train) (edKt d train test)) = .ok p ∧ IsPrev p
      ∧ ∀ p', IsPrev p' → energyLoss d train test p + δ / 2 * (∑ i : Fin n, p i.castSucc ^ 2)
          ≤ energyLoss d train test p' + δ / 2 * (∑ i : Fin n, p' i.castSucc ^ 2) := by
  obtain ⟨x0, hx0⟩ := exists_prev (Nat.succ_pos n)
  set P0 : QP n (n + 1) := ⟨(2:ℝ) • edB (edK d train) + δ • (1 : Matrix (Fin n) (Fin n) ℝ), edA (edK d train) (edKt d train test),
      fun i c => -Fin.cases (motive := fun _ => ℝ) 1 (fun j => -(if j = i then 1 else 0)) c,
      fun c => -Fin.cases (motive := fun _ => ℝ) 1 (fun _ => 0) c, 0⟩ with hP0
  have hfeas : ∀ p, IsPrev p → QPFeasible P0 fun i => p i.castSucc := by
    intro p hp
    refine (ed_feasible_iff _ _ _).2 ?_
    rw [snoc_of_prev p hp]
    exact hp
  obtain ⟨x, hx, hf, hmin⟩ := hqp P0 hn hpd ⟨_, hfeas x0 hx0⟩
  have hen : ∀ x : Fin n → ℝ, qpObjective P0 x
      = energyLoss d train test (Fin.snoc x (1 - ∑ i, x i)) + δ / 2 * (∑ i, x i ^ 2)
        - (2 * edKt d train test (Fin.last n) - edK d train (Fin.last n) (Fin.last n)) := by
    intro x
    refine (ed_objective (edK d train) (edK_symm d hd train) (edKt d train test) δ _ _ x).trans ?_
    unfold energyLoss
    simp only [edK_eq d hd]
    rfl
  refine ⟨_, Fin.snoc x (1 - ∑ i, x i), by unfold computeEdParamTrain; rw [hG]; rfl, ?_, (ed_feasible_iff _ _ x).1 hf, fun p' hp' => ?_⟩
  · unfold solveEd
    simp only [← hP0, hx]
    rfl
  · have h := hmin _ (hfeas p' hp')
    rw [hen, hen, snoc_of_prev p' hp'] at h
    simp only [Fin.snoc_castSucc]
    linarith

/-- The class distances see every difference between mixtures of the training classes: weights that add
up to 0 give a negative weighted sum of average distances, unless they are all 0. -/
def Separated {P : Type*} (d : P → P → ℝ) (train : Fin (n + 1) → List P) : Prop :=
  ∀ c : Fin (n + 1) → ℝ, ∑ i, c i = 0 → c ≠ 0 → ∑ i, ∑ j, c i * c j * avgDist d (train i) (train j) < 0

/-- As `Separated`, without strictness: always true for a distance of negative type. -/
def WeaklySeparated {P : Type*} (d : P → P → ℝ) (train : Fin (n + 1) → List P) : Prop :=
  ∀ c : Fin (n + 1) → ℝ, ∑ i, c i = 0 → ∑ i, ∑ j, c i * c j * avgDist d (train i) (train j) ≤ 0

theorem edB_quad (K : Matrix (Fin (n + 1)) (Fin (n + 1)) ℝ) (hK : ∀ i j, K i j = K j i) (x : Fin n → ℝ) :
    x ⬝ᵥ (edB K *ᵥ x) = -∑ i, ∑ j, (Fin.snoc x (-∑ i, x i) : Fin (n + 1) → ℝ) i
      * (Fin.snoc x (-∑ i, x i) : Fin (n + 1) → ℝ) j * K i j := by
  have h := ed_objective K hK 0 0 0 0 x
  unfold qpObjective at h
  have ha : edA K 0 ⬝ᵥ x = 2 * ((∑ i, x i * K i.castSucc (Fin.last n)) - (∑ i, x i) * K (Fin.last n) (Fin.last n)) := by
    simp only [dotProduct, edA, Pi.zero_apply]
    rw [Finset.sum_mul, ← Finset.sum_sub_distrib, Finset.mul_sum]
    exact Finset.sum_congr rfl fun i _ => by ring
  have hexp : ∀ t : ℝ, ∑ i, ∑ j, (Fin.snoc x t : Fin (n + 1) → ℝ) i * (Fin.snoc x t : Fin (n + 1) → ℝ) j * K i j
      = (∑ i, ∑ j, x i * x j * K i.castSucc j.castSucc) + 2 * (t * ∑ i, x i * K i.castSucc (Fin.last n))
        + t ^ 2 * K (Fin.last n) (Fin.last n) := by
    intro t
    rw [Fin.sum_univ_castSucc]
    simp only [Fin.sum_univ_castSucc, Fin.snoc_castSucc, Fin.snoc_last]
    rw [Finset.sum_add_distrib]
    have e1 : ∑ i, x i * t * K i.castSucc (Fin.last n) = t * ∑ i, x i * K i.castSucc (Fin.last n) := by
      rw [Finset.mul_sum]
      exact Finset.sum_congr rfl fun i _ => by ring
    have e2 : ∑ i, t * x i * K (Fin.last n) i.castSucc = t * ∑ i, x i * K i.castSucc (Fin.last n) := by
      rw [Finset.mul_sum]
      exact Finset.sum_congr rfl fun i _ => by rw [hK (Fin.last n)]; ring
    rw [e1, e2]
    ring
  rw [zero_smul, add_zero, Matrix.smul_mulVec, dotProduct_smul, smul_eq_mul, ha] at h
  have e1 := hexp (1 - ∑ i, x i)
  have e2 := hexp (-∑ i, x i)
  dsimp only at h
  simp only [Pi.zero_apply, mul_zero, Finset.sum_const_zero] at h
  rw [e2]
  have h' := h.trans (congrArg (fun z => 0 - z + 0 / 2 * (∑ i, x i ^ 2) - (0 - K (Fin.last n) (Fin.last n))) e1)
  linarith

theorem snoc_sum_zero (x : Fin n → ℝ) : ∑ i, (Fin.snoc x (-∑ i, x i) : Fin (n + 1) → ℝ) i = 0 := by
  rw [Fin.sum_univ_castSucc]
  simp

theorem edB_herm {P : Type*} (d : P → P → ℝ) (hd : ∀ x y, d x y = d y x) (train : Fin (n + 1) → List P) :
    (edB (edK d train)).IsHermitian := by
  rw [Matrix.IsHermitian, Matrix.conjTranspose_eq_transpose_of_trivial]
  exact edB_symm _ (edK_symm d hd train)

theorem edB_psd {P : Type*} (d : P → P → ℝ) (hd : ∀ x y, d x y = d y x) (train : Fin (n + 1) → List P)
    (h : WeaklySeparated d train) : (edB (edK d train)).PosSemidef := by
  refine Matrix.posSemidef_iff_dotProduct_mulVec.2 ⟨edB_herm d hd train, fun x => ?_⟩
  rw [star_trivial, edB_quad _ (edK_symm d hd train)]
  have := h _ (snoc_sum_zero x)
  simp only [edK_eq d hd]
  linarith

theorem edB_pd {P : Type*} (d : P → P → ℝ) (hd : ∀ x y, d x y = d y x) (train : Fin (n + 1) → List P)
    (h : Separated d train) : (edB (edK d train)).PosDef := by
  refine Matrix.posDef_iff_dotProduct_mulVec.2 ⟨edB_herm d hd train, fun {x} hx => ?_⟩
  rw [star_trivial, edB_quad _ (edK_symm d hd train)]
  have := h _ (snoc_sum_zero x) (fun h0 => hx (by
    funext i
    have := congrFun h0 i.castSucc
    rwa [Fin.snoc_castSucc] at this))
  simp only [edK_eq d hd]
  linarith

/-- **C28**: when the class distances separate mixtures of the training classes, solve_ed with an exact
solver returns a valid prevalence vector minimising the energy loss over all valid ones. -/
theorem C28_energy {P : Type*} (hn : 0 < n) (qp : QPSolver) (hqp : ExactQP qp) (la : LinAlg n) (d : P → P → ℝ)
    (hd : ∀ x y, d x y = d y x) (train : Fin (n + 1) → List P) (test : List P)
    (_htrain : ∀ i, train i ≠ []) (_htest : test ≠ []) (fuel : ℕ) (hsep : Separated d train) :
    ∃ par p, computeEdParamTrain la fuel (edK d train) = some par
      ∧ solveEd qp par (edA (edK d train) (edKt d train test)) = .ok p ∧ IsPrev p
      ∧ ∀ p', IsPrev p' → energyLoss d train test p ≤ energyLoss d train test p' := by
  have hpd : ((2:ℝ) • edB (edK d train)).PosDef := (edB_pd d hd train hsep).smul two_pos
  have hsym : ((2:ℝ) • edB (edK d train)).IsSymm := psd_symm hpd.posSemidef
  obtain ⟨par, p, h1, h2, h3, h4⟩ := ed_general hn qp hqp la d hd train test fuel 0
    (by unfold makePd; rw [if_pos ((isPd_iff _ hsym).2 hpd), zero_smul, add_zero]) (by rwa [zero_smul, add_zero])
  refine ⟨par, p, h1, h2, h3, fun p' hp' => ?_⟩
  have := h4 p' hp'
  simpa using this

/-- Non-vacuity: two classes on the line, one example each. -/
example : Separated (fun x y : ℝ => |x - y|) (![[0], [1]] : Fin (1 + 1) → List ℝ) := by
  intro c hc h0
  have hc' : c 0 + c 1 = 0 := by simpa [Fin.sum_univ_succ] using hc
  have h1 : c 1 = -c 0 := by linarith
  have h2 : c 0 ≠ 0 := fun h => h0 (by funext i; fin_cases i; exact h; exact h1.trans (by rw [h, neg_zero]; rfl))
  have := mul_self_pos.2 h2
  simp [Fin.sum_univ_succ, avgDist, h1]
  exact h2

/-- **C28**: without strictness (always the case for distances of negative type, see C76) the result is
within half a spacing of the minimum. -/
theorem C28_energy_near {P : Type*} (hn : 0 < n) (qp : QPSolver) (hqp : ExactQP qp) (la : LinAlg n) (hla : ExactLinAlg la)
    (d : P → P → ℝ) (hd : ∀ x y, d x y = d y x) (train : Fin (n + 1) → List P) (test : List P)
    (_htrain : ∀ i, train i ≠ []) (_htest : test ≠ []) (fuel : ℕ) (hsep : WeaklySeparated d train) :
    ∃ par p, computeEdParamTrain la (fuel + 1) (edK d train) = some par
      ∧ solveEd qp par (edA (edK d train) (edKt d train test)) = .ok p ∧ IsPrev p
      ∧ ∀ p', IsPrev p' → energyLoss d train test p
          ≤ energyLoss d train test p' + la.spacing ((2:ℝ) • edB (edK d train)) / 2 := by
  have hpsd : ((2:ℝ) • edB (edK d train)).PosSemidef := (edB_psd d hd train hsep).smul (by norm_num)
  have hmk := C75_nearest_pd_of_psd la hla _ hpsd fuel
  have hiff := isPd_iff _ (psd_symm hpsd)
  have hsp := hla.spacing_pos ((2:ℝ) • edB (edK d train))
  set δ : ℝ := if isPd ((2:ℝ) • edB (edK d train)) then 0 else la.spacing ((2:ℝ) • edB (edK d train)) with hδ
  have hδ0 : 0 ≤ δ ∧ δ ≤ la.spacing ((2:ℝ) • edB (edK d train)) := by
    rw [hδ]; split
    · exact ⟨le_rfl, hsp.le⟩
    · exact ⟨hsp.le, le_rfl⟩
  have hG : (if isPd ((2:ℝ) • edB (edK d train)) then (2:ℝ) • edB (edK d train)
      else (2:ℝ) • edB (edK d train) + la.spacing ((2:ℝ) • edB (edK d train)) • (1 : Matrix (Fin n) (Fin n) ℝ))
      = (2:ℝ) • edB (edK d train) + δ • (1 : Matrix (Fin n) (Fin n) ℝ) := by
    rw [hδ]; split
    · rw [zero_smul, add_zero]
    · rfl
  rw [hG] at hmk
  have hpd : ((2:ℝ) • edB (edK d train) + δ • (1 : Matrix (Fin n) (Fin n) ℝ)).PosDef := by
    rw [hδ]
    by_cases h : isPd ((2:ℝ) • edB (edK d train)) = true
    · rw [if_pos h, zero_smul, add_zero]; exact hiff.1 h
    · rw [if_neg h]; exact posDef_add_smul_one _ hpsd hsp
  obtain ⟨par, p, h1, h2, h3, h4⟩ := ed_general hn qp hqp la d hd train test (fuel + 1) δ hmk hpd
  refine ⟨par, p, h1, h2, h3, fun p' hp' => ?_⟩
  have := h4 p' hp'
  have bound : ∀ r : Fin (n + 1) → ℝ, IsPrev r → 0 ≤ ∑ i : Fin n, r i.castSucc ^ 2 ∧ ∑ i : Fin n, r i.castSucc ^ 2 ≤ 1 := by
    intro r hr
    have := (sum_sq_bounds r hr).2
    rw [Fin.sum_univ_castSucc] at this
    exact ⟨Finset.sum_nonneg fun _ _ => sq_nonneg _, by nlinarith [sq_nonneg (r (Fin.last n))]⟩
  have b1 := (bound p h3).1
  have b2 := (bound p' hp').2
  have i1 : 0 ≤ δ / 2 * ∑ i : Fin n, p i.castSucc ^ 2 := mul_nonneg (by linarith) b1
  have i2 : δ / 2 * ∑ i : Fin n, p' i.castSucc ^ 2 ≤ δ / 2 * 1 := mul_le_mul_of_nonneg_left b2 (by linarith)
  linarith

end Verif.Props
