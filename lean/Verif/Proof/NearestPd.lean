import Verif.Proof.Dpofa
import Verif.Spec.Solvers
import Mathlib.Analysis.Matrix.Order

/-!
# Proofs about `nearest_pd`
-/

namespace Verif.Proof

open Verif.Model Verif.Spec Matrix

variable {n : ℕ}

open scoped MatrixOrder in
/-- Positive semidefinite square roots are unique. -/
theorem psd_sq_inj {A B : Matrix (Fin n) (Fin n) ℝ} (hA : A.PosSemidef) (hB : B.PosSemidef) (h : A * A = B * B) : A = B := by
  have hA' : 0 ≤ A := hA.nonneg
  have hB' : 0 ≤ B := hB.nonneg
  rw [← CFC.sqrt_mul_self A hA', h, CFC.sqrt_mul_self B hB']

theorem isPd_iff (m : Matrix (Fin n) (Fin n) ℝ) (hm : m.IsSymm) : isPd m = true ↔ m.PosDef := by
  unfold isPd
  rw [decide_eq_true_eq]
  have hsub : m.submatrix (Fin.castLE le_rfl) (Fin.castLE le_rfl) = m := by
    ext i j; rfl
  rcases dpofaLoop_spec (toArr m) n 0 (toArr m) (inv_init _) with ⟨h1, h2⟩ | ⟨k', r', _, h2, h3, h4, _, h5⟩
  · refine ⟨fun _ => ?_, fun _ => h1⟩
    rw [zero_add] at h2
    rw [← hsub]
    exact posDef_of_inv m hm n le_rfl _ h2
  · constructor
    · intro h
      unfold dpofa at h
      omega
    · intro h
      exact absurd (h.submatrix (Fin.castLE_injective (by omega : k' + 1 ≤ n)))
        (not_posDef_of_pivot m hm k' (by omega) r' h4 h5)

/-- What the SVD gives for a symmetric matrix: `H = |B|`. -/
theorem polar (la : LinAlg n) (hla : ExactLinAlg la) (B : Matrix (Fin n) (Fin n) ℝ) (hB : B.IsSymm) :
    let H := (la.svd B).2ᵀ * (Matrix.diagonal (la.svd B).1 * (la.svd B).2)
    H.PosSemidef ∧ H * H = B * B ∧ B * H = H * B ∧ (H + B).PosSemidef ∧ (H - B).PosSemidef := by
  intro H
  obtain ⟨U, hU, hV, hs, hdec⟩ := hla.svd B hB
  set S := Matrix.diagonal (la.svd B).1 with hS
  set V := (la.svd B).2 with hVd
  have hV' : Vᵀ * V = 1 := mul_eq_one_comm.1 hV
  have hU' : U * Uᵀ = 1 := mul_eq_one_comm.1 hU
  have hST : Sᵀ = S := by rw [hS, Matrix.diagonal_transpose]
  have hSpsd : S.PosSemidef := Matrix.PosSemidef.diagonal hs
  have hH : H.PosSemidef := by
    have := hSpsd.conjTranspose_mul_mul_same V
    rw [Matrix.conjTranspose_eq_transpose_of_trivial] at this
    show (Vᵀ * (S * V)).PosSemidef
    rw [← Matrix.mul_assoc]
    exact this
  have hHT : Hᵀ = H := by
    have := hH.isHermitian
    rwa [Matrix.IsHermitian, Matrix.conjTranspose_eq_transpose_of_trivial] at this
  have hBT : Bᵀ = B := hB
  have hHH : H * H = Vᵀ * S * S * V := by
    show Vᵀ * (S * V) * (Vᵀ * (S * V)) = _
    calc Vᵀ * (S * V) * (Vᵀ * (S * V)) = Vᵀ * S * (V * Vᵀ) * S * V := by simp only [Matrix.mul_assoc]
      _ = _ := by rw [hV, Matrix.mul_one]
  have hBB : B * B = Vᵀ * S * S * V := by
    calc B * B = Bᵀ * B := by rw [hBT]
      _ = (U * S * V)ᵀ * (U * S * V) := by rw [← hdec]
      _ = Vᵀ * S * (Uᵀ * U) * S * V := by
        simp only [Matrix.transpose_mul, hST, Matrix.mul_assoc]
      _ = _ := by rw [hU, Matrix.mul_one]
  have hsq : H * H = B * B := by rw [hHH, hBB]
  set W := U * V with hW
  have hWT : Wᵀ * W = 1 := by
    rw [hW, Matrix.transpose_mul]
    calc Vᵀ * Uᵀ * (U * V) = Vᵀ * (Uᵀ * U) * V := by simp only [Matrix.mul_assoc]
      _ = 1 := by rw [hU, Matrix.mul_one, hV']
  have hWW : W * Wᵀ = 1 := mul_eq_one_comm.1 hWT
  have hTWH : (W * H)ᵀ = H * Wᵀ := (Matrix.transpose_mul W H).trans (by rw [hHT])
  have hTHW : (H * W)ᵀ = Wᵀ * H := (Matrix.transpose_mul H W).trans (by rw [hHT])
  clear_value W
  have hBWH : B = W * H := by
    rw [hW]
    show B = U * V * (Vᵀ * (S * V))
    calc B = U * S * V := hdec
      _ = U * (V * Vᵀ) * S * V := by rw [hV, Matrix.mul_one]
      _ = _ := by simp only [Matrix.mul_assoc]
  have hconj : W * H * Wᵀ = H := by
    have hpsd : (W * H * Wᵀ).PosSemidef := by
      have := hH.mul_mul_conjTranspose_same W
      rwa [Matrix.conjTranspose_eq_transpose_of_trivial] at this
    refine psd_sq_inj hpsd hH ?_
    calc W * H * Wᵀ * (W * H * Wᵀ) = W * H * (Wᵀ * W) * H * Wᵀ := by simp only [Matrix.mul_assoc]
      _ = W * H * (H * Wᵀ) := by rw [hWT, Matrix.mul_one]; simp only [Matrix.mul_assoc]
      _ = B * Bᵀ := by
        rw [hBWH, hTWH]
      _ = H * H := by rw [hBT, hsq]
  have hcomm : W * H = H * W := by
    calc W * H = W * H * (Wᵀ * W) := by rw [hWT, Matrix.mul_one]
      _ = (W * H * Wᵀ) * W := by simp only [Matrix.mul_assoc]
      _ = H * W := by rw [hconj]
  have hBHc : B * H = H * B := by
    rw [hBWH]
    calc W * H * H = H * W * H := by rw [hcomm]
      _ = H * (W * H) := by rw [Matrix.mul_assoc]
  have hWTH : Wᵀ * H = H * Wᵀ := by
    rw [← hTHW, ← hcomm, hTWH]
  have hBWT : B = H * Wᵀ := by
    calc B = Bᵀ := hBT.symm
      _ = (W * H)ᵀ := by rw [← hBWH]
      _ = H * Wᵀ := hTWH
  -- (1 ± W)^T H (1 ± W) = 2 (H ± B)
  have hplus : (1 + Wᵀ) * H * (1 + W) = (2:ℝ) • (H + B) := by
    have : Wᵀ * H * W = H := by rw [hWTH, Matrix.mul_assoc, hWT, Matrix.mul_one]
    calc (1 + Wᵀ) * H * (1 + W) = H + H * W + Wᵀ * H + Wᵀ * H * W := by
          simp only [Matrix.add_mul, Matrix.mul_add, Matrix.one_mul, Matrix.mul_one]; abel
      _ = H + B + B + H := by rw [this, hWTH, ← hBWT, ← hcomm, ← hBWH]
      _ = _ := by rw [two_smul]; abel
  have hminus : (1 - Wᵀ) * H * (1 - W) = (2:ℝ) • (H - B) := by
    have : Wᵀ * H * W = H := by rw [hWTH, Matrix.mul_assoc, hWT, Matrix.mul_one]
    calc (1 - Wᵀ) * H * (1 - W) = H - H * W - Wᵀ * H + Wᵀ * H * W := by
          simp only [Matrix.sub_mul, Matrix.mul_sub, Matrix.one_mul, Matrix.mul_one]; abel
      _ = H - B - B + H := by rw [this, hWTH, ← hBWT, ← hcomm, ← hBWH]
      _ = _ := by rw [two_smul]; abel
  have half : ∀ X : Matrix (Fin n) (Fin n) ℝ, ((2:ℝ) • X).PosSemidef → X.PosSemidef := by
    intro X hX
    have := hX.smul (show (0:ℝ) ≤ 1/2 by norm_num)
    rwa [smul_smul, show (1/2 * 2 : ℝ) = 1 by norm_num, one_smul] at this
  refine ⟨hH, hsq, hBHc, half _ ?_, half _ ?_⟩
  · rw [← hplus]
    have := hH.conjTranspose_mul_mul_same (1 + W)
    rwa [Matrix.conjTranspose_eq_transpose_of_trivial, Matrix.transpose_add, Matrix.transpose_one] at this
  · rw [← hminus]
    have := hH.conjTranspose_mul_mul_same (1 - W)
    rwa [Matrix.conjTranspose_eq_transpose_of_trivial, Matrix.transpose_sub, Matrix.transpose_one] at this

theorem start_eq (la : LinAlg n) (hla : ExactLinAlg la) (A : Matrix (Fin n) (Fin n) ℝ) :
    ∃ B H : Matrix (Fin n) (Fin n) ℝ, B = (1/2:ℝ) • (A + Aᵀ) ∧ B.IsSymm ∧ nearestPdStart la A = (1/2:ℝ) • (H + B)
      ∧ H.PosSemidef ∧ H * H = B * B ∧ B * H = H * B ∧ (H + B).PosSemidef ∧ (H - B).PosSemidef := by
  set B := (1/2:ℝ) • (A + Aᵀ) with hB
  have hBs : B.IsSymm := by
    rw [Matrix.IsSymm, hB, Matrix.transpose_smul, Matrix.transpose_add, Matrix.transpose_transpose, add_comm]
  obtain ⟨h1, h2, h3, h4, h5⟩ := polar la hla B hBs
  refine ⟨B, _, rfl, hBs, ?_, h1, h2, h3, h4, h5⟩
  set H := (la.svd B).2ᵀ * (Matrix.diagonal (la.svd B).1 * (la.svd B).2) with hH
  have hT : (H + B)ᵀ = H + B := by
    have := h4.isHermitian
    rwa [Matrix.IsHermitian, Matrix.conjTranspose_eq_transpose_of_trivial] at this
  show (1/2:ℝ) • ((1/2:ℝ) • (B + H) + ((1/2:ℝ) • (B + H))ᵀ) = _
  rw [Matrix.transpose_smul, add_comm B H, hT, ← two_smul ℝ ((1/2:ℝ) • (H + B)), smul_smul, smul_smul]
  norm_num

theorem psd_symm {A : Matrix (Fin n) (Fin n) ℝ} (h : A.PosSemidef) : A.IsSymm := by
  have := h.isHermitian
  rwa [Matrix.IsHermitian, Matrix.conjTranspose_eq_transpose_of_trivial] at this

/-- A positive semidefinite matrix that is not definite has smallest eigenvalue 0. -/
theorem minEig_zero (la : LinAlg n) (hla : ExactLinAlg la) (A : Matrix (Fin n) (Fin n) ℝ)
    (hA : A.PosSemidef) (hnd : ¬ A.PosDef) : la.minEig A = 0 := by
  have hn : 0 < n := by
    rcases Nat.eq_zero_or_pos n with rfl | h
    · exact absurd (Matrix.posDef_iff_dotProduct_mulVec.2 ⟨hA.isHermitian, fun {x} hx => absurd (Subsingleton.elim x 0) hx⟩) hnd
    · exact h
  apply le_antisymm
  · have : ∃ x : Fin n → ℝ, x ≠ 0 ∧ star x ⬝ᵥ (A *ᵥ x) ≤ 0 := by
      by_contra hcon
      push Not at hcon
      exact hnd (Matrix.posDef_iff_dotProduct_mulVec.2 ⟨hA.isHermitian, fun {x} hx => hcon x hx⟩)
    obtain ⟨x, hx, hx0⟩ := this
    have hz : star x ⬝ᵥ (A *ᵥ x) = 0 := le_antisymm hx0 (hA.dotProduct_mulVec_nonneg x)
    have hAx : A *ᵥ x = 0 := (hA.dotProduct_mulVec_zero_iff x).1 hz
    exact hla.minEig_le A (psd_symm hA) 0 x hx (by rw [hAx, zero_smul])
  · obtain ⟨v, hv, hAv⟩ := hla.minEig_mem A (psd_symm hA) hn
    have h1 := hA.dotProduct_mulVec_nonneg v
    rw [hAv, star_trivial, dotProduct_smul, smul_eq_mul] at h1
    have h2 : 0 < v ⬝ᵥ v := by
      have h3 : v ⬝ᵥ v = ∑ i, v i * v i := rfl
      rw [h3]
      obtain ⟨i, hi⟩ : ∃ i, v i ≠ 0 := by
        by_contra hcon
        push Not at hcon
        exact hv (funext hcon)
      exact Finset.sum_pos' (fun j _ => mul_self_nonneg _) ⟨i, Finset.mem_univ i, mul_self_pos.2 hi⟩
    by_contra hneg
    nlinarith [not_le.1 hneg]

theorem posDef_add_smul_one (A : Matrix (Fin n) (Fin n) ℝ) (hA : A.PosSemidef) {d : ℝ} (hd : 0 < d) :
    (A + d • (1 : Matrix (Fin n) (Fin n) ℝ)).PosDef :=
  Matrix.PosDef.posSemidef_add hA ((Matrix.PosDef.one).smul hd)

/-- `nearest_pd` needs at most one iteration of its loop. -/
theorem nearestPd_spec (la : LinAlg n) (hla : ExactLinAlg la) (A : Matrix (Fin n) (Fin n) ℝ) (fuel : ℕ) :
    ∃ R, nearestPd la (fuel + 1) A = some R ∧ R.PosDef
      ∧ (((nearestPdStart la A).PosDef ∧ R = nearestPdStart la A)
        ∨ (¬ (nearestPdStart la A).PosDef ∧ R = nearestPdStart la A + la.spacing A • 1)) := by
  obtain ⟨B, H, hB, hBs, hst, hH, hsq, hc, hp, hm⟩ := start_eq la hla A
  have hpsd : (nearestPdStart la A).PosSemidef := by
    rw [hst]; exact hp.smul (by norm_num)
  have hiff := isPd_iff (nearestPdStart la A) (psd_symm hpsd)
  by_cases hpd : (nearestPdStart la A).PosDef
  · refine ⟨nearestPdStart la A, ?_, hpd, Or.inl ⟨hpd, rfl⟩⟩
    simp only [nearestPd]
    rw [if_pos (hiff.2 hpd)]
  · have h1 : ¬ isPd (nearestPdStart la A) = true := fun h => hpd (hiff.1 h)
    have h2 := posDef_add_smul_one _ hpsd (hla.spacing_pos A)
    refine ⟨_, ?_, h2, Or.inr ⟨hpd, rfl⟩⟩
    simp only [nearestPd]
    rw [if_neg h1]
    unfold nearestPdLoop
    rw [if_neg h1]
    simp only [minEig_zero la hla _ hpsd hpd, neg_zero, zero_mul, zero_add]
    unfold nearestPdLoop
    rw [if_pos ((isPd_iff _ (psd_symm h2.posSemidef)).2 h2)]

end Verif.Proof
