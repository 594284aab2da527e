import Verif.Spec.RoundedMetrics
import Verif.Proof.Rounding

/-!
# Numbers of roundings
-/

namespace Verif.Proof

open Verif.Spec

variable {A : Arith} {u : ℝ} {n j k j' k' : ℕ} {x y a b : ℝ}

section
variable (h : A.Ok u)
include h

theorem one_sub_pos : 0 < 1 - u := by linarith [h.lt_one]

theorem one_add_pos : 0 < 1 + u := by linarith [h.nonneg]

theorem rnd_neg (hx : x < 0) : A.rnd x < 0 := by
  have h1 := (abs_le.1 (h.rnd x)).2
  rw [abs_of_neg hx] at h1
  nlinarith [one_sub_pos h]

theorem within_nonneg (hx : Within u j k x a) : 0 ≤ x :=
  le_trans (mul_nonneg (div_nonneg (pow_nonneg (one_sub_pos h).le _) (pow_nonneg (one_add_pos h).le _)) hx.1) hx.2.1

theorem within_zero (hx : Within u j k x a) : x = 0 ↔ a = 0 := by
  constructor
  · intro h0
    have h1 := hx.2.1
    rw [h0] at h1
    have hc : 0 < (1 - u) ^ j / (1 + u) ^ k := div_pos (pow_pos (one_sub_pos h) _) (pow_pos (one_add_pos h) _)
    exact le_antisymm (by nlinarith [hx.1]) hx.1
  · intro h0
    have h1 := hx.2
    rw [h0, mul_zero, mul_zero] at h1
    exact le_antisymm h1.2 h1.1

theorem within_rnd (hx : Within u j k x a) : Within u (j + 1) k (A.rnd x) a := by
  have hx0 := within_nonneg h hx
  refine ⟨hx.1, ?_, ?_⟩
  · calc (1 - u) ^ (j + 1) / (1 + u) ^ k * a = (1 - u) * ((1 - u) ^ j / (1 + u) ^ k * a) := by ring
      _ ≤ (1 - u) * x := mul_le_mul_of_nonneg_left hx.2.1 (one_sub_pos h).le
      _ ≤ A.rnd x := rnd_lower h hx0
  · calc A.rnd x ≤ (1 + u) * x := rnd_upper h hx0
      _ ≤ (1 + u) * ((1 + u) ^ j / (1 - u) ^ k * a) := mul_le_mul_of_nonneg_left hx.2.2 (one_add_pos h).le
      _ = (1 + u) ^ (j + 1) / (1 - u) ^ k * a := by ring

theorem within_sum {x a : Fin n → ℝ} (hx : ∀ i, Within u j k (x i) (a i)) : Within u (j + n) k (A.sum (List.ofFn x)) (∑ i, a i) := by
  have hb := sum_bounds h (l := List.ofFn x) (by intro z hz; obtain ⟨i, rfl⟩ := (List.mem_ofFn' _ _).1 hz; exact within_nonneg h (hx i))
  rw [List.length_ofFn, List.sum_ofFn] at hb
  refine ⟨Finset.sum_nonneg fun i _ => (hx i).1, ?_, ?_⟩
  · calc (1 - u) ^ (j + n) / (1 + u) ^ k * ∑ i, a i = (1 - u) ^ n * ∑ i, (1 - u) ^ j / (1 + u) ^ k * a i := by rw [← Finset.mul_sum]; ring
      _ ≤ (1 - u) ^ n * ∑ i, x i := mul_le_mul_of_nonneg_left (Finset.sum_le_sum fun i _ => (hx i).2.1) (pow_nonneg (one_sub_pos h).le _)
      _ ≤ _ := hb.1
  · calc _ ≤ (1 + u) ^ n * ∑ i, x i := hb.2
      _ ≤ (1 + u) ^ n * ∑ i, (1 + u) ^ j / (1 - u) ^ k * a i := mul_le_mul_of_nonneg_left (Finset.sum_le_sum fun i _ => (hx i).2.2) (pow_nonneg (one_add_pos h).le _)
      _ = (1 + u) ^ (j + n) / (1 - u) ^ k * ∑ i, a i := by rw [← Finset.mul_sum]; ring

theorem within_abs (d : ℝ) : Within u 1 0 |A.rnd d| |d| := by
  have h1 := h.rnd d
  have h2 := abs_sub_abs_le_abs_sub (A.rnd d) d
  have h3 := abs_sub_abs_le_abs_sub d (A.rnd d)
  rw [abs_sub_comm] at h3
  refine ⟨abs_nonneg _, ?_, ?_⟩
  · rw [pow_one, pow_zero, div_one]; linarith
  · rw [pow_one, pow_zero, div_one]; linarith

theorem within_sq (hx : Within u j k x a) : Within u (2 * j) (2 * k) (x ^ 2) (a ^ 2) := by
  refine ⟨sq_nonneg _, ?_, ?_⟩
  · calc (1 - u) ^ (2 * j) / (1 + u) ^ (2 * k) * a ^ 2 = ((1 - u) ^ j / (1 + u) ^ k * a) ^ 2 := by rw [mul_pow, div_pow, ← pow_mul, ← pow_mul, mul_comm j, mul_comm k]
      _ ≤ x ^ 2 := pow_le_pow_left₀ (mul_nonneg (div_nonneg (pow_nonneg (one_sub_pos h).le _) (pow_nonneg (one_add_pos h).le _)) hx.1) hx.2.1 2
  · calc x ^ 2 ≤ ((1 + u) ^ j / (1 - u) ^ k * a) ^ 2 := pow_le_pow_left₀ (within_nonneg h hx) hx.2.2 2
      _ = (1 + u) ^ (2 * j) / (1 - u) ^ (2 * k) * a ^ 2 := by rw [mul_pow, div_pow, ← pow_mul, ← pow_mul, mul_comm j, mul_comm k]

theorem within_absSq (d : ℝ) : Within u 2 0 (A.rnd d ^ 2) (d ^ 2) := by
  have := within_sq h (within_abs h d)
  rwa [sq_abs, sq_abs] at this

theorem within_sqrt (hx : Within u j k x a) : Within u j k (Real.sqrt x) (Real.sqrt a) := by
  have hu := one_sub_pos h
  have hv := one_add_pos h
  set c := (1 - u) ^ j / (1 + u) ^ k
  set C := (1 + u) ^ j / (1 - u) ^ k
  have hc0 : 0 ≤ c := div_nonneg (pow_nonneg hu.le _) (pow_nonneg hv.le _)
  have hc1 : c ≤ 1 := by
    rw [div_le_one (pow_pos hv _)]
    exact (pow_le_one₀ hu.le (by linarith [h.nonneg])).trans (one_le_pow₀ (by linarith [h.nonneg]))
  have hC1 : 1 ≤ C := by
    rw [one_le_div (pow_pos hu _)]
    exact (pow_le_one₀ hu.le (by linarith [h.nonneg])).trans (one_le_pow₀ (by linarith [h.nonneg]))
  refine ⟨Real.sqrt_nonneg _, ?_, ?_⟩
  · apply Real.le_sqrt_of_sq_le
    rw [mul_pow, Real.sq_sqrt hx.1]
    exact le_trans (mul_le_mul_of_nonneg_right (by nlinarith) hx.1) hx.2.1
  · apply Real.sqrt_le_iff.2
    refine ⟨mul_nonneg (by linarith) (Real.sqrt_nonneg _), ?_⟩
    rw [mul_pow, Real.sq_sqrt hx.1]
    exact hx.2.2.trans (mul_le_mul_of_nonneg_right (by nlinarith) hx.1)

theorem within_div (hx : Within u j k x a) (hy : Within u j' k' y b) (hb : 0 < b) : Within u (j + k') (k + j') (x / y) (a / b) := by
  have hu := one_sub_pos h
  have hv := one_add_pos h
  have hx0 := within_nonneg h hx
  have hy0 : 0 < y := lt_of_lt_of_le (mul_pos (div_pos (pow_pos hu _) (pow_pos hv _)) hb) hy.2.1
  refine ⟨div_nonneg hx.1 hb.le, ?_, ?_⟩
  · rw [le_div_iff₀ hy0]
    calc (1 - u) ^ (j + k') / (1 + u) ^ (k + j') * (a / b) * y ≤ (1 - u) ^ (j + k') / (1 + u) ^ (k + j') * (a / b) * ((1 + u) ^ j' / (1 - u) ^ k' * b) :=
          mul_le_mul_of_nonneg_left hy.2.2 (mul_nonneg (div_nonneg (pow_nonneg hu.le _) (pow_nonneg hv.le _)) (div_nonneg hx.1 hb.le))
      _ = (1 - u) ^ j / (1 + u) ^ k * a := by
          have := (pow_pos hu k').ne'
          have := (pow_pos hv j').ne'
          have := (pow_pos hv k).ne'
          rw [pow_add, pow_add]
          field_simp
      _ ≤ x := hx.2.1
  · rw [div_le_iff₀ hy0]
    calc x ≤ (1 + u) ^ j / (1 - u) ^ k * a := hx.2.2
      _ = (1 + u) ^ (j + k') / (1 - u) ^ (k + j') * (a / b) * ((1 - u) ^ j' / (1 + u) ^ k' * b) := by
          have := (pow_pos hu k).ne'
          have := (pow_pos hu j').ne'
          have := (pow_pos hv k').ne'
          rw [pow_add, pow_add]
          field_simp
      _ ≤ (1 + u) ^ (j + k') / (1 - u) ^ (k + j') * (a / b) * y :=
          mul_le_mul_of_nonneg_left hy.2.1 (mul_nonneg (div_nonneg (pow_nonneg hv.le _) (pow_nonneg hu.le _)) (div_nonneg hx.1 hb.le))

theorem within_add (hx : Within u j k x a) (hy : Within u j k y b) : Within u j k (x + y) (a + b) :=
  ⟨add_nonneg hx.1 hy.1, by rw [mul_add]; exact add_le_add hx.2.1 hy.2.1, by rw [mul_add]; exact add_le_add hx.2.2 hy.2.2⟩

theorem within_mono (hx : Within u j k x a) (hj : j ≤ j') (hk : k ≤ k') : Within u j' k' x a := by
  have hu := one_sub_pos h
  have hv := one_add_pos h
  have h1 : 1 - u ≤ 1 := by linarith [h.nonneg]
  have h2 : 1 ≤ 1 + u := by linarith [h.nonneg]
  refine ⟨hx.1, le_trans (mul_le_mul_of_nonneg_right ?_ hx.1) hx.2.1, le_trans hx.2.2 (mul_le_mul_of_nonneg_right ?_ hx.1)⟩
  · exact div_le_div₀ (pow_nonneg hu.le _) (pow_le_pow_of_le_one hu.le h1 hj) (pow_pos hv _) (pow_le_pow_right₀ h2 hk)
  · exact div_le_div₀ (pow_nonneg hv.le _) (pow_le_pow_right₀ h2 hj) (pow_pos hu _) (pow_le_pow_of_le_one hu.le h1 hk)

end

theorem within_exact (ha : 0 ≤ a) : Within u 0 0 a a := ⟨ha, by simp, by simp⟩

theorem within_mul_left {c : ℝ} (hc : 0 ≤ c) (hx : Within u j k x a) : Within u j k (c * x) (c * a) :=
  ⟨mul_nonneg hc hx.1, by rw [mul_left_comm]; exact mul_le_mul_of_nonneg_left hx.2.1 hc, by rw [mul_left_comm]; exact mul_le_mul_of_nonneg_left hx.2.2 hc⟩

end Verif.Proof
