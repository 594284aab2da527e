import Verif.Props.RoundedMetrics
import Verif.Props.Double

/-!
# C147: error measures on doubles that are negative, or zero for different prevalences
-/

namespace Verif.Props

open Verif.Model Verif.Spec Verif.Proof

theorem rndDouble_neg (x : ℝ) : rndDouble (-x) = -rndDouble x := double_symmetric x

/-! ### `emd_score` -/

theorem emdA_three {a b c d e f x y z c1 c2 a0 a1 a2 s1 s2 : ℝ} (h0 : |x| = a0) (h1 : |c1| = a1) (h2 : |c2| = a2) (hx : rndDouble (a - d) = x) (hy : rndDouble (b - e) = y) (hz : rndDouble (c - f) = z)
    (hc1 : rndDouble (x + y) = c1) (hc2 : rndDouble (c1 + z) = c2) (hs1 : rndDouble (a0 + a1) = s1) (hs2 : rndDouble (s1 + a2) = s2) : emdA Arith.double ![a, b, c] ![d, e, f] = s2 := by
  show pairwiseSum rndDouble ([rndDouble (a - d), rndDouble (rndDouble (a - d) + rndDouble (b - e)), rndDouble (rndDouble (rndDouble (a - d) + rndDouble (b - e)) + rndDouble (c - f))].map abs) = s2
  rw [hx, hy, hz, hc1, hc2, List.map_cons, List.map_cons, List.map_cons, List.map_nil, h0, h1, h2, pairwiseSum_short (by simp)]
  show rndDouble (rndDouble (a0 + a1) + a2) = s2
  rw [hs1, hs2]

theorem score_left : emdA Arith.double ![(2251799813685247 / 18014398509481984), (6755399441055741 / 18014398509481984), (2251799813685249 / 4503599627370496)] ![1, 0, 0] = (6192449487634433 / 4503599627370496) :=
  emdA_three (x := (-(7 / 8))) (y := (6755399441055741 / 18014398509481984)) (z := (2251799813685249 / 4503599627370496)) (c1 := (-(2251799813685249 / 4503599627370496))) (c2 := 0) (a0 := (7 / 8)) (a1 := (2251799813685249 / 4503599627370496)) (a2 := 0) (s1 := (6192449487634433 / 4503599627370496)) (s2 := (6192449487634433 / 4503599627370496))
    (by norm_num) (by norm_num) (by norm_num)
    (by rw [show (2251799813685247 / 18014398509481984) - 1 = (-(15762598695796737 / 18014398509481984) : ℝ) by norm_num, rndDouble_neg, rndDouble_tieDown (m := 7881299347898368) 53 (by norm_num) (by norm_num) (by norm_num) (by decide)]; norm_num)
    (by rw [rndDouble_near (m := 6755399441055741) 54 (by norm_num) (by norm_num) (by norm_num) (by norm_num)]; norm_num)
    (by rw [rndDouble_near (m := 4503599627370498) 53 (by norm_num) (by norm_num) (by norm_num) (by norm_num)]; norm_num)
    (by rw [show (-(7 / 8)) + (6755399441055741 / 18014398509481984) = (-(9007199254740995 / 18014398509481984) : ℝ) by norm_num, rndDouble_neg, rndDouble_tieUp (m := 4503599627370498) 53 (by norm_num) (by norm_num) (by norm_num) (by decide)]; norm_num)
    (by rw [show (-(2251799813685249 / 4503599627370496)) + (2251799813685249 / 4503599627370496) = (0:ℝ) by norm_num]; exact rndDouble_zero)
    (by rw [rndDouble_near (m := 6192449487634433) 52 (by norm_num) (by norm_num) (by norm_num) (by norm_num)]; norm_num)
    (by rw [rndDouble_near (m := 6192449487634433) 52 (by norm_num) (by norm_num) (by norm_num) (by norm_num)]; norm_num)

theorem score_right : emdA Arith.double ![(2251799813685247 / 18014398509481984), (6755399441055741 / 18014398509481984), (2251799813685249 / 4503599627370496)] ![0, 0, 1] = (2814749767106559 / 4503599627370496) :=
  emdA_three (x := (2251799813685247 / 18014398509481984)) (y := (6755399441055741 / 18014398509481984)) (z := (-(2251799813685247 / 4503599627370496))) (c1 := (2251799813685247 / 4503599627370496)) (c2 := 0) (a0 := (2251799813685247 / 18014398509481984)) (a1 := (2251799813685247 / 4503599627370496)) (a2 := 0) (s1 := (2814749767106559 / 4503599627370496)) (s2 := (2814749767106559 / 4503599627370496))
    (by norm_num) (by norm_num) (by norm_num)
    (by rw [rndDouble_near (m := 9007199254740988) 56 (by norm_num) (by norm_num) (by norm_num) (by norm_num)]; norm_num)
    (by rw [rndDouble_near (m := 6755399441055741) 54 (by norm_num) (by norm_num) (by norm_num) (by norm_num)]; norm_num)
    (by rw [show (2251799813685249 / 4503599627370496) - 1 = (-(2251799813685247 / 4503599627370496) : ℝ) by norm_num, rndDouble_neg, rndDouble_near (m := 9007199254740988) 54 (by norm_num) (by norm_num) (by norm_num) (by norm_num)]; norm_num)
    (by rw [rndDouble_near (m := 9007199254740988) 54 (by norm_num) (by norm_num) (by norm_num) (by norm_num)]; norm_num)
    (by rw [show (2251799813685247 / 4503599627370496) + (-(2251799813685247 / 4503599627370496)) = (0:ℝ) by norm_num]; exact rndDouble_zero)
    (by rw [rndDouble_tieUp (m := 5629499534213118) 53 (by norm_num) (by norm_num) (by norm_num) (by decide)]; norm_num)
    (by rw [rndDouble_near (m := 5629499534213118) 53 (by norm_num) (by norm_num) (by norm_num) (by norm_num)]; norm_num)

theorem score_pred : emdA Arith.double ![(2251799813685247 / 18014398509481984), (6755399441055741 / 18014398509481984), (2251799813685249 / 4503599627370496)] ![(9007199254740991 / 9007199254740992), 0, (1 / 9007199254740992)] = (3096224743817217 / 2251799813685248) :=
  emdA_three (x := (-(7 / 8))) (y := (6755399441055741 / 18014398509481984)) (z := (4503599627370497 / 9007199254740992)) (c1 := (-(2251799813685249 / 4503599627370496))) (c2 := (-(1 / 9007199254740992))) (a0 := (7 / 8)) (a1 := (2251799813685249 / 4503599627370496)) (a2 := (1 / 9007199254740992)) (s1 := (6192449487634433 / 4503599627370496)) (s2 := (3096224743817217 / 2251799813685248))
    (by norm_num) (by norm_num) (by norm_num)
    (by rw [show (2251799813685247 / 18014398509481984) - (9007199254740991 / 9007199254740992) = (-(15762598695796735 / 18014398509481984) : ℝ) by norm_num, rndDouble_neg, rndDouble_tieUp (m := 7881299347898368) 53 (by norm_num) (by norm_num) (by norm_num) (by decide)]; norm_num)
    (by rw [rndDouble_near (m := 6755399441055741) 54 (by norm_num) (by norm_num) (by norm_num) (by norm_num)]; norm_num)
    (by rw [rndDouble_near (m := 4503599627370497) 53 (by norm_num) (by norm_num) (by norm_num) (by norm_num)]; norm_num)
    (by rw [show (-(7 / 8)) + (6755399441055741 / 18014398509481984) = (-(9007199254740995 / 18014398509481984) : ℝ) by norm_num, rndDouble_neg, rndDouble_tieUp (m := 4503599627370498) 53 (by norm_num) (by norm_num) (by norm_num) (by decide)]; norm_num)
    (by rw [show (-(2251799813685249 / 4503599627370496)) + (4503599627370497 / 9007199254740992) = (-(1 / 9007199254740992) : ℝ) by norm_num, rndDouble_neg, rndDouble_near (m := 4503599627370496) 105 (by norm_num) (by norm_num) (by norm_num) (by norm_num)]; norm_num)
    (by rw [rndDouble_near (m := 6192449487634433) 52 (by norm_num) (by norm_num) (by norm_num) (by norm_num)]; norm_num)
    (by rw [rndDouble_tieUp (m := 6192449487634434) 52 (by norm_num) (by norm_num) (by norm_num) (by decide)]; norm_num)

/-- **C147** (refuted part): `emd_score` is negative for some prevalences that are doubles. -/
theorem C147_emd_score_negative_refuted : ∃ p q : Fin 3 → ℝ, IsPrev p ∧ IsPrev q ∧ (∀ j, rndDouble (p j) = p j) ∧ (∀ j, rndDouble (q j) = q j) ∧ emdScoreA Arith.double p q < 0 := by
  refine ⟨![(2251799813685247 / 18014398509481984), (6755399441055741 / 18014398509481984), (2251799813685249 / 4503599627370496)], ![(9007199254740991 / 9007199254740992), 0, (1 / 9007199254740992)], ⟨?_, ?_⟩, ⟨?_, ?_⟩, ?_, ?_, ?_⟩
  · intro i; fin_cases i <;> norm_num
  · simp only [Fin.sum_univ_succ, Fin.sum_univ_zero, Matrix.cons_val_zero, Matrix.cons_val_succ]; norm_num
  · intro i; fin_cases i <;> norm_num
  · simp only [Fin.sum_univ_succ, Fin.sum_univ_zero, Matrix.cons_val_zero, Matrix.cons_val_succ]; norm_num
  · intro j
    fin_cases j
    · exact (by rw [rndDouble_near (m := 9007199254740988) 56 (by norm_num) (by norm_num) (by norm_num) (by norm_num)]; norm_num)
    · exact (by rw [rndDouble_near (m := 6755399441055741) 54 (by norm_num) (by norm_num) (by norm_num) (by norm_num)]; norm_num)
    · exact (by rw [rndDouble_near (m := 4503599627370498) 53 (by norm_num) (by norm_num) (by norm_num) (by norm_num)]; norm_num)
  · intro j
    fin_cases j
    · exact (by rw [rndDouble_near (m := 9007199254740991) 53 (by norm_num) (by norm_num) (by norm_num) (by norm_num)]; norm_num)
    · exact rndDouble_zero
    · exact (by rw [rndDouble_near (m := 4503599627370496) 105 (by norm_num) (by norm_num) (by norm_num) (by norm_num)]; norm_num)
  · have hl : (fun j : Fin 3 => if j = 0 then (1:ℝ) else 0) = ![1, 0, 0] := by funext j; fin_cases j <;> simp
    have hr : (fun j : Fin 3 => if j = Fin.last 2 then (1:ℝ) else 0) = ![0, 0, 1] := by funext j; fin_cases j <;> simp [Fin.ext_iff]
    unfold emdScoreA
    simp only
    rw [hl, hr, score_left, score_right, score_pred, max_eq_left (by norm_num)]
    refine rnd_neg double_ok (div_neg_of_neg_of_pos (rnd_neg double_ok (by norm_num)) (by norm_num))

/-! ### `hd` -/

theorem sqrt_quarter : rndDouble (Real.sqrt (4503599627370497 / 18014398509481984)) = 1/2 := by
  have h1 : (1:ℝ)/2 ≤ Real.sqrt (4503599627370497 / 18014398509481984) := Real.le_sqrt_of_sq_le (by norm_num)
  have h2 : Real.sqrt (4503599627370497 / 18014398509481984) < (9007199254740993 / 18014398509481984 : ℝ) := (Real.sqrt_lt' (by norm_num)).2 (by norm_num)
  rw [rndDouble_near (m := 4503599627370496) 53 (by linarith) (by linarith) (by push_cast; linarith) (by push_cast; linarith)]
  norm_num

theorem sqrt_quarter' : rndDouble (Real.sqrt (1 / 4)) = 1/2 := by
  rw [show (1:ℝ)/4 = (1/2) ^ 2 by norm_num, Real.sqrt_sq (by norm_num), rndDouble_near (m := 4503599627370496) 53 (by norm_num) (by norm_num) (by norm_num) (by norm_num)]
  norm_num

/-- **C147** (refuted part): `hd` is zero for some different prevalences that are doubles. -/
theorem C147_hd_zero_refuted : ∃ p q : Fin 3 → ℝ, IsPrev p ∧ IsPrev q ∧ (∀ j, rndDouble (p j) = p j) ∧ (∀ j, rndDouble (q j) = q j) ∧ p ≠ q ∧ hdA Arith.double p q = 0 := by
  have r1 : rndDouble (1 / 4) = 1 / 4 := fh_in_2
  have r2 : rndDouble (4503599627370497 / 18014398509481984) = 4503599627370497 / 18014398509481984 := by
    rw [rndDouble_near (m := 4503599627370497) 54 (by norm_num) (by norm_num) (by norm_num) (by norm_num)]; norm_num
  have r3 : rndDouble (9007199254740991 / 18014398509481984) = 9007199254740991 / 18014398509481984 := by
    rw [rndDouble_near (m := 9007199254740991) 54 (by norm_num) (by norm_num) (by norm_num) (by norm_num)]; norm_num
  refine ⟨![1/4, 4503599627370497 / 18014398509481984, 9007199254740991 / 18014398509481984], ![4503599627370497 / 18014398509481984, 1/4, 9007199254740991 / 18014398509481984], ⟨?_, ?_⟩, ⟨?_, ?_⟩, ?_, ?_, ?_, ?_⟩
  · intro i; fin_cases i <;> norm_num
  · simp only [Fin.sum_univ_succ, Fin.sum_univ_zero, Matrix.cons_val_zero, Matrix.cons_val_succ]; norm_num
  · intro i; fin_cases i <;> norm_num
  · simp only [Fin.sum_univ_succ, Fin.sum_univ_zero, Matrix.cons_val_zero, Matrix.cons_val_succ]; norm_num
  · intro j
    fin_cases j
    · exact r1
    · exact r2
    · exact r3
  · intro j
    fin_cases j
    · exact r2
    · exact r1
    · exact r3
  · intro h
    have := congrFun h 0
    norm_num at this
  · show rndDouble (Real.sqrt (pairwiseSum rndDouble [rndDouble (rndDouble (rndDouble (Real.sqrt (4503599627370497 / 18014398509481984)) - rndDouble (Real.sqrt (1/4))) ^ 2),
      rndDouble (rndDouble (rndDouble (Real.sqrt (1/4)) - rndDouble (Real.sqrt (4503599627370497 / 18014398509481984))) ^ 2),
      rndDouble (rndDouble (rndDouble (Real.sqrt (9007199254740991 / 18014398509481984)) - rndDouble (Real.sqrt (9007199254740991 / 18014398509481984))) ^ 2)])) = 0
    rw [sqrt_quarter, sqrt_quarter', sub_self, sub_self, rndDouble_zero, zero_pow two_ne_zero, rndDouble_zero, pairwiseSum_short (by simp)]
    show rndDouble (Real.sqrt (rndDouble (rndDouble (0 + 0) + 0))) = 0
    simp only [add_zero, rndDouble_zero, Real.sqrt_zero]

/-! ### `topsoe` and `jensenshannon` -/

theorem logOk_one {w : ℝ} {L : ℝ → ℝ} (hL : LogOk w L) : L 1 = 0 := by
  have := hL 1
  rw [Real.log_one, abs_zero, mul_zero, sub_zero] at this
  exact abs_eq_zero.1 (le_antisymm this (abs_nonneg _))

theorem logOk_below {w : ℝ} {L : ℝ → ℝ} (hL : LogOk w L) (hw : w ≤ 1/2^40) : L (9007199254740991 / 9007199254740992) ≤ -(999/1000) / 2^53 := by
  have h1 : Real.log (9007199254740991 / 9007199254740992) ≤ -1/2^53 := by
    have := Real.log_le_sub_one_of_pos (show (0:ℝ) < 9007199254740991 / 9007199254740992 by norm_num)
    norm_num at this ⊢
    linarith
  have h2 := (abs_le.1 (hL (9007199254740991 / 9007199254740992))).2
  rw [abs_of_nonpos (by linarith [show (-1:ℝ)/2^53 < 0 by norm_num])] at h2
  nlinarith [show (-1:ℝ)/2^53 = -(1/9007199254740992) by norm_num, show -(999/1000) / (2:ℝ)^53 = -(999/1000)/9007199254740992 by norm_num]

theorem rd_two_minus : rndDouble (9007199254740991 / 9007199254740992 + 1) = 2 := by
  rw [rndDouble_tieUp (m := 9007199254740992) 52 (by norm_num) (by norm_num) (by norm_num) (by decide)]; norm_num

theorem rd_d : rndDouble (1 / 9007199254740992) = 1 / 9007199254740992 := by
  rw [rndDouble_near (m := 4503599627370496) 105 (by norm_num) (by norm_num) (by norm_num) (by norm_num)]; norm_num

theorem rd_2d : rndDouble (2 * (1 / 9007199254740992)) = 2 * (1 / 9007199254740992) := by
  rw [rndDouble_near (m := 4503599627370496) 104 (by norm_num) (by norm_num) (by norm_num) (by norm_num)]; norm_num

theorem rd_one : rndDouble 1 = 1 := fh_in_7

theorem rd_two : rndDouble 2 = 2 := by
  rw [rndDouble_near (m := 4503599627370496) 51 (by norm_num) (by norm_num) (by norm_num) (by norm_num)]; norm_num

section
variable {eps : ℝ} (h0 : 0 < eps) (h1 : eps ≤ 1/10^20)
include h0 h1

theorem rd_one_eps : rndDouble (1 + eps) = 1 := by
  rw [rndDouble_near (m := 4503599627370496) 52 (by linarith) (by linarith) (by push_cast; linarith) (by push_cast; linarith)]; norm_num

theorem rd_two_eps : rndDouble (2 + eps) = 2 := by
  rw [rndDouble_near (m := 4503599627370496) 51 (by linarith) (by linarith) (by push_cast; linarith) (by push_cast; linarith)]; norm_num

theorem rd_p_eps : rndDouble (9007199254740991 / 9007199254740992 + eps) = 9007199254740991 / 9007199254740992 := by
  rw [rndDouble_near (m := 9007199254740991) 53 (by linarith) (by linarith) (by push_cast; linarith) (by push_cast; linarith)]; norm_num

theorem rd_2p_eps : rndDouble (2 * (9007199254740991 / 9007199254740992) + eps) = 2 * (9007199254740991 / 9007199254740992) := by
  rw [rndDouble_near (m := 9007199254740991) 52 (by linarith) (by linarith) (by push_cast; linarith) (by push_cast; linarith)]; norm_num

end

theorem rd_2p : rndDouble (2 * (9007199254740991 / 9007199254740992)) = 2 * (9007199254740991 / 9007199254740992) := by
  rw [rndDouble_near (m := 9007199254740991) 52 (by norm_num) (by norm_num) (by norm_num) (by norm_num)]; norm_num

theorem rd_p : rndDouble (9007199254740991 / 9007199254740992) = 9007199254740991 / 9007199254740992 := by
  rw [rndDouble_near (m := 9007199254740991) 53 (by norm_num) (by norm_num) (by norm_num) (by norm_num)]; norm_num

theorem pairwiseSum_two (a b : ℝ) : pairwiseSum rndDouble [a, b] = rndDouble (a + b) := by
  rw [pairwiseSum_short (by simp)]
  rfl

theorem log_two_bound {r : ℝ} (h1 : 1 ≤ r) (h2 : r ≤ 2.001) : 0 ≤ Real.log r ∧ Real.log r ≤ 0.6937 := by
  refine ⟨Real.log_nonneg h1, ?_⟩
  have h3 := Real.log_le_log (by linarith) h2
  have h4 : Real.log 2.001 = Real.log 2 + Real.log 1.0005 := by rw [← Real.log_mul (by norm_num) (by norm_num)]; norm_num
  have h5 := Real.log_le_sub_one_of_pos (show (0:ℝ) < 1.0005 by norm_num)
  have h6 := Real.log_two_lt_d9
  norm_num at *
  linarith

/-- The relative error, in round numbers. -/
theorem rd_err (x : ℝ) : |rndDouble x - x| ≤ 1/10^12 * |x| := (rndDouble_error x).trans (mul_le_mul_of_nonneg_right (by norm_num) (abs_nonneg _))

theorem rd_pos {x : ℝ} (hx : 0 ≤ x) : (1 - 1/10^12) * x ≤ rndDouble x ∧ rndDouble x ≤ (1 + 1/10^12) * x := by
  have := abs_le.1 (rd_err x)
  rw [abs_of_nonneg hx] at this
  exact ⟨by linarith, by linarith⟩

theorem rd_neg {x : ℝ} (hx : x ≤ 0) : (1 + 1/10^12) * x ≤ rndDouble x ∧ rndDouble x ≤ (1 - 1/10^12) * x := by
  have := abs_le.1 (rd_err x)
  rw [abs_of_nonpos hx] at this
  exact ⟨by linarith, by linarith⟩

/-- The class with prevalences 2^-53 and 0 in `topsoe`. -/
theorem topsoe_small {d eps w : ℝ} (hd0 : 0 < d) (h0 : 0 < eps) (hde : eps ≤ 1/1000 * d) {L : ℝ → ℝ} (hL : LogOk w L) (hw : w ≤ 1/2^40) :
    rndDouble (rndDouble (d * L (rndDouble (rndDouble (2 * d + eps) / rndDouble (d + eps))))) ≤ 0.7 * d := by
  obtain ⟨x2, x1⟩ := rd_pos (x := 2 * d + eps) (by linarith)
  obtain ⟨y2, y1⟩ := rd_pos (x := d + eps) (by linarith)
  set x := rndDouble (2 * d + eps)
  set y := rndDouble (d + eps)
  have hy : 0 < y := by norm_num at y2; linarith
  have q1 : x / y ≤ 2.0005 := by
    rw [div_le_iff₀ hy]
    norm_num at *
    linarith
  have q2 : 1.5 ≤ x / y := by
    rw [le_div_iff₀ hy]
    norm_num at *
    linarith
  obtain ⟨r2, r1⟩ := rd_pos (x := x / y) (by linarith)
  have r1 : rndDouble (x / y) ≤ 2.001 := r1.trans (by norm_num at *; linarith)
  have r2 : 1 ≤ rndDouble (x / y) := le_trans (by norm_num at *; linarith) r2
  obtain ⟨l1, l2⟩ := log_two_bound r2 r1
  have := (abs_le.1 (hL (rndDouble (x / y)))).2
  rw [abs_of_nonneg l1] at this
  have hl : L (rndDouble (x / y)) ≤ 0.694 := by norm_num at *; nlinarith
  set t := d * L (rndDouble (x / y))
  have ht : t ≤ d * 0.694 := mul_le_mul_of_nonneg_left hl hd0.le
  rcases le_total 0 t with h | h
  · have e1 := (rd_pos h).2
    have e0 : 0 ≤ rndDouble t := rnd_nonneg double_ok h
    have e2 := (rd_pos e0).2
    norm_num at *
    linarith
  · have e1 : rndDouble t ≤ 0 := rnd_nonpos double_ok h
    have e2 : rndDouble (rndDouble t) ≤ 0 := rnd_nonpos double_ok e1
    exact e2.trans (by positivity)

/-- The class with prevalences 2^-53 and 0 in `jensenshannon`. -/
theorem js_small {d eps w : ℝ} (hd : d = 1 / 9007199254740992) (h0 : 0 < eps) (hde : eps ≤ 1/1000 * d) {L : ℝ → ℝ} (hL : LogOk w L) (hw : w ≤ 1/2^40) :
    rndDouble (rndDouble (rndDouble (d * L (rndDouble (d + eps)))) - rndDouble (d * L (rndDouble (rndDouble (d + eps) / 2)))) ≤ 0.7 * d := by
  have hd0 : 0 < d := by rw [hd]; norm_num
  have hd1 : d < 1/10^15 := by rw [hd]; norm_num
  have hld : Real.log (d / 8) = -56 * Real.log 2 := by
    rw [show d / 8 = (2:ℝ) ^ (-56 : ℤ) by rw [hd]; norm_num, Real.log_zpow]
    norm_num
  clear hd
  obtain ⟨x2, x1⟩ := rd_pos (x := d + eps) (by linarith)
  set x := rndDouble (d + eps)
  have hx3 : d / 8 ≤ x := by norm_num at *; linarith
  have hx0 : 0 < x := by linarith
  obtain ⟨z2, z1⟩ := rd_pos (x := x / 2) (by linarith)
  set z := rndDouble (x / 2)
  have hz3 : d / 8 ≤ z := by norm_num at *; linarith
  have hz0 : 0 < z := by linarith
  have hx4 : x ≤ 1 := by norm_num at *; linarith
  have hz4 : z ≤ 1 := by norm_num at *; linarith
  have hlog2 := Real.log_two_lt_d9
  have lx0 : Real.log x ≤ 0 := Real.log_nonpos hx0.le hx4
  have lz0 : Real.log z ≤ 0 := Real.log_nonpos hz0.le hz4
  have lx1 : -40 ≤ Real.log x := by
    have := Real.log_le_log (by positivity) hx3
    rw [hld] at this
    norm_num at hlog2
    linarith
  have lz1 : -40 ≤ Real.log z := by
    have := Real.log_le_log (by positivity) hz3
    rw [hld] at this
    norm_num at hlog2
    linarith
  have hxz : Real.log x - Real.log z ≤ 0.694 := by
    have h1 : Real.log x ≤ Real.log (2.001 * z) := Real.log_le_log hx0 (by norm_num at *; linarith)
    rw [Real.log_mul (by norm_num) hz0.ne'] at h1
    have h2 := (log_two_bound (r := 2.001) (by norm_num) le_rfl).2
    norm_num at h1 h2 ⊢
    linarith
  have hw0 : ∀ y, -40 ≤ y → y ≤ 0 → w * -y ≤ 1/10^10 := fun y hy1 hy2 => by
    norm_num at hw ⊢
    nlinarith
  have hLx := abs_le.1 (hL x)
  have hLz := abs_le.1 (hL z)
  rw [abs_of_nonpos lx0] at hLx
  rw [abs_of_nonpos lz0] at hLz
  have wx := hw0 _ lx1 lx0
  have wz := hw0 _ lz1 lz0
  set lx := L x
  set lz := L z
  have b1 : lx ≤ 1 ∧ -41 ≤ lx := ⟨by norm_num at *; linarith, by norm_num at *; linarith⟩
  have b2 : lz ≤ 1 ∧ -41 ≤ lz := ⟨by norm_num at *; linarith, by norm_num at *; linarith⟩
  have b3 : lx - lz ≤ 0.695 := by norm_num at *; linarith
  have hab : ∀ y, |y| ≤ 42 * d → |rndDouble y - y| ≤ d / 10^9 := fun y hy => (rd_err y).trans (by norm_num at *; linarith)
  have ax := hab (d * lx) (by rw [abs_mul, abs_of_pos hd0, mul_comm]; exact mul_le_mul_of_nonneg_right (abs_le.2 ⟨by linarith, by linarith⟩) hd0.le)
  have az := hab (d * lz) (by rw [abs_mul, abs_of_pos hd0, mul_comm]; exact mul_le_mul_of_nonneg_right (abs_le.2 ⟨by linarith, by linarith⟩) hd0.le)
  have m1 : d * lx - d * lz ≤ d * 0.695 := by rw [← mul_sub]; exact mul_le_mul_of_nonneg_left b3 hd0.le
  have m2 : d * lx ≤ d * 1 ∧ d * -41 ≤ d * lx := ⟨mul_le_mul_of_nonneg_left b1.1 hd0.le, mul_le_mul_of_nonneg_left b1.2 hd0.le⟩
  rw [abs_le] at ax az
  set a := rndDouble (d * lx)
  set b := rndDouble (d * lz)
  have aa := abs_le.1 (hab a (abs_le.2 ⟨by norm_num at *; linarith, by norm_num at *; linarith⟩))
  set c := rndDouble a
  have hc : c - b ≤ 0.696 * d := by norm_num at *; linarith
  rcases le_total 0 (c - b) with h | h
  · have := (rd_pos h).2
    norm_num at *
    linarith
  · have : rndDouble (c - b) ≤ 0 := rnd_nonpos double_ok h
    exact this.trans (by positivity)

theorem rd_step {x c : ℝ} (hc : 0 ≤ c) (hx : x ≤ -c) : rndDouble x ≤ -(c - c / 1000) := by
  have := (rd_neg (x := x) (by linarith)).2
  norm_num at this ⊢
  linarith

/-- The class with prevalences 1 - 2^-53 and 1. -/
theorem big_class {w : ℝ} {L : ℝ → ℝ} (hL : LogOk w L) (hw : w ≤ 1/2^40) :
    rndDouble (rndDouble (9007199254740991 / 9007199254740992 * L (9007199254740991 / 9007199254740992))) ≤ -(0.99 * (1 / 9007199254740992))
      ∧ rndDouble (rndDouble (rndDouble (9007199254740991 / 9007199254740992 * L (9007199254740991 / 9007199254740992)))) ≤ -(0.99 * (1 / 9007199254740992)) := by
  have a1 := logOk_below hL hw
  have a0 : 9007199254740991 / 9007199254740992 * L (9007199254740991 / 9007199254740992) ≤ -(0.998 * (1 / 9007199254740992)) := by norm_num at *; linarith
  have e1 := rd_step (by norm_num) a0
  have e2 := rd_step (by norm_num) e1
  have e3 := rd_step (by norm_num) e2
  exact ⟨e2.trans (by norm_num), e3.trans (by norm_num)⟩

theorem pd_prev : IsPrev ![(9007199254740991 : ℝ) / 9007199254740992, 1 / 9007199254740992] := ⟨by intro i; fin_cases i <;> norm_num, by norm_num [Fin.sum_univ_two]⟩

theorem qd_prev : IsPrev ![(1 : ℝ), 0] := ⟨by intro i; fin_cases i <;> norm_num, by norm_num [Fin.sum_univ_two]⟩

theorem pd_double : ∀ j, rndDouble (![(9007199254740991 : ℝ) / 9007199254740992, 1 / 9007199254740992] j) = ![9007199254740991 / 9007199254740992, 1 / 9007199254740992] j := by
  intro j
  fin_cases j
  · exact rd_p
  · exact rd_d

theorem qd_double : ∀ j, rndDouble (![(1 : ℝ), 0] j) = ![1, 0] j := by
  intro j
  fin_cases j
  · exact rd_one
  · exact rndDouble_zero

theorem topsoeA_two (L : ℝ → ℝ) (eps a b c d : ℝ) : topsoeA Arith.double L eps ![a, b] ![c, d] = rndDouble (
    rndDouble (rndDouble (a * L (rndDouble (rndDouble (rndDouble (2 * a) + eps) / rndDouble (rndDouble (a + c) + eps)))) + rndDouble (c * L (rndDouble (rndDouble (rndDouble (2 * c) + eps) / rndDouble (rndDouble (a + c) + eps)))))
    + rndDouble (rndDouble (b * L (rndDouble (rndDouble (rndDouble (2 * b) + eps) / rndDouble (rndDouble (b + d) + eps)))) + rndDouble (d * L (rndDouble (rndDouble (rndDouble (2 * d) + eps) / rndDouble (rndDouble (b + d) + eps)))))) :=
  pairwiseSum_two _ _

theorem jsA_two (L : ℝ → ℝ) (eps a b c d : ℝ) : jensenshannonA Arith.double L eps ![a, b] ![c, d] = rndDouble (rndDouble (
    rndDouble (rndDouble (rndDouble (a * L (rndDouble (a + eps))) + rndDouble (c * L (rndDouble (c + eps)))) - rndDouble (rndDouble (a + c) * L (rndDouble (rndDouble (rndDouble (a + c) + eps) / 2))))
    + rndDouble (rndDouble (rndDouble (b * L (rndDouble (b + eps))) + rndDouble (d * L (rndDouble (d + eps)))) - rndDouble (rndDouble (b + d) * L (rndDouble (rndDouble (rndDouble (b + d) + eps) / 2))))) / 2) :=
  congrArg (fun s => rndDouble (s / 2)) (pairwiseSum_two _ _)

/-- **C147** (refuted part): `topsoe` is negative for some prevalences that are doubles, whatever the computed logarithms are, as long as they are accurate, and for every `epsilon` up to its default value. -/
theorem C147_topsoe_negative_refuted (w eps : ℝ) (hw : w ≤ 1/2^40) (h0 : 0 < eps) (h1 : eps ≤ 1/10^20) (L : ℝ → ℝ) (hL : LogOk w L) :
    ∃ p q : Fin 2 → ℝ, IsPrev p ∧ IsPrev q ∧ (∀ j, rndDouble (p j) = p j) ∧ (∀ j, rndDouble (q j) = q j) ∧ topsoeA Arith.double L eps p q < 0 := by
  refine ⟨_, _, pd_prev, qd_prev, pd_double, qd_double, ?_⟩
  rw [topsoeA_two]
  refine rnd_neg double_ok ?_
  have e1 := (big_class hL hw).1
  have e2 := topsoe_small (d := 1 / 9007199254740992) (by norm_num) h0 (by norm_num at *; linarith) hL hw
  simp only [mul_zero, zero_mul, add_zero, rndDouble_zero, mul_one, one_mul, rd_two_minus, rd_two, rd_two_eps h0 h1, rd_2p, rd_2p_eps h0 h1, rd_d, rd_2d]
  rw [show (2:ℝ) / 2 = 1 by norm_num, rd_one, logOk_one hL, rndDouble_zero, add_zero, show (2:ℝ) * (9007199254740991 / 9007199254740992) / 2 = 9007199254740991 / 9007199254740992 by norm_num, rd_p]
  linarith

/-- **C147** (refuted part): so is `jensenshannon`. -/
theorem C147_jensenshannon_negative_refuted (w eps : ℝ) (hw : w ≤ 1/2^40) (h0 : 0 < eps) (h1 : eps ≤ 1/10^20) (L : ℝ → ℝ) (hL : LogOk w L) :
    ∃ p q : Fin 2 → ℝ, IsPrev p ∧ IsPrev q ∧ (∀ j, rndDouble (p j) = p j) ∧ (∀ j, rndDouble (q j) = q j) ∧ jensenshannonA Arith.double L eps p q < 0 := by
  refine ⟨_, _, pd_prev, qd_prev, pd_double, qd_double, ?_⟩
  rw [jsA_two]
  refine rnd_neg double_ok (div_neg_of_neg_of_pos (rnd_neg double_ok ?_) two_pos)
  have e1 := (big_class hL hw).2
  have e2 := js_small (d := 1 / 9007199254740992) rfl h0 (by norm_num at *; linarith) hL hw
  simp only [zero_mul, add_zero, rndDouble_zero, one_mul, rd_two_minus, rd_two_eps h0 h1, rd_p_eps h0 h1, rd_one_eps h0 h1, rd_d]
  rw [show (2:ℝ) / 2 = 1 by norm_num, rd_one, logOk_one hL, mul_zero, rndDouble_zero, add_zero, sub_zero]
  linarith

end Verif.Props
