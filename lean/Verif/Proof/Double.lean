import Verif.Spec.Double
import Mathlib.Tactic.Linarith
import Mathlib.Tactic.Ring
import Mathlib.Tactic.NormNum

/-!
# The arithmetic of NumPy on doubles has relative error 2^-53
-/

namespace Verif.Proof

open Verif.Spec

theorem nearestEven_error (x : ℝ) : |(nearestEven x : ℝ) - x| ≤ 1/2 := by
  have h1 := Int.floor_le x
  have h2 := Int.lt_floor_add_one x
  unfold nearestEven
  split_ifs <;> rw [abs_le] <;> constructor <;> push_cast <;> linarith

theorem rndBits_error (b : ℕ) (x : ℝ) : |rndBits b x - x| ≤ 1 / 2 ^ b * |x| := by
  rcases eq_or_ne x 0 with rfl | hx
  · simp [rndBits, nearestEven]
  · set e := Int.log 2 |x| + 1 - (b : ℤ) with he
    have hp : (0:ℝ) < 2 ^ e := by positivity
    have hlog : (2:ℝ) ^ (Int.log 2 |x|) ≤ |x| := by exact_mod_cast Int.zpow_log_le_self (b := 2) (by norm_num) (abs_pos.2 hx)
    have hxe : (2:ℝ) ^ b * 2 ^ e ≤ 2 * |x| := by
      refine le_trans (le_of_eq ?_) (mul_le_mul_of_nonneg_left hlog (by norm_num))
      rw [← zpow_natCast, ← zpow_add₀ (by norm_num), show (b : ℤ) + e = 1 + Int.log 2 |x| by rw [he]; ring, zpow_add₀ (by norm_num), zpow_one]
    have heq : rndBits b x - x = (nearestEven (x / 2 ^ e) - x / 2 ^ e) * 2 ^ e := by
      unfold rndBits
      rw [← he]
      field_simp
    rw [heq, abs_mul, abs_of_pos hp]
    have := mul_le_mul_of_nonneg_right (nearestEven_error (x / 2 ^ e)) hp.le
    rw [div_mul_eq_mul_div, one_mul, le_div_iff₀ (by positivity)]
    have hb : (0:ℝ) < 2 ^ b := by positivity
    nlinarith

theorem rndDouble_error (x : ℝ) : |rndDouble x - x| ≤ 1 / 2 ^ 53 * |x| := rndBits_error 53 x

section
variable {rnd : ℝ → ℝ}

theorem seqSum_ok (l l' : List ℝ) (s : ℝ) (d : ℕ) (hs : SumsTo rnd l' s d) : ∃ d' ≤ d + l.length, SumsTo rnd (l' ++ l) (seqSum rnd s l) d' := by
  induction l generalizing l' s d with
  | nil => exact ⟨d, by simp, by simpa [seqSum] using hs⟩
  | cons x l ih =>
    obtain ⟨d', h1, h2⟩ := ih (l' ++ [x]) (rnd (s + x)) (max d 0 + 1) (hs.add (.one x))
    refine ⟨d', by simp at h1 ⊢; omega, ?_⟩
    simpa [seqSum] using h2

theorem eightSums_ok (r0 r1 r2 r3 r4 r5 r6 r7 : ℝ) (l : List ℝ) (l0 l1 l2 l3 l4 l5 l6 l7 : List ℝ) (d : ℕ) (h0 : SumsTo rnd l0 r0 d) (h1 : SumsTo rnd l1 r1 d) (h2 : SumsTo rnd l2 r2 d)
    (h3 : SumsTo rnd l3 r3 d) (h4 : SumsTo rnd l4 r4 d) (h5 : SumsTo rnd l5 r5 d) (h6 : SumsTo rnd l6 r6 d) (h7 : SumsTo rnd l7 r7 d) :
    ∃ d' ≤ d + 3 + l.length, SumsTo rnd (l0 ++ l1 ++ l2 ++ l3 ++ l4 ++ l5 ++ l6 ++ l7 ++ l) (eightSums rnd r0 r1 r2 r3 r4 r5 r6 r7 l) d' := by
  fun_induction eightSums generalizing l0 l1 l2 l3 l4 l5 l6 l7 d with
  | case1 r0 r1 r2 r3 r4 r5 r6 r7 a0 a1 a2 a3 a4 a5 a6 a7 l ih =>
    have e : max d 0 + 1 = d + 1 := by simp
    obtain ⟨d', hd, hs⟩ := ih (l0 ++ [a0]) (l1 ++ [a1]) (l2 ++ [a2]) (l3 ++ [a3]) (l4 ++ [a4]) (l5 ++ [a5]) (l6 ++ [a6]) (l7 ++ [a7]) (d + 1)
      (e ▸ h0.add (.one a0)) (e ▸ h1.add (.one a1)) (e ▸ h2.add (.one a2)) (e ▸ h3.add (.one a3)) (e ▸ h4.add (.one a4)) (e ▸ h5.add (.one a5)) (e ▸ h6.add (.one a6)) (e ▸ h7.add (.one a7))
    refine ⟨d', by simp at hd ⊢; omega, hs.perm ?_⟩
    rw [List.perm_iff_count]
    intro z
    simp only [List.count_append, List.count_cons, List.count_nil]
    omega
  | case2 r0 r1 r2 r3 r4 r5 r6 r7 l _ =>
    have hadd : ∀ {a b : List ℝ} {s s' : ℝ} {d : ℕ}, SumsTo rnd a s d → SumsTo rnd b s' d → SumsTo rnd (a ++ b) (rnd (s + s')) (d + 1) := by
      intro a b s s' d ha hb
      have := ha.add hb
      rwa [max_self] at this
    have := hadd (hadd (hadd h0 h1) (hadd h2 h3)) (hadd (hadd h4 h5) (hadd h6 h7))
    obtain ⟨d', hd, hs⟩ := seqSum_ok l _ _ _ this
    refine ⟨d', hd, hs.perm ?_⟩
    simp

theorem blockSum_ok (l : List ℝ) : ∃ d ≤ l.length, SumsTo rnd l (blockSum rnd l) d := by
  fun_cases blockSum rnd l with
  | case1 => exact ⟨0, le_rfl, .nil⟩
  | case2 r0 r1 r2 r3 r4 r5 r6 r7 l =>
    obtain ⟨d, hd, hs⟩ := eightSums_ok r0 r1 r2 r3 r4 r5 r6 r7 l [r0] [r1] [r2] [r3] [r4] [r5] [r6] [r7] 0 (.one _) (.one _) (.one _) (.one _) (.one _) (.one _) (.one _) (.one _)
    exact ⟨d, by simp at hd ⊢; omega, by simpa using hs⟩
  | case3 x l _ =>
    obtain ⟨d, hd, hs⟩ := seqSum_ok l [x] x 0 (.one x)
    exact ⟨d, by simp at hd ⊢; omega, by simpa using hs⟩

theorem pairwiseSum_ok (l : List ℝ) : ∃ d ≤ l.length, SumsTo rnd l (pairwiseSum rnd l) d := by
  fun_induction pairwiseSum rnd l with
  | case1 l h => exact blockSum_ok l
  | case2 l h ih1 ih2 =>
    obtain ⟨d1, h1, s1⟩ := ih1
    obtain ⟨d2, h2, s2⟩ := ih2
    rw [List.length_take] at h1
    rw [List.length_drop] at h2
    refine ⟨max d1 d2 + 1, ?_, ?_⟩
    · omega
    · have := s1.add s2
      rwa [List.take_append_drop] at this

end

/-- NumPy on doubles is an arithmetic with relative error 2^-53. -/
theorem double_ok : Arith.double.Ok (1 / 2 ^ 53) :=
  ⟨by positivity, by norm_num, rndDouble_error, pairwiseSum_ok⟩

/-- So is any other number of bits. -/
theorem bits_ok (b : ℕ) (hb : 0 < b) : (⟨rndBits b, pairwiseSum (rndBits b)⟩ : Arith).Ok (1 / 2 ^ b) :=
  ⟨by positivity, by rw [div_lt_one (by positivity)]; exact one_lt_pow₀ (by norm_num) hb.ne', rndBits_error b, pairwiseSum_ok⟩

theorem nearestEven_eq {x : ℝ} {m : ℤ} (h : |x - m| < 1/2 ∨ (|x - m| = 1/2 ∧ Even m)) : nearestEven x = m := by
  have hf1 := Int.floor_le x
  have hf2 := Int.lt_floor_add_one x
  rcases h with h | ⟨h, he⟩
  · have := abs_lt.1 h
    have e := abs_le.1 (nearestEven_error x)
    have h1 : ((nearestEven x : ℤ) : ℝ) < m + 1 := by linarith
    have h2 : (m : ℝ) < nearestEven x + 1 := by linarith
    have h1' : nearestEven x < m + 1 := by exact_mod_cast h1
    have h2' : m < nearestEven x + 1 := by exact_mod_cast h2
    omega
  · rcases (abs_eq (by norm_num : (0:ℝ) ≤ 1/2)).1 h with h | h
    · have hfl : ⌊x⌋ = m := Int.floor_eq_iff.2 ⟨by linarith, by linarith⟩
      unfold nearestEven
      rw [hfl, if_neg (by linarith), if_neg (by linarith), if_pos he]
    · have hfl : ⌊x⌋ = m - 1 := Int.floor_eq_iff.2 ⟨by push_cast; linarith, by push_cast; linarith⟩
      have hodd : ¬ Even (m - 1) := by
        rw [Int.even_sub_one]
        simpa using he
      unfold nearestEven
      rw [hfl, if_neg (by push_cast; linarith), if_neg (by push_cast; linarith), if_neg hodd]
      ring

/-- The rounding of a positive number, from its exponent. -/
theorem rndDouble_eq {x : ℝ} {m : ℤ} (e : ℕ) (h1 : 2 ^ 52 ≤ x * 2 ^ e) (h2 : x * 2 ^ e < 2 ^ 53) (h : |x * 2 ^ e - m| < 1/2 ∨ (|x * 2 ^ e - m| = 1/2 ∧ Even m)) :
    rndDouble x = m / 2 ^ e := by
  have hp : (0:ℝ) < 2 ^ e := by positivity
  have hx : 0 < x := by
    by_contra hc
    have := mul_nonpos_of_nonpos_of_nonneg (not_lt.1 hc) hp.le
    linarith [show (0:ℝ) < 2 ^ 52 by positivity]
  have hlog : Int.log 2 |x| = 52 - e := by
    rw [abs_of_pos hx]
    have a1 : (52 - e : ℤ) ≤ Int.log 2 x := by
      rw [← Int.zpow_le_iff_le_log (by norm_num) hx]
      push_cast
      rw [zpow_sub₀ (by norm_num), zpow_natCast, div_le_iff₀ hp]
      exact_mod_cast h1
    have a2 : Int.log 2 x < (53 - e : ℤ) := by
      rw [← Int.lt_zpow_iff_log_lt (by norm_num) hx]
      push_cast
      rw [zpow_sub₀ (by norm_num), zpow_natCast, lt_div_iff₀ hp]
      exact_mod_cast h2
    omega
  have hexp : Int.log 2 |x| + 1 - (53 : ℕ) = -(e : ℤ) := by rw [hlog]; push_cast; ring
  unfold rndDouble rndBits
  rw [hexp, zpow_neg, zpow_natCast, div_inv_eq_mul, nearestEven_eq h, div_eq_mul_inv]

theorem nearestEven_int (m : ℤ) : nearestEven m = m := nearestEven_eq (Or.inl (by simp))

/-- A rounded number has `b` bits: it is not changed by rounding it again. -/
theorem rndBits_idem (b : ℕ) (hb : 0 < b) (x : ℝ) : rndBits b (rndBits b x) = rndBits b x := by
  rcases eq_or_ne x 0 with rfl | hx
  · simp [rndBits, nearestEven]
  set e := Int.log 2 |x| + 1 - (b : ℤ) with he
  set n := nearestEven (x / 2 ^ e) with hn
  have hp : (0:ℝ) < 2 ^ e := by positivity
  have hy : rndBits b x = n * 2 ^ e := rfl
  have h1 : (2:ℝ) ^ (b - 1) ≤ |x| / 2 ^ e := by
    rw [le_div_iff₀ hp, ← zpow_natCast, ← zpow_add₀ (by norm_num), Nat.cast_sub hb, show ((b:ℤ) - (1:ℕ)) + e = Int.log 2 |x| by rw [he]; push_cast; ring]
    exact_mod_cast Int.zpow_log_le_self (b := 2) (by norm_num) (abs_pos.2 hx)
  have h2 : |x| / 2 ^ e < (2:ℝ) ^ b := by
    rw [div_lt_iff₀ hp, ← zpow_natCast, ← zpow_add₀ (by norm_num), show (b:ℤ) + e = Int.log 2 |x| + 1 by rw [he]; ring]
    exact_mod_cast Int.lt_zpow_succ_log_self (b := 2) (by norm_num) |x|
  have hxe : |x| / 2 ^ e = |x / 2 ^ e| := by rw [abs_div, abs_of_pos hp]
  rw [hxe] at h1 h2
  have herr := nearestEven_error (x / 2 ^ e)
  rw [← hn] at herr
  have a1 := abs_sub_abs_le_abs_sub (n : ℝ) (x / 2 ^ e)
  have a2 := abs_sub_abs_le_abs_sub (x / 2 ^ e) (n : ℝ)
  rw [abs_sub_comm] at a2
  have n1 : (2:ℤ) ^ (b - 1) ≤ |n| := by
    have : (2:ℝ) ^ (b - 1) < |(n:ℝ)| + 1 := by linarith
    have : (2:ℤ) ^ (b - 1) < |n| + 1 := by exact_mod_cast this
    omega
  have n2 : |n| ≤ (2:ℤ) ^ b := by
    have : |(n:ℝ)| < 2 ^ b + 1 := by linarith
    have : |n| < (2:ℤ) ^ b + 1 := by exact_mod_cast this
    omega
  have habs : |rndBits b x| = (|n| : ℤ) * 2 ^ e := by rw [hy, abs_mul, abs_of_pos hp, Int.cast_abs]
  have hbe : (2:ℝ) ^ (b - 1) * 2 ^ e = 2 ^ (Int.log 2 |x|) := by
    rw [← zpow_natCast, ← zpow_add₀ (by norm_num), Nat.cast_sub hb, show ((b:ℤ) - (1:ℕ)) + e = Int.log 2 |x| by rw [he]; push_cast; ring]
  have hbe' : (2:ℝ) ^ b * 2 ^ e = 2 ^ (Int.log 2 |x| + 1) := by
    rw [← zpow_natCast, ← zpow_add₀ (by norm_num), show (b:ℤ) + e = Int.log 2 |x| + 1 by rw [he]; ring]
  have n1' : (2:ℝ) ^ (b - 1) ≤ ((|n| : ℤ) : ℝ) := by exact_mod_cast n1
  have hpos : 0 < |rndBits b x| := by
    rw [habs]
    exact mul_pos (lt_of_lt_of_le (by positivity) n1') hp
  rcases lt_or_eq_of_le n2 with n2 | n2
  · have n2' : ((|n| : ℤ) : ℝ) < 2 ^ b := by exact_mod_cast n2
    have hlog : Int.log 2 |rndBits b x| = Int.log 2 |x| := by
      have b1 : Int.log 2 |x| ≤ Int.log 2 |rndBits b x| := by
        rw [← Int.zpow_le_iff_le_log (by norm_num) hpos, habs]
        push_cast
        rw [← hbe]
        exact_mod_cast mul_le_mul_of_nonneg_right n1' hp.le
      have b2 : Int.log 2 |rndBits b x| < Int.log 2 |x| + 1 := by
        rw [← Int.lt_zpow_iff_log_lt (by norm_num) hpos, habs]
        push_cast
        rw [← hbe']
        exact_mod_cast mul_lt_mul_of_pos_right n2' hp
      omega
    conv_lhs => rw [rndBits, hlog, ← he, hy, mul_div_assoc, div_self hp.ne', mul_one, nearestEven_int]
    rw [hy]
  · have hlog : Int.log 2 |rndBits b x| = Int.log 2 |x| + 1 := by
      rw [habs, n2]
      push_cast
      rw [hbe']
      exact_mod_cast Int.log_zpow (R := ℝ) (b := 2) (by norm_num) _
    have h2e : (2:ℝ) ^ (Int.log 2 |x| + 1 + 1 - (b:ℤ)) = 2 * 2 ^ e := by
      rw [show Int.log 2 |x| + 1 + 1 - (b:ℤ) = 1 + e by rw [he]; ring, zpow_add₀ (by norm_num), zpow_one]
    obtain ⟨c, rfl⟩ := Nat.exists_eq_succ_of_ne_zero hb.ne'
    have hk : ∃ k : ℤ, n = k * 2 := by
      rcases abs_eq (by positivity : (0:ℤ) ≤ 2 ^ (c + 1)) |>.1 n2 with h | h
      · exact ⟨2 ^ c, by rw [h, pow_succ]⟩
      · exact ⟨-2 ^ c, by rw [h, pow_succ]; ring⟩
    obtain ⟨k, hk⟩ := hk
    have hq : rndBits (c + 1) x / (2 * 2 ^ e) = k := by
      rw [hy, hk]
      push_cast
      field_simp
    conv_lhs => rw [rndBits, hlog, h2e, hq, nearestEven_int]
    rw [hy, hk]
    push_cast
    ring

theorem rndDouble_zero : rndDouble 0 = 0 := by simp [rndDouble, rndBits, nearestEven]

end Verif.Proof
