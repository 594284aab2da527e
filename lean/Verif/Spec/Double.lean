import Verif.Spec.Rounding
import Mathlib.Data.Int.Log
import Mathlib.Algebra.Order.Round

/-!
# Specification: the arithmetic of NumPy on doubles

Rounding to 53 bits, half to even, without bounds on the exponent (no overflow and no subnormal numbers), and `np.sum` with its pairwise summation (numpy/_core/src/umath/loops_utils.h.src, `pairwise_sum`).
-/

namespace Verif.Spec

/-- The nearest integer; the even one if there are two. -/
noncomputable def nearestEven (x : ℝ) : ℤ :=
  if x - ⌊x⌋ < 1/2 then ⌊x⌋ else if 1/2 < x - ⌊x⌋ then ⌊x⌋ + 1 else if Even ⌊x⌋ then ⌊x⌋ else ⌊x⌋ + 1

/-- The nearest number with `b` significant bits: the last bit has the value 2^(e-b+1), where 2^e is the greatest power of 2 that is at most |x|. -/
noncomputable def rndBits (b : ℕ) (x : ℝ) : ℝ := nearestEven (x / 2 ^ (Int.log 2 |x| + 1 - b)) * 2 ^ (Int.log 2 |x| + 1 - b)

/-- Doubles have 53 significant bits. -/
noncomputable def rndDouble : ℝ → ℝ := rndBits 53

/-- From left to right. -/
noncomputable def seqSum (rnd : ℝ → ℝ) (s : ℝ) (l : List ℝ) : ℝ := l.foldl (fun s x => rnd (s + x)) s

/-- Eight running sums, as long as there are eight more numbers; then they are added in pairs, and the numbers left one by one. -/
noncomputable def eightSums (rnd : ℝ → ℝ) (r0 r1 r2 r3 r4 r5 r6 r7 : ℝ) : List ℝ → ℝ
  | a0 :: a1 :: a2 :: a3 :: a4 :: a5 :: a6 :: a7 :: l =>
    eightSums rnd (rnd (r0 + a0)) (rnd (r1 + a1)) (rnd (r2 + a2)) (rnd (r3 + a3)) (rnd (r4 + a4)) (rnd (r5 + a5)) (rnd (r6 + a6)) (rnd (r7 + a7)) l
  | l => seqSum rnd (rnd (rnd (rnd (r0 + r1) + rnd (r2 + r3)) + rnd (rnd (r4 + r5) + rnd (r6 + r7)))) l

/-- At most 128 numbers: one by one if they are less than eight. -/
noncomputable def blockSum (rnd : ℝ → ℝ) : List ℝ → ℝ
  | [] => 0
  | r0 :: r1 :: r2 :: r3 :: r4 :: r5 :: r6 :: r7 :: l => eightSums rnd r0 r1 r2 r3 r4 r5 r6 r7 l
  | x :: l => seqSum rnd x l

/-- `np.sum`: more than 128 numbers are split in two halves, the first one with a multiple of eight numbers. -/
noncomputable def pairwiseSum (rnd : ℝ → ℝ) (l : List ℝ) : ℝ :=
  if _h : l.length ≤ 128 then blockSum rnd l
  else rnd (pairwiseSum rnd (l.take (l.length / 2 - l.length / 2 % 8)) + pairwiseSum rnd (l.drop (l.length / 2 - l.length / 2 % 8)))
termination_by l.length
decreasing_by
  · rw [List.length_take]; omega
  · rw [List.length_drop]; omega

/-- NumPy on doubles. -/
noncomputable def Arith.double : Arith := ⟨rndDouble, pairwiseSum rndDouble⟩

end Verif.Spec
