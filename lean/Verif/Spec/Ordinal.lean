import Verif.Spec.Confusion

/-!
# Specification for ordinal quantifiers
-/

namespace Verif.Spec

/-- The expected position, from 1 on, of a class drawn from a distribution. -/
noncomputable def expectedPosition {n : ℕ} (p : Fin n → ℝ) : ℝ := ∑ c : Fin n, p c * ((c : ℕ) + 1)

/-- All the probability is in two consecutive classes (or one). -/
def TwoConsecutive {n : ℕ} (p : Fin n → ℝ) : Prop := ∃ j : ℕ, ∀ c : Fin n, (c : ℕ) ≠ j → (c : ℕ) ≠ j + 1 → p c = 0

open Classical in
/-- The share of a sample in bin `b`, when the interval from `lo` to `hi` is divided in `nb` bins of the same width. Bins are closed on the
left and open on the right, except for the last one, which is closed. -/
noncomputable def evenBinShare (lo hi : ℝ) (nb : ℕ) (xs : List ℝ) (b : Fin nb) : ℝ :=
  (xs.countP fun v => decide (lo + (b : ℕ) * ((hi - lo) / nb) ≤ v ∧ (v < lo + ((b : ℕ) + 1) * ((hi - lo) / nb) ∨ ((b : ℕ) + 1 = nb ∧ v ≤ hi))) : ℕ) / xs.length

/-- The distribution of a mixture: `T b c` is the probability of `b` given class `c`, `p` the class prevalences. -/
noncomputable def mixtureOf {m n : ℕ} (T : Fin m → Fin n → ℝ) (p : Fin n → ℝ) : Fin m → ℝ := fun b => ∑ c, T b c * p c

end Verif.Spec
