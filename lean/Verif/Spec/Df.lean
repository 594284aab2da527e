import Verif.Model.Df
import Verif.Spec.Prevalence

/-!
# Specification for histogram representations
-/

namespace Verif.Spec

open Verif.Model

/-- What is used of `scipy.stats.norm.ppf`. -/
structure NormPpf (ppf : ℝ → EReal) : Prop where
  zero : ppf 0 = ⊥
  one : ppf 1 = ⊤
  mono : ∀ a b, 0 ≤ a → a ≤ b → b ≤ 1 → ppf a ≤ ppf b

/-- Cut points from -inf to +inf in nondecreasing order. -/
structure CutsOk {n : ℕ} (cuts : Fin (n + 1) → EReal) : Prop where
  first : cuts 0 = ⊥
  last : cuts (Fin.last n) = ⊤
  mono : Monotone cuts

/-- A cumulative distribution: nonnegative, nondecreasing, and 1 at the end. -/
structure IsCdf {n : ℕ} (v : Fin n → ℝ) : Prop where
  nonneg : ∀ i, 0 ≤ v i
  mono : Monotone v
  last : ∀ i : Fin n, (i : ℕ) + 1 = n → v i = 1

open Classical in
/-- The share of a sample in bin `b`: values at least the left cut point and less than the right one. -/
noncomputable def binShare {n : ℕ} (cuts : Fin (n + 1) → EReal) (xs : List ℝ) (b : Fin n) : ℝ :=
  (xs.countP fun v : ℝ => decide (cuts b.castSucc ≤ (v : EReal) ∧ (v : EReal) < cuts b.succ) : ℕ) / xs.length

open Classical in
/-- The share of a sample below the right cut point of bin `b`. -/
noncomputable def cdfShare {n : ℕ} (cuts : Fin (n + 1) → EReal) (xs : List ℝ) (b : Fin n) : ℝ :=
  (xs.countP fun v : ℝ => decide ((v : EReal) < cuts b.succ) : ℕ) / xs.length

end Verif.Spec
