import Verif.Spec.Prevalence
import Mathlib.Data.List.Perm.Basic
import Mathlib.Topology.Instances.Real.Lemmas

/-!
# Specification of C145 and C146: floating-point arithmetic

The results of arithmetic operations are rounded, with a small relative error, and the numbers of an array are added in an order that is not specified. Overflow and underflow are not part of this description: all results
are real numbers, and the relative error of a rounding is at most `u` also near zero (for IEEE doubles `u` is 2^-53 as long as no result overflows or is subnormal).
-/

namespace Verif.Spec

/-- `s` is a computed sum of the numbers of `l`: they are added in some order, and every partial sum is rounded. No number takes part in more than `d` additions. -/
inductive SumsTo (rnd : ℝ → ℝ) : List ℝ → ℝ → ℕ → Prop
  | nil : SumsTo rnd [] 0 0
  | one (x : ℝ) : SumsTo rnd [x] x 0
  | add {l l' : List ℝ} {s s' : ℝ} {d d' : ℕ} : SumsTo rnd l s d → SumsTo rnd l' s' d' → SumsTo rnd (l ++ l') (rnd (s + s')) (max d d' + 1)
  | perm {l l' : List ℝ} {s : ℝ} {d : ℕ} : l.Perm l' → SumsTo rnd l s d → SumsTo rnd l' s d

/-- Arithmetic as done by NumPy: `rnd` gives the result of an operation (sum, difference, product or quotient of two numbers) from the exact one, and `sum` adds the numbers of an array. -/
structure Arith where
  rnd : ℝ → ℝ
  sum : List ℝ → ℝ

/-- Arithmetic with relative error at most `u`. -/
structure Arith.Ok (A : Arith) (u : ℝ) : Prop where
  nonneg : 0 ≤ u
  lt_one : u < 1
  rnd : ∀ x, |A.rnd x - x| ≤ u * |x|
  sum : ∀ l, ∃ d, d ≤ l.length ∧ SumsTo A.rnd l (A.sum l) d

/-- Exact arithmetic. -/
noncomputable def Arith.exact : Arith := ⟨id, List.sum⟩

/-- The numbers of `x` add up to 1, except for rounding: a vector divided by the computed sum of its `k` entries. -/
def NearOne (u : ℝ) (k : ℕ) {n : ℕ} (x : Fin n → ℝ) : Prop := (1 - u) / (1 + u) ^ k ≤ ∑ i, x i ∧ ∑ i, x i ≤ (1 + u) / (1 - u) ^ k

/-- A sequence of lists of numbers tends to a list, entry by entry. -/
inductive ListTendsTo : (ℕ → List ℝ) → List ℝ → Prop
  | nil : ListTendsTo (fun _ => []) []
  | cons {x : ℕ → ℝ} {a : ℝ} {L : ℕ → List ℝ} {l : List ℝ} : Filter.Tendsto x Filter.atTop (nhds a) → ListTendsTo L l → ListTendsTo (fun m => x m :: L m) (a :: l)

end Verif.Spec
