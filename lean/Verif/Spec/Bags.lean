import Verif.Model.Bags
import Verif.Spec.Prevalence

/-!
# What a bag is, and what is assumed of the random number generators
-/

namespace Verif.Spec

open Verif.Model

/-- The contract of `RandomState`, for calls that return. -/
structure RngOk {G : Type*} (rng : Rng G) : Prop where
  randint : ∀ g lo hi n l g', rng.randint g lo hi n = .ok (l, g') → l.length = n ∧ ∀ x ∈ l, lo ≤ x ∧ x < hi
  choice : ∀ g pool n l g', rng.choice g pool n = .ok (l, g') → (l.length : ℤ) = n ∧ ∀ i ∈ l, i ∈ pool
  choiceP : ∀ g p n l g', rng.choiceP g p n = .ok (l, g') → l.length = n ∧ ∀ i ∈ l, i < p.length
  dirichlet : ∀ g a n l g', rng.dirichlet g a n = .ok (l, g') → l.length = n ∧ ∀ r ∈ l, r.length = a.length ∧ (∀ x ∈ r, 0 ≤ x) ∧ r.sum = 1

/-- A generator that only raises when its arguments leave it no choice. -/
structure RngTotal {G : Type*} (rng : Rng G) : Prop where
  randint : ∀ g lo hi n, (∃ r, rng.randint g lo hi n = .ok r) ↔ (lo < hi ∨ n = 0)
  randint_err : ∀ g lo hi n e, rng.randint g lo hi n = .error e → e = .valueError
  choice : ∀ g pool n, pool ≠ [] → 0 ≤ n → ∃ r, rng.choice g pool n = .ok r
  choiceP : ∀ g p n, p ≠ [] → ∃ r, rng.choiceP g p n = .ok r
  dirichlet : ∀ g a n, a ≠ [] → (∀ x ∈ a, 0 < x) → ∃ r, rng.dirichlet g a n = .ok r

/-- A bag of `size` examples of a data set with labels `y`: `idx` are positions of `y`, `labels` the labels found there, and
the reported prevalences are the frequencies of the classes among them. -/
def IsBag {α : Type*} [LinearOrder α] (y : List α) (size : ℕ) (prevs : List Fl) (idx : List ℕ) : Prop :=
  idx.length = size ∧ ∃ labels : List α, (idx.map fun i => y[i]?) = labels.map some ∧
    prevs = (labelsOf y).map fun c => Fl.fin (freq labels c)

/-- `n` bags. -/
def AreBags {α : Type*} [LinearOrder α] (y : List α) (size n : ℕ) (b : Bags) : Prop :=
  b.prevs.length = n ∧ b.idx.length = n ∧ ∀ k < n, IsBag y size (b.prevs.getD k []) (b.idx.getD k [])

/-- The number of examples of class `c` in a bag. -/
def bagCount {α : Type*} [DecidableEq α] (y : List α) (idx : List ℕ) (c : α) : ℕ := idx.countP fun i => y[i]? = some c

/-- `m` is `x` rounded to the nearest integer, ties to the even one. -/
def IsRounded (x : ℝ) (m : ℤ) : Prop := |x - m| ≤ 1/2 ∧ (|x - m| = 1/2 → Even m)

end Verif.Spec
