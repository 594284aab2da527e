import Verif.Num.Fl
import Mathlib.Data.Finset.Sort
import Mathlib.Data.List.Count

/-!
# Specification vocabulary: prevalence vectors and class frequencies

These are the notions in which the properties are stated. They do not mention the model.
-/

namespace Verif.Spec

/-- A valid prevalence vector: one nonnegative number per class, adding up to 1. -/
def IsPrev {n : ℕ} (p : Fin n → ℝ) : Prop := (∀ i, 0 ≤ p i) ∧ ∑ i, p i = 1

/-- A NumPy vector that is a valid prevalence vector (in particular it has no NaN or inf). -/
def IsPrevFl {n : ℕ} (v : Fin n → Fl) : Prop := ∃ p : Fin n → ℝ, IsPrev p ∧ v = fun i => Fl.fin (p i)

/-- The class labels occurring in a list, in increasing order. -/
def labelsOf {α : Type*} [LinearOrder α] (y : List α) : List α := y.toFinset.sort (· ≤ ·)

/-- The fraction of the entries of `l` equal to `c`. Only meaningful for nonempty `l`. -/
noncomputable def freq {α : Type*} [DecidableEq α] (l : List α) (c : α) : ℝ :=
  (l.count c : ℝ) / (l.length : ℝ)

/-- The vector of class frequencies of `l`, with respect to a list of classes. -/
noncomputable def freqs {α : Type*} [DecidableEq α] (cs : List α) (l : List α) : Fin cs.length → ℝ :=
  fun i => freq l cs[i]

theorem IsPrev.le_one {n : ℕ} {p : Fin n → ℝ} (h : IsPrev p) (i : Fin n) : p i ≤ 1 := by
  rw [← h.2]
  exact Finset.single_le_sum (fun j _ => h.1 j) (Finset.mem_univ i)

theorem labelsOf_eq {α : Type*} [LinearOrder α] (y l : List α) (hs : l.Pairwise (· < ·))
    (h : y.toFinset = l.toFinset) : labelsOf y = l := by
  unfold labelsOf
  rw [h]
  exact (List.toFinset_sort (· ≤ ·) (hs.imp fun h => h.ne)).2 (hs.imp fun h => h.le)

/-- Every component of a prevalence vector is in [0,1]. -/
theorem IsPrev.mem_Icc {n : ℕ} {p : Fin n → ℝ} (h : IsPrev p) (i : Fin n) : p i ∈ Set.Icc (0:ℝ) 1 :=
  ⟨h.1 i, h.le_one i⟩

end Verif.Spec
