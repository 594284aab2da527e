import Mathlib.Algebra.BigOperators.Fin
import Mathlib.Algebra.BigOperators.Group.List.Lemmas
import Mathlib.Algebra.BigOperators.Ring.Finset
import Mathlib.Algebra.Order.BigOperators.Group.List
import Mathlib.Data.List.Count
import Mathlib.Data.Finset.Sort
import Mathlib.Data.Real.Basic
import Mathlib.Tactic.Linarith
import Mathlib.Tactic.FieldSimp
import Mathlib.Tactic.Ring

/-!
# Helper lemmas on lists, counts and sums
-/

namespace Verif

open Classical in
theorem sum_count_eq {α : Type*} [DecidableEq α] (cs : List α) (hcs : cs.Nodup) (l : List α) :
    (∑ i : Fin cs.length, l.count cs[i]) = l.countP (fun a => decide (a ∈ cs)) := by
  rw [show (∑ i : Fin cs.length, l.count cs[i]) = (cs.map fun c => l.count c).sum from
    Fin.sum_univ_fun_getElem cs (fun c => l.count c)]
  induction l with
  | nil => simp
  | cons a l ih =>
    have h1 : (cs.map fun c => (a :: l).count c).sum
        = (cs.map fun c => l.count c).sum + cs.count a := by
      have : (cs.map fun c => (a :: l).count c)
          = (cs.map fun c => l.count c + if a = c then 1 else 0) := by
        apply List.map_congr_left
        intro c _
        rw [List.count_cons]
        simp
      rw [this, List.sum_map_add]
      congr 1
      clear this ih hcs
      induction cs with
      | nil => simp
      | cons c cs ih =>
        rw [List.map_cons, List.sum_cons, ih, List.count_cons, Nat.add_comm]
        by_cases h : a = c
        · simp [h]
        · simp [h, Ne.symm h]
    rw [h1, ih, List.countP_cons]
    congr 1
    by_cases h : a ∈ cs
    · simp [h, List.count_eq_one_of_mem hcs h]
    · simp [h, List.count_eq_zero_of_not_mem h]

theorem sum_count_of_subset {α : Type*} [DecidableEq α] (cs : List α) (hcs : cs.Nodup) (l : List α)
    (h : ∀ a ∈ l, a ∈ cs) : (∑ i : Fin cs.length, l.count cs[i]) = l.length := by
  rw [sum_count_eq cs hcs l, List.countP_eq_length]
  intro a ha
  simpa using h a ha

theorem sum_list_map_comm {ι β M : Type*} [AddCommMonoid M] (s : Finset ι) (l : List β)
    (f : β → ι → M) : (∑ i ∈ s, (l.map fun b => f b i).sum) = (l.map fun b => ∑ i ∈ s, f b i).sum := by
  induction l with
  | nil => simp
  | cons b l ih => simp [Finset.sum_add_distrib, ih]

theorem list_sum_const {β : Type*} (l : List β) (f : β → ℝ) (c : ℝ) (h : ∀ b ∈ l, f b = c) :
    (l.map f).sum = l.length * c := by
  induction l with
  | nil => simp
  | cons b l ih =>
    rw [List.map_cons, List.sum_cons, h b (by simp), ih (fun b hb => h b (by simp [hb]))]
    simp only [List.length_cons]
    push_cast
    ring

theorem list_sum_map_nonneg {β : Type*} (l : List β) (f : β → ℝ) (h : ∀ b ∈ l, 0 ≤ f b) :
    0 ≤ (l.map f).sum := by
  apply List.sum_nonneg
  intro x hx
  obtain ⟨b, hb, rfl⟩ := List.mem_map.mp hx
  exact h b hb

end Verif
