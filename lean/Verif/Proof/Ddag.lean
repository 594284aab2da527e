import Verif.Spec.Ddag
import Verif.Proof.FrankHall
import Verif.Proof.Eoq
import Verif.Props.Eoq2

/-!
# Proofs for decision directed acyclic graphs
-/

namespace Verif.Proof

open Verif.Model Verif.Spec Verif.Props

/-! ## The position of a pair -/

theorem flatMap_get {β γ : Type} (l : List β) (f : β → List γ) (i b : ℕ) (x : β) (hi : l[i]? = some x) (hb : b < (f x).length) :
    (l.flatMap f)[((l.take i).map fun a => (f a).length).sum + b]? = (f x)[b]? := by
  induction l generalizing i with
  | nil => simp at hi
  | cons a l ih =>
    rw [List.flatMap_cons]
    cases i with
    | zero =>
      cases hi
      rw [List.take_zero, List.map_nil, List.sum_nil, Nat.zero_add, List.getElem?_append_left hb]
    | succ i =>
      rw [List.take_succ_cons, List.map_cons, List.sum_cons, List.getElem?_append_right (by omega), show (f a).length + ((l.take i).map fun a => (f a).length).sum + b - (f a).length
        = ((l.take i).map fun a => (f a).length).sum + b by omega]
      exact ih i hi

theorem ovo_prefix (n i : ℕ) (hi : i ≤ n) : ((List.range i).map fun a => n - a - 1).sum = (List.range' (n - i) i).sum := by
  induction i with
  | zero => rfl
  | succ i ih =>
    rw [List.range_succ, List.map_append, List.sum_append, ih (by omega), List.range'_succ, List.sum_cons]
    simp only [List.map_cons, List.map_nil, List.sum_cons, List.sum_nil]
    rw [show n - (i + 1) + 1 = n - i by omega]
    omega

theorem ddagPos_get (n i j : ℕ) (hij : i < j) (hj : j < n) : (ovoPairs n)[ddagPos n i j]? = some (i, j) := by
  have hlen : ∀ a, ((List.range' (a + 1) (n - a - 1)).map fun j => (a, j)).length = n - a - 1 := fun a => by simp
  have := flatMap_get (List.range n) (fun i => (List.range' (i + 1) (n - i - 1)).map fun j => (i, j)) i (j - i - 1) i (List.getElem?_range (by omega)) (by rw [hlen]; omega)
  simp only [hlen] at this
  rw [List.take_range, min_eq_left (by omega : i ≤ n), ovo_prefix n i (by omega)] at this
  unfold ovoPairs ddagPos
  rw [this, List.getElem?_map, List.getElem?_range' (by omega)]
  simp
  omega

theorem ovoPairs_mem (n : ℕ) (p : ℕ × ℕ) (h : p ∈ ovoPairs n) : p.1 < p.2 ∧ p.2 < n := by
  unfold ovoPairs at h
  simp only [List.mem_flatMap, List.mem_range, List.mem_map, List.mem_range'_1] at h
  obtain ⟨i, hi, j, hj, rfl⟩ := h
  simp only
  omega

/-! ## Paths -/

section
variable (left right : ℕ → ℕ → ℝ)

theorem dagProb_zero (i c : ℕ) : dagProb left right 0 i c = if i = c then 1 else 0 := by
  unfold dagProb words
  by_cases h : i = c <;> simp [h, decisionsProb]

theorem dagProb_succ (d i c : ℕ) : dagProb left right (d + 1) i c = left i (i + (d + 1)) * dagProb left right d i c + right i (i + (d + 1)) * dagProb left right d (i + 1) c := by
  unfold dagProb
  rw [words, List.filter_append, List.map_append, List.sum_append, List.filter_map, List.filter_map, List.map_map, List.map_map, ← List.sum_map_mul_left, ← List.sum_map_mul_left]
  congr 2
  · have hf : ((fun w => decide (i + List.count true w = c)) ∘ fun w => true :: w) = fun w => decide (i + 1 + List.count true w = c) := by
      funext w
      simp only [Function.comp, List.count_cons_self]
      rw [show i + (List.count true w + 1) = i + 1 + List.count true w by omega]
    rw [hf]
    apply List.map_congr_left
    intro w _
    show right i (i + (d + 1)) * decisionsProb left right (i + 1) (i + (d + 1)) w = _
    rw [show i + (d + 1) = i + 1 + d by omega]

theorem dagProb_out (d i c : ℕ) (h : c < i ∨ i + d < c) : dagProb left right d i c = 0 := by
  induction d generalizing i with
  | zero => rw [dagProb_zero, if_neg (by omega)]
  | succ d ih => rw [dagProb_succ, ih i (by omega), ih (i + 1) (by omega), mul_zero, mul_zero, add_zero]

theorem dagProb_sum (d i N : ℕ) (hN : i + d < N) (h : ∀ a b, i ≤ a → a < b → b ≤ i + d → left a b + right a b = 1) : ∑ c ∈ Finset.range N, dagProb left right d i c = 1 := by
  induction d generalizing i with
  | zero =>
    simp only [dagProb_zero]
    rw [Finset.sum_ite_eq, if_pos (Finset.mem_range.2 (by omega))]
  | succ d ih =>
    simp only [dagProb_succ]
    rw [Finset.sum_add_distrib, ← Finset.mul_sum, ← Finset.mul_sum, ih i (by omega) fun a b h1 h2 h3 => h a b h1 h2 (by omega), ih (i + 1) (by omega) fun a b h1 h2 h3 => h a b (by omega) h2 (by omega), mul_one, mul_one]
    exact h i (i + (d + 1)) le_rfl (by omega) le_rfl

theorem dagProb_nonneg (d i c : ℕ) (h : ∀ a b, i ≤ a → a < b → b ≤ i + d → 0 ≤ left a b ∧ 0 ≤ right a b) : 0 ≤ dagProb left right d i c := by
  induction d generalizing i with
  | zero => rw [dagProb_zero]; split_ifs <;> norm_num
  | succ d ih =>
    rw [dagProb_succ]
    have hn := h i (i + (d + 1)) le_rfl (by omega) le_rfl
    exact add_nonneg (mul_nonneg hn.1 (ih i fun a b h1 h2 h3 => h a b h1 h2 (by omega))) (mul_nonneg hn.2 (ih (i + 1) fun a b h1 h2 h3 => h a b (by omega) h2 (by omega)))

end

/-- The probabilities used at a node. -/
noncomputable def effLeft (winner : Bool) (left : ℕ → ℕ → ℝ) (a b : ℕ) : ℝ := if winner && decide (b - a ≠ 1) then binLeft (left a b) else left a b

noncomputable def effRight (winner : Bool) (right : ℕ → ℕ → ℝ) (a b : ℕ) : ℝ := if winner && decide (b - a ≠ 1) then binRight (right a b) else right a b

theorem bin_sum {l r : ℝ} (h : l + r = 1) : binLeft l + binRight r = 1 := by
  unfold binLeft binRight
  by_cases h1 : l < 1 / 2
  · rw [if_pos h1, if_neg (by linarith)]; norm_num
  · rw [if_neg h1, if_pos (by linarith)]; norm_num

theorem eff_sum (winner : Bool) (left right : ℕ → ℕ → ℝ) (a b : ℕ) (h : left a b + right a b = 1) : effLeft winner left a b + effRight winner right a b = 1 := by
  unfold effLeft effRight
  by_cases hw : (winner && decide (b - a ≠ 1)) = true
  · rw [if_pos hw, if_pos hw]; exact bin_sum h
  · rw [if_neg hw, if_neg hw]; exact h

theorem eff_nonneg (winner : Bool) (left right : ℕ → ℕ → ℝ) (a b : ℕ) (h : 0 ≤ left a b ∧ 0 ≤ right a b) : 0 ≤ effLeft winner left a b ∧ 0 ≤ effRight winner right a b := by
  unfold effLeft effRight
  by_cases hw : (winner && decide (b - a ≠ 1)) = true
  · rw [if_pos hw, if_pos hw]
    unfold binLeft binRight
    constructor <;> split_ifs <;> norm_num
  · rw [if_neg hw, if_neg hw]; exact h

theorem ddagCompute_spec {M D : Type} (n : ℕ) (winner : Bool) (ops : FhOps M D) (ests : List M) (x : D) (left right : ℕ → ℕ → ℝ) (d i : ℕ)
    (hest : ∀ a b, i ≤ a → a < b → b ≤ i + d → ∃ m, ests[ddagPos n a b]? = some m ∧ (ops.proba m x)[0]? = some (left a b) ∧ (ops.proba m x)[1]? = some (right a b))
    (accum samples : Fin n → ℝ) (hacc : ∀ c : Fin n, ¬(i ≤ (c : ℕ) ∧ (c : ℕ) ≤ i + d) → accum c = 0) :
    ddagCompute n winner ops ests x d i accum samples = .ok fun c => samples c + accum c * dagProb (effLeft winner left) (effRight winner right) d i c := by
  induction d generalizing i accum samples with
  | zero =>
    unfold ddagCompute
    congr 1
    funext c
    rw [dagProb_zero]
    by_cases h : i = c
    · rw [if_pos h, mul_one]
    · rw [if_neg h, hacc c (by omega), zero_mul]
  | succ d ih =>
    obtain ⟨m, e1, e2, e3⟩ := hest i (i + (d + 1)) le_rfl (by omega) le_rfl
    unfold ddagCompute
    refine (bind_ok (item_ok.2 e1) _).trans ((bind_ok (item_ok.2 e2) _).trans ((bind_ok (item_ok.2 e3) _).trans ?_))
    have hl : (if winner && decide (d + 1 ≠ 1) then binLeft (left i (i + (d + 1))) else left i (i + (d + 1))) = effLeft winner left i (i + (d + 1)) := by
      unfold effLeft
      rw [show i + (d + 1) - i = d + 1 by omega]
    have hr : (if winner && decide (d + 1 ≠ 1) then binRight (right i (i + (d + 1))) else right i (i + (d + 1))) = effRight winner right i (i + (d + 1)) := by
      unfold effRight
      rw [show i + (d + 1) - i = d + 1 by omega]
    simp only [hl, hr]
    refine (bind_ok (ih i (fun a b h1 h2 h3 => hest a b h1 h2 (by omega)) _ _ fun c hc => if_neg (by omega)) _).trans ?_
    rw [ih (i + 1) (fun a b h1 h2 h3 => hest a b (by omega) h2 (by omega)) _ _ fun c hc => if_neg (by omega)]
    congr 1
    funext c
    rw [dagProb_succ]
    by_cases h1 : i ≤ (c : ℕ) ∧ (c : ℕ) < i + (d + 1)
    · rw [if_pos h1]
      by_cases h2 : i + 1 ≤ (c : ℕ) ∧ (c : ℕ) < i + (d + 1) + 1
      · rw [if_pos h2]; ring
      · rw [if_neg h2, dagProb_out _ _ d (i + 1) c (by omega)]; ring
    · rw [if_neg h1]
      by_cases h2 : i + 1 ≤ (c : ℕ) ∧ (c : ℕ) < i + (d + 1) + 1
      · rw [if_pos h2, dagProb_out _ _ d i c (by omega)]; ring
      · rw [if_neg h2, dagProb_out _ _ d i c (by omega), dagProb_out _ _ d (i + 1) c (by omega)]; ring

/-- With the binarized probabilities there is a single path with nonzero probability down to the last node. -/
theorem dagProb_winner (left right : ℕ → ℕ → ℝ) (d i c : ℕ) (hd : 1 ≤ d) (h : ∀ a b, i ≤ a → a < b → b ≤ i + d → left a b + right a b = 1) :
    dagProb (effLeft true left) (effRight true right) d i c
      = if c = majority left d i then left (majority left d i) (majority left d i + 1) else if c = majority left d i + 1 then right (majority left d i) (majority left d i + 1) else 0 := by
  induction d generalizing i with
  | zero => omega
  | succ d ih =>
    rw [dagProb_succ]
    cases d with
    | zero =>
      rw [dagProb_zero, dagProb_zero]
      have hm : majority left (0 + 1) i = i := rfl
      have e1 : effLeft true left i (i + (0 + 1)) = left i (i + 1) := by simp [effLeft]
      have e2 : effRight true right i (i + (0 + 1)) = right i (i + 1) := by simp [effRight]
      rw [hm, e1, e2]
      by_cases h1 : c = i
      · subst h1
        simp
      · by_cases h2 : c = i + 1
        · subst h2; simp
        · rw [if_neg (Ne.symm h1), if_neg (Ne.symm h2), if_neg h1, if_neg h2]; ring
    | succ d =>
      have hm : majority left (d + 1 + 1) i = if 1 / 2 ≤ left i (i + (d + 2)) then majority left (d + 1) i else majority left (d + 1) (i + 1) := rfl
      have hs := h i (i + (d + 1 + 1)) le_rfl (by omega) le_rfl
      have e1 : effLeft true left i (i + (d + 1 + 1)) = if 1 / 2 ≤ left i (i + (d + 1 + 1)) then 1 else 0 := by
        unfold effLeft binLeft
        rw [if_pos (by simp)]
        by_cases h1 : 1 / 2 ≤ left i (i + (d + 1 + 1))
        · rw [if_pos h1, if_neg (by linarith)]
        · rw [if_neg h1, if_pos (by linarith)]
      have e2 : effRight true right i (i + (d + 1 + 1)) = if 1 / 2 ≤ left i (i + (d + 1 + 1)) then 0 else 1 := by
        unfold effRight binRight
        rw [if_pos (by simp)]
        by_cases h1 : 1 / 2 ≤ left i (i + (d + 1 + 1))
        · rw [if_pos h1, if_pos (by linarith)]
        · rw [if_neg h1, if_neg (by linarith)]
      rw [e1, e2, hm]
      by_cases h1 : 1 / 2 ≤ left i (i + (d + 1 + 1))
      · rw [if_pos h1, if_pos h1, if_pos h1, one_mul, zero_mul, add_zero]
        exact ih i (by omega) fun a b h1 h2 h3 => h a b h1 h2 (by omega)
      · rw [if_neg h1, if_neg h1, if_neg h1, one_mul, zero_mul, zero_add]
        exact ih (i + 1) (by omega) fun a b h1 h2 h3 => h a b (by omega) h2 (by omega)

theorem majority_bounds (left : ℕ → ℕ → ℝ) (d i : ℕ) (hd : 1 ≤ d) : i ≤ majority left d i ∧ majority left d i + 1 ≤ i + d := by
  induction d generalizing i with
  | zero => omega
  | succ d ih =>
    cases d with
    | zero => exact ⟨le_rfl, by show i + 1 ≤ _; omega⟩
    | succ d =>
      have hm : majority left (d + 1 + 1) i = if 1 / 2 ≤ left i (i + (d + 2)) then majority left (d + 1) i else majority left (d + 1) (i + 1) := rfl
      rw [hm]
      split_ifs
      · have := ih i (by omega); omega
      · have := ih (i + 1) (by omega); omega

end Verif.Proof
