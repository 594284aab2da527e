import Verif.Model.Utils
import Verif.Spec.Prevalence

/-!
# C111: normalize; C112, C113: plot_line_prevalences and the order of its lines
-/

namespace Verif.Props

open Verif.Model Verif.Spec

variable {d n : ℕ}

theorem scaler_mean (col : List ℝ) (h : col ≠ []) : (col.map fun x => (x - (scalerStats col).1) / (scalerStats col).2).sum = 0 := by
  have hl : (col.length : ℝ) ≠ 0 := by exact_mod_cast (List.length_pos_of_ne_nil h).ne'
  have e : ∀ c s : ℝ, (col.map fun x => (x - c) / s).sum = (col.sum - col.length * c) / s := fun c s => by
    clear h hl
    induction col with
    | nil => simp
    | cons a l ih => simp only [List.map_cons, List.sum_cons, ih, List.length_cons]; push_cast; ring
  rw [e]
  simp only [scalerStats]
  rw [mul_div_cancel₀ _ hl, sub_self, zero_div]

theorem scaler_square (col : List ℝ) (c s : ℝ) : (col.map fun x => ((x - c) / s) ^ 2).sum = (col.map fun x => (x - c) ^ 2).sum / s ^ 2 := by
  induction col with
  | nil => simp
  | cons a l ih => simp only [List.map_cons, List.sum_cons, ih]; ring

/-- **C111**: after `normalize`, every column of the training set has mean 0 and variance 1, or is 0 throughout because the feature is constant; and every example, of the training set or of the testing set, is
transformed by the same affine map, computed from the training set alone. -/
theorem C111_normalize (train : List (Fin d → ℝ)) (ht : train ≠ []) :
    ∃ (a b : Fin d → ℝ), (∀ j, 0 < a j) ∧ (∀ test, normalizeData train test = (train.map fun r j => a j * r j + b j, test.map fun r j => a j * r j + b j))
      ∧ ∀ j, ((train.map fun r => a j * r j + b j).sum / (train.length : ℝ) = 0)
        ∧ ((train.map fun r => (a j * r j + b j) ^ 2).sum / (train.length : ℝ) = (1 : ℝ) ∨ ((∀ r ∈ train, a j * r j + b j = 0) ∧ ∀ r ∈ train, ∀ s ∈ train, r j = s j)) := by
  set st : Fin d → ℝ × ℝ := fun j => scalerStats (train.map fun r => r j) with hst
  have hl : (0:ℝ) < train.length := by exact_mod_cast List.length_pos_of_ne_nil ht
  have hv : ∀ j, 0 ≤ ((train.map fun r => r j).map fun x => (x - (st j).1) ^ 2).sum / ((train.map fun r => r j).length : ℝ) := fun j =>
    div_nonneg (List.sum_nonneg fun v hv => by obtain ⟨x, -, rfl⟩ := List.mem_map.1 hv; exact sq_nonneg _) (Nat.cast_nonneg _)
  have hpos : ∀ j, 0 < (st j).2 := fun j => by
    have h2 : (st j).2 = open Classical in if ((train.map fun r => r j).map fun x => (x - (st j).1) ^ 2).sum / ((train.map fun r => r j).length : ℝ) = 0 then 1
        else Real.sqrt (((train.map fun r => r j).map fun x => (x - (st j).1) ^ 2).sum / ((train.map fun r => r j).length : ℝ)) := rfl
    rw [h2]
    split_ifs with h
    · exact one_pos
    · exact Real.sqrt_pos.2 (lt_of_le_of_ne (hv j) (Ne.symm h))
  have hrow : ∀ (r : Fin d → ℝ) j, scaleRow st r j = (st j).2⁻¹ * r j + -(st j).1 / (st j).2 := fun r j => by
    simp only [scaleRow]; rw [div_eq_mul_inv, div_eq_mul_inv]; ring
  refine ⟨fun j => (st j).2⁻¹, fun j => -(st j).1 / (st j).2, fun j => inv_pos.2 (hpos j), fun test => ?_, fun j => ?_⟩
  · unfold normalizeData
    simp only [← hst]
    rw [show scaleRow st = fun r j => (st j).2⁻¹ * r j + -(st j).1 / (st j).2 from funext fun r => funext fun j => hrow r j]
  · have e1 : ∀ r : Fin d → ℝ, (st j).2⁻¹ * r j + -(st j).1 / (st j).2 = (r j - (st j).1) / (st j).2 := fun r => by rw [div_eq_mul_inv, div_eq_mul_inv]; ring
    simp only [e1]
    have hne : (train.map fun r => r j) ≠ [] := by simpa using ht
    constructor
    · have := scaler_mean (train.map fun r => r j) hne
      rw [List.map_map] at this
      simp only [Function.comp_def] at this
      rw [this, zero_div]
    · have hsq : (train.map fun r => ((r j - (st j).1) / (st j).2) ^ 2).sum = ((train.map fun r => r j).map fun x => (x - (st j).1) ^ 2).sum / (st j).2 ^ 2 := by
        rw [← scaler_square (train.map fun r => r j), List.map_map]
        rfl
      have h2 : (st j).2 = open Classical in if ((train.map fun r => r j).map fun x => (x - (st j).1) ^ 2).sum / ((train.map fun r => r j).length : ℝ) = 0 then 1
          else Real.sqrt (((train.map fun r => r j).map fun x => (x - (st j).1) ^ 2).sum / ((train.map fun r => r j).length : ℝ)) := rfl
      by_cases h0 : ((train.map fun r => r j).map fun x => (x - (st j).1) ^ 2).sum / ((train.map fun r => r j).length : ℝ) = 0
      · right
        have hz : ∀ r ∈ train, r j = (st j).1 := by
          rw [div_eq_zero_iff, or_iff_left (by simpa using hl.ne')] at h0
          intro r hr
          have hall : ∀ v ∈ ((train.map fun r => r j).map fun x => (x - (st j).1) ^ 2), (0:ℝ) ≤ v := fun v hv => by obtain ⟨x, -, rfl⟩ := List.mem_map.1 hv; exact sq_nonneg _
          have := List.single_le_sum hall ((r j - (st j).1) ^ 2) (List.mem_map.2 ⟨r j, List.mem_map.2 ⟨r, hr, rfl⟩, rfl⟩)
          rw [h0] at this
          have : (r j - (st j).1) ^ 2 = 0 := le_antisymm this (sq_nonneg _)
          linarith [pow_eq_zero_iff (two_ne_zero) |>.1 this]
        exact ⟨fun r hr => by rw [hz r hr, sub_self, zero_div], fun r hr s hs => by rw [hz r hr, hz s hs]⟩
      · left
        rw [hsq, h2, if_neg h0, Real.sq_sqrt (hv j), List.length_map]
        have hS : ((train.map fun r => r j).map fun x => (x - (st j).1) ^ 2).sum ≠ 0 := fun h => h0 (by rw [h, zero_div])
        rw [List.length_map] at h0
        field_simp

/-- The segments follow one another, the first starting at `x0`, and the one of class `i` is as long as 100 times its prevalence. -/
def Contiguous (x0 : ℝ) (prevs : List ℝ) (segs : List (ℝ × ℝ)) : Prop :=
  segs.length = prevs.length ∧ ∀ i (h : i < segs.length) (h' : i < prevs.length), segs[i].2 - segs[i].1 = 100 * prevs[i] ∧ segs[i].1 = x0 + 100 * (prevs.take i).sum

theorem lineSegments_contiguous (prevs : List ℝ) : ∀ x0, Contiguous x0 prevs (lineSegments x0 prevs) := by
  induction prevs with
  | nil => intro x0; exact ⟨rfl, fun i h => by simp [lineSegments] at h⟩
  | cons a l ih =>
    intro x0
    obtain ⟨h1, h2⟩ := ih (x0 + 100 * a)
    refine ⟨by simp [lineSegments, h1], fun i h h' => ?_⟩
    cases i with
    | zero => simp [lineSegments]
    | succ i =>
      simp only [lineSegments, List.length_cons, List.getElem_cons_succ, List.take_succ_cons, List.sum_cons] at h h' ⊢
      obtain ⟨h3, h4⟩ := h2 i (by omega) (by omega)
      exact ⟨h3, by rw [h4]; ring⟩

/-- **C112**: `plot_line_prevalences` draws one line per experiment, at heights 1, 2, ...; the classes of a line are segments that follow one another from the left, each as long as 100 times its prevalence, so
that a valid prevalence vector fills the line from 0 to 100; and the experiments are those of the matrix, each drawn once. -/
theorem C112_lines (m : List (Fin (n + 1) → ℝ)) (order : PlotOrder) :
    ∃ rows : List (Fin (n + 1) → ℝ), rows.Perm m ∧ (plotLines m order).length = rows.length
      ∧ ∀ i (h : i < (plotLines m order).length) (h' : i < rows.length), (plotLines m order)[i].1 = i + 1 ∧ Contiguous 0 (List.ofFn rows[i]) (plotLines m order)[i].2
        ∧ (IsPrev rows[i] → ∃ hne : (plotLines m order)[i].2 ≠ [], ((plotLines m order)[i].2.getLast hne).2 = 100) := by
  have perm : ∀ b, ((sortRowsByColumns m [0] b).1).Perm m := fun b => by
    simp only [sortRowsByColumns, lexSorted]
    split_ifs
    · exact (List.reverse_perm _).trans (List.mergeSort_perm _ _)
    · exact List.mergeSort_perm _ _
  have main : ∀ rows : List (Fin (n + 1) → ℝ), plotLines m order = (rows.zipIdx.map fun ri => (ri.2 + 1, lineSegments 0 (List.ofFn ri.1))) → rows.Perm m →
      ∃ rows : List (Fin (n + 1) → ℝ), rows.Perm m ∧ (plotLines m order).length = rows.length
      ∧ ∀ i (h : i < (plotLines m order).length) (h' : i < rows.length), (plotLines m order)[i].1 = i + 1 ∧ Contiguous 0 (List.ofFn rows[i]) (plotLines m order)[i].2
        ∧ (IsPrev rows[i] → ∃ hne : (plotLines m order)[i].2 ≠ [], ((plotLines m order)[i].2.getLast hne).2 = 100) := fun rows e hp => by
    rw [e]
    refine ⟨rows, hp, by simp, fun i h h' => ?_⟩
    simp only [List.getElem_map, List.getElem_zipIdx, zero_add]
    have hc := lineSegments_contiguous (List.ofFn rows[i]) 0
    refine ⟨trivial, hc, fun hprev => ?_⟩
    have hlen : (lineSegments 0 (List.ofFn rows[i])).length = n + 1 := by rw [hc.1, List.length_ofFn]
    have hne : lineSegments 0 (List.ofFn rows[i]) ≠ [] := fun h => by rw [h] at hlen; simp at hlen
    refine ⟨hne, ?_⟩
    obtain ⟨h3, h4⟩ := hc.2 n (by omega) (by rw [List.length_ofFn]; omega)
    rw [List.getLast_eq_getElem]
    simp only [hlen, Nat.add_sub_cancel]
    have hs : (List.ofFn rows[i]).sum = 1 := by rw [List.sum_ofFn]; exact hprev.2
    have hsplit : (List.ofFn rows[i]).sum = ((List.ofFn rows[i]).take n).sum + (List.ofFn rows[i])[n]'(by simp) := by
      conv_lhs => rw [← List.take_append_drop n (List.ofFn rows[i]), List.sum_append, List.drop_eq_getElem_cons (by simp), List.drop_eq_nil_of_le (by simp)]
      simp
    rw [hs] at hsplit
    linarith
  cases order with
  | none => exact main m rfl (List.Perm.refl _)
  | ascending => exact main _ rfl (perm false)
  | descending => exact main _ rfl (perm true)

/-- **C113**: with order 'ascending' ('descending') the lines go up (down) in the prevalence of the first class. -/
theorem C113_order (m : List (Fin (n + 1) → ℝ)) :
    (∃ rows : List (Fin (n + 1) → ℝ), plotLines m .ascending = plotLines rows .none ∧ rows.Perm m ∧ rows.Pairwise fun r s => r 0 ≤ s 0)
    ∧ ∃ rows : List (Fin (n + 1) → ℝ), plotLines m .descending = plotLines rows .none ∧ rows.Perm m ∧ rows.Pairwise fun r s => s 0 ≤ r 0 := by
  have hle : ∀ r s : Fin (n + 1) → ℝ, ([0].map r ≤ [0].map s) ↔ r 0 ≤ s 0 := fun r s => by
    simp only [List.map_cons, List.map_nil]
    rw [← not_lt, ← not_lt]
    simp [List.cons_lt_cons_iff]
  have hsorted : (lexSorted [0] m).Pairwise fun r s => r 0 ≤ s 0 := by
    unfold lexSorted
    have := List.pairwise_mergeSort (le := fun r s : Fin (n + 1) → ℝ => open Classical in decide ([0].map r ≤ [0].map s))
      (fun a b c h1 h2 => by simp only [decide_eq_true_eq, hle] at h1 h2 ⊢; exact h1.trans h2) (fun a b => by simp only [Bool.or_eq_true, decide_eq_true_eq, hle]; exact le_total _ _) m
    refine this.imp fun h => ?_
    simpa only [decide_eq_true_eq, hle] using h
  have hp : (lexSorted [0] m).Perm m := List.mergeSort_perm _ _
  exact ⟨⟨_, rfl, hp, hsorted⟩, ⟨_, rfl, (List.reverse_perm _).trans hp, List.pairwise_reverse.2 hsorted⟩⟩

/-! ## Non-vacuity -/

example : (plotLines [![(1:ℝ)/4, 3/4]] .none) = [(1, [(0, 0 + 100 * (1/4)), (0 + 100 * (1/4), 0 + 100 * (1/4) + 100 * (3/4))])] := by
  simp [plotLines, lineSegments, List.ofFn_succ]

example : IsPrev ![(1:ℝ)/4, 3/4] := ⟨fun i => by fin_cases i <;> norm_num, by simp [Fin.sum_univ_two]; norm_num⟩

end Verif.Props
