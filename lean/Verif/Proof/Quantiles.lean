import Verif.Model.Search
import Mathlib.Algebra.Order.BigOperators.Group.Finset
import Mathlib.Algebra.BigOperators.Intervals

/-!
# The loop of `compute_quantiles` as an overlap of intervals
-/

namespace Verif.Proof

open Verif.Model

/-- The length of the intersection of `[l,u]` and `[a,b]`. -/
noncomputable def ov (l u a b : ℝ) : ℝ := max 0 (min u b - max l a)

theorem ov_nonneg (l u a b : ℝ) : 0 ≤ ov l u a b := le_max_left _ _

theorem ov_comm (l u a b : ℝ) : ov l u a b = ov a b l u := by
  unfold ov; rw [min_comm, max_comm l a]

theorem ov_add {l u a b c : ℝ} (hlu : l ≤ u) (hab : a ≤ b) (hbc : b ≤ c) : ov l u a b + ov l u b c = ov l u a c := by
  unfold ov
  simp only [max_def, min_def]
  split_ifs <;> linarith

theorem ov_right {l u a b : ℝ} (h : u ≤ a) : ov l u a b = 0 := by
  unfold ov
  rw [max_eq_left]
  have := min_le_left u b
  have := le_max_right l a
  linarith

theorem ov_left {l u a b : ℝ} (h : b ≤ l) : ov l u a b = 0 := by
  unfold ov
  rw [max_eq_left]
  have := min_le_right u b
  have := le_max_left l a
  linarith

theorem ov_empty {l u a b : ℝ} (h : u ≤ l) : ov l u a b = 0 := by
  unfold ov
  rw [max_eq_left]
  have := min_le_left u b
  have := le_max_left l a
  linarith

theorem ov_sub {l u a b : ℝ} (hlu : l ≤ u) (h1 : a ≤ l) (h2 : u ≤ b) : ov l u a b = u - l := by
  unfold ov
  rw [max_eq_left h1, min_eq_left h2, max_eq_right (by linarith)]

theorem ov_pos {l u a b : ℝ} (h : 0 < ov l u a b) : l < b ∧ a < u := by
  constructor
  · by_contra hc
    rw [ov_left (not_lt.1 hc)] at h; exact lt_irrefl _ h
  · by_contra hc
    rw [ov_right (not_lt.1 hc)] at h; exact lt_irrefl _ h

/-- Adding up over consecutive intervals. -/
theorem ov_sum {l u : ℝ} (hlu : l ≤ u) (e : ℕ → ℝ) (n : ℕ) (he : ∀ k, k < n → e k ≤ e (k + 1)) :
    ∑ k ∈ Finset.range n, ov l u (e k) (e (k + 1)) = ov l u (e 0) (e n) := by
  have hmono : ∀ n, (∀ k, k < n → e k ≤ e (k + 1)) → e 0 ≤ e n := by
    intro n
    induction n with
    | zero => intro _; exact le_rfl
    | succ n ih => intro h; exact (ih fun k hk => h k (by omega)).trans (h n (by omega))
  induction n with
  | zero =>
    simp only [Finset.range_zero, Finset.sum_empty]
    unfold ov
    rw [max_eq_left]
    have := min_le_right u (e 0)
    have := le_max_right l (e 0)
    linarith
  | succ n ih =>
    rw [Finset.sum_range_succ, ih fun k hk => he k (by omega), ov_add hlu (hmono n fun k hk => he k (by omega)) (he n (by omega))]

/-- The boundary between the quantiles `j - 1` and `j`. -/
noncomputable def edge (n N j : ℕ) : ℝ := (j : ℝ) / n * N

theorem cutpoint_eq (n N j : ℕ) : cutpoint n N j = edge n N (j + 1) := rfl

theorem edge_mono {n N j k : ℕ} (h : j ≤ k) : edge n N j ≤ edge n N k := by
  unfold edge
  apply mul_le_mul_of_nonneg_right _ (Nat.cast_nonneg N)
  apply div_le_div_of_nonneg_right _ (Nat.cast_nonneg n)
  exact_mod_cast h

theorem edge_zero (n N : ℕ) : edge n N 0 = 0 := by simp [edge]

theorem edge_top {n : ℕ} (hn : 0 < n) (N : ℕ) : edge n N n = N := by
  unfold edge
  rw [div_self (by positivity), one_mul]

/-- The while loop spreads the interval `[cut j, u]` over the quantiles after `j`, provided no remainder is
positive and below the threshold. -/
theorem spill_spec (n N : ℕ) (x u : ℝ) (j : ℕ) (hj : j < n) (rest : ℝ) (q : ℕ → ℝ) (hu : u ≤ edge n N n)
    (hrest : rest = max 0 (u - edge n N (j + 1))) (hlow : edge n N j ≤ u)
    (hgap : ∀ k, k < n → ¬ (0 < u - edge n N (k + 1) ∧ u - edge n N (k + 1) ≤ 1 / 10000)) :
    (∀ k, (spill (cutpoint n N) n x j rest q).2 k = q k + x * ov (edge n N (j + 1)) u (edge n N k) (edge n N (k + 1)))
    ∧ edge n N (spill (cutpoint n N) n x j rest q).1 ≤ u ∧ u ≤ edge n N ((spill (cutpoint n N) n x j rest q).1 + 1)
    ∧ (spill (cutpoint n N) n x j rest q).1 < n := by
  induction hm : n - 1 - j generalizing j rest q with
  | zero =>
    have hjn : j + 1 = n := by omega
    have : ¬ (rest > 1 / 10000 ∧ j < n - 1) := by omega
    rw [spill, if_neg this]
    rw [hjn]
    refine ⟨fun k => ?_, hlow, hjn ▸ hu, hj⟩
    rw [ov_empty hu, mul_zero, add_zero]
  | succ m ih =>
    by_cases hc : rest > 1 / 10000 ∧ j < n - 1
    · rw [spill, if_pos hc]
      simp only [cutpoint_eq]
      have hpos : 0 < u - edge n N (j + 1) := by
        by_contra hcon
        rw [max_eq_left (not_lt.1 hcon)] at hrest
        rw [hrest] at hc
        norm_num at hc
      have hr : rest = u - edge n N (j + 1) := by rw [hrest, max_eq_right hpos.le]
      have hmono : edge n N (j + 1) ≤ edge n N (j + 1 + 1) := edge_mono (by omega)
      have hassign : min rest (edge n N (j + 1 + 1) - edge n N (j + 1)) = ov (edge n N (j + 1)) u (edge n N (j + 1)) (edge n N (j + 1 + 1)) := by
        unfold ov
        rw [max_self, hr, max_eq_right]
        · rw [min_sub_sub_right]
        · rw [sub_nonneg]; exact le_min (by linarith) hmono
      have hrest' : rest - min rest (edge n N (j + 1 + 1) - edge n N (j + 1)) = max 0 (u - edge n N (j + 1 + 1)) := by
        rw [hr]
        simp only [max_def, min_def]
        split_ifs <;> linarith
      obtain ⟨i1, i2, i3, i4⟩ := ih (j + 1) (by omega) (rest - min rest (edge n N (j + 1 + 1) - edge n N (j + 1)))
        (Function.update q (j + 1) (q (j + 1) + x * min rest (edge n N (j + 1 + 1) - edge n N (j + 1)))) hrest' (by linarith) (by omega)
      refine ⟨fun k => ?_, i2, i3, i4⟩
      rw [i1 k]
      by_cases hk : k = j + 1
      · subst hk
        rw [Function.update_self, hassign, ov_left (le_refl (edge n N (j + 1 + 1))), mul_zero, add_zero]
      · rw [Function.update_of_ne hk]
        congr 2
        rcases Nat.lt_or_gt_of_ne hk with h | h
        · rw [ov_left (edge_mono (by omega)), ov_left (edge_mono (by omega))]
        · unfold ov
          rw [max_eq_right (edge_mono (by omega)), max_eq_right (edge_mono (by omega))]
    · rw [spill, if_neg hc]
      have hle : u ≤ edge n N (j + 1) := by
        by_contra hcon
        push Not at hcon
        have hpos : 0 < u - edge n N (j + 1) := by linarith
        have hr : rest = u - edge n N (j + 1) := by rw [hrest, max_eq_right hpos.le]
        have h1 : ¬ rest > 1 / 10000 := fun h => hc ⟨h, by omega⟩
        exact hgap j hj ⟨hpos, by rw [hr] at h1; linarith⟩
      refine ⟨fun k => ?_, hlow, hle, hj⟩
      rw [ov_empty hle, mul_zero, add_zero]

/-- The loop after `k` examples. -/
theorem quantLoop_spec (n N : ℕ) (hn : 0 < n) (x w : ℕ → ℝ) (hw : ∀ i, i < N → 0 ≤ w i) (M : ℕ) (hM : M ≤ N)
    (htot : ∀ i, i ≤ N → ∑ k ∈ Finset.range i, w k ≤ N)
    (hgap : ∀ i, i ≤ N → ∀ k, k < n →
      ¬ (0 < ∑ k ∈ Finset.range i, w k - edge n N (k + 1) ∧ ∑ k ∈ Finset.range i, w k - edge n N (k + 1) ≤ 1 / 10000)) :
    (∀ k, (quantLoop (cutpoint n N) n x w M).q k = ∑ i ∈ Finset.range M, x i *
      ov (∑ k ∈ Finset.range i, w k) (∑ k ∈ Finset.range (i + 1), w k) (edge n N k) (edge n N (k + 1)))
    ∧ (quantLoop (cutpoint n N) n x w M).cum = ∑ k ∈ Finset.range M, w k
    ∧ edge n N (quantLoop (cutpoint n N) n x w M).j ≤ ∑ k ∈ Finset.range M, w k
    ∧ ∑ k ∈ Finset.range M, w k ≤ edge n N ((quantLoop (cutpoint n N) n x w M).j + 1)
    ∧ (quantLoop (cutpoint n N) n x w M).j < n := by
  induction M with
  | zero =>
    refine ⟨fun k => by simp [quantLoop], by simp [quantLoop], by simp [quantLoop, edge_zero], ?_, by simpa [quantLoop] using hn⟩
    simp only [quantLoop, Finset.range_zero, Finset.sum_empty]
    rw [← edge_zero n N]; exact edge_mono (by omega)
  | succ M ih =>
    obtain ⟨i1, i2, i3, i4, i5⟩ := ih (by omega)
    set s := quantLoop (cutpoint n N) n x w M with hs
    set C := ∑ k ∈ Finset.range M, w k with hC
    have hCs : ∑ k ∈ Finset.range (M + 1), w k = C + w M := Finset.sum_range_succ _ _
    have hw0 := hw M (by omega)
    have hu : C + w M ≤ edge n N n := by rw [edge_top hn, ← hCs]; exact htot (M + 1) hM
    have hloop : quantLoop (cutpoint n N) n x w (M + 1) = quantStep (cutpoint n N) n s (x M) (w M) := rfl
    rw [hloop, hCs]
    unfold quantStep
    simp only [i2, cutpoint_eq]
    split
    · rename_i hle
      refine ⟨fun k => ?_, rfl, by simp only; linarith, hle, i5⟩
      rw [Finset.sum_range_succ, ← i1 k, hCs, ← hC]
      simp only
      by_cases hk : k = s.j
      · subst hk
        rw [Function.update_self, ov_sub (by linarith) i3 hle]; ring
      · rw [Function.update_of_ne hk]
        rcases Nat.lt_or_gt_of_ne hk with h | h
        · rw [ov_left ((edge_mono (by omega)).trans i3), mul_zero, add_zero]
        · rw [ov_right (hle.trans (edge_mono (by omega))), mul_zero, add_zero]
    · rename_i hle
      push Not at hle
      have hg : ∀ k, k < n → ¬ (0 < (C + w M) - edge n N (k + 1) ∧ (C + w M) - edge n N (k + 1) ≤ 1 / 10000) := by
        intro k hk
        have := hgap (M + 1) hM k hk
        rwa [hCs] at this
      obtain ⟨j1, j2, j3, j4⟩ := spill_spec n N (x M) (C + w M) s.j i5 (C + w M - edge n N (s.j + 1))
        (Function.update s.q s.j (s.q s.j + x M * (w M - (C + w M - edge n N (s.j + 1))))) hu
        (by rw [max_eq_right]; linarith) (by linarith) hg
      refine ⟨fun k => ?_, rfl, j2, j3, j4⟩
      rw [Finset.sum_range_succ, ← i1 k, hCs, ← hC]
      simp only
      have hj1 := j1 k
      refine hj1.trans ?_
      by_cases hk : k = s.j
      · subst hk
        rw [Function.update_self, ov_left (le_refl _)]
        have : ov C (C + w M) (edge n N s.j) (edge n N (s.j + 1)) = edge n N (s.j + 1) - C := by
          unfold ov
          rw [max_eq_left i3, min_eq_right hle.le, max_eq_right (by linarith)]
        rw [this]; ring
      · rw [Function.update_of_ne hk]
        rcases Nat.lt_or_gt_of_ne hk with h | h
        · rw [ov_left (edge_mono (by omega)), ov_left ((edge_mono (by omega)).trans i3)]
        · congr 2
          unfold ov
          rw [max_eq_right (edge_mono (by omega)), max_eq_right (i4.trans (edge_mono (by omega)))]

end Verif.Proof
