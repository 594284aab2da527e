import Verif.Props.Quantiles

/-!
# How far the quantiles of a mixture can be from the true ones (C35)
-/

namespace Verif.Props

open Verif.Model Verif.Proof Verif.Spec

/-- The while loop, with any remainders: it spreads the interval from `cut j` to `u`, up to the cut point where it stops, which is at most 0.0001 before `u`. -/
theorem spill_stops (n N : ℕ) (x u : ℝ) (j : ℕ) (hj : j < n) (rest : ℝ) (q : ℕ → ℝ) (hu : u ≤ edge n N n) (hrest : rest = max 0 (u - edge n N (j + 1))) (hlow : edge n N j ≤ u) :
    let r := spill (cutpoint n N) n x j rest q
    (∀ k, r.2 k = q k + x * ov (edge n N (j + 1)) (min u (edge n N (r.1 + 1))) (edge n N k) (edge n N (k + 1))) ∧ edge n N r.1 ≤ u ∧ u ≤ edge n N (r.1 + 1) + 1 / 10000 ∧ j ≤ r.1 ∧ r.1 < n := by
  induction hm : n - 1 - j generalizing j rest q with
  | zero =>
    have hjn : j + 1 = n := by omega
    have : ¬ (rest > 1 / 10000 ∧ j < n - 1) := by omega
    rw [spill, if_neg this]
    refine ⟨fun k => ?_, hlow, by simp only [hjn]; linarith, le_rfl, hj⟩
    rw [ov_empty (min_le_right _ _), mul_zero, add_zero]
  | succ m ih =>
    by_cases hc : rest > 1 / 10000 ∧ j < n - 1
    · rw [spill, if_pos hc]
      simp only [cutpoint_eq]
      have hpos : 0 < u - edge n N (j + 1) := by
        by_contra hcon
        rw [max_eq_left (not_lt.1 hcon)] at hrest
        rw [hrest] at hc
        norm_num at hc
      have hr : rest = u - edge n N (j + 1) := by rw [hrest, max_eq_right hpos.le]
      have hmono : edge n N (j + 1) ≤ edge n N (j + 1 + 1) := edge_mono (by omega)
      have hrest' : rest - min rest (edge n N (j + 1 + 1) - edge n N (j + 1)) = max 0 (u - edge n N (j + 1 + 1)) := by
        rw [hr]
        simp only [max_def, min_def]
        split_ifs <;> linarith
      obtain ⟨i1, i2, i3, i4, i5⟩ := ih (j + 1) (by omega) (rest - min rest (edge n N (j + 1 + 1) - edge n N (j + 1)))
        (Function.update q (j + 1) (q (j + 1) + x * min rest (edge n N (j + 1 + 1) - edge n N (j + 1)))) hrest' (by linarith) (by omega)
      refine ⟨fun k => ?_, i2, i3, by omega, i5⟩
      rw [i1 k]
      set J := (spill (cutpoint n N) n x (j + 1) (rest - min rest (edge n N (j + 1 + 1) - edge n N (j + 1)))
        (Function.update q (j + 1) (q (j + 1) + x * min rest (edge n N (j + 1 + 1) - edge n N (j + 1))))).1 with hJ
      have hJe : edge n N (j + 1 + 1) ≤ edge n N (J + 1) := edge_mono (by omega)
      by_cases hk : k = j + 1
      · subst hk
        rw [Function.update_self, ov_left (le_refl (edge n N (j + 1 + 1))), mul_zero, add_zero]
        congr 2
        unfold ov
        rw [max_self, hr, min_assoc, min_eq_right hJe, max_eq_right]
        · rw [min_sub_sub_right]
        · rw [sub_nonneg]; exact le_min (by linarith) hmono
      · rw [Function.update_of_ne hk]
        congr 2
        rcases Nat.lt_or_gt_of_ne hk with h | h
        · rw [ov_left (edge_mono (by omega)), ov_left (edge_mono (by omega))]
        · unfold ov
          rw [max_eq_right (edge_mono (by omega)), max_eq_right (edge_mono (by omega))]
    · rw [spill, if_neg hc]
      have hle : u ≤ edge n N (j + 1) + 1 / 10000 := by
        have h1 : ¬ rest > 1 / 10000 := fun h => hc ⟨h, by omega⟩
        have := le_max_right 0 (u - edge n N (j + 1))
        rw [← hrest] at this
        linarith
      refine ⟨fun k => ?_, hlow, hle, le_rfl, hj⟩
      rw [ov_empty (min_le_right _ _), mul_zero, add_zero]

/-- The loop after `M` examples, with any remainders: `B i k` is the weight with which example `i` enters the quantile `k`. -/
theorem quantLoop_error (n N : ℕ) (hn : 0 < n) (x w : ℕ → ℝ) (hw : ∀ i, i < N → 0 ≤ w i) (M : ℕ) (hM : M ≤ N) (htot : ∀ i, i ≤ N → ∑ k ∈ Finset.range i, w k ≤ N) :
    ∃ B : ℕ → ℕ → ℝ, (∀ k, (quantLoop (cutpoint n N) n x w M).q k = ∑ i ∈ Finset.range M, B i k * x i)
    ∧ (∀ i k, i < M → |B i k - ov (∑ k ∈ Finset.range i, w k) (∑ k ∈ Finset.range (i + 1), w k) (edge n N k) (edge n N (k + 1))| ≤ 1 / 10000)
    ∧ (∀ i, i < M → 0 ≤ w i - ∑ k ∈ Finset.range n, B i k ∧ w i - ∑ k ∈ Finset.range n, B i k ≤ 1 / 10000)
    ∧ (quantLoop (cutpoint n N) n x w M).cum = ∑ k ∈ Finset.range M, w k
    ∧ edge n N (quantLoop (cutpoint n N) n x w M).j ≤ ∑ k ∈ Finset.range M, w k
    ∧ ∑ k ∈ Finset.range M, w k ≤ edge n N ((quantLoop (cutpoint n N) n x w M).j + 1) + 1 / 10000
    ∧ (quantLoop (cutpoint n N) n x w M).j < n := by
  induction M with
  | zero =>
    refine ⟨fun _ _ => 0, fun k => by simp [quantLoop], fun i k hi => absurd hi (Nat.not_lt_zero i), fun i hi => absurd hi (Nat.not_lt_zero i), by simp [quantLoop], by simp [quantLoop, edge_zero], ?_, by simpa [quantLoop] using hn⟩
    simp only [quantLoop, Finset.range_zero, Finset.sum_empty]
    have : edge n N 0 ≤ edge n N (0 + 1) := edge_mono (by omega)
    rw [edge_zero] at this
    linarith
  | succ M ih =>
    obtain ⟨B, i1, i2, i2', i3, i4, i5, i6⟩ := ih (by omega)
    set s := quantLoop (cutpoint n N) n x w M with hs
    set C := ∑ k ∈ Finset.range M, w k with hC
    have hCs : ∑ k ∈ Finset.range (M + 1), w k = C + w M := Finset.sum_range_succ _ _
    have hw0 := hw M (by omega)
    have hu : C + w M ≤ edge n N n := by rw [edge_top hn, ← hCs]; exact htot (M + 1) hM
    have hloop : quantLoop (cutpoint n N) n x w (M + 1) = quantStep (cutpoint n N) n s (x M) (w M) := rfl
    -- it is enough to give the weights of the new example
    suffices hnew : ∃ b : ℕ → ℝ, (∀ k, (quantStep (cutpoint n N) n s (x M) (w M)).q k = s.q k + b k * x M) ∧ (∀ k, |b k - ov C (C + w M) (edge n N k) (edge n N (k + 1))| ≤ 1 / 10000)
        ∧ (0 ≤ w M - ∑ k ∈ Finset.range n, b k ∧ w M - ∑ k ∈ Finset.range n, b k ≤ 1 / 10000)
        ∧ (quantStep (cutpoint n N) n s (x M) (w M)).cum = C + w M
        ∧ edge n N (quantStep (cutpoint n N) n s (x M) (w M)).j ≤ C + w M
        ∧ C + w M ≤ edge n N ((quantStep (cutpoint n N) n s (x M) (w M)).j + 1) + 1 / 10000
        ∧ (quantStep (cutpoint n N) n s (x M) (w M)).j < n by
      obtain ⟨b, b1, b2, b3, b4, b5, b6, b7⟩ := hnew
      rw [hloop, hCs]
      refine ⟨fun i => if i = M then b else B i, fun k => ?_, fun i k hi => ?_, fun i hi => ?_, b4, b5, b6, b7⟩
      · beta_reduce
        rw [b1 k, i1 k, Finset.sum_range_succ, if_pos rfl]
        congr 1
        refine Finset.sum_congr rfl fun i hi => ?_
        rw [if_neg (Nat.ne_of_lt (Finset.mem_range.1 hi))]
      · beta_reduce
        rcases Nat.lt_succ_iff_lt_or_eq.1 hi with h | rfl
        · rw [if_neg (Nat.ne_of_lt h)]
          exact i2 i k h
        · rw [if_pos rfl, hCs]
          exact b2 k
      · beta_reduce
        rcases Nat.lt_succ_iff_lt_or_eq.1 hi with h | rfl
        · rw [if_neg (Nat.ne_of_lt h)]
          exact i2' i h
        · rw [if_pos rfl]
          exact b3
    unfold quantStep
    simp only [i3, cutpoint_eq]
    split
    · rename_i hle
      refine ⟨fun k => if k = s.j then w M else 0, fun k => ?_, fun k => ?_, ?_, rfl, by simp only; linarith, by simp only; linarith, i6⟩
      · simp only
        by_cases hk : k = s.j
        · subst hk
          rw [Function.update_self, if_pos rfl]; ring
        · rw [Function.update_of_ne hk, if_neg hk]; ring
      · beta_reduce
        by_cases hk : k = s.j
        · subst hk
          rw [if_pos rfl, ov_sub (by linarith) i4 hle]
          norm_num
        · rw [if_neg hk]
          rcases Nat.lt_or_gt_of_ne hk with h | h
          · rw [ov_left ((edge_mono (by omega)).trans i4)]
            norm_num
          · rw [ov_right (hle.trans (edge_mono (by omega)))]
            norm_num
      · rw [Finset.sum_ite_eq' (Finset.range n) s.j, if_pos (Finset.mem_range.2 i6)]
        norm_num
    · rename_i hle
      push Not at hle
      obtain ⟨j1, j2, j3, j4, j5⟩ := spill_stops n N (x M) (C + w M) s.j i6 (C + w M - edge n N (s.j + 1))
        (Function.update s.q s.j (s.q s.j + x M * (w M - (C + w M - edge n N (s.j + 1))))) hu
        (by rw [max_eq_right]; linarith) (by linarith)
      set r := spill (cutpoint n N) n (x M) s.j (C + w M - edge n N (s.j + 1)) (Function.update s.q s.j (s.q s.j + x M * (w M - (C + w M - edge n N (s.j + 1))))) with hr
      have hjJ : edge n N (s.j + 1) ≤ edge n N (r.1 + 1) := edge_mono (by omega)
      have hT : edge n N (s.j + 1) ≤ min (C + w M) (edge n N (r.1 + 1)) := le_min hle.le hjJ
      have hT1 : min (C + w M) (edge n N (r.1 + 1)) ≤ C + w M := min_le_left _ _
      have hT2 : C + w M - 1 / 10000 ≤ min (C + w M) (edge n N (r.1 + 1)) := le_min (by linarith) (by linarith)
      set T := min (C + w M) (edge n N (r.1 + 1)) with hTdef
      refine ⟨fun k => (if k = s.j then edge n N (s.j + 1) - C else 0) + ov (edge n N (s.j + 1)) T (edge n N k) (edge n N (k + 1)), fun k => ?_, fun k => ?_, ?_, rfl, j2, j3, j5⟩
      · refine (j1 k).trans ?_
        beta_reduce
        by_cases hk : k = s.j
        · subst hk
          rw [Function.update_self, if_pos rfl]; ring
        · rw [Function.update_of_ne hk, if_neg hk]; ring
      · beta_reduce
        by_cases hk : k = s.j
        · subst hk
          rw [if_pos rfl, ov_left (le_refl _)]
          have : ov C (C + w M) (edge n N s.j) (edge n N (s.j + 1)) = max 0 (edge n N (s.j + 1) - C) := by
            unfold ov
            rw [max_eq_left i4, min_eq_right hle.le]
          rw [this, abs_le]
          rcases le_total 0 (edge n N (s.j + 1) - C) with h | h
          · rw [max_eq_right h]; constructor <;> linarith
          · rw [max_eq_left h]; constructor <;> linarith
        · rw [if_neg hk, zero_add]
          rcases Nat.lt_or_gt_of_ne hk with h | h
          · rw [ov_left (edge_mono (by omega)), ov_left ((edge_mono (by omega)).trans i4)]
            norm_num
          · have g1 : edge n N (s.j + 1) ≤ edge n N k := edge_mono (by omega)
            have g2 : edge n N k ≤ edge n N (k + 1) := edge_mono (by omega)
            generalize edge n N k = a at *
            generalize edge n N (k + 1) = b at *
            generalize edge n N (s.j + 1) = e at *
            clear_value T C
            unfold ov
            rw [max_eq_right g1, abs_le]
            simp only [max_def, min_def]
            constructor <;> split_ifs <;> linarith
      · have : ∑ k ∈ Finset.range n, ((if k = s.j then edge n N (s.j + 1) - C else 0) + ov (edge n N (s.j + 1)) T (edge n N k) (edge n N (k + 1))) = T - C := by
          rw [Finset.sum_add_distrib, Finset.sum_ite_eq' (Finset.range n) s.j, if_pos (Finset.mem_range.2 i6), ov_sum hT (edge n N) n fun k _ => edge_mono (by omega), edge_zero, ov_sub hT]
          · ring
          · rw [← edge_zero n N]; exact edge_mono (by omega)
          · exact hT1.trans hu
        rw [this]
        constructor <;> linarith

/-- **C35, partial**, for training mixtures with any prevalence, without the hypothesis on remainders: for scores of absolute value at most `m` the quantiles are the means of the consecutive groups of equal weight up to `n * m / 10000`, and their
average is the weighted mean up to `m / 10000`. For scores that are not negative the average is never above the weighted mean. -/
theorem C35_quantiles_error_partial {L : Type*} [DecidableEq L] (p : ℝ) (hp0 : 0 ≤ p) (hp1 : p ≤ 1) (N : ℕ) (x : ℕ → ℝ) (n : ℕ)
    (hn : 0 < n) (y : ℕ → L) (c0 c1 : L) (hne : c0 ≠ c1) (hy : ∀ i, i < N → y i = c0 ∨ y i = c1)
    (h0 : ∃ i, i < N ∧ y i = c0) (h1 : ∃ i, i < N ∧ y i = c1) (w : ℕ → ℝ)
    (hw : ∀ i, w i = if y i = c1 then p * N / ((Finset.range N).filter fun k => y k = c1).card
      else if y i = c0 then (1 - p) * N / ((Finset.range N).filter fun k => y k = c0).card else 1)
    (m : ℝ) (hx : ∀ i, i < N → |x i| ≤ m) :
    ∃ (A : ℕ → ℕ → ℝ) (q : ℕ → ℝ), computeQuantiles (some p) N x n y c0 c1 = .ok (fun j => Fl.fin (q j)) ∧ EqualSplit N n w A
      ∧ (∀ j, j < n → |q j - (∑ i ∈ Finset.range N, A i j * x i) / ((N : ℝ) / n)| ≤ n * m / 10000)
      ∧ |(∑ j ∈ Finset.range n, q j) / n - (∑ i ∈ Finset.range N, w i * x i) / N| ≤ m / 10000
      ∧ ((∀ i, i < N → 0 ≤ x i) → (∑ j ∈ Finset.range n, q j) / n ≤ (∑ i ∈ Finset.range N, w i * x i) / N) := by
  obtain rfl : w = quantileWeight (some p) N y c0 c1 := funext hw
  set w := quantileWeight (some p) N y c0 c1 with hwdef
  have hN : 0 < N := by obtain ⟨i, hi, _⟩ := h0; omega
  have hsum := sum_quantileWeight p N y c0 c1 hne hy h0 h1
  have hw0 : ∀ i, i < N → 0 ≤ w i := by
    intro i _
    rw [hw i]
    split_ifs
    · positivity
    · exact div_nonneg (mul_nonneg (by linarith) (Nat.cast_nonneg _)) (Nat.cast_nonneg _)
    · exact zero_le_one
  have hN' : (0 : ℝ) < N := by exact_mod_cast hN
  have hn' : (0 : ℝ) < n := by exact_mod_cast hn
  have htot : ∀ i, i ≤ N → ∑ k ∈ Finset.range i, w k ≤ N := by
    intro i hi
    rw [← hsum]
    exact Finset.sum_le_sum_of_subset_of_nonneg (Finset.range_mono hi) fun k hk _ => hw0 k (Finset.mem_range.1 hk)
  obtain ⟨B, b1, b2, b3, -⟩ := quantLoop_error n N hn x w hw0 N le_rfl htot
  have hc : cutpoint n N 0 = (N : ℝ) / n := by unfold cutpoint; push_cast; ring
  have hg : (0 : ℝ) < (N : ℝ) / n := div_pos hN' hn'
  have havg : (∑ j ∈ Finset.range n, (quantLoop (cutpoint n N) n x w N).q j / ((N : ℝ) / n)) / n - (∑ i ∈ Finset.range N, w i * x i) / N = - (∑ i ∈ Finset.range N, (w i - ∑ k ∈ Finset.range n, B i k) * x i) / N := by
    have e : ∑ j ∈ Finset.range n, (quantLoop (cutpoint n N) n x w N).q j = ∑ i ∈ Finset.range N, (∑ k ∈ Finset.range n, B i k) * x i := by
      rw [Finset.sum_congr rfl fun j _ => b1 j, Finset.sum_comm]
      exact Finset.sum_congr rfl fun i _ => (Finset.sum_mul _ _ _).symm
    rw [← Finset.sum_div, e]
    simp only [sub_mul, Finset.sum_sub_distrib]
    field_simp
    ring
  refine ⟨fun i j => ov (∑ k ∈ Finset.range i, w k) (∑ k ∈ Finset.range (i + 1), w k) (edge n N j) (edge n N (j + 1)), fun j => (quantLoop (cutpoint n N) n x w N).q j / ((N : ℝ) / n), ?_, ov_split N n hn w hw0 hsum, fun j _ => ?_, ?_, fun hx0 => ?_⟩
  · unfold computeQuantiles
    rw [if_neg hn.ne']
    congr 1
    funext j
    rw [hc, Fl.fin_div _ hg.ne']
  · simp only
    rw [b1 j, ← sub_div, ← Finset.sum_sub_distrib, abs_div, abs_of_pos hg, div_le_iff₀ hg]
    calc |∑ i ∈ Finset.range N, (B i j * x i - ov (∑ k ∈ Finset.range i, w k) (∑ k ∈ Finset.range (i + 1), w k) (edge n N j) (edge n N (j + 1)) * x i)|
        ≤ ∑ i ∈ Finset.range N, |B i j * x i - ov (∑ k ∈ Finset.range i, w k) (∑ k ∈ Finset.range (i + 1), w k) (edge n N j) (edge n N (j + 1)) * x i| := Finset.abs_sum_le_sum_abs _ _
      _ ≤ ∑ _i ∈ Finset.range N, 1 / 10000 * m := by
          refine Finset.sum_le_sum fun i hi => ?_
          rw [← sub_mul, abs_mul]
          exact mul_le_mul (b2 i j (Finset.mem_range.1 hi)) (hx i (Finset.mem_range.1 hi)) (abs_nonneg _) (by norm_num)
      _ = n * m / 10000 * ((N : ℝ) / n) := by
          rw [Finset.sum_const, Finset.card_range, nsmul_eq_mul]
          field_simp
  · simp only
    rw [havg, neg_div, abs_neg, abs_div, abs_of_pos hN', div_le_iff₀ hN']
    calc |∑ i ∈ Finset.range N, (w i - ∑ k ∈ Finset.range n, B i k) * x i|
        ≤ ∑ i ∈ Finset.range N, |(w i - ∑ k ∈ Finset.range n, B i k) * x i| := Finset.abs_sum_le_sum_abs _ _
      _ ≤ ∑ _i ∈ Finset.range N, 1 / 10000 * m := by
          refine Finset.sum_le_sum fun i hi => ?_
          have hb := b3 i (Finset.mem_range.1 hi)
          rw [abs_mul, abs_of_nonneg hb.1]
          exact mul_le_mul hb.2 (hx i (Finset.mem_range.1 hi)) (abs_nonneg _) (by norm_num)
      _ = m / 10000 * N := by
          rw [Finset.sum_const, Finset.card_range, nsmul_eq_mul]
          ring
  · have hs : 0 ≤ ∑ i ∈ Finset.range N, (w i - ∑ k ∈ Finset.range n, B i k) * x i := Finset.sum_nonneg fun i hi => mul_nonneg (b3 i (Finset.mem_range.1 hi)).1 (hx0 i (Finset.mem_range.1 hi))
    have : - (∑ i ∈ Finset.range N, (w i - ∑ k ∈ Finset.range n, B i k) * x i) / N ≤ 0 := div_nonpos_of_nonpos_of_nonneg (by linarith) hN'.le
    simp only
    linarith

/-- The mixture of `C35_quantiles_refuted`, with a remainder of 0.0001, meets the hypotheses. -/
example : ∃ q : ℕ → ℝ, computeQuantiles (some (49995/100000)) 2 (fun _ => 1) 2 (fun i => i) 0 1 = .ok (fun j => Fl.fin (q j)) ∧ |q 0 - 1| ≤ 2 * 1 / 10000 := by
  obtain ⟨A, q, h1, h2, h3, -⟩ := C35_quantiles_error_partial (49995/100000) (by norm_num) (by norm_num) 2 (fun _ => 1) 2 (by norm_num) (fun i => i) 0 1 (by norm_num) (fun i hi => by omega) ⟨0, by norm_num, rfl⟩ ⟨1, by norm_num, rfl⟩ _
    (fun i => rfl) 1 (fun i _ => by norm_num)
  refine ⟨q, h1, ?_⟩
  have h := h3 0 (by norm_num)
  have hc := h2.cols 0 (by norm_num)
  have hs := sum_quantileWeight (49995/100000) 2 (fun i : ℕ => i) 0 1 (by norm_num) (fun i hi => by omega) ⟨0, by norm_num, rfl⟩ ⟨1, by norm_num, rfl⟩
  have hc' : ∑ i ∈ Finset.range 2, A i 0 = 1 := by
    rw [hc]
    have : ∑ i ∈ Finset.range 2, quantileWeight (some (49995/100000)) 2 (fun i : ℕ => i) 0 1 i = ((2 : ℕ) : ℝ) := hs
    unfold quantileWeight at this
    rw [this]
    norm_num
  simp only [mul_one] at h
  rw [hc'] at h
  norm_num at h ⊢
  exact h

end Verif.Props
