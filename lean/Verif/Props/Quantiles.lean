import Verif.Proof.Quantiles
import Verif.Spec.EqualGroups

/-!
# Quantiles (C35)
-/

namespace Verif.Props

open Verif.Model Verif.Proof Verif.Spec

/-- No cumulative weight exceeds a cut point by a positive amount of at most 0.0001. -/
def NoSmallRemainder (N n : ℕ) (w : ℕ → ℝ) : Prop :=
  ∀ i, i ≤ N → ∀ j, 1 ≤ j → j ≤ n →
    ¬ (0 < (∑ k ∈ Finset.range i, w k) - (j : ℝ) / n * N ∧ (∑ k ∈ Finset.range i, w k) - (j : ℝ) / n * N ≤ 1 / 10000)

/-- The parts of the intervals of the examples that lie in the intervals of the groups are an equal split. -/
theorem ov_split (N n : ℕ) (hn : 0 < n) (w : ℕ → ℝ) (hw : ∀ i, i < N → 0 ≤ w i) (hsum : ∑ i ∈ Finset.range N, w i = N) :
    EqualSplit N n w fun i j => ov (∑ k ∈ Finset.range i, w k) (∑ k ∈ Finset.range (i + 1), w k) (edge n N j) (edge n N (j + 1)) := by
  have hmono : ∀ a b, a ≤ b → b ≤ N → ∑ k ∈ Finset.range a, w k ≤ ∑ k ∈ Finset.range b, w k := by
    intro a b hab hb
    apply Finset.sum_le_sum_of_subset_of_nonneg (Finset.range_mono hab)
    intro i hi _
    exact hw i (by have := Finset.mem_range.1 hi; omega)
  have htot : ∀ i, i ≤ N → ∑ k ∈ Finset.range i, w k ≤ N := fun i hi => by rw [← hsum]; exact hmono i N hi le_rfl
  refine ⟨fun i j => ov_nonneg _ _ _ _, ?_, ?_, ?_⟩
  · intro i hi
    rw [ov_sum (hmono i (i + 1) (by omega) (by omega)) (edge n N) n fun k _ => edge_mono (by omega), edge_zero, edge_top hn, ov_sub]
    · rw [Finset.sum_range_succ]; ring
    · exact hmono i (i + 1) (by omega) (by omega)
    · exact Finset.sum_nonneg fun k hk => hw k (by have := Finset.mem_range.1 hk; omega)
    · exact htot (i + 1) (by omega)
  · intro j hj
    have : ∀ i, ov (∑ k ∈ Finset.range i, w k) (∑ k ∈ Finset.range (i + 1), w k) (edge n N j) (edge n N (j + 1)) =
        ov (edge n N j) (edge n N (j + 1)) ((fun i => ∑ k ∈ Finset.range i, w k) i) ((fun i => ∑ k ∈ Finset.range i, w k) (i + 1)) :=
      fun i => ov_comm _ _ _ _
    simp only [this]
    rw [ov_sum (edge_mono (by omega)) (fun i => ∑ k ∈ Finset.range i, w k) N fun k hk => hmono k (k + 1) (by omega) (by omega)]
    simp only [Finset.range_zero, Finset.sum_empty, hsum]
    rw [ov_sub (edge_mono (by omega))]
    · unfold edge; push_cast; ring
    · rw [← edge_zero n N]; exact edge_mono (by omega)
    · rw [← edge_top hn N]; exact edge_mono (by omega)
  · intro i i' j j' hi hi' h2 h3 hjj
    by_contra hcon
    push Not at hcon
    have e1 := (ov_pos h2).1
    have e2 := (ov_pos h3).2
    have e3 := hmono (i' + 1) i (by omega) (by omega)
    have e4 : edge n N (j + 1) ≤ edge n N j' := edge_mono (by omega)
    linarith

/-- The loop computes the group sums of an equal split. -/
theorem quantiles_split (N n : ℕ) (hn : 0 < n) (x w : ℕ → ℝ) (hw : ∀ i, i < N → 0 ≤ w i)
    (hsum : ∑ i ∈ Finset.range N, w i = N) (hgap : NoSmallRemainder N n w) :
    ∃ A, EqualSplit N n w A ∧ ∀ j, j < n → (quantLoop (cutpoint n N) n x w N).q j = ∑ i ∈ Finset.range N, A i j * x i := by
  have hmono : ∀ a b, a ≤ b → b ≤ N → ∑ k ∈ Finset.range a, w k ≤ ∑ k ∈ Finset.range b, w k := by
    intro a b hab hb
    apply Finset.sum_le_sum_of_subset_of_nonneg (Finset.range_mono hab)
    intro i hi _
    exact hw i (by have := Finset.mem_range.1 hi; omega)
  have htot : ∀ i, i ≤ N → ∑ k ∈ Finset.range i, w k ≤ N := fun i hi => by rw [← hsum]; exact hmono i N hi le_rfl
  obtain ⟨h1, _⟩ := quantLoop_spec n N hn x w hw N le_rfl htot fun i hi k hk => hgap i hi (k + 1) (by omega) (by omega)
  refine ⟨_, ov_split N n hn w hw hsum, fun j hj => ?_⟩
  rw [h1 j]
  exact Finset.sum_congr rfl fun i _ => mul_comm _ _

/-- Weighted group means of an ordered sample: the average of the means is the weighted mean, the means are
ordered and they lie between the smallest and the largest value. -/
theorem split_means (N n : ℕ) (hN : 0 < N) (hn : 0 < n) (x w : ℕ → ℝ) (A : ℕ → ℕ → ℝ) (hA : EqualSplit N n w A)
    (hsum : ∑ i ∈ Finset.range N, w i = N) (q : ℕ → ℝ)
    (hq : ∀ j, j < n → q j = (∑ i ∈ Finset.range N, A i j * x i) / ((N : ℝ) / n)) :
    (∑ j ∈ Finset.range n, q j) / n = (∑ i ∈ Finset.range N, w i * x i) / N
    ∧ ((∀ i k, i ≤ k → k < N → x i ≤ x k) → ∀ j k, j ≤ k → k < n → q j ≤ q k)
    ∧ ∀ lo hi, (∀ i, i < N → lo ≤ x i ∧ x i ≤ hi) → ∀ j, j < n → lo ≤ q j ∧ q j ≤ hi := by
  have hN' : (0 : ℝ) < N := by exact_mod_cast hN
  have hn' : (0 : ℝ) < n := by exact_mod_cast hn
  have hcol : ∀ j, j < n → ∑ i ∈ Finset.range N, A i j = (N : ℝ) / n := fun j hj => by rw [hA.cols j hj, hsum]
  have hg : (0 : ℝ) < (N : ℝ) / n := div_pos hN' hn'
  refine ⟨?_, ?_, ?_⟩
  · rw [Finset.sum_congr rfl fun j hj => hq j (Finset.mem_range.1 hj), ← Finset.sum_div, Finset.sum_comm]
    have : ∑ i ∈ Finset.range N, ∑ j ∈ Finset.range n, A i j * x i = ∑ i ∈ Finset.range N, w i * x i := by
      apply Finset.sum_congr rfl
      intro i hi
      rw [← Finset.sum_mul, hA.rows i (Finset.mem_range.1 hi)]
    rw [this]
    field_simp
  · intro hx j k hjk hk
    rcases eq_or_lt_of_le hjk with rfl | hlt
    · exact le_rfl
    rw [hq j (by omega), hq k hk]
    apply div_le_div_of_nonneg_right _ hg.le
    -- compare through the products of the two columns
    have key : (∑ i ∈ Finset.range N, A i j * x i) * (∑ i ∈ Finset.range N, A i k) ≤
        (∑ i ∈ Finset.range N, A i j) * ∑ i ∈ Finset.range N, A i k * x i := by
      rw [Finset.sum_mul_sum, Finset.sum_mul_sum]
      apply Finset.sum_le_sum
      intro a ha
      apply Finset.sum_le_sum
      intro b hb
      have ha' := Finset.mem_range.1 ha
      have hb' := Finset.mem_range.1 hb
      rcases (hA.nonneg a j).eq_or_lt with h0 | h0
      · rw [← h0]; simp
      rcases (hA.nonneg b k).eq_or_lt with h1 | h1
      · rw [← h1]; simp
      have hab := hx a b (hA.consecutive a b j k ha' hb' h0 h1 hlt) hb'
      have := mul_le_mul_of_nonneg_left hab (mul_nonneg h0.le h1.le)
      nlinarith
    rw [hcol j (by omega), hcol k hk, mul_comm] at key
    exact le_of_mul_le_mul_left key hg
  · intro lo hi hx j hj
    rw [hq j hj, le_div_iff₀ hg, div_le_iff₀ hg, ← hcol j hj, Finset.mul_sum, Finset.mul_sum]
    constructor
    · apply Finset.sum_le_sum
      intro i hi'
      have := mul_le_mul_of_nonneg_left (hx i (Finset.mem_range.1 hi')).1 (hA.nonneg i j)
      linarith
    · apply Finset.sum_le_sum
      intro i hi'
      have := mul_le_mul_of_nonneg_left (hx i (Finset.mem_range.1 hi')).2 (hA.nonneg i j)
      linarith

/-- The output of `compute_quantiles` in terms of an equal split. -/
theorem computeQuantiles_split {L : Type*} [DecidableEq L] (prevalence : Option ℝ) (N : ℕ) (hN : 0 < N) (x : ℕ → ℝ) (n : ℕ) (hn : 0 < n)
    (y : ℕ → L) (c0 c1 : L) (w : ℕ → ℝ) (hw : w = quantileWeight prevalence N y c0 c1) (hw0 : ∀ i, i < N → 0 ≤ w i)
    (hsum : ∑ i ∈ Finset.range N, w i = N) (hgap : NoSmallRemainder N n w) :
    ∃ (A : ℕ → ℕ → ℝ) (q : ℕ → ℝ), computeQuantiles prevalence N x n y c0 c1 = .ok (fun j => Fl.fin (q j)) ∧ EqualSplit N n w A
      ∧ ∀ j, j < n → q j = (∑ i ∈ Finset.range N, A i j * x i) / ((N : ℝ) / n) := by
  obtain ⟨A, hA, hq⟩ := quantiles_split N n hn x w hw0 hsum hgap
  refine ⟨A, fun j => (quantLoop (cutpoint n N) n x w N).q j / ((N : ℝ) / n), ?_, hA, fun j hj => by simp only; rw [hq j hj]⟩
  unfold computeQuantiles
  rw [if_neg hn.ne', ← hw]
  congr 1
  funext j
  have hc : cutpoint n N 0 = (N : ℝ) / n := by unfold cutpoint; push_cast; ring
  have hN' : (0 : ℝ) < N := by exact_mod_cast hN
  have hn' : (0 : ℝ) < n := by exact_mod_cast hn
  rw [hc, Fl.fin_div]
  exact (div_pos hN' hn').ne'

/-- **C35** for testing samples: with fewer than 10000 quantiles, `compute_quantiles` of every nonempty sample
returns the means of consecutive groups of equal weight; their average is the mean of the sample, they are
ordered when the sample is, and they stay between its extremes. -/
theorem C35_quantiles_of_test_sample {L : Type*} [DecidableEq L] (N : ℕ) (hN : 0 < N) (x : ℕ → ℝ) (n : ℕ) (hn : 0 < n) (hn' : n < 10000)
    (y : ℕ → L) (c0 c1 : L) :
    ∃ (A : ℕ → ℕ → ℝ) (q : ℕ → ℝ), computeQuantiles none N x n y c0 c1 = .ok (fun j => Fl.fin (q j)) ∧ EqualSplit N n (fun _ => 1) A
      ∧ (∀ j, j < n → q j = (∑ i ∈ Finset.range N, A i j * x i) / ((N : ℝ) / n))
      ∧ (∑ j ∈ Finset.range n, q j) / n = (∑ i ∈ Finset.range N, x i) / N
      ∧ ((∀ i k, i ≤ k → k < N → x i ≤ x k) → ∀ j k, j ≤ k → k < n → q j ≤ q k)
      ∧ ∀ lo hi, (∀ i, i < N → lo ≤ x i ∧ x i ≤ hi) → ∀ j, j < n → lo ≤ q j ∧ q j ≤ hi := by
  have hsum : ∑ i ∈ Finset.range N, (fun _ : ℕ => (1 : ℝ)) i = N := by simp
  have hgap : NoSmallRemainder N n (fun _ => 1) := by
    intro i _ j _ _ hcon
    simp only [Finset.sum_const, Finset.card_range, nsmul_eq_mul, mul_one] at hcon
    have hnr : (0 : ℝ) < n := by exact_mod_cast hn
    have hnr' : (n : ℝ) < 10000 := by exact_mod_cast hn'
    have e : (i : ℝ) - (j : ℝ) / n * N = (((i * n : ℤ) - (j * N : ℤ) : ℤ) : ℝ) / n := by
      push_cast; field_simp
    rw [e] at hcon
    have h1 : (0 : ℝ) < (((i * n : ℤ) - (j * N : ℤ) : ℤ) : ℝ) := by
      have := mul_pos hcon.1 hnr
      rwa [div_mul_cancel₀ _ hnr.ne'] at this
    have h2 : (1 : ℤ) ≤ (i * n : ℤ) - (j * N : ℤ) := by exact_mod_cast h1
    have h3 : (1 : ℝ) ≤ (((i * n : ℤ) - (j * N : ℤ) : ℤ) : ℝ) := by exact_mod_cast h2
    have h4 := hcon.2
    rw [div_le_iff₀ hnr] at h4
    linarith
  obtain ⟨A, q, h1, h2, h3⟩ := computeQuantiles_split none N hN x n hn y c0 c1 (fun _ => 1) rfl (fun _ _ => zero_le_one) hsum hgap
  obtain ⟨h4, h5, h6⟩ := split_means N n hN hn x _ A h2 hsum q h3
  refine ⟨A, q, h1, h2, h3, ?_, h5, h6⟩
  simpa using h4

/-- The weights of a training sample with both classes add up to the number of examples. -/
theorem sum_quantileWeight {L : Type*} [DecidableEq L] (p : ℝ) (N : ℕ) (y : ℕ → L) (c0 c1 : L) (hne : c0 ≠ c1)
    (hy : ∀ i, i < N → y i = c0 ∨ y i = c1) (h0 : ∃ i, i < N ∧ y i = c0) (h1 : ∃ i, i < N ∧ y i = c1) :
    ∑ i ∈ Finset.range N, quantileWeight (some p) N y c0 c1 i = N := by
  have c0pos : (0 : ℝ) < ((Finset.range N).filter fun k => y k = c0).card := by
    obtain ⟨i, hi, e⟩ := h0
    exact_mod_cast Finset.card_pos.2 ⟨i, Finset.mem_filter.2 ⟨Finset.mem_range.2 hi, e⟩⟩
  have c1pos : (0 : ℝ) < ((Finset.range N).filter fun k => y k = c1).card := by
    obtain ⟨i, hi, e⟩ := h1
    exact_mod_cast Finset.card_pos.2 ⟨i, Finset.mem_filter.2 ⟨Finset.mem_range.2 hi, e⟩⟩
  have e : ∀ i ∈ Finset.range N, quantileWeight (some p) N y c0 c1 i =
      (if y i = c1 then p * N / ((Finset.range N).filter fun k => y k = c1).card else 0)
      + (if y i = c0 then (1 - p) * N / ((Finset.range N).filter fun k => y k = c0).card else 0) := by
    intro i hi
    unfold quantileWeight
    rcases hy i (Finset.mem_range.1 hi) with h | h
    · simp [h, hne]
    · simp [h, hne.symm]
  rw [Finset.sum_congr rfl e, Finset.sum_add_distrib, ← Finset.sum_filter, ← Finset.sum_filter, Finset.sum_const, Finset.sum_const,
    nsmul_eq_mul, nsmul_eq_mul]
  field_simp
  ring

/-- **C35, partial**, for training mixtures with prevalence `p`: the same conclusions hold with the weights
`p * N / n₁` for positives and `(1 - p) * N / n₀` for negatives, whenever no cumulative weight exceeds a cut
point by a positive amount of at most 0.0001 (the threshold of the inner loop). -/
theorem C35_quantiles_of_mixture_partial {L : Type*} [DecidableEq L] (p : ℝ) (hp0 : 0 ≤ p) (hp1 : p ≤ 1) (N : ℕ) (x : ℕ → ℝ) (n : ℕ)
    (hn : 0 < n) (y : ℕ → L) (c0 c1 : L) (hne : c0 ≠ c1) (hy : ∀ i, i < N → y i = c0 ∨ y i = c1)
    (h0 : ∃ i, i < N ∧ y i = c0) (h1 : ∃ i, i < N ∧ y i = c1) (w : ℕ → ℝ)
    (hw : ∀ i, w i = if y i = c1 then p * N / ((Finset.range N).filter fun k => y k = c1).card
      else if y i = c0 then (1 - p) * N / ((Finset.range N).filter fun k => y k = c0).card else 1)
    (hgap : NoSmallRemainder N n w) :
    ∃ (A : ℕ → ℕ → ℝ) (q : ℕ → ℝ), computeQuantiles (some p) N x n y c0 c1 = .ok (fun j => Fl.fin (q j)) ∧ EqualSplit N n w A
      ∧ (∀ j, j < n → q j = (∑ i ∈ Finset.range N, A i j * x i) / ((N : ℝ) / n))
      ∧ (∑ j ∈ Finset.range n, q j) / n = (∑ i ∈ Finset.range N, w i * x i) / N
      ∧ ((∀ i k, i ≤ k → k < N → x i ≤ x k) → ∀ j k, j ≤ k → k < n → q j ≤ q k)
      ∧ ∀ lo hi, (∀ i, i < N → lo ≤ x i ∧ x i ≤ hi) → ∀ j, j < n → lo ≤ q j ∧ q j ≤ hi := by
  obtain rfl : w = quantileWeight (some p) N y c0 c1 := funext hw
  have hN : 0 < N := by obtain ⟨i, hi, _⟩ := h0; omega
  have hsum := sum_quantileWeight p N y c0 c1 hne hy h0 h1
  have hw0 : ∀ i, i < N → 0 ≤ quantileWeight (some p) N y c0 c1 i := by
    intro i _
    rw [hw i]
    split_ifs
    · positivity
    · exact div_nonneg (mul_nonneg (by linarith) (Nat.cast_nonneg _)) (Nat.cast_nonneg _)
    · exact zero_le_one
  obtain ⟨A, q, g1, g2, g3⟩ := computeQuantiles_split (some p) N hN x n hn y c0 c1 _ rfl hw0 hsum hgap
  obtain ⟨h4, h5, h6⟩ := split_means N n hN hn x _ A g2 hsum q g3
  exact ⟨A, q, g1, g2, g3, h4, h5, h6⟩

/-- The hypothesis on remainders is met by a mixture of a negative and two positives. -/
example : NoSmallRemainder 3 2 (fun i => if i = 0 then 3/4 else 9/8) := by
  intro i hi j hj hj'
  have e1 : i = 0 ∨ i = 1 ∨ i = 2 ∨ i = 3 := by omega
  have e2 : j = 1 ∨ j = 2 := by omega
  rcases e1 with rfl | rfl | rfl | rfl <;> rcases e2 with rfl | rfl <;>
    norm_num [Finset.sum_range_succ]

/-- **C35 is false** of the code for training mixtures: with one negative and one positive example, both with
score 1, and prevalence 0.49995, the weighted mean is 1 but the average of the two quantiles is 0.99995; the
first quantile is below every score of the sample. -/
theorem C35_quantiles_refuted :
    ∃ q : Fin 2 → ℝ, computeQuantiles (some (49995/100000)) 2 (fun _ => 1) 2 (fun i => i) 0 1 = .ok (fun j => Fl.fin (q j))
      ∧ (q 0 + q 1) / 2 = 99995/100000 ∧ q 0 < 1 := by
  have c1 : ((Finset.range 2).filter fun k => k = 1).card = 1 := by decide
  have c0 : ((Finset.range 2).filter fun k => k = 0).card = 1 := by decide
  have w0 : quantileWeight (some (49995/100000)) 2 (fun i => i) 0 1 0 = 1 + 1/10000 := by
    unfold quantileWeight; simp only [c0, c1]; norm_num
  have w1 : quantileWeight (some (49995/100000)) 2 (fun i => i) 0 1 1 = 1 - 1/10000 := by
    unfold quantileWeight; simp only [c0, c1]; norm_num
  have k0 : cutpoint 2 2 0 = 1 := by norm_num [cutpoint]
  have k1 : cutpoint 2 2 1 = 2 := by norm_num [cutpoint]
  -- the first example leaves a remainder that is not distributed
  have s1 : quantStep (cutpoint 2 2) 2 ⟨fun _ => 0, 0, 0⟩ 1 (1 + 1/10000) = ⟨Function.update (fun _ => 0) 0 1, 1 + 1/10000, 0⟩ := by
    unfold quantStep
    simp only [k0]
    rw [if_neg (by norm_num), spill, if_neg (by norm_num)]
    norm_num
  have s2 : quantStep (cutpoint 2 2) 2 ⟨Function.update (fun _ => 0) 0 1, 1 + 1/10000, 0⟩ 1 (1 - 1/10000) =
      ⟨Function.update (Function.update (Function.update (fun _ => 0) 0 1) 0 (1 - 1/10000)) 1 1, 2, 1⟩ := by
    unfold quantStep
    simp only [k0]
    rw [if_neg (by norm_num), spill, if_pos (by norm_num), spill, if_neg (by norm_num)]
    simp only [k0, k1, zero_add]
    norm_num
  have hl : quantLoop (cutpoint 2 2) 2 (fun _ => 1) (quantileWeight (some (49995/100000)) 2 (fun i => i) 0 1) 2 =
      ⟨Function.update (Function.update (Function.update (fun _ => 0) 0 1) 0 (1 - 1/10000)) 1 1, 2, 1⟩ := by
    simp only [quantLoop]
    rw [w0, s1, w1, s2]
  refine ⟨![1 - 1/10000, 1], ?_, by norm_num, by norm_num⟩
  unfold computeQuantiles
  rw [if_neg (by norm_num), hl, k0]
  congr 1
  funext j
  rw [Fl.fin_div _ (by norm_num)]
  fin_cases j <;> norm_num [Function.update]

end Verif.Props
