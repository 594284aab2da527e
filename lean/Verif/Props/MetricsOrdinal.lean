import Verif.Model.MetricsOrdinal
import Verif.Spec.Transport
import Mathlib.Algebra.Order.Chebyshev
import Mathlib.Order.Interval.Finset.Fin

/-!
# C23-C25: ordinal metrics
-/

namespace Verif.Props

open Verif.Model Verif.Spec

variable {n : ℕ}

/-! ### Prefix sums -/

/-- Mass of the first `a` classes. -/
noncomputable def pre (p : Fin n → ℝ) (a : ℕ) : ℝ := ∑ i : Fin n, if i.val < a then p i else 0

theorem cumsum_eq_pre (p : Fin n → ℝ) (k : Fin n) : cumsum p k = pre p (k.val + 1) := by
  unfold cumsum pre
  refine Finset.sum_congr rfl fun i _ => ?_
  simp only [Fin.le_def, Nat.lt_succ_iff]

theorem pre_zero (p : Fin n → ℝ) : pre p 0 = 0 := by simp [pre]

theorem pre_all (p : Fin n → ℝ) : pre p n = ∑ i, p i := by simp [pre]

theorem pre_succ (p : Fin n → ℝ) (k : Fin n) : pre p (k.val + 1) = pre p k.val + p k := by
  unfold pre
  rw [← sub_eq_iff_eq_add', ← Finset.sum_sub_distrib]
  rw [Finset.sum_eq_single k]
  · simp
  · intro b _ hb
    have : b.val ≠ k.val := fun h => hb (Fin.ext h)
    by_cases h : b.val < k.val
    · rw [if_pos (by omega), if_pos h, sub_self]
    · rw [if_neg (by omega), if_neg h, sub_self]
  · simp

theorem pre_mono (p : Fin n → ℝ) (hp : ∀ i, 0 ≤ p i) {a b : ℕ} (h : a ≤ b) : pre p a ≤ pre p b := by
  refine Finset.sum_le_sum fun i _ => ?_
  by_cases hi : i.val < a
  · rw [if_pos hi, if_pos (by omega)]
  · rw [if_neg hi]
    split
    · exact hp i
    · exact le_rfl

theorem pre_nonneg (p : Fin n → ℝ) (hp : ∀ i, 0 ≤ p i) (a : ℕ) : 0 ≤ pre p a := by
  rw [← pre_zero p]
  exact pre_mono p hp (Nat.zero_le a)

theorem pre_le_total (p : Fin n → ℝ) (hp : ∀ i, 0 ≤ p i) (a : ℕ) : pre p a ≤ ∑ i, p i := by
  refine Finset.sum_le_sum fun i _ => ?_
  split
  · exact le_rfl
  · exact hp i

theorem cumsum_sub (p q : Fin n → ℝ) (k : Fin n) :
    cumsum (fun j => p j - q j) k = cumsum p k - cumsum q k := by
  unfold cumsum
  rw [← Finset.sum_sub_distrib]
  refine Finset.sum_congr rfl fun i _ => ?_
  split <;> simp

theorem emd_eq (p q : Fin n → ℝ) : emd p q = ∑ k, |cumsum p k - cumsum q k| := by
  unfold emd
  simp_rw [cumsum_sub]

/-! ## C23 -/

/-- Indicator of "class `i` is at most `k`". -/
noncomputable def le01 (i k : Fin n) : ℝ := if i ≤ k then 1 else 0

theorem cumsum_le01 (p : Fin n → ℝ) (k : Fin n) : cumsum p k = ∑ i, p i * le01 i k := by
  unfold cumsum le01
  refine Finset.sum_congr rfl fun i _ => ?_
  split <;> simp

theorem steps (i j : Fin n) : ∑ k, |le01 i k - le01 j k| = |(i.val : ℝ) - (j.val : ℝ)| := by
  wlog h : i ≤ j generalizing i j with H
  · rw [abs_sub_comm, ← H j i (le_of_not_ge h)]
    exact Finset.sum_congr rfl fun k _ => abs_sub_comm _ _
  have h1 : ∀ k, |le01 i k - le01 j k| = if k ∈ Finset.Ico i j then (1:ℝ) else 0 := by
    intro k
    unfold le01
    simp only [Finset.mem_Ico]
    by_cases h2 : j ≤ k
    · rw [if_pos h2, if_pos (h.trans h2), if_neg (fun hh => absurd hh.2 (not_lt.2 h2))]
      simp
    · rw [if_neg h2]
      by_cases h3 : i ≤ k
      · rw [if_pos h3, if_pos ⟨h3, not_le.1 h2⟩]; simp
      · rw [if_neg h3, if_neg (fun hh => h3 hh.1)]; simp
  simp_rw [h1]
  rw [Finset.sum_ite_mem, Finset.univ_inter, Finset.sum_const, Fin.card_Ico, nsmul_eq_mul, mul_one,
    Nat.cast_sub (Fin.le_def.1 h), abs_of_nonpos, neg_sub]
  have : (i.val : ℝ) ≤ j.val := by exact_mod_cast h
  linarith

/-- The cost of a plan, cut by cut. -/
theorem planCost_cuts (T : Fin n → Fin n → ℝ) :
    planCost T = ∑ k, ∑ i, ∑ j, T i j * |le01 i k - le01 j k| := by
  unfold planCost
  rw [Finset.sum_comm]
  rw [Finset.sum_comm]
  conv_rhs => rw [Finset.sum_comm]
  refine Finset.sum_congr rfl fun i _ => ?_
  conv_rhs => rw [Finset.sum_comm]
  refine Finset.sum_congr rfl fun j _ => ?_
  rw [← steps, Finset.mul_sum]

theorem emd_le_cost (p q : Fin n → ℝ) (T : Fin n → Fin n → ℝ) (hT : IsPlan p q T) :
    emd p q ≤ planCost T := by
  rw [emd_eq, planCost_cuts]
  refine Finset.sum_le_sum fun k _ => ?_
  have h1 : cumsum p k - cumsum q k = ∑ i, ∑ j, T i j * (le01 i k - le01 j k) := by
    rw [cumsum_le01, cumsum_le01]
    simp_rw [← hT.source, ← hT.target, Finset.sum_mul, mul_sub]
    rw [Finset.sum_comm (f := fun i x => T x i * le01 i k), ← Finset.sum_sub_distrib]
    refine Finset.sum_congr rfl fun i _ => ?_
    rw [← Finset.sum_sub_distrib]
  rw [h1]
  refine (Finset.abs_sum_le_sum_abs _ _).trans (Finset.sum_le_sum fun i _ => ?_)
  refine (Finset.abs_sum_le_sum_abs _ _).trans (Finset.sum_le_sum fun j _ => ?_)
  rw [abs_mul, abs_of_nonneg (hT.nonneg i j)]

/-- The monotone (north-west corner) plan. -/
noncomputable def nwPlan (p q : Fin n → ℝ) (i j : Fin n) : ℝ :=
  min (pre p (i.val + 1)) (pre q (j.val + 1)) - min (pre p i.val) (pre q (j.val + 1))
    - (min (pre p (i.val + 1)) (pre q j.val) - min (pre p i.val) (pre q j.val))

theorem telescope (G : ℕ → ℝ) {b : ℕ} (hb : b ≤ n) :
    ∑ j : Fin n, (if j.val < b then (G (j.val + 1) - G j.val) else 0) = G b - G 0 := by
  rw [Fin.sum_univ_eq_sum_range (fun j => if j < b then (G (j + 1) - G j) else 0) n,
    ← Finset.sum_filter]
  have : (Finset.range n).filter (fun j => j < b) = Finset.range b := by
    ext j
    simp only [Finset.mem_filter, Finset.mem_range]
    omega
  rw [this, Finset.sum_range_sub]

theorem telescope_all (G : ℕ → ℝ) : ∑ j : Fin n, (G (j.val + 1) - G j.val) = G n - G 0 := by
  rw [← telescope G (le_refl n)]
  exact Finset.sum_congr rfl fun j _ => by rw [if_pos j.2]

theorem min_super {a a' b b' : ℝ} (ha : a ≤ a') (hb : b ≤ b') :
    min a b' + min a' b ≤ min a' b' + min a b := by
  rcases le_total a' b' with h1 | h1 <;> rcases le_total a b with h2 | h2 <;>
  rcases le_total a b' with h3 | h3 <;> rcases le_total a' b with h4 | h4 <;>
  simp only [min_eq_left, min_eq_right, h1, h2, h3, h4] <;> linarith

theorem nwPlan_isPlan (p q : Fin n → ℝ) (hp : ∀ i, 0 ≤ p i) (hq : ∀ i, 0 ≤ q i)
    (htot : ∑ i, p i = ∑ i, q i) : IsPlan p q (nwPlan p q) := by
  constructor
  · intro i j
    unfold nwPlan
    have := min_super (pre_mono p hp (Nat.le_succ i.val)) (pre_mono q hq (Nat.le_succ j.val))
    simp only [Nat.succ_eq_add_one] at this
    linarith
  · intro i
    have h := telescope_all (n := n) fun b => min (pre p (i.val + 1)) (pre q b) - min (pre p i.val) (pre q b)
    unfold nwPlan
    rw [h, pre_all, pre_zero, ← htot, min_eq_left (pre_le_total p hp _), min_eq_left (pre_le_total p hp _),
      min_eq_right (pre_nonneg p hp _), min_eq_right (pre_nonneg p hp _), pre_succ]
    ring
  · intro j
    have h := telescope_all (n := n) fun a => min (pre p a) (pre q (j.val + 1)) - min (pre p a) (pre q j.val)
    have h2 : ∀ i : Fin n, nwPlan p q i j
        = (min (pre p (i.val + 1)) (pre q (j.val + 1)) - min (pre p (i.val + 1)) (pre q j.val))
          - (min (pre p i.val) (pre q (j.val + 1)) - min (pre p i.val) (pre q j.val)) := by
      intro i
      unfold nwPlan
      ring
    simp_rw [h2]
    rw [h, pre_all, pre_zero, htot, min_eq_right (pre_le_total q hq _), min_eq_right (pre_le_total q hq _),
      min_eq_left (pre_nonneg q hq _), min_eq_left (pre_nonneg q hq _), pre_succ]
    ring

theorem nwPlan_block (p q : Fin n → ℝ) (hp : ∀ i, 0 ≤ p i) (hq : ∀ i, 0 ≤ q i) (k : Fin n) :
    ∑ i, ∑ j, nwPlan p q i j * (le01 i k * le01 j k) = min (cumsum p k) (cumsum q k) := by
  have hin : ∀ i, ∑ j, nwPlan p q i j * (le01 i k * le01 j k)
      = if i.val < k.val + 1 then
          (min (pre p (i.val + 1)) (pre q (k.val + 1)) - min (pre p i.val) (pre q (k.val + 1))) else 0 := by
    intro i
    have h := telescope (n := n) (b := k.val + 1)
      (fun b => min (pre p (i.val + 1)) (pre q b) - min (pre p i.val) (pre q b)) (by omega)
    simp only [pre_zero, min_eq_right (pre_nonneg p hp _), sub_self, sub_zero] at h
    unfold le01
    by_cases hi : i ≤ k
    · rw [if_pos (show i.val < k.val + 1 by have := Fin.le_def.1 hi; omega), ← h]
      refine Finset.sum_congr rfl fun j _ => ?_
      rw [if_pos hi, one_mul]
      by_cases hj : j ≤ k
      · rw [if_pos hj, if_pos (by have := Fin.le_def.1 hj; omega), mul_one]
        rfl
      · rw [if_neg hj, if_neg (by have := mt Fin.le_def.2 hj; omega), mul_zero]
    · rw [if_neg (show ¬ i.val < k.val + 1 by have := mt Fin.le_def.2 hi; omega)]
      refine Finset.sum_eq_zero fun j _ => ?_
      rw [if_neg hi]
      ring
  simp_rw [hin]
  rw [telescope (fun a => min (pre p a) (pre q (k.val + 1))) (by omega), pre_zero,
    min_eq_left (pre_nonneg q hq _), sub_zero, cumsum_eq_pre, cumsum_eq_pre]

theorem nwPlan_cost (p q : Fin n → ℝ) (hp : ∀ i, 0 ≤ p i) (hq : ∀ i, 0 ≤ q i)
    (htot : ∑ i, p i = ∑ i, q i) : planCost (nwPlan p q) = emd p q := by
  have hP := nwPlan_isPlan p q hp hq htot
  rw [planCost_cuts, emd_eq]
  refine Finset.sum_congr rfl fun k _ => ?_
  have habs : ∀ i j : Fin n, |le01 i k - le01 j k| = le01 i k + le01 j k - 2 * (le01 i k * le01 j k) := by
    intro i j
    unfold le01
    split <;> split <;> norm_num
  have hsplit : ∑ i, ∑ j, nwPlan p q i j * |le01 i k - le01 j k|
      = (∑ i, ∑ j, nwPlan p q i j * le01 i k) + (∑ i, ∑ j, nwPlan p q i j * le01 j k)
        - 2 * ∑ i, ∑ j, nwPlan p q i j * (le01 i k * le01 j k) := by
    rw [Finset.mul_sum, ← Finset.sum_add_distrib, ← Finset.sum_sub_distrib]
    refine Finset.sum_congr rfl fun i _ => ?_
    rw [Finset.mul_sum, ← Finset.sum_add_distrib, ← Finset.sum_sub_distrib]
    refine Finset.sum_congr rfl fun j _ => ?_
    rw [habs]
    ring
  have h1 : ∑ i, ∑ j, nwPlan p q i j * le01 i k = cumsum p k := by
    rw [cumsum_le01]
    refine Finset.sum_congr rfl fun i _ => ?_
    rw [← Finset.sum_mul, hP.source]
  have h2 : ∑ i, ∑ j, nwPlan p q i j * le01 j k = cumsum q k := by
    rw [cumsum_le01, Finset.sum_comm]
    refine Finset.sum_congr rfl fun j _ => ?_
    rw [← Finset.sum_mul, hP.target]
  rw [hsplit, h1, h2, nwPlan_block p q hp hq]
  rcases le_total (cumsum p k) (cumsum q k) with h | h
  · rw [min_eq_left h, abs_of_nonpos (by linarith)]; ring
  · rw [min_eq_right h, abs_of_nonneg (by linarith)]; ring

/-- **C23**: emd is the minimum cost of a transport plan. -/
theorem C23_emd_optimal_transport (p q : Fin n → ℝ) (hp : IsPrev p) (hq : IsPrev q) :
    IsLeast {c | ∃ T, IsPlan p q T ∧ planCost T = c} (emd p q) := by
  have htot : ∑ i, p i = ∑ i, q i := by rw [hp.2, hq.2]
  refine ⟨⟨nwPlan p q, nwPlan_isPlan p q hp.1 hq.1 htot, nwPlan_cost p q hp.1 hq.1 htot⟩, ?_⟩
  rintro c ⟨T, hT, rfl⟩
  exact emd_le_cost p q T hT

theorem emd_eq_zero_iff (p q : Fin n → ℝ) : emd p q = 0 ↔ p = q := by
  rw [emd_eq, Finset.sum_eq_zero_iff_of_nonneg fun _ _ => abs_nonneg _]
  constructor
  · intro h
    have hk : ∀ k : Fin n, pre p (k.val + 1) = pre q (k.val + 1) := by
      intro k
      have := h k (Finset.mem_univ k)
      rw [abs_eq_zero, sub_eq_zero, cumsum_eq_pre, cumsum_eq_pre] at this
      exact this
    have hk0 : ∀ k : Fin n, pre p k.val = pre q k.val := by
      intro k
      rcases Nat.eq_zero_or_pos k.val with h0 | h0
      · rw [h0, pre_zero, pre_zero]
      · have := hk ⟨k.val - 1, by omega⟩
        rwa [show (k.val - 1) + 1 = k.val by omega] at this
    funext k
    have h1 := pre_succ p k
    have h2 := pre_succ q k
    rw [hk k, hk0 k] at h1
    linarith
  · rintro rfl k _
    simp

/-- **C23**: emd is a metric. -/
theorem C23_emd_metric (p q r : Fin n → ℝ) :
    0 ≤ emd p q ∧ (emd p q = 0 ↔ p = q) ∧ emd p q = emd q p ∧ emd p r ≤ emd p q + emd q r := by
  refine ⟨?_, emd_eq_zero_iff p q, ?_, ?_⟩
  · rw [emd_eq]; exact Finset.sum_nonneg fun _ _ => abs_nonneg _
  · rw [emd_eq, emd_eq]; exact Finset.sum_congr rfl fun _ _ => abs_sub_comm _ _
  · simp_rw [emd_eq]
    rw [← Finset.sum_add_distrib]
    exact Finset.sum_le_sum fun k _ => abs_sub_le _ _ _

/-- Non-vacuity: moving everything across three classes costs two steps. -/
example : emd ![(1:ℝ), 0, 0] ![0, 0, 1] = 2 := by
  rw [emd_eq]
  simp [Fin.sum_univ_three, cumsum]
  norm_num

/-! ## C24 -/

theorem cumsum_last (p : Fin (n + 1) → ℝ) : cumsum p (Fin.last n) = ∑ i, p i := by
  rw [cumsum_eq_pre]
  exact pre_all p

theorem cumsum_mem {p : Fin n → ℝ} (hp : IsPrev p) (k : Fin n) : cumsum p k ∈ Set.Icc (0:ℝ) 1 := by
  rw [cumsum_eq_pre]
  refine ⟨pre_nonneg p hp.1 _, ?_⟩
  rw [← hp.2]
  exact pre_le_total p hp.1 _

theorem cumsum_mass (k c : Fin n) : cumsum (Pi.single c (1:ℝ)) k = if c ≤ k then 1 else 0 := by
  unfold cumsum
  rw [Finset.sum_eq_single c]
  · simp
  · intro b _ hb
    rw [Pi.single_eq_of_ne hb]
    simp
  · simp

theorem massAt_eq (c : Fin n) : massAt c = Pi.single c (1:ℝ) := by
  funext j
  unfold massAt
  rw [Pi.single_apply]

/-- Distance to the extremes: with `P` the cumulated prevalences of all but the last class, they are
`∑ (1 - P)` and `∑ P`. -/
theorem emd_extremes (p : Fin (n + 1) → ℝ) (hp : IsPrev p) :
    emd p (Pi.single 0 1) = ∑ k : Fin n, (1 - cumsum p k.castSucc)
    ∧ emd p (Pi.single (Fin.last n) 1) = ∑ k : Fin n, cumsum p k.castSucc := by
  constructor
  · rw [emd_eq, Fin.sum_univ_castSucc, cumsum_last, hp.2, cumsum_mass, if_pos (Fin.zero_le _), sub_self,
      abs_zero, add_zero]
    refine Finset.sum_congr rfl fun k _ => ?_
    rw [cumsum_mass, if_pos (Fin.zero_le _), abs_of_nonpos (by linarith [(cumsum_mem hp k.castSucc).2])]
    ring
  · rw [emd_eq, Fin.sum_univ_castSucc, cumsum_last, hp.2, cumsum_mass, if_pos le_rfl, sub_self,
      abs_zero, add_zero]
    refine Finset.sum_congr rfl fun k _ => ?_
    rw [cumsum_mass, if_neg (by simp [Fin.le_def]), sub_zero,
      abs_of_nonneg (cumsum_mem hp k.castSucc).1]

/-- **C24**: no prediction is farther from the truth than the farther of the two extremes. -/
theorem C24_extremes_are_worst (p q : Fin (n + 1) → ℝ) (hp : IsPrev p) (hq : IsPrev q) :
    emd p q ≤ max (emd p (Pi.single 0 1)) (emd p (Pi.single (Fin.last n) 1)) := by
  rcases Nat.eq_zero_or_pos n with rfl | hn
  · have : p = q := by
      have h1 := hp.2
      have h2 := hq.2
      simp only [Fin.sum_univ_succ, Finset.univ_eq_empty, Finset.sum_empty, add_zero] at h1 h2
      funext i
      fin_cases i
      simp only [Fin.zero_eta]
      rw [h1, h2]
    rw [(emd_eq_zero_iff p q).2 this]
    exact le_max_of_le_left (C23_emd_metric p (Pi.single 0 1) p).1
  obtain ⟨e1, e2⟩ := emd_extremes p hp
  rw [e1, e2]
  set P : Fin n → ℝ := fun k => cumsum p k.castSucc with hP
  set Q : Fin n → ℝ := fun k => cumsum q k.castSucc with hQ
  have hemd : emd p q = ∑ k, |P k - Q k| := by
    rw [emd_eq, Fin.sum_univ_castSucc, cumsum_last, cumsum_last, hp.2, hq.2, sub_self, abs_zero, add_zero]
  have hmono : ∀ r : Fin (n + 1) → ℝ, IsPrev r → Monotone fun k : Fin n => cumsum r k.castSucc := by
    intro r hr a b hab
    simp only [cumsum_eq_pre, Fin.val_castSucc]
    exact pre_mono r hr.1 (by have := Fin.le_def.1 hab; omega)
  have hPm : Monotone P := hmono p hp
  have hQm : Monotone Q := hmono q hq
  have hP01 : ∀ k, P k ∈ Set.Icc (0:ℝ) 1 := fun k => cumsum_mem hp _
  have hQ01 : ∀ k, Q k ∈ Set.Icc (0:ℝ) 1 := fun k => cumsum_mem hq _
  have hbound : emd p q ≤ (∑ k, P k * (1 - Q k)) + ∑ k, Q k * (1 - P k) := by
    rw [hemd, ← Finset.sum_add_distrib]
    refine Finset.sum_le_sum fun k _ => ?_
    obtain ⟨p0, p1⟩ := hP01 k
    obtain ⟨q0, q1⟩ := hQ01 k
    rw [abs_le]
    constructor <;> nlinarith
  have anti : ∀ f g : Fin n → ℝ, Monotone f → Monotone g → Antivary f (fun k => 1 - g k) := by
    intro f g hf hg i j hij
    have : g j < g i := by linarith
    have hji : j < i := by
      by_contra hcon
      exact absurd (hg (not_lt.1 hcon)) (not_le.2 this)
    exact hf hji.le
  have c1 := (anti P Q hPm hQm).card_mul_sum_le_sum_mul_sum
  have c2 := (anti Q P hQm hPm).card_mul_sum_le_sum_mul_sum
  simp only [Fintype.card_fin] at c1 c2
  set A := ∑ k, P k with hA
  set S := ∑ k, Q k with hS
  have hB : ∑ k, (1 - P k) = n - A := by
    rw [Finset.sum_sub_distrib]; simp [hA]
  have hBS : ∑ k, (1 - Q k) = n - S := by
    rw [Finset.sum_sub_distrib]; simp [hS]
  rw [hBS] at c1
  rw [hB] at c2
  rw [hB]
  have hS0 : 0 ≤ S := Finset.sum_nonneg fun k _ => (hQ01 k).1
  have hSn : 0 ≤ n - S := by rw [← hBS]; exact Finset.sum_nonneg fun k _ => by linarith [(hQ01 k).2]
  have hnR : (0:ℝ) < n := by exact_mod_cast hn
  have hm1 : n - A ≤ max (n - A) A := le_max_left _ _
  have hm2 : A ≤ max (n - A) A := le_max_right _ _
  have : n * emd p q ≤ n * max (n - A) A := by
    calc n * emd p q ≤ n * ((∑ k, P k * (1 - Q k)) + ∑ k, Q k * (1 - P k)) :=
          mul_le_mul_of_nonneg_left hbound hnR.le
      _ ≤ A * (n - S) + S * (n - A) := by linarith
      _ ≤ max (n - A) A * (n - S) + S * max (n - A) A := by
          have i1 := mul_le_mul_of_nonneg_right hm2 hSn
          have i2 := mul_le_mul_of_nonneg_left hm1 hS0
          linarith
      _ = n * max (n - A) A := by ring
  exact le_of_mul_le_mul_left this hnR

theorem maxEmd_pos (hn : 1 ≤ n) (p : Fin (n + 1) → ℝ) (hp : IsPrev p) :
    0 < max (emd p (Pi.single 0 1)) (emd p (Pi.single (Fin.last n) 1)) := by
  obtain ⟨e1, e2⟩ := emd_extremes p hp
  have hs : emd p (Pi.single 0 1) + emd p (Pi.single (Fin.last n) 1) = n := by
    rw [e1, e2, ← Finset.sum_add_distrib]
    simp
  have hnR : (1:ℝ) ≤ n := by exact_mod_cast hn
  rw [lt_max_iff]
  by_contra h
  push Not at h
  linarith [h.1, h.2]

theorem emdScore_eq (hn : 1 ≤ n) (p q : Fin (n + 1) → ℝ) (hp : IsPrev p) :
    emdScore p q = Fl.fin ((max (emd p (Pi.single 0 1)) (emd p (Pi.single (Fin.last n) 1)) - emd p q)
      / max (emd p (Pi.single 0 1)) (emd p (Pi.single (Fin.last n) 1))) := by
  unfold emdScore
  simp only [massAt_eq]
  rw [Fl.fin_div _ (maxEmd_pos hn p hp).ne']
  rfl

/-- **C24**: emd_score is in [0,1] and 1 exactly for the perfect prediction. -/
theorem C24_score (hn : 1 ≤ n) (p q : Fin (n + 1) → ℝ) (hp : IsPrev p) (hq : IsPrev q) :
    ∃ s, emdScore p q = Fl.fin s ∧ s ∈ Set.Icc (0:ℝ) 1 ∧ (s = 1 ↔ p = q) := by
  have hpos := maxEmd_pos hn p hp
  have hle := C24_extremes_are_worst p q hp hq
  have h0 := (C23_emd_metric p q q).1
  refine ⟨_, emdScore_eq hn p q hp, ⟨div_nonneg (by linarith) hpos.le, ?_⟩, ?_⟩
  · rw [div_le_one hpos]; linarith
  · rw [div_eq_one_iff_eq hpos.ne', sub_eq_self, emd_eq_zero_iff]

/-- **C24**: one of the two extreme predictions gets score 0. -/
theorem C24_extreme_score_zero (hn : 1 ≤ n) (p : Fin (n + 1) → ℝ) (hp : IsPrev p) :
    emdScore p (Pi.single 0 1) = Fl.fin 0 ∨ emdScore p (Pi.single (Fin.last n) 1) = Fl.fin 0 := by
  rw [emdScore_eq hn p _ hp, emdScore_eq hn p _ hp]
  rcases le_total (emd p (Pi.single 0 1)) (emd p (Pi.single (Fin.last n) 1)) with h | h
  · right; rw [max_eq_right h, sub_self, zero_div]
  · left; rw [max_eq_left h, sub_self, zero_div]

example : IsPrev ![(1:ℝ)/4, 3/4, 0] := by
  refine ⟨fun i => ?_, ?_⟩
  · fin_cases i <;> norm_num
  · rw [Fin.sum_univ_three]; norm_num [Matrix.cons_val_two]

/-! ## C25 -/

theorem foldl_add_eq {β : Type*} (l : List β) (f : β → ℝ) (a : ℝ) :
    l.foldl (fun d i => d + f i) a = a + (l.map f).sum := by
  induction l generalizing a with
  | nil => simp
  | cons b l ih => rw [List.foldl_cons, ih, List.map_cons, List.sum_cons, add_assoc]

theorem sum_range' (f : ℕ → ℝ) (s m : ℕ) :
    ((List.range' s m).map f).sum = ∑ i ∈ Finset.range m, f (s + i) := by
  induction m generalizing s with
  | zero => simp
  | succ m ih =>
    rw [List.range'_succ, List.map_cons, List.sum_cons, ih, Finset.sum_range_succ']
    simp only [add_zero]
    rw [add_comm]
    congr 1
    exact Finset.sum_congr rfl fun i _ => by congr 1; ring

/-- **C25**: entry (i,j) of emd_distances is the emd of row i of A and row j of B. -/
theorem C25_emd_distances {r s : ℕ} (A : Fin r → Fin (n + 1) → ℝ) (B : Fin s → Fin (n + 1) → ℝ)
    (i : Fin r) (j : Fin s) (htot : ∑ k, A i k = ∑ k, B j k) :
    emdDistances A B i j = emd (A i) (B j) := by
  unfold emdDistances emdDistancesEntry
  rcases Nat.eq_zero_or_pos n with rfl | hn
  · rw [emd_eq]
    simp
  obtain ⟨m, rfl⟩ : ∃ m, n = m + 1 := ⟨n - 1, by omega⟩
  set D : Fin (m + 1 + 1) → ℝ := fun k => |cumsum (A i) k - cumsum (B j) k| with hD
  rw [foldl_add_eq (List.range' 1 (m + 1 + 1 - 1 - 1)) (fun k => D (Fin.ofNat (m + 1 + 1) k)), sum_range', emd_eq]
  rw [Fin.sum_univ_castSucc, cumsum_last, cumsum_last, htot, sub_self, abs_zero, add_zero]
  rw [Fin.sum_univ_succ]
  congr 1
  rw [← Fin.sum_univ_eq_sum_range (fun k => D (Fin.ofNat (m + 1 + 1) (1 + k)))]
  refine Finset.sum_congr rfl fun k _ => ?_
  have : Fin.ofNat (m + 1 + 1) (1 + k.val) = k.succ.castSucc := by
    apply Fin.ext
    simp only [Fin.val_ofNat, Fin.val_castSucc, Fin.val_succ]
    rw [Nat.mod_eq_of_lt (by have := k.2; omega), add_comm]
  rw [this]

end Verif.Props
