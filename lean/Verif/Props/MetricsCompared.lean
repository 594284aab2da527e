import Verif.Spec.ErrorVanishes
import Verif.Props.MetricsMulti
import Verif.Props.MetricsOrdinal
import Mathlib.Analysis.Calculus.Deriv.MeanValue
import Mathlib.Analysis.SpecialFunctions.Log.Deriv

/-!
# C158: the error measures agree on what a small error is
-/

namespace Verif.Props

open Verif.Model Verif.Spec Filter Topology

variable {n : ℕ}

/-! ### Two inequalities about logarithms -/

theorem entropy_gap_nonneg {x : ℝ} (h0 : 0 ≤ x) (h1 : x < 1) : x ^ 2 ≤ (1 + x) * Real.log (1 + x) + (1 - x) * Real.log (1 - x) := by
  have hder : ∀ t ∈ Set.Ico (0:ℝ) 1, HasDerivAt (fun t => (1 + t) * Real.log (1 + t) + (1 - t) * Real.log (1 - t) - t ^ 2) (Real.log (1 + t) - Real.log (1 - t) - 2 * t) t := fun t ht => by
    have ha : (1:ℝ) + t ≠ 0 := by linarith [ht.1]
    have hb : (1:ℝ) - t ≠ 0 := by linarith [ht.2]
    have d1 : HasDerivAt (fun t : ℝ => 1 + t) 1 t := by simpa using (hasDerivAt_id t).const_add 1
    have d2 : HasDerivAt (fun t : ℝ => 1 - t) (-1) t := by simpa using (hasDerivAt_id t).const_sub 1
    have d3 := d1.mul (d1.log ha)
    have d4 := d2.mul (d2.log hb)
    have d5 := (d3.add d4).sub (hasDerivAt_pow 2 t)
    refine d5.congr_deriv ?_
    field_simp
    ring
  have hmono : MonotoneOn (fun t => (1 + t) * Real.log (1 + t) + (1 - t) * Real.log (1 - t) - t ^ 2) (Set.Ico (0:ℝ) 1) := by
    refine monotoneOn_of_deriv_nonneg (convex_Ico 0 1) (fun t ht => (hder t ht).continuousAt.continuousWithinAt) (fun t ht => ?_) fun t ht => ?_
    · rw [interior_Ico] at ht
      exact (hder t ⟨ht.1.le, ht.2⟩).differentiableAt.differentiableWithinAt
    · rw [interior_Ico] at ht
      rw [(hder t ⟨ht.1.le, ht.2⟩).deriv]
      have hb : (0:ℝ) < 1 - t := by linarith [ht.2]
      have ha : (0:ℝ) < 1 + t := by linarith [ht.1]
      have h := Real.le_log_one_add_of_nonneg (x := 2 * t / (1 - t)) (div_nonneg (by linarith [ht.1]) hb.le)
      have e1 : 1 + 2 * t / (1 - t) = (1 + t) / (1 - t) := by field_simp; ring
      have e2 : 2 * (2 * t / (1 - t)) / (2 * t / (1 - t) + 2) = 2 * t := by
        have : 2 * t / (1 - t) + 2 = 2 / (1 - t) := by field_simp; ring
        rw [this]
        field_simp
      rw [e1, e2, Real.log_div ha.ne' hb.ne'] at h
      linarith
  have := hmono ⟨le_rfl, one_pos⟩ ⟨h0, h1⟩ h0
  simp at this
  linarith

theorem entropy_gap {x : ℝ} (h0 : -1 < x) (h1 : x < 1) : x ^ 2 ≤ (1 + x) * Real.log (1 + x) + (1 - x) * Real.log (1 - x) := by
  rcases le_total 0 x with h | h
  · exact entropy_gap_nonneg h h1
  · have := entropy_gap_nonneg (x := -x) (by linarith) (by linarith)
    rw [sub_neg_eq_add, ← sub_eq_add_neg, neg_sq] at this
    linarith

theorem topsoe_term_lower (a b : ℝ) (ha : 0 < a) (hb : 0 < b) : (a - b) ^ 2 / (2 * (a + b)) ≤ a * Real.log (2 * a / (a + b)) + b * Real.log (2 * b / (a + b)) := by
  have hs : 0 < a + b := by linarith
  have h := entropy_gap (x := (a - b) / (a + b)) (by rw [lt_div_iff₀ hs]; linarith) (by rw [div_lt_iff₀ hs]; linarith)
  have e1 : 1 + (a - b) / (a + b) = 2 * a / (a + b) := by field_simp; ring
  have e2 : 1 - (a - b) / (a + b) = 2 * b / (a + b) := by field_simp; ring
  rw [e1, e2] at h
  have h' := mul_le_mul_of_nonneg_left h (by positivity : 0 ≤ (a + b) / 2)
  have e3 : (a + b) / 2 * ((a - b) / (a + b)) ^ 2 = (a - b) ^ 2 / (2 * (a + b)) := by field_simp
  have e4 : (a + b) / 2 * (2 * a / (a + b) * Real.log (2 * a / (a + b)) + 2 * b / (a + b) * Real.log (2 * b / (a + b))) = a * Real.log (2 * a / (a + b)) + b * Real.log (2 * b / (a + b)) := by field_simp
  linarith

/-! ### Each measure against `l1` -/

/-- **C158** for l2. -/
theorem C158_l2 (p q : Fin n → ℝ) (hp : IsPrev p) (hq : IsPrev q) : ∃ a b, l1 p q = Fl.fin a ∧ l2 p q = Fl.fin b ∧ Real.sqrt 2 * b ≤ a ∧ a ≤ Real.sqrt n * b := by
  refine ⟨_, _, l1_eq p q, l2_eq p q, ?_, ?_⟩
  · have hz : ∑ j, (p j - q j) = 0 := by rw [Finset.sum_sub_distrib, hp.2, hq.2, sub_self]
    have hpos : 0 ≤ ∑ j, |p j - q j| := Finset.sum_nonneg fun _ _ => abs_nonneg _
    rw [← Real.sqrt_mul zero_le_two]
    refine Real.sqrt_le_iff.2 ⟨hpos, ?_⟩
    have hhalf : ∀ j, 2 * |p j - q j| ≤ ∑ i, |p i - q i| := fun j => by
      have h1 : p j - q j = -∑ i ∈ Finset.univ.erase j, (p i - q i) := by
        rw [← Finset.add_sum_erase _ _ (Finset.mem_univ j)] at hz
        linarith
      have h2 : |p j - q j| ≤ ∑ i ∈ Finset.univ.erase j, |p i - q i| := by
        rw [h1, abs_neg]
        exact Finset.abs_sum_le_sum_abs _ _
      rw [← Finset.add_sum_erase _ (fun i => |p i - q i|) (Finset.mem_univ j)]
      linarith
    calc 2 * ∑ j, (p j - q j) ^ 2 = ∑ j, |p j - q j| * (2 * |p j - q j|) := by
          rw [Finset.mul_sum]
          refine Finset.sum_congr rfl fun j _ => ?_
          rw [← sq_abs]
          ring
      _ ≤ ∑ j, |p j - q j| * ∑ i, |p i - q i| := Finset.sum_le_sum fun j _ => mul_le_mul_of_nonneg_left (hhalf j) (abs_nonneg _)
      _ = (∑ j, |p j - q j|) ^ 2 := by rw [← Finset.sum_mul, sq]
  · rw [← Real.sqrt_mul (Nat.cast_nonneg n)]
    refine Real.le_sqrt_of_sq_le ?_
    have := sq_sum_le_card_mul_sum_sq (s := (Finset.univ : Finset (Fin n))) (f := fun j => |p j - q j|)
    simpa [sq_abs] using this

/-- **C158** for mean_absolute_error, mean_squared_error and bray_curtis, which are functions of l1 and l2. -/
theorem C158_means (p q : Fin n → ℝ) (hp : IsPrev p) (hq : IsPrev q) :
    ∃ a b, l1 p q = Fl.fin a ∧ l2 p q = Fl.fin b ∧ meanAbsoluteError p q = Fl.fin (a / n) ∧ meanSquaredError p q = Fl.fin (b ^ 2 / n) ∧ brayCurtis p q = Fl.fin (a / 2) := by
  obtain ⟨d, h1, h2, -⟩ := C17_bray_curtis p q hp hq
  refine ⟨d, _, h1, l2_eq p q, ?_, ?_, h2⟩
  · rw [l1_eq, Fl.fin_inj] at h1
    rw [mae_eq (IsPrev.ne_zero hp), h1]
  · rw [mse_eq (IsPrev.ne_zero hp), Real.sq_sqrt (Finset.sum_nonneg fun _ _ => sq_nonneg _)]

/-- **C158** for probsymmetric. -/
theorem C158_probsymmetric (eps : ℝ) (he : 0 < eps) (p q : Fin n → ℝ) (hp : IsPrev p) (hq : IsPrev q) :
    ∃ a b, l1 p q = Fl.fin a ∧ probsymmetric eps p q = Fl.fin b ∧ 2 * a ^ 2 / (2 + n * eps) ≤ b ∧ b ≤ 2 * a := by
  refine ⟨_, _, l1_eq p q, ps_eq eps he p q hp.1 hq.1, ?_, ?_⟩
  · rw [mul_div_assoc]
    refine mul_le_mul_of_nonneg_left ?_ zero_le_two
    have := Finset.sq_sum_div_le_sum_sq_div Finset.univ (fun j => |p j - q j|) (g := fun j => p j + q j + eps) fun j _ => by linarith [hp.1 j, hq.1 j]
    simp only [sq_abs, Finset.sum_add_distrib, hp.2, hq.2, Finset.sum_const, Finset.card_univ, Fintype.card_fin, nsmul_eq_mul] at this
    convert this using 2
    norm_num
  · refine mul_le_mul_of_nonneg_left (Finset.sum_le_sum fun j _ => ?_) zero_le_two
    have h1 := hp.1 j
    have h2 := hq.1 j
    rw [div_le_iff₀ (by linarith), ← sq_abs, sq]
    refine mul_le_mul_of_nonneg_left ?_ (abs_nonneg _)
    rw [abs_le]
    constructor <;> linarith

/-- **C158** for topsoe: it is between a quarter and a half of probsymmetric with the same `eps`. -/
theorem C158_topsoe (eps : ℝ) (he : 0 < eps) (p q : Fin n → ℝ) (hp : IsPrev p) (hq : IsPrev q) :
    ∃ a b, topsoe eps p q = Fl.fin a ∧ probsymmetric eps p q = Fl.fin b ∧ b / 4 ≤ a ∧ a ≤ b / 2 := by
  refine ⟨_, _, topsoe_eq eps he p q hp.1 hq.1, ps_eq eps he p q hp.1 hq.1, ?_, ?_⟩
  · have e : 2 * (∑ j, (p j - q j)^2 / (p j + q j + eps)) / 4 = ∑ j, (p j - q j)^2 / (2 * (p j + q j + eps)) := by
      rw [mul_div_right_comm, Finset.mul_sum]
      refine Finset.sum_congr rfl fun j _ => ?_
      have : p j + q j + eps ≠ 0 := by linarith [hp.1 j, hq.1 j]
      field_simp
      norm_num
    rw [e]
    refine Finset.sum_le_sum fun j _ => ?_
    have h1 := hp.1 j
    have h2 := hq.1 j
    have h := topsoe_term_lower (p j + eps / 2) (q j + eps / 2) (by linarith) (by linarith)
    have e1 : p j + eps / 2 + (q j + eps / 2) = p j + q j + eps := by ring
    have e2 : 2 * (p j + eps / 2) = 2 * p j + eps := by ring
    have e3 : 2 * (q j + eps / 2) = 2 * q j + eps := by ring
    have e4 : p j + eps / 2 - (q j + eps / 2) = p j - q j := by ring
    rw [e1, e2, e3, e4] at h
    have hs : 0 < p j + q j + eps := by linarith
    have hlog : Real.log ((2 * p j + eps) / (p j + q j + eps)) + Real.log ((2 * q j + eps) / (p j + q j + eps)) ≤ 0 := by
      rw [← Real.log_mul (by positivity) (by positivity)]
      refine Real.log_nonpos (by positivity) ?_
      rw [div_mul_div_comm, div_le_one (by positivity)]
      nlinarith [sq_nonneg (p j - q j)]
    nlinarith
  · have e : 2 * (∑ j, (p j - q j)^2 / (p j + q j + eps)) / 2 = ∑ j, (p j - q j)^2 / (p j + q j + eps) := by ring
    rw [e]
    refine Finset.sum_le_sum fun j _ => ?_
    have h1 := hp.1 j
    have h2 := hq.1 j
    have hs : 0 < p j + q j + eps := by linarith
    have l1 := mul_le_mul_of_nonneg_left (Real.log_le_sub_one_of_pos (x := (2 * p j + eps) / (p j + q j + eps)) (by positivity)) h1
    have l2 := mul_le_mul_of_nonneg_left (Real.log_le_sub_one_of_pos (x := (2 * q j + eps) / (p j + q j + eps)) (by positivity)) h2
    refine (add_le_add l1 l2).trans (le_of_eq ?_)
    field_simp
    ring

/-- **C158** for emd. -/
theorem C158_emd (p q : Fin n → ℝ) (hp : IsPrev p) (hq : IsPrev q) : ∃ a, l1 p q = Fl.fin a ∧ a / 2 ≤ emd p q ∧ emd p q ≤ (n - 1) / 2 * a := by
  set C : ℕ → ℝ := fun m => ∑ j : Fin n, if j.val < m then p j - q j else 0 with hC
  have hemd : emd p q = ∑ m ∈ Finset.range n, |C (m + 1)| := by
    rw [← Fin.sum_univ_eq_sum_range (fun m => |C (m + 1)|)]
    refine Finset.sum_congr rfl fun k _ => ?_
    congr 1
    unfold cumsum
    refine Finset.sum_congr rfl fun j _ => ?_
    simp only [Fin.le_def, Nat.lt_succ_iff]
  have h0 : C 0 = 0 := by simp [hC]
  have hn : C n = 0 := by
    have : C n = ∑ j, (p j - q j) := Finset.sum_congr rfl fun j _ => if_pos j.2
    rw [this, Finset.sum_sub_distrib, hp.2, hq.2, sub_self]
  refine ⟨_, l1_eq p q, ?_, ?_⟩
  · have hv : ∀ k : Fin n, |p k - q k| ≤ |C (k + 1)| + |C k| := fun k => by
      have : p k - q k = C (k + 1) - C k := by
        rw [hC]
        simp only [← Finset.sum_sub_distrib]
        rw [Finset.sum_eq_single_of_mem k (Finset.mem_univ k)]
        · simp
        · intro j _ hj
          have hj' : j.val ≠ k.val := fun h => hj (Fin.ext h)
          by_cases h : j.val < k.val
          · rw [if_pos h, if_pos (by omega), sub_self]
          · rw [if_neg h, if_neg (by omega), sub_self]
      rw [this]
      exact abs_sub _ _
    have hsum : ∑ k : Fin n, |C k| = emd p q := by
      rw [hemd, Fin.sum_univ_eq_sum_range (fun m => |C m|)]
      have h1 := Finset.sum_range_succ (fun m => |C m|) n
      rw [Finset.sum_range_succ' (fun m => |C m|) n, h0, hn] at h1
      simpa using h1.symm
    have h2 := Finset.sum_le_sum fun k (_ : k ∈ Finset.univ) => hv k
    rw [Finset.sum_add_distrib, hsum, Fin.sum_univ_eq_sum_range (fun m => |C (m + 1)|), ← hemd] at h2
    linarith
  · have hhalf : ∀ m, |C m| ≤ (∑ j, |p j - q j|) / 2 := fun m => by
      have hsplit : ∑ j, (p j - q j) = C m + ∑ j : Fin n, if j.val < m then 0 else p j - q j := by
        rw [hC, ← Finset.sum_add_distrib]
        refine Finset.sum_congr rfl fun j _ => ?_
        split_ifs <;> simp
      have hz : ∑ j, (p j - q j) = 0 := by rw [Finset.sum_sub_distrib, hp.2, hq.2, sub_self]
      have h1 : |C m| ≤ ∑ j : Fin n, if j.val < m then |p j - q j| else 0 := (Finset.abs_sum_le_sum_abs _ _).trans (Finset.sum_le_sum fun j _ => by split_ifs <;> simp)
      have h2 : |C m| ≤ ∑ j : Fin n, if j.val < m then 0 else |p j - q j| := by
        have : C m = -∑ j : Fin n, if j.val < m then 0 else p j - q j := by linarith
        rw [this, abs_neg]
        exact (Finset.abs_sum_le_sum_abs _ _).trans (Finset.sum_le_sum fun j _ => by split_ifs <;> simp)
      have h3 : ∑ j, |p j - q j| = (∑ j : Fin n, if j.val < m then |p j - q j| else 0) + ∑ j : Fin n, if j.val < m then 0 else |p j - q j| := by
        rw [← Finset.sum_add_distrib]
        refine Finset.sum_congr rfl fun j _ => ?_
        split_ifs <;> simp
      linarith
    obtain ⟨k, rfl⟩ := Nat.exists_eq_succ_of_ne_zero (IsPrev.ne_zero hp)
    rw [hemd, Finset.sum_range_succ, hn, abs_zero, add_zero]
    refine (Finset.sum_le_sum fun m _ => hhalf (m + 1)).trans (le_of_eq ?_)
    rw [Finset.sum_const, Finset.card_range, nsmul_eq_mul]
    push_cast
    ring

/-- **C158** for kld, when all the classes occur: the Hellinger distance, and so l1 and the other measures, are small when kld is, up to an error that depends on `eps`. -/
theorem C158_kld (eps : ℝ) (he : 0 < eps) (p q : Fin n → ℝ) (hp : IsPrev p) (hq : IsPrev q) (hpos : ∀ i, 0 < p i) :
    ∃ a h d, l1 p q = Fl.fin a ∧ hd p q = Fl.fin h ∧ kld eps p q = Fl.fin d ∧ 0 ≤ d * Real.log 2 + n * eps ∧ h ≤ Real.sqrt (d * Real.log 2 + n * eps) + Real.sqrt (n * eps) ∧ d * Real.log 2 ≤ a / eps := by
  refine ⟨_, _, _, l1_eq p q, hd_eq p q hp.1 hq.1, kld_eq eps he p q hpos hq.1, ?_⟩
  have hl : Real.log 2 ≠ 0 := (Real.log_pos one_lt_two).ne'
  rw [div_mul_cancel₀ _ hl]
  have hq' : ∀ j, 0 < q j + eps := fun j => by linarith [hq.1 j]
  have hmain : ∑ j, (Real.sqrt (p j) - Real.sqrt (q j + eps)) ^ 2 ≤ ∑ j, p j * Real.log (p j / (q j + eps)) + n * eps := by
    have h1 : ∀ j, (Real.sqrt (p j) - Real.sqrt (q j + eps)) ^ 2 ≤ p j * Real.log (p j / (q j + eps)) + (q j + eps - p j) := fun j => by
      have hpj := hpos j
      have hs : 0 < Real.sqrt (p j) := Real.sqrt_pos.2 hpj
      have hs' : 0 < Real.sqrt (q j + eps) := Real.sqrt_pos.2 (hq' j)
      have hlog := Real.log_le_sub_one_of_pos (x := Real.sqrt (q j + eps) / Real.sqrt (p j)) (by positivity)
      have e1 : Real.log (p j / (q j + eps)) = -2 * Real.log (Real.sqrt (q j + eps) / Real.sqrt (p j)) := by
        rw [Real.log_div hs'.ne' hs.ne', Real.log_sqrt (hq' j).le, Real.log_sqrt hpj.le, Real.log_div hpj.ne' (hq' j).ne']
        ring
      have e2 : p j = Real.sqrt (p j) ^ 2 := (Real.sq_sqrt hpj.le).symm
      have e3 : q j + eps = Real.sqrt (q j + eps) ^ 2 := (Real.sq_sqrt (hq' j).le).symm
      have h2 : p j * Real.log (Real.sqrt (q j + eps) / Real.sqrt (p j)) ≤ p j * (Real.sqrt (q j + eps) / Real.sqrt (p j) - 1) := mul_le_mul_of_nonneg_left hlog hpj.le
      have h3 : p j * (Real.sqrt (q j + eps) / Real.sqrt (p j) - 1) = Real.sqrt (p j) * Real.sqrt (q j + eps) - p j := by
        have : p j * (Real.sqrt (q j + eps) / Real.sqrt (p j)) = Real.sqrt (p j) * Real.sqrt (q j + eps) := by
          rw [mul_div_assoc', div_eq_iff hs.ne']
          nth_rewrite 1 [e2]
          ring
        rw [mul_sub, this, mul_one]
      rw [e1]
      nlinarith
    refine (Finset.sum_le_sum fun j _ => h1 j).trans (le_of_eq ?_)
    simp only [Finset.sum_add_distrib, Finset.sum_sub_distrib, hp.2, hq.2, Finset.sum_const, Finset.card_univ, Fintype.card_fin, nsmul_eq_mul]
    ring
  refine ⟨(Finset.sum_nonneg fun _ _ => sq_nonneg _).trans hmain, ?_, ?_⟩
  · refine (l2_triangle (fun j => Real.sqrt (p j)) (fun j => Real.sqrt (q j + eps)) fun j => Real.sqrt (q j)).trans (add_le_add (Real.sqrt_le_sqrt hmain) (Real.sqrt_le_sqrt ?_))
    have h2 : ∀ j, (Real.sqrt (q j + eps) - Real.sqrt (q j)) ^ 2 ≤ eps := fun j => by
      have hqj := hq.1 j
      have e1 := Real.sq_sqrt hqj
      have e2 := Real.sq_sqrt (hq' j).le
      have h3 : Real.sqrt (q j) ≤ Real.sqrt (q j + eps) := Real.sqrt_le_sqrt (by linarith)
      nlinarith [Real.sqrt_nonneg (q j)]
    refine (Finset.sum_le_sum fun j _ => h2 j).trans (le_of_eq ?_)
    simp
  · rw [Finset.sum_div]
    refine Finset.sum_le_sum fun j _ => ?_
    have hpj := hpos j
    have hqj := hq.1 j
    have h1 : p j ≤ 1 := by
      rw [← hp.2]
      exact Finset.single_le_sum (f := p) (fun i _ => hp.1 i) (Finset.mem_univ j)
    have hlog := Real.log_le_sub_one_of_pos (x := p j / (q j + eps)) (div_pos hpj (hq' j))
    have e1 : p j / (q j + eps) - 1 = (p j - q j - eps) / (q j + eps) := by
      have := (hq' j).ne'
      field_simp
      ring
    have h2 : p j / (q j + eps) - 1 ≤ |p j - q j| / eps := by
      rw [e1, div_le_div_iff₀ (hq' j) he]
      have h3 := le_abs_self (p j - q j)
      have h4 := abs_nonneg (p j - q j)
      nlinarith
    have h5 : 0 ≤ |p j - q j| / eps := by positivity
    have h6 := hlog.trans h2
    nlinarith

/-! ### All of them vanish together -/

theorem vanishes_of_le {m m' : (Fin n → ℝ) → (Fin n → ℝ) → Fl} (f : ℝ → ℝ) (hf : ContinuousAt f 0) (hf0 : f 0 = 0) {p : Fin n → ℝ} {q : ℕ → Fin n → ℝ} (hq : ∀ t, IsPrev (q t))
    (h : ∀ q, IsPrev q → ∃ a b, m p q = Fl.fin a ∧ m' p q = Fl.fin b ∧ 0 ≤ b ∧ b ≤ f a) (hm : ErrorVanishes m p q) : ErrorVanishes m' p q := by
  obtain ⟨e, he, ht⟩ := hm
  choose a b h1 h2 h3 h4 using fun t => h (q t) (hq t)
  have hae : ∀ t, a t = e t := fun t => Fl.fin.inj ((h1 t).symm.trans (he t))
  have hlim := hf.tendsto.comp ht
  rw [hf0] at hlim
  refine ⟨b, h2, squeeze_zero h3 (fun t => ?_) hlim⟩
  show b t ≤ f (e t)
  rw [← hae t]
  exact h4 t

/-- **C158**: the l1 error vanishes exactly when the predictions tend to the true prevalences. -/
theorem C158_l1_limit (p : Fin n → ℝ) (q : ℕ → Fin n → ℝ) : ErrorVanishes l1 p q ↔ Tendsto q atTop (𝓝 p) := by
  constructor
  · rintro ⟨e, he, ht⟩
    refine tendsto_pi_nhds.2 fun j => ?_
    rw [tendsto_iff_dist_tendsto_zero]
    refine squeeze_zero (fun _ => dist_nonneg) (fun t => ?_) ht
    rw [Real.dist_eq, abs_sub_comm]
    have h1 : e t = ∑ j, |p j - q t j| := by
      have := he t
      rw [l1_eq] at this
      exact (Fl.fin.inj this).symm
    rw [h1]
    exact Finset.single_le_sum (f := fun j => |p j - q t j|) (fun _ _ => abs_nonneg _) (Finset.mem_univ j)
  · intro h
    refine ⟨_, fun t => l1_eq p (q t), ?_⟩
    have h2 : Tendsto (fun t => ∑ j, |p j - q t j|) atTop (𝓝 (∑ j, |p j - p j|)) :=
      tendsto_finsetSum _ fun j _ => ((tendsto_const_nhds.sub (tendsto_pi_nhds.1 h j)).abs)
    simpa using h2

/-- **C158**: and so do the errors of every other measure that is zero for the right prediction. -/
theorem C158_same_limits (eps : ℝ) (he : 0 < eps) (p : Fin n → ℝ) (hp : IsPrev p) (q : ℕ → Fin n → ℝ) (hq : ∀ t, IsPrev (q t)) (m : (Fin n → ℝ) → (Fin n → ℝ) → Fl)
    (hm : m ∈ [l1, l2, meanAbsoluteError, meanSquaredError, brayCurtis, hd, probsymmetric eps, topsoe eps, fun p q => Fl.fin (emd p q)]) : ErrorVanishes m p q ↔ Tendsto q atTop (𝓝 p) := by
  rw [← C158_l1_limit]
  have hn0 := IsPrev.ne_zero hp
  have hn : (0:ℝ) < n := by positivity
  have key : ∀ m' : (Fin n → ℝ) → (Fin n → ℝ) → Fl, ∀ f g : ℝ → ℝ, ContinuousAt f 0 → f 0 = 0 → ContinuousAt g 0 → g 0 = 0
      → (∀ q, IsPrev q → ∃ a b, l1 p q = Fl.fin a ∧ m' p q = Fl.fin b ∧ 0 ≤ a ∧ 0 ≤ b ∧ b ≤ f a ∧ a ≤ g b) → (ErrorVanishes m' p q ↔ ErrorVanishes l1 p q) := fun m' f g hf hf0 hg hg0 h =>
    ⟨vanishes_of_le g hg hg0 hq fun q hq => by
        obtain ⟨a, b, h1, h2, h3, h4, h5, h6⟩ := h q hq
        exact ⟨b, a, h2, h1, h3, h6⟩,
      vanishes_of_le f hf hf0 hq fun q hq => by
        obtain ⟨a, b, h1, h2, h3, h4, h5, h6⟩ := h q hq
        exact ⟨a, b, h1, h2, h4, h5⟩⟩
  have hl1 : ∀ q a, l1 p q = Fl.fin a → 0 ≤ a := fun q a h => by
    rw [l1_eq] at h
    rw [← Fl.fin.inj h]
    exact Finset.sum_nonneg fun _ _ => abs_nonneg _
  have hl2 : ∀ q b, l2 p q = Fl.fin b → 0 ≤ b := fun q b h => by
    rw [l2_eq] at h
    rw [← Fl.fin.inj h]
    exact Real.sqrt_nonneg _
  have hps : ∀ q b, IsPrev q → probsymmetric eps p q = Fl.fin b → 0 ≤ b := fun q b hq h => by
    obtain ⟨a, b', h1, h2, h3, -⟩ := C158_probsymmetric eps he p q hp hq
    rw [h2] at h
    rw [← Fl.fin.inj h]
    exact le_trans (by positivity) h3
  have h2ne : (0:ℝ) < 2 + n * eps := by positivity
  have hsq : ∀ {a b c : ℝ}, 0 ≤ a → a ^ 2 ≤ c * b → a ≤ Real.sqrt (c * b) := fun ha h => Real.le_sqrt_of_sq_le h
  have hpsq : ∀ {a b : ℝ}, 2 * a ^ 2 / (2 + n * eps) ≤ b → a ^ 2 ≤ (2 + n * eps) / 2 * b := fun h => by
    rw [div_le_iff₀ h2ne] at h
    linarith
  simp only [List.mem_cons, List.not_mem_nil, or_false] at hm
  rcases hm with rfl | rfl | rfl | rfl | rfl | rfl | rfl | rfl | rfl
  · exact Iff.rfl
  · refine key _ (fun a => a / Real.sqrt 2) (fun b => Real.sqrt n * b) (by fun_prop) (by simp) (by fun_prop) (by simp) fun q hq => ?_
    obtain ⟨a, b, h1, h2, h3, h4⟩ := C158_l2 p q hp hq
    refine ⟨a, b, h1, h2, hl1 q a h1, hl2 q b h2, ?_, h4⟩
    rw [le_div_iff₀ (by positivity)]
    linarith
  · refine key _ (fun a => a / n) (fun b => n * b) (by fun_prop) (by simp) (by fun_prop) (by simp) fun q hq => ?_
    obtain ⟨a, b, h1, -, h3, -⟩ := C158_means p q hp hq
    have h0 := hl1 q a h1
    refine ⟨a, a / n, h1, h3, h0, by positivity, le_rfl, ?_⟩
    rw [mul_div_cancel₀ _ hn.ne']
  · refine key _ (fun a => a ^ 2 / n) (fun b => Real.sqrt n * Real.sqrt (n * b)) (by fun_prop) (by simp) (by fun_prop) (by simp) fun q hq => ?_
    obtain ⟨a, b, h1, h2, -, h3, -⟩ := C158_means p q hp hq
    obtain ⟨a', b', h1', h2', h4, h5⟩ := C158_l2 p q hp hq
    obtain rfl : a = a' := Fl.fin.inj (h1.symm.trans h1')
    obtain rfl : b = b' := Fl.fin.inj (h2.symm.trans h2')
    have hb := hl2 q b h2
    have ha := hl1 q a h1
    refine ⟨a, b ^ 2 / n, h1, h3, ha, by positivity, ?_, ?_⟩
    · refine div_le_div_of_nonneg_right (pow_le_pow_left₀ hb ?_ 2) hn.le
      have : (1:ℝ) ≤ Real.sqrt 2 := Real.one_le_sqrt.2 one_le_two
      nlinarith
    · rw [mul_div_cancel₀ _ hn.ne', Real.sqrt_sq hb]
      exact h5
  · refine key _ (fun a => a / 2) (fun b => 2 * b) (by fun_prop) (by simp) (by fun_prop) (by simp) fun q hq => ?_
    obtain ⟨a, b, h1, -, -, -, h3⟩ := C158_means p q hp hq
    have h0 := hl1 q a h1
    refine ⟨a, a / 2, h1, h3, h0, by positivity, le_rfl, by linarith⟩
  · refine key _ (fun a => Real.sqrt a) (fun b => 2 * b) (by fun_prop) (by simp) (by fun_prop) (by simp) fun q hq => ?_
    obtain ⟨h, d, h1, h2, h3, h4⟩ := C17_le_cam p q hp hq
    have h0 := hl1 q d h2
    exact ⟨d, h, h2, h1, h0, by linarith, Real.le_sqrt_of_sq_le h3, h4⟩
  · refine key _ (fun a => 2 * a) (fun b => Real.sqrt ((2 + n * eps) / 2 * b)) (by fun_prop) (by simp) (by fun_prop) (by simp) fun q hq => ?_
    obtain ⟨a, b, h1, h2, h3, h4⟩ := C158_probsymmetric eps he p q hp hq
    exact ⟨a, b, h1, h2, hl1 q a h1, hps q b hq h2, h4, hsq (hl1 q a h1) (hpsq h3)⟩
  · refine key _ (fun a => a) (fun b => Real.sqrt ((2 + n * eps) / 2 * (4 * b))) (by fun_prop) (by simp) (by fun_prop) (by simp) fun q hq => ?_
    obtain ⟨a, b, h1, h2, h3, h4⟩ := C158_probsymmetric eps he p q hp hq
    obtain ⟨t, b', h5, h6, h7, h8⟩ := C158_topsoe eps he p q hp hq
    obtain rfl : b = b' := Fl.fin.inj (h2.symm.trans h6)
    have h0 := hps q b hq h2
    refine ⟨a, t, h1, h5, hl1 q a h1, by linarith, by linarith, Real.le_sqrt_of_sq_le ((hpsq h3).trans (mul_le_mul_of_nonneg_left (by linarith) (by positivity)))⟩
  · refine key _ (fun a => (n - 1) / 2 * a) (fun b => 2 * b) (by fun_prop) (by simp) (by fun_prop) (by simp) fun q hq => ?_
    obtain ⟨a, h1, h2, h3⟩ := C158_emd p q hp hq
    have h0 := hl1 q a h1
    exact ⟨a, _, h1, rfl, h0, by linarith, h3, by linarith⟩

/-- Two classes: the predictions `1/2 ± 1/(2(t+1))` for the prevalences 1/2 and 1/2 are prevalences, and their l1 error is `1/(t+1)`. -/
example : IsPrev (![1/2, 1/2] : Fin 2 → ℝ) ∧ ∀ t : ℕ, IsPrev (![1/2 - 1/(2*(t+1)), 1/2 + 1/(2*(t+1))] : Fin 2 → ℝ) ∧ l1 (![1/2, 1/2] : Fin 2 → ℝ) ![1/2 - 1/(2*(t+1)), 1/2 + 1/(2*(t+1))] = Fl.fin (1/(t+1)) := by
  refine ⟨⟨fun i => by fin_cases i <;> simp, by simp [Fin.sum_univ_two]; norm_num⟩, fun t => ?_⟩
  have ht : (0:ℝ) < t + 1 := by positivity
  have h1 : (1:ℝ)/(2*(t+1)) ≤ 1/2 := by
    rw [div_le_div_iff₀ (by positivity) two_pos]
    have : (0:ℝ) ≤ t := Nat.cast_nonneg t
    linarith
  have h0 : (0:ℝ) < 1/(2*(t+1)) := by positivity
  refine ⟨⟨fun i => ?_, by rw [Fin.sum_univ_two]; show (1/2 - 1/(2*(t+1)) : ℝ) + (1/2 + 1/(2*(t+1))) = 1; ring⟩, ?_⟩
  · fin_cases i
    · show (0:ℝ) ≤ 1/2 - 1/(2*(t+1))
      linarith
    · show (0:ℝ) ≤ 1/2 + 1/(2*(t+1))
      linarith
  · rw [l1_eq, Fin.sum_univ_two]
    show Fl.fin (|(1/2 : ℝ) - (1/2 - 1/(2*(t+1)))| + |(1/2 : ℝ) - (1/2 + 1/(2*(t+1)))|) = _
    rw [sub_sub_cancel, sub_add_cancel_left, abs_neg, abs_of_pos h0]
    congr 1
    field_simp
    norm_num

end Verif.Props
