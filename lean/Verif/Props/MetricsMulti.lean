import Verif.Model.MetricsMulti
import Verif.Props.MetricsBinary
import Mathlib.Analysis.InnerProductSpace.PiL2
import Mathlib.Algebra.Order.Chebyshev

/-!
# C16-C20: multiclass metrics
-/

namespace Verif.Props

open Verif.Model Verif.Spec

variable {n : ℕ}

/-! ### Values on finite vectors -/

theorem l1_eq (p q : Fin n → ℝ) : l1 p q = Fl.fin (∑ j, |p j - q j|) := by
  simp [l1, Fl.sum_fin]

theorem mae_eq (hn : n ≠ 0) (p q : Fin n → ℝ) :
    meanAbsoluteError p q = Fl.fin ((∑ j, |p j - q j|) / n) := by
  simp only [meanAbsoluteError, Fl.fin_sub, Fl.abs_fin, Fl.sum_fin]
  rw [Fl.fin_div _ (by exact_mod_cast hn)]
  simp_rw [abs_sub_comm]

theorem mse_eq (hn : n ≠ 0) (p q : Fin n → ℝ) :
    meanSquaredError p q = Fl.fin ((∑ j, (p j - q j)^2) / n) := by
  simp only [meanSquaredError, Fl.fin_sub, Fl.sq_fin, Fl.sum_fin]
  rw [Fl.fin_div _ (by exact_mod_cast hn)]
  congr 2
  exact Finset.sum_congr rfl fun j _ => by ring

theorem l2_eq (p q : Fin n → ℝ) : l2 p q = Fl.fin (Real.sqrt (∑ j, (p j - q j)^2)) := by
  simp only [l2, Fl.fin_sub, Fl.sq_fin, Fl.sum_fin]
  exact Fl.sqrt_fin (Finset.sum_nonneg fun j _ => sq_nonneg _)

theorem hd_eq (p q : Fin n → ℝ) (hp : ∀ i, 0 ≤ p i) (hq : ∀ i, 0 ≤ q i) :
    hd p q = Fl.fin (Real.sqrt (∑ j, (Real.sqrt (p j) - Real.sqrt (q j))^2)) := by
  have h : ∀ j, ((Fl.fin (q j)).sqrt - (Fl.fin (p j)).sqrt).sq
      = Fl.fin ((Real.sqrt (p j) - Real.sqrt (q j))^2) := by
    intro j
    rw [Fl.sqrt_fin (hp j), Fl.sqrt_fin (hq j), Fl.fin_sub, Fl.sq_fin]
    congr 1
    ring
  simp only [hd, h, Fl.sum_fin]
  exact Fl.sqrt_fin (Finset.sum_nonneg fun j _ => sq_nonneg _)

theorem ps_eq (eps : ℝ) (he : 0 < eps) (p q : Fin n → ℝ) (hp : ∀ i, 0 ≤ p i) (hq : ∀ i, 0 ≤ q i) :
    probsymmetric eps p q = Fl.fin (2 * ∑ j, (p j - q j)^2 / (p j + q j + eps)) := by
  have h : ∀ j, (Fl.fin (p j) - Fl.fin (q j)).sq / Fl.fin (q j + p j + eps)
      = Fl.fin ((p j - q j)^2 / (p j + q j + eps)) := by
    intro j
    have := hp j
    have := hq j
    rw [Fl.fin_sub, Fl.sq_fin, Fl.fin_div _ (by linarith), add_comm (q j) (p j)]
  simp only [probsymmetric, h, Fl.sum_fin, Fl.fin_mul]

theorem IsPrev.ne_zero {p : Fin n → ℝ} (h : IsPrev p) : n ≠ 0 := by
  rintro rfl
  have := h.2
  simp at this

/-! ## C16 -/

/-- `m` restricted to prevalence vectors is finite and a metric. -/
def IsMetric (m : (Fin n → ℝ) → (Fin n → ℝ) → Fl) : Prop :=
  ∃ d : (Fin n → ℝ) → (Fin n → ℝ) → ℝ, ∀ p q r, IsPrev p → IsPrev q → IsPrev r →
    m p q = Fl.fin (d p q) ∧ 0 ≤ d p q ∧ (d p q = 0 ↔ p = q) ∧ d p q = d q p
      ∧ d p r ≤ d p q + d q r

/-- `m` restricted to prevalence vectors is finite, nonnegative, symmetric, and zero exactly on
equal vectors. -/
def IsSymDiv (m : (Fin n → ℝ) → (Fin n → ℝ) → Fl) : Prop :=
  ∃ d : (Fin n → ℝ) → (Fin n → ℝ) → ℝ, ∀ p q, IsPrev p → IsPrev q →
    m p q = Fl.fin (d p q) ∧ 0 ≤ d p q ∧ (d p q = 0 ↔ p = q) ∧ d p q = d q p

theorem sum_abs_eq_zero (p q : Fin n → ℝ) : (∑ j, |p j - q j|) = 0 ↔ p = q := by
  rw [Finset.sum_eq_zero_iff_of_nonneg fun j _ => abs_nonneg _]
  simp only [Finset.mem_univ, true_implies, abs_eq_zero, sub_eq_zero]
  exact funext_iff.symm

theorem sum_sq_eq_zero (p q : Fin n → ℝ) : (∑ j, (p j - q j)^2) = 0 ↔ p = q := by
  rw [Finset.sum_eq_zero_iff_of_nonneg fun j _ => sq_nonneg _]
  simp only [Finset.mem_univ, true_implies, sq_eq_zero_iff, sub_eq_zero]
  exact funext_iff.symm

theorem l1_triangle (p q r : Fin n → ℝ) :
    (∑ j, |p j - r j|) ≤ (∑ j, |p j - q j|) + ∑ j, |q j - r j| := by
  rw [← Finset.sum_add_distrib]
  exact Finset.sum_le_sum fun j _ => abs_sub_le _ _ _

theorem l2_triangle (p q r : Fin n → ℝ) :
    Real.sqrt (∑ j, (p j - r j)^2) ≤ Real.sqrt (∑ j, (p j - q j)^2) + Real.sqrt (∑ j, (q j - r j)^2) := by
  have h := dist_triangle (WithLp.toLp 2 p : EuclideanSpace ℝ (Fin n)) (WithLp.toLp 2 q) (WithLp.toLp 2 r)
  simp only [EuclideanSpace.dist_eq, Real.dist_eq, sq_abs] at h
  exact h

/-- **C16**: l1 is a metric. -/
theorem C16_l1 : IsMetric (l1 (n := n)) :=
  ⟨fun p q => ∑ j, |p j - q j|, fun p q r _ _ _ =>
    ⟨l1_eq p q, Finset.sum_nonneg fun _ _ => abs_nonneg _, sum_abs_eq_zero p q,
      by simp_rw [abs_sub_comm], l1_triangle p q r⟩⟩

/-- **C16**: mean_absolute_error is a metric. -/
theorem C16_mean_absolute_error : IsMetric (meanAbsoluteError (n := n)) := by
  refine ⟨fun p q => (∑ j, |p j - q j|) / n, fun p q r hp _ _ => ?_⟩
  have hn : (0:ℝ) < n := by
    have := IsPrev.ne_zero hp
    positivity
  refine ⟨mae_eq (IsPrev.ne_zero hp) p q, ?_, ?_, ?_, ?_⟩
  · exact div_nonneg (Finset.sum_nonneg fun _ _ => abs_nonneg _) hn.le
  · rw [div_eq_zero_iff, or_iff_left hn.ne', sum_abs_eq_zero]
  · simp_rw [abs_sub_comm]
  · rw [← add_div]
    exact div_le_div_of_nonneg_right (l1_triangle p q r) hn.le

/-- **C16**: l2 is a metric. -/
theorem C16_l2 : IsMetric (l2 (n := n)) := by
  refine ⟨fun p q => Real.sqrt (∑ j, (p j - q j)^2), fun p q r _ _ _ => ⟨l2_eq p q, Real.sqrt_nonneg _, ?_, ?_, l2_triangle p q r⟩⟩
  · rw [Real.sqrt_eq_zero (Finset.sum_nonneg fun _ _ => sq_nonneg _), sum_sq_eq_zero]
  · beta_reduce
    congr 1
    exact Finset.sum_congr rfl fun j _ => by ring

/-- **C16**: the Hellinger distance is a metric. -/
theorem C16_hd : IsMetric (hd (n := n)) := by
  refine ⟨fun p q => Real.sqrt (∑ j, (Real.sqrt (p j) - Real.sqrt (q j))^2), fun p q r hp hq _ =>
    ⟨hd_eq p q hp.1 hq.1, Real.sqrt_nonneg _, ?_, ?_,
      l2_triangle (fun j => Real.sqrt (p j)) (fun j => Real.sqrt (q j)) (fun j => Real.sqrt (r j))⟩⟩
  · rw [Real.sqrt_eq_zero (Finset.sum_nonneg fun _ _ => sq_nonneg _),
      sum_sq_eq_zero (fun j => Real.sqrt (p j)) (fun j => Real.sqrt (q j))]
    constructor
    · intro h
      funext j
      exact (Real.sqrt_inj (hp.1 j) (hq.1 j)).1 (congrFun h j)
    · rintro rfl; rfl
  · beta_reduce
    congr 1
    exact Finset.sum_congr rfl fun j _ => by ring

/-- **C16**: mean_squared_error. -/
theorem C16_mean_squared_error : IsSymDiv (meanSquaredError (n := n)) := by
  refine ⟨fun p q => (∑ j, (p j - q j)^2) / n, fun p q hp _ => ?_⟩
  have hn : (0:ℝ) < n := by
    have := IsPrev.ne_zero hp
    positivity
  refine ⟨mse_eq (IsPrev.ne_zero hp) p q, ?_, ?_, ?_⟩
  · exact div_nonneg (Finset.sum_nonneg fun _ _ => sq_nonneg _) hn.le
  · rw [div_eq_zero_iff, or_iff_left hn.ne', sum_sq_eq_zero]
  · beta_reduce
    congr 1
    exact Finset.sum_congr rfl fun j _ => by ring

/-- **C16**: probsymmetric, for every positive smoothing constant. -/
theorem C16_probsymmetric (eps : ℝ) (he : 0 < eps) : IsSymDiv (probsymmetric (n := n) eps) := by
  refine ⟨fun p q => 2 * ∑ j, (p j - q j)^2 / (p j + q j + eps), fun p q hp hq => ?_⟩
  have hpos : ∀ j, 0 < p j + q j + eps := fun j => by linarith [hp.1 j, hq.1 j]
  refine ⟨ps_eq eps he p q hp.1 hq.1, ?_, ?_, ?_⟩
  · exact mul_nonneg two_pos.le (Finset.sum_nonneg fun j _ => div_nonneg (sq_nonneg _) (hpos j).le)
  · rw [mul_eq_zero, or_iff_right two_ne_zero,
      Finset.sum_eq_zero_iff_of_nonneg fun j _ => div_nonneg (sq_nonneg _) (hpos j).le, funext_iff]
    refine forall_congr' fun j => ?_
    rw [div_eq_zero_iff, or_iff_left (hpos j).ne', sq_eq_zero_iff, sub_eq_zero]
    simp
  · beta_reduce
    congr 1
    exact Finset.sum_congr rfl fun j _ => by rw [add_comm (p j) (q j)]; congr 1; ring

/-- Non-vacuity: two different prevalence vectors. -/
theorem prev_ex : IsPrev ![(1:ℝ)/4, 3/4] ∧ IsPrev ![(1:ℝ)/2, 1/2] := by
  constructor
  · refine ⟨fun i => ?_, ?_⟩
    · fin_cases i <;> norm_num
    · rw [Fin.sum_univ_two]; norm_num
  · refine ⟨fun i => ?_, ?_⟩
    · fin_cases i <;> norm_num
    · rw [Fin.sum_univ_two]; norm_num

/-- The length check: sequences of different lengths are rejected, equal nonempty lengths go
through to the metric. -/
theorem C16_length_check (m : {n : ℕ} → (Fin n → ℝ) → (Fin n → ℝ) → Fl) (p q : List ℝ) :
    (callMetric m p q = .error .valueError ↔ p.length ≠ q.length ∨ p = [])
    ∧ ∀ (k : ℕ) (a b : Fin (k + 1) → ℝ), callMetric m (List.ofFn a) (List.ofFn b)
        = .ok (m (fun i : Fin (List.ofFn a).length => a (Fin.cast (by simp) i))
            (fun i => b (Fin.cast (by simp) i))) := by
  constructor
  · unfold callMetric checkPrevalences
    by_cases h : p.length = q.length
    · by_cases h0 : p.length = 0
      · simp [Except.map, List.length_eq_zero_iff.mp h0]
      · rw [dif_pos h, if_neg h0]
        have : p ≠ [] := by simpa using h0
        simp [Except.map, h, this]
    · simp [h, Except.map]
  · intro k a b
    unfold callMetric checkPrevalences
    rw [dif_pos (by simp), if_neg (by simp)]
    simp only [Except.map, Except.ok.injEq]
    congr 1
    · funext i
      exact List.getElem_ofFn (by simpa using i.2)
    · funext i
      exact List.getElem_ofFn (by simpa using i.2)

/-! ## C17 -/

/-- **C17**: l1 is at most 2. -/
theorem C17_l1_le (p q : Fin n → ℝ) (hp : IsPrev p) (hq : IsPrev q) :
    ∃ d, l1 p q = Fl.fin d ∧ d ≤ 2 := by
  refine ⟨_, l1_eq p q, ?_⟩
  calc (∑ j, |p j - q j|) ≤ ∑ j, (p j + q j) := Finset.sum_le_sum fun j _ => by
        rw [abs_le]; constructor <;> linarith [hp.1 j, hq.1 j]
    _ = 2 := by rw [Finset.sum_add_distrib, hp.2, hq.2]; norm_num

/-- **C17**: mean_absolute_error is at most 2/n. -/
theorem C17_mae_le (p q : Fin n → ℝ) (hp : IsPrev p) (hq : IsPrev q) :
    ∃ d, meanAbsoluteError p q = Fl.fin d ∧ d ≤ 2 / n := by
  obtain ⟨d, hd, hle⟩ := C17_l1_le p q hp hq
  rw [l1_eq, Fl.fin_inj] at hd
  refine ⟨_, mae_eq (IsPrev.ne_zero hp) p q, ?_⟩
  rw [hd]
  exact div_le_div_of_nonneg_right hle (Nat.cast_nonneg n)

theorem sum_sq_le_one (p : Fin n → ℝ) (hp : IsPrev p) : ∑ j, (p j)^2 ≤ 1 := by
  calc ∑ j, (p j)^2 ≤ ∑ j, p j := Finset.sum_le_sum fun j _ => by
        have h0 := hp.1 j
        have h1 := hp.le_one j
        nlinarith
    _ = 1 := hp.2

/-- **C17**: l2 is at most √2. -/
theorem C17_l2_le (p q : Fin n → ℝ) (hp : IsPrev p) (hq : IsPrev q) :
    ∃ d, l2 p q = Fl.fin d ∧ d ≤ Real.sqrt 2 := by
  refine ⟨_, l2_eq p q, Real.sqrt_le_sqrt ?_⟩
  calc ∑ j, (p j - q j)^2 ≤ ∑ j, ((p j)^2 + (q j)^2) := Finset.sum_le_sum fun j _ => by
        nlinarith [mul_nonneg (hp.1 j) (hq.1 j)]
    _ ≤ 2 := by
      rw [Finset.sum_add_distrib]
      linarith [sum_sq_le_one p hp, sum_sq_le_one q hq]

theorem hd_sq_le (p q : Fin n → ℝ) (hp : IsPrev p) (hq : IsPrev q) :
    ∑ j, (Real.sqrt (p j) - Real.sqrt (q j))^2 ≤ ∑ j, (p j + q j) :=
  Finset.sum_le_sum fun j _ => by
    have h1 := Real.sq_sqrt (hp.1 j)
    have h2 := Real.sq_sqrt (hq.1 j)
    nlinarith [mul_nonneg (Real.sqrt_nonneg (p j)) (Real.sqrt_nonneg (q j))]

/-- **C17**: hd is at most √2. -/
theorem C17_hd_le (p q : Fin n → ℝ) (hp : IsPrev p) (hq : IsPrev q) :
    ∃ d, hd p q = Fl.fin d ∧ d ≤ Real.sqrt 2 := by
  refine ⟨_, hd_eq p q hp.1 hq.1, Real.sqrt_le_sqrt ?_⟩
  refine (hd_sq_le p q hp hq).trans (le_of_eq ?_)
  rw [Finset.sum_add_distrib, hp.2, hq.2]
  norm_num

/-- **C17**: bray_curtis is half of l1 and lies in [0,1]. -/
theorem C17_bray_curtis (p q : Fin n → ℝ) (hp : IsPrev p) (hq : IsPrev q) :
    ∃ d, l1 p q = Fl.fin d ∧ brayCurtis p q = Fl.fin (d / 2) ∧ d / 2 ∈ Set.Icc (0:ℝ) 1 := by
  obtain ⟨d, hd, hle⟩ := C17_l1_le p q hp hq
  refine ⟨d, hd, ?_, ?_, by linarith⟩
  · rw [l1_eq, Fl.fin_inj] at hd
    have hs : ∑ j, (p j + q j) = 2 := by rw [Finset.sum_add_distrib, hp.2, hq.2]; norm_num
    simp only [brayCurtis, Fl.fin_sub, Fl.abs_fin, Fl.fin_add, Fl.sum_fin, hs, hd]
    rw [Fl.fin_div _ two_ne_zero]
  · rw [l1_eq, Fl.fin_inj] at hd
    rw [← hd]
    exact div_nonneg (Finset.sum_nonneg fun _ _ => abs_nonneg _) two_pos.le

/-- **C17**: probsymmetric is at most 4. -/
theorem C17_probsymmetric_le (eps : ℝ) (he : 0 < eps) (p q : Fin n → ℝ) (hp : IsPrev p) (hq : IsPrev q) :
    ∃ d, probsymmetric eps p q = Fl.fin d ∧ d ≤ 4 := by
  refine ⟨_, ps_eq eps he p q hp.1 hq.1, ?_⟩
  have h : ∑ j, (p j - q j)^2 / (p j + q j + eps) ≤ ∑ j, (p j + q j) :=
    Finset.sum_le_sum fun j _ => by
      have h0 := hp.1 j
      have h1 := hq.1 j
      rw [div_le_iff₀ (by linarith)]
      nlinarith [mul_nonneg h0 h1]
  rw [Finset.sum_add_distrib, hp.2, hq.2] at h
  linarith

/-- **C17**: Le Cam's inequalities `hd² ≤ l1 ≤ 2 hd`. -/
theorem C17_le_cam (p q : Fin n → ℝ) (hp : IsPrev p) (hq : IsPrev q) :
    ∃ h d, hd p q = Fl.fin h ∧ l1 p q = Fl.fin d ∧ h^2 ≤ d ∧ d ≤ 2 * h := by
  refine ⟨_, _, hd_eq p q hp.1 hq.1, l1_eq p q, ?_, ?_⟩
  · rw [Real.sq_sqrt (Finset.sum_nonneg fun _ _ => sq_nonneg _)]
    refine Finset.sum_le_sum fun j _ => ?_
    have h1 := Real.sq_sqrt (hp.1 j)
    have h2 := Real.sq_sqrt (hq.1 j)
    have hs1 := Real.sqrt_nonneg (p j)
    have hs2 := Real.sqrt_nonneg (q j)
    have hfac : p j - q j = (Real.sqrt (p j) - Real.sqrt (q j)) * (Real.sqrt (p j) + Real.sqrt (q j)) := by
      nlinarith
    rw [hfac, abs_mul, ← sq_abs, pow_two]
    apply mul_le_mul_of_nonneg_left _ (abs_nonneg _)
    rw [abs_of_nonneg (by linarith : 0 ≤ Real.sqrt (p j) + Real.sqrt (q j)), abs_le]
    constructor <;> linarith
  · set a : Fin n → ℝ := fun j => |Real.sqrt (p j) - Real.sqrt (q j)| with ha
    set b : Fin n → ℝ := fun j => Real.sqrt (p j) + Real.sqrt (q j) with hb
    have hfac : ∀ j, |p j - q j| = a j * b j := by
      intro j
      have h1 := Real.sq_sqrt (hp.1 j)
      have h2 := Real.sq_sqrt (hq.1 j)
      have hs1 := Real.sqrt_nonneg (p j)
      have hs2 := Real.sqrt_nonneg (q j)
      have : p j - q j = (Real.sqrt (p j) - Real.sqrt (q j)) * (Real.sqrt (p j) + Real.sqrt (q j)) := by
        nlinarith
      rw [this, abs_mul, abs_of_nonneg (by linarith : 0 ≤ Real.sqrt (p j) + Real.sqrt (q j))]
    have hcs := Finset.sum_mul_sq_le_sq_mul_sq Finset.univ a b
    have hb4 : ∑ j, (b j)^2 ≤ 4 := by
      calc ∑ j, (b j)^2 ≤ ∑ j, 2 * (p j + q j) := Finset.sum_le_sum fun j _ => by
            have h1 := Real.sq_sqrt (hp.1 j)
            have h2 := Real.sq_sqrt (hq.1 j)
            simp only [hb]
            nlinarith [sq_nonneg (Real.sqrt (p j) - Real.sqrt (q j))]
        _ = 4 := by rw [← Finset.mul_sum, Finset.sum_add_distrib, hp.2, hq.2]; norm_num
    have ha2 : ∑ j, (a j)^2 = ∑ j, (Real.sqrt (p j) - Real.sqrt (q j))^2 :=
      Finset.sum_congr rfl fun j _ => by simp only [ha, sq_abs]
    rw [ha2] at hcs
    have hnn : 0 ≤ ∑ j, (Real.sqrt (p j) - Real.sqrt (q j))^2 := Finset.sum_nonneg fun _ _ => sq_nonneg _
    simp_rw [hfac]
    have h4 : (∑ j, a j * b j)^2 ≤ (2 * Real.sqrt (∑ j, (Real.sqrt (p j) - Real.sqrt (q j))^2))^2 := by
      rw [mul_pow, Real.sq_sqrt hnn]
      nlinarith
    exact (abs_le_of_sq_le_sq' h4 (by positivity)).2

/-! ## C18 -/

/-- `topsoe` as a real number. -/
noncomputable def topsoeR (eps : ℝ) (p q : Fin n → ℝ) : ℝ :=
  ∑ j, (p j * Real.log ((2 * p j + eps) / (p j + q j + eps))
    + q j * Real.log ((2 * q j + eps) / (p j + q j + eps)))

/-- `jensenshannon` as a real number. -/
noncomputable def jsR (eps : ℝ) (p q : Fin n → ℝ) : ℝ :=
  (∑ j, (p j * Real.log (p j + eps) + q j * Real.log (q j + eps)
    - (p j + q j) * Real.log ((p j + q j + eps) / 2))) / 2

theorem topsoe_eq (eps : ℝ) (he : 0 < eps) (p q : Fin n → ℝ) (hp : ∀ i, 0 ≤ p i) (hq : ∀ i, 0 ≤ q i) :
    topsoe eps p q = Fl.fin (topsoeR eps p q) := by
  unfold topsoe topsoeR
  rw [← Fl.sum_fin]
  refine Finset.sum_congr rfl fun j _ => ?_
  have h0 := hp j
  have h1 := hq j
  have hs : 0 < p j + q j + eps := by linarith
  rw [Fl.fin_div _ hs.ne', Fl.fin_div _ hs.ne', Fl.log_fin (div_pos (by linarith) hs),
    Fl.log_fin (div_pos (by linarith) hs), Fl.fin_mul, Fl.fin_mul, Fl.fin_add]

theorem js_eq (eps : ℝ) (he : 0 < eps) (p q : Fin n → ℝ) (hp : ∀ i, 0 ≤ p i) (hq : ∀ i, 0 ≤ q i) :
    jensenshannon eps p q = Fl.fin (jsR eps p q) := by
  unfold jensenshannon jsR
  rw [← Fl.fin_div _ two_ne_zero, ← Fl.sum_fin]
  congr 1
  refine Finset.sum_congr rfl fun j _ => ?_
  have h0 := hp j
  have h1 := hq j
  rw [Fl.log_fin (by linarith), Fl.log_fin (by linarith), Fl.log_fin (by linarith), Fl.fin_mul,
    Fl.fin_mul, Fl.fin_mul, Fl.fin_add, Fl.fin_sub]

/-- One term of Topsoe: nonnegative, zero only for equal values. -/
theorem topsoe_term (eps p q : ℝ) (he : 0 < eps) (hp : 0 ≤ p) (hq : 0 ≤ q) :
    0 ≤ p * Real.log ((2 * p + eps) / (p + q + eps)) + q * Real.log ((2 * q + eps) / (p + q + eps))
    ∧ (p * Real.log ((2 * p + eps) / (p + q + eps)) + q * Real.log ((2 * q + eps) / (p + q + eps)) = 0
        → p = q) := by
  set a := p + eps / 2 with ha
  set b := q + eps / 2 with hb
  have ha0 : 0 < a := by rw [ha]; linarith
  have hb0 : 0 < b := by rw [hb]; linarith
  set m := (a + b) / 2 with hm
  have hm0 : 0 < m := by rw [hm]; linarith
  have e1 : (2 * p + eps) / (p + q + eps) = a / m := by
    rw [div_eq_div_iff (by linarith) hm0.ne', ha, hm, ha, hb]; ring
  have e2 : (2 * q + eps) / (p + q + eps) = b / m := by
    rw [div_eq_div_iff (by linarith) hm0.ne', hb, hm, ha, hb]; ring
  rw [e1, e2]
  have g1 := gibbs_term ha0 hm0
  have g2 := gibbs_term hb0 hm0
  -- the smoothing part has the right sign, by AM-GM
  have hamgm : Real.log (a / m) + Real.log (b / m) ≤ 0 := by
    rw [← Real.log_mul (by positivity) (by positivity)]
    apply Real.log_nonpos (by positivity)
    rw [div_mul_div_comm, div_le_one (by positivity), hm]
    nlinarith [sq_nonneg (a - b)]
  have hsplit : p * Real.log (a / m) + q * Real.log (b / m)
      = a * Real.log (a / m) + b * Real.log (b / m) - eps / 2 * (Real.log (a / m) + Real.log (b / m)) := by
    rw [ha, hb]; ring
  have hmm : (a - m) + (b - m) = 0 := by rw [hm]; ring
  have hneg : 0 ≤ -(eps / 2 * (Real.log (a / m) + Real.log (b / m))) := by nlinarith
  rw [hsplit]
  constructor
  · linarith [g1.1, g2.1]
  · intro h
    have : a - m = a * Real.log (a / m) := by linarith [g1.1, g2.1]
    have hab := g1.2.1 this
    have : a = b := by rw [hm] at hab; linarith
    rw [ha, hb] at this
    linarith

/-- **C18** (topsoe): finite, symmetric, nonnegative, zero exactly on equal vectors. -/
theorem C18_topsoe (eps : ℝ) (he : 0 < eps) : IsSymDiv (topsoe (n := n) eps) := by
  refine ⟨topsoeR eps, fun p q hp hq => ⟨topsoe_eq eps he p q hp.1 hq.1, ?_, ?_, ?_⟩⟩
  · exact Finset.sum_nonneg fun j _ => (topsoe_term eps _ _ he (hp.1 j) (hq.1 j)).1
  · constructor
    · intro h
      have := (Finset.sum_eq_zero_iff_of_nonneg
        fun j _ => (topsoe_term eps _ _ he (hp.1 j) (hq.1 j)).1).1 h
      funext j
      exact (topsoe_term eps _ _ he (hp.1 j) (hq.1 j)).2 (this j (Finset.mem_univ j))
    · rintro rfl
      unfold topsoeR
      refine Finset.sum_eq_zero fun j _ => ?_
      have : 0 < p j + p j + eps := by linarith [hp.1 j]
      rw [show 2 * p j + eps = p j + p j + eps by ring, div_self this.ne', Real.log_one]
      ring
  · unfold topsoeR
    refine Finset.sum_congr rfl fun j _ => ?_
    rw [add_comm (q j) (p j)]
    ring

/-- **C18** (topsoe): at most `2 log 2`. -/
theorem C18_topsoe_le (eps : ℝ) (he : 0 < eps) (p q : Fin n → ℝ) (hp : IsPrev p) (hq : IsPrev q) :
    ∃ d, topsoe eps p q = Fl.fin d ∧ d ≤ 2 * Real.log 2 := by
  refine ⟨_, topsoe_eq eps he p q hp.1 hq.1, ?_⟩
  have hterm : ∀ a b : ℝ, 0 ≤ a → 0 ≤ b →
      a * Real.log ((2 * a + eps) / (a + b + eps)) ≤ a * Real.log 2 := by
    intro a b ha hb
    apply mul_le_mul_of_nonneg_left _ ha
    apply Real.log_le_log (div_pos (by linarith) (by linarith))
    rw [div_le_iff₀ (by linarith)]
    linarith
  calc topsoeR eps p q ≤ ∑ j, (p j * Real.log 2 + q j * Real.log 2) :=
        Finset.sum_le_sum fun j _ => by
          have h1 := hterm (p j) (q j) (hp.1 j) (hq.1 j)
          have h2 := hterm (q j) (p j) (hq.1 j) (hp.1 j)
          rw [add_comm (q j) (p j)] at h2
          linarith
    _ = 2 * Real.log 2 := by
      rw [Finset.sum_add_distrib, ← Finset.sum_mul, ← Finset.sum_mul, hp.2, hq.2]
      ring

/-- The difference between Jensen-Shannon and half of Topsoe. -/
theorem js_sub_topsoe (eps : ℝ) (he : 0 < eps) (p q : Fin n → ℝ) (hp : ∀ i, 0 ≤ p i) (hq : ∀ i, 0 ≤ q i) :
    jsR eps p q - topsoeR eps p q / 2
      = (∑ j, (p j * Real.log ((p j + eps) / (p j + eps / 2))
          + q j * Real.log ((q j + eps) / (q j + eps / 2)))) / 2 := by
  unfold jsR topsoeR
  rw [← sub_div, ← Finset.sum_sub_distrib]
  congr 1
  refine Finset.sum_congr rfl fun j _ => ?_
  have h0 := hp j
  have h1 := hq j
  have e1 : (2 * p j + eps) / (p j + q j + eps) = (p j + eps / 2) / ((p j + q j + eps) / 2) := by
    rw [div_eq_div_iff (by linarith) (by linarith)]; ring
  have e2 : (2 * q j + eps) / (p j + q j + eps) = (q j + eps / 2) / ((p j + q j + eps) / 2) := by
    rw [div_eq_div_iff (by linarith) (by linarith)]; ring
  have l1 := Real.log_div (x := p j + eps / 2) (y := (p j + q j + eps) / 2) (by linarith) (by linarith)
  have l2 := Real.log_div (x := q j + eps / 2) (y := (p j + q j + eps) / 2) (by linarith) (by linarith)
  have l3 := Real.log_div (x := p j + eps) (y := p j + eps / 2) (by linarith) (by linarith)
  have l4 := Real.log_div (x := q j + eps) (y := q j + eps / 2) (by linarith) (by linarith)
  rw [e1, e2, l1, l2, l3, l4]
  ring

theorem js_gap_term (eps a : ℝ) (he : 0 < eps) (ha : 0 ≤ a) :
    0 ≤ a * Real.log ((a + eps) / (a + eps / 2))
    ∧ a * Real.log ((a + eps) / (a + eps / 2)) ≤ eps / 2 := by
  have hpos : 0 < a + eps / 2 := by linarith
  have h1 : 1 ≤ (a + eps) / (a + eps / 2) := by rw [le_div_iff₀ hpos]; linarith
  constructor
  · exact mul_nonneg ha (Real.log_nonneg h1)
  · have hl := Real.log_le_sub_one_of_pos (by linarith : 0 < (a + eps) / (a + eps / 2))
    have e : (a + eps) / (a + eps / 2) - 1 = (eps / 2) / (a + eps / 2) := by
      field_simp; ring
    rw [e] at hl
    calc a * Real.log ((a + eps) / (a + eps / 2)) ≤ a * ((eps / 2) / (a + eps / 2)) :=
          mul_le_mul_of_nonneg_left hl ha
      _ = (eps / 2) * (a / (a + eps / 2)) := by ring
      _ ≤ (eps / 2) * 1 := by
          apply mul_le_mul_of_nonneg_left _ (by linarith)
          rw [div_le_one hpos]; linarith
      _ = eps / 2 := mul_one _

/-- **C18** (jensenshannon): finite, symmetric, between half of Topsoe and half of Topsoe plus
`n*eps/2`; hence nonnegative, at most `log 2 + n*eps/2`, and at most `n*eps/2` on equal vectors. -/
theorem C18_jensenshannon (eps : ℝ) (he : 0 < eps) (p q : Fin n → ℝ) (hp : IsPrev p) (hq : IsPrev q) :
    ∃ j t : ℝ, jensenshannon eps p q = Fl.fin j ∧ topsoe eps p q = Fl.fin t
      ∧ jensenshannon eps q p = Fl.fin j
      ∧ t / 2 ≤ j ∧ j ≤ t / 2 + n * eps / 2 ∧ 0 ≤ j ∧ j ≤ Real.log 2 + n * eps / 2 := by
  have hgap := js_sub_topsoe eps he p q hp.1 hq.1
  have hg0 : 0 ≤ (∑ j, (p j * Real.log ((p j + eps) / (p j + eps / 2))
          + q j * Real.log ((q j + eps) / (q j + eps / 2)))) :=
    Finset.sum_nonneg fun j _ => add_nonneg (js_gap_term eps _ he (hp.1 j)).1 (js_gap_term eps _ he (hq.1 j)).1
  have hg1 : (∑ j, (p j * Real.log ((p j + eps) / (p j + eps / 2))
          + q j * Real.log ((q j + eps) / (q j + eps / 2)))) ≤ n * eps := by
    calc _ ≤ ∑ _j : Fin n, (eps / 2 + eps / 2) := Finset.sum_le_sum fun j _ =>
          add_le_add (js_gap_term eps _ he (hp.1 j)).2 (js_gap_term eps _ he (hq.1 j)).2
      _ = n * eps := by
          simp only [Finset.sum_const, Finset.card_univ, Fintype.card_fin, nsmul_eq_mul]; ring
  have ht0 : 0 ≤ topsoeR eps p q :=
    Finset.sum_nonneg fun j _ => (topsoe_term eps _ _ he (hp.1 j) (hq.1 j)).1
  obtain ⟨t, ht, htle⟩ := C18_topsoe_le eps he p q hp hq
  rw [topsoe_eq eps he p q hp.1 hq.1, Fl.fin_inj] at ht
  refine ⟨jsR eps p q, topsoeR eps p q, js_eq eps he p q hp.1 hq.1, topsoe_eq eps he p q hp.1 hq.1, ?_,
    by linarith, by linarith, by linarith, by linarith⟩
  rw [js_eq eps he q p hq.1 hp.1]
  congr 1
  unfold jsR
  congr 1
  refine Finset.sum_congr rfl fun j _ => ?_
  rw [add_comm (q j) (p j)]
  ring

/-- **C18** (jensenshannon, remark): on equal vectors it is not exactly 0 but strictly positive. -/
theorem C18_jensenshannon_self_pos (eps : ℝ) (he : 0 < eps) (p : Fin n → ℝ) (hp : IsPrev p) :
    ∃ j, jensenshannon eps p p = Fl.fin j ∧ 0 < j ∧ j ≤ n * eps / 2 := by
  obtain ⟨j, t, hj, ht, _, h1, h2, _, _⟩ := C18_jensenshannon eps he p p hp hp
  obtain ⟨d, hd⟩ := C18_topsoe (n := n) eps he
  have ht0 : t = 0 := by
    have := (hd p p hp hp).1
    rw [ht, Fl.fin_inj] at this
    rw [this]
    exact ((hd p p hp hp).2.2.1).2 rfl
  refine ⟨j, hj, ?_, by rw [ht0] at h2; linarith⟩
  rw [js_eq eps he p p hp.1 hp.1, Fl.fin_inj] at hj
  rw [topsoe_eq eps he p p hp.1 hp.1, Fl.fin_inj] at ht
  have hgap := js_sub_topsoe eps he p p hp.1 hp.1
  rw [ht, hj, ht0] at hgap
  have hpos : 0 < (∑ j, (p j * Real.log ((p j + eps) / (p j + eps / 2))
          + p j * Real.log ((p j + eps) / (p j + eps / 2)))) := by
    have hex : ∃ i, 0 < p i := by
      by_contra hcon
      have hz : ∀ i, p i = 0 := fun i => le_antisymm (not_lt.mp fun h => hcon ⟨i, h⟩) (hp.1 i)
      have := hp.2
      simp [hz] at this
    obtain ⟨i, hi⟩ := hex
    refine Finset.sum_pos' (fun j _ => add_nonneg (js_gap_term eps _ he (hp.1 j)).1
      (js_gap_term eps _ he (hp.1 j)).1) ⟨i, Finset.mem_univ i, ?_⟩
    have : 0 < Real.log ((p i + eps) / (p i + eps / 2)) := by
      apply Real.log_pos
      rw [lt_div_iff₀ (by linarith)]
      linarith
    positivity
  linarith

/-! ## C19 -/

/-- **C19** (refuted): if some true prevalence is 0, kld is NaN whatever the prediction. -/
theorem C19_kld_zero_class_refuted (eps : ℝ) (he : 0 < eps) (p q : Fin n → ℝ) (hq : ∀ i, 0 ≤ q i)
    (j : Fin n) (hj : p j = 0) : kld eps p q = Fl.nan := by
  refine Fl.sum_eq_nan _ _ (Finset.mem_univ j) ?_
  have : q j + eps ≠ 0 := by linarith [hq j]
  rw [hj, Fl.fin_add, Fl.fin_div _ this, zero_div, Fl.log2_zero, Fl.zero_mul_ninf]

theorem kld_eq (eps : ℝ) (he : 0 < eps) (p q : Fin n → ℝ) (hp : ∀ i, 0 < p i) (hq : ∀ i, 0 ≤ q i) :
    kld eps p q = Fl.fin ((∑ j, p j * Real.log (p j / (q j + eps))) / Real.log 2) := by
  have h : ∀ j, Fl.fin (p j) * (Fl.fin (p j) / (Fl.fin (q j) + Fl.fin eps)).log2
      = Fl.fin (p j * (Real.log (p j / (q j + eps)) / Real.log 2)) := by
    intro j
    have := hq j
    rw [Fl.fin_add, log2_div _ _ (hp j) (by linarith), Fl.fin_mul]
  unfold kld
  simp only [h, Fl.sum_fin]
  congr 1
  rw [Finset.sum_div]
  exact Finset.sum_congr rfl fun j _ => by ring

/-- **C19** (partial): if all true prevalences are positive, kld is finite and at least
`-log2(1 + n*eps)`. Missing: zero prevalences (NaN) and exact nonnegativity, which fails
(`C19_kld_self_negative_refuted`). -/
theorem C19_kld_partial (eps : ℝ) (he : 0 < eps) (p q : Fin n → ℝ) (hp : IsPrev p) (hq : IsPrev q)
    (hpos : ∀ i, 0 < p i) : ∃ d, kld eps p q = Fl.fin d ∧ -Real.logb 2 (1 + n * eps) ≤ d := by
  have hl : 0 < Real.log 2 := Real.log_pos one_lt_two
  refine ⟨_, kld_eq eps he p q hpos hq.1, ?_⟩
  set S := 1 + n * eps with hS
  have hS0 : 0 < S := by rw [hS]; positivity
  have hsum : ∑ j, (q j + eps) / S = 1 := by
    rw [← Finset.sum_div, Finset.sum_add_distrib, hq.2]
    simp only [Finset.sum_const, Finset.card_univ, Fintype.card_fin, nsmul_eq_mul]
    exact div_self hS0.ne'
  have hterm : ∀ j, p j - (q j + eps) / S - p j * Real.log S ≤ p j * Real.log (p j / (q j + eps)) := by
    intro j
    have hqe : 0 < q j + eps := by linarith [hq.1 j]
    have g := (gibbs_term (hpos j) (by positivity : 0 < (q j + eps) / S)).1
    have e : Real.log (p j / (q j + eps)) = Real.log (p j / ((q j + eps) / S)) - Real.log S := by
      have h1 : p j / ((q j + eps) / S) ≠ 0 := (div_pos (hpos j) (by positivity)).ne'
      rw [← Real.log_div h1 hS0.ne']
      congr 1
      field_simp
    rw [e]
    linarith
  have := Finset.sum_le_sum fun j (_ : j ∈ Finset.univ) => hterm j
  rw [Finset.sum_sub_distrib, Finset.sum_sub_distrib, hsum, ← Finset.sum_mul, hp.2] at this
  rw [show -Real.logb 2 S = -Real.log S / Real.log 2 by rw [Real.logb]; ring]
  apply div_le_div_of_nonneg_right _ hl.le
  linarith

/-- **C19** (refuted): for the perfect prediction kld is strictly negative, not 0. -/
theorem C19_kld_self_negative_refuted (eps : ℝ) (he : 0 < eps) (p : Fin n → ℝ) (hp : IsPrev p)
    (hpos : ∀ i, 0 < p i) : ∃ d, kld eps p p = Fl.fin d ∧ d < 0 := by
  have hl : 0 < Real.log 2 := Real.log_pos one_lt_two
  refine ⟨_, kld_eq eps he p p hpos hp.1, div_neg_of_neg_of_pos ?_ hl⟩
  have hn : (Finset.univ : Finset (Fin n)).Nonempty := by
    have : NeZero n := ⟨IsPrev.ne_zero hp⟩
    exact Finset.univ_nonempty
  have : ∀ j ∈ (Finset.univ : Finset (Fin n)), p j * Real.log (p j / (p j + eps)) < 0 := by
    intro j _
    have h0 := hpos j
    apply mul_neg_of_pos_of_neg h0
    apply Real.log_neg (by positivity)
    rw [div_lt_one (by linarith)]
    linarith
  exact Finset.sum_neg this hn

example : ∀ i, 0 < (![(1:ℝ)/4, 3/4]) i := by intro i; fin_cases i <;> norm_num

/-! ## C20 -/

/-- **C20**: the same reordering of the classes in both arguments changes no metric. -/
theorem C20_class_order (σ : Equiv.Perm (Fin n)) (eps : ℝ) (p q : Fin n → ℝ) :
    kld eps (p ∘ σ) (q ∘ σ) = kld eps p q
    ∧ meanAbsoluteError (p ∘ σ) (q ∘ σ) = meanAbsoluteError p q
    ∧ l1 (p ∘ σ) (q ∘ σ) = l1 p q
    ∧ meanSquaredError (p ∘ σ) (q ∘ σ) = meanSquaredError p q
    ∧ l2 (p ∘ σ) (q ∘ σ) = l2 p q
    ∧ hd (p ∘ σ) (q ∘ σ) = hd p q
    ∧ brayCurtis (p ∘ σ) (q ∘ σ) = brayCurtis p q
    ∧ topsoe eps (p ∘ σ) (q ∘ σ) = topsoe eps p q
    ∧ jensenshannon eps (p ∘ σ) (q ∘ σ) = jensenshannon eps p q
    ∧ probsymmetric eps (p ∘ σ) (q ∘ σ) = probsymmetric eps p q := by
  refine ⟨?_, ?_, ?_, ?_, ?_, ?_, ?_, ?_, ?_, ?_⟩
  · exact Equiv.sum_comp σ fun j => Fl.fin (p j) * (Fl.fin (p j) / (Fl.fin (q j) + Fl.fin eps)).log2
  · exact congrArg (· / Fl.fin (n : ℝ)) (Equiv.sum_comp σ fun j => (Fl.fin (q j) - Fl.fin (p j)).abs)
  · exact Equiv.sum_comp σ fun j => (Fl.fin (p j) - Fl.fin (q j)).abs
  · exact congrArg (· / Fl.fin (n : ℝ)) (Equiv.sum_comp σ fun j => (Fl.fin (q j) - Fl.fin (p j)).sq)
  · exact congrArg Fl.sqrt (Equiv.sum_comp σ fun j => (Fl.fin (p j) - Fl.fin (q j)).sq)
  · exact congrArg Fl.sqrt
      (Equiv.sum_comp σ fun j => ((Fl.fin (q j)).sqrt - (Fl.fin (p j)).sqrt).sq)
  · exact congrArg₂ (· / ·) (Equiv.sum_comp σ fun j => (Fl.fin (p j) - Fl.fin (q j)).abs)
      (Equiv.sum_comp σ fun j => Fl.fin (p j) + Fl.fin (q j))
  · exact Equiv.sum_comp σ fun j =>
      (Fl.fin (p j) * (Fl.fin (2 * p j + eps) / Fl.fin (p j + q j + eps)).log
        + Fl.fin (q j) * (Fl.fin (2 * q j + eps) / Fl.fin (p j + q j + eps)).log)
  · exact congrArg (· / Fl.fin 2) (Equiv.sum_comp σ fun j =>
      (Fl.fin (p j) * (Fl.fin (p j + eps)).log + Fl.fin (q j) * (Fl.fin (q j + eps)).log
        - Fl.fin (p j + q j) * (Fl.fin ((p j + q j + eps) / 2)).log))
  · exact congrArg (Fl.fin 2 * ·) (Equiv.sum_comp σ fun j =>
      (Fl.fin (p j) - Fl.fin (q j)).sq / Fl.fin (q j + p j + eps))

end Verif.Props
