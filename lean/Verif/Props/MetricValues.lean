import Verif.Spec.Divergences
import Verif.Props.MetricsMulti
import Verif.Model.MetricsOrdinal

/-!
# C110: the metrics compute what their names say
-/

namespace Verif.Props

open Verif.Model Verif.Spec

variable {n : ℕ}

/-- **C110**: on prevalence vectors, l1, mean_absolute_error and bray_curtis are the total variation distance times 2, 2/n and 1; l2 and mean_squared_error are the Euclidean distance and its square over n; hd
is given by the Bhattacharyya coefficient. -/
theorem C110_distances (p q : Fin n → ℝ) (hp : IsPrev p) (hq : IsPrev q) :
    l1 p q = Fl.fin (2 * totalVariation p q) ∧ meanAbsoluteError p q = Fl.fin (2 * totalVariation p q / n) ∧ brayCurtis p q = Fl.fin (totalVariation p q)
    ∧ l2 p q = Fl.fin (dist (WithLp.toLp 2 p : EuclideanSpace ℝ (Fin n)) (WithLp.toLp 2 q)) ∧ meanSquaredError p q = Fl.fin (dist (WithLp.toLp 2 p : EuclideanSpace ℝ (Fin n)) (WithLp.toLp 2 q) ^ 2 / n)
    ∧ hd p q = Fl.fin (Real.sqrt (2 * (1 - bhattacharyya p q))) := by
  have e : 2 * totalVariation p q = ∑ j, |p j - q j| := by unfold totalVariation; ring
  have ed : dist (WithLp.toLp 2 p : EuclideanSpace ℝ (Fin n)) (WithLp.toLp 2 q) = Real.sqrt (∑ j, (p j - q j) ^ 2) := by
    simp only [EuclideanSpace.dist_eq, Real.dist_eq, sq_abs]
  refine ⟨by rw [l1_eq, e], by rw [mae_eq (IsPrev.ne_zero hp), e], ?_, by rw [l2_eq, ed], ?_, ?_⟩
  · obtain ⟨d, h1, h2, -⟩ := C17_bray_curtis p q hp hq
    rw [l1_eq, Fl.fin_inj] at h1
    rw [h2, ← h1]
    rfl
  · rw [mse_eq (IsPrev.ne_zero hp), ed, Real.sq_sqrt (Finset.sum_nonneg fun _ _ => sq_nonneg _)]
  · rw [hd_eq p q hp.1 hq.1]
    congr 2
    unfold bhattacharyya
    have : ∀ j, (Real.sqrt (p j) - Real.sqrt (q j)) ^ 2 = p j + q j - 2 * Real.sqrt (p j * q j) := fun j => by
      rw [Real.sqrt_mul (hp.1 j), sub_sq, Real.sq_sqrt (hp.1 j), Real.sq_sqrt (hq.1 j)]
      ring
    simp only [this]
    rw [Finset.sum_sub_distrib, Finset.sum_add_distrib, hp.2, hq.2, ← Finset.mul_sum]
    ring

theorem smoothed_log_term (eps a b : ℝ) (he : 0 < eps) (ha : 0 ≤ a) (hb : 0 ≤ b) :
    |a * Real.log ((2 * a + eps) / (a + b + eps)) - (if a = 0 then 0 else a * Real.log (a / ((a + b) / 2)))| ≤ eps := by
  by_cases h : a = 0
  · subst h; simp [he.le]
  · have ha' : 0 < a := lt_of_le_of_ne ha (Ne.symm h)
    rw [if_neg h]
    have e1 : Real.log ((2 * a + eps) / (a + b + eps)) - Real.log (a / ((a + b) / 2)) = Real.log ((2 * a + eps) / (2 * a)) - Real.log ((a + b + eps) / (a + b)) := by
      have l1 := Real.log_div (x := 2 * a + eps) (y := a + b + eps) (by positivity) (by positivity)
      have l2 := Real.log_div (x := a) (y := (a + b) / 2) h (by positivity)
      have l3 := Real.log_div (x := 2 * a + eps) (y := 2 * a) (by positivity) (by positivity)
      have l4 := Real.log_div (x := a + b + eps) (y := a + b) (by positivity) (by positivity)
      have l5 := Real.log_div (x := a + b) (y := 2) (by positivity) two_ne_zero
      have l6 := Real.log_mul (x := 2) (y := a) two_ne_zero h
      rw [l1, l2, l3, l4, l5, l6]
      ring
    rw [← mul_sub, e1]
    have u1 : 0 ≤ Real.log ((2 * a + eps) / (2 * a)) := Real.log_nonneg (by rw [le_div_iff₀ (by positivity)]; linarith)
    have u2 : 0 ≤ Real.log ((a + b + eps) / (a + b)) := Real.log_nonneg (by rw [le_div_iff₀ (by positivity)]; linarith)
    have v1 : a * Real.log ((2 * a + eps) / (2 * a)) ≤ eps := by
      have := Real.log_le_sub_one_of_pos (show 0 < (2 * a + eps) / (2 * a) by positivity)
      calc a * Real.log ((2 * a + eps) / (2 * a)) ≤ a * ((2 * a + eps) / (2 * a) - 1) := mul_le_mul_of_nonneg_left this ha
        _ = eps / 2 := by field_simp; ring
        _ ≤ eps := by linarith
    have v2 : a * Real.log ((a + b + eps) / (a + b)) ≤ eps := by
      have := Real.log_le_sub_one_of_pos (show 0 < (a + b + eps) / (a + b) by positivity)
      calc a * Real.log ((a + b + eps) / (a + b)) ≤ a * ((a + b + eps) / (a + b) - 1) := mul_le_mul_of_nonneg_left this ha
        _ = eps * (a / (a + b)) := by field_simp; ring
        _ ≤ eps * 1 := mul_le_mul_of_nonneg_left (by rw [div_le_one (by positivity)]; linarith) he.le
        _ = eps := mul_one _
    have w1 := mul_nonneg ha u1
    have w2 := mul_nonneg ha u2
    rw [mul_sub, abs_le]
    constructor <;> linarith

/-- **C110**: topsoe is the sum of the Kullback-Leibler divergences to the mixture of the two vectors, up to the effect of the smoothing constant. -/
theorem C110_topsoe (eps : ℝ) (he : 0 < eps) (p q : Fin n → ℝ) (hp : IsPrev p) (hq : IsPrev q) :
    ∃ t, topsoe eps p q = Fl.fin t ∧ |t - (klDivergence p (halfMixture p q) + klDivergence q (halfMixture p q))| ≤ 2 * n * eps := by
  refine ⟨_, topsoe_eq eps he p q hp.1 hq.1, ?_⟩
  unfold topsoeR klDivergence halfMixture
  rw [← Finset.sum_add_distrib, ← Finset.sum_sub_distrib]
  refine (Finset.abs_sum_le_sum_abs _ _).trans ((Finset.sum_le_sum fun j _ => ?_).trans (le_of_eq (?_ : ∑ _j : Fin n, 2 * eps = _)))
  · have h1 := smoothed_log_term eps _ _ he (hp.1 j) (hq.1 j)
    have h2 := smoothed_log_term eps _ _ he (hq.1 j) (hp.1 j)
    rw [add_comm (q j) (p j)] at h2
    rw [abs_le] at h1 h2 ⊢
    constructor <;> linarith [h1.1, h1.2, h2.1, h2.2]
  · simp only [Finset.sum_const, Finset.card_univ, Fintype.card_fin, nsmul_eq_mul]; ring

/-- **C110**: jensenshannon is the Jensen-Shannon divergence, up to the effect of the smoothing constant. -/
theorem C110_jensenshannon (eps : ℝ) (he : 0 < eps) (p q : Fin n → ℝ) (hp : IsPrev p) (hq : IsPrev q) :
    ∃ t, jensenshannon eps p q = Fl.fin t ∧ |t - (klDivergence p (halfMixture p q) + klDivergence q (halfMixture p q)) / 2| ≤ 3 / 2 * n * eps := by
  obtain ⟨j, t, hj, ht, -, h1, h2, -, -⟩ := C18_jensenshannon eps he p q hp hq
  obtain ⟨t', ht', h⟩ := C110_topsoe eps he p q hp hq
  rw [ht, Fl.fin_inj] at ht'
  subst ht'
  refine ⟨j, hj, ?_⟩
  have : 0 ≤ (n : ℝ) * eps := by positivity
  rw [abs_le] at h ⊢
  constructor <;> linarith [h.1, h.2]

/-- **C110**: probsymmetric is the symmetric chi-square divergence, up to the effect of the smoothing constant. -/
theorem C110_probsymmetric (eps : ℝ) (he : 0 < eps) (p q : Fin n → ℝ) (hp : IsPrev p) (hq : IsPrev q) :
    ∃ t, probsymmetric eps p q = Fl.fin t ∧ t ≤ chiSquareSym p q ∧ chiSquareSym p q ≤ t + 2 * n * eps := by
  refine ⟨_, ps_eq eps he p q hp.1 hq.1, ?_⟩
  have key : ∀ j, (p j - q j) ^ 2 / (p j + q j + eps) ≤ (if p j + q j = 0 then 0 else (p j - q j) ^ 2 / (p j + q j))
      ∧ (if p j + q j = 0 then 0 else (p j - q j) ^ 2 / (p j + q j)) ≤ (p j - q j) ^ 2 / (p j + q j + eps) + eps := fun j => by
    have h0 := hp.1 j
    have h1 := hq.1 j
    split_ifs with h
    · have e0 : p j = 0 := by linarith
      have e1 : q j = 0 := by linarith
      simp [e0, e1, he.le]
    · have hs : 0 < p j + q j := lt_of_le_of_ne (by linarith) (Ne.symm h)
      constructor
      · exact div_le_div_of_nonneg_left (sq_nonneg _) hs (by linarith)
      · rw [div_le_iff₀ hs, add_mul, div_mul_eq_mul_div, ← sub_le_iff_le_add, le_div_iff₀ (by linarith)]
        nlinarith [mul_nonneg h0 h1, mul_nonneg he.le hs.le, mul_nonneg he.le h0, mul_nonneg he.le h1, mul_nonneg he.le (mul_nonneg h0 h1), mul_nonneg (mul_nonneg he.le he.le) hs.le]
  unfold chiSquareSym
  constructor
  · exact mul_le_mul_of_nonneg_left (Finset.sum_le_sum fun j _ => (key j).1) two_pos.le
  · have := Finset.sum_le_sum fun j (_ : j ∈ Finset.univ) => (key j).2
    rw [Finset.sum_add_distrib] at this
    simp only [Finset.sum_const, Finset.card_univ, Fintype.card_fin, nsmul_eq_mul] at this
    linarith

/-- **C110**: for positive prevalences kld is the Kullback-Leibler divergence in bits, less at most `eps` times the sum of the ratios `p/q` (in bits). -/
theorem C110_kld (eps : ℝ) (he : 0 < eps) (p q : Fin n → ℝ) (hp : ∀ i, 0 < p i) (hq : ∀ i, 0 < q i) :
    ∃ t, kld eps p q = Fl.fin t ∧ t ≤ klDivergence p q / Real.log 2 ∧ klDivergence p q / Real.log 2 ≤ t + eps * (∑ j, p j / q j) / Real.log 2 := by
  have hl : 0 < Real.log 2 := Real.log_pos one_lt_two
  refine ⟨_, kld_eq eps he p q hp fun i => (hq i).le, ?_⟩
  have key : ∀ j, p j * Real.log (p j / (q j + eps)) ≤ (if p j = 0 then 0 else p j * Real.log (p j / q j))
      ∧ (if p j = 0 then 0 else p j * Real.log (p j / q j)) ≤ p j * Real.log (p j / (q j + eps)) + eps * (p j / q j) := fun j => by
    have h0 := hp j
    have h1 := hq j
    rw [if_neg h0.ne']
    have e : Real.log (p j / q j) - Real.log (p j / (q j + eps)) = Real.log ((q j + eps) / q j) := by
      rw [Real.log_div h0.ne' h1.ne', Real.log_div h0.ne' (by linarith), Real.log_div (by linarith) h1.ne']
      ring
    have u : 0 ≤ Real.log ((q j + eps) / q j) := Real.log_nonneg (by rw [le_div_iff₀ h1]; linarith)
    have v : Real.log ((q j + eps) / q j) ≤ eps / q j := by
      have := Real.log_le_sub_one_of_pos (show 0 < (q j + eps) / q j by positivity)
      calc _ ≤ (q j + eps) / q j - 1 := this
        _ = eps / q j := by field_simp; ring
    have w : p j * Real.log (p j / q j) = p j * Real.log (p j / (q j + eps)) + p j * Real.log ((q j + eps) / q j) := by rw [← e]; ring
    constructor
    · rw [w]; linarith [mul_nonneg h0.le u]
    · rw [w]
      have := mul_le_mul_of_nonneg_left v h0.le
      calc _ ≤ p j * Real.log (p j / (q j + eps)) + p j * (eps / q j) := by linarith
        _ = _ := by ring
  unfold klDivergence
  constructor
  · exact div_le_div_of_nonneg_right (Finset.sum_le_sum fun j _ => (key j).1) hl.le
  · rw [← add_div]
    refine div_le_div_of_nonneg_right ((Finset.sum_le_sum fun j _ => (key j).2).trans (le_of_eq ?_)) hl.le
    rw [Finset.sum_add_distrib, Finset.mul_sum]

/-- **C110**: the binary metrics. -/
theorem C110_binary (p q eps : ℝ) (hp : p ∈ Set.Icc (0:ℝ) 1) (hq : q ∈ Set.Icc (0:ℝ) 1) (he : 0 < eps) :
    bias p q = Fl.fin (q - p) ∧ absoluteError p q = Fl.fin |q - p| ∧ squaredError p q = Fl.fin ((q - p) ^ 2)
    ∧ relativeAbsoluteError p q eps = Fl.fin (|q - p| / if p = 0 then eps else p)
    ∧ sape p q = Fl.fin (if p = 0 ∧ q = 0 then 0 else |q - p| / (p + q))
    ∧ normalizedAbsoluteScore p q = Fl.fin (1 - |q - p| / max p (1 - p))
    ∧ normalizedSquaredScore p q = Fl.fin (1 - (|q - p| / max p (1 - p)) ^ 2) := by
  have hm : max p (1 - p) ≠ 0 := by
    have := le_max_left p (1 - p)
    have := le_max_right p (1 - p)
    intro h
    linarith
  refine ⟨by simp [bias], by simp [absoluteError], by simp [squaredError], ?_, ?_, ?_, ?_⟩
  · unfold relativeAbsoluteError
    by_cases h : p = 0
    · simp only [h, if_true, Fl.fin_sub, Fl.abs_fin, Fl.fin_add, zero_add]
      rw [Fl.fin_div _ he.ne']
    · simp only [if_neg h, Fl.fin_sub, Fl.abs_fin]
      rw [Fl.fin_div _ h]
  · unfold sape
    by_cases h : q + p = 0
    · rw [if_pos h, if_pos ⟨by linarith [hp.1, hq.1], by linarith [hp.1, hq.1]⟩]
    · rw [if_neg h, if_neg (by rintro ⟨rfl, rfl⟩; simp at h)]
      simp only [Fl.fin_sub, Fl.abs_fin, Fl.fin_add]
      rw [Fl.fin_div _ h, add_comm]
  · simp only [normalizedAbsoluteScore, Fl.fin_sub, Fl.abs_fin, Fl.fin_div _ hm]
  · simp only [normalizedSquaredScore, Fl.fin_sub, Fl.abs_fin, Fl.fin_div _ hm, Fl.sq_fin]

/-- **C110**: on two-class vectors mean_absolute_error, mean_squared_error and bray_curtis agree with the binary absolute and squared error of the positive class; emd is the absolute error. -/
theorem C110_two_classes (p q : ℝ) (hp : p ∈ Set.Icc (0:ℝ) 1) (hq : q ∈ Set.Icc (0:ℝ) 1) :
    meanAbsoluteError ![1 - p, p] ![1 - q, q] = absoluteError p q ∧ meanSquaredError ![1 - p, p] ![1 - q, q] = squaredError p q
    ∧ brayCurtis ![1 - p, p] ![1 - q, q] = absoluteError p q ∧ Fl.fin (emd ![1 - p, p] ![1 - q, q]) = absoluteError p q := by
  have hP : ∀ r : ℝ, r ∈ Set.Icc (0:ℝ) 1 → IsPrev ![1 - r, r] := fun r hr => ⟨fun i => by fin_cases i <;> simp [hr.1, hr.2], by simp⟩
  have e0 : |1 - p - (1 - q)| = |q - p| := by congr 1; ring
  have e1 : |p - q| = |q - p| := abs_sub_comm _ _
  refine ⟨?_, ?_, ?_, ?_⟩
  · rw [mae_eq two_ne_zero]
    simp [Fin.sum_univ_two, absoluteError, e0, e1]
  · rw [mse_eq two_ne_zero]
    simp only [Fin.sum_univ_two, Matrix.cons_val_zero, Matrix.cons_val_one, squaredError, Fl.fin_sub, Fl.sq_fin]
    congr 1
    push_cast
    ring
  · rw [(C110_distances _ _ (hP p hp) (hP q hq)).2.2.1]
    simp [totalVariation, Fin.sum_univ_two, absoluteError, e0, e1]
  · simp only [emd, cumsum, Fin.sum_univ_two, absoluteError, Fl.fin_sub, Fl.abs_fin]
    simp [e0]

/-! ## Non-vacuity -/

example : IsPrev ![(1:ℝ)/2, 1/2, 0] ∧ IsPrev ![(1:ℝ)/4, 0, 3/4] ∧ totalVariation ![(1:ℝ)/2, 1/2, 0] ![(1:ℝ)/4, 0, 3/4] = 3/4 := by
  refine ⟨⟨fun i => ?_, ?_⟩, ⟨fun i => ?_, ?_⟩, ?_⟩
  · fin_cases i <;> norm_num
  · simp [Fin.sum_univ_three]; norm_num
  · fin_cases i <;> norm_num
  · simp [Fin.sum_univ_three]; norm_num
  · simp [totalVariation, Fin.sum_univ_three]; norm_num [abs_of_pos]

end Verif.Props
