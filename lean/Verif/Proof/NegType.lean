import Verif.Spec.NegType
import Mathlib.Probability.Distributions.Gaussian.Multivariate
import Mathlib.MeasureTheory.Integral.IntervalIntegral.Basic

/-!
# The Manhattan and Euclidean distances are of negative type
-/

namespace Verif.Proof

open Verif.Spec MeasureTheory ProbabilityTheory

/-- `|a - b|` as an integral of squared differences of indicators. -/
theorem abs_sub_eq_integral (a b : ℝ) :
    |a - b| = ∫ t, ((Set.Ioi t).indicator (fun _ => (1:ℝ)) a - (Set.Ioi t).indicator (fun _ => (1:ℝ)) b) ^ 2 := by
  have key : ∀ a b : ℝ, a ≤ b → |a - b| = ∫ t, ((Set.Ioi t).indicator (fun _ => (1:ℝ)) a - (Set.Ioi t).indicator (fun _ => (1:ℝ)) b) ^ 2 := by
    intro a b hab
    have : (fun t => ((Set.Ioi t).indicator (fun _ => (1:ℝ)) a - (Set.Ioi t).indicator (fun _ => (1:ℝ)) b) ^ 2)
        = (Set.Ico a b).indicator fun _ => (1:ℝ) := by
      funext t
      simp only [Set.indicator_apply, Set.mem_Ioi, Set.mem_Ico]
      by_cases h1 : t < a
      · have h2 : t < b := h1.trans_le hab
        rw [if_pos h1, if_pos h2, if_neg (fun h => absurd h.1 (not_le.2 h1))]
        norm_num
      · by_cases h2 : t < b
        · rw [if_neg h1, if_pos h2, if_pos ⟨not_lt.1 h1, h2⟩]
          norm_num
        · rw [if_neg h1, if_neg h2, if_neg (fun h => h2 h.2)]
          norm_num
    rw [this, integral_indicator_const _ measurableSet_Ico, Real.volume_real_Ico_of_le hab, smul_eq_mul, mul_one,
      abs_sub_comm, abs_of_nonneg (by linarith)]
  rcases le_total a b with h | h
  · exact key a b h
  · rw [abs_sub_comm, key b a h]
    congr 1
    funext t
    ring

theorem integrable_sq (a b : ℝ) : Integrable fun t =>
    ((Set.Ioi t).indicator (fun _ => (1:ℝ)) a - (Set.Ioi t).indicator (fun _ => (1:ℝ)) b) ^ 2 := by
  by_contra h
  have h0 := integral_undef h
  rw [← abs_sub_eq_integral, abs_eq_zero, sub_eq_zero] at h0
  subst h0
  simp at h

/-- The absolute difference is of negative type. -/
theorem negType_abs : NegType fun a b : ℝ => |a - b| := by
  intro ι _ c x hc
  simp only [abs_sub_eq_integral]
  have : ∑ i, ∑ j, c i * c j * ∫ t, ((Set.Ioi t).indicator (fun _ => (1:ℝ)) (x i) - (Set.Ioi t).indicator (fun _ => (1:ℝ)) (x j)) ^ 2
      = ∫ t, ∑ i, ∑ j, c i * c j * ((Set.Ioi t).indicator (fun _ => (1:ℝ)) (x i) - (Set.Ioi t).indicator (fun _ => (1:ℝ)) (x j)) ^ 2 := by
    rw [integral_finsetSum _ fun i _ => integrable_finsetSum _ fun j _ => (integrable_sq _ _).const_mul _]
    refine Finset.sum_congr rfl fun i _ => ?_
    rw [integral_finsetSum _ fun j _ => (integrable_sq _ _).const_mul _]
    exact Finset.sum_congr rfl fun j _ => (integral_const_mul _ _).symm
  rw [this]
  refine integral_nonpos fun t => ?_
  show ∑ i, ∑ j, c i * c j * _ ≤ 0
  set u : ι → ℝ := fun i => (Set.Ioi t).indicator (fun _ => (1:ℝ)) (x i) with hu
  have e : ∑ i, ∑ j, c i * c j * (u i - u j) ^ 2
      = 2 * ((∑ i, c i) * ∑ i, c i * u i ^ 2) - 2 * (∑ i, c i * u i) ^ 2 := by
    have e1 : ∑ i, ∑ j, c i * c j * (u i - u j) ^ 2
        = (∑ i, ∑ j, c i * (c j * u j ^ 2)) + (∑ i, ∑ j, (c i * u i ^ 2) * c j) - 2 * ∑ i, ∑ j, (c i * u i) * (c j * u j) := by
      simp only [Finset.mul_sum, ← Finset.sum_add_distrib, ← Finset.sum_sub_distrib]
      exact Finset.sum_congr rfl fun i _ => Finset.sum_congr rfl fun j _ => by ring
    rw [e1, ← Finset.sum_mul_sum, ← Finset.sum_mul_sum, ← Finset.sum_mul_sum]
    ring
  rw [e, hc]
  nlinarith [sq_nonneg (∑ i, c i * u i)]

/-- The Manhattan distance is of negative type, in every dimension. -/
theorem negType_manhattan (f : ℕ) : NegType (manhattan (f := f)) := by
  intro ι _ c x hc
  have : ∑ i, ∑ j, c i * c j * manhattan (x i) (x j) = ∑ k : Fin f, ∑ i, ∑ j, c i * c j * |x i k - x j k| := by
    rw [Finset.sum_comm (s := (Finset.univ : Finset (Fin f)))]
    refine Finset.sum_congr rfl fun i _ => ?_
    rw [Finset.sum_comm (s := (Finset.univ : Finset (Fin f)))]
    refine Finset.sum_congr rfl fun j _ => ?_
    unfold manhattan
    rw [Finset.mul_sum]
  rw [this]
  exact Finset.sum_nonpos fun k _ => negType_abs ι c (fun i => x i k) hc

/-- The mean absolute value of a standard normal variable. -/
noncomputable def kappa : ℝ := ∫ t, |t| ∂(gaussianReal 0 1)

theorem integrable_abs_gauss : Integrable (fun t : ℝ => |t|) (gaussianReal 0 1) :=
  (IsGaussian.integrable_id (μ := gaussianReal 0 1)).abs

theorem kappa_pos : 0 < kappa := by
  refine lt_of_le_of_ne (integral_nonneg fun t => abs_nonneg t) fun h => ?_
  have h0 := (integral_eq_zero_iff_of_nonneg (fun t : ℝ => abs_nonneg t) integrable_abs_gauss).1 h.symm
  have h1 : ∀ᵐ t ∂(gaussianReal 0 1), t = 0 := h0.mono fun t ht => abs_eq_zero.1 ht
  have := nullSingletonClass_gaussianReal (μ := 0) (v := 1) one_ne_zero
  have h2 : ∀ᵐ t ∂(gaussianReal 0 1), t ≠ 0 := by
    rw [ae_iff]
    simp only [not_not]
    exact measure_singleton (0 : ℝ)
  have h3 : ∀ᵐ _ ∂(gaussianReal 0 1), False := by
    filter_upwards [h1, h2] with t a b using b a
  rw [Filter.eventually_false_iff_eq_bot, ae_eq_bot] at h3
  exact IsProbabilityMeasure.ne_zero (gaussianReal 0 1) h3

theorem integral_abs_inner {f : ℕ} (v : EuclideanSpace ℝ (Fin f)) :
    ∫ g, |inner ℝ v g| ∂(stdGaussian (EuclideanSpace ℝ (Fin f))) = ‖v‖ * kappa := by
  set L : StrongDual ℝ (EuclideanSpace ℝ (Fin f)) := innerSL ℝ v with hL
  have hmap := IsGaussian.map_eq_gaussianReal (μ := stdGaussian (EuclideanSpace ℝ (Fin f))) L
  rw [integral_strongDual_stdGaussian, variance_dual_stdGaussian] at hmap
  have hnorm : ‖L‖ = ‖v‖ := innerSL_apply_norm ℝ v
  have h1 : ∫ g, |inner ℝ v g| ∂(stdGaussian (EuclideanSpace ℝ (Fin f))) = ∫ t, |t| ∂(gaussianReal 0 (‖L‖ ^ 2).toNNReal) := by
    rw [← hmap, integral_map (by fun_prop) (by fun_prop)]
    rfl
  have h2 : gaussianReal 0 (‖L‖ ^ 2).toNNReal = (gaussianReal 0 1).map (‖L‖ * ·) := by
    rw [gaussianReal_map_const_mul, mul_zero, mul_one]
    congr 1
    ext
    simp
  rw [h1, h2, integral_map (by fun_prop) (by fun_prop)]
  simp only [abs_mul, abs_norm, hnorm]
  rw [integral_const_mul]
  rfl

theorem integrable_abs_inner {f : ℕ} (v : EuclideanSpace ℝ (Fin f)) :
    Integrable (fun g => |inner ℝ v g|) (stdGaussian (EuclideanSpace ℝ (Fin f))) :=
  ((innerSL ℝ v).integrable_comp IsGaussian.integrable_id).abs

theorem euclidean_eq {f : ℕ} (x y : Fin f → ℝ) :
    euclidean x y = ‖(WithLp.toLp 2 x - WithLp.toLp 2 y : EuclideanSpace ℝ (Fin f))‖ := by
  rw [EuclideanSpace.norm_eq]
  unfold euclidean
  simp

/-- The Euclidean distance is of negative type, in every dimension. -/
theorem negType_euclidean (f : ℕ) : NegType (euclidean (f := f)) := by
  intro ι _ c x hc
  have h : kappa * ∑ i, ∑ j, c i * c j * euclidean (x i) (x j) ≤ 0 := by
    have e : kappa * ∑ i, ∑ j, c i * c j * euclidean (x i) (x j)
        = ∫ g, ∑ i, ∑ j, c i * c j * |inner ℝ (WithLp.toLp 2 (x i) - WithLp.toLp 2 (x j) : EuclideanSpace ℝ (Fin f)) g|
            ∂(stdGaussian (EuclideanSpace ℝ (Fin f))) := by
      rw [integral_finsetSum _ fun i _ => integrable_finsetSum _ fun j _ => (integrable_abs_inner _).const_mul _,
        Finset.mul_sum]
      refine Finset.sum_congr rfl fun i _ => ?_
      rw [integral_finsetSum _ fun j _ => (integrable_abs_inner _).const_mul _, Finset.mul_sum]
      refine Finset.sum_congr rfl fun j _ => ?_
      rw [integral_const_mul, integral_abs_inner, euclidean_eq]
      ring
    rw [e]
    refine integral_nonpos fun g => ?_
    have := negType_abs ι c (fun i => inner ℝ (WithLp.toLp 2 (x i) : EuclideanSpace ℝ (Fin f)) g) hc
    show ∑ i, ∑ j, c i * c j * |inner ℝ (WithLp.toLp 2 (x i) - WithLp.toLp 2 (x j) : EuclideanSpace ℝ (Fin f)) g| ≤ 0
    simpa only [inner_sub_left] using this
  by_contra hcon
  push Not at hcon
  exact absurd (mul_pos kappa_pos hcon) (not_lt.2 h)

end Verif.Proof
