import Verif.Spec.Average
import Verif.Props.MetricsMulti
import Verif.Props.MetricsOrdinal
import Verif.Props.Eoq2
import Mathlib.Analysis.Convex.Deriv
import Mathlib.Analysis.Convex.Jensen
import Mathlib.Analysis.Convex.SpecificFunctions.Pow
import Mathlib.Analysis.SpecialFunctions.Log.Deriv

/-!
# C142: the error of an average of predictions
-/

namespace Verif.Props

open Verif.Model Verif.Spec Verif.Proof

variable {n : ℕ}

/-! ## From convexity to averages -/

theorem average_le {V : Type*} [AddCommGroup V] [Module ℝ V] {S : Set V} {E : V → ℝ} (h : ConvexOn ℝ S E) (qs : List V) (hne : qs ≠ []) (hS : ∀ q ∈ qs, q ∈ S) (avg : V)
    (ha : avg = ∑ i : Fin qs.length, (1 / (qs.length : ℝ)) • qs[i]) : avg ∈ S ∧ E avg ≤ (qs.map E).sum / (qs.map E).length := by
  have hl : (0 : ℝ) < qs.length := by exact_mod_cast List.length_pos_iff.2 hne
  have h0 : ∀ i ∈ (Finset.univ : Finset (Fin qs.length)), (0 : ℝ) ≤ 1 / (qs.length : ℝ) := fun _ _ => by positivity
  have h1 : ∑ _i : Fin qs.length, (1 / (qs.length : ℝ)) = 1 := by
    rw [Finset.sum_const, Finset.card_univ, Fintype.card_fin, nsmul_eq_mul, mul_one_div_cancel hl.ne']
  have hm : ∀ i ∈ (Finset.univ : Finset (Fin qs.length)), qs[i] ∈ S := fun i _ => hS _ (List.getElem_mem _)
  subst ha
  refine ⟨h.1.sum_mem h0 h1 hm, (h.map_sum_le h0 h1 hm).trans_eq ?_⟩
  rw [List.length_map, ← Finset.smul_sum, smul_eq_mul, one_div, inv_mul_eq_div]
  congr 1
  conv_rhs => rw [← List.ofFn_getElem (xs := qs), List.map_ofFn, List.sum_ofFn]
  rfl

theorem averageOf_eq (qs : List (Fin n → ℝ)) : averageOf qs = ∑ i : Fin qs.length, (1 / (qs.length : ℝ)) • qs[i] := by
  funext j
  rw [← Finset.smul_sum, Pi.smul_apply, Finset.sum_apply, smul_eq_mul, one_div, inv_mul_eq_div, averageOf, meanOf]
  congr 1
  conv_lhs => rw [← List.ofFn_getElem (xs := qs), List.map_ofFn, List.sum_ofFn]
  rfl

theorem meanOf_id_eq (qs : List ℝ) : meanOf qs id = ∑ i : Fin qs.length, (1 / (qs.length : ℝ)) • qs[i] := by
  rw [← Finset.smul_sum, smul_eq_mul, one_div, inv_mul_eq_div, meanOf]
  congr 1
  conv_lhs => rw [← List.ofFn_getElem (xs := qs), List.map_ofFn, List.sum_ofFn]
  rfl

theorem average_isPrev (qs : List (Fin n → ℝ)) (hne : qs ≠ []) (h : ∀ q ∈ qs, IsPrev q) : IsPrev (averageOf qs) := by
  have hc : ConvexOn ℝ {q : Fin n → ℝ | IsPrev q} fun _ => (0 : ℝ) := by
    refine ⟨?_, fun _ _ _ _ a b _ _ _ => by simp⟩
    intro x hx y hy a b ha hb hab
    refine ⟨fun i => add_nonneg (mul_nonneg ha (hx.1 i)) (mul_nonneg hb (hy.1 i)), ?_⟩
    simp only [Pi.add_apply, Pi.smul_apply, smul_eq_mul, Finset.sum_add_distrib, ← Finset.mul_sum, hx.2, hy.2, mul_one, hab]
  exact (average_le hc qs hne h _ (averageOf_eq qs)).1

theorem convex_prev : Convex ℝ {q : Fin n → ℝ | IsPrev q} := by
  intro x hx y hy a b ha hb hab
  refine ⟨fun i => add_nonneg (mul_nonneg ha (hx.1 i)) (mul_nonneg hb (hy.1 i)), ?_⟩
  simp only [Pi.add_apply, Pi.smul_apply, smul_eq_mul, Finset.sum_add_distrib, ← Finset.mul_sum, hx.2, hy.2, mul_one, hab]

theorem helps_of_convex {err : (Fin n → ℝ) → Fl} (E : (Fin n → ℝ) → ℝ) (he : ∀ q, IsPrev q → err q = .fin (E q)) (h : ConvexOn ℝ {q : Fin n → ℝ | IsPrev q} E) : AverageHelps err := by
  intro qs hne hq
  refine ⟨E (averageOf qs), qs.map E, he _ (average_isPrev qs hne hq), ?_, (average_le h qs hne hq _ (averageOf_eq qs)).2⟩
  rw [List.map_map]
  exact List.map_congr_left fun q h => he q (hq q h)

theorem helps_of_concave {err : (Fin n → ℝ) → Fl} (E : (Fin n → ℝ) → ℝ) (he : ∀ q, IsPrev q → err q = .fin (E q)) (h : ConvexOn ℝ {q : Fin n → ℝ | IsPrev q} (fun q => - E q)) : AverageHelpsScore err := by
  intro qs hne hq
  refine ⟨E (averageOf qs), qs.map E, he _ (average_isPrev qs hne hq), ?_, ?_⟩
  · rw [List.map_map]
    exact List.map_congr_left fun q h => he q (hq q h)
  · have := (average_le h qs hne hq _ (averageOf_eq qs)).2
    rw [show (qs.map fun q => - E q) = (qs.map E).map (fun x => -x) from by rw [List.map_map]; rfl, List.length_map, ← List.sum_neg, neg_div] at this
    linarith

theorem helps1_of_convex {err : ℝ → Fl} (E : ℝ → ℝ) (he : ∀ q, err q = .fin (E q)) (h : ConvexOn ℝ Set.univ E) : AverageHelps1 err := by
  intro qs hne _
  refine ⟨E (meanOf qs id), qs.map E, he _, ?_, (average_le h qs hne (fun _ _ => trivial) _ (meanOf_id_eq qs)).2⟩
  rw [List.map_map]
  exact List.map_congr_left fun q _ => he q

theorem helps1_of_concave {err : ℝ → Fl} (E : ℝ → ℝ) (he : ∀ q, err q = .fin (E q)) (h : ConvexOn ℝ Set.univ (fun q => - E q)) : AverageHelpsScore1 err := by
  intro qs hne _
  refine ⟨E (meanOf qs id), qs.map E, he _, ?_, ?_⟩
  · rw [List.map_map]
    exact List.map_congr_left fun q _ => he q
  · have := (average_le h qs hne (fun _ _ => trivial) _ (meanOf_id_eq qs)).2
    rw [show (qs.map fun q => - E q) = (qs.map E).map (fun x => -x) from by rw [List.map_map]; rfl, List.length_map, ← List.sum_neg, neg_div] at this
    linarith

/-- A sum of convex functions of the entries. -/
theorem convex_sum (f : Fin n → ℝ → ℝ) (h : ∀ j, ConvexOn ℝ (Set.Ici 0) (f j)) : ConvexOn ℝ {q : Fin n → ℝ | IsPrev q} fun q => ∑ j, f j (q j) := by
  refine ⟨convex_prev, fun x hx y hy a b ha hb hab => ?_⟩
  simp only [smul_eq_mul, Finset.mul_sum, ← Finset.sum_add_distrib]
  exact Finset.sum_le_sum fun j _ => (h j).2 (hx.1 j) (hy.1 j) ha hb hab

theorem convexOn_mul {S : Set (Fin n → ℝ)} {E : (Fin n → ℝ) → ℝ} (c : ℝ) (hc : 0 ≤ c) (h : ConvexOn ℝ S E) : ConvexOn ℝ S fun q => c * E q := h.smul hc

theorem convex_abs (p : ℝ) : ConvexOn ℝ Set.univ fun q : ℝ => |p - q| := by
  refine ⟨convex_univ, fun x _ y _ a b ha hb hab => ?_⟩
  simp only [smul_eq_mul]
  rw [← abs_of_nonneg ha, ← abs_of_nonneg hb, ← abs_mul, ← abs_mul, abs_of_nonneg ha, abs_of_nonneg hb]
  refine le_trans (le_of_eq ?_) (abs_add_le _ _)
  congr 1
  linear_combination (- p) * hab

theorem convex_sq (p : ℝ) : ConvexOn ℝ Set.univ fun q : ℝ => (p - q) ^ 2 := by
  refine ⟨convex_univ, fun x _ y _ a b ha hb hab => ?_⟩
  simp only [smul_eq_mul]
  have : b = 1 - a := by linarith
  subst this
  nlinarith [mul_nonneg (mul_nonneg ha hb) (sq_nonneg (x - y))]

/-! ## The errors -/

/-- **C142** for l1. -/
theorem C142_l1 (p : Fin n → ℝ) : AverageHelps (l1 p) :=
  helps_of_convex _ (fun q _ => l1_eq p q) (convex_sum (fun j x => |p j - x|) fun j => (convex_abs (p j)).subset (Set.subset_univ _) (convex_Ici 0))

/-- **C142** for mean_absolute_error. -/
theorem C142_mae (p : Fin n → ℝ) : AverageHelps (meanAbsoluteError p) := by
  refine helps_of_convex (fun q => (n : ℝ)⁻¹ * ∑ j, |p j - q j|) (fun q hq => ?_)
    (convexOn_mul _ (by positivity) (convex_sum (fun j x => |p j - x|) fun j => (convex_abs (p j)).subset (Set.subset_univ _) (convex_Ici 0)))
  rw [mae_eq (IsPrev.ne_zero hq), div_eq_inv_mul]

/-- **C142** for mean_squared_error. -/
theorem C142_mse (p : Fin n → ℝ) : AverageHelps (meanSquaredError p) := by
  refine helps_of_convex (fun q => (n : ℝ)⁻¹ * ∑ j, (p j - q j) ^ 2) (fun q hq => ?_)
    (convexOn_mul _ (by positivity) (convex_sum (fun j x => (p j - x) ^ 2) fun j => (convex_sq (p j)).subset (Set.subset_univ _) (convex_Ici 0)))
  rw [mse_eq (IsPrev.ne_zero hq), div_eq_inv_mul]

/-- **C142** for l2. -/
theorem C142_l2 (p : Fin n → ℝ) : AverageHelps (l2 p) := by
  refine helps_of_convex _ (fun q _ => l2_eq p q) ⟨convex_prev, fun x _ y _ a b ha hb hab => ?_⟩
  have h := norm_add_le (a • (WithLp.toLp 2 (p - x) : EuclideanSpace ℝ (Fin n))) (b • WithLp.toLp 2 (p - y))
  rw [norm_smul, norm_smul, Real.norm_of_nonneg ha, Real.norm_of_nonneg hb] at h
  simp only [EuclideanSpace.norm_eq, Real.norm_eq_abs, sq_abs] at h
  simp only [smul_eq_mul]
  refine le_trans (le_of_eq ?_) h
  congr 1
  refine Finset.sum_congr rfl fun j _ => ?_
  simp only [PiLp.add_apply, PiLp.smul_apply, Pi.add_apply, Pi.smul_apply, Pi.sub_apply, smul_eq_mul]
  congr 1
  linear_combination (- p j) * hab

/-- **C142** for bray_curtis. -/
theorem C142_bray_curtis (p : Fin n → ℝ) (hp : IsPrev p) : AverageHelps (brayCurtis p) := by
  refine helps_of_convex (fun q => 2⁻¹ * ∑ j, |p j - q j|) (fun q hq => ?_)
    (convexOn_mul _ (by positivity) (convex_sum (fun j x => |p j - x|) fun j => (convex_abs (p j)).subset (Set.subset_univ _) (convex_Ici 0)))
  have hs : ∑ j, (p j + q j) = 2 := by rw [Finset.sum_add_distrib, hp.2, hq.2]; norm_num
  simp only [brayCurtis, Fl.fin_sub, Fl.abs_fin, Fl.fin_add, Fl.sum_fin, hs]
  rw [Fl.fin_div _ two_ne_zero, div_eq_inv_mul]

theorem convex_from_deriv (f f' f'' : ℝ → ℝ) (h0 : ∀ x, 0 ≤ x → HasDerivAt f (f' x) x) (h1 : ∀ x, 0 ≤ x → HasDerivAt f' (f'' x) x) (h2 : ∀ x, 0 ≤ x → 0 ≤ f'' x) : ConvexOn ℝ (Set.Ici 0) f := by
  refine convexOn_of_hasDerivWithinAt2_nonneg (convex_Ici 0) (fun x hx => (h0 x hx).continuousAt.continuousWithinAt) (f' := f') (f'' := f'') ?_ ?_ ?_
  all_goals
    intro x hx
    rw [interior_Ici] at hx
  · exact (h0 x (le_of_lt hx)).hasDerivWithinAt
  · exact (h1 x (le_of_lt hx)).hasDerivWithinAt
  · exact h2 x (le_of_lt hx)

/-- **C142** for kld, when all the true prevalences are positive. -/
theorem C142_kld (eps : ℝ) (he : 0 < eps) (p : Fin n → ℝ) (hp : ∀ i, 0 < p i) : AverageHelps (kld eps p) := by
  refine helps_of_convex (fun q => (Real.log 2)⁻¹ * ∑ j, p j * Real.log (p j / (q j + eps))) (fun q hq => ?_)
    (convexOn_mul _ (inv_nonneg.2 (Real.log_nonneg one_le_two)) (convex_sum (fun j x => p j * Real.log (p j / (x + eps))) fun j => ?_))
  · rw [kld_eq eps he p q hp hq.1, div_eq_inv_mul]
  · have hp' := hp j
    have hpos : ∀ x : ℝ, 0 ≤ x → 0 < x + eps := fun x hx => by linarith
    have hbase : ConvexOn ℝ (Set.Ici 0) fun x => p j * (Real.log (p j) - Real.log (x + eps)) := by
      refine convex_from_deriv _ (fun x => p j * (0 - 1 / (x + eps))) (fun x => p j * (0 - (0 * (x + eps) - 1 * 1) / (x + eps) ^ 2)) (fun x hx => ?_) (fun x hx => ?_) fun x hx => ?_
      · exact ((hasDerivAt_const _ _).sub (((hasDerivAt_id x).add_const eps).log (hpos x hx).ne')).const_mul _
      · exact ((hasDerivAt_const _ _).sub ((hasDerivAt_const x (1 : ℝ)).div ((hasDerivAt_id x).add_const eps) (hpos x hx).ne')).const_mul _
      · have := hpos x hx
        have e : p j * (0 - (0 * (x + eps) - 1 * 1) / (x + eps) ^ 2) = p j / (x + eps) ^ 2 := by ring
        rw [e]
        positivity
    refine hbase.congr fun x hx => ?_
    simp only
    rw [Real.log_div hp'.ne' (hpos x hx).ne']

/-- **C142** for probsymmetric. -/
theorem C142_probsymmetric (eps : ℝ) (he : 0 < eps) (p : Fin n → ℝ) (hp : ∀ i, 0 ≤ p i) : AverageHelps (probsymmetric eps p) := by
  refine helps_of_convex _ (fun q hq => ps_eq eps he p q hp hq.1) (convexOn_mul 2 two_pos.le (convex_sum (fun j x => (p j - x) ^ 2 / (p j + x + eps)) fun j => ?_))
  have hp' := hp j
  have hpos : ∀ x : ℝ, 0 ≤ x → 0 < p j + x + eps := fun x hx => by linarith
  have hd : ∀ x : ℝ, HasDerivAt (fun x => p j + x + eps) 1 x := fun x => ((hasDerivAt_id x).const_add (p j)).add_const eps
  have hbase : ConvexOn ℝ (Set.Ici 0) fun x => (2 * p j + eps) ^ 2 * (1 / (p j + x + eps)) + (x - 3 * p j - eps) := by
    refine convex_from_deriv _ (fun x => (2 * p j + eps) ^ 2 * ((0 * (p j + x + eps) - 1 * 1) / (p j + x + eps) ^ 2) + 1)
      (fun x => (2 * p j + eps) ^ 2 * ((0 * (p j + x + eps) ^ 2 - (-1) * (2 * (p j + x + eps) ^ 1 * 1)) / ((p j + x + eps) ^ 2) ^ 2)) (fun x hx => ?_) (fun x hx => ?_) fun x hx => ?_
    · exact (((hasDerivAt_const x (1 : ℝ)).div (hd x) (hpos x hx).ne').const_mul _).add (((hasDerivAt_id x).sub_const (3 * p j)).sub_const eps)
    · have := (((hasDerivAt_const x (-1 : ℝ)).div ((hd x).pow 2) (pow_pos (hpos x hx) 2).ne').const_mul ((2 * p j + eps) ^ 2)).add_const 1
      refine this.congr_of_eventuallyEq ?_ |>.congr_deriv ?_
      · exact Filter.Eventually.of_forall fun y => by simp
      · simp
    · have := hpos x hx
      have e : (0 * (p j + x + eps) ^ 2 - (-1) * (2 * (p j + x + eps) ^ 1 * 1)) = 2 * (p j + x + eps) := by ring
      rw [e]
      positivity
  refine hbase.congr fun x hx => ?_
  have := (hpos x hx).ne'
  simp only
  field_simp
  ring

/-- **C142** for jensenshannon. -/
theorem C142_jensenshannon (eps : ℝ) (he : 0 < eps) (p : Fin n → ℝ) (hp : ∀ i, 0 ≤ p i) : AverageHelps (jensenshannon eps p) := by
  refine helps_of_convex (fun q => 2⁻¹ * ∑ j, (p j * Real.log (p j + eps) + q j * Real.log (q j + eps) - (p j + q j) * Real.log ((p j + q j + eps) / 2))) (fun q hq => ?_)
    (convexOn_mul _ (by positivity) (convex_sum (fun j x => p j * Real.log (p j + eps) + x * Real.log (x + eps) - (p j + x) * Real.log ((p j + x + eps) / 2)) fun j => ?_))
  · rw [js_eq eps he p q hp hq.1, jsR, div_eq_inv_mul]
  have hp' := hp j
  have hposS : ∀ x : ℝ, 0 ≤ x → 0 < p j + x + eps := fun x hx => by linarith
  have hposx : ∀ x : ℝ, 0 ≤ x → 0 < x + eps := fun x hx => by linarith
  have hS : ∀ x : ℝ, HasDerivAt (fun x => p j + x + eps) 1 x := fun x => ((hasDerivAt_id x).const_add (p j)).add_const eps
  have hS2 : ∀ x : ℝ, HasDerivAt (fun x => (p j + x + eps) / 2) (1 / 2) x := fun x => (hS x).div_const 2
  have hx1 : ∀ x : ℝ, HasDerivAt (fun x => x + eps) 1 x := fun x => (hasDerivAt_id x).add_const eps
  refine convex_from_deriv _ (fun x => Real.log (x + eps) - eps * (1 / (x + eps)) - Real.log ((p j + x + eps) / 2) + eps * (1 / (p j + x + eps)))
    (fun x => 1 / (x + eps) + eps / (x + eps) ^ 2 - 1 / (p j + x + eps) - eps / (p j + x + eps) ^ 2) (fun x hx => ?_) (fun x hx => ?_) fun x hx => ?_
  · have h1 := (hposS x hx).ne'
    have h2 := (hposx x hx).ne'
    have := (((hasDerivAt_id x).mul ((hx1 x).log h2)).const_add (p j * Real.log (p j + eps))).sub (((hasDerivAt_id x).const_add (p j)).mul ((hS2 x).log (div_ne_zero h1 two_ne_zero)))
    refine this.congr_deriv ?_
    simp only [id]
    field_simp
    ring
  · have h1 := (hposS x hx).ne'
    have h2 := (hposx x hx).ne'
    have := ((((hx1 x).log h2).sub (((hasDerivAt_const x (1 : ℝ)).div (hx1 x) h2).const_mul eps)).sub ((hS2 x).log (div_ne_zero h1 two_ne_zero))).add
      (((hasDerivAt_const x (1 : ℝ)).div (hS x) h1).const_mul eps)
    refine this.congr_deriv ?_
    field_simp
    ring
  · have h1 := hposx x hx
    have h2 : x + eps ≤ p j + x + eps := by linarith
    have e1 : 1 / (p j + x + eps) ≤ 1 / (x + eps) := one_div_le_one_div_of_le h1 h2
    have e2 : eps / (p j + x + eps) ^ 2 ≤ eps / (x + eps) ^ 2 := div_le_div_of_nonneg_left he.le (by positivity) (by gcongr)
    linarith

/-- **C142** for topsoe. -/
theorem C142_topsoe (eps : ℝ) (he : 0 < eps) (p : Fin n → ℝ) (hp : ∀ i, 0 ≤ p i) : AverageHelps (topsoe eps p) := by
  refine helps_of_convex _ (fun q hq => topsoe_eq eps he p q hp hq.1)
    (convex_sum (fun j x => p j * Real.log ((2 * p j + eps) / (p j + x + eps)) + x * Real.log ((2 * x + eps) / (p j + x + eps))) fun j => ?_)
  have hp' := hp j
  have hposS : ∀ x : ℝ, 0 ≤ x → 0 < p j + x + eps := fun x hx => by linarith
  have hpos2 : ∀ x : ℝ, 0 ≤ x → 0 < 2 * x + eps := fun x hx => by linarith
  have hpp : 0 < 2 * p j + eps := by linarith
  have hS : ∀ x : ℝ, HasDerivAt (fun x => p j + x + eps) 1 x := fun x => ((hasDerivAt_id x).const_add (p j)).add_const eps
  have h2x : ∀ x : ℝ, HasDerivAt (fun x => 2 * x + eps) 2 x := fun x => (((hasDerivAt_id x).const_mul 2).add_const eps).congr_deriv (by simp)
  have hbase : ConvexOn ℝ (Set.Ici 0) fun x => p j * (Real.log (2 * p j + eps) - Real.log (p j + x + eps)) + x * (Real.log (2 * x + eps) - Real.log (p j + x + eps)) := by
    refine convex_from_deriv _ (fun x => eps * (1 / (p j + x + eps)) - eps * (1 / (2 * x + eps)) + Real.log (2 * x + eps) - Real.log (p j + x + eps))
      (fun x => 4 * (x + eps) / (2 * x + eps) ^ 2 - 1 / (p j + x + eps) - eps / (p j + x + eps) ^ 2) (fun x hx => ?_) (fun x hx => ?_) fun x hx => ?_
    · have h1 := (hposS x hx).ne'
      have h2 := (hpos2 x hx).ne'
      have := ((((hS x).log h1).const_sub (Real.log (2 * p j + eps))).const_mul (p j)).add ((hasDerivAt_id x).mul (((h2x x).log h2).sub ((hS x).log h1)))
      refine this.congr_deriv ?_
      simp only [id, Pi.sub_apply]
      field_simp
      ring
    · have h1 := (hposS x hx).ne'
      have h2 := (hpos2 x hx).ne'
      have := ((((hasDerivAt_const x (1 : ℝ)).div (hS x) h1).const_mul eps).sub (((hasDerivAt_const x (1 : ℝ)).div (h2x x) h2).const_mul eps)).add ((h2x x).log h2) |>.sub ((hS x).log h1)
      refine this.congr_deriv ?_
      field_simp
      ring
    · have h1 : 0 < x + eps := by linarith
      have h2 : x + eps ≤ p j + x + eps := by linarith
      have e1 : 1 / (p j + x + eps) ≤ 1 / (x + eps) := one_div_le_one_div_of_le h1 h2
      have e2 : eps / (p j + x + eps) ^ 2 ≤ eps / (x + eps) ^ 2 := div_le_div_of_nonneg_left he.le (by positivity) (by gcongr)
      have e3 : 1 / (x + eps) + eps / (x + eps) ^ 2 ≤ 4 * (x + eps) / (2 * x + eps) ^ 2 := by
        rw [show 1 / (x + eps) + eps / (x + eps) ^ 2 = (x + 2 * eps) / (x + eps) ^ 2 from by field_simp; ring, div_le_div_iff₀ (by positivity) (pow_pos (hpos2 x hx) 2)]
        nlinarith [mul_nonneg hx (sq_nonneg eps), pow_pos he 3]
      linarith
  refine hbase.congr fun x hx => ?_
  have h1 := (hposS x hx).ne'
  simp only
  rw [Real.log_div hpp.ne' h1, Real.log_div (hpos2 x hx).ne' h1]

theorem convex_emd (p : Fin n → ℝ) : ConvexOn ℝ {q : Fin n → ℝ | IsPrev q} fun q => emd p q := by
  refine ⟨convex_prev, fun x hx y hy a b ha hb hab => ?_⟩
  simp only [emd, smul_eq_mul, Finset.mul_sum, ← Finset.sum_add_distrib]
  refine Finset.sum_le_sum fun k _ => ?_
  rw [← abs_of_nonneg ha, ← abs_of_nonneg hb, ← abs_mul, ← abs_mul, abs_of_nonneg ha, abs_of_nonneg hb]
  refine le_trans (le_of_eq ?_) (abs_add_le _ _)
  congr 1
  simp only [cumsum, Finset.mul_sum, ← Finset.sum_add_distrib]
  refine Finset.sum_congr rfl fun j _ => ?_
  simp only [Pi.add_apply, Pi.smul_apply, smul_eq_mul]
  split
  · linear_combination (- p j) * hab
  · simp

/-- **C142** for emd. -/
theorem C142_emd (p : Fin n → ℝ) : AverageHelps fun q => Fl.fin (emd p q) := helps_of_convex _ (fun _ _ => rfl) (convex_emd p)

/-- **C142** for emd_score. -/
theorem C142_emd_score (hn : 1 ≤ n) (p : Fin (n + 1) → ℝ) (hp : IsPrev p) : AverageHelpsScore (emdScore p) := by
  refine helps_of_concave _ (fun q _ => emdScore_eq hn p q hp) ?_
  have hpos := maxEmd_pos hn p hp
  set M := max (emd p (Pi.single 0 1)) (emd p (Pi.single (Fin.last n) 1))
  have h := (convexOn_mul M⁻¹ (inv_nonneg.2 hpos.le) (convex_emd p)).add_const (-1)
  refine h.congr fun q _ => ?_
  simp only [Pi.add_apply]
  field_simp
  ring

/-- **C142** for absolute_error. -/
theorem C142_absolute_error (p : ℝ) : AverageHelps1 (absoluteError p) :=
  helps1_of_convex _ (fun q => by rw [absoluteError, Fl.fin_sub, Fl.abs_fin, abs_sub_comm]) (convex_abs p)

/-- **C142** for squared_error. -/
theorem C142_squared_error (p : ℝ) : AverageHelps1 (squaredError p) :=
  helps1_of_convex _ (fun q => by rw [squaredError, Fl.fin_sub, Fl.sq_fin, show (q - p) ^ 2 = (p - q) ^ 2 from by ring]) (convex_sq p)

/-- **C142** for relative_absolute_error. -/
theorem C142_relative_absolute_error (eps p : ℝ) (he : 0 < eps) (hp : 0 ≤ p) : AverageHelps1 fun q => relativeAbsoluteError p q eps := by
  by_cases h : p = 0
  · refine helps1_of_convex (fun q => eps⁻¹ * |p - q|) (fun q => ?_) ((convex_abs p).smul (inv_nonneg.2 he.le))
    rw [relativeAbsoluteError, if_pos h, Fl.fin_sub, Fl.abs_fin, Fl.fin_add, Fl.fin_div _ (by rw [h, zero_add]; exact he.ne'), abs_sub_comm, div_eq_inv_mul, h, zero_add]
  · refine helps1_of_convex (fun q => p⁻¹ * |p - q|) (fun q => ?_) ((convex_abs p).smul (inv_nonneg.2 hp))
    rw [relativeAbsoluteError, if_neg h, Fl.fin_sub, Fl.abs_fin, Fl.fin_div _ h, abs_sub_comm, div_eq_inv_mul]

/-- **C142** for normalized_absolute_score. -/
theorem C142_normalized_absolute_score (p : ℝ) : AverageHelpsScore1 (normalizedAbsoluteScore p) := by
  refine helps1_of_concave _ (fun q => nas_eq p q) ?_
  have hm := max_pos' p
  refine (((convex_abs p).smul (inv_nonneg.2 hm.le)).add_const (-1)).congr fun q _ => ?_
  simp only [Pi.add_apply, smul_eq_mul, abs_sub_comm p q]
  ring

/-- **C142** for normalized_squared_score. -/
theorem C142_normalized_squared_score (p : ℝ) : AverageHelpsScore1 (normalizedSquaredScore p) := by
  refine helps1_of_concave _ (fun q => nss_eq p q) ?_
  have hm := max_pos' p
  refine (((convex_sq p).smul (inv_nonneg.2 (sq_nonneg (max p (1 - p))))).add_const (-1)).congr fun q _ => ?_
  simp only [Pi.add_apply, smul_eq_mul, div_pow, sq_abs, show (q - p) ^ 2 = (p - q) ^ 2 from by ring]
  ring

/-! ## Errors for which it is false -/

theorem sum_lt_of_all (a : ℝ) (es : List ℝ) (hne : es ≠ []) (h : ∀ e ∈ es, e < a) : es.sum < es.length * a := by
  induction es with
  | nil => exact absurd rfl hne
  | cons e r ih =>
    have h0 := h e (List.mem_cons_self ..)
    by_cases hr : r = []
    · subst hr
      simpa using h0
    · have := ih hr fun x hx => h x (List.mem_cons_of_mem _ hx)
      rw [List.sum_cons, List.length_cons]
      push_cast
      linarith

theorem exists_mean_le (es : List ℝ) (hne : es ≠ []) : ∃ e ∈ es, es.sum / es.length ≤ e := by
  by_contra hc
  push Not at hc
  have hl : (0 : ℝ) < es.length := by exact_mod_cast List.length_pos_iff.2 hne
  have := sum_lt_of_all _ es hne hc
  rw [mul_div_cancel₀ _ hl.ne'] at this
  exact lt_irrefl _ this

/-- **C142** (every error above): the error of the average is at most the error of the worst prediction. -/
theorem C142_not_worst {err : (Fin n → ℝ) → Fl} (h : AverageHelps err) : AverageNotWorst err := by
  intro qs hne hq
  obtain ⟨a, es, h1, h2, h3⟩ := h qs hne hq
  have hes : es ≠ [] := by
    rintro rfl
    exact hne (List.map_eq_nil_iff.1 h2)
  obtain ⟨e, he, hle⟩ := exists_mean_le es hes
  have : Fl.fin e ∈ qs.map err := h2 ▸ List.mem_map_of_mem he
  obtain ⟨q, hq1, hq2⟩ := List.mem_map.1 this
  exact ⟨q, hq1, a, e, h1, hq2, h3.trans hle⟩

/-- **C142, partial** for hd: the error of the average is at most the error of the worst prediction. -/
theorem C142_hd_partial (p : Fin n → ℝ) (hp : ∀ i, 0 ≤ p i) : AverageNotWorst (hd p) := by
  have hconv : AverageHelps fun q => Fl.fin (∑ j, (Real.sqrt (p j) - Real.sqrt (q j)) ^ 2) := by
    refine helps_of_convex _ (fun _ _ => rfl) (convex_sum (fun j x => (Real.sqrt (p j) - Real.sqrt x) ^ 2) fun j => ?_)
    have hs := Real.strictConcaveOn_sqrt.concaveOn
    refine ⟨convex_Ici 0, fun x hx y hy a b ha hb hab => ?_⟩
    have h := hs.2 hx hy ha hb hab
    simp only [smul_eq_mul] at h ⊢
    have hx' : (0 : ℝ) ≤ x := hx
    have hy' : (0 : ℝ) ≤ y := hy
    have s1 := Real.sq_sqrt hx'
    have s2 := Real.sq_sqrt hy'
    have s3 := Real.sq_sqrt (add_nonneg (mul_nonneg ha hx') (mul_nonneg hb hy'))
    have e : Real.sqrt (p j) ^ 2 = a * Real.sqrt (p j) ^ 2 + b * Real.sqrt (p j) ^ 2 := by rw [← add_mul, hab, one_mul]
    rw [sub_sq, sub_sq, sub_sq, s1, s2, s3]
    linarith [mul_le_mul_of_nonneg_left h (Real.sqrt_nonneg (p j))]
  intro qs hne hq
  obtain ⟨q, hq1, a, b, h1, h2, h3⟩ := C142_not_worst hconv qs hne hq
  refine ⟨q, hq1, _, _, hd_eq p _ hp (average_isPrev qs hne hq).1, hd_eq p q hp (hq q hq1).1, Real.sqrt_le_sqrt ?_⟩
  rw [Fl.fin_inj] at h1 h2
  rw [h1, h2]
  exact h3

/-- **C142, refuted** for hd: the error of the average may be greater than the average of the errors. -/
theorem C142_hd_refuted : ¬ AverageHelps (hd (n := 2) ![1, 0]) := by
  intro h
  obtain ⟨a, es, h1, h2, h3⟩ := h [![1, 0], ![0, 1]] (by simp) (by
    intro q hq
    simp only [List.mem_cons, List.not_mem_nil, or_false] at hq
    rcases hq with rfl | rfl
    all_goals exact ⟨fun i => by fin_cases i <;> simp, by simp⟩)
  have havg : averageOf [![1, 0], ![(0 : ℝ), 1]] = ![1/2, 1/2] := by
    funext j
    fin_cases j <;> simp [averageOf, meanOf]
  have hp : ∀ i, (0 : ℝ) ≤ (![1, 0] : Fin 2 → ℝ) i := fun i => by fin_cases i <;> simp
  rw [havg, hd_eq _ _ hp (fun i => by fin_cases i <;> simp)] at h1
  simp only [List.map_cons, List.map_nil] at h2
  rw [hd_eq _ _ hp hp, hd_eq _ _ hp (fun i => by fin_cases i <;> simp)] at h2
  have h2' := (List.map_inj_right (f := Fl.fin) (fun x y => (Fl.fin_inj x y).1)).1 (show List.map Fl.fin [_, _] = _ from h2)
  rw [← h2'] at h3
  rw [Fl.fin_inj] at h1
  rw [← h1] at h3
  simp [Fin.sum_univ_two] at h3
  have hs : Real.sqrt (1 + 1) ^ 2 = 1 + 1 := Real.sq_sqrt (by norm_num)
  have hlt : (Real.sqrt 2)⁻¹ < 1 := inv_lt_one_of_one_lt₀ (by rw [Real.lt_sqrt] <;> norm_num)
  have := (Real.sqrt_le_left (by positivity)).1 h3
  rw [div_pow, hs] at this
  have h0 := sq_pos_of_pos (sub_pos.2 hlt)
  norm_num at this
  linarith

/-- **C142, partial** for symmetric_absolute_percentage_error: the error of the average is at most the error of the worst prediction. -/
theorem C142_sape_partial (p : ℝ) (hp : 0 < p) : AverageNotWorst1 (sape p) := by
  intro qs hne hq
  have heq : ∀ q, 0 ≤ q → sape p q = .fin (|q - p| / (q + p)) := by
    intro q h
    have hs : q + p ≠ 0 := by linarith
    rw [sape, if_neg hs, Fl.fin_sub, Fl.abs_fin, Fl.fin_add, Fl.fin_div _ hs]
  have hm : 0 ≤ meanOf qs id := by
    unfold meanOf
    refine div_nonneg (List.sum_nonneg fun x hx => ?_) (Nat.cast_nonneg _)
    obtain ⟨q, h, rfl⟩ := List.mem_map.1 hx
    exact (hq q h).1
  have hmean : meanOf qs id = qs.sum / qs.length := by simp [meanOf]
  rcases le_total p (meanOf qs id) with hle | hle
  · obtain ⟨q, h1, h2⟩ := exists_mean_le qs hne
    rw [← hmean] at h2
    refine ⟨q, h1, _, _, heq _ hm, heq q (hq q h1).1, ?_⟩
    rw [abs_of_nonneg (by linarith), abs_of_nonneg (by linarith), div_le_div_iff₀ (by linarith) (by linarith)]
    nlinarith
  · obtain ⟨q, h1, h2⟩ := exists_mean_le (qs.map fun x => -x) (by simpa using hne)
    obtain ⟨q, hq1, rfl⟩ := List.mem_map.1 h1
    rw [← List.sum_neg, List.length_map, neg_div, ← hmean] at h2
    have h3 := (hq q hq1).1
    refine ⟨q, hq1, _, _, heq _ hm, heq q h3, ?_⟩
    rw [abs_of_nonpos (by linarith), abs_of_nonpos (by linarith), div_le_div_iff₀ (by linarith) (by linarith)]
    nlinarith

/-- **C142, refuted** for symmetric_absolute_percentage_error. -/
theorem C142_sape_refuted : ¬ AverageHelps1 (sape (1/5)) := by
  intro h
  obtain ⟨a, es, h1, h2, h3⟩ := h [1/5, 4/5] (by simp) (by
    intro q hq
    simp only [List.mem_cons, List.not_mem_nil, or_false] at hq
    rcases hq with rfl | rfl <;> norm_num)
  have heq : ∀ q, 0 ≤ q → sape (1/5) q = .fin (|q - 1/5| / (q + 1/5)) := by
    intro q h
    have hs : q + 1/5 ≠ 0 := by positivity
    rw [sape, if_neg hs, Fl.fin_sub, Fl.abs_fin, Fl.fin_add, Fl.fin_div _ hs]
  have havg : meanOf [1/5, (4/5 : ℝ)] id = 1/2 := by norm_num [meanOf]
  rw [havg, heq _ (by norm_num), Fl.fin_inj] at h1
  simp only [List.map_cons, List.map_nil] at h2
  rw [heq _ (by norm_num), heq _ (by norm_num)] at h2
  have h2' := (List.map_inj_right (f := Fl.fin) (fun x y => (Fl.fin_inj x y).1)).1 (show List.map Fl.fin [_, _] = _ from h2)
  rw [← h2', ← h1] at h3
  norm_num [abs_of_pos] at h3

/-! ## Ensembles -/

section
variable {α G Q : Type} [LinearOrder α] {ppf : ℝ → EReal} {rng : Rng G} {fuel : ℕ} {w w' : EoqWorld G} {cfg : EoqCfg} {y : List α} {prevs : Option (List (List Fl))} {idx : Option (List (List ℕ))} {argsort : List Fl → List ℕ}
  {nc : ℕ} {vs : List (List ℝ)}

/-- The prediction of a member as a vector. -/
def memberVec (nc : ℕ) (v : List ℝ) : Fin nc → ℝ := fun c => v.getD c 0

theorem memberVec_isPrev {v : List ℝ} (h : IsPrevList nc v) : IsPrev (memberVec nc v) := by
  obtain ⟨rfl, h1, h2⟩ := h
  have e : ∀ c : Fin v.length, memberVec v.length v c = v[c] := fun c => by simp [memberVec]
  refine ⟨fun c => ?_, ?_⟩
  · rw [e]
    exact h1 _ (List.getElem_mem _)
  · rw [← h2, Finset.sum_congr rfl fun c _ => e c, ← List.sum_ofFn]
    congr 1
    exact List.ofFn_getElem

theorem averageOf_members (vs : List (List ℝ)) : averageOf (vs.map (memberVec nc)) = fun c : Fin nc => meanPrediction vs c := by
  funext c
  simp [averageOf, meanOf, meanPrediction, memberVec, List.map_map, Function.comp_def]

/-- **C142** for an EoQ of quantifiers without classifiers that takes the mean: the answer is a vector whose error is at most the average of the errors of the members. -/
theorem C142_eoqx {nf : ℕ} {ops : EoqOps Q (List (Fin nf → ℝ)) α} {X : List (Fin nf → ℝ)} {fit : EoqFit Q nf cfg.nBins}
    (hfit : eoqxFit ppf rng fuel w cfg ops X y prevs idx = some (w', .ok fit)) (Xt : List (Fin nf → ℝ)) (hn : 0 < cfg.nQuant)
    (hvs : (fit.members.map fun q => ops.predict q Xt) = vs.map .ok) (hvalid : ∀ v ∈ vs, IsPrevList nc v) (hmean : cfg.strategy = .mean)
    (err : (Fin nc → ℝ) → Fl) (herr : AverageHelps err) :
    ∃ (ans : Fin nc → ℝ) (a : ℝ) (es : List ℝ), eoqxPredict argsort nc cfg ops fit Xt = .ok (.vec fun c => .fin (ans c)) ∧ err ans = .fin a
      ∧ (vs.map fun v => err fun c => v.getD c 0) = es.map .fin ∧ a ≤ es.sum / es.length := by
  have h := (C95_eoqx_mean_median (argsort := argsort) hfit Xt hn hvs hvalid).1 hmean
  obtain ⟨hl, -⟩ := eoqx_shape hfit hn Xt
  have hne : vs ≠ [] := by
    have := congrArg List.length hvs
    rintro rfl
    simp at this
    rw [this] at hl
    simp at hl
    omega
  obtain ⟨a, es, h1, h2, h3⟩ := herr (vs.map (memberVec nc)) (by simpa using hne) (by
    intro q hq
    obtain ⟨v, hv, rfl⟩ := List.mem_map.1 hq
    exact memberVec_isPrev (hvalid v hv))
  rw [averageOf_members] at h1
  exact ⟨_, a, es, h, h1, by rw [← h2, List.map_map]; rfl, h3⟩

/-- **C142** for an EoQ of quantifiers with classifiers that takes the mean. -/
theorem C142_eoqy {lenX : ℕ} {ops : EoqOps Q (Preds α nc) α} {preds : EoqPreds α nc} {fit : EoqFit Q (nDescriptors nc) cfg.nBins}
    (hfit : eoqyFit ppf rng fuel w cfg ops lenX preds y prevs idx = some (w', .ok fit)) (test : EoqPreds α nc) (hn : 0 < cfg.nQuant)
    (hvs : (fit.members.mapIdx fun i q => test.forMember i >>= ops.predict q) = vs.map .ok) (hvalid : ∀ v ∈ vs, IsPrevList nc v) (hmean : cfg.strategy = .mean)
    (err : (Fin nc → ℝ) → Fl) (herr : AverageHelps err) :
    ∃ (ans : Fin nc → ℝ) (a : ℝ) (es : List ℝ), eoqyPredict argsort cfg ops fit test = .ok (.vec fun c => .fin (ans c)) ∧ err ans = .fin a
      ∧ (vs.map fun v => err fun c => v.getD c 0) = es.map .fin ∧ a ≤ es.sum / es.length := by
  have h := (C95_eoqy_mean_median (argsort := argsort) hfit test hn hvs hvalid).1 hmean
  obtain ⟨hl, -⟩ := eoqy_shape hfit hn test
  have hne : vs ≠ [] := by
    have := congrArg List.length hvs
    rintro rfl
    simp at this
    rw [this] at hl
    simp at hl
    omega
  obtain ⟨a, es, h1, h2, h3⟩ := herr (vs.map (memberVec nc)) (by simpa using hne) (by
    intro q hq
    obtain ⟨v, hv, rfl⟩ := List.mem_map.1 hq
    exact memberVec_isPrev (hvalid v hv))
  rw [averageOf_members] at h1
  exact ⟨_, a, es, h, h1, by rw [← h2, List.map_map]; rfl, h3⟩

end

/-- Non-vacuity: two predictions with opposite errors, whose average is right. -/
example : (∀ q ∈ [![3/4, 1/4], (![1/4, 3/4] : Fin 2 → ℝ)], IsPrev q) ∧ l1 ![1/2, 1/2] (averageOf [![3/4, 1/4], (![1/4, 3/4] : Fin 2 → ℝ)]) = .fin 0
    ∧ l1 ![1/2, 1/2] (![3/4, 1/4] : Fin 2 → ℝ) = .fin (1/2) := by
  refine ⟨?_, ?_, ?_⟩
  · intro q hq
    simp only [List.mem_cons, List.not_mem_nil, or_false] at hq
    rcases hq with rfl | rfl
    all_goals exact ⟨fun i => by fin_cases i <;> norm_num, by norm_num [Fin.sum_univ_two]⟩
  · rw [l1_eq, Fl.fin_inj]
    norm_num [Fin.sum_univ_two, averageOf, meanOf]
  · rw [l1_eq, Fl.fin_inj]
    norm_num [Fin.sum_univ_two, abs_of_pos, abs_of_neg]

end Verif.Props
