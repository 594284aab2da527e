import Verif.Model.Sordy
import Mathlib.MeasureTheory.Integral.IntervalIntegral.Basic
import Mathlib.MeasureTheory.Integral.IntervalIntegral.MeanValue
import Mathlib.Analysis.Convex.Function

/-!
# The SORD loop as an integral, and its dependence on the weights
-/

namespace Verif.Proof

open Verif.Model MeasureTheory

/-- The signed weight of the points of `l` at or below `t`. -/
noncomputable def wcdf (l : List (ℝ × ℝ)) (t : ℝ) : ℝ := (l.map fun uw => if uw.1 ≤ t then uw.2 else 0).sum

theorem wcdf_cons (u w : ℝ) (l : List (ℝ × ℝ)) (t : ℝ) : wcdf ((u, w) :: l) t = (if u ≤ t then w else 0) + wcdf l t := by
  simp [wcdf]

theorem wcdf_perm {l l' : List (ℝ × ℝ)} (h : l.Perm l') (t : ℝ) : wcdf l t = wcdf l' t :=
  (h.map _).sum_eq

theorem wcdf_below {l : List (ℝ × ℝ)} {t : ℝ} (h : ∀ p ∈ l, t < p.1) : wcdf l t = 0 := by
  induction l with
  | nil => rfl
  | cons p l ih =>
    obtain ⟨u, w⟩ := p
    rw [wcdf_cons, if_neg (not_le.2 (h (u, w) (by simp))), ih fun p hp => h p (by simp [hp]), zero_add]

theorem wcdf_above {l : List (ℝ × ℝ)} {t : ℝ} (h : ∀ p ∈ l, p.1 ≤ t) : wcdf l t = (l.map Prod.snd).sum := by
  induction l with
  | nil => rfl
  | cons p l ih =>
    obtain ⟨u, w⟩ := p
    rw [wcdf_cons, if_pos (h (u, w) (by simp)), ih fun p hp => h p (by simp [hp])]
    rfl

theorem step_intervalIntegrable (u w a b : ℝ) : IntervalIntegrable (fun t => if u ≤ t then w else 0) volume a b := by
  rcases le_total 0 w with h | h
  · apply Monotone.intervalIntegrable
    intro x y hxy
    dsimp only
    by_cases h1 : u ≤ x
    · rw [if_pos h1, if_pos (h1.trans hxy)]
    · rw [if_neg h1]; split_ifs <;> linarith
  · apply Antitone.intervalIntegrable
    intro x y hxy
    dsimp only
    by_cases h1 : u ≤ x
    · rw [if_pos h1, if_pos (h1.trans hxy)]
    · rw [if_neg h1]; split_ifs <;> linarith

theorem wcdf_intervalIntegrable (l : List (ℝ × ℝ)) (a b : ℝ) : IntervalIntegrable (wcdf l) volume a b := by
  induction l with
  | nil =>
    have : wcdf [] = fun _ => (0 : ℝ) := rfl
    rw [this]; exact intervalIntegrable_const
  | cons p l ih =>
    obtain ⟨u, w⟩ := p
    have : wcdf ((u, w) :: l) = fun t => (if u ≤ t then w else 0) + wcdf l t := funext (wcdf_cons u w l)
    rw [this]
    exact (step_intervalIntegrable u w a b).add ih

theorem abs_wcdf_intervalIntegrable (c : ℝ) (l : List (ℝ × ℝ)) (a b : ℝ) :
    IntervalIntegrable (fun t => |c + wcdf l t|) volume a b :=
  (intervalIntegrable_const.add (wcdf_intervalIntegrable l a b)).abs

/-- The last score. -/
def lastOf (prev : ℝ) : List (ℝ × ℝ) → ℝ
  | [] => prev
  | (u, _) :: r => lastOf u r

theorem lastOf_ge {prev : ℝ} {l : List (ℝ × ℝ)} (h1 : ∀ p ∈ l, prev ≤ p.1) (h2 : l.Pairwise fun p q => p.1 ≤ q.1) :
    prev ≤ lastOf prev l ∧ ∀ p ∈ l, p.1 ≤ lastOf prev l := by
  induction l generalizing prev with
  | nil => exact ⟨le_rfl, by simp⟩
  | cons p l ih =>
    obtain ⟨u, w⟩ := p
    rw [List.pairwise_cons] at h2
    obtain ⟨i1, i2⟩ := ih (prev := u) (fun p hp => h2.1 p hp) h2.2
    refine ⟨(h1 (u, w) (by simp)).trans i1, ?_⟩
    intro p hp
    rcases List.mem_cons.1 hp with rfl | hp
    · exact i1
    · exact i2 p hp

theorem sordLoop_eq_integral (cost cum prev : ℝ) (l : List (ℝ × ℝ)) (h1 : ∀ p ∈ l, prev ≤ p.1)
    (h2 : l.Pairwise fun p q => p.1 ≤ q.1) :
    sordLoop cost cum prev l = cost + ∫ t in prev..(lastOf prev l), |cum + wcdf l t| := by
  induction l generalizing cost cum prev with
  | nil => simp [sordLoop, lastOf]
  | cons p l ih =>
    obtain ⟨u, w⟩ := p
    rw [List.pairwise_cons] at h2
    have hu : prev ≤ u := h1 (u, w) (by simp)
    have hl := lastOf_ge (prev := u) (fun p hp => h2.1 p hp) h2.2
    rw [sordLoop, ih _ _ _ (fun p hp => h2.1 p hp) h2.2, lastOf]
    rw [← intervalIntegral.integral_add_adjacent_intervals (b := u) (abs_wcdf_intervalIntegrable cum _ prev u)
      (abs_wcdf_intervalIntegrable cum _ u _)]
    have e1 : (∫ t in prev..u, |cum + wcdf ((u, w) :: l) t|) = |(u - prev) * cum| := by
      have : (∫ t in prev..u, |cum + wcdf ((u, w) :: l) t|) = ∫ _t in prev..u, |cum| := by
        apply intervalIntegral.integral_congr_ae
        have hne : ∀ᵐ t : ℝ ∂volume, t ≠ u := by simp [ae_iff]
        filter_upwards [hne] with t htu ht
        rw [Set.uIoc_of_le hu] at ht
        have hlt : t < u := lt_of_le_of_ne ht.2 htu
        rw [wcdf_below, add_zero]
        intro p hp
        rcases List.mem_cons.1 hp with rfl | hp
        · exact hlt
        · exact hlt.trans_le (h2.1 p hp)
      rw [this, intervalIntegral.integral_const, smul_eq_mul, abs_mul, abs_of_nonneg (by linarith : 0 ≤ u - prev)]
    have e2 : (∫ t in u..(lastOf u l), |cum + wcdf ((u, w) :: l) t|) = ∫ t in u..(lastOf u l), |cum + w + wcdf l t| := by
      apply intervalIntegral.integral_congr
      intro t ht
      rw [Set.uIcc_of_le hl.1] at ht
      simp only
      rw [wcdf_cons, if_pos ht.1, add_assoc]
    rw [e1, e2, add_assoc]

/-- The integral over the whole line, when the weights add up to zero. -/
theorem sord_eq_integral (u w : ℝ) (l : List (ℝ × ℝ)) (h : ((u, w) :: l).Pairwise fun p q => p.1 ≤ q.1)
    (h0 : (((u, w) :: l).map Prod.snd).sum = 0) :
    sordLoop 0 w u l = ∫ t, |wcdf ((u, w) :: l) t| := by
  rw [List.pairwise_cons] at h
  obtain ⟨g1, g2⟩ := lastOf_ge (prev := u) (fun p hp => h.1 p hp) h.2
  rw [sordLoop_eq_integral 0 w u l (fun p hp => h.1 p hp) h.2, zero_add, intervalIntegral.integral_of_le g1,
    ← integral_Icc_eq_integral_Ioc, ← setIntegral_eq_integral_of_forall_compl_eq_zero (f := fun t => |wcdf ((u, w) :: l) t|)
      (s := Set.Icc u (lastOf u l))]
  · apply setIntegral_congr_fun measurableSet_Icc
    intro t ht
    simp only
    rw [wcdf_cons, if_pos ht.1]
  · intro t ht
    rw [Set.mem_Icc, not_and_or, not_le, not_le] at ht
    rw [abs_eq_zero]
    rcases ht with ht | ht
    · apply wcdf_below
      intro p hp
      rcases List.mem_cons.1 hp with rfl | hp
      · exact ht
      · exact ht.trans_le (h.1 p hp)
    · rw [wcdf_above, h0]
      intro p hp
      rcases List.mem_cons.1 hp with rfl | hp
      · exact g1.trans ht.le
      · exact (g2 p hp).trans ht.le

/-- To the right of a point the signed weight stays constant for a while. -/
theorem wcdf_right_const (l : List (ℝ × ℝ)) (t : ℝ) : ∃ ε > 0, ∀ s, t ≤ s → s < t + ε → wcdf l s = wcdf l t := by
  induction l with
  | nil => exact ⟨1, one_pos, fun _ _ _ => rfl⟩
  | cons p l ih =>
    obtain ⟨u, w⟩ := p
    obtain ⟨ε, hε, h⟩ := ih
    by_cases hu : u ≤ t
    · refine ⟨ε, hε, fun s hs hs' => ?_⟩
      rw [wcdf_cons, wcdf_cons, h s hs hs', if_pos hu, if_pos (hu.trans hs)]
    · push Not at hu
      refine ⟨min ε (u - t), lt_min hε (by linarith), fun s hs hs' => ?_⟩
      have h1 := min_le_left ε (u - t)
      have h2 := min_le_right ε (u - t)
      rw [wcdf_cons, wcdf_cons, h s hs (by linarith), if_neg (not_le.2 hu), if_neg (not_le.2 (by linarith))]

theorem abs_wcdf_integrable (l : List (ℝ × ℝ)) (h0 : (l.map Prod.snd).sum = 0) : Integrable fun t => |wcdf l t| := by
  have hb : ∃ a b : ℝ, a ≤ b ∧ ∀ p ∈ l, a ≤ p.1 ∧ p.1 ≤ b := by
    clear h0
    induction l with
    | nil => exact ⟨0, 0, le_rfl, by simp⟩
    | cons p l ih =>
      obtain ⟨a, b, hab, h⟩ := ih
      refine ⟨min a p.1, max b p.1, (min_le_left _ _).trans (hab.trans (le_max_left _ _)), ?_⟩
      intro q hq
      rcases List.mem_cons.1 hq with rfl | hq
      · exact ⟨min_le_right _ _, le_max_right _ _⟩
      · exact ⟨(min_le_left _ _).trans (h q hq).1, (h q hq).2.trans (le_max_left _ _)⟩
  obtain ⟨a, b, hab, hb⟩ := hb
  have h1 := (wcdf_intervalIntegrable l a b).abs
  rw [intervalIntegrable_iff_integrableOn_Icc_of_le hab] at h1
  refine (integrableOn_iff_integrable_of_support_subset ?_).1 h1
  intro t ht
  by_contra hcon
  apply ht
  rw [Set.mem_Icc, not_and_or, not_le, not_le] at hcon
  show |wcdf l t| = 0
  rw [abs_eq_zero]
  rcases hcon with hcon | hcon
  · exact wcdf_below fun p hp => hcon.trans_le (hb p hp).1
  · rw [wcdf_above fun p hp => (hb p hp).2.trans hcon.le, h0]

theorem integral_abs_wcdf_pos (l : List (ℝ × ℝ)) (h0 : (l.map Prod.snd).sum = 0) (t : ℝ) (ht : wcdf l t ≠ 0) :
    0 < ∫ s, |wcdf l s| := by
  have hint := abs_wcdf_integrable l h0
  rw [integral_pos_iff_support_of_nonneg (fun s => abs_nonneg _) hint]
  obtain ⟨ε, hε, h⟩ := wcdf_right_const l t
  have hsub : Set.Ico t (t + ε) ⊆ Function.support fun s => |wcdf l s| := by
    intro s hs
    show |wcdf l s| ≠ 0
    rw [h s hs.1 hs.2]
    exact abs_ne_zero.2 ht
  refine lt_of_lt_of_le ?_ (measure_mono hsub)
  rw [Real.volume_Ico]
  simpa using hε

/-- The loop is convex in weights that are affine in a parameter. -/
theorem sordLoop_convex {ι : Type*} (W : ℝ → ι → ℝ) (hW : ∀ i s t x y, s + t = 1 → W (s * x + t * y) i = s * W x i + t * W y i)
    (s t x y : ℝ) (hs : 0 ≤ s) (ht : 0 ≤ t) (hst : s + t = 1) (l : List (ℝ × ι)) (prev : ℝ) (cost cost1 cost2 cum cum1 cum2 : ℝ)
    (h1 : cost ≤ s * cost1 + t * cost2) (h2 : cum = s * cum1 + t * cum2) :
    sordLoop cost cum prev (l.map fun ui => (ui.1, W (s * x + t * y) ui.2)) ≤
      s * sordLoop cost1 cum1 prev (l.map fun ui => (ui.1, W x ui.2))
        + t * sordLoop cost2 cum2 prev (l.map fun ui => (ui.1, W y ui.2)) := by
  induction l generalizing prev cost cost1 cost2 cum cum1 cum2 with
  | nil => simpa [sordLoop] using h1
  | cons p l ih =>
    obtain ⟨u, i⟩ := p
    simp only [List.map_cons, sordLoop]
    apply ih
    · have : (u - prev) * cum = s * ((u - prev) * cum1) + t * ((u - prev) * cum2) := by rw [h2]; ring
      rw [this]
      have := abs_add_le (s * ((u - prev) * cum1)) (t * ((u - prev) * cum2))
      rw [abs_mul s, abs_mul t, abs_of_nonneg hs, abs_of_nonneg ht] at this
      linarith
    · rw [hW i s t x y hst, h2]; ring

theorem sordLoop_continuous {ι : Type*} (W : ℝ → ι → ℝ) (hW : ∀ i, Continuous fun p => W p i) (l : List (ℝ × ι)) (prev : ℝ)
    (cost cum : ℝ → ℝ) (h1 : Continuous cost) (h2 : Continuous cum) :
    Continuous fun p => sordLoop (cost p) (cum p) prev (l.map fun ui => (ui.1, W p ui.2)) := by
  induction l generalizing prev cost cum with
  | nil => simpa [sordLoop] using h1
  | cons p l ih =>
    obtain ⟨u, i⟩ := p
    simp only [List.map_cons, sordLoop]
    exact ih u (fun p => cost p + |(u - prev) * cum p|) (fun p => cum p + W p i) (h1.add ((continuous_const.mul h2).abs))
      (h2.add (hW i))

end Verif.Proof
