import Verif.Spec.Influence
import Verif.Props.Consistency
import Verif.Props.DeBias

/-!
# C144: the influence of one example on the answer
-/

namespace Verif.Props

open Verif.Model Verif.Spec Verif.Proof

/-! ## Means -/

theorem replaced_length {β : Type*} {bag bag' : List β} {v v' : β} (h : OneReplaced bag bag' v v') : bag'.length = bag.length := by
  obtain ⟨A, B, rfl, rfl⟩ := h
  simp

theorem replaced_ne {β : Type*} {bag bag' : List β} {v v' : β} (h : OneReplaced bag bag' v v') : bag ≠ [] ∧ bag' ≠ [] := by
  obtain ⟨A, B, rfl, rfl⟩ := h
  simp

/-- The difference between the means of a bag with and without the replacement. -/
theorem replaced_mean {β : Type*} {bag bag' : List β} {v v' : β} (h : OneReplaced bag bag' v v') (f : β → ℝ) : meanOf bag f - meanOf bag' f = (f v - f v') / bag.length := by
  rw [meanOf, meanOf, replaced_length h]
  obtain ⟨A, B, rfl, rfl⟩ := h
  rw [← sub_div]
  congr 1
  simp

theorem replaced_mem {β : Type*} {bag bag' : List β} {v v' : β} (h : OneReplaced bag bag' v v') : v ∈ bag ∧ v' ∈ bag' := by
  obtain ⟨A, B, rfl, rfl⟩ := h
  simp

theorem replaced_totalError {β : Type*} {n : ℕ} {bag bag' : List β} {v v' : β} (h : OneReplaced bag bag' v v') (f : Fin n → β → ℝ) :
    totalError (fun i => meanOf bag (f i)) (fun i => meanOf bag' (f i)) = Spec.totalError (fun i => f i v) (fun i => f i v') / bag.length := by
  unfold Spec.totalError
  rw [Finset.sum_div]
  refine Finset.sum_congr rfl fun i _ => ?_
  simp only
  rw [replaced_mean h, abs_div, Nat.abs_cast]

theorem freqs_meanOf {α : Type*} [DecidableEq α] (cs : List α) (l : List α) : freqs cs l = fun j => meanOf l fun a => if a = cs[j] then (1:ℝ) else 0 := by
  funext j
  unfold freqs freq meanOf
  congr 1
  induction l with
  | nil => simp
  | cons a l ih =>
    rw [List.map_cons, List.sum_cons, ← ih, List.count_cons]
    by_cases h : a = cs[j] <;> simp [h, add_comm]

theorem prev_distance {n : ℕ} (p q : Fin n → ℝ) (hp : IsPrev p) (hq : IsPrev q) : totalError p q ≤ 2 := by
  have h : ∀ i, |p i - q i| ≤ p i + q i := fun i => by
    rw [abs_le]
    have := hp.1 i
    have := hq.1 i
    constructor <;> linarith
  refine (Finset.sum_le_sum fun i _ => h i).trans_eq ?_
  rw [Finset.sum_add_distrib, hp.2, hq.2]
  norm_num

theorem indicator_distance {α : Type*} [LinearOrder α] (y : List α) (a b : α) (ha : a ∈ y) (hb : b ∈ y) :
    totalError (fun j : Fin (labelsOf y).length => if a = (labelsOf y)[j] then (1:ℝ) else 0) (fun j => if b = (labelsOf y)[j] then (1:ℝ) else 0) ≤ 2 := by
  have h : ∀ c ∈ y, IsPrev fun j : Fin (labelsOf y).length => if c = (labelsOf y)[j] then (1:ℝ) else 0 := by
    intro c hc
    obtain ⟨i, hi⟩ := exists_getElem_of_mem ((mem_labelsOf' y c).2 hc)
    refine ⟨fun j => by dsimp only; split_ifs <;> norm_num, ?_⟩
    rw [Finset.sum_eq_single i]
    · rw [if_pos hi.symm]
    · intro j _ hj
      exact if_neg fun h => hj (getElem_inj_of_nodup (labelsOf_nodup' y) (h.symm.trans hi.symm))
    · intro h
      exact absurd (Finset.mem_univ i) h
  exact prev_distance _ _ (h a ha) (h b hb)

/-! ## The adjustment -/

/-- Clipping and dividing by the sum at most doubles the distance between two vectors with total 1. -/
theorem clip_normalise_lipschitz {n : ℕ} (x z : Fin n → ℝ) (hx : ∑ i, x i = 1) (hz : ∑ i, z i = 1) :
    totalError (fun i => max 0 (x i) / ∑ i, max 0 (x i)) (fun i => max 0 (z i) / ∑ i, max 0 (z i)) ≤ 2 * totalError x z := by
  set S := ∑ i, max 0 (x i) with hS
  set R := ∑ i, max 0 (z i) with hR
  have hS1 : 1 ≤ S := by
    rw [hS, ← hx]
    exact Finset.sum_le_sum fun i _ => le_max_right _ _
  have hR1 : 1 ≤ R := by
    rw [hR, ← hz]
    exact Finset.sum_le_sum fun i _ => le_max_right _ _
  have hS0 : 0 < S := by linarith
  have hR0 : 0 < R := by linarith
  have hcl : ∀ i, |max 0 (x i) - max 0 (z i)| ≤ |x i - z i| := fun i => by
    have := abs_max_sub_max_le_abs (x i) (z i) 0
    rwa [max_comm (x i), max_comm (z i)] at this
  have hD : ∑ i, |max 0 (x i) - max 0 (z i)| ≤ totalError x z := Finset.sum_le_sum fun i _ => hcl i
  have hSR : |S - R| ≤ totalError x z := by
    rw [hS, hR, ← Finset.sum_sub_distrib]
    exact (Finset.abs_sum_le_sum_abs _ _).trans hD
  have key : ∀ i, |max 0 (x i) / S - max 0 (z i) / R| ≤ |max 0 (x i) - max 0 (z i)| + max 0 (z i) / R * |S - R| := by
    intro i
    have hz0 : 0 ≤ max 0 (z i) := le_max_left _ _
    have e : max 0 (x i) / S - max 0 (z i) / R = ((max 0 (x i) - max 0 (z i)) - max 0 (z i) / R * (S - R)) / S := by
      field_simp
      ring
    rw [e, abs_div, abs_of_pos hS0]
    refine (div_le_self (abs_nonneg _) hS1).trans ((abs_sub _ _).trans ?_)
    rw [abs_mul, abs_of_nonneg (div_nonneg hz0 hR0.le)]
  calc totalError (fun i => max 0 (x i) / S) (fun i => max 0 (z i) / R) ≤ ∑ i, (|max 0 (x i) - max 0 (z i)| + max 0 (z i) / R * |S - R|) := Finset.sum_le_sum fun i _ => key i
    _ = ∑ i, |max 0 (x i) - max 0 (z i)| + |S - R| := by
      rw [Finset.sum_add_distrib, ← Finset.sum_mul, ← Finset.sum_div, ← hR, div_self hR0.ne', one_mul]
    _ ≤ 2 * totalError x z := by linarith

/-- The adjustments of two vectors of observed prevalences. -/
theorem adjust_lipschitz (sol : Solvers) (dist : Dist) {n : ℕ} (M : Matrix (Fin n) (Fin n) ℝ) (hrow : ∀ i, ∑ j, M i j = 1) (κ : ℝ) (hκ : TellsApart M κ) (h2 : n = 2 → κ < 1000) (q q' : Fin n → ℝ)
    (hq : ∑ i, q i = 1) (hq' : ∑ i, q' i = 1) :
    ∃ x x' : Fin n → ℝ, adjust sol dist (fun i j => Fl.fin (M i j)) (fun j => Fl.fin (q j)) = .ok (fun i => Fl.fin (x i)) ∧ adjust sol dist (fun i j => Fl.fin (M i j)) (fun j => Fl.fin (q' j)) = .ok (fun i => Fl.fin (x' i))
      ∧ totalError x x' ≤ 2 * κ * totalError q q' := by
  have hM := tellsApart_det hκ hrow
  have hE0 : 0 ≤ totalError q q' := Finset.sum_nonneg fun i _ => abs_nonneg _
  by_cases hn : n = 2
  · subst hn
    have hd := tellsApart_vec hκ ![-1, 1] (by simp)
    have r0 := hrow 0
    have r1 := hrow 1
    rw [Fin.sum_univ_two] at r0 r1
    have hk := h2 rfl
    set d := M 1 1 - M 0 1 with hdef
    have hd' : 1 ≤ κ * |d| := by
      simp only [Fin.sum_univ_two, Matrix.cons_val_zero, Matrix.cons_val_one, abs_neg, abs_one, neg_mul, one_mul] at hd
      rw [show -M 0 0 + M 1 0 = -d by linarith, show -M 0 1 + M 1 1 = d by rw [hdef]; ring, abs_neg] at hd
      linarith
    have hd0 : 0 < |d| := by
      rcases (abs_nonneg d).lt_or_eq with h | h
      · exact h
      · rw [← h] at hd'; norm_num at hd'
    have hκpos : 0 < κ := by
      by_contra hc
      have : κ * |d| ≤ 0 := mul_nonpos_of_nonpos_of_nonneg (not_lt.1 hc) hd0.le
      linarith
    have hbig : 1/1000 < |d| := by
      have : κ * |d| < 1000 * |d| := mul_lt_mul_of_pos_right hk hd0
      linarith
    rw [C09_binary_formula _ _ (M 1 1) (M 0 1) (q 1) rfl rfl rfl hbig, C09_binary_formula _ _ (M 1 1) (M 0 1) (q' 1) rfl rfl rfl hbig]
    set t := max 0 (min ((q 1 - M 0 1) / d) 1) with ht
    set t' := max 0 (min ((q' 1 - M 0 1) / d) 1) with ht'
    refine ⟨![1 - t, t], ![1 - t', t'], by congr 1; funext i; fin_cases i <;> rfl, by congr 1; funext i; fin_cases i <;> rfl, ?_⟩
    have hclip : |t - t'| ≤ |q 1 - q' 1| / |d| := by
      rw [← abs_div, show (q 1 - q' 1) / d = (q 1 - M 0 1) / d - (q' 1 - M 0 1) / d by ring]
      have h1 := abs_max_sub_max_le_abs (min ((q 1 - M 0 1) / d) 1) (min ((q' 1 - M 0 1) / d) 1) 0
      rw [max_comm _ 0, max_comm _ 0] at h1
      exact h1.trans (abs_min_sub_min_le_max _ _ _ _ |>.trans (by simp))
    have hb : |q 1 - q' 1| / |d| ≤ κ * |q 1 - q' 1| := by
      rw [div_le_iff₀ hd0]
      nlinarith [abs_nonneg (q 1 - q' 1)]
    have hle : |q 1 - q' 1| ≤ totalError q q' := Finset.single_le_sum (f := fun i => |q i - q' i|) (fun i _ => abs_nonneg _) (Finset.mem_univ 1)
    have h3 : κ * |q 1 - q' 1| ≤ κ * totalError q q' := mul_le_mul_of_nonneg_left hle hκpos.le
    simp only [Spec.totalError, Fin.sum_univ_two, Matrix.cons_val_zero, Matrix.cons_val_one] at h3 ⊢
    rw [show 1 - t - (1 - t') = -(t - t') by ring, abs_neg]
    linarith
  · have hx : ∑ i, adjX M q i = 1 := by rw [adjX_sum M hM hrow, hq]
    have hx' : ∑ i, adjX M q' i = 1 := by rw [adjX_sum M hM hrow, hq']
    rw [adjust_ne_two sol dist hn, multiAdjust_fin sol dist M hM q (IsPrev_pos_part _ hx).1.ne', adjust_ne_two sol dist hn, multiAdjust_fin sol dist M hM q' (IsPrev_pos_part _ hx').1.ne']
    refine ⟨_, _, rfl, rfl, (clip_normalise_lipschitz _ _ hx hx').trans ?_⟩
    have := hκ (adjX M q) (adjX M q') (by rw [hx, hx'])
    have e : ∀ q, expectedPreds M (adjX M q) = q := by
      intro q
      funext j
      rw [← adjX_solves M hM q j]
      exact Finset.sum_congr rfl fun i _ => mul_comm _ _
    rw [e, e] at this
    linarith

/-! ## Projections -/

theorem segment_isPrev {n : ℕ} {x z : Fin n → ℝ} (hx : IsPrev x) (hz : IsPrev z) {t : ℝ} (h0 : 0 ≤ t) (h1 : t ≤ 1) : IsPrev fun i => x i + t * (z i - x i) := by
  refine ⟨fun i => ?_, ?_⟩
  · have := mul_nonneg (sub_nonneg.2 h1) (hx.1 i)
    have := mul_nonneg h0 (hz.1 i)
    linarith
  · rw [Finset.sum_add_distrib, ← Finset.mul_sum, Finset.sum_sub_distrib, hx.2, hz.2]
    ring

/-- If `G t + Q t²` is not negative for small positive `t`, then neither is `G`. -/
theorem slope_nonneg {G Q : ℝ} (h : ∀ t, 0 < t → t ≤ 1 → 0 ≤ t * G + t ^ 2 * Q) : 0 ≤ G := by
  by_contra hG
  have hG' : G < 0 := not_le.1 hG
  have hpos : 0 < |Q| + 1 := by positivity
  set t := min 1 (-G / (2 * (|Q| + 1))) with ht
  have ht0 : 0 < t := lt_min one_pos (div_pos (by linarith) (by linarith))
  have h1 := h t ht0 (min_le_left _ _)
  have h2 : t * (|Q| + 1) ≤ -G / 2 := by
    have := min_le_right 1 (-G / (2 * (|Q| + 1)))
    rw [← ht] at this
    calc t * (|Q| + 1) ≤ -G / (2 * (|Q| + 1)) * (|Q| + 1) := mul_le_mul_of_nonneg_right this hpos.le
      _ = -G / 2 := by field_simp
  have h3 : t * Q ≤ t * (|Q| + 1) := mul_le_mul_of_nonneg_left (by linarith [le_abs_self Q]) ht0.le
  have h4 : 0 ≤ t * (G + t * Q) := by linarith
  have h5 : 0 ≤ G + t * Q := nonneg_of_mul_nonneg_right h4 ht0
  linarith

theorem euclidean_sq {m : ℕ} (v w : Fin m → ℝ) : euclidean v w ^ 2 = ∑ k, (v k - w k) ^ 2 := Real.sq_sqrt (Finset.sum_nonneg fun k _ => sq_nonneg _)

/-- The closest mixtures of two vectors are not further apart than the vectors. -/
theorem projection_lipschitz {m n : ℕ} (T : Fin m → Fin n → ℝ) (q q' : Fin m → ℝ) (x x' : Fin n → ℝ) (hx : IsPrev x) (hx' : IsPrev x') (ho : ∀ p, IsPrev p → euclidean q (mixtureOf T x) ≤ euclidean q (mixtureOf T p))
    (ho' : ∀ p, IsPrev p → euclidean q' (mixtureOf T x') ≤ euclidean q' (mixtureOf T p)) : euclidean (mixtureOf T x) (mixtureOf T x') ≤ euclidean q q' := by
  have first : ∀ (q : Fin m → ℝ) (x z : Fin n → ℝ), IsPrev x → IsPrev z → (∀ p, IsPrev p → euclidean q (mixtureOf T x) ≤ euclidean q (mixtureOf T p)) →
      ∑ k, (q k - mixtureOf T x k) * (mixtureOf T z k - mixtureOf T x k) ≤ 0 := by
    intro q x z hx hz ho
    have h := slope_nonneg (G := -2 * ∑ k, (q k - mixtureOf T x k) * (mixtureOf T z k - mixtureOf T x k)) (Q := ∑ k, (mixtureOf T z k - mixtureOf T x k) ^ 2) fun t h0 h1 => by
      have h2 := ho _ (segment_isPrev hx hz h0.le h1)
      have hmix : mixtureOf T (fun i => x i + t * (z i - x i)) = fun k => mixtureOf T x k + t * (mixtureOf T z k - mixtureOf T x k) := by
        funext k
        unfold mixtureOf
        rw [← Finset.sum_sub_distrib, Finset.mul_sum, ← Finset.sum_add_distrib]
        exact Finset.sum_congr rfl fun i _ => by ring
      have h3 := pow_le_pow_left₀ (show 0 ≤ euclidean q (mixtureOf T x) from Real.sqrt_nonneg _) h2 2
      rw [euclidean_sq, euclidean_sq, hmix] at h3
      have h4 : ∑ k, (q k - (mixtureOf T x k + t * (mixtureOf T z k - mixtureOf T x k))) ^ 2
          = ∑ k, (q k - mixtureOf T x k) ^ 2 + t * (-2 * ∑ k, (q k - mixtureOf T x k) * (mixtureOf T z k - mixtureOf T x k)) + t ^ 2 * ∑ k, (mixtureOf T z k - mixtureOf T x k) ^ 2 := by
        simp only [Finset.mul_sum]
        rw [← Finset.sum_add_distrib, ← Finset.sum_add_distrib]
        exact Finset.sum_congr rfl fun k _ => by ring
      rw [h4] at h3
      linarith
    linarith
  have h1 := first q x x' hx hx' ho
  have h2 := first q' x' x hx' hx ho'
  set E := euclidean (mixtureOf T x) (mixtureOf T x') with hE
  have hE0 : 0 ≤ E := Real.sqrt_nonneg _
  have hF0 : 0 ≤ euclidean q q' := Real.sqrt_nonneg _
  have hsq := euclidean_sq (mixtureOf T x) (mixtureOf T x')
  have hle : E ^ 2 ≤ ∑ k, (q k - q' k) * (mixtureOf T x k - mixtureOf T x' k) := by
    rw [hE, hsq]
    have : ∑ k, (mixtureOf T x k - mixtureOf T x' k) ^ 2 = ∑ k, (q k - q' k) * (mixtureOf T x k - mixtureOf T x' k)
        + ∑ k, (q k - mixtureOf T x k) * (mixtureOf T x' k - mixtureOf T x k) + ∑ k, (q' k - mixtureOf T x' k) * (mixtureOf T x k - mixtureOf T x' k) := by
      rw [← Finset.sum_add_distrib, ← Finset.sum_add_distrib]
      exact Finset.sum_congr rfl fun k _ => by ring
    linarith
  have hcs := Real.sum_mul_le_sqrt_mul_sqrt Finset.univ (fun k => q k - q' k) fun k => mixtureOf T x k - mixtureOf T x' k
  have hmul : E ^ 2 ≤ euclidean q q' * E := hle.trans hcs
  rcases hE0.lt_or_eq with hpos | h0
  · have : E * E ≤ euclidean q q' * E := by linarith [sq E]
    exact le_of_mul_le_mul_right this hpos
  · rw [← h0]
    exact hF0

/-- The minimisers of the energy losses of two bags. -/
theorem energy_lipschitz {P : Type*} {n : ℕ} (d : P → P → ℝ) (hd : ∀ x y, d x y = d y x) (train : Fin (n + 1) → List P) (κ : ℝ) (hκ0 : 0 ≤ κ) (hκ : EnergyTellsApart d train κ) (bag bag' : List P) (x x' : Fin (n + 1) → ℝ)
    (hx : IsPrev x) (hx' : IsPrev x') (ho : ∀ p, IsPrev p → energyLoss d train bag x ≤ energyLoss d train bag p) (ho' : ∀ p, IsPrev p → energyLoss d train bag' x' ≤ energyLoss d train bag' p) :
    totalError x x' ≤ κ * totalError (fun i => avgDist d (train i) bag) (fun i => avgDist d (train i) bag') := by
  have first : ∀ (bag : List P) (x z : Fin (n + 1) → ℝ), IsPrev x → IsPrev z → (∀ p, IsPrev p → energyLoss d train bag x ≤ energyLoss d train bag p) →
      0 ≤ ∑ i, (z i - x i) * (avgDist d (train i) bag - ∑ j, x j * avgDist d (train i) (train j)) := by
    intro bag x z hx hz ho
    have h := slope_nonneg (G := 2 * ∑ i, (z i - x i) * (avgDist d (train i) bag - ∑ j, x j * avgDist d (train i) (train j))) (Q := -∑ i, ∑ j, (z i - x i) * (z j - x j) * avgDist d (train i) (train j)) fun t h0 h1 => by
      have h2 := ho _ (segment_isPrev hx hz h0.le h1)
      have h3 := energyLoss_diff d hd train bag x fun i => x i + t * (z i - x i)
      have h4 : ∑ i, (x i + t * (z i - x i) - x i) * (avgDist d (train i) bag - ∑ j, x j * avgDist d (train i) (train j))
          = t * ∑ i, (z i - x i) * (avgDist d (train i) bag - ∑ j, x j * avgDist d (train i) (train j)) := by
        rw [Finset.mul_sum]
        exact Finset.sum_congr rfl fun i _ => by ring
      have h5 : ∑ i, ∑ j, (x i + t * (z i - x i) - x i) * (x j + t * (z j - x j) - x j) * avgDist d (train i) (train j) = t ^ 2 * ∑ i, ∑ j, (z i - x i) * (z j - x j) * avgDist d (train i) (train j) := by
        rw [Finset.mul_sum]
        refine Finset.sum_congr rfl fun i _ => ?_
        rw [Finset.mul_sum]
        exact Finset.sum_congr rfl fun j _ => by ring
      rw [h4, h5] at h3
      linarith
    linarith
  have h1 := first bag x x' hx hx' ho
  have h2 := energyLoss_diff d hd train bag' x' x
  have h2' := energyLoss_diff d hd train bag' x x'
  have h3 := first bag' x' x hx' hx ho'
  have hκ' := hκ x x' (by rw [hx.2, hx'.2])
  set S := totalError x x' with hS
  set E := totalError (fun i => avgDist d (train i) bag) (fun i => avgDist d (train i) bag') with hE
  have hS0 : 0 ≤ S := Finset.sum_nonneg fun i _ => abs_nonneg _
  have hE0 : 0 ≤ E := Finset.sum_nonneg fun i _ => abs_nonneg _
  have hflip : ∑ i, ∑ j, (x' i - x i) * (x' j - x j) * avgDist d (train i) (train j) = ∑ i, ∑ j, (x i - x' i) * (x j - x' j) * avgDist d (train i) (train j) :=
    Finset.sum_congr rfl fun i _ => Finset.sum_congr rfl fun j _ => by ring
  rw [hflip] at h2'
  have hlin : ∑ i, (x' i - x i) * (avgDist d (train i) bag - ∑ j, x j * avgDist d (train i) (train j))
      = ∑ i, (x' i - x i) * (avgDist d (train i) bag - avgDist d (train i) bag') + ∑ i, (x' i - x i) * (avgDist d (train i) bag' - ∑ j, x j * avgDist d (train i) (train j)) := by
    rw [← Finset.sum_add_distrib]
    exact Finset.sum_congr rfl fun i _ => by ring
  have hb : ∑ i, (x' i - x i) * (avgDist d (train i) bag - avgDist d (train i) bag') ≤ S * E := by
    refine (le_abs_self _).trans ((Finset.abs_sum_le_sum_abs _ _).trans ?_)
    rw [hS, Spec.totalError, Finset.sum_mul]
    refine Finset.sum_le_sum fun i _ => ?_
    rw [abs_mul, abs_sub_comm (x' i)]
    exact mul_le_mul_of_nonneg_left (Finset.single_le_sum (f := fun i => |avgDist d (train i) bag - avgDist d (train i) bag'|) (fun i _ => abs_nonneg _) (Finset.mem_univ i)) (abs_nonneg _)
  have h4 : S ^ 2 ≤ κ * (S * E) := by
    refine hκ'.trans (mul_le_mul_of_nonneg_left ?_ hκ0)
    linarith
  rcases hS0.lt_or_eq with hpos | h0
  · have : S * S ≤ S * (κ * E) := by linarith
    exact le_of_mul_le_mul_left this hpos
  · rw [← h0]
    positivity

theorem binInd_sum {nb : ℕ} {edges : Fin (nb + 1) → EReal} (hm : Monotone edges) (v : ℝ) : (∀ b, 0 ≤ binInd edges b v) ∧ ∑ b, binInd edges b v ≤ 1 := by
  have h01 : ∀ i, 0 ≤ cumInd edges i v ∧ cumInd edges i v ≤ 1 := fun i => by
    unfold cumInd
    split_ifs <;> norm_num
  refine ⟨fun b => binInd_nonneg _ hm b v, ?_⟩
  have h : ∑ b, binInd edges b v = cumInd edges (Fin.last nb) v - cumInd edges 0 v := by
    unfold binInd
    rw [Finset.sum_sub_distrib]
    have h1 := Fin.sum_univ_succ fun i => cumInd edges i v
    have h2 := Fin.sum_univ_castSucc fun i => cumInd edges i v
    linarith
  rw [h]
  linarith [(h01 (Fin.last nb)).2, (h01 0).1]

theorem binInd_distance {nd nb : ℕ} {cuts : Fin nd → Fin (nb + 1) → EReal} (hm : ∀ d, Monotone (cuts d)) (v v' : Fin nd → ℝ) : ∑ d, ∑ b, |binInd (cuts d) b (v d) - binInd (cuts d) b (v' d)| ≤ 2 * nd := by
  refine (Finset.sum_le_sum fun d _ => show _ ≤ (2:ℝ) from ?_).trans_eq (by simp [mul_comm])
  obtain ⟨h0, h1⟩ := binInd_sum (hm d) (v d)
  obtain ⟨h0', h1'⟩ := binInd_sum (hm d) (v' d)
  calc ∑ b, |binInd (cuts d) b (v d) - binInd (cuts d) b (v' d)| ≤ ∑ b, (binInd (cuts d) b (v d) + binInd (cuts d) b (v' d)) := Finset.sum_le_sum fun b _ => by
        rw [abs_le]
        have := h0 b
        have := h0' b
        constructor <;> linarith
    _ ≤ 2 := by rw [Finset.sum_add_distrib]; linarith

theorem sum_stack {nd nb : ℕ} (g : Fin nd → Fin nb → ℝ) : ∑ i, stackBlocks g i = ∑ d, ∑ b, g d b := by
  rw [← Fintype.sum_prod_type']
  exact Equiv.sum_comp finProdFinEquiv.symm fun x => g x.1 x.2

theorem cumsum_distance {m : ℕ} (u u' : Fin m → ℝ) (i : Fin m) : |cumsum u i - cumsum u' i| ≤ ∑ l, |u l - u' l| := by
  have : cumsum u i - cumsum u' i = ∑ l, if l ≤ i then u l - u' l else 0 := by
    rw [cumsum, cumsum, ← Finset.sum_sub_distrib]
    exact Finset.sum_congr rfl fun l _ => by split_ifs <;> simp
  rw [this]
  refine (Finset.abs_sum_le_sum_abs _ _).trans (Finset.sum_le_sum fun l _ => ?_)
  split_ifs
  · exact le_rfl
  · simp

/-- The factor for the two kinds of representations with `m` numbers: histograms (PDF), in which one example counts once, and cumulative histograms (CDF), in which it counts for all that follow. -/
def spread (f : DistFun) (m : ℕ) : ℝ := match f with | .pdf => 1 | .cdf => m

/-- How much the representations of two bags can differ, in terms of the histograms. -/
theorem accumulate_distance (kind : CumKind) (f : DistFun) {nd nb : ℕ} (u u' : Fin nd → Fin nb → ℝ) :
    totalError (accumulate kind f u) (accumulate kind f u') ≤ spread f (nd * nb) * ∑ d, ∑ b, |u d b - u' d b| := by
  have hst : ∑ i, |stackBlocks u i - stackBlocks u' i| = ∑ d, ∑ b, |u d b - u' d b| := sum_stack fun d b => |u d b - u' d b|
  unfold accumulate spread totalError
  cases f with
  | pdf => simp only [one_mul]; exact hst.le
  | cdf =>
    cases kind with
    | whole =>
      simp only
      refine (Finset.sum_le_sum fun i _ => cumsum_distance _ _ i).trans_eq ?_
      rw [Finset.sum_const, Finset.card_univ, Fintype.card_fin, nsmul_eq_mul, hst]
    | perBlock =>
      simp only
      refine (Finset.sum_le_sum fun i _ => (cumsum_distance _ _ _).trans (show _ ≤ ∑ d, ∑ b, |u d b - u' d b| from ?_)).trans_eq ?_
      · exact Finset.single_le_sum (f := fun d => ∑ b, |u d b - u' d b|) (fun d _ => Finset.sum_nonneg fun b _ => abs_nonneg _) (Finset.mem_univ _)
      · rw [Finset.sum_const, Finset.card_univ, Fintype.card_fin, nsmul_eq_mul]

theorem df_replaced {D : Type*} {nd nc : ℕ} (kind : CumKind) (cfg : DfCfg) (att : Fin nd → D → ℝ) (fit : DfFit nd cfg.nBins nc) (hm : ∀ d, Monotone (fit.cuts d)) {bag bag' : List D} {v v' : D} (h : OneReplaced bag bag' v v')
    (q q' : Fin (nd * cfg.nBins) → ℝ) (hq : dfTest kind cfg att fit bag = .ok q) (hq' : dfTest kind cfg att fit bag' = .ok q') : totalError q q' ≤ spread cfg.f (nd * cfg.nBins) * (2 * nd) / bag.length := by
  rw [dfTest_eq kind cfg att fit hm] at hq hq'
  rw [← Except.ok.inj hq, ← Except.ok.inj hq', mul_div_assoc]
  have hs : 0 ≤ spread cfg.f (nd * cfg.nBins) := by unfold spread; split <;> positivity
  refine (accumulate_distance kind cfg.f _ _).trans (mul_le_mul_of_nonneg_left ?_ hs)
  refine le_trans (le_of_eq ?_) (div_le_div_of_nonneg_right (binInd_distance hm (fun d => att d v) fun d => att d v') (Nat.cast_nonneg _))
  rw [Finset.sum_div]
  refine Finset.sum_congr rfl fun d _ => ?_
  rw [Finset.sum_div]
  refine Finset.sum_congr rfl fun b _ => ?_
  have := replaced_mean h fun row => binInd (fit.cuts d) b (att d row)
  unfold meanOf at this
  rw [this, abs_div, Nat.abs_cast]

/-- The average distances to two bags that differ in one example. -/
theorem avgDist_replaced {P : Type*} (d : P → P → ℝ) (hd : ∀ x y, d x y = d y x) (htri : ∀ x y z, d x z ≤ d x y + d y z) {n : ℕ} (train : Fin n → List P) (hne : ∀ i, train i ≠ []) {bag bag' : List P} {v v' : P} (h : OneReplaced bag bag' v v') :
    totalError (fun i => avgDist d (train i) bag) (fun i => avgDist d (train i) bag') ≤ n * d v v' / bag.length := by
  simp only [avgDist_mean]
  rw [replaced_totalError h fun i b => meanOf (train i) fun a => d a b]
  refine div_le_div_of_nonneg_right ?_ (Nat.cast_nonneg _)
  refine (Finset.sum_le_sum fun i _ => show _ ≤ d v v' from ?_).trans_eq (by simp)
  have hl : (0:ℝ) < (train i).length := by exact_mod_cast List.length_pos_iff.2 (hne i)
  have key : ∀ v v', meanOf (train i) (fun a => d a v) ≤ meanOf (train i) (fun a => d a v') + d v v' := by
    intro v v'
    rw [meanOf, meanOf, div_add' _ _ _ hl.ne']
    refine div_le_div_of_nonneg_right ?_ hl.le
    clear hne hl
    induction train i with
    | nil => simp
    | cons a l ih =>
      simp only [List.map_cons, List.sum_cons, List.length_cons, Nat.cast_add, Nat.cast_one]
      have := htri a v' v
      rw [hd v' v] at this
      linarith
  have h1 := key v v'
  have h2 := key v' v
  rw [hd v' v] at h2
  rw [abs_le]
  constructor <;> linarith

theorem euclidean_le_totalError {m : ℕ} (v w : Fin m → ℝ) : euclidean v w ≤ totalError v w := by
  refine Real.sqrt_le_iff.2 ⟨Finset.sum_nonneg fun k _ => abs_nonneg _, ?_⟩
  have := Finset.sum_sq_le_sq_sum_of_nonneg (s := Finset.univ) (f := fun k => |v k - w k|) fun k _ => abs_nonneg _
  simpa [totalError] using this

/-! ## C144 -/

section
variable {σ D α : Type} {k : ℕ} [LinearOrder α] (enc : Bool → α) (w : World σ D α) (et et' : Option ℕ) (X Xt : List D) (y : List α) (hy : y ≠ []) (r : ℕ)
include hy

/-- **C144** for CC. -/
theorem C144_cc (ops : EstOps σ D α k) (P : List α) (hP : P.length = r * y.length) (bag bag' : List α) (v v' : α) (h : OneReplaced bag bag' v v') (hv : v ∈ y) (hv' : v' ∈ y) :
    ∃ x x' : Fin (labelsOf y).length → ℝ, ucRun ops enc w ⟨ccClass, et, et'⟩ X y (some (.crisp P)) Xt (some (.crisp bag)) = .ok (some (realList x))
      ∧ ucRun ops enc w ⟨ccClass, et, et'⟩ X y (some (.crisp P)) Xt (some (.crisp bag')) = .ok (some (realList x')) ∧ totalError x x' ≤ 2 / bag.length := by
  obtain ⟨hne, hne'⟩ := replaced_ne h
  have e : ∀ bag : List α, bag ≠ [] → ucRun ops enc w ⟨ccClass, et, et'⟩ X y (some (.crisp P)) Xt (some (.crisp bag)) = .ok (some (realList (freqs (labelsOf y) bag))) := by
    intro bag hne
    rw [ucRun_given_crisp ops enc w X Xt y ccClass rfl rfl et et' hy r P _ hP]
    have : answerOn (k := k) ccClass y r (.crisp P) (.crisp bag) = .ok (some (vecList (classFreqs (labelsOf y) bag))) := rfl
    rw [this, classFreqs_fin _ _ hne]
    rfl
  refine ⟨_, _, e bag hne, e bag' hne', ?_⟩
  rw [freqs_meanOf, freqs_meanOf, replaced_totalError h]
  exact div_le_div_of_nonneg_right (indicator_distance y v v' hv hv') (Nat.cast_nonneg _)

/-- **C144** for PCC. -/
theorem C144_pcc (ops : EstOps σ D α (labelsOf y).length) (P : List (Fin (labelsOf y).length → ℝ)) (hP : P.length = r * y.length) (bag bag' : List (Fin (labelsOf y).length → ℝ)) (v v' : Fin (labelsOf y).length → ℝ)
    (h : OneReplaced bag bag' v v') (hv : IsPrev v) (hv' : IsPrev v') :
    ∃ x x' : Fin (labelsOf y).length → ℝ, ucRun ops enc w ⟨pccClass, et, et'⟩ X y (some (.probs P)) Xt (some (.probs bag)) = .ok (some (realList x))
      ∧ ucRun ops enc w ⟨pccClass, et, et'⟩ X y (some (.probs P)) Xt (some (.probs bag')) = .ok (some (realList x')) ∧ totalError x x' ≤ 2 / bag.length := by
  obtain ⟨hne, hne'⟩ := replaced_ne h
  have e : ∀ bag : List (Fin (labelsOf y).length → ℝ), bag ≠ [] → ucRun ops enc w ⟨pccClass, et, et'⟩ X y (some (.probs P)) Xt (some (.probs bag)) = .ok (some (realList fun j => meanOf bag fun row => row j)) := by
    intro bag hne
    rw [ucRun_given_probs ops enc w X Xt y pccClass rfl rfl et et' hy r P _ hP]
    have : answerOn pccClass y r (.probs P) (.probs bag) = .ok (some (vecList (colMeans bag))) := rfl
    rw [this, colMeans_eq _ hne]
    rfl
  refine ⟨_, _, e bag hne, e bag' hne', ?_⟩
  rw [replaced_totalError h fun j row => row j]
  exact div_le_div_of_nonneg_right (prev_distance v v' hv hv') (Nat.cast_nonneg _)

variable (hr : 0 < r)
include hr

/-- **C144** for AC. -/
theorem C144_ac (ops : EstOps σ D α k) (sol : Solvers) (dist : Dist) (P : List α) (hP : P.length = r * y.length) (hPy : ∀ a ∈ P, a ∈ y) (κ : ℝ) (hκ0 : 0 ≤ κ)
    (hκ : TellsApart (fun i j : Fin (labelsOf y).length => condFreq (stacked y r) P (labelsOf y)[i] (labelsOf y)[j]) κ) (h2 : (labelsOf y).length = 2 → κ < 1000)
    (bag bag' : List α) (v v' : α) (h : OneReplaced bag bag' v v') (hbag : ∀ a ∈ bag, a ∈ y) (hbag' : ∀ a ∈ bag', a ∈ y) :
    ∃ x x' : Fin (labelsOf y).length → ℝ, ucRun ops enc w ⟨acClass sol dist, et, et'⟩ X y (some (.crisp P)) Xt (some (.crisp bag)) = .ok (some (realList x))
      ∧ ucRun ops enc w ⟨acClass sol dist, et, et'⟩ X y (some (.crisp P)) Xt (some (.crisp bag')) = .ok (some (realList x')) ∧ totalError x x' ≤ 4 * κ / bag.length := by
  obtain ⟨hne, hne'⟩ := replaced_ne h
  have hq := freqs_isPrev _ (labelsOf_nodup y) bag hne fun a ha => (mem_labelsOf y _).2 (hbag a ha)
  have hq' := freqs_isPrev _ (labelsOf_nodup y) bag' hne' fun a ha => (mem_labelsOf y _).2 (hbag' a ha)
  obtain ⟨x, x', e, e', he⟩ := adjust_lipschitz sol dist (cmReal y r P) (fun i => (cmReal_row y r hr P hP hPy i).2) κ hκ h2 _ _ hq.2 hq'.2
  refine ⟨x, x', ?_, ?_, he.trans ?_⟩
  · rw [ucRun_given_crisp ops enc w X Xt y (acClass sol dist) rfl rfl et et' hy r P _ hP, answer_ac_eq y sol dist r P _ hP hne, normalizeRows_eq y r hr P hP hPy, e]
    rfl
  · rw [ucRun_given_crisp ops enc w X Xt y (acClass sol dist) rfl rfl et et' hy r P _ hP, answer_ac_eq y sol dist r P _ hP hne', normalizeRows_eq y r hr P hP hPy, e']
    rfl
  · rw [freqs_meanOf, freqs_meanOf, replaced_totalError h, show 4 * κ / (bag.length : ℝ) = 2 * κ * (2 / bag.length) by ring]
    exact mul_le_mul_of_nonneg_left (div_le_div_of_nonneg_right (indicator_distance y v v' (hbag v (replaced_mem h).1) (hbag' v' (replaced_mem h).2)) (Nat.cast_nonneg _))
      (mul_nonneg two_pos.le hκ0)

/-- **C144** for PAC. -/
theorem C144_pac (ops : EstOps σ D α (labelsOf y).length) (sol : Solvers) (dist : Dist) (P : List (Fin (labelsOf y).length → ℝ)) (hP : P.length = r * y.length) (hPp : ∀ row ∈ P, IsPrev row) (κ : ℝ) (hκ0 : 0 ≤ κ)
    (hκ : TellsApart (fun i j : Fin (labelsOf y).length => condMean (stacked y r) P (fun row => row j) (labelsOf y)[i]) κ) (h2 : (labelsOf y).length = 2 → κ < 1000)
    (bag bag' : List (Fin (labelsOf y).length → ℝ)) (v v' : Fin (labelsOf y).length → ℝ) (h : OneReplaced bag bag' v v') (hbag : ∀ row ∈ bag, IsPrev row) (hbag' : ∀ row ∈ bag', IsPrev row) :
    ∃ x x' : Fin (labelsOf y).length → ℝ, ucRun ops enc w ⟨pacClass sol dist, et, et'⟩ X y (some (.probs P)) Xt (some (.probs bag)) = .ok (some (realList x))
      ∧ ucRun ops enc w ⟨pacClass sol dist, et, et'⟩ X y (some (.probs P)) Xt (some (.probs bag')) = .ok (some (realList x')) ∧ totalError x x' ≤ 4 * κ / bag.length := by
  obtain ⟨hne, hne'⟩ := replaced_ne h
  have hq := meanOf_isPrev bag hne hbag
  have hq' := meanOf_isPrev bag' hne' hbag'
  obtain ⟨x, x', e, e', he⟩ := adjust_lipschitz sol dist (pcmReal y r P) (fun i => (pcmReal_row y r hr P hP hPp i).2) κ hκ h2 _ _ hq.2 hq'.2
  refine ⟨x, x', ?_, ?_, he.trans ?_⟩
  · rw [pac_run enc w et et' X Xt y hy r hr ops sol dist P hP _ hne, e]
    rfl
  · rw [pac_run enc w et et' X Xt y hy r hr ops sol dist P hP _ hne', e']
    rfl
  · rw [replaced_totalError h fun j row => row j, show 4 * κ / (bag.length : ℝ) = 2 * κ * (2 / bag.length) by ring]
    exact mul_le_mul_of_nonneg_left (div_le_div_of_nonneg_right (prev_distance v v' (hbag v (replaced_mem h).1) (hbag' v' (replaced_mem h).2)) (Nat.cast_nonneg _))
      (mul_nonneg two_pos.le hκ0)

/-- **C144** for FriedmanME with 'L2'. -/
theorem C144_friedman (ops : EstOps σ D α (labelsOf y).length) (sv : CvxSolver) (hsv : ExactCvx sv) (qp : QPSolver) (hqp : ExactQP qp) (la : LinAlg (labelsOf y).length) (hla : ExactLinAlg la) (fuel : ℕ) (tol : ℝ)
    (P : List (Fin (labelsOf y).length → ℝ)) (hP : P.length = r * y.length) (T : Fin (labelsOf y).length → Fin (labelsOf y).length → ℝ)
    (hT : T = fun i c => reachShare i (freq y (labelsOf y)[i]) (ofClass ((stacked y r).zip P) (labelsOf y)[c])) (hd : ∀ x : Fin (labelsOf y).length → ℝ, (∀ i, ∑ j, T i j * x j = 0) → x = 0)
    (κ : ℝ) (hκ0 : 0 ≤ κ) (hκ : MixturesTellApart euclidean T κ) (bag bag' : List (Fin (labelsOf y).length → ℝ)) (v v' : Fin (labelsOf y).length → ℝ) (h : OneReplaced bag bag' v v') :
    ∃ x x' : Fin (labelsOf y).length → ℝ, ucRun ops enc w ⟨friedmanClass sv qp la (fuel + 1) tol .l2, et, et'⟩ X y (some (.probs P)) Xt (some (.probs bag)) = .ok (some (realList x))
      ∧ ucRun ops enc w ⟨friedmanClass sv qp la (fuel + 1) tol .l2, et, et'⟩ X y (some (.probs P)) Xt (some (.probs bag')) = .ok (some (realList x')) ∧ totalError x x' ≤ κ * (labelsOf y).length / bag.length := by
  obtain ⟨x, h1, hx, ho⟩ := friedman_closest enc w et et' X Xt y hy r hr ops sv hsv qp hqp la hla fuel tol .l2 rfl P hP T hT hd bag
  obtain ⟨x', h1', hx', ho'⟩ := friedman_closest enc w et et' X Xt y hy r hr ops sv hsv qp hqp la hla fuel tol .l2 rfl P hP T hT hd bag'
  refine ⟨x, x', h1, h1', (hκ x x' hx hx').trans ?_⟩
  rw [mul_div_assoc]
  refine mul_le_mul_of_nonneg_left ((projection_lipschitz T _ _ x x' hx hx' ho ho').trans ((euclidean_le_totalError _ _).trans ?_)) hκ0
  have hreach : ∀ (i : Fin (labelsOf y).length) (l : List (Fin (labelsOf y).length → ℝ)), reachShare i (freq y (labelsOf y)[i]) l = meanOf l fun row => if freq y (labelsOf y)[i] ≤ row i then (1:ℝ) else 0 := by
    intro i l
    unfold reachShare meanOf
    congr 1
    induction l with
    | nil => simp
    | cons a l ih =>
      rw [List.map_cons, List.sum_cons, ← ih, List.countP_cons]
      by_cases h : freq y (labelsOf y)[i] ≤ a i <;> simp [h, add_comm]
  simp only [hreach]
  rw [replaced_totalError h]
  refine div_le_div_of_nonneg_right ?_ (Nat.cast_nonneg _)
  refine (Finset.sum_le_sum fun i _ => show _ ≤ (1:ℝ) from ?_).trans_eq (by simp)
  dsimp only
  split_ifs <;> norm_num

/-- **C144** for DFy (and MMy) with 'L2'. -/
theorem C144_dfy (ops : EstOps σ D α (labelsOf y).length) (sv : CvxSolver) (hsv : ExactCvx sv) (qp : QPSolver) (hqp : ExactQP qp) (ppf : ℝ → EReal) (la : LinAlg (labelsOf y).length) (hla : ExactLinAlg la) (fuel : ℕ) (tol : ℝ)
    (cfg : DfCfg) (P : List (Fin (labelsOf y).length → ℝ)) (hP : P.length = r * y.length) (fit : DfFit (nDescriptors (labelsOf y).length) cfg.nBins (labelsOf y).length)
    (hfit : dfyFit ppf cfg (labelsOf y) y (stacked y r) P = .ok fit) (hd : ∀ x : Fin (labelsOf y).length → ℝ, (∀ i, ∑ j, fit.train i j * x j = 0) → x = 0)
    (κ : ℝ) (hκ0 : 0 ≤ κ) (hκ : MixturesTellApart euclidean fit.train κ) (bag bag' : List (Fin (labelsOf y).length → ℝ)) (v v' : Fin (labelsOf y).length → ℝ) (h : OneReplaced bag bag' v v') :
    ∃ x x' : Fin (labelsOf y).length → ℝ, ucRun ops enc w ⟨dfyClass ppf sv qp la (fuel + 1) tol cfg .l2, et, et'⟩ X y (some (.probs P)) Xt (some (.probs bag)) = .ok (some (realList x))
      ∧ ucRun ops enc w ⟨dfyClass ppf sv qp la (fuel + 1) tol cfg .l2, et, et'⟩ X y (some (.probs P)) Xt (some (.probs bag')) = .ok (some (realList x'))
      ∧ totalError x x' ≤ κ * (spread cfg.f (nDescriptors (labelsOf y).length * cfg.nBins) * (2 * nDescriptors (labelsOf y).length)) / bag.length := by
  obtain ⟨q, x, hq, h1, hx, ho⟩ := dfy_closest enc w et et' X Xt y hy r ops sv hsv qp hqp ppf la hla fuel tol cfg .l2 rfl P hP fit hfit hd bag
  obtain ⟨q', x', hq', h1', hx', ho'⟩ := dfy_closest enc w et et' X Xt y hy r ops sv hsv qp hqp ppf la hla fuel tol cfg .l2 rfl P hP fit hfit hd bag'
  refine ⟨x, x', h1, h1', (hκ x x' hx hx').trans ?_⟩
  rw [mul_div_assoc]
  refine mul_le_mul_of_nonneg_left ((projection_lipschitz fit.train _ _ x x' hx hx' ho ho').trans ((euclidean_le_totalError _ _).trans ?_)) hκ0
  exact df_replaced .whole cfg _ fit (df_means ppf .whole cfg (some (0, 1)) _ y (stacked y r) hy P fit hfit fun _ => 0).1 h q q' hq hq'

/-- **C144** for EDy, with a distance `d` for which the triangle inequality holds. -/
theorem C144_edy {n : ℕ} (ops : EstOps σ D α (n + 1)) (hn : 0 < n) (hk : (labelsOf y).length = n + 1) (qp : QPSolver) (hqp : ExactQP qp) (la : LinAlg n) (fuel : ℕ) (d : (Fin (n + 1) → ℝ) → (Fin (n + 1) → ℝ) → ℝ)
    (hd : ∀ x y, d x y = d y x) (htri : ∀ x y z, d x z ≤ d x y + d y z) (P : List (Fin (n + 1) → ℝ)) (hP : P.length = r * y.length) (train : Fin (n + 1) → List (Fin (n + 1) → ℝ))
    (htr : train = fun i => ofClass ((stacked y r).zip P) (labelsOf y)[Fin.cast hk.symm i]) (hsep : Separated d train) (κ : ℝ) (hκ0 : 0 ≤ κ) (hκ : EnergyTellsApart d train κ)
    (bag bag' : List (Fin (n + 1) → ℝ)) (v v' : Fin (n + 1) → ℝ) (h : OneReplaced bag bag' v v') :
    ∃ x x' : Fin (n + 1) → ℝ, ucRun ops enc w ⟨edyClass qp la fuel d, et, et'⟩ X y (some (.probs P)) Xt (some (.probs bag)) = .ok (some (realList x))
      ∧ ucRun ops enc w ⟨edyClass qp la fuel d, et, et'⟩ X y (some (.probs P)) Xt (some (.probs bag')) = .ok (some (realList x')) ∧ totalError x x' ≤ κ * (((n + 1 : ℕ) : ℝ) * d v v') / bag.length := by
  subst htr
  have hl : (stacked y r).length = P.length := by rw [stacked_length, hP]
  have hmem : ∀ i : Fin (n + 1), (labelsOf y)[Fin.cast hk.symm i] ∈ stacked y r := fun i => stacked_mem y r hr _ ((mem_labelsOf y _).1 (List.getElem_mem _))
  obtain ⟨f, h1, h2⟩ := ed_closest hn qp hqp la d hd (fun i : Fin (n + 1) => (labelsOf y)[Fin.cast hk.symm i]) (stacked y r) P hl hmem hsep fuel
  obtain ⟨hne, hne'⟩ := replaced_ne h
  obtain ⟨x, h3, hx, hopt⟩ := h2 bag hne
  obtain ⟨x', h3', hx', hopt'⟩ := h2 bag' hne'
  have h1' : edFit la fuel d (fun i => (npUnique y)[Fin.cast (show n + 1 = (npUnique y).length from hk.symm) i]) (stacked y r) P = some f := h1
  have run : ∀ bag x, edPredict qp d f bag = .ok x → ucRun ops enc w ⟨edyClass qp la fuel d, et, et'⟩ X y (some (.probs P)) Xt (some (.probs bag)) = .ok (some (realList x)) := by
    intro bag x h3
    rw [ucRun_given_probs ops enc w X Xt y (edyClass qp la fuel d) rfl rfl et et' hy r P _ hP]
    simp only [answerOn, learnAnswer, fittedState, edyClass, trainData, probRows, columnsAre, if_true, bind, Except.bind, keep, hl, ne_eq, not_true_eq_false, if_false]
    rw [dif_pos (show (npUnique y).length = n + 1 from hk)]
    simp only [h1', h3, Except.map]
  refine ⟨x, x', run _ _ h3, run _ _ h3', (energy_lipschitz d hd _ κ hκ0 hκ bag bag' x x' hx hx' hopt hopt').trans ?_⟩
  rw [mul_div_assoc]
  exact mul_le_mul_of_nonneg_left (avgDist_replaced d hd htri _ (fun i => selectRows_ne hl (hmem i)) h) hκ0

end

/-- **C144** for EDX. -/
theorem C144_edx {β α : Type*} [LinearOrder α] {n : ℕ} (y : List α) (hn : 0 < n) (hk : (labelsOf y).length = n + 1) (qp : QPSolver) (hqp : ExactQP qp) (la : LinAlg n) (fuel : ℕ) (d : β → β → ℝ) (hd : ∀ x y, d x y = d y x)
    (htri : ∀ x y z, d x z ≤ d x y + d y z) (X : List β) (hX : y.length = X.length) (train : Fin (n + 1) → List β) (htr : train = fun i => ofClass (y.zip X) (labelsOf y)[Fin.cast hk.symm i]) (hsep : Separated d train)
    (κ : ℝ) (hκ0 : 0 ≤ κ) (hκ : EnergyTellsApart d train κ) :
    ∃ f, edFit la fuel d (fun i => (labelsOf y)[Fin.cast hk.symm i]) y X = some f ∧ ∀ bag bag' v v', OneReplaced bag bag' v v' → ∃ x x', edPredict qp d f bag = .ok x ∧ edPredict qp d f bag' = .ok x'
      ∧ totalError x x' ≤ κ * (((n + 1 : ℕ) : ℝ) * d v v') / bag.length := by
  subst htr
  have hmem : ∀ i : Fin (n + 1), (labelsOf y)[Fin.cast hk.symm i] ∈ y := fun i => (mem_labelsOf' y _).1 (List.getElem_mem _)
  obtain ⟨f, h1, h2⟩ := ed_closest hn qp hqp la d hd (fun i : Fin (n + 1) => (labelsOf y)[Fin.cast hk.symm i]) y X hX hmem hsep fuel
  refine ⟨f, h1, fun bag bag' v v' h => ?_⟩
  obtain ⟨hne, hne'⟩ := replaced_ne h
  obtain ⟨x, h3, hx, hopt⟩ := h2 bag hne
  obtain ⟨x', h3', hx', hopt'⟩ := h2 bag' hne'
  refine ⟨x, x', h3, h3', (energy_lipschitz d hd _ κ hκ0 hκ bag bag' x x' hx hx' hopt hopt').trans ?_⟩
  rw [mul_div_assoc]
  exact mul_le_mul_of_nonneg_left (avgDist_replaced d hd htri _ (fun i => selectRows_ne hX (hmem i)) h) hκ0

/-- **C144** for DFX (and MMX) with 'L2': the answers are those of `_solve` with the representation of the bag. -/
theorem C144_dfx {α : Type} [LinearOrder α] {nf : ℕ} (y : List α) (hy : y ≠ []) (sv : CvxSolver) (hsv : ExactCvx sv) (qp : QPSolver) (hqp : ExactQP qp) (ppf : ℝ → EReal) (la : LinAlg (labelsOf y).length) (hla : ExactLinAlg la)
    (fuel : ℕ) (tol : ℝ) (cfg : DfCfg) (X : List (Fin nf → ℝ)) (fit : DfFit nf cfg.nBins (labelsOf y).length) (hfit : dfxFit ppf cfg (labelsOf y) y X = .ok fit)
    (hd : ∀ x : Fin (labelsOf y).length → ℝ, (∀ i, ∑ j, fit.train i j * x j = 0) → x = 0) (par : QPParams (labelsOf y).length ((labelsOf y).length + 1)) (hpar : computeL2ParamTrain la (fuel + 1) fit.train = some par)
    (κ : ℝ) (hκ0 : 0 ≤ κ) (hκ : MixturesTellApart euclidean fit.train κ) (bag bag' : List (Fin nf → ℝ)) (v v' : Fin nf → ℝ) (h : OneReplaced bag bag' v v') :
    ∃ (q q' : Fin (nf * cfg.nBins) → ℝ) (x x' : Fin (labelsOf y).length → ℝ), dfxTest cfg fit bag = .ok q ∧ dfxTest cfg fit bag' = .ok q' ∧ dfSolve sv qp tol .l2 fit.train par q = .ok (some ⟨(labelsOf y).length, x⟩) ∧ dfSolve sv qp tol .l2 fit.train par q' = .ok (some ⟨(labelsOf y).length, x'⟩)
      ∧ totalError x x' ≤ κ * (spread cfg.f (nf * cfg.nBins) * (2 * nf)) / bag.length := by
  have close : ∀ bag, ∃ (q : Fin (nf * cfg.nBins) → ℝ) (x : Fin (labelsOf y).length → ℝ), dfxTest cfg fit bag = .ok q ∧ dfSolve sv qp tol .l2 fit.train par q = .ok (some ⟨(labelsOf y).length, x⟩) ∧ IsPrev x ∧ ∀ p, IsPrev p → euclidean q (mixtureOf fit.train x) ≤ euclidean q (mixtureOf fit.train p) := by
    intro bag
    obtain ⟨h0, q, hq, hq0⟩ := df_nonneg ppf .perBlock cfg none _ y y hy X fit hfit bag
    obtain ⟨par', x, hpar', -, hsolve, hx, hopt⟩ := matchAnswer_closest sv hsv qp hqp (labels_pos y hy) la hla fuel tol .l2 rfl fit fit.train h0 hd q hq0
    refine ⟨q, x, hq, ?_, hx, hopt⟩
    refine hsolve par fun h => ?_
    simp only [matchParams, hpar] at hpar'
    exact (Except.ok.inj hpar').symm
  obtain ⟨q, x, hq, h1, hx, ho⟩ := close bag
  obtain ⟨q', x', hq', h1', hx', ho'⟩ := close bag'
  refine ⟨q, q', x, x', hq, hq', h1, h1', (hκ x x' hx hx').trans ?_⟩
  rw [mul_div_assoc]
  refine mul_le_mul_of_nonneg_left ((projection_lipschitz fit.train _ _ x x' hx hx' ho ho').trans ((euclidean_le_totalError _ _).trans ?_)) hκ0
  exact df_replaced .perBlock cfg _ fit (df_means ppf .perBlock cfg none _ y y hy X fit hfit fun _ => 0).1 h q q' hq hq'

/-- **C144** for DeBias: with training posteriors that are not all equal to the prevalence of the positive class, the answer changes by at most twice the change in the posterior of the positive class, divided by the number of
examples and by the relative variance of the training posteriors. -/
theorem C144_debias {σ D α : Type} [LinearOrder α] (enc : Bool → α) (w : World σ D α) (et et' : Option ℕ) (X Xt : List D) (y : List α) (hy : y ≠ []) (r : ℕ) (ops : EstOps σ D α 2) (h2 : (labelsOf y).length = 2)
    (P : List (Fin 2 → ℝ)) (hP : P.length = r * y.length) (hv : ∃ row ∈ P, row 1 ≠ freq y (posLabel y h2)) (bag bag' : List (Fin 2 → ℝ)) (v v' : Fin 2 → ℝ) (h : OneReplaced bag bag' v v') :
    ∃ x x' : Fin 2 → ℝ, ucRun ops enc w ⟨deBiasClass, et, et'⟩ X y (some (.probs P)) Xt (some (.probs bag)) = .ok (some (realList x))
      ∧ ucRun ops enc w ⟨deBiasClass, et, et'⟩ X y (some (.probs P)) Xt (some (.probs bag')) = .ok (some (realList x'))
      ∧ totalError x x' ≤ 2 * |v 1 - v' 1| / relVariance (freq y (posLabel y h2)) P / bag.length := by
  obtain ⟨hne, hne'⟩ := replaced_ne h
  have run : ∀ bag : List (Fin 2 → ℝ), bag ≠ [] → ∃ p : ℝ, ucRun ops enc w ⟨deBiasClass, et, et'⟩ X y (some (.probs P)) Xt (some (.probs bag)) = .ok (some (realList ![1 - p, p]))
      ∧ p = max 0 (min (freq y (posLabel y h2) + (meanOf bag (fun r => r 1) - freq y (posLabel y h2)) / relVariance (freq y (posLabel y h2)) P) 1) ∧ 0 < relVariance (freq y (posLabel y h2)) P := by
    intro bag hne
    obtain ⟨f, p, h1, hp, e, hV⟩ := C50_debias_formula y h2 P bag hv hne
    refine ⟨p, ?_, e, hV⟩
    have hpre : (deBiasClass (α := α)).pre y = none := by
      simp only [deBiasClass]
      rw [if_neg (not_not.2 (show (npUnique y).length = 2 from h2))]
    rw [ucRun_given_probs ops enc w X Xt y deBiasClass rfl hpre et et' hy r P _ hP]
    simp only [answerOn, learnAnswer, fittedState, deBiasClass, trainData, probRows, if_true, bind, Except.bind, h1, keep, Except.map, hp]
    simp [vecList, realList]
  obtain ⟨p, e, hp, hV⟩ := run bag hne
  obtain ⟨p', e', hp', -⟩ := run bag' hne'
  refine ⟨_, _, e, e', ?_⟩
  have hclip : ∀ a b : ℝ, |max 0 (min a 1) - max 0 (min b 1)| ≤ |a - b| := fun a b => by
    rw [max_comm 0, max_comm 0]
    exact (abs_max_sub_max_le_abs _ _ _).trans (abs_inf_sub_inf_le_abs a b 1)
  have hm := replaced_mean h fun row => row 1
  set V := relVariance (freq y (posLabel y h2)) P with hVd
  set π := freq y (posLabel y h2) with hπ
  have hd : |p - p'| ≤ |v 1 - v' 1| / V / bag.length := by
    rw [hp, hp']
    refine (hclip _ _).trans (le_of_eq ?_)
    rw [show π + (meanOf bag (fun r => r 1) - π) / V - (π + (meanOf bag' (fun r => r 1) - π) / V) = (meanOf bag (fun r => r 1) - meanOf bag' fun r => r 1) / V by ring, hm, abs_div, abs_div, Nat.abs_cast, abs_of_pos hV,
      div_right_comm]
  have ht : totalError ![1 - p, p] ![1 - p', p'] = 2 * |p - p'| := by
    simp only [totalError, Fin.sum_univ_two, Matrix.cons_val_zero, Matrix.cons_val_one]
    rw [show 1 - p - (1 - p') = -(p - p') by ring, abs_neg, two_mul]
  rw [ht, mul_div_assoc, mul_div_assoc]
  linarith

/-- C144: the hypotheses of AC are met by a classifier that is always right (with `κ = 1`) and a bag of two examples in which one prediction changes; the answers differ by 1, and the bound is 2. -/
example : TellsApart (fun i j : Fin 2 => condFreq (stacked [0, 1] 1) [0, 1] (([0, 1] : List ℕ).getD i 0) (([0, 1] : List ℕ).getD j 0)) 1 ∧ OneReplaced [0, 0] [0, 1] 0 1 := by
  refine ⟨fun p q _ => ?_, [0], [], rfl, rfl⟩
  simp [totalError, expectedPreds, Fin.sum_univ_two, condFreq, stacked]

end Verif.Props
