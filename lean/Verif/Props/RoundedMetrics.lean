import Verif.Model.RoundedMetrics
import Verif.Model.MetricsOrdinal
import Verif.Props.MetricsMulti
import Verif.Proof.RoundedMetrics
import Verif.Proof.Double
import Mathlib.Topology.Algebra.Order.Field
import Mathlib.Analysis.SpecialFunctions.Log.Deriv
import Mathlib.Analysis.Complex.ExponentialBounds

/-!
# C147: error measures in floating-point arithmetic
-/

namespace Verif.Props

open Verif.Model Verif.Spec Verif.Proof Filter Topology

variable {n : ℕ} {A : Arith} {u : ℝ}

/-! ### Relative errors -/

/-- **C147** (`l1`): the computed value is the exact one except for a relative error of `n + 1` roundings; so it is not negative. It is zero exactly for equal vectors. -/
theorem C147_l1 (h : A.Ok u) (p q : Fin n → ℝ) : ∃ a, l1 p q = Fl.fin a ∧ Within u (n + 1) 0 (l1A A p q) a ∧ 0 ≤ l1A A p q ∧ (l1A A p q = 0 ↔ p = q) := by
  have hw : Within u (n + 1) 0 (l1A A p q) (∑ j, |p j - q j|) := by rw [add_comm]; exact within_sum h fun j => within_abs h _
  exact ⟨_, l1_eq p q, hw, within_nonneg h hw, (within_zero h hw).trans (sum_abs_eq_zero p q)⟩

/-- **C147** (`mean_absolute_error`). -/
theorem C147_mae (h : A.Ok u) (hn : n ≠ 0) (p q : Fin n → ℝ) :
    ∃ a, meanAbsoluteError p q = Fl.fin a ∧ Within u (n + 2) 0 (maeA A p q) a ∧ 0 ≤ maeA A p q ∧ (maeA A p q = 0 ↔ p = q) := by
  have hn' : (0:ℝ) < n := by exact_mod_cast Nat.pos_of_ne_zero hn
  have hw : Within u (n + 2) 0 (maeA A p q) ((∑ j, |p j - q j|) / n) := by
    have h1 : Within u (1 + n) 0 (A.sum (List.ofFn fun j => |A.rnd (q j - p j)|)) (∑ j, |q j - p j|) := within_sum h fun j => within_abs h _
    simp_rw [abs_sub_comm (p _)]
    have := within_rnd h (within_div h h1 (within_exact hn'.le) hn')
    rwa [show 1 + n + 0 + 1 = n + 2 by ring] at this
  refine ⟨_, mae_eq hn p q, hw, within_nonneg h hw, (within_zero h hw).trans ?_⟩
  rw [div_eq_zero_iff, or_iff_left hn'.ne', sum_abs_eq_zero]

/-- **C147** (`mean_squared_error`). -/
theorem C147_mse (h : A.Ok u) (hn : n ≠ 0) (p q : Fin n → ℝ) :
    ∃ a, meanSquaredError p q = Fl.fin a ∧ Within u (n + 4) 0 (mseA A p q) a ∧ 0 ≤ mseA A p q ∧ (mseA A p q = 0 ↔ p = q) := by
  have hn' : (0:ℝ) < n := by exact_mod_cast Nat.pos_of_ne_zero hn
  have hw : Within u (n + 4) 0 (mseA A p q) ((∑ j, (p j - q j) ^ 2) / n) := by
    have h1 : Within u (3 + n) 0 (A.sum (List.ofFn fun j => A.rnd (A.rnd (q j - p j) ^ 2))) (∑ j, (q j - p j) ^ 2) := within_sum h fun j => within_rnd h (within_absSq h _)
    simp_rw [sub_sq_comm (p _)]
    have := within_rnd h (within_div h h1 (within_exact hn'.le) hn')
    rwa [show 3 + n + 0 + 1 = n + 4 by ring] at this
  refine ⟨_, mse_eq hn p q, hw, within_nonneg h hw, (within_zero h hw).trans ?_⟩
  rw [div_eq_zero_iff, or_iff_left hn'.ne', sum_sq_eq_zero]

/-- **C147** (`l2`). -/
theorem C147_l2 (h : A.Ok u) (p q : Fin n → ℝ) : ∃ a, l2 p q = Fl.fin a ∧ Within u (n + 4) 0 (l2A A p q) a ∧ 0 ≤ l2A A p q ∧ (l2A A p q = 0 ↔ p = q) := by
  have hw : Within u (n + 4) 0 (l2A A p q) (Real.sqrt (∑ j, (p j - q j) ^ 2)) := by
    have h1 : Within u (3 + n) 0 (A.sum (List.ofFn fun j => A.rnd (A.rnd (p j - q j) ^ 2))) (∑ j, (p j - q j) ^ 2) := within_sum h fun j => within_rnd h (within_absSq h _)
    have := within_rnd h (within_sqrt h h1)
    rwa [show 3 + n + 1 = n + 4 by ring] at this
  refine ⟨_, l2_eq p q, hw, within_nonneg h hw, (within_zero h hw).trans ?_⟩
  rw [Real.sqrt_eq_zero (Finset.sum_nonneg fun _ _ => sq_nonneg _), sum_sq_eq_zero]

/-- **C147** (`bray_curtis`). -/
theorem C147_bray_curtis (h : A.Ok u) (p q : Fin n → ℝ) (hp : IsPrev p) (hq : IsPrev q) :
    ∃ a, brayCurtis p q = Fl.fin a ∧ Within u (n + 2) (n + 1) (brayCurtisA A p q) a ∧ 0 ≤ brayCurtisA A p q ∧ (brayCurtisA A p q = 0 ↔ p = q) := by
  have hs : ∑ j, (p j + q j) = 2 := by rw [Finset.sum_add_distrib, hp.2, hq.2]; norm_num
  have he : brayCurtis p q = Fl.fin ((∑ j, |p j - q j|) / ∑ j, (p j + q j)) := by
    simp only [brayCurtis, Fl.fin_sub, Fl.abs_fin, Fl.fin_add, Fl.sum_fin]
    exact Fl.fin_div _ (by rw [hs]; norm_num)
  have hw : Within u (n + 2) (n + 1) (brayCurtisA A p q) ((∑ j, |p j - q j|) / ∑ j, (p j + q j)) := by
    have h1 : Within u (1 + n) 0 (A.sum (List.ofFn fun j => |A.rnd (p j - q j)|)) (∑ j, |p j - q j|) := within_sum h fun j => within_abs h _
    have h2 : Within u (0 + 1 + n) 0 (A.sum (List.ofFn fun j => A.rnd (p j + q j))) (∑ j, (p j + q j)) :=
      within_sum h fun j => within_rnd h (within_exact (add_nonneg (hp.1 j) (hq.1 j)))
    have := within_rnd h (within_div h h1 h2 (by rw [hs]; norm_num))
    rwa [show 1 + n + 0 + 1 = n + 2 by ring, show 0 + (0 + 1 + n) = n + 1 by ring] at this
  refine ⟨_, he, hw, within_nonneg h hw, (within_zero h hw).trans ?_⟩
  rw [hs, div_eq_zero_iff, or_iff_left two_ne_zero, sum_abs_eq_zero]

/-- **C147** (`probsymmetric`). -/
theorem C147_probsymmetric (h : A.Ok u) (eps : ℝ) (he : 0 < eps) (p q : Fin n → ℝ) (hp : IsPrev p) (hq : IsPrev q) :
    ∃ a, probsymmetric eps p q = Fl.fin a ∧ Within u (n + 5) 2 (probsymmetricA A eps p q) a ∧ 0 ≤ probsymmetricA A eps p q ∧ (probsymmetricA A eps p q = 0 ↔ p = q) := by
  have hpos : ∀ j, 0 < q j + p j + eps := fun j => by linarith [hp.1 j, hq.1 j]
  have hw : Within u (n + 5) 2 (probsymmetricA A eps p q) (2 * ∑ j, (p j - q j) ^ 2 / (p j + q j + eps)) := by
    have h1 : ∀ j, Within u 4 2 (A.rnd (A.rnd (A.rnd (p j - q j) ^ 2) / A.rnd (A.rnd (q j + p j) + eps))) ((p j - q j) ^ 2 / (q j + p j + eps)) := fun j => by
      have hd : Within u 2 0 (A.rnd (A.rnd (q j + p j) + eps)) (q j + p j + eps) :=
        within_rnd h (within_add h (within_rnd h (within_exact (add_nonneg (hq.1 j) (hp.1 j)))) (within_mono h (within_exact he.le) (by omega) le_rfl))
      exact within_rnd h (within_div h (within_rnd h (within_absSq h _)) hd (hpos j))
    have := within_rnd h (within_mul_left (by norm_num : (0:ℝ) ≤ 2) (within_sum h h1))
    rw [show 4 + n + 1 = n + 5 by ring] at this
    simpa only [add_comm (q _) (p _), probsymmetricA] using this
  refine ⟨_, ps_eq eps he p q hp.1 hq.1, hw, within_nonneg h hw, (within_zero h hw).trans ?_⟩
  rw [mul_eq_zero, or_iff_right two_ne_zero, Finset.sum_eq_zero_iff_of_nonneg fun j _ => div_nonneg (sq_nonneg _) (by linarith [hpos j])]
  constructor
  · intro h0
    funext j
    have := h0 j (Finset.mem_univ j)
    rw [div_eq_zero_iff, or_iff_left (by linarith [hpos j]), sq_eq_zero_iff, sub_eq_zero] at this
    exact this
  · rintro rfl j _
    simp

/-! ### Measures with cancellation -/

theorem rnd_eq_zero (h : A.Ok u) (x : ℝ) : A.rnd x = 0 ↔ x = 0 := by
  have := within_zero h (within_abs h x)
  rwa [abs_eq_zero, abs_eq_zero] at this

theorem sum_eq_zero (h : A.Ok u) (l : List ℝ) (hl : ∀ x ∈ l, 0 ≤ x) : A.sum l = 0 ↔ ∀ x ∈ l, x = 0 := by
  have hb := sum_bounds h hl
  have hu := pow_pos (one_sub_pos h) l.length
  constructor
  · intro h0 x hx
    rw [h0] at hb
    have hs : l.sum ≤ 0 := by nlinarith [hb.1]
    exact le_antisymm ((List.single_le_sum hl x hx).trans hs) (hl x hx)
  · intro h0
    have hs : l.sum = 0 := List.sum_eq_zero h0
    rw [hs, mul_zero, mul_zero] at hb
    exact le_antisymm hb.2 hb.1

theorem cumsumFromA_zero (h : A.Ok u) (l : List ℝ) : (∀ x ∈ cumsumFromA A 0 l, x = 0) ↔ ∀ x ∈ l, x = 0 := by
  induction l with
  | nil => simp [cumsumFromA]
  | cons x l ih =>
    simp only [cumsumFromA, zero_add, List.forall_mem_cons, rnd_eq_zero h]
    refine and_congr_right fun hx => ?_
    rw [hx, rnd_zero h, ih]

theorem cumsumA_zero (h : A.Ok u) (l : List ℝ) : (∀ x ∈ cumsumA A l, x = 0) ↔ ∀ x ∈ l, x = 0 := by
  cases l with
  | nil => simp [cumsumA]
  | cons x l =>
    simp only [cumsumA, List.forall_mem_cons]
    refine and_congr_right fun hx => ?_
    rw [hx, cumsumFromA_zero h]

/-- **C147** (`emd`): not negative, and zero exactly for equal vectors. -/
theorem C147_emd (h : A.Ok u) (p q : Fin n → ℝ) : 0 ≤ emdA A p q ∧ (emdA A p q = 0 ↔ p = q) := by
  have hn : ∀ x ∈ (cumsumA A (List.ofFn fun j => A.rnd (p j - q j))).map abs, 0 ≤ x := by
    intro x hx
    obtain ⟨y, _, rfl⟩ := List.mem_map.1 hx
    exact abs_nonneg y
  refine ⟨sum_nonneg h hn, ?_⟩
  unfold emdA
  rw [sum_eq_zero h _ hn, List.forall_mem_map]
  simp only [abs_eq_zero]
  rw [cumsumA_zero h, List.forall_mem_ofFn_iff]
  simp only [rnd_eq_zero h, sub_eq_zero]
  exact funext_iff.symm

/-- **C147** (`hd`): not negative, and zero for equal vectors. -/
theorem C147_hd_partial (h : A.Ok u) (p q : Fin n → ℝ) : 0 ≤ hdA A p q ∧ (p = q → hdA A p q = 0) := by
  have hn : 0 ≤ A.sum (List.ofFn fun j => A.rnd (A.rnd (A.rnd (Real.sqrt (q j)) - A.rnd (Real.sqrt (p j))) ^ 2)) :=
    sum_nonneg h fun z hz => by obtain ⟨i, rfl⟩ := (List.mem_ofFn' _ _).1 hz; exact rnd_nonneg h (sq_nonneg _)
  refine ⟨rnd_nonneg h (Real.sqrt_nonneg _), ?_⟩
  rintro rfl
  have hw : Within u (0 + n) 0 (A.sum (List.ofFn fun j : Fin n => (fun _ => 0 : Fin n → ℝ) j)) (∑ j : Fin n, 0) := within_sum h fun j => within_exact le_rfl
  have h0 := (within_zero h hw).2 (by simp)
  unfold hdA
  simp only [sub_self, rnd_zero h, ne_eq, OfNat.ofNat_ne_zero, not_false_eq_true, zero_pow]
  rw [h0, Real.sqrt_zero, rnd_zero h]

/-! ### The order of the arguments -/

theorem abs_rnd_swap (hs : Symmetric A) (x y : ℝ) : |A.rnd (x - y)| = |A.rnd (y - x)| := by rw [← neg_sub y x, hs, abs_neg]

theorem sq_rnd_swap (hs : Symmetric A) (x y : ℝ) : A.rnd (x - y) ^ 2 = A.rnd (y - x) ^ 2 := by rw [← neg_sub y x, hs, neg_sq]

theorem cumsumFromA_neg (hs : Symmetric A) (l : List ℝ) (s : ℝ) : cumsumFromA A (-s) (l.map Neg.neg) = (cumsumFromA A s l).map Neg.neg := by
  induction l generalizing s with
  | nil => rfl
  | cons x l ih =>
    simp only [List.map_cons, cumsumFromA]
    rw [← neg_add, hs, ih]

theorem cumsumA_neg (hs : Symmetric A) (l : List ℝ) : cumsumA A (l.map Neg.neg) = (cumsumA A l).map Neg.neg := by
  cases l with
  | nil => rfl
  | cons x l => simp only [List.map_cons, cumsumA, cumsumFromA_neg hs]

/-- **C147** (true and predicted prevalences swapped): the measures that do not depend on the order of the two vectors do not depend on it in floating-point arithmetic either: exactly the same number is returned. -/
theorem C147_symmetric (hs : Symmetric A) (L : ℝ → ℝ) (eps : ℝ) (p q : Fin n → ℝ) :
    l1A A p q = l1A A q p ∧ maeA A p q = maeA A q p ∧ mseA A p q = mseA A q p ∧ l2A A p q = l2A A q p ∧ hdA A p q = hdA A q p ∧ brayCurtisA A p q = brayCurtisA A q p
      ∧ probsymmetricA A eps p q = probsymmetricA A eps q p ∧ topsoeA A L eps p q = topsoeA A L eps q p ∧ jensenshannonA A L eps p q = jensenshannonA A L eps q p ∧ emdA A p q = emdA A q p := by
  refine ⟨?_, ?_, ?_, ?_, ?_, ?_, ?_, ?_, ?_, ?_⟩
  · unfold l1A; simp_rw [abs_rnd_swap hs (p _)]
  · unfold maeA; simp_rw [abs_rnd_swap hs (p _)]
  · unfold mseA; simp_rw [sq_rnd_swap hs (p _)]
  · unfold l2A; simp_rw [sq_rnd_swap hs (p _)]
  · unfold hdA; simp_rw [sq_rnd_swap hs (A.rnd (Real.sqrt (p _)))]
  · unfold brayCurtisA; simp_rw [abs_rnd_swap hs (p _), add_comm (p _)]
  · unfold probsymmetricA; simp_rw [sq_rnd_swap hs (p _), add_comm (p _)]
  · unfold topsoeA
    congr 2
    funext j
    simp only
    rw [add_comm (q j) (p j)]
    exact congrArg A.rnd (add_comm _ _)
  · unfold jensenshannonA
    congr 4
    funext j
    rw [add_comm (q j) (p j)]
    congr 2
    exact congrArg A.rnd (add_comm _ _)
  · unfold emdA
    have : (List.ofFn fun j => A.rnd (p j - q j)) = (List.ofFn fun j => A.rnd (q j - p j)).map Neg.neg := by
      rw [List.map_ofFn]
      congr 1
      funext j
      show _ = -A.rnd (q j - p j)
      rw [← hs, neg_sub]
    rw [this, cumsumA_neg hs, List.map_map]
    congr 2
    funext x
    exact abs_neg x

theorem nearestEven_neg (x : ℝ) : nearestEven (-x) = -nearestEven x := by
  have he := abs_le.1 (nearestEven_error x)
  rcases lt_or_eq_of_le (nearestEven_error x) with h | h
  · refine nearestEven_eq (Or.inl ?_)
    rw [Int.cast_neg, ← neg_sub', abs_neg, abs_sub_comm]
    exact h
  · refine nearestEven_eq (Or.inr ⟨?_, ?_⟩)
    · rw [Int.cast_neg, ← neg_sub', abs_neg, abs_sub_comm]
      exact h
    · rw [even_neg]
      have h1 := Int.floor_le x
      have h2 := Int.lt_floor_add_one x
      unfold nearestEven at h ⊢
      split_ifs at h ⊢ with c1 c2 c3
      · rw [abs_sub_comm, abs_of_nonneg (by linarith)] at h; linarith
      · push_cast at h; rw [abs_of_nonneg (by linarith)] at h; linarith
      · exact c3
      · exact (Int.not_even_iff_odd.1 c3).add_one

/-- Rounding to doubles is symmetric. -/
theorem double_symmetric : Symmetric Arith.double := fun x => by
  show rndBits 53 (-x) = -rndBits 53 x
  unfold rndBits
  rw [abs_neg, neg_div, nearestEven_neg]
  push_cast
  ring

/-! ### Perfect predictions -/

theorem topsoe_ratio_self (h : A.Ok u) (h1 : A.rnd 1 = 1) (eps : ℝ) (he : 0 < eps) {x : ℝ} (hx : 0 ≤ x) : A.rnd (A.rnd (A.rnd (2 * x) + eps) / A.rnd (A.rnd (x + x) + eps)) = 1 := by
  have hpos : 0 < A.rnd (A.rnd (x + x) + eps) := rnd_pos h (by linarith [rnd_nonneg h (show 0 ≤ x + x by linarith)])
  rw [two_mul, div_self hpos.ne', h1]

/-- **C147** (`topsoe` of a perfect prediction): zero, in any arithmetic in which 1 is a number. -/
theorem C147_topsoe_self (h : A.Ok u) (h1 : A.rnd 1 = 1) (w : ℝ) (L : ℝ → ℝ) (hL : LogOk w L) (eps : ℝ) (he : 0 < eps) (p : Fin n → ℝ) (hp : IsPrev p) : topsoeA A L eps p p = 0 := by
  have hl : L 1 = 0 := by
    have := hL 1
    rw [Real.log_one, abs_zero, mul_zero, sub_zero] at this
    exact abs_eq_zero.1 (le_antisymm this (abs_nonneg _))
  unfold topsoeA
  simp only [topsoe_ratio_self h h1 eps he (hp.1 _), hl, mul_zero, rnd_zero h, add_zero]
  refine (sum_eq_zero h _ ?_).2 ?_
  · intro x hx; obtain ⟨_, rfl⟩ := (List.mem_ofFn' _ _).1 hx; exact le_rfl
  · intro x hx; obtain ⟨_, rfl⟩ := (List.mem_ofFn' _ _).1 hx; rfl

theorem sumsTo_rounded {rnd : ℝ → ℝ} (h0 : rnd 0 = 0) (hr : ∀ x, rnd (rnd x) = rnd x) {l : List ℝ} {s : ℝ} {d : ℕ} (hs : SumsTo rnd l s d) (hl : l.length ≠ 1) : rnd s = s := by
  induction hs with
  | nil => exact h0
  | one x => exact absurd rfl hl
  | add _ _ _ _ => exact hr _
  | perm hp _ ih => exact ih (by rwa [hp.length_eq])

theorem cumsumFromA_length (l : List ℝ) (s : ℝ) : (cumsumFromA A s l).length = l.length := by
  induction l generalizing s with
  | nil => rfl
  | cons x l ih => simp [cumsumFromA, ih]

theorem cumsumA_length (l : List ℝ) : (cumsumA A l).length = l.length := by
  cases l with
  | nil => rfl
  | cons x l => simp [cumsumA, cumsumFromA_length]

/-- **C147** (`emd_score` of a perfect prediction): 1, for at least two classes and in any arithmetic in which 1 is a number and a rounded number is not changed by rounding it again. -/
theorem C147_emd_score_self (h : A.Ok u) (h1 : A.rnd 1 = 1) (hr : ∀ x, A.rnd (A.rnd x) = A.rnd x) (hn : 1 ≤ n) (p : Fin (n + 1) → ℝ) : emdScoreA A p p = 1 := by
  have hrnd : ∀ q, A.rnd (emdA A p q) = emdA A p q := fun q => by
    obtain ⟨d, _, hs⟩ := h.sum ((cumsumA A (List.ofFn fun j => A.rnd (p j - q j))).map abs)
    exact sumsTo_rounded (rnd_zero h) hr hs (by rw [List.length_map, cumsumA_length, List.length_ofFn]; omega)
  unfold emdScoreA
  simp only
  rw [(C147_emd h p p).2.2 rfl, sub_zero]
  set a := emdA A p fun j => if j = 0 then 1 else 0 with ha
  set b := emdA A p fun j => if j = Fin.last n then 1 else 0 with hb
  have hpos : 0 < max a b := by
    have ha0 : 0 ≤ a := (C147_emd h p _).1
    have hb0 : 0 ≤ b := (C147_emd h p _).1
    by_contra hc
    have hm := not_lt.1 hc
    have e1 := (C147_emd h p _).2.1 (le_antisymm ((le_max_left a b).trans hm) ha0)
    have e2 := (C147_emd h p _).2.1 (le_antisymm ((le_max_right a b).trans hm) hb0)
    have e3 := congrFun (e1.symm.trans e2) 0
    simp only [if_true] at e3
    rw [if_neg (by rw [Fin.ext_iff]; simp; omega)] at e3
    exact one_ne_zero e3
  have hmax : A.rnd (max a b) = max a b := by
    rcases max_choice a b with h' | h' <;> rw [h']
    · exact hrnd _
    · exact hrnd _
  rw [hmax, div_self hpos.ne', h1]

/-! ### Non-vacuity -/

/-- Doubles: 1 is a number, and numbers are not changed by rounding them again. -/
example : Arith.double.rnd 1 = 1 ∧ (∀ x, Arith.double.rnd (Arith.double.rnd x) = Arith.double.rnd x) ∧ emdScoreA Arith.double ![1/3, 2/3] ![1/3, 2/3] = 1 := by
  have h1 : Arith.double.rnd 1 = 1 := by
    show rndDouble 1 = 1
    rw [rndDouble_eq (m := 4503599627370496) 52 (by norm_num) (by norm_num) (Or.inl (by norm_num))]
    norm_num
  exact ⟨h1, rndBits_idem 53 (by norm_num), C147_emd_score_self (n := 1) double_ok h1 (rndBits_idem 53 (by norm_num)) le_rfl _⟩

example : 0 ≤ l1A Arith.double ![1/3, 2/3] ![1/2, 1/2] ∧ l1A Arith.double ![1/3, 2/3] ![1/2, 1/2] ≠ 0 := by
  obtain ⟨a, _, _, h1, h2⟩ := C147_l1 double_ok ![1/3, 2/3] ![1/2, 1/2]
  refine ⟨h1, fun h0 => ?_⟩
  have := congrFun (h2.1 h0) 0
  norm_num at this

example : brayCurtisA Arith.double ![1/3, 2/3] ![1/2, 1/2] ≠ 0 ∧ probsymmetricA Arith.double (1/10^20) ![1/3, 2/3] ![1/2, 1/2] ≠ 0 ∧ emdA Arith.double ![1/3, 2/3] ![1/2, 1/2] ≠ 0 := by
  have hp : IsPrev ![(1:ℝ)/3, 2/3] := ⟨by intro i; fin_cases i <;> norm_num, by norm_num [Fin.sum_univ_two]⟩
  have hq : IsPrev ![(1:ℝ)/2, 1/2] := ⟨by intro i; fin_cases i <;> norm_num, by norm_num [Fin.sum_univ_two]⟩
  have hne : ![(1:ℝ)/3, 2/3] ≠ ![1/2, 1/2] := fun h0 => by have := congrFun h0 0; norm_num at this
  obtain ⟨_, _, _, _, h2⟩ := C147_bray_curtis double_ok _ _ hp hq
  obtain ⟨_, _, _, _, h4⟩ := C147_probsymmetric double_ok (1/10^20) (by norm_num) _ _ hp hq
  exact ⟨fun h => hne (h2.1 h), fun h => hne (h4.1 h), fun h => hne ((C147_emd double_ok _ _).2.1 h)⟩

end Verif.Props
