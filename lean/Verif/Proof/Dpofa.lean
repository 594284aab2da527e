import Verif.Model.Optimization
import Mathlib.LinearAlgebra.Matrix.Block
import Mathlib.Algebra.Order.Star.Real
import Mathlib.LinearAlgebra.Matrix.NonsingularInverse
import Mathlib.Tactic.Linarith
import Mathlib.Tactic.Ring
import Mathlib.Tactic.FieldSimp

/-!
# Proofs about `dpofa`: the Cholesky loop invariant
-/

namespace Verif.Proof

open Verif.Model Matrix

/-- Columns below `K` are factored, the rest is the input. -/
structure Inv (m : Arr) (K : ℕ) (r : Arr) : Prop where
  fac : ∀ k < K, ∀ i ≤ k, ∑ l ∈ Finset.range (i + 1), r l i * r l k = m i k
  pos : ∀ i < K, 0 < r i i
  rest : ∀ i k, K ≤ k ∨ k < i → r i k = m i k

/-- Progress within column `k`. -/
structure ColInv (m : Arr) (k : ℕ) (r0 : Arr) (j : ℕ) (st : Arr × ℝ) : Prop where
  same : ∀ a b, ¬ (a < j ∧ b = k) → st.1 a b = r0 a b
  fac : ∀ i < j, ∑ l ∈ Finset.range (i + 1), st.1 l i * st.1 l k = m i k
  sum : st.2 = ∑ l ∈ Finset.range j, st.1 l k * st.1 l k

theorem set_ne (r : Arr) {i k a b : ℕ} (t : ℝ) (h : ¬ (a = i ∧ b = k)) : r.set i k t a b = r a b := if_neg h

theorem set_eq (r : Arr) (i k : ℕ) (t : ℝ) : r.set i k t i k = t := if_pos ⟨rfl, rfl⟩

theorem colInv_step {m : Arr} {k : ℕ} {r0 : Arr} (h0 : Inv m k r0) {j : ℕ} (hj : j < k) {st : Arr × ℝ}
    (h : ColInv m k r0 j st) : ColInv m k r0 (j + 1) (dpofaRow k st j) := by
  obtain ⟨r, s⟩ := st
  obtain ⟨hsame, hfac, hsum⟩ := h
  simp only at hsame hfac hsum
  have hjj : r j j = r0 j j := hsame j j (by omega)
  have hpos : r j j ≠ 0 := by rw [hjj]; exact (h0.pos j hj).ne'
  have hjk : r j k = m j k := by
    rw [hsame j k (by omega)]
    exact h0.rest j k (Or.inl le_rfl)
  have ht : (if 0 < j then r j k - ∑ l ∈ Finset.range j, r l j * r l k else r j k)
      = m j k - ∑ l ∈ Finset.range j, r l j * r l k := by
    by_cases hz : 0 < j
    · rw [if_pos hz, hjk]
    · have : j = 0 := by omega
      subst this
      simp [hjk]
  set t := (m j k - ∑ l ∈ Finset.range j, r l j * r l k) / r j j with htdef
  have hst : dpofaRow k (r, s) j = (r.set j k t, s + t * t) := by
    simp only [dpofaRow, ht, htdef]
  rw [hst]
  refine ⟨?_, ?_, ?_⟩
  · intro a b hab
    show r.set j k t a b = _
    rw [set_ne _ _ (by omega)]
    exact hsame a b (by omega)
  · intro i hi
    show ∑ l ∈ Finset.range (i + 1), r.set j k t l i * r.set j k t l k = m i k
    rcases Nat.lt_succ_iff_lt_or_eq.1 hi with hi | rfl
    · rw [← hfac i hi]
      refine Finset.sum_congr rfl fun l hl => ?_
      have := Finset.mem_range.1 hl
      rw [set_ne _ _ (by omega), set_ne _ _ (by omega)]
    · have h1 : ∑ l ∈ Finset.range i, r.set i k t l i * r.set i k t l k
          = ∑ l ∈ Finset.range i, r l i * r l k := by
        refine Finset.sum_congr rfl fun l hl => ?_
        have := Finset.mem_range.1 hl
        rw [set_ne _ _ (by omega), set_ne _ _ (by omega)]
      rw [Finset.sum_range_succ, h1, set_ne _ _ (by omega), set_eq, htdef]
      field_simp
      ring
  · show s + t * t = ∑ l ∈ Finset.range (j + 1), r.set j k t l k * r.set j k t l k
    rw [Finset.sum_range_succ, set_eq, hsum]
    congr 1
    refine Finset.sum_congr rfl fun l hl => ?_
    have := Finset.mem_range.1 hl
    rw [set_ne _ _ (by omega)]

theorem colInv_done {m : Arr} {k : ℕ} {r0 : Arr} (h0 : Inv m k r0) : ColInv m k r0 k (dpofaCol r0 k) := by
  have : ∀ j ≤ k, ColInv m k r0 j ((List.range j).foldl (dpofaRow k) (r0, 0)) := by
    intro j
    induction j with
    | zero => intro _; exact ⟨fun _ _ _ => rfl, fun i hi => absurd hi (by omega), by simp⟩
    | succ j ih =>
      intro hj
      rw [List.range_succ, List.foldl_append]
      exact colInv_step h0 (by omega) (ih (by omega))
  exact this k le_rfl

/-- The pivot of column `k`. -/
theorem pivot_eq {m : Arr} {k : ℕ} {r0 : Arr} (h0 : Inv m k r0) :
    (dpofaCol r0 k).1 k k - (dpofaCol r0 k).2
      = m k k - ∑ l ∈ Finset.range k, (dpofaCol r0 k).1 l k * (dpofaCol r0 k).1 l k := by
  have h := colInv_done h0
  rw [← h.sum, h.same k k (by omega), h0.rest k k (Or.inl le_rfl)]

theorem inv_step {m : Arr} {k : ℕ} {r0 : Arr} (h0 : Inv m k r0)
    (hs : 0 < (dpofaCol r0 k).1 k k - (dpofaCol r0 k).2) :
    Inv m (k + 1) ((dpofaCol r0 k).1.set k k (Real.sqrt ((dpofaCol r0 k).1 k k - (dpofaCol r0 k).2))) := by
  have h := colInv_done h0
  have hsame := h.same
  have hfac := h.fac
  have hp := pivot_eq h0
  set r := (dpofaCol r0 k).1 with hr
  set s := r k k - (dpofaCol r0 k).2 with hsdef
  have hset : ∀ a b, (r.set k k (Real.sqrt s)) a b = if a = k ∧ b = k then Real.sqrt s else r a b := fun _ _ => rfl
  refine ⟨?_, ?_, ?_⟩
  · intro k' hk' i hi
    simp only [hset]
    rcases Nat.lt_succ_iff_lt_or_eq.1 hk' with hlt | rfl
    · rw [← h0.fac k' hlt i hi]
      refine Finset.sum_congr rfl fun l hl => ?_
      have := Finset.mem_range.1 hl
      rw [if_neg (by omega), if_neg (by omega), hsame l i (by omega), hsame l k' (by omega)]
    · rcases Nat.lt_or_eq_of_le hi with hlt | rfl
      · rw [← hfac i hlt]
        refine Finset.sum_congr rfl fun l hl => ?_
        have := Finset.mem_range.1 hl
        rw [if_neg (by omega), if_neg (by omega)]
      · rw [Finset.sum_range_succ, if_pos ⟨rfl, rfl⟩, Real.mul_self_sqrt hs.le]
        have h1 : ∑ l ∈ Finset.range i, (if l = i ∧ i = i then Real.sqrt s else r l i) * (if l = i ∧ i = i then Real.sqrt s else r l i)
            = ∑ l ∈ Finset.range i, r l i * r l i := by
          refine Finset.sum_congr rfl fun l hl => ?_
          have := Finset.mem_range.1 hl
          rw [if_neg (by omega)]
        rw [h1, hp]
        ring
  · intro i hi
    simp only [hset]
    rcases Nat.lt_succ_iff_lt_or_eq.1 hi with hlt | rfl
    · rw [if_neg (by omega), hsame i i (by omega)]
      exact h0.pos i hlt
    · rw [if_pos ⟨rfl, rfl⟩]
      exact Real.sqrt_pos.2 hs
  · intro i k' hik
    simp only [hset]
    rw [if_neg (by omega), hsame i k' (by omega)]
    exact h0.rest i k' (by omega)

/-- The outcome of the loop. Success: the whole array is factored. Failure at `k + 1`: the first `k`
columns are factored, and column `k` has a pivot that is not positive. -/
theorem dpofaLoop_spec (m : Arr) (fuel : ℕ) : ∀ (k : ℕ) (r : Arr), Inv m k r →
    ((dpofaLoop fuel k r).1 = 0 ∧ Inv m (k + fuel) (dpofaLoop fuel k r).2)
    ∨ ∃ k' r', k ≤ k' ∧ k' < k + fuel ∧ (dpofaLoop fuel k r).1 = k' + 1 ∧ Inv m k' r'
        ∧ (dpofaLoop fuel k r).2 = (dpofaCol r' k').1
        ∧ (dpofaCol r' k').1 k' k' - (dpofaCol r' k').2 ≤ 0 := by
  induction fuel with
  | zero => intro k r h; left; exact ⟨rfl, by simpa [dpofaLoop] using h⟩
  | succ fuel ih =>
    intro k r h
    simp only [dpofaLoop]
    by_cases hs : (dpofaCol r k).1 k k - (dpofaCol r k).2 ≤ 0
    · right
      rw [if_pos hs]
      exact ⟨k, r, le_rfl, by omega, rfl, h, rfl, hs⟩
    · rw [if_neg hs]
      rcases ih (k + 1) _ (inv_step h (not_le.1 hs)) with ⟨h1, h2⟩ | ⟨k', r', h1, h2, h3⟩
      · left
        refine ⟨h1, ?_⟩
        rw [show k + (fuel + 1) = k + 1 + fuel by omega]
        exact h2
      · right
        exact ⟨k', r', by omega, by omega, h3⟩

theorem inv_init (m : Arr) : Inv m 0 m :=
  ⟨fun _ h => absurd h (by omega), fun _ h => absurd h (by omega), fun _ _ _ => rfl⟩

/-! ### From the factorisation to positive definiteness -/

/-- The upper triangle of the first `K` rows. -/
noncomputable def upper (r : Arr) (K n : ℕ) : Matrix (Fin K) (Fin n) ℝ :=
  fun l j => if l.val ≤ j.val then r l.val j.val else 0

theorem upper_det (r : Arr) (K : ℕ) (hpos : ∀ i < K, 0 < r i i) : (upper r K K).det ≠ 0 := by
  rw [Matrix.det_of_isUpperTriangular]
  · refine Finset.prod_ne_zero_iff.2 fun i _ => ?_
    simp only [upper, le_refl, if_true]
    exact (hpos i.val i.2).ne'
  · intro i j hij
    simp only [upper]
    rw [if_neg]
    have : j < i := hij
    exact not_le.2 this

/-- Sums of products of two columns of the upper triangle. -/
theorem upper_col (r : Arr) (K : ℕ) {n : ℕ} (i j : Fin n) (hij : i.val ≤ j.val) (hiK : i.val < K) :
    ∑ l, upper r K n l i * upper r K n l j = ∑ l ∈ Finset.range (i.val + 1), r l i.val * r l j.val := by
  unfold upper
  rw [Fin.sum_univ_eq_sum_range (fun l => (if l ≤ i.val then r l i.val else 0) * (if l ≤ j.val then r l j.val else 0)) K]
  rw [← Finset.sum_subset (Finset.range_subset_range.2 (show i.val + 1 ≤ K by omega))]
  · refine Finset.sum_congr rfl fun l hl => ?_
    have := Finset.mem_range.1 hl
    rw [if_pos (by omega), if_pos (by omega)]
  · intro l _ hl
    have := mt Finset.mem_range.2 hl
    rw [if_neg (by omega), zero_mul]

theorem factor {n : ℕ} (m : Matrix (Fin n) (Fin n) ℝ) (hm : m.IsSymm) (K : ℕ) (hK : K ≤ n) (r : Arr)
    (h : Inv (toArr m) K r) :
    m.submatrix (Fin.castLE hK) (Fin.castLE hK) = (upper r K K)ᵀ * upper r K K := by
  have key : ∀ i j : Fin K, i.val ≤ j.val → ((upper r K K)ᵀ * upper r K K) i j = m (Fin.castLE hK i) (Fin.castLE hK j) := by
    intro i j hij
    rw [Matrix.mul_apply]
    simp only [Matrix.transpose_apply]
    rw [upper_col r K i j hij i.2, h.fac j.val j.2 i.val hij]
    have h1 := i.2
    have h2 := j.2
    unfold toArr
    rw [dif_pos ⟨by omega, by omega⟩]
    rfl
  ext i j
  rw [Matrix.submatrix_apply]
  rcases le_total i.val j.val with hij | hij
  · exact (key i j hij).symm
  · rw [← hm.apply, ← key j i hij, Matrix.mul_apply, Matrix.mul_apply]
    exact Finset.sum_congr rfl fun l _ => mul_comm _ _

theorem posDef_of_inv {n : ℕ} (m : Matrix (Fin n) (Fin n) ℝ) (hm : m.IsSymm) (K : ℕ) (hK : K ≤ n) (r : Arr)
    (h : Inv (toArr m) K r) : (m.submatrix (Fin.castLE hK) (Fin.castLE hK)).PosDef := by
  rw [factor m hm K hK r h, ← Matrix.conjTranspose_eq_transpose_of_trivial]
  refine Matrix.PosDef.conjTranspose_mul_self _ ?_
  have : IsUnit (upper r K K) := (Matrix.isUnit_iff_isUnit_det _).2 (isUnit_iff_ne_zero.2 (upper_det r K h.pos))
  exact Matrix.mulVec_injective_iff_isUnit.2 this

/-- With a pivot that is not positive the next leading minor is not positive definite. -/
theorem not_posDef_of_pivot {n : ℕ} (m : Matrix (Fin n) (Fin n) ℝ) (hm : m.IsSymm) (K : ℕ) (hK : K + 1 ≤ n) (r0 : Arr)
    (h0 : Inv (toArr m) K r0) (hs : (dpofaCol r0 K).1 K K - (dpofaCol r0 K).2 ≤ 0) :
    ¬ (m.submatrix (Fin.castLE hK) (Fin.castLE hK)).PosDef := by
  intro hpd
  have hcol := colInv_done h0
  rw [pivot_eq h0] at hs
  set r := (dpofaCol r0 K).1 with hr
  have hKn : K < n := by omega
  have hmKK : toArr m K K = m ⟨K, hKn⟩ ⟨K, hKn⟩ := by
    unfold toArr
    rw [dif_pos ⟨hKn, hKn⟩]
  -- solve the triangular system
  have hunit : IsUnit (upper r0 K K) :=
    (Matrix.isUnit_iff_isUnit_det _).2 (isUnit_iff_ne_zero.2 (upper_det r0 K h0.pos))
  set v : Fin K → ℝ := fun l => r l.val K with hv
  obtain ⟨y, hy⟩ := (Matrix.mulVec_surjective_iff_isUnit.2 hunit) (-v)
  set x : Fin (K + 1) → ℝ := Fin.snoc y 1 with hx
  have hxne : x ≠ 0 := by
    intro hc
    have := congrFun hc (Fin.last K)
    simp [hx] at this
  have hpos := hpd.dotProduct_mulVec_pos hxne
  set M := m.submatrix (Fin.castLE hK) (Fin.castLE hK) with hM
  -- entries of the minor
  have e1 : ∀ i j : Fin K, M i.castSucc j.castSucc = ∑ l, upper r0 K K l i * upper r0 K K l j := by
    intro i j
    have := congrFun (congrFun (factor m hm K (by omega) r0 h0) i) j
    rw [Matrix.mul_apply] at this
    simp only [Matrix.transpose_apply] at this
    rw [← this]
    rfl
  have e2 : ∀ i : Fin K, M i.castSucc (Fin.last K) = ∑ l, upper r0 K K l i * v l := by
    intro i
    have hf := hcol.fac i.val i.2
    have : toArr m i.val K = M i.castSucc (Fin.last K) := by
      unfold toArr
      rw [dif_pos ⟨by omega, hKn⟩]
      rfl
    rw [← this, ← hf]
    unfold upper
    simp only [hv]
    rw [Fin.sum_univ_eq_sum_range (fun l => (if l ≤ i.val then r0 l i.val else 0) * r l K) K]
    rw [← Finset.sum_subset (Finset.range_subset_range.2 (show i.val + 1 ≤ K by omega))]
    · refine Finset.sum_congr rfl fun l hl => ?_
      have := Finset.mem_range.1 hl
      rw [if_pos (by omega), hcol.same l i.val (by omega)]
    · intro l _ hl
      have := mt Finset.mem_range.2 hl
      rw [if_neg (by omega), zero_mul]
  have hMs : ∀ i j, M i j = M j i := by
    intro i j
    simp only [hM, Matrix.submatrix_apply]
    exact hm.apply _ _
  have e3 : M (Fin.last K) (Fin.last K) = toArr m K K := by
    rw [hmKK]; rfl
  have hquad : x ⬝ᵥ (M *ᵥ x) = toArr m K K - ∑ l ∈ Finset.range K, r l K * r l K := by
    have hsq : ∑ l, (∑ j, upper r0 K K l j * y j + v l)^2 = 0 := by
      refine Finset.sum_eq_zero fun l _ => ?_
      have := congrFun hy l
      simp only [Matrix.mulVec, dotProduct, Pi.neg_apply] at this
      rw [this]
      ring
    have hvv : ∑ l, v l * v l = ∑ l ∈ Finset.range K, r l K * r l K := by
      simp only [hv]
      rw [Fin.sum_univ_eq_sum_range (fun l => r l K * r l K) K]
    have expand : x ⬝ᵥ (M *ᵥ x) = (∑ i, y i * ∑ j, M i.castSucc j.castSucc * y j)
        + 2 * (∑ i, y i * M i.castSucc (Fin.last K)) + M (Fin.last K) (Fin.last K) := by
      simp only [dotProduct, Matrix.mulVec, Fin.sum_univ_castSucc, hx, Fin.snoc_castSucc, Fin.snoc_last, mul_one, one_mul]
      simp only [hMs (Fin.last K) _]
      simp only [mul_add, Finset.sum_add_distrib]
      have : ∑ i : Fin K, M i.castSucc (Fin.last K) * y i = ∑ i : Fin K, y i * M i.castSucc (Fin.last K) :=
        Finset.sum_congr rfl fun i _ => mul_comm _ _
      rw [this]
      ring
    have t1 : (∑ i, y i * ∑ j, M i.castSucc j.castSucc * y j) = ∑ l, (∑ j, upper r0 K K l j * y j)^2 := by
      simp only [e1, pow_two, Finset.mul_sum, Finset.sum_mul]
      rw [Finset.sum_congr rfl fun i _ => Finset.sum_comm]
      rw [Finset.sum_comm]
      refine Finset.sum_congr rfl fun l _ => Finset.sum_congr rfl fun i _ => Finset.sum_congr rfl fun j _ => ?_
      ring
    have t2 : (∑ i, y i * M i.castSucc (Fin.last K)) = ∑ l, (∑ j, upper r0 K K l j * y j) * v l := by
      simp only [e2, Finset.mul_sum, Finset.sum_mul]
      rw [Finset.sum_comm]
      refine Finset.sum_congr rfl fun l _ => Finset.sum_congr rfl fun i _ => ?_
      ring
    rw [expand, t1, t2, e3, ← hvv]
    have : ∑ l, (∑ j, upper r0 K K l j * y j + v l)^2
        = (∑ l, (∑ j, upper r0 K K l j * y j)^2) + 2 * (∑ l, (∑ j, upper r0 K K l j * y j) * v l) + ∑ l, v l * v l := by
      rw [Finset.mul_sum, ← Finset.sum_add_distrib, ← Finset.sum_add_distrib]
      refine Finset.sum_congr rfl fun l _ => ?_
      ring
    rw [this] at hsq
    linarith
  rw [star_trivial, hquad] at hpos
  linarith

end Verif.Proof
