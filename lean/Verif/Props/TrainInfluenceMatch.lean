import Verif.Props.TrainInfluence
import Verif.Props.PopulationMatch

/-!
# C171: one example of the training set, for the methods that match distributions with 'L2'
-/

namespace Verif.Props

open Verif.Model Verif.Spec Verif.Proof

theorem euclidean_comm' {m : ℕ} (v w : Fin m → ℝ) : euclidean v w = euclidean w v := by
  unfold euclidean
  congr 1
  exact Finset.sum_congr rfl fun k _ => by ring

/-- First order condition of the closest mixture. -/
theorem closest_mixture {m n : ℕ} (T : Fin m → Fin n → ℝ) (q : Fin m → ℝ) (x z : Fin n → ℝ) (hx : IsPrev x) (hz : IsPrev z) (ho : ∀ p, IsPrev p → euclidean q (mixtureOf T x) ≤ euclidean q (mixtureOf T p)) :
    ∑ k, (q k - mixtureOf T x k) * (mixtureOf T z k - mixtureOf T x k) ≤ 0 := by
  have h := slope_nonneg (G := -2 * ∑ k, (q k - mixtureOf T x k) * (mixtureOf T z k - mixtureOf T x k)) (Q := ∑ k, (mixtureOf T z k - mixtureOf T x k) ^ 2) fun t h0 h1 => by
    have h2 := ho _ (segment_isPrev hx hz h0.le h1)
    have hmix : mixtureOf T (fun i => x i + t * (z i - x i)) = fun k => mixtureOf T x k + t * (mixtureOf T z k - mixtureOf T x k) := by
      funext k
      unfold mixtureOf
      rw [← Finset.sum_sub_distrib, Finset.mul_sum, ← Finset.sum_add_distrib]
      exact Finset.sum_congr rfl fun i _ => by ring
    have h3 := pow_le_pow_left₀ (show 0 ≤ euclidean q (mixtureOf T x) from Real.sqrt_nonneg _) h2 2
    rw [euclidean_sq, euclidean_sq, hmix] at h3
    have h4 : ∑ k, (q k - (mixtureOf T x k + t * (mixtureOf T z k - mixtureOf T x k))) ^ 2
        = ∑ k, (q k - mixtureOf T x k) ^ 2 + t * (-2 * ∑ k, (q k - mixtureOf T x k) * (mixtureOf T z k - mixtureOf T x k)) + t ^ 2 * ∑ k, (mixtureOf T z k - mixtureOf T x k) ^ 2 := by
      simp only [Finset.mul_sum]
      rw [← Finset.sum_add_distrib, ← Finset.sum_add_distrib]
      exact Finset.sum_congr rfl fun k _ => by ring
    rw [h4] at h3
    linarith
  linarith

/-- The norm of a combination of columns that are at most `δ` long. -/
theorem combination_norm {m n : ℕ} (U : Fin m → Fin n → ℝ) (δ : ℝ) (hδ : ∀ j, ∑ k, |U k j| ≤ δ) (v : Fin n → ℝ) : √(∑ k, (∑ j, U k j * v j) ^ 2) ≤ δ * ∑ j, |v j| := by
  have h0 := euclidean_le_totalError (fun k => ∑ j, U k j * v j) 0
  simp only [euclidean, totalError, Pi.zero_apply, sub_zero] at h0
  refine h0.trans ?_
  calc ∑ k, |∑ j, U k j * v j| ≤ ∑ k, ∑ j, |U k j| * |v j| := Finset.sum_le_sum fun k _ => (Finset.abs_sum_le_sum_abs _ _).trans (le_of_eq (Finset.sum_congr rfl fun j _ => abs_mul _ _))
    _ = ∑ j, (∑ k, |U k j|) * |v j| := by rw [Finset.sum_comm]; simp only [Finset.sum_mul]
    _ ≤ ∑ j, δ * |v j| := Finset.sum_le_sum fun j _ => mul_le_mul_of_nonneg_right (hδ j) (abs_nonneg _)
    _ = δ * ∑ j, |v j| := by rw [Finset.mul_sum]

/-- The closest mixtures of two matrices whose columns are close. -/
theorem projection_matrices {m n : ℕ} (T T' : Fin m → Fin n → ℝ) (q : Fin m → ℝ) (x x' : Fin n → ℝ) (hx : IsPrev x) (hx' : IsPrev x') (ho : ∀ p, IsPrev p → euclidean q (mixtureOf T x) ≤ euclidean q (mixtureOf T p))
    (ho' : ∀ p, IsPrev p → euclidean q (mixtureOf T' x') ≤ euclidean q (mixtureOf T' p)) (κ δ R : ℝ) (hκ0 : 0 ≤ κ) (hδ0 : 0 ≤ δ) (hR0 : 0 ≤ R) (hκ : MixturesTellApart euclidean T κ) (hδ : ∀ j, ∑ k, |T' k j - T k j| ≤ δ)
    (hR : euclidean q (mixtureOf T' x') ≤ R) : totalError x x' ≤ κ * (δ * (1 + κ * R)) := by
  have hκx := hκ x x' hx hx'
  refine hκx.trans (mul_le_mul_of_nonneg_left ?_ hκ0)
  set E := euclidean (mixtureOf T x) (mixtureOf T x') with hE
  have hE0 : 0 ≤ E := Real.sqrt_nonneg _
  have h1 := closest_mixture T q x x' hx hx' ho
  have h2 := closest_mixture T' q x' x hx' hx ho'
  -- the difference of the two matrices, applied to `x'` and to `x - x'`
  have hU : ∀ k, mixtureOf T' x' k - mixtureOf T x' k = ∑ j, (T' k j - T k j) * x' j := fun k => by
    unfold mixtureOf
    rw [← Finset.sum_sub_distrib]
    exact Finset.sum_congr rfl fun j _ => by ring
  have hV : ∀ k, (mixtureOf T' x k - mixtureOf T' x' k) - (mixtureOf T x k - mixtureOf T x' k) = ∑ j, (T' k j - T k j) * (x j - x' j) := fun k => by
    unfold mixtureOf
    simp only [← Finset.sum_sub_distrib]
    exact Finset.sum_congr rfl fun j _ => by ring
  have hle : E ^ 2 ≤ (∑ k, (∑ j, (T' k j - T k j) * x' j) * (mixtureOf T x k - mixtureOf T x' k)) + ∑ k, (mixtureOf T' x' k - q k) * (∑ j, (T' k j - T k j) * (x j - x' j)) := by
    rw [hE, euclidean_sq]
    simp only [← hU, ← hV]
    have e : ∑ k, (mixtureOf T x k - mixtureOf T x' k) ^ 2 = (∑ k, (mixtureOf T' x' k - mixtureOf T x' k) * (mixtureOf T x k - mixtureOf T x' k))
        + (∑ k, (mixtureOf T' x' k - q k) * ((mixtureOf T' x k - mixtureOf T' x' k) - (mixtureOf T x k - mixtureOf T x' k)))
        + (∑ k, (q k - mixtureOf T x k) * (mixtureOf T x' k - mixtureOf T x k)) + ∑ k, (q k - mixtureOf T' x' k) * (mixtureOf T' x k - mixtureOf T' x' k) := by
      rw [← Finset.sum_add_distrib, ← Finset.sum_add_distrib, ← Finset.sum_add_distrib]
      exact Finset.sum_congr rfl fun k _ => by ring
    linarith
  have b1 : (∑ k, (∑ j, (T' k j - T k j) * x' j) * (mixtureOf T x k - mixtureOf T x' k)) ≤ δ * E := by
    refine (Real.sum_mul_le_sqrt_mul_sqrt Finset.univ _ _).trans (mul_le_mul_of_nonneg_right ?_ hE0)
    have := combination_norm (fun k j => T' k j - T k j) δ hδ x'
    rw [Finset.sum_congr rfl fun j _ => abs_of_nonneg (hx'.1 j), hx'.2, mul_one] at this
    exact this
  have b2 : (∑ k, (mixtureOf T' x' k - q k) * (∑ j, (T' k j - T k j) * (x j - x' j))) ≤ R * (δ * (κ * E)) := by
    refine (Real.sum_mul_le_sqrt_mul_sqrt Finset.univ _ _).trans (mul_le_mul ?_ ?_ (Real.sqrt_nonneg _) hR0)
    · have := hR
      rw [euclidean_comm'] at this
      exact this
    · exact (combination_norm (fun k j => T' k j - T k j) δ hδ fun j => x j - x' j).trans (mul_le_mul_of_nonneg_left hκx hδ0)
  have hmul : E * E ≤ δ * (1 + κ * R) * E := by
    have : E ^ 2 ≤ δ * E + R * (δ * (κ * E)) := hle.trans (add_le_add b1 b2)
    linarith [sq E]
  rcases hE0.lt_or_eq with hpos | h0
  · exact le_of_mul_le_mul_right hmul hpos
  · rw [← h0]
    positivity

theorem meanOf_ofClass {α β : Type*} [DecidableEq α] (Y : List α) (P : List β) (hl : Y.length = P.length) (f : β → ℝ) (c : α) : meanOf (ofClass (Y.zip P) c) f = condMean Y P f c := by
  unfold meanOf condMean ofClass
  rw [List.map_map, List.length_map]
  congr 2
  have : (((Y.zip P).filter fun t => decide (t.1 = c)).length) = Y.count c := by
    rw [← List.countP_eq_length_filter, List.count]
    conv_rhs => rw [← List.map_fst_zip (le_of_eq hl), List.countP_map]
    refine List.countP_congr fun t _ => ?_
    simp
  exact this

/-- The distance between two vectors of shares of the examples of a class, where one of them is replaced. -/
theorem replaced_shares {α β : Type*} [DecidableEq α] {m : ℕ} {P P' : List β} {v v' : β} (h : OneReplaced P P' v v') (Y : List α) (hl : Y.length = P.length) (f : Fin m → β → ℝ) (B : ℝ) (hv : ∑ j, |f j v' - f j v| ≤ B)
    (N : ℝ) (hN : 0 < N) (c : α) (hc : N ≤ Y.count c) : ∑ j, |meanOf (ofClass (Y.zip P') c) (f j) - meanOf (ofClass (Y.zip P) c) (f j)| ≤ B / N := by
  obtain ⟨δ, hδ, hs⟩ := replaced_class_sum h Y hl c
  have hpos : (0:ℝ) < Y.count c := hN.trans_le hc
  have e : ∀ j, |meanOf (ofClass (Y.zip P') c) (f j) - meanOf (ofClass (Y.zip P) c) (f j)| = δ / Y.count c * |f j v' - f j v| := fun j => by
    have hδ0 : 0 ≤ δ / (Y.count c : ℝ) := by rcases hδ with rfl | rfl <;> positivity
    rw [meanOf_ofClass _ _ hl, meanOf_ofClass _ _ (hl.trans (replaced_length h).symm)]
    unfold condMean
    rw [← sub_div, hs (f j), mul_div_right_comm, abs_mul, abs_of_nonneg hδ0]
  simp only [e, ← Finset.mul_sum]
  have hδ1 : δ / (Y.count c : ℝ) ≤ 1 / N := by
    rcases hδ with rfl | rfl
    · rw [zero_div]; positivity
    · exact one_div_le_one_div_of_le hN hc
  calc δ / (Y.count c : ℝ) * ∑ j, |f j v' - f j v| ≤ 1 / N * B := mul_le_mul hδ1 hv (Finset.sum_nonneg fun _ _ => abs_nonneg _) (by positivity)
    _ = B / N := by ring

theorem reachShare_mean {nc : ℕ} (i : Fin nc) (t : ℝ) (l : List (Fin nc → ℝ)) : reachShare i t l = meanOf l fun row => if t ≤ row i then (1:ℝ) else 0 := by
  unfold reachShare meanOf
  congr 1
  induction l with
  | nil => simp
  | cons a l ih =>
    rw [List.map_cons, List.sum_cons, ← ih, List.countP_cons]
    by_cases h : t ≤ a i <;> simp [h, add_comm]

theorem reachShare_unit {nc : ℕ} (i : Fin nc) (t : ℝ) (l : List (Fin nc → ℝ)) : 0 ≤ reachShare i t l ∧ reachShare i t l ≤ 1 := by
  unfold reachShare
  refine ⟨by positivity, div_le_one_of_le₀ ?_ (Nat.cast_nonneg _)⟩
  exact_mod_cast List.countP_le_length

section
variable {σ D α : Type} {k : ℕ} [LinearOrder α] (enc : Bool → α) (w : World σ D α) (et et' : Option ℕ) (X Xt : List D) (y : List α) (hy : y ≠ []) (r : ℕ) (hr : 0 < r)
include hy hr

/-- **C171** for FriedmanME with 'L2'. -/
theorem C171_friedman (ops : EstOps σ D α (labelsOf y).length) (sv : CvxSolver) (hsv : ExactCvx sv) (qp : QPSolver) (hqp : ExactQP qp) (la : LinAlg (labelsOf y).length) (hla : ExactLinAlg la) (fuel : ℕ) (tol : ℝ)
    (P P' : List (Fin (labelsOf y).length → ℝ)) (hP : P.length = r * y.length) (v v' : Fin (labelsOf y).length → ℝ) (h : OneReplaced P P' v v') (T T' : Fin (labelsOf y).length → Fin (labelsOf y).length → ℝ)
    (hT : T = fun i c => reachShare i (freq y (labelsOf y)[i]) (ofClass ((stacked y r).zip P) (labelsOf y)[c])) (hd : ∀ x : Fin (labelsOf y).length → ℝ, (∀ i, ∑ j, T i j * x j = 0) → x = 0)
    (hT' : T' = fun i c => reachShare i (freq y (labelsOf y)[i]) (ofClass ((stacked y r).zip P') (labelsOf y)[c])) (hd' : ∀ x : Fin (labelsOf y).length → ℝ, (∀ i, ∑ j, T' i j * x j = 0) → x = 0)
    (κ N : ℝ) (hκ0 : 0 ≤ κ) (hκ : MixturesTellApart euclidean T κ) (hN0 : 0 < N) (hN : ∀ c ∈ y, N ≤ r * y.count c) (bag : List (Fin (labelsOf y).length → ℝ)) :
    ∃ x x' : Fin (labelsOf y).length → ℝ, ucRun ops enc w ⟨friedmanClass sv qp la (fuel + 1) tol .l2, et, et'⟩ X y (some (.probs P)) Xt (some (.probs bag)) = .ok (some (realList x))
      ∧ ucRun ops enc w ⟨friedmanClass sv qp la (fuel + 1) tol .l2, et, et'⟩ X y (some (.probs P')) Xt (some (.probs bag)) = .ok (some (realList x'))
      ∧ totalError x x' ≤ κ * ((labelsOf y).length * (1 + κ * (labelsOf y).length)) / N := by
  have hl : (stacked y r).length = P.length := by rw [stacked_length, hP]
  obtain ⟨x, h1, hx, ho⟩ := friedman_closest enc w et et' X Xt y hy r hr ops sv hsv qp hqp la hla fuel tol .l2 rfl P hP T hT hd bag
  obtain ⟨x', h1', hx', ho'⟩ := friedman_closest enc w et et' X Xt y hy r hr ops sv hsv qp hqp la hla fuel tol .l2 rfl P' (by rw [replaced_length h, hP]) T' hT' hd' bag
  refine ⟨x, x', h1, h1', (projection_matrices T T' _ x x' hx hx' ho ho' κ ((labelsOf y).length / N) (labelsOf y).length hκ0 (by positivity) (Nat.cast_nonneg _) hκ ?_ ?_).trans_eq (by ring)⟩
  · intro c
    rw [hT, hT']
    simp only [reachShare_mean]
    refine replaced_shares h _ hl (fun i row => if freq y (labelsOf y)[i] ≤ row i then (1:ℝ) else 0) _ ?_ N hN0 _ ?_
    · refine (Finset.sum_le_sum fun i _ => show _ ≤ (1:ℝ) from ?_).trans_eq (by simp)
      split_ifs <;> norm_num
    · rw [stacked_count]
      push_cast
      exact hN _ ((mem_labelsOf y _).1 (List.getElem_mem _))
  · refine (euclidean_le_totalError _ _).trans ((Finset.sum_le_sum fun i _ => show _ ≤ (1:ℝ) from ?_).trans_eq (by simp))
    have a := reachShare_unit i (freq y (labelsOf y)[i]) bag
    have hu : ∀ c, 0 ≤ T' i c ∧ T' i c ≤ 1 := fun c => by rw [hT']; exact reachShare_unit _ _ _
    have b0 : 0 ≤ mixtureOf T' x' i := Finset.sum_nonneg fun c _ => mul_nonneg (hu c).1 (hx'.1 c)
    have b1 : mixtureOf T' x' i ≤ 1 := by
      rw [← hx'.2]
      exact Finset.sum_le_sum fun c _ => mul_le_of_le_one_left (hx'.1 c) (hu c).2
    rw [abs_le]
    constructor <;> linarith

omit hr in
/-- **C171** for DFy with 'L2' and bins of equal width. -/
theorem C171_dfy (ops : EstOps σ D α (labelsOf y).length) (sv : CvxSolver) (hsv : ExactCvx sv) (qp : QPSolver) (hqp : ExactQP qp) (ppf : ℝ → EReal) (la : LinAlg (labelsOf y).length) (hla : ExactLinAlg la) (fuel : ℕ) (tol : ℝ)
    (cfg : DfCfg) (hnb : 0 < cfg.nBins) (hw : cfg.strategy = .equalWidth) (P P' : List (Fin (labelsOf y).length → ℝ)) (hP : P.length = r * y.length) (v v' : Fin (labelsOf y).length → ℝ) (h : OneReplaced P P' v v')
    (fit fit' : DfFit (nDescriptors (labelsOf y).length) cfg.nBins (labelsOf y).length)
    (hfit : dfyFit ppf cfg (labelsOf y) y (stacked y r) P = .ok fit) (hd : ∀ x : Fin (labelsOf y).length → ℝ, (∀ i, ∑ j, fit.train i j * x j = 0) → x = 0)
    (hfit' : dfyFit ppf cfg (labelsOf y) y (stacked y r) P' = .ok fit') (hd' : ∀ x : Fin (labelsOf y).length → ℝ, (∀ i, ∑ j, fit'.train i j * x j = 0) → x = 0)
    (κ N B : ℝ) (hκ0 : 0 ≤ κ) (hκ : MixturesTellApart euclidean fit.train κ) (hN0 : 0 < N) (hN : ∀ c ∈ y, N ≤ r * y.count c) (hB : B = spread cfg.f (nDescriptors (labelsOf y).length * cfg.nBins) * (2 * nDescriptors (labelsOf y).length))
    (bag : List (Fin (labelsOf y).length → ℝ)) :
    ∃ x x' : Fin (labelsOf y).length → ℝ, ucRun ops enc w ⟨dfyClass ppf sv qp la (fuel + 1) tol cfg .l2, et, et'⟩ X y (some (.probs P)) Xt (some (.probs bag)) = .ok (some (realList x))
      ∧ ucRun ops enc w ⟨dfyClass ppf sv qp la (fuel + 1) tol cfg .l2, et, et'⟩ X y (some (.probs P')) Xt (some (.probs bag)) = .ok (some (realList x'))
      ∧ totalError x x' ≤ κ * (B * (1 + κ * B)) / N := by
  have hl : (stacked y r).length = P.length := by rw [stacked_length, hP]
  obtain ⟨q, x, hq, h1, hx, ho⟩ := dfy_closest enc w et et' X Xt y hy r ops sv hsv qp hqp ppf la hla fuel tol cfg .l2 rfl P hP fit hfit hd bag
  obtain ⟨q', x', hq', h1', hx', ho'⟩ := dfy_closest enc w et et' X Xt y hy r ops sv hsv qp hqp ppf la hla fuel tol cfg .l2 rfl P' (by rw [replaced_length h, hP]) fit' hfit' hd' bag
  have hcut : ∀ (P : List (Fin (labelsOf y).length → ℝ)) (fit : DfFit (nDescriptors (labelsOf y).length) cfg.nBins (labelsOf y).length), dfyFit ppf cfg (labelsOf y) y (stacked y r) P = .ok fit → ∀ d, fit.cuts d = widthCuts cfg.nBins := by
    intro P fit hfit d
    have := dfFit_cuts ppf .whole cfg (some (0, 1)) _ _ _ _ _ fit hfit d
    rw [hw, computeBincuts_width ppf _ _ _ _ hnb] at this
    exact (Except.ok.inj this).symm
  have hc := hcut P fit hfit
  have hc' := hcut P' fit' hfit'
  have hm := (df_means ppf .whole cfg (some (0, 1)) _ y (stacked y r) hy P fit hfit fun _ => 0).1
  have hm' := (df_means ppf .whole cfg (some (0, 1)) _ y (stacked y r) hy P' fit' hfit' fun _ => 0).1
  have hmw : Monotone (widthCuts cfg.nBins) := by
    have := hm ⟨0, by unfold nDescriptors; split <;> first | omega | (have := labels_pos y hy; omega)⟩
    rwa [hc] at this
  have hqq : q' = q := by
    have e1 : dfTest .whole cfg (dfyAtt (labelsOf y).length) fit bag = .ok q := hq
    have e2 : dfTest .whole cfg (dfyAtt (labelsOf y).length) fit' bag = .ok q' := hq'
    rw [dfTest_eq _ cfg _ fit hm] at e1
    rw [dfTest_eq _ cfg _ fit' hm'] at e2
    rw [← Except.ok.inj e1, ← Except.ok.inj e2]
    simp only [hc, hc']
  subst hqq
  have hs : 0 ≤ spread cfg.f (nDescriptors (labelsOf y).length * cfg.nBins) := by unfold spread; split <;> positivity
  have hB0 : 0 ≤ B := by rw [hB]; positivity
  refine ⟨x, x', h1, h1', (projection_matrices fit.train fit'.train _ x x' hx hx' ho ho' κ (B / N) B hκ0 (by positivity) hB0 hκ ?_ ?_).trans_eq (by ring)⟩
  · intro c
    have col : ∀ (P : List (Fin (labelsOf y).length → ℝ)) (fit : DfFit (nDescriptors (labelsOf y).length) cfg.nBins (labelsOf y).length), dfyFit ppf cfg (labelsOf y) y (stacked y r) P = .ok fit → ∀ i, fit.train i c
        = accumulate .whole cfg.f (fun d b => meanOf (ofClass ((stacked y r).zip P) (labelsOf y)[c]) fun row => binInd (widthCuts cfg.nBins) b (dfyAtt (labelsOf y).length d row)) i := by
      intro P fit hfit i
      have := congrFun (df_means ppf .whole cfg (some (0, 1)) _ y (stacked y r) hy P fit hfit (Pi.single c 1)).2 i
      simp only [hcut P fit hfit, mixtureOf, Pi.single_apply, ite_mul, one_mul, zero_mul, mul_ite, mul_one, mul_zero, Finset.sum_ite_eq', Finset.mem_univ, if_true] at this
      exact this.symm
    simp only [col P fit hfit, col P' fit' hfit']
    refine (accumulate_distance .whole cfg.f _ _).trans ?_
    rw [hB, mul_div_assoc]
    refine mul_le_mul_of_nonneg_left ?_ hs
    have := replaced_shares h (stacked y r) hl (fun (db : Fin (nDescriptors (labelsOf y).length * cfg.nBins)) row => binInd (widthCuts cfg.nBins) (finProdFinEquiv.symm db).2 (dfyAtt (labelsOf y).length (finProdFinEquiv.symm db).1 row))
      (2 * nDescriptors (labelsOf y).length) (by
        refine le_trans (le_of_eq ?_) (binInd_distance (cuts := fun _ => widthCuts cfg.nBins) (fun _ => hmw) (fun d => dfyAtt (labelsOf y).length d v') fun d => dfyAtt (labelsOf y).length d v)
        exact sum_stack fun d b => |binInd (widthCuts cfg.nBins) b (dfyAtt (labelsOf y).length d v') - binInd (widthCuts cfg.nBins) b (dfyAtt (labelsOf y).length d v)|) N hN0 (labelsOf y)[c] (by
        rw [stacked_count]
        push_cast
        exact hN _ ((mem_labelsOf y _).1 (List.getElem_mem _)))
    refine le_trans (le_of_eq ?_) this
    exact (sum_stack fun d b => |meanOf (ofClass ((stacked y r).zip P') (labelsOf y)[c]) (fun row => binInd (widthCuts cfg.nBins) b (dfyAtt (labelsOf y).length d row))
      - meanOf (ofClass ((stacked y r).zip P) (labelsOf y)[c]) (fun row => binInd (widthCuts cfg.nBins) b (dfyAtt (labelsOf y).length d row))|).symm
  · have e1 : dfTest .whole cfg (dfyAtt (labelsOf y).length) fit bag = .ok q' := hq
    rw [dfTest_eq _ cfg _ fit hm] at e1
    have e2 := (df_means ppf .whole cfg (some (0, 1)) _ y (stacked y r) hy P' fit' hfit' x').2
    rw [← Except.ok.inj e1, ← e2]
    refine (euclidean_le_totalError _ _).trans ((accumulate_distance .whole cfg.f _ _).trans ?_)
    rw [hB]
    refine mul_le_mul_of_nonneg_left ?_ hs
    have hmean : ∀ (l : List (Fin (labelsOf y).length → ℝ)) d, (∀ b, 0 ≤ meanOf l fun row => binInd (widthCuts cfg.nBins) b (dfyAtt (labelsOf y).length d row)) ∧ ∑ b, (meanOf l fun row => binInd (widthCuts cfg.nBins) b (dfyAtt (labelsOf y).length d row)) ≤ 1 := by
      intro l d
      refine ⟨fun b => div_nonneg (List.sum_nonneg fun z hz => ?_) (Nat.cast_nonneg _), ?_⟩
      · obtain ⟨row, -, rfl⟩ := List.mem_map.1 hz
        exact (binInd_sum hmw _).1 b
      · unfold meanOf
        rw [← Finset.sum_div]
        refine div_le_one_of_le₀ ?_ (Nat.cast_nonneg _)
        induction l with
        | nil => simp
        | cons a l ih =>
          simp only [List.map_cons, List.sum_cons, Finset.sum_add_distrib, List.length_cons, Nat.cast_add, Nat.cast_one]
          have := (binInd_sum hmw (dfyAtt (labelsOf y).length d a)).2
          linarith
    refine (Finset.sum_le_sum fun d _ => show _ ≤ (2:ℝ) from ?_).trans_eq (by simp [mul_comm])
    have h0 := hmean bag d
    simp only [hc, hc']
    calc ∑ b, |(bag.map fun row => binInd (widthCuts cfg.nBins) b (dfyAtt (labelsOf y).length d row)).sum / bag.length - ∑ c, x' c * meanOf (ofClass ((stacked y r).zip P') (labelsOf y)[c]) fun row => binInd (widthCuts cfg.nBins) b (dfyAtt (labelsOf y).length d row)|
        ≤ ∑ b, ((meanOf bag fun row => binInd (widthCuts cfg.nBins) b (dfyAtt (labelsOf y).length d row)) + ∑ c, x' c * meanOf (ofClass ((stacked y r).zip P') (labelsOf y)[c]) fun row => binInd (widthCuts cfg.nBins) b (dfyAtt (labelsOf y).length d row)) := Finset.sum_le_sum fun b _ => by
          have a := h0.1 b
          have b' : 0 ≤ ∑ c, x' c * meanOf (ofClass ((stacked y r).zip P') (labelsOf y)[c]) fun row => binInd (widthCuts cfg.nBins) b (dfyAtt (labelsOf y).length d row) := Finset.sum_nonneg fun c _ => mul_nonneg (hx'.1 c) ((hmean _ d).1 b)
          unfold meanOf at a ⊢
          unfold meanOf at b'
          rw [abs_le]
          constructor <;> linarith
      _ ≤ 1 + ∑ c, x' c * 1 := by
          rw [Finset.sum_add_distrib, Finset.sum_comm]
          simp only [← Finset.mul_sum]
          exact add_le_add h0.2 (Finset.sum_le_sum fun c _ => mul_le_mul_of_nonneg_left (hmean _ d).2 (hx'.1 c))
      _ = 2 := by simp only [mul_one, hx'.2]; norm_num

end

/-- Non-vacuity for FriedmanME: four training examples with the posteriors of their own class, of which one is replaced by the opposite posteriors. The hypotheses on the two matrices hold, with `κ = 2`. -/
example : ∃ (P P' : List (Fin 2 → ℝ)) (T T' : Fin 2 → Fin 2 → ℝ), OneReplaced P P' ![1, 0] ![0, 1]
    ∧ (T = fun (i c : Fin 2) => reachShare i (1/2) (ofClass ((stacked [0, 0, 1, 1] 1).zip P) (c : ℕ))) ∧ (T' = fun (i c : Fin 2) => reachShare i (1/2) (ofClass ((stacked [0, 0, 1, 1] 1).zip P') (c : ℕ)))
    ∧ (∀ x : Fin 2 → ℝ, (∀ i, ∑ j, T i j * x j = 0) → x = 0) ∧ (∀ x : Fin 2 → ℝ, (∀ i, ∑ j, T' i j * x j = 0) → x = 0) ∧ T ≠ T' ∧ MixturesTellApart euclidean T 2 := by
  have hT : (fun i c => reachShare i (1/2) (ofClass ((stacked [0, 0, 1, 1] 1).zip [![1, 0], ![1, 0], ![0, 1], ![0, 1]]) (c : ℕ)) : Fin 2 → Fin 2 → ℝ) = ![![1, 0], ![0, 1]] := by
    funext i c
    fin_cases i <;> fin_cases c <;> norm_num [reachShare, ofClass, stacked]
  have hT' : (fun i c => reachShare i (1/2) (ofClass ((stacked [0, 0, 1, 1] 1).zip [![1, 0], ![0, 1], ![0, 1], ![0, 1]]) (c : ℕ)) : Fin 2 → Fin 2 → ℝ) = ![![1/2, 0], ![1/2, 1]] := by
    funext i c
    fin_cases i <;> fin_cases c <;> norm_num [reachShare, ofClass, stacked]
  refine ⟨[![1, 0], ![1, 0], ![0, 1], ![0, 1]], [![1, 0], ![0, 1], ![0, 1], ![0, 1]], _, _, ⟨[![1, 0]], [![0, 1], ![0, 1]], rfl, rfl⟩, hT.symm, hT'.symm, ?_, ?_, ?_, ?_⟩
  · intro x h
    have h0 := h 0
    have h1 := h 1
    simp at h0 h1
    funext i
    fin_cases i <;> simp [h0, h1]
  · intro x h
    have h0 := h 0
    have h1 := h 1
    simp at h0 h1
    rw [h0] at h1
    funext i
    fin_cases i <;> simp at * <;> assumption
  · intro h
    have := congrFun (congrFun h 0) 0
    norm_num at this
  · intro p q _ _
    have hm : ∀ p : Fin 2 → ℝ, mixtureOf ![![1, 0], ![0, 1]] p = p := fun p => by
      funext i
      fin_cases i <;> simp [mixtureOf]
    rw [hm, hm]
    have : ∀ i, |p i - q i| ≤ euclidean p q := fun i => by
      rw [← Real.sqrt_sq_eq_abs]
      exact Real.sqrt_le_sqrt (Finset.single_le_sum (f := fun k => (p k - q k) ^ 2) (fun k _ => sq_nonneg _) (Finset.mem_univ i))
    simp only [totalError, Fin.sum_univ_two]
    linarith [this 0, this 1]

end Verif.Props
