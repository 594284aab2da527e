import Verif.Props.SearchMethods
import Verif.Props.MetricsMulti
import Verif.Props.Averaging
import Verif.Spec.NegType
import Mathlib.Analysis.InnerProductSpace.PiL2

/-!
# C175 with the metric `l2` of the library

With `l2` the conditions of C175 always hold when the training representations of the classes are not the same.
-/

namespace Verif.Props

open Verif.Model Verif.Spec Verif.Proof

section
variable {E : Type*} [NormedAddCommGroup E] [InnerProductSpace ℝ E]

/-- On the line through `0` and `δ` the distance to `a` grows with the distance to the foot `c` of `a`. -/
theorem line_dist (a δ : E) (hδ : δ ≠ 0) : ∃ c : ℝ, ∀ s t : ℝ, ((s - c) ^ 2 ≤ (t - c) ^ 2 → ‖s • δ - a‖ ≤ ‖t • δ - a‖) ∧ ((s - c) ^ 2 < (t - c) ^ 2 → ‖s • δ - a‖ < ‖t • δ - a‖) := by
  have hp : 0 < ‖δ‖ ^ 2 := by positivity
  have key : ∀ s : ℝ, ‖s • δ - a‖ ^ 2 = ‖δ‖ ^ 2 * (s - inner ℝ δ a / ‖δ‖ ^ 2) ^ 2 + (‖a‖ ^ 2 - inner ℝ δ a ^ 2 / ‖δ‖ ^ 2) := by
    intro s
    rw [norm_sub_sq_real, norm_smul, mul_pow, Real.norm_eq_abs, sq_abs, real_inner_smul_left]
    field_simp
    ring
  refine ⟨inner ℝ δ a / ‖δ‖ ^ 2, fun s t => ⟨fun h => ?_, fun h => ?_⟩⟩
  · refine le_of_sq_le_sq ?_ (norm_nonneg _)
    rw [key, key]
    nlinarith
  · refine lt_of_pow_lt_pow_left₀ 2 (norm_nonneg _) ?_
    rw [key, key]
    nlinarith

/-- The distance from `a` to the points `p 1 • δ`, as a function of the prevalences. -/
theorem searchable_line (a δ : E) (hδ : δ ≠ 0) (tol : ℝ) : Searchable (1 : Fin 2) tol (tol * ‖δ‖) fun p => ‖p 1 • δ - a‖ := by
  obtain ⟨c, hc⟩ := line_dist a δ hδ
  refine ⟨⟨convex_prev, fun p _ r _ x y hx hy hxy => ?_⟩, ?_, fun p q _ _ h => ?_⟩
  · have h := norm_add_le (x • (p 1 • δ - a)) (y • (r 1 • δ - a))
    rw [norm_smul, norm_smul, Real.norm_of_nonneg hx, Real.norm_of_nonneg hy] at h
    obtain rfl : y = 1 - x := by linarith
    refine le_trans (le_of_eq (congrArg norm ?_)) h
    simp only [Pi.add_apply, Pi.smul_apply, smul_eq_mul]
    module
  · have pos : ∀ p : Fin 2 → ℝ, IsPrev p → 0 ≤ p 1 ∧ p 1 ≤ 1 := fun p hp => (prev_two hp).2
    rcases le_or_gt c 0 with h0 | h0
    · refine ⟨![1 - 0, 0], pair_isPrev ⟨le_rfl, zero_le_one⟩, fun p hp => (hc _ _).1 ?_, fun p hp h => (hc _ _).2 ?_, .inl (by norm_num)⟩
      · have := pos p hp
        simp only [Matrix.cons_val_one, Matrix.cons_val_fin_one]
        nlinarith
      · simp only [Matrix.cons_val_one, Matrix.cons_val_fin_one] at h ⊢
        nlinarith
    rcases le_or_gt c 1 with h1 | h1
    · refine ⟨![1 - c, c], pair_isPrev ⟨h0.le, h1⟩, fun p hp => (hc _ _).1 ?_, fun p hp h => (hc _ _).2 ?_, ?_⟩
      · simp only [Matrix.cons_val_one, Matrix.cons_val_fin_one, sub_self]
        nlinarith [sq_nonneg (p 1 - c)]
      · simp only [Matrix.cons_val_one, Matrix.cons_val_fin_one, sub_self] at h ⊢
        have : 0 < p 1 - c := by linarith
        nlinarith [pow_pos this 2]
      · rcases le_or_gt c (98 / 100) with h2 | h2
        · exact .inl (by simpa using h2)
        · refine .inr fun p q _ _ hp hq => (hc _ _).2 ?_
          rw [hp, hq]
          nlinarith
    · refine ⟨![1 - 1, 1], pair_isPrev ⟨zero_le_one, le_rfl⟩, fun p hp => (hc _ _).1 ?_, fun p hp h => ?_, .inr fun p q _ _ hp hq => (hc _ _).2 ?_⟩
      · have := pos p hp
        simp only [Matrix.cons_val_one, Matrix.cons_val_fin_one]
        nlinarith
      · have := pos p hp
        simp only [Matrix.cons_val_one, Matrix.cons_val_fin_one] at h
        linarith
      · rw [hp, hq]
        nlinarith
  · have h2 := abs_norm_sub_norm_le (p 1 • δ - a) (q 1 • δ - a)
    have e : p 1 • δ - a - (q 1 • δ - a) = (p 1 - q 1) • δ := by module
    rw [e, norm_smul, Real.norm_eq_abs] at h2
    exact h2.trans (mul_le_mul_of_nonneg_right h (norm_nonneg _))

end

/-- The Euclidean distance along the mixtures of two different representations. -/
theorem searchable_euclidean {m nc : ℕ} (hnc : nc = 2) (T : Matrix (Fin m) (Fin nc) ℝ) (q : Fin m → ℝ) (tol : ℝ) (hT : (fun i => T i ⟨0, by omega⟩) ≠ fun i => T i ⟨1, by omega⟩) :
    Searchable (⟨1, by omega⟩ : Fin nc) tol (tol * euclidean (fun i => T i ⟨0, by omega⟩) fun i => T i ⟨1, by omega⟩) fun p => euclidean (mixtureOf T p) q := by
  subst hnc
  have hn : ∀ v w : Fin m → ℝ, euclidean v w = ‖(WithLp.toLp 2 v : EuclideanSpace ℝ (Fin m)) - WithLp.toLp 2 w‖ := fun v w => by
    simp [EuclideanSpace.norm_eq, euclidean]
  set δ : EuclideanSpace ℝ (Fin m) := WithLp.toLp 2 fun i => T i 1 - T i 0
  set a : EuclideanSpace ℝ (Fin m) := WithLp.toLp 2 fun i => q i - T i 0
  have hδ : δ ≠ 0 := fun h => hT (funext fun i => by
    have : δ i = 0 := by rw [h]; rfl
    have h' : T i 1 - T i 0 = 0 := this
    show T i 0 = T i 1
    linarith)
  have hg : ∀ p : Fin 2 → ℝ, IsPrev p → euclidean (mixtureOf T p) q = ‖p 1 • δ - a‖ := by
    intro p hp
    have hs := hp.2
    rw [Fin.sum_univ_two] at hs
    have h0 : p 0 = 1 - p 1 := by linarith
    rw [hn]
    congr 1
    ext i
    simp only [δ, a, PiLp.sub_apply, PiLp.smul_apply, smul_eq_mul, mixtureOf, Fin.sum_univ_two, h0]
    ring
  have hε : euclidean (fun i => T i 0) (fun i => T i 1) = ‖δ‖ := by
    rw [hn, norm_sub_rev]
    rfl
  have h := searchable_line a δ hδ tol
  show Searchable (1 : Fin 2) tol (tol * euclidean (fun i => T i 0) fun i => T i 1) fun p => euclidean (mixtureOf T p) q
  rw [hε]
  obtain ⟨b, hb, h1, h2, h3⟩ := h.last
  refine ⟨⟨convex_prev, fun p hp r hr x y hx hy hxy => ?_⟩, ⟨b, hb, fun p hp => ?_, fun p hp hl => ?_, h3.imp id fun h3 p r hp hr => ?_⟩, fun p r hp hr => ?_⟩
  · dsimp only
    rw [hg _ hp, hg _ hr, hg _ (convex_prev hp hr hx hy hxy)]
    exact h.convex.2 hp hr hx hy hxy
  · rw [hg _ hb, hg _ hp]
    exact h1 p hp
  · rw [hg _ hb, hg _ hp]
    exact h2 p hp hl
  · rw [hg _ hp, hg _ hr]
    exact h3 p r hp hr
  · rw [hg _ hp, hg _ hr]
    exact h.modulus p r hp hr

theorem l2_euclidean {m : ℕ} : (fun v q : Fin m → ℝ => Fl.fin (euclidean v q)) = l2 := by
  funext v q
  rw [l2_eq]
  rfl

section
variable {σ D α : Type} [LinearOrder α] (enc : Bool → α) (w : World σ D α) (et et' : Option ℕ) (X Xt : List D) (y : List α) (hy : y ≠ []) (r : ℕ) (hr : 0 < r) (hk : (labelsOf y).length = 2)
include hy

/-- **C175** for DFy (HDy, MMy) with the metric `l2`, and training distributions that are not the same. -/
theorem C175_dfy_l2 (ops : EstOps σ D α (labelsOf y).length) (sv : CvxSolver) (qp : QPSolver) (ppf : ℝ → EReal) (la : LinAlg (labelsOf y).length) (fuel : ℕ) (tol : ℝ) (htol : 0 < tol) (cfg : DfCfg)
    (P : List (Fin (labelsOf y).length → ℝ)) (hP : P.length = r * y.length)
    (fit : DfFit (nDescriptors (labelsOf y).length) cfg.nBins (labelsOf y).length) (hfit : dfyFit ppf cfg (labelsOf y) y (stacked y r) P = .ok fit)
    (hT : (fun i => fit.train i ⟨0, by omega⟩) ≠ fun i => fit.train i ⟨1, by omega⟩) (bag : List (Fin (labelsOf y).length → ℝ)) (hne' : bag ≠ []) :
    ∃ q x, dfyTest cfg fit bag = .ok q ∧ ucRun ops enc w ⟨dfyClass ppf sv qp la fuel tol cfg (.fn l2), et, et'⟩ X y (some (.probs P)) Xt (some (.probs bag)) = .ok (some (realList x)) ∧ IsPrev x
      ∧ ∀ p, IsPrev p → euclidean (mixtureOf fit.train x) q ≤ euclidean (mixtureOf fit.train p) q + 2 * (tol * euclidean (fun i => fit.train i ⟨0, by omega⟩) fun i => fit.train i ⟨1, by omega⟩) := by
  rw [← l2_euclidean]
  obtain ⟨-, q, hq, -⟩ := df_nonneg ppf .whole cfg (some (0, 1)) _ y (stacked y r) hy P fit hfit bag
  obtain ⟨x, h1, h2, h3⟩ := C175_dfy enc w et et' X Xt y hy r hk ops sv qp ppf la fuel tol _ htol cfg euclidean P hP fit hfit bag hne' q hq (searchable_euclidean hk fit.train q tol hT)
  exact ⟨q, x, hq, h1, h2, h3⟩

include hr in
/-- **C175** for FriedmanME with the metric `l2`. -/
theorem C175_friedman_l2 (ops : EstOps σ D α (labelsOf y).length) (sv : CvxSolver) (qp : QPSolver) (la : LinAlg (labelsOf y).length) (fuel : ℕ) (tol : ℝ) (htol : 0 < tol)
    (P : List (Fin (labelsOf y).length → ℝ)) (hP : P.length = r * y.length) (T : Fin (labelsOf y).length → Fin (labelsOf y).length → ℝ)
    (hT : T = fun i c => reachShare i (freq y (labelsOf y)[i]) (ofClass ((stacked y r).zip P) (labelsOf y)[c])) (hne : (fun i => T i ⟨0, by omega⟩) ≠ fun i => T i ⟨1, by omega⟩)
    (bag : List (Fin (labelsOf y).length → ℝ)) (hbag : bag ≠ []) :
    ∃ x, ucRun ops enc w ⟨friedmanClass sv qp la fuel tol (.fn l2), et, et'⟩ X y (some (.probs P)) Xt (some (.probs bag)) = .ok (some (realList x)) ∧ IsPrev x
      ∧ ∀ p, IsPrev p → euclidean (mixtureOf T x) (fun i => reachShare i (freq y (labelsOf y)[i]) bag) ≤ euclidean (mixtureOf T p) (fun i => reachShare i (freq y (labelsOf y)[i]) bag)
        + 2 * (tol * euclidean (fun i => T i ⟨0, by omega⟩) fun i => T i ⟨1, by omega⟩) := by
  rw [← l2_euclidean]
  exact C175_friedman enc w et et' X Xt y hy r hr hk ops sv qp la fuel tol _ htol euclidean P hP T hT bag hbag (searchable_euclidean hk T _ tol hne)

end

/-- **C175** for DFX (HDX, MMX) with the metric `l2`: any number of bags one after the other. -/
theorem C175_dfx_l2 {α : Type} [LinearOrder α] {nf : ℕ} (y : List α) (hy : y ≠ []) (hk : (labelsOf y).length = 2) (sv : CvxSolver) (qp : QPSolver) (ppf : ℝ → EReal) (la : LinAlg (labelsOf y).length) (fuel : ℕ) (tol : ℝ) (htol : 0 < tol)
    (cfg : DfCfg) (X : List (Fin nf → ℝ)) (fit : DfFit nf cfg.nBins (labelsOf y).length) (hfit : dfxFit ppf cfg (labelsOf y) y X = .ok fit)
    (hT : (fun i => fit.train i ⟨0, by omega⟩) ≠ fun i => fit.train i ⟨1, by omega⟩) (bags : List (List (Fin nf → ℝ))) (hbags : ∀ bag ∈ bags, bag ≠ []) :
    ∃ answers, dfxRun ppf sv qp tol cfg (.fn l2) (labelsOf y) la fuel y X bags = .ok answers
      ∧ List.Forall₂ (fun bag a => ∃ x q, a = .ok (some (realList x)) ∧ dfxTest cfg fit bag = .ok q ∧ IsPrev x ∧ ∀ p, IsPrev p → euclidean (mixtureOf fit.train x) q ≤ euclidean (mixtureOf fit.train p) q
        + 2 * (tol * euclidean (fun i => fit.train i ⟨0, by omega⟩) fun i => fit.train i ⟨1, by omega⟩)) bags answers := by
  rw [← l2_euclidean]
  refine C175_dfx y hk sv qp ppf la fuel tol _ htol cfg euclidean X fit hfit bags fun bag hb => ?_
  obtain ⟨-, q, hq, -⟩ := df_nonneg ppf .perBlock cfg none _ y y hy X fit hfit bag
  exact ⟨hbags bag hb, q, hq, searchable_euclidean hk fit.train q tol hT⟩

/-- Non-vacuity: with the predictions `(1, 0)` and `(0, 1)` for an example of each class the representations of the classes are not the same. -/
example : (fun i : Fin 2 => reachShare i (freq [0, 1] ([0, 1].getD i 0)) (ofClass ((stacked [0, 1] 1).zip [![1, 0], ![0, 1]]) 0))
    ≠ fun i : Fin 2 => reachShare i (freq [0, 1] ([0, 1].getD i 0)) (ofClass ((stacked [0, 1] 1).zip [![1, 0], ![0, 1]]) 1) := by
  intro h
  have := congrFun h 0
  norm_num [reachShare, freq, ofClass, stacked] at this

end Verif.Props
