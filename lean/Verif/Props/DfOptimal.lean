import Verif.Props.Df
import Verif.Props.Optimization

/-!
# C73 for distribution matching, from `fit` to `predict`
-/

namespace Verif.Props

open Verif.Model Verif.Spec Verif.Proof Matrix

variable {α : Type} [DecidableEq α]

/-- **C73**: the distance named by the user is the one that is minimised. 'L1': the sum of absolute differences between the testing distribution and the mixture. -/
theorem C73_df_l1 (sv : CvxSolver) (hsv : ExactCvx sv) (qp : QPSolver) (tol : ℝ) {m nc : ℕ} (hn : 0 < nc) (T : Matrix (Fin m) (Fin nc) ℝ) (par : QPParams nc (nc + 1)) (q : Fin m → ℝ) (hq : ∀ k, 0 ≤ q k) :
    ∃ x, dfSolve sv qp tol .l1 T par q = .ok (some ⟨nc, x⟩) ∧ IsPrev x ∧ ∀ p, IsPrev p → ∑ k, |q k - ∑ j, T k j * x j| ≤ ∑ k, |q k - ∑ j, T k j * p j| := by
  obtain ⟨pr, x, h1, -, hx, hopt⟩ := C73_solve_l1_optimal sv hsv hn T q hq none
  refine ⟨x, ?_, hx, hopt⟩
  unfold dfSolve
  simp only [Option.map_none] at h1
  simp [h1, Except.map]

/-- **C73**, 'HD': the squared Hellinger distance between the testing distribution and the mixture. -/
theorem C73_df_hd (sv : CvxSolver) (hsv : ExactCvx sv) (qp : QPSolver) (tol : ℝ) {m nc : ℕ} (hn : 0 < nc) (T : Matrix (Fin m) (Fin nc) ℝ) (par : QPParams nc (nc + 1)) (q : Fin m → ℝ) (hq : ∀ k, 0 ≤ q k)
    (hT : ∀ k j, 0 ≤ T k j) (s : ℝ) (hs : ∀ j, ∑ k, T k j = s) :
    ∃ x, dfSolve sv qp tol .hd T par q = .ok (some ⟨nc, x⟩) ∧ IsPrev x ∧ ∀ p, IsPrev p → hellingerSq q (fun k => ∑ j, T k j * x j) ≤ hellingerSq q (fun k => ∑ j, T k j * p j) := by
  obtain ⟨pr, x, h1, -, hx, hopt⟩ := C73_solve_hd_optimal sv hsv hn T q hq hT s hs none
  refine ⟨x, ?_, hx, hopt⟩
  unfold dfSolve
  simp only [Option.map_none] at h1
  simp [h1, Except.map]

/-- **C73**, 'L2', with the parameters computed by `fit`: the squared Euclidean distance, up to half a spacing. -/
theorem C73_df_l2 (sv : CvxSolver) (qp : QPSolver) (hqp : ExactQP qp) (tol : ℝ) {m nc : ℕ} (la : LinAlg nc) (hla : ExactLinAlg la) (hn : 0 < nc) (T : Matrix (Fin m) (Fin nc) ℝ) (q : Fin m → ℝ) (fuel : ℕ) :
    ∃ par x, computeL2ParamTrain la (fuel + 1) T = some par ∧ dfSolve sv qp tol .l2 T par q = .ok (some ⟨nc, x⟩) ∧ IsPrev x
      ∧ ∀ p, IsPrev p → l2Loss T q x ≤ l2Loss T q p + la.spacing ((2:ℝ) • (Tᵀ * T)) / 2 := by
  obtain ⟨par, x, h1, h2, hx, hopt⟩ := C26_l2_near qp hqp la hla hn T q fuel
  refine ⟨par, x, h1, ?_, hx, hopt⟩
  unfold dfSolve
  simp [h2, Except.map]

theorem stacked_facts {nd nb : ℕ} {v : Fin (nd * nb) → ℝ} (h : ∀ d, IsPrev (blockOf v d)) : (∀ k, 0 ≤ v k) ∧ ∑ k, v k = nd := by
  have e : ∀ k : Fin (nd * nb), v k = blockOf v k.divNat k.modNat := by
    intro k
    unfold blockOf
    congr 1
    exact (finProdFinEquiv.apply_symm_apply k).symm
  refine ⟨fun k => e k ▸ (h _).1 _, ?_⟩
  rw [← finProdFinEquiv.sum_comp, Fintype.sum_prod_type]
  have : ∀ d, ∑ b, v (finProdFinEquiv (d, b)) = 1 := fun d => (h d).2
  simp [this]

/-- **C73** for `DFy` from `fit` to `predict` (PDFs, equal-width or equal-count bins, 'HD' and 'L1'): the answer is a valid prevalence vector, and no other one gives a mixture of the histograms of the classes that is
closer to the histograms of the testing bag. -/
theorem C73_dfy_optimal (ppf : ℝ → EReal) (sv : CvxSolver) (hsv : ExactCvx sv) (qp : QPSolver) (tol : ℝ) (cfg : DfCfg) (hf : cfg.f = .pdf) (hnb : 0 < cfg.nBins) (classes y yExt : List α)
    (preds : List (Fin classes.length → ℝ)) (hX : preds ≠ []) (hlen : yExt.length = preds.length) (hcl : ∀ c ∈ classes, c ∈ yExt) (hn : classes ≠ []) (hs : SpanningStrategy cfg preds.length)
    (par : QPParams classes.length (classes.length + 1)) (test : List (Fin classes.length → ℝ)) (ht : test ≠ []) :
    ∃ fit q, dfyFit ppf cfg classes y yExt preds = .ok fit ∧ dfyTest cfg fit test = .ok q
      ∧ (∀ d, blockOf q d = binShare (fit.cuts d) (test.map (dfyAtt classes.length d)))
      ∧ (∀ c d, blockOf (fun i => fit.train i c) d = binShare (fit.cuts d) ((classRows yExt preds classes[c]).map (dfyAtt classes.length d)))
      ∧ (∃ x, dfSolve sv qp tol .hd fit.train par q = .ok (some ⟨classes.length, x⟩) ∧ IsPrev x
          ∧ ∀ p, IsPrev p → hellingerSq q (fun k => ∑ j, fit.train k j * x j) ≤ hellingerSq q (fun k => ∑ j, fit.train k j * p j))
      ∧ ∃ x, dfSolve sv qp tol .l1 fit.train par q = .ok (some ⟨classes.length, x⟩) ∧ IsPrev x
          ∧ ∀ p, IsPrev p → ∑ k, |q k - ∑ j, fit.train k j * x j| ≤ ∑ k, |q k - ∑ j, fit.train k j * p j| := by
  obtain ⟨fit, h1, -, h3, h4⟩ := C43_dfy_distributions ppf cfg hf hnb classes y yExt preds hX hlen hcl hs
  obtain ⟨q, hq, hqd⟩ := h4 test ht
  have hn' : 0 < classes.length := List.length_pos_of_ne_nil hn
  have fq := stacked_facts fun d => (hqd d).2
  have ft := fun c => stacked_facts fun d => (h3 c d).2
  exact ⟨fit, q, h1, hq, fun d => (hqd d).1, fun c d => (h3 c d).1, C73_df_hd sv hsv qp tol hn' _ par q fq.1 (fun k j => (ft j).1 k) _ fun j => (ft j).2, C73_df_l1 sv hsv qp tol hn' _ par q fq.1⟩

/-- **C73** for `DFX`, likewise. -/
theorem C73_dfx_optimal (ppf : ℝ → EReal) (sv : CvxSolver) (hsv : ExactCvx sv) (qp : QPSolver) (tol : ℝ) {nf : ℕ} (cfg : DfCfg) (hf : cfg.f = .pdf) (hnb : 0 < cfg.nBins) (classes y : List α)
    (X : List (Fin nf → ℝ)) (hX : X ≠ []) (hlen : y.length = X.length) (hcl : ∀ c ∈ classes, c ∈ y) (hn : classes ≠ []) (hs : SpanningStrategy cfg X.length)
    (par : QPParams classes.length (classes.length + 1)) (test : List (Fin nf → ℝ)) (ht : test ≠ []) :
    ∃ fit q, dfxFit ppf cfg classes y X = .ok fit ∧ dfxTest cfg fit test = .ok q
      ∧ (∀ d, blockOf q d = binShare (fit.cuts d) (test.map fun x => x d))
      ∧ (∀ c d, blockOf (fun i => fit.train i c) d = binShare (fit.cuts d) ((classRows y X classes[c]).map fun x => x d))
      ∧ (∃ x, dfSolve sv qp tol .hd fit.train par q = .ok (some ⟨classes.length, x⟩) ∧ IsPrev x
          ∧ ∀ p, IsPrev p → hellingerSq q (fun k => ∑ j, fit.train k j * x j) ≤ hellingerSq q (fun k => ∑ j, fit.train k j * p j))
      ∧ ∃ x, dfSolve sv qp tol .l1 fit.train par q = .ok (some ⟨classes.length, x⟩) ∧ IsPrev x
          ∧ ∀ p, IsPrev p → ∑ k, |q k - ∑ j, fit.train k j * x j| ≤ ∑ k, |q k - ∑ j, fit.train k j * p j| := by
  obtain ⟨fit, h1, -, h3, h4⟩ := C43_dfx_distributions ppf cfg hf hnb classes y X hX hlen hcl hs
  obtain ⟨q, hq, hqd⟩ := h4 test ht
  have hn' : 0 < classes.length := List.length_pos_of_ne_nil hn
  have fq := stacked_facts fun d => (hqd d).2
  have ft := fun c => stacked_facts fun d => (h3 c d).2
  exact ⟨fit, q, h1, hq, fun d => (hqd d).1, fun c d => (h3 c d).1, C73_df_hd sv hsv qp tol hn' _ par q fq.1 (fun k j => (ft j).1 k) _ fun j => (ft j).2, C73_df_l1 sv hsv qp tol hn' _ par q fq.1⟩

/-- Non-vacuity of C73: two examples of two classes, eight bins, and an exact solver. -/
example : ∃ sv, ExactCvx sv ∧ SpanningStrategy ⟨.pdf, 8, .equalWidth⟩ 2 ∧ ∀ c ∈ [0, 1], c ∈ [0, 1] := by
  obtain ⟨sv, h⟩ := exactCvx_exists
  exact ⟨sv, h, Or.inl rfl, fun _ h => h⟩

end Verif.Props
