import Verif.Props.Joined
import Verif.Props.Units

/-!
# C173 for DFX
-/

namespace Verif.Props

open Verif.Model Verif.Spec Verif.Proof

/-- **C173** for DFX (and MMX) with 'L2' and two classes. -/
theorem C173_dfx {α : Type} [LinearOrder α] {nf : ℕ} (y : List α) (hy : y ≠ []) (hk : (labelsOf y).length = 2) (sv : CvxSolver) (hsv : ExactCvx sv) (qp : QPSolver) (hqp : ExactQP qp) (ppf : ℝ → EReal)
    (la : LinAlg (labelsOf y).length) (hla : ExactLinAlg la) (fuel : ℕ) (tol : ℝ) (cfg : DfCfg) (X : List (Fin nf → ℝ)) (fit : DfFit nf cfg.nBins (labelsOf y).length) (hfit : dfxFit ppf cfg (labelsOf y) y X = .ok fit)
    (hd : ∀ x : Fin (labelsOf y).length → ℝ, (∀ i, ∑ j, fit.train i j * x j = 0) → x = 0) (par : QPParams (labelsOf y).length ((labelsOf y).length + 1)) (hpar : computeL2ParamTrain la (fuel + 1) fit.train = some par)
    (answer : List (Fin nf → ℝ) → Except Err (Option (List Fl)))
    (hans : answer = fun bag => (dfxTest cfg fit bag).bind fun q => (dfSolve sv qp tol .l2 fit.train par q).map fun o => o.map fun v => List.ofFn fun i => Fl.fin (v.2 i))
    (B1 B2 : List (Fin nf → ℝ)) (h1 : B1 ≠ []) (h2 : B2 ≠ []) :
    ∃ x1 x2 x : Fin (labelsOf y).length → ℝ, answer B1 = .ok (some (realList x1)) ∧ answer B2 = .ok (some (realList x2)) ∧ answer (B1 ++ B2) = .ok (some (realList x)) ∧ ∀ i, Between (x1 i) (x2 i) (x i) := by
  have run : ∀ bag, ∃ q x, dfxTest cfg fit bag = .ok q ∧ answer bag = .ok (some (realList x)) ∧ IsPrev x ∧ ∀ p, IsPrev p → euclidean q (mixtureOf fit.train x) ≤ euclidean q (mixtureOf fit.train p) := by
    intro bag
    obtain ⟨h0, q, hq, hq0⟩ := df_nonneg ppf .perBlock cfg none _ y y hy X fit hfit bag
    obtain ⟨par', x, hpar', -, hsolve, hx, hopt⟩ := matchAnswer_closest sv hsv qp hqp (labels_pos y hy) la hla fuel tol .l2 rfl fit fit.train h0 hd q hq0
    have hs := hsolve par fun _ => by
      simp only [matchParams, hpar] at hpar'
      exact (Except.ok.inj hpar').symm
    have hq' : dfxTest cfg fit bag = .ok q := hq
    refine ⟨q, x, hq', ?_, hx, hopt⟩
    rw [hans]
    simp only [hq', Except.bind, hs, Except.map, Option.map]
    rfl
  obtain ⟨q1, x1, g1, e1, hx1, ho1⟩ := run B1
  obtain ⟨q2, x2, g2, e2, hx2, ho2⟩ := run B2
  obtain ⟨q, x, g, e, hx, ho⟩ := run (B1 ++ B2)
  obtain ⟨t, t0, t1, ht⟩ := meanOf_joined B1 B2 h1 h2
  refine ⟨x1, x2, x, e1, e2, e, l2_between hk fit.train hd _ _ _ t0 t1 (fun i => ?_) x1 x2 x hx1 hx2 hx ho1 ho2 ho⟩
  have hm := (df_means ppf .perBlock cfg none _ y y hy X fit hfit fun _ => 0).1
  unfold dfxTest at g1 g2 g
  rw [dfTest_eq .perBlock cfg _ fit hm] at g1 g2 g
  rw [← Except.ok.inj g1, ← Except.ok.inj g2, ← Except.ok.inj g]
  have h := accumulate_mixture .perBlock cfg.f (fun (c : Fin 2) d b => if c = 0 then meanOf B1 fun row => binInd (fit.cuts d) b (row d) else meanOf B2 fun row => binInd (fit.cuts d) b (row d)) ![t, 1 - t] i
  simp only [Fin.sum_univ_two, if_true, if_neg (show (1 : Fin 2) ≠ 0 by decide), Matrix.cons_val_zero, Matrix.cons_val_one] at h
  unfold meanOf at h ht
  refine Eq.trans ?_ (h.trans (by ring))
  congr 1
  funext d b
  rw [ht fun row => binInd (fit.cuts d) b (row d)]
  ring

/-- C173: a training set with one feature for which `C173_dfx` applies: 0 for the first class and 1 for the second one, with two bins. -/
example (ppf : ℝ → EReal) : ∃ fit : DfFit 1 2 2, dfxFit ppf ⟨.pdf, 2, .equalWidth⟩ [(0 : ℕ), 1] [0, 1] [![(0 : ℝ)], ![1]] = .ok fit ∧ ∀ x : Fin 2 → ℝ, (∀ i, ∑ j, fit.train i j * x j = 0) → x = 0 := by
  obtain ⟨fit, hf, -, h, -⟩ := C43_dfx_distributions ppf ⟨.pdf, 2, .equalWidth⟩ rfl (by norm_num) [(0 : ℕ), 1] [0, 1] [![(0 : ℝ)], ![1]] (by simp) rfl (by simp) (by simp [SpanningStrategy])
  have hc := ((dfxFit_iff ppf ⟨.pdf, 2, .equalWidth⟩ [(0 : ℕ), 1] [0, 1] [![(0 : ℝ)], ![1]] rfl fit).1 hf).1 0
  refine ⟨fit, hf, fun x hx => ?_⟩
  have hcut : fit.cuts 0 = ![⊥, ((1/2 : ℝ) : EReal), ⊤] := by
    rw [computeBincuts] at hc
    simp only [binRange, binEdges] at hc
    norm_num [linspace, List.min?, List.max?] at hc
    rw [← hc]
    funext i
    fin_cases i <;> simp [Fin.ext_iff]
  have e : ∀ (c : Fin 2) (b : Fin 2), fit.train (finProdFinEquiv ((0 : Fin 1), b)) c = if b = c then 1 else 0 := fun c b => by
    have h1 := congrFun (h c 0).1 b
    have h2 : blockOf (fun i => fit.train i c) (0 : Fin 1) b = fit.train (finProdFinEquiv ((0 : Fin 1), b)) c := rfl
    rw [← h2]
    refine h1.trans ?_
    rw [hcut]
    fin_cases c <;> fin_cases b <;> simp [binShare, classRows] <;> norm_num
  funext j
  have := hx (finProdFinEquiv ((0 : Fin 1), j))
  simpa [e] using this

end Verif.Props
