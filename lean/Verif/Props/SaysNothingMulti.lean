import Verif.Props.SaysNothing

/-!
# C172: AC and PAC with three or more classes
-/

namespace Verif.Props

open Verif.Model Verif.Spec Verif.Proof Matrix MeasureTheory

/-- The solver that AC and PAC call for 'L2' is `solve_l2` with the parameters that `fit` computed with `compute_l2_param_train` (ac.py:167, 262-263, 421, 513-514). -/
def CallsL2 (sol : Solvers) (qp : QPSolver) {n : ℕ} (la : LinAlg n) (fuel : ℕ) : Prop := ∀ (T : Matrix (Fin n) (Fin n) ℝ) (q : Fin n → ℝ) par x, computeL2ParamTrain la fuel T = some par → solveL2 qp T q par = .ok x →
  sol.l2 (fun i j => Fl.fin (T i j)) (fun i => Fl.fin (q i)) = fun j => Fl.fin (x j)

theorem adjust_flat_l2 (sol : Solvers) (qp : QPSolver) (hqp : ExactQP qp) {n : ℕ} (la : LinAlg n) (hla : ExactLinAlg la) (fuel : ℕ) (hsol : CallsL2 sol qp la (fuel + 1)) (h3 : 3 ≤ n) (M : Fin n → Fin n → ℝ) (hM : ∀ i i' j, M i j = M i' j) (p : Fin n → ℝ) :
    adjust sol .L2 (fun i j => Fl.fin (M i j)) (fun i => Fl.fin (p i)) = .ok fun _ => Fl.fin (1 / n) := by
  have hdet : Matrix.det (M : Matrix (Fin n) (Fin n) ℝ) = 0 := Matrix.det_zero_of_row_eq (i := ⟨0, by omega⟩) (j := ⟨1, by omega⟩) (by simp) (funext fun j => hM _ _ j)
  rw [C10_singular sol .L2 (by omega) M hdet]
  obtain ⟨par, h1, h2⟩ := l2_flat qp hqp la hla (by omega) (fun i j => M j i : Matrix (Fin n) (Fin n) ℝ) (fun i c c' => hM c c' i) p fuel
  exact congrArg Except.ok (hsol _ p par _ h1 h2)

section
variable {σ D α : Type} {k : ℕ} [LinearOrder α] (enc : Bool → α) (w : World σ D α) (et et' : Option ℕ) (X Xt : List D) (y : List α) (hy : y ≠ []) (r : ℕ) (hr : 0 < r)
include hy hr

/-- **C172** is false for AC with three or more classes and 'L2': it answers the uniform prevalences, for every bag. -/
theorem C172_ac_l2_refuted (ops : EstOps σ D α k) (sol : Solvers) (qp : QPSolver) (hqp : ExactQP qp) (la : LinAlg (labelsOf y).length) (hla : ExactLinAlg la) (fuel : ℕ) (hsol : CallsL2 sol qp la (fuel + 1)) (h3 : 3 ≤ (labelsOf y).length)
    (P : List α) (hP : P.length = r * y.length) (hPy : ∀ a ∈ P, a ∈ y) (hs : SaysNothing ((stacked y r).zip P)) (bag : List α) (hbag : bag ≠ []) :
    ucRun ops enc w ⟨acClass sol .L2, et, et'⟩ X y (some (.crisp P)) Xt (some (.crisp bag)) = .ok (some (realList fun _ : Fin (labelsOf y).length => 1 / (labelsOf y).length)) := by
  have hl : (stacked y r).length = P.length := by rw [stacked_length, hP]
  rw [ucRun_given_crisp ops enc w X Xt y (acClass sol .L2) rfl rfl et et' hy r P _ hP, answer_ac_eq y sol .L2 r P _ hP hbag, normalizeRows_eq y r hr P hP hPy,
    adjust_flat_l2 sol qp hqp la hla fuel hsol h3 (cmReal y r P) (fun i i' j => ?_) (freqs (labelsOf y) bag)]
  · rfl
  · unfold cmReal
    rw [condFreq_condMean, condFreq_condMean, ← meanOf_ofClass _ _ hl, ← meanOf_ofClass _ _ hl]
    exact nothing_mean y r hr P hP hs i i' _

/-- **C172** is false for PAC with three or more classes and 'L2'. -/
theorem C172_pac_l2_refuted (ops : EstOps σ D α (labelsOf y).length) (sol : Solvers) (qp : QPSolver) (hqp : ExactQP qp) (la : LinAlg (labelsOf y).length) (hla : ExactLinAlg la) (fuel : ℕ) (hsol : CallsL2 sol qp la (fuel + 1))
    (h3 : 3 ≤ (labelsOf y).length) (P : List (Fin (labelsOf y).length → ℝ)) (hP : P.length = r * y.length) (hs : SaysNothing ((stacked y r).zip P)) (bag : List (Fin (labelsOf y).length → ℝ)) (hbag : bag ≠ []) :
    ucRun ops enc w ⟨pacClass sol .L2, et, et'⟩ X y (some (.probs P)) Xt (some (.probs bag)) = .ok (some (realList fun _ : Fin (labelsOf y).length => 1 / (labelsOf y).length)) := by
  have hl : (stacked y r).length = P.length := by rw [stacked_length, hP]
  rw [ucRun_given_probs ops enc w X Xt y (pacClass sol .L2) rfl rfl et et' hy r P _ hP]
  have e : answerOn (pacClass sol .L2) y r (.probs P) (.probs bag)
      = ((adjust sol .L2 (fun i j => colMeans (rowsOf (stacked y r) P (labelsOf y)[i]) j) (colMeans bag)).map vecList).map some := by
    simp only [answerOn, learnAnswer, fittedState, pacClass, trainData, probRows, if_true, bind, Except.bind, hl, keep]
    rw [dif_pos (show (labelsOf y).length = (npUnique y).length from rfl)]
    simp only [pure, Except.pure]
    rw [dif_pos (show (labelsOf y).length = (npUnique y).length from rfl)]
    rfl
  have hent : (fun i j => colMeans (rowsOf (stacked y r) P (labelsOf y)[i]) j) = fun i j => Fl.fin (pcmReal y r P i j) := by
    funext i j
    exact pcm_entry y r hr P hP i j
  have hq : colMeans bag = fun j => Fl.fin (meanOf bag fun row => row j) := colMeans_eq _ hbag
  rw [e, hent, hq, adjust_flat_l2 sol qp hqp la hla fuel hsol h3 (pcmReal y r P) (fun i i' j => ?_) (fun j => meanOf bag fun row => row j)]
  · rfl
  · unfold pcmReal
    rw [← meanOf_ofClass _ _ hl, ← meanOf_ofClass _ _ hl]
    exact nothing_mean y r hr P hP hs i i' _

end

/-- C172: three classes whose examples were all predicted as the first one. -/
example {σ D : Type} (enc : Bool → ℤ) (w : World σ D ℤ) (X Xt : List D) (ops : EstOps σ D ℤ k) (sol : Solvers) (qp : QPSolver) (hqp : ExactQP qp) (la : LinAlg (labelsOf [(0:ℤ), 1, 2]).length) (hla : ExactLinAlg la) (fuel : ℕ)
    (hsol : CallsL2 sol qp la (fuel + 1)) : ucRun ops enc w ⟨acClass sol .L2, none, none⟩ X [0, 1, 2] (some (.crisp [0, 0, 0])) Xt (some (.crisp [0, 2, 2]))
      = .ok (some (realList fun _ : Fin (labelsOf [(0:ℤ), 1, 2]).length => 1 / (labelsOf [(0:ℤ), 1, 2]).length)) := by
  refine C172_ac_l2_refuted enc w none none X Xt [0, 1, 2] (by simp) 1 (by norm_num) ops sol qp hqp la hla fuel hsol (by rw [labelsOf_eq [0, 1, 2] [0, 1, 2] (by decide) (by decide)]; simp) _ (by simp) (by decide) ?_ _ (by simp)
  intro c hc c' hc'
  have : ∀ c ∈ [(0:ℤ), 1, 2], ofClass ([(0:ℤ), 1, 2].zip [(0:ℤ), 0, 0]) c = [0] := by decide
  have e : stacked [(0:ℤ), 1, 2] 1 = [0, 1, 2] := by decide
  rw [e] at hc hc' ⊢
  rw [this c (by simpa using hc), this c' (by simpa using hc')]
  exact ⟨by simp, by simp, fun _ => rfl⟩

/-- There is such a solver. -/
example (qp : QPSolver) {n : ℕ} (la : LinAlg n) (fuel : ℕ) : ∃ sol, CallsL2 sol qp la fuel := by
  classical
  refine ⟨⟨fun _ _ _ => 0, fun _ _ _ => 0, fun {m n'} T q => if h : ∃ x : Fin n' → ℝ, ∃ (la' : LinAlg n') (T' : Matrix (Fin m) (Fin n') ℝ) (q' : Fin m → ℝ) (par : _), HEq la' la ∧ T = (fun i j => Fl.fin (T' i j))
    ∧ q = (fun i => Fl.fin (q' i)) ∧ computeL2ParamTrain la' fuel T' = some par ∧ solveL2 qp T' q' par = .ok x then fun j => Fl.fin (h.choose j) else fun _ => 0⟩, ?_⟩
  intro T q par x h1 h2
  have h : ∃ x : Fin n → ℝ, ∃ (la' : LinAlg n) (T' : Matrix (Fin n) (Fin n) ℝ) (q' : Fin n → ℝ) (par : _), HEq la' la ∧ (fun i j => Fl.fin (T i j)) = (fun i j => Fl.fin (T' i j))
    ∧ (fun i => Fl.fin (q i)) = (fun i => Fl.fin (q' i)) ∧ computeL2ParamTrain la' fuel T' = some par ∧ solveL2 qp T' q' par = .ok x := ⟨x, la, T, q, par, HEq.rfl, rfl, rfl, h1, h2⟩
  dsimp only
  rw [dif_pos h]
  obtain ⟨la', T', q', par', e1, e2, e3, e4, e5⟩ := h.choose_spec
  obtain rfl := eq_of_heq e1
  have e2' : T = T' := by
    ext i j
    exact Fl.fin.inj (congrFun (congrFun e2 i) j)
  have e3' : q = q' := funext fun i => Fl.fin.inj (congrFun e3 i)
  subst e2' e3'
  rw [h1] at e4
  obtain rfl := Option.some.inj e4
  rw [h2] at e5
  rw [← Except.ok.inj e5]

end Verif.Props
