import Verif.Props.DfOptimal
import Verif.Props.Stability

/-!
# C73 for AC and PAC

When the matrix of rates cannot be inverted, AC and PAC with three or more classes call the solver of the distance chosen by the user (ac.py:257-268, 508-519).
-/

namespace Verif.Props

open Verif.Model Verif.Spec Verif.Proof Matrix

/-- The loss behind each name of a distance, between the observed predictions `q` and the expected ones `r`. -/
noncomputable def distanceNamed {m : ℕ} : Dist → (Fin m → ℝ) → (Fin m → ℝ) → ℝ
  | .HD, q, r => ∑ k, (Real.sqrt (q k) - Real.sqrt (r k)) ^ 2
  | .L1, q, r => ∑ k, |q k - r k|
  | .L2, q, r => ∑ k, (r k - q k) ^ 2
  | .other, _, _ => 0

/-- Solvers that are exact for the problems of optimization.py (`solve_hd`, `solve_l1`), and for `solve_l2` up to `δ`, the effect of making the Gram matrix positive definite (C26). -/
def ExactSolvers (δ : ℝ) (sol : Solvers) : Prop := ∀ (n : ℕ) (T : Matrix (Fin n) (Fin n) ℝ) (q : Fin n → ℝ), 0 < n → (∀ i, 0 ≤ q i) →
  (∃ x, sol.hd (fun i j => Fl.fin (T i j)) (fun i => Fl.fin (q i)) = (fun j => Fl.fin (x j)) ∧ BestPrev (cvxObjective .hd T q) x)
  ∧ (∃ x, sol.l1 (fun i j => Fl.fin (T i j)) (fun i => Fl.fin (q i)) = (fun j => Fl.fin (x j)) ∧ BestPrev (cvxObjective .l1 T q) x)
  ∧ ∃ x, sol.l2 (fun i j => Fl.fin (T i j)) (fun i => Fl.fin (q i)) = (fun j => Fl.fin (x j)) ∧ IsPrev x ∧ ∀ p, IsPrev p → l2Loss T q x ≤ l2Loss T q p + δ

theorem adjust_optimal {δ : ℝ} (hδ : 0 ≤ δ) {sol : Solvers} (hsol : ExactSolvers δ sol) {dist : Dist} (hd : dist ≠ .other) {n : ℕ} (hn : 0 < n) (h2 : n ≠ 2) (M : Matrix (Fin n) (Fin n) ℝ)
    (hrow : ∀ i, IsPrev (M i)) (hM : M.det = 0) (q : Fin n → ℝ) (hq : IsPrev q) :
    ∃ x, adjust sol dist (fun i j => Fl.fin (M i j)) (fun j => Fl.fin (q j)) = .ok (fun i => Fl.fin (x i)) ∧ IsPrev x
      ∧ ∀ p, IsPrev p → distanceNamed dist q (expectedPreds M x) ≤ distanceNamed dist q (expectedPreds M p) + if dist = .L2 then δ else 0 := by
  have e : ∀ p : Fin n → ℝ, expectedPreds M p = Mᵀ *ᵥ p := by
    intro p
    funext j
    simp only [expectedPreds, mulVec, dotProduct, transpose_apply]
    exact Finset.sum_congr rfl fun i _ => mul_comm _ _
  obtain ⟨⟨x1, h1, b1⟩, ⟨x2, h2', b2⟩, ⟨x3, h3, v3, b3⟩⟩ := hsol n Mᵀ q hn hq.1
  rw [C10_singular sol dist h2 M hM]
  simp only [e]
  cases dist with
  | other => exact absurd rfl hd
  | HD =>
    refine ⟨x1, congrArg Except.ok h1, b1.1, fun p hp => ?_⟩
    have hT : ∀ k j, 0 ≤ Mᵀ k j := fun k j => (hrow j).1 k
    have hs : ∀ j, ∑ k, Mᵀ k j = 1 := fun j => (hrow j).2
    have a1 := hellingerSq_eq q (Mᵀ *ᵥ x1) hq.1 (mulVec_nonneg hT b1.1)
    have a2 := hellingerSq_eq q (Mᵀ *ᵥ p) hq.1 (mulVec_nonneg hT hp)
    rw [sum_mulVec hs b1.1] at a1
    rw [sum_mulVec hs hp] at a2
    have a3 : 1 - ∑ k, Real.sqrt (q k * (Mᵀ *ᵥ x1) k) ≤ 1 - ∑ k, Real.sqrt (q k * (Mᵀ *ᵥ p) k) := b1.2 p hp
    rw [if_neg (by simp), add_zero]
    show hellingerSq q (Mᵀ *ᵥ x1) ≤ hellingerSq q (Mᵀ *ᵥ p)
    linarith
  | L1 =>
    refine ⟨x2, congrArg Except.ok h2', b2.1, fun p hp => ?_⟩
    rw [if_neg (by simp), add_zero]
    exact b2.2 p hp
  | L2 =>
    refine ⟨x3, congrArg Except.ok h3, v3, fun p hp => ?_⟩
    rw [if_pos rfl]
    exact b3 p hp

section
variable {σ D α : Type} {k : ℕ} [LinearOrder α] (enc : Bool → α) (w : World σ D α) (et et' : Option ℕ) (X Xt : List D) (y : List α) (hy : y ≠ []) (r : ℕ) (hr : 0 < r)
include hy hr

/-- **C73** for AC: with three or more classes and rates that cannot be inverted, the answer is a vector of prevalences, and the predictions expected for no other prevalences are closer, in the distance of the user,
to the predictions of the bag. -/
theorem C73_ac (ops : EstOps σ D α k) {δ : ℝ} (hδ : 0 ≤ δ) (sol : Solvers) (hsol : ExactSolvers δ sol) (dist : Dist) (hd : dist ≠ .other) (h2 : (labelsOf y).length ≠ 2) (P : List α) (hP : P.length = r * y.length)
    (hPy : ∀ a ∈ P, a ∈ y) (M : Matrix (Fin (labelsOf y).length) (Fin (labelsOf y).length) ℝ) (hM : M = fun i j => condFreq (stacked y r) P (labelsOf y)[i] (labelsOf y)[j]) (hdet : M.det = 0)
    (Q : List α) (hQ : Q ≠ []) (hQy : ∀ a ∈ Q, a ∈ y) :
    ∃ x, ucRun ops enc w ⟨acClass sol dist, et, et'⟩ X y (some (.crisp P)) Xt (some (.crisp Q)) = .ok (some (realList x)) ∧ IsPrev x
      ∧ ∀ p, IsPrev p → distanceNamed dist (freqs (labelsOf y) Q) (expectedPreds M x) ≤ distanceNamed dist (freqs (labelsOf y) Q) (expectedPreds M p) + if dist = .L2 then δ else 0 := by
  subst hM
  have hq := freqs_isPrev _ (labelsOf_nodup y) Q hQ fun a ha => (mem_labelsOf y _).2 (hQy a ha)
  obtain ⟨x, h, hx, hopt⟩ := adjust_optimal hδ hsol hd (labels_pos y hy) h2 (cmReal y r P) (cmReal_row y r hr P hP hPy) hdet _ hq
  refine ⟨x, ?_, hx, hopt⟩
  rw [ucRun_given_crisp ops enc w X Xt y (acClass sol dist) rfl rfl et et' hy r P _ hP, answer_ac_eq y sol dist r P _ hP hQ, normalizeRows_eq y r hr P hP hPy, h]
  rfl

/-- **C73** for PAC. -/
theorem C73_pac (ops : EstOps σ D α (labelsOf y).length) {δ : ℝ} (hδ : 0 ≤ δ) (sol : Solvers) (hsol : ExactSolvers δ sol) (dist : Dist) (hd : dist ≠ .other) (h2 : (labelsOf y).length ≠ 2)
    (P : List (Fin (labelsOf y).length → ℝ)) (hP : P.length = r * y.length) (hPp : ∀ row ∈ P, IsPrev row) (M : Matrix (Fin (labelsOf y).length) (Fin (labelsOf y).length) ℝ)
    (hM : M = fun i j => condMean (stacked y r) P (fun row => row j) (labelsOf y)[i]) (hdet : M.det = 0) (Q : List (Fin (labelsOf y).length → ℝ)) (hQ : Q ≠ []) (hQp : ∀ row ∈ Q, IsPrev row) :
    ∃ x, ucRun ops enc w ⟨pacClass sol dist, et, et'⟩ X y (some (.probs P)) Xt (some (.probs Q)) = .ok (some (realList x)) ∧ IsPrev x
      ∧ ∀ p, IsPrev p → distanceNamed dist (fun j => meanOf Q fun row => row j) (expectedPreds M x) ≤ distanceNamed dist (fun j => meanOf Q fun row => row j) (expectedPreds M p) + if dist = .L2 then δ else 0 := by
  subst hM
  obtain ⟨x, h, hx, hopt⟩ := adjust_optimal hδ hsol hd (labels_pos y hy) h2 (pcmReal y r P) (pcmReal_row y r hr P hP hPp) hdet _ (meanOf_isPrev Q hQ hQp)
  refine ⟨x, ?_, hx, hopt⟩
  rw [pac_run enc w et et' X Xt y hy r hr ops sol dist P hP _ hQ, h]
  rfl

end

/-! ## Non-vacuity -/

open Classical in
/-- The contract can be met, without any tolerance. -/
theorem exactSolvers_exists : ∃ sol, ExactSolvers 0 sol := by
  have hc : ∀ (n : ℕ) (T : Matrix (Fin n) (Fin n) ℝ) (q : Fin n → ℝ), Continuous (l2Loss T q) := by
    intro n T q
    unfold l2Loss
    fun_prop
  let real : ∀ {m : ℕ}, (Fin m → Fl) → Fin m → ℝ := fun v i => match v i with | .fin x => x | _ => 0
  let best : ∀ {n : ℕ}, ((Fin n → ℝ) → ℝ) → Fin n → Fl := fun {n} g => if h : ∃ x, BestPrev g x then fun j => Fl.fin (h.choose j) else fun _ => 0
  refine ⟨⟨fun T q => best (cvxObjective .hd (fun i => real (T i)) (real q)), fun T q => best (cvxObjective .l1 (fun i => real (T i)) (real q)), fun T q => best (l2Loss (fun i => real (T i)) (real q))⟩, ?_⟩
  intro n T q hn _
  have key : ∀ g : (Fin n → ℝ) → ℝ, Continuous g → ∃ x, best g = (fun j => Fl.fin (x j)) ∧ BestPrev g x := by
    intro g hg
    have h := bestPrev_exists hn g hg
    exact ⟨h.choose, dif_pos h, h.choose_spec⟩
  refine ⟨key _ (cvxObjective_continuous .hd T q), key _ (cvxObjective_continuous .l1 T q), ?_⟩
  obtain ⟨x, h1, h2⟩ := key _ (hc n T q)
  exact ⟨x, h1, h2.1, fun p hp => by rw [add_zero]; exact h2.2 p hp⟩

/-- A classifier that mixes up the second and the third of three classes has rates that cannot be inverted. -/
example : labelsOf [0, 1, 2] = [0, 1, 2] ∧ (∀ a ∈ [0, 1, 1], a ∈ [0, 1, 2])
    ∧ (Matrix.of fun i j : Fin 3 => condFreq [0, 1, 2] [0, 1, 1] ([0, 1, 2] : List ℕ)[i] ([0, 1, 2] : List ℕ)[j]).det = 0 := by
  refine ⟨labelsOf_eq _ _ (by decide) (by decide), by decide, ?_⟩
  refine Matrix.det_zero_of_row_eq (i := 1) (j := 2) (by decide) ?_
  funext j
  fin_cases j <;> simp [condFreq]

end Verif.Props
