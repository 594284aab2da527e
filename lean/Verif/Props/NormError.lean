import Verif.Props.NormSearch

/-!
# C137 with any norm as distance

The error of DFy, DFX and FriedmanME that search with two classes, for every bag.
-/

namespace Verif.Props

open Verif.Model Verif.Spec Verif.Proof

/-- What C137 says of the answer `r` with the norm `N` as distance: the error of the prevalences, times the distance between the classes `T`, is at most twice the distance between the bag `q` and the mixture with the prevalences
`p`, plus twice the tolerance or 2% of the distance between the classes; or a ValueError was raised, and the bag is farther than 48% of the distance between the classes from every mixture of them. -/
def ErrorBounded {m nc : ℕ} (N : Seminorm ℝ (Fin m → ℝ)) (tol : ℝ) (c0 c1 : Fin nc) (T : Matrix (Fin m) (Fin nc) ℝ) (q : Fin m → ℝ) (r : Except Err (Option (List Fl))) : Prop :=
  (∃ x, r = .ok (some (realList x)) ∧ IsPrev x ∧ ∀ p, IsPrev p → ∀ c, |x c - p c| * N ((fun i => T i c1) - fun i => T i c0) ≤ 2 * N (mixtureOf T p - q) + max (2 * tol) (1 / 50) * N ((fun i => T i c1) - fun i => T i c0))
  ∨ (r = .error .valueError ∧ ∀ p, IsPrev p → 12 / 25 * N ((fun i => T i c1) - fun i => T i c0) ≤ N (mixtureOf T p - q))

theorem errorBounded_of_nearlyClosest {m nc : ℕ} (hnc : nc = 2) (N : Seminorm ℝ (Fin m → ℝ)) (tol : ℝ) (T : Matrix (Fin m) (Fin nc) ℝ) (q : Fin m → ℝ) (r : Except Err (Option (List Fl)))
    (h : NearlyClosest N tol ⟨0, by omega⟩ ⟨1, by omega⟩ T q r) : ErrorBounded N tol ⟨0, by omega⟩ ⟨1, by omega⟩ T q r := by
  subst hnc
  have h : NearlyClosest N tol 0 1 T q r := h
  show ErrorBounded N tol 0 1 T q r
  have hdiff : ∀ x p : Fin 2 → ℝ, IsPrev x → IsPrev p → |x 1 - p 1| * N ((fun i => T i 1) - fun i => T i 0) ≤ N (mixtureOf T x - q) + N (mixtureOf T p - q) := by
    intro x p hx hp
    have e : mixtureOf T x - q - (mixtureOf T p - q) = (x 1 - p 1) • ((fun i => T i 1) - fun i => T i 0) := by
      have hx2 := hx.2
      have hp2 := hp.2
      rw [Fin.sum_univ_two] at hx2 hp2
      have hx0 : x 0 = 1 - x 1 := by linarith
      have hp0 : p 0 = 1 - p 1 := by linarith
      funext i
      simp [mixtureOf, Fin.sum_univ_two, hx0, hp0]
      ring
    have h2 := map_sub_le_add N (mixtureOf T x - q) (mixtureOf T p - q)
    rw [e, map_smul_eq_mul, Real.norm_eq_abs] at h2
    exact h2
  rcases h with ⟨x, h1, hx, h2⟩ | ⟨h1, h2⟩
  · refine .inl ⟨x, h1, hx, fun p hp c => ?_⟩
    have h3 := hdiff x p hx hp
    have h4 := h2 p hp
    have e : |x c - p c| = |x 1 - p 1| := by
      have hx2 := hx.2
      have hp2 := hp.2
      rw [Fin.sum_univ_two] at hx2 hp2
      fin_cases c
      · show |x 0 - p 0| = _
        rw [abs_sub_comm (x 1)]
        congr 1
        linarith
      · rfl
    rw [e]
    linarith
  · refine .inr ⟨h1, fun p hp => ?_⟩
    obtain ⟨e0, i0, z0⟩ : ∃ e0 : Fin 2 → ℝ, IsPrev e0 ∧ e0 1 = 0 := ⟨_, pair_isPrev ⟨le_rfl, zero_le_one⟩, rfl⟩
    obtain ⟨e1, i1, z1⟩ : ∃ e1 : Fin 2 → ℝ, IsPrev e1 ∧ e1 1 = 1 := ⟨_, pair_isPrev ⟨zero_le_one, le_rfl⟩, rfl⟩
    have h3 := hdiff _ _ i1 i0
    have h4 := h2 _ p i0 hp
    have h5 := h2 _ p i1 hp
    rw [z0, z1, sub_zero, abs_one, one_mul] at h3
    linarith

section
variable {σ D α : Type} [LinearOrder α] (enc : Bool → α) (w : World σ D α) (et et' : Option ℕ) (X Xt : List D) (y : List α) (hy : y ≠ []) (r : ℕ) (hr : 0 < r) (hk : (labelsOf y).length = 2)
include hy

/-- **C137** for DFy (HDy, MMy) with two classes and any norm of the difference as distance. -/
theorem C137_dfy_norm (ops : EstOps σ D α (labelsOf y).length) (sv : CvxSolver) (qp : QPSolver) (ppf : ℝ → EReal) (la : LinAlg (labelsOf y).length) (fuel : ℕ) (tol : ℝ) (htol : 0 < tol) (cfg : DfCfg)
    (N : Seminorm ℝ (Fin (nDescriptors (labelsOf y).length * cfg.nBins) → ℝ)) (P : List (Fin (labelsOf y).length → ℝ)) (hP : P.length = r * y.length)
    (fit : DfFit (nDescriptors (labelsOf y).length) cfg.nBins (labelsOf y).length) (hfit : dfyFit ppf cfg (labelsOf y) y (stacked y r) P = .ok fit) (bag : List (Fin (labelsOf y).length → ℝ)) (hbag : bag ≠ []) :
    ∃ q, dfyTest cfg fit bag = .ok q ∧ ErrorBounded N tol ⟨0, by omega⟩ ⟨1, by omega⟩ fit.train q
      (ucRun ops enc w ⟨dfyClass ppf sv qp la fuel tol cfg (.fn fun v q => Fl.fin (N (v - q))), et, et'⟩ X y (some (.probs P)) Xt (some (.probs bag))) := by
  obtain ⟨q, hq, h⟩ := C175_dfy_norm enc w et et' X Xt y hy r hk ops sv qp ppf la fuel tol htol cfg N P hP fit hfit bag hbag
  exact ⟨q, hq, errorBounded_of_nearlyClosest hk N tol _ _ _ h⟩

include hr in
/-- **C137** for FriedmanME with two classes and any norm of the difference as distance. -/
theorem C137_friedman_norm (ops : EstOps σ D α (labelsOf y).length) (sv : CvxSolver) (qp : QPSolver) (la : LinAlg (labelsOf y).length) (fuel : ℕ) (tol : ℝ) (htol : 0 < tol)
    (N : Seminorm ℝ (Fin (labelsOf y).length → ℝ)) (P : List (Fin (labelsOf y).length → ℝ)) (hP : P.length = r * y.length) (bag : List (Fin (labelsOf y).length → ℝ)) (hbag : bag ≠ []) :
    ErrorBounded (nc := (labelsOf y).length) N tol ⟨0, by omega⟩ ⟨1, by omega⟩ (fun i c => reachShare i (freq y (labelsOf y)[i]) (ofClass ((stacked y r).zip P) (labelsOf y)[c])) (fun i => reachShare i (freq y (labelsOf y)[i]) bag)
      (ucRun ops enc w ⟨friedmanClass sv qp la fuel tol (.fn fun v q => Fl.fin (N (v - q))), et, et'⟩ X y (some (.probs P)) Xt (some (.probs bag))) :=
  errorBounded_of_nearlyClosest hk N tol _ _ _ (C175_friedman_norm enc w et et' X Xt y hy r hr hk ops sv qp la fuel tol htol N P hP bag hbag)

end

/-- **C137** for DFX (HDX, MMX) with two classes and any norm of the difference as distance: any number of bags one after the other. -/
theorem C137_dfx_norm {α : Type} [LinearOrder α] {nf : ℕ} (y : List α) (hy : y ≠ []) (hk : (labelsOf y).length = 2) (sv : CvxSolver) (qp : QPSolver) (ppf : ℝ → EReal) (la : LinAlg (labelsOf y).length) (fuel : ℕ) (tol : ℝ) (htol : 0 < tol)
    (cfg : DfCfg) (N : Seminorm ℝ (Fin (nf * cfg.nBins) → ℝ)) (X : List (Fin nf → ℝ)) (fit : DfFit nf cfg.nBins (labelsOf y).length) (hfit : dfxFit ppf cfg (labelsOf y) y X = .ok fit)
    (bags : List (List (Fin nf → ℝ))) (hbags : ∀ bag ∈ bags, bag ≠ []) :
    ∃ answers, dfxRun ppf sv qp tol cfg (.fn fun v q => Fl.fin (N (v - q))) (labelsOf y) la fuel y X bags = .ok answers
      ∧ List.Forall₂ (fun bag a => ∃ q, dfxTest cfg fit bag = .ok q ∧ ErrorBounded N tol ⟨0, by omega⟩ ⟨1, by omega⟩ fit.train q a) bags answers := by
  obtain ⟨answers, h1, h2⟩ := C175_dfx_norm y hy hk sv qp ppf la fuel tol htol cfg N X fit hfit bags hbags
  exact ⟨answers, h1, h2.imp fun bag a ⟨q, hq, h⟩ => ⟨q, hq, errorBounded_of_nearlyClosest hk N tol _ _ _ h⟩⟩

/-- Non-vacuity: with `l1` and the representations `(1, 0)` and `(0, 1)` of the classes the distance between them is 2, and a bag with the representation `(1/2, 1/2)` is nearer than 48% of it to a mixture, so that ValueError is
not raised and the answer is within 0.02 (or twice the tolerance) of `(1/2, 1/2)`. -/
example (tol : ℝ) (r : Except Err (Option (List Fl))) (h : ErrorBounded (taxicab 2) tol (0 : Fin 2) 1 !![1, 0; 0, 1] ![1 / 2, 1 / 2] r) :
    ∃ x : Fin 2 → ℝ, r = .ok (some (realList x)) ∧ ∀ c, |x c - 1 / 2| ≤ max (2 * tol) (1 / 50) := by
  have hp : IsPrev ![(1:ℝ) / 2, 1 / 2] := ⟨fun i => by fin_cases i <;> norm_num, by norm_num [Fin.sum_univ_two]⟩
  have e0 : taxicab 2 (mixtureOf !![1, 0; 0, 1] ![1 / 2, 1 / 2] - ![1 / 2, 1 / 2]) = 0 := by
    show ∑ i, |(mixtureOf !![1, 0; 0, 1] ![1 / 2, 1 / 2] - ![1 / 2, 1 / 2] : Fin 2 → ℝ) i| = 0
    simp [mixtureOf, Fin.sum_univ_two]
  have e1 : taxicab 2 ((fun i => (!![1, 0; 0, 1] : Matrix (Fin 2) (Fin 2) ℝ) i 1) - fun i => (!![1, 0; 0, 1] : Matrix (Fin 2) (Fin 2) ℝ) i 0) = 2 := by
    show ∑ i, |((fun i => (!![1, 0; 0, 1] : Matrix (Fin 2) (Fin 2) ℝ) i 1) - fun i => (!![1, 0; 0, 1] : Matrix (Fin 2) (Fin 2) ℝ) i 0) i| = 2
    norm_num [Fin.sum_univ_two]
  rcases h with ⟨x, h1, -, h2⟩ | ⟨-, h2⟩
  · refine ⟨x, h1, fun c => ?_⟩
    have := h2 _ hp c
    rw [e0, e1] at this
    have hc : (![1 / 2, 1 / 2] : Fin 2 → ℝ) c = 1 / 2 := by fin_cases c <;> rfl
    rw [hc] at this
    linarith
  · have := h2 _ hp
    rw [e0, e1] at this
    norm_num at this

end Verif.Props
