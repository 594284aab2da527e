import Verif.Props.MatchQuality
import Verif.Props.MatchStability
import Verif.Props.NoMemory
import Verif.Model.DfxRun

/-!
# C175: DFy and FriedmanME with a distance given as a function

From the training set and the predictions to the answer: the search for the prevalence of the second class (C33) inside the methods.
-/

namespace Verif.Props

open Verif.Model Verif.Spec Verif.Proof

/-- When the search finds a prevalence that is as good as the best ones: along the mixtures of the two classes the distance `g` (a function of the prevalences) is convex, and its last minimum `b` does not have
more than 0.98 of the second class `c`, or the bag is nearer to a bag of the second class than to one of the first class. `ε` is the largest change of the distance over one tolerance. -/
structure Searchable {n : ℕ} (c : Fin n) (tol ε : ℝ) (g : (Fin n → ℝ) → ℝ) : Prop where
  convex : ConvexOn ℝ {p | IsPrev p} g
  last : ∃ b, IsPrev b ∧ (∀ p, IsPrev p → g b ≤ g p) ∧ (∀ p, IsPrev p → b c < p c → g b < g p)
    ∧ (b c ≤ 98 / 100 ∨ ∀ p q, IsPrev p → IsPrev q → p c = 1 → q c = 0 → g p < g q)
  modulus : ∀ p q, IsPrev p → IsPrev q → |p c - q c| ≤ tol → |g p - g q| ≤ ε

theorem pair_isPrev {p : ℝ} (h : p ∈ Set.Icc (0:ℝ) 1) : IsPrev ![1 - p, p] := by
  refine ⟨fun i => ?_, by simp [Fin.sum_univ_two]⟩
  fin_cases i
  · simpa using h.2
  · simpa using h.1

theorem mixOf_eq {m : ℕ} (T : Matrix (Fin m) (Fin 2) ℝ) (p : Fin 2 → ℝ) : mixOf T p = mixtureOf T p := by
  funext i
  simp [mixOf, mixtureOf, Fin.sum_univ_two]

theorem prev_two {r : Fin 2 → ℝ} (hr : IsPrev r) : r = ![1 - r 1, r 1] ∧ r 1 ∈ Set.Icc (0:ℝ) 1 := by
  have hsum := hr.2
  rw [Fin.sum_univ_two] at hsum
  have h0 := hr.1 0
  have h1 := hr.1 1
  refine ⟨?_, h1, by linarith⟩
  funext i
  fin_cases i
  · show r 0 = 1 - r 1; linarith
  · rfl

/-- The answer of a matching method with a function as distance and two classes. -/
theorem matchAnswer_search {F : Type} {m nc : ℕ} (hnc : nc = 2) (sv : CvxSolver) (qp : QPSolver) (tol ε : ℝ) (htol : 0 < tol) (d : (Fin m → ℝ) → (Fin m → ℝ) → ℝ) (f : F) (T : Matrix (Fin m) (Fin nc) ℝ) (par) (q : Fin m → ℝ)
    (hs : Searchable (⟨1, by omega⟩ : Fin nc) tol ε fun p => d (mixtureOf T p) q) :
    ∃ v : Fin nc → ℝ, (matchAnswer sv qp tol (.fn fun v q => Fl.fin (d v q)) ⟨f, T, par, none, none⟩ q).2 = .ok (some (realList v)) ∧ IsPrev v ∧ ∀ p, IsPrev p → d (mixtureOf T v) q ≤ d (mixtureOf T p) q + 2 * ε := by
  subst hnc
  obtain ⟨b, hb, hmin, hlast, hside⟩ := hs.last
  obtain ⟨eb, hb1⟩ := prev_two hb
  obtain ⟨v, h1, h2, h3⟩ := C33_matching_partial sv qp tol ε htol d (⟨f, T, par, none, none⟩ : MatchState F m 2) q (.inl rfl)
    ⟨convex_Icc _ _, fun x hx y hy a c ha hc hac => by
      have := hs.convex.2 (pair_isPrev hx) (pair_isPrev hy) ha hc hac
      simp only [mixOf_eq]
      have e : a • ![1 - x, x] + c • ![1 - y, y] = ![1 - (a • x + c • y), a • x + c • y] := by
        funext i
        fin_cases i
        · simp only [Fin.zero_eta, Pi.add_apply, Pi.smul_apply, smul_eq_mul, Matrix.cons_val_zero]
          linear_combination hac
        · simp
      rw [e] at this
      exact this⟩ (b 1) hb1
    (fun p hp => by simp only [mixOf_eq]; rw [← eb]; exact hmin _ (pair_isPrev hp))
    (fun p hp hlt => by simp only [mixOf_eq]; rw [← eb]; exact hlast _ (pair_isPrev hp) (by simpa using hlt))
    (hside.imp id fun h => by
      simp only [mixOf_eq]
      have e1 := pair_isPrev (p := 1) ⟨zero_le_one, le_rfl⟩
      have e0 := pair_isPrev (p := 0) ⟨le_rfl, zero_le_one⟩
      simp only [sub_self, sub_zero] at e1 e0
      exact h _ _ e1 e0 rfl rfl)
    (fun x hx y hy hxy => by simp only [mixOf_eq]; exact hs.modulus _ _ (pair_isPrev hx) (pair_isPrev hy) (by simpa using hxy))
  refine ⟨v, ?_, h2, fun p hp => ?_⟩
  · rw [h1]
    simp [realList]
  · have := h3 p hp
    simpa only [mixOf_eq] using this

section
variable {σ D α : Type} [LinearOrder α] (enc : Bool → α) (w : World σ D α) (et et' : Option ℕ) (X Xt : List D) (y : List α) (hy : y ≠ []) (r : ℕ) (hr : 0 < r) (hk : (labelsOf y).length = 2)
include hy

/-- **C175** for DFy (also HDy and MMy) with a function as distance. -/
theorem C175_dfy (ops : EstOps σ D α (labelsOf y).length) (sv : CvxSolver) (qp : QPSolver) (ppf : ℝ → EReal) (la : LinAlg (labelsOf y).length) (fuel : ℕ) (tol ε : ℝ) (htol : 0 < tol) (cfg : DfCfg)
    (d : (Fin (nDescriptors (labelsOf y).length * cfg.nBins) → ℝ) → (Fin (nDescriptors (labelsOf y).length * cfg.nBins) → ℝ) → ℝ) (P : List (Fin (labelsOf y).length → ℝ)) (hP : P.length = r * y.length)
    (fit : DfFit (nDescriptors (labelsOf y).length) cfg.nBins (labelsOf y).length) (hfit : dfyFit ppf cfg (labelsOf y) y (stacked y r) P = .ok fit)
    (bag : List (Fin (labelsOf y).length → ℝ)) (_hne : bag ≠ []) (q) (hq : dfyTest cfg fit bag = .ok q) (hs : Searchable (⟨1, by omega⟩ : Fin (labelsOf y).length) tol ε fun p => d (mixtureOf fit.train p) q) :
    ∃ x, ucRun ops enc w ⟨dfyClass ppf sv qp la fuel tol cfg (.fn fun v q => Fl.fin (d v q)), et, et'⟩ X y (some (.probs P)) Xt (some (.probs bag)) = .ok (some (realList x)) ∧ IsPrev x
      ∧ ∀ p, IsPrev p → d (mixtureOf fit.train x) q ≤ d (mixtureOf fit.train p) q + 2 * ε := by
  obtain ⟨x, hval, hx, hopt⟩ := matchAnswer_search hk sv qp tol ε htol d fit fit.train none q hs
  refine ⟨x, ?_, hx, hopt⟩
  rw [ucRun_given_probs ops enc w X Xt y (dfyClass ppf sv qp la fuel tol cfg (.fn fun v q => Fl.fin (d v q))) rfl rfl et et' hy r P _ hP]
  have h1' : dfFit ppf .whole cfg (some (0, 1)) (dfyAtt (npUnique y).length) (npUnique y) y (stacked y r) P = .ok fit := hfit
  refine Eq.trans ?_ hval
  change answerOn (dfyClass (k := (npUnique y).length) ppf sv qp la fuel tol cfg (.fn fun v q => Fl.fin (d v q))) y r (.probs P) (.probs bag) = _
  simp only [answerOn, learnAnswer, fittedState, dfyClass, trainData, probRows, columnsAre_self, if_true, bind, Except.bind]
  simp only [h1', Fin.cast_eq_self, matchParams]
  simp only [pure, Except.pure]
  have : dfyTest cfg (⟨fit.cuts, fun i c => fit.train i c⟩ : DfFit (nDescriptors (npUnique y).length) cfg.nBins (npUnique y).length) bag = .ok q := hq
  simp only [this]
  rfl

include hr in
/-- **C175** for FriedmanME with a function as distance. -/
theorem C175_friedman (ops : EstOps σ D α (labelsOf y).length) (sv : CvxSolver) (qp : QPSolver) (la : LinAlg (labelsOf y).length) (fuel : ℕ) (tol ε : ℝ) (htol : 0 < tol)
    (d : (Fin (labelsOf y).length → ℝ) → (Fin (labelsOf y).length → ℝ) → ℝ) (P : List (Fin (labelsOf y).length → ℝ)) (hP : P.length = r * y.length) (T : Fin (labelsOf y).length → Fin (labelsOf y).length → ℝ)
    (hT : T = fun i c => reachShare i (freq y (labelsOf y)[i]) (ofClass ((stacked y r).zip P) (labelsOf y)[c])) (bag : List (Fin (labelsOf y).length → ℝ)) (_hne : bag ≠ [])
    (hs : Searchable (⟨1, by omega⟩ : Fin (labelsOf y).length) tol ε fun p => d (mixtureOf T p) fun i => reachShare i (freq y (labelsOf y)[i]) bag) :
    ∃ x, ucRun ops enc w ⟨friedmanClass sv qp la fuel tol (.fn fun v q => Fl.fin (d v q)), et, et'⟩ X y (some (.probs P)) Xt (some (.probs bag)) = .ok (some (realList x)) ∧ IsPrev x
      ∧ ∀ p, IsPrev p → d (mixtureOf T x) (fun i => reachShare i (freq y (labelsOf y)[i]) bag) ≤ d (mixtureOf T p) (fun i => reachShare i (freq y (labelsOf y)[i]) bag) + 2 * ε := by
  have hl : (stacked y r).length = P.length := by rw [stacked_length, hP]
  obtain ⟨fit, h1, -, h2, h3, -⟩ := C54_friedman (labelsOf y) y (stacked y r) P hl (labelsOf_nodup' y) fun a => ((mem_labelsOf' y a).trans (stacked_mem_iff y r hr a).symm)
  have hT' : fit.train = T := by
    rw [hT]
    funext i c
    exact (h2 i c).1
  subst hT'
  have hq : friedmanTest fit bag = fun i => reachShare i (freq y (labelsOf y)[i]) bag := funext fun i => h3 bag i
  rw [← hq] at hs ⊢
  obtain ⟨x, hval, hx, hopt⟩ := matchAnswer_search hk sv qp tol ε htol d fit fit.train none (friedmanTest fit bag) hs
  refine ⟨x, ?_, hx, hopt⟩
  rw [ucRun_given_probs ops enc w X Xt y (friedmanClass sv qp la fuel tol (.fn fun v q => Fl.fin (d v q))) rfl rfl et et' hy r P _ hP]
  refine Eq.trans ?_ hval
  change answerOn (friedmanClass (k := (npUnique y).length) sv qp la fuel tol (.fn fun v q => Fl.fin (d v q))) y r (.probs P) (.probs bag) = _
  have h1' : friedmanFit (npUnique y) y (stacked y r) P = .ok fit := h1
  simp only [answerOn, learnAnswer, fittedState, friedmanClass, trainData, probRows, columnsAre_self, if_true, bind, Except.bind]
  simp only [Fin.cast_eq_self]
  have h3' : List.map (fun (r : Fin (npUnique y).length → ℝ) j => r j) P = P := List.map_id P
  rw [h3', h1']
  simp only [matchParams, pure, Except.pure]
  rfl

end

/-- **C175** for DFX (HDX, MMX) with a function as distance: any number of bags one after the other. -/
theorem C175_dfx {α : Type} [LinearOrder α] {nf : ℕ} (y : List α) (hk : (labelsOf y).length = 2) (sv : CvxSolver) (qp : QPSolver) (ppf : ℝ → EReal) (la : LinAlg (labelsOf y).length) (fuel : ℕ) (tol ε : ℝ) (htol : 0 < tol)
    (cfg : DfCfg) (d : (Fin (nf * cfg.nBins) → ℝ) → (Fin (nf * cfg.nBins) → ℝ) → ℝ) (X : List (Fin nf → ℝ)) (fit : DfFit nf cfg.nBins (labelsOf y).length) (hfit : dfxFit ppf cfg (labelsOf y) y X = .ok fit)
    (bags : List (List (Fin nf → ℝ))) (hbags : ∀ bag ∈ bags, bag ≠ [] ∧ ∃ q, dfxTest cfg fit bag = .ok q ∧ Searchable (⟨1, by omega⟩ : Fin (labelsOf y).length) tol ε fun p => d (mixtureOf fit.train p) q) :
    ∃ answers, dfxRun ppf sv qp tol cfg (.fn fun v q => Fl.fin (d v q)) (labelsOf y) la fuel y X bags = .ok answers
      ∧ List.Forall₂ (fun bag a => ∃ x q, a = .ok (some (realList x)) ∧ dfxTest cfg fit bag = .ok q ∧ IsPrev x ∧ ∀ p, IsPrev p → d (mixtureOf fit.train x) q ≤ d (mixtureOf fit.train p) q + 2 * ε) bags answers := by
  refine ⟨_, by simp only [dfxRun, hfit, matchParams]; rfl, ?_⟩
  obtain ⟨Inv, h0, hinv⟩ := matchAnswer_same ⟨fun loss {_ _} T q _ => sv.solve loss T q none⟩ (fun _ {_ _} _ _ _ => rfl) qp tol (.fn fun v q => Fl.fin (d v q)) (⟨(), fit.train, none, none, none⟩ : MatchState Unit (nf * cfg.nBins) (labelsOf y).length) rfl rfl
  generalize (⟨(), fit.train, none, none, none⟩ : MatchState Unit (nf * cfg.nBins) (labelsOf y).length) = s at h0
  induction bags generalizing s with
  | nil => exact .nil
  | cons bag bags ih =>
    obtain ⟨-, q, hq, hs⟩ := hbags bag List.mem_cons_self
    obtain ⟨x, hval, hx, hopt⟩ := matchAnswer_search hk sv qp tol ε htol d () fit.train none q hs
    obtain ⟨-, hstep⟩ := hinv s h0
    simp only [dfxAnswers, hq]
    exact .cons ⟨x, q, (hstep q).2.trans hval, hq, hx, hopt⟩ (ih (fun b hb => hbags b (List.mem_cons_of_mem _ hb)) _ (hstep q).1)

/-- Non-vacuity: the predictions `(1, 0)` and `(0, 1)` for an example of each class, the square of the Euclidean distance and a bag with a half of each class. -/
example (tol : ℝ) (htol : 0 < tol) : (fun i c : Fin 2 => reachShare i (freq [0, 1] ([0, 1].getD i 0)) (ofClass ((stacked [0, 1] 1).zip [![1, 0], ![0, 1]]) ([0, 1].getD c 0))) = ![![1, 0], ![0, 1]]
    ∧ (fun i : Fin 2 => reachShare i (freq [0, 1] ([0, 1].getD i 0)) [![1, 0], ![0, 1]]) = ![1 / 2, 1 / 2]
    ∧ Searchable (⟨1, by omega⟩ : Fin 2) tol (2 * tol) fun p => (fun v q : Fin 2 → ℝ => ∑ i, (v i - q i) ^ 2) (mixtureOf ![![1, 0], ![0, 1]] p) ![1 / 2, 1 / 2] := by
  refine ⟨?_, ?_, ?_⟩
  · funext i c
    fin_cases i <;> fin_cases c <;> norm_num [reachShare, freq, ofClass, stacked]
  · funext i
    fin_cases i <;> norm_num [reachShare, freq, List.countP_cons]
  · have e : ∀ p : Fin 2 → ℝ, IsPrev p → (∑ i, (mixtureOf ![![1, 0], ![0, 1]] p i - ![1 / 2, 1 / 2] i) ^ 2 : ℝ) = 2 * (p 1 - 1 / 2) ^ 2 := by
      intro p hp
      have hs := hp.2
      rw [Fin.sum_univ_two] at hs
      have : p 0 = 1 - p 1 := by linarith
      simp [mixtureOf, Fin.sum_univ_two, this]
      ring
    have hcv : Convex ℝ {p : Fin 2 → ℝ | IsPrev p} := fun p hp q hq a c ha hc hac => by
      refine ⟨fun i => add_nonneg (mul_nonneg ha (hp.1 i)) (mul_nonneg hc (hq.1 i)), ?_⟩
      simp only [Pi.add_apply, Pi.smul_apply, smul_eq_mul, Finset.sum_add_distrib, ← Finset.mul_sum]
      rw [hp.2, hq.2, mul_one, mul_one, hac]
    refine ⟨⟨hcv, fun p hp q hq a c ha hc hac => ?_⟩, ⟨![1 / 2, 1 / 2], ?_, fun p hp => ?_, fun p hp h => ?_, .inl ?_⟩, fun p q hp hq h => ?_⟩
    · dsimp only
      rw [e _ hp, e _ hq, e _ (hcv hp hq ha hc hac)]
      simp only [Pi.add_apply, Pi.smul_apply, smul_eq_mul]
      obtain rfl : c = 1 - a := by linarith
      nlinarith [mul_nonneg (mul_nonneg ha hc) (sq_nonneg (p 1 - q 1))]
    · refine ⟨fun i => by fin_cases i <;> norm_num, by norm_num [Fin.sum_univ_two]⟩
    · dsimp only
      rw [e _ hp]
      simp [mixtureOf, Fin.sum_univ_two]
      positivity
    · dsimp only
      rw [e _ hp]
      have h' : (1:ℝ) / 2 < p 1 := by simpa using h
      simp [mixtureOf, Fin.sum_univ_two]
      nlinarith
    · norm_num
    · dsimp only
      rw [e _ hp, e _ hq]
      obtain ⟨-, hp0, hp1⟩ := prev_two hp
      obtain ⟨-, hq0, hq1⟩ := prev_two hq
      have h' : |p 1 - q 1| ≤ tol := h
      have : 2 * (p 1 - 1 / 2) ^ 2 - 2 * (q 1 - 1 / 2) ^ 2 = (p 1 - q 1) * (2 * (p 1 + q 1 - 1)) := by ring
      rw [this, abs_mul]
      have h2 : |2 * (p 1 + q 1 - 1)| ≤ 2 := by rw [abs_le]; constructor <;> linarith
      nlinarith [abs_nonneg (p 1 - q 1), abs_nonneg (2 * (p 1 + q 1 - 1))]

end Verif.Props
