import Verif.Spec.Cvx
import Verif.Props.Search
import Mathlib.Analysis.Convex.StdSimplex
import Mathlib.Analysis.SpecialFunctions.Pow.NNReal
import Mathlib.Analysis.SpecialFunctions.Sqrt

/-!
# Solvers with memory (C29), optimality (C73) and recovery of the mixture (C81)
-/

namespace Verif.Props

open Verif.Model Verif.Spec Matrix

/-! ## C29 -/

/-- The kept problem belongs to the last fit. -/
theorem warm_inv {F B : Type*} (Q : WarmQuantifier F B) (sv : CvxSolver) (loss : CvxLoss) (hist : List (WarmCall F B)) (s : WarmState F)
    (hs : ∀ pr, s.problem = some pr → pr.toTrain = Q.train s.fitted) :
    (warmRun Q sv loss s hist).fitted = lastFit s.fitted hist
    ∧ ∀ pr, (warmRun Q sv loss s hist).problem = some pr → pr.toTrain = Q.train (lastFit s.fitted hist) := by
  induction hist generalizing s with
  | nil => exact ⟨rfl, hs⟩
  | cons c cs ih =>
    cases c with
    | fit f =>
      simp only [warmRun, lastFit]
      exact ih (warmFit f) (by simp [warmFit])
    | predict b =>
      simp only [warmRun, lastFit]
      have key : (warmPredict Q sv loss s b).1.fitted = s.fitted ∧
          ∀ pr, (warmPredict Q sv loss s b).1.problem = some pr → pr.toTrain = Q.train s.fitted := by
        unfold warmPredict
        cases hp : Q.prep s.fitted b with
        | error e => exact ⟨rfl, hs⟩
        | ok r =>
          cases r with
          | inr d => exact ⟨rfl, hs⟩
          | inl q =>
            simp only
            unfold solveCvx
            cases hpr : s.problem with
            | none =>
              simp only
              cases hq : setParameter (Q.train s.fitted).m q with
              | error e => exact ⟨rfl, by simp [hpr]⟩
              | ok q' => exact ⟨rfl, fun pr h => by simp only [Option.some.injEq] at h; rw [← h]⟩
            | some pr0 =>
              simp only
              cases hq : setParameter pr0.m q with
              | error e => exact ⟨rfl, by rw [hpr] at hs; simpa [hpr] using hs⟩
              | ok q' =>
                refine ⟨rfl, fun pr h => ?_⟩
                simp only [Option.some.injEq] at h
                rw [← h]
                exact hs pr0 hpr
      have := ih (warmPredict Q sv loss s b).1 (by rw [key.1]; exact key.2)
      rw [key.1] at this
      exact this

/-- What a prediction through the solver is, for any state whose problem belongs to its fit. -/
theorem warm_answer {F B : Type*} (Q : WarmQuantifier F B) (sv : CvxSolver) (hsv : ExactCvx sv) (loss : CvxLoss) (s : WarmState F)
    (hs : ∀ pr, s.problem = some pr → pr.toTrain = Q.train s.fitted) (hn : 0 < (Q.train s.fitted).n) (b : B) (q : Vec)
    (hq : Q.prep s.fitted b = .ok (.inl q)) :
    ((∃ h : q.1 = (Q.train s.fitted).m, (∀ i, 0 ≤ q.2 i) ∧ ∃ x : Fin (Q.train s.fitted).n → ℝ,
        (warmPredict Q sv loss s b).2 = .ok (Q.post s.fitted ⟨_, x⟩)
        ∧ BestPrev (cvxObjective loss (Q.train s.fitted).T fun i => q.2 (Fin.cast h.symm i)) x))
    ∨ ((warmPredict Q sv loss s b).2 = .error .valueError ∧ ¬ (q.1 = (Q.train s.fitted).m ∧ ∀ i, 0 ≤ q.2 i)) := by
  obtain ⟨f, pr?⟩ := s
  simp only at hs hn hq ⊢
  unfold warmPredict
  simp only [hq]
  unfold solveCvx
  cases pr? with
  | none =>
    simp only
    unfold setParameter
    by_cases h : q.1 = (Q.train f).m
    · by_cases h0 : ∀ i, 0 ≤ q.2 i
      · left
        refine ⟨h, h0, sv.solve loss (Q.train f).T (fun i => q.2 (Fin.cast h.symm i)) none, ?_, ?_⟩
        · rw [dif_pos h, if_pos h0]
        · exact hsv loss _ _ _ hn fun k => h0 _
      · right
        rw [dif_pos h, if_neg h0]
        exact ⟨rfl, fun hc => h0 hc.2⟩
    · right
      rw [dif_neg h]
      exact ⟨rfl, fun hc => h hc.1⟩
  | some pr =>
    have ht := hs pr rfl
    obtain ⟨tr, last⟩ := pr
    simp only at ht
    subst ht
    simp only
    unfold setParameter
    by_cases h : q.1 = (Q.train f).m
    · by_cases h0 : ∀ i, 0 ≤ q.2 i
      · left
        refine ⟨h, h0, sv.solve loss (Q.train f).T (fun i => q.2 (Fin.cast h.symm i)) (some last), ?_, ?_⟩
        · rw [dif_pos h, if_pos h0]
        · exact hsv loss _ _ _ hn fun k => h0 _
      · right
        rw [dif_pos h, if_neg h0]
        exact ⟨rfl, fun hc => h0 hc.2⟩
    · right
      rw [dif_neg h]
      exact ⟨rfl, fun hc => h hc.1⟩

/-- **C29**. For every quantifier that keeps its solver problem, every exact solver, every history of `fit` and
`predict` calls and every further bag: the prediction is the answer that does not need the solver, or the exception,
that an object freshly fitted on the data of the last `fit` gives; otherwise it comes from a vector that is optimal
for the training distribution of the last `fit` and the testing distribution of this bag. -/
theorem C29_warm_start_is_not_stale {F B : Type*} (Q : WarmQuantifier F B) (sv : CvxSolver) (hsv : ExactCvx sv) (loss : CvxLoss)
    (f0 : F) (hist : List (WarmCall F B)) (b : B) (hn : 0 < (Q.train (lastFit f0 hist)).n) :
    (warmPredict Q sv loss (warmRun Q sv loss (warmFit f0) hist) b).2 = (warmPredict Q sv loss (warmFit (lastFit f0 hist)) b).2
    ∨ ∃ (q : Vec) (h : q.1 = (Q.train (lastFit f0 hist)).m) (x : Fin (Q.train (lastFit f0 hist)).n → ℝ),
        Q.prep (lastFit f0 hist) b = .ok (.inl q)
        ∧ (warmPredict Q sv loss (warmRun Q sv loss (warmFit f0) hist) b).2 = .ok (Q.post (lastFit f0 hist) ⟨_, x⟩)
        ∧ BestPrev (cvxObjective loss (Q.train (lastFit f0 hist)).T fun i => q.2 (Fin.cast h.symm i)) x := by
  obtain ⟨h1, h2⟩ := warm_inv Q sv loss hist (warmFit f0) (by simp [warmFit])
  rw [show (warmFit f0).fitted = f0 from rfl] at h1 h2
  set s := warmRun Q sv loss (warmFit f0) hist with hs
  set f := lastFit f0 hist with hf
  cases hp : Q.prep f b with
  | error e =>
    left
    unfold warmPredict
    simp only [warmFit, h1, hp]
  | ok r =>
    cases r with
    | inr d =>
      left
      unfold warmPredict
      simp only [warmFit, h1, hp]
    | inl q =>
      have hs' : ∀ pr, s.problem = some pr → pr.toTrain = Q.train s.fitted := by rw [h1]; exact h2
      have ans := warm_answer Q sv hsv loss s hs' (by rw [h1]; exact hn) b q (by rw [h1]; exact hp)
      rw [h1] at ans
      rcases ans with ⟨h, _, x, e1, e2⟩ | ⟨e1, e2⟩
      · exact Or.inr ⟨q, h, x, rfl, e1, e2⟩
      · left
        rcases warm_answer Q sv hsv loss (warmFit f) (by simp [warmFit]) hn b q hp with ⟨h, h0, _⟩ | ⟨e3, _⟩
        · exact absurd ⟨h, h0⟩ e2
        · rw [e1, e3]

/-- **C29**, unique optimum: if the problem of the last fit and this bag has a single solution, the prediction is
exactly the one of a freshly fitted object. -/
theorem C29_warm_start_equals_fresh {F B : Type*} (Q : WarmQuantifier F B) (sv : CvxSolver) (hsv : ExactCvx sv) (loss : CvxLoss)
    (f0 : F) (hist : List (WarmCall F B)) (b : B) (hn : 0 < (Q.train (lastFit f0 hist)).n)
    (huniq : ∀ q : Vec, Q.prep (lastFit f0 hist) b = .ok (.inl q) → ∀ (h : q.1 = (Q.train (lastFit f0 hist)).m) x x',
      BestPrev (cvxObjective loss (Q.train (lastFit f0 hist)).T fun i => q.2 (Fin.cast h.symm i)) x →
      BestPrev (cvxObjective loss (Q.train (lastFit f0 hist)).T fun i => q.2 (Fin.cast h.symm i)) x' → x = x') :
    (warmPredict Q sv loss (warmRun Q sv loss (warmFit f0) hist) b).2 = (warmPredict Q sv loss (warmFit (lastFit f0 hist)) b).2 := by
  rcases C29_warm_start_is_not_stale Q sv hsv loss f0 hist b hn with h | ⟨q, h, x, e1, e2, e3⟩
  · exact h
  · have fr := warm_answer Q sv hsv loss (warmFit (lastFit f0 hist)) (by simp [warmFit]) hn b q e1
    rcases fr with ⟨_, _, x', k1, k2⟩ | ⟨_, k2⟩
    · rw [e2, k1, huniq q e1 h x x' e3 k2]
      rfl
    · -- the warm object accepted the bag
      exfalso
      obtain ⟨h1, h2⟩ := warm_inv Q sv loss hist (warmFit f0) (by simp [warmFit])
      rw [show (warmFit f0).fitted = f0 from rfl] at h1 h2
      have hs' : ∀ pr, (warmRun Q sv loss (warmFit f0) hist).problem = some pr →
          pr.toTrain = Q.train (warmRun Q sv loss (warmFit f0) hist).fitted := by rw [h1]; exact h2
      have ans := warm_answer Q sv hsv loss _ hs' (by rw [h1]; exact hn) b q (by rw [h1]; exact e1)
      rw [h1] at ans
      rcases ans with ⟨h, h0, _⟩ | ⟨k3, _⟩
      · exact k2 ⟨h, h0⟩
      · rw [e2] at k3; cases k3

/-- **C29**, cached mixtures: for a quantifier based on `global_search`, after any history of calls the prediction
for a bag is exactly the one of an object freshly fitted on the data of the last `fit`. -/
theorem C29_cached_mixtures_not_stale {F B M T : Type*} (Q : MixQuantifier F B M T) (f0 : F) (hist : List (WarmCall F B)) (b : B) :
    (mixPredict Q (mixRun Q ⟨f0, none⟩ hist) b).2 = (mixPredict Q ⟨lastFit f0 hist, none⟩ b).2 := by
  -- the cache is empty or holds the mixtures of the last fit
  have inv : ∀ (hist : List (WarmCall F B)) (s : MixState F M),
      (s.mixtures = none ∨ s.mixtures = some fun i : ℕ => Q.mix s.fitted ((i : ℝ) / 100)) →
      (mixRun Q s hist).fitted = lastFit s.fitted hist ∧
      ((mixRun Q s hist).mixtures = none ∨ (mixRun Q s hist).mixtures = some fun i : ℕ => Q.mix (lastFit s.fitted hist) ((i : ℝ) / 100)) := by
    intro hist
    induction hist with
    | nil => intro s hs; exact ⟨rfl, hs⟩
    | cons c cs ih =>
      intro s hs
      cases c with
      | fit f => simp only [mixRun, lastFit]; exact ih ⟨f, none⟩ (Or.inl rfl)
      | predict b =>
        simp only [mixRun, lastFit]
        have key : (mixPredict Q s b).1.fitted = s.fitted ∧ ((mixPredict Q s b).1.mixtures = none ∨
            (mixPredict Q s b).1.mixtures = some fun i : ℕ => Q.mix s.fitted ((i : ℝ) / 100)) := by
          unfold mixPredict
          cases ht : Q.test s.fitted b with
          | error e => exact ⟨rfl, hs⟩
          | ok t =>
            simp only
            unfold globalSearch
            rcases hs with hm | hm
            · rw [hm]
              simp only
              cases globalCore (fun i => Q.dist (Q.mix s.fitted ((i : ℝ) / 100)) t)
                (goldenSectionSearch (fun p => Q.dist (Q.mix s.fitted p) t) Q.tol) with
              | error e => exact ⟨rfl, Or.inl hm⟩
              | ok p => exact ⟨rfl, Or.inr rfl⟩
            · rw [hm]
              simp only
              cases globalCore (fun i => Q.dist (Q.mix s.fitted ((i : ℝ) / 100)) t)
                (goldenSectionSearch (fun p => Q.dist (Q.mix s.fitted p) t) Q.tol) with
              | error e => exact ⟨rfl, Or.inr hm⟩
              | ok p => exact ⟨rfl, Or.inr rfl⟩
        have := ih (mixPredict Q s b).1 (by rw [key.1]; exact key.2)
        rw [key.1] at this
        exact this
  obtain ⟨h1, h2⟩ := inv hist ⟨f0, none⟩ (Or.inl rfl)
  simp only at h1 h2
  unfold mixPredict
  rw [h1]
  cases ht : Q.test (lastFit f0 hist) b with
  | error e => rfl
  | ok t =>
    simp only
    rcases h2 with h2 | h2
    · rw [h2]
      cases globalSearch Q.dist (Q.mix (lastFit f0 hist)) t Q.tol none true with
      | error e => rfl
      | ok r => rfl
    · rw [h2]
      have : globalSearch Q.dist (Q.mix (lastFit f0 hist)) t Q.tol (some fun i : ℕ => Q.mix (lastFit f0 hist) ((i : ℝ) / 100)) true
        = globalSearch Q.dist (Q.mix (lastFit f0 hist)) t Q.tol none true := rfl
      rw [this]
      cases globalSearch Q.dist (Q.mix (lastFit f0 hist)) t Q.tol none true with
      | error e => rfl
      | ok r => rfl

/-! ## Exact solvers exist -/

theorem cvxObjective_continuous (loss : CvxLoss) {m n : ℕ} (T : Matrix (Fin m) (Fin n) ℝ) (q : Fin m → ℝ) :
    Continuous (cvxObjective loss T q) := by
  have hT : ∀ k, Continuous fun p : Fin n → ℝ => (T *ᵥ p) k := by
    intro k
    simp only [Matrix.mulVec, dotProduct]
    fun_prop
  cases loss with
  | l1 =>
    show Continuous fun p => ∑ k, |q k - (T *ᵥ p) k|
    exact continuous_finsetSum _ fun k _ => (continuous_const.sub (hT k)).abs
  | hd =>
    show Continuous fun p => 1 - ∑ k, Real.sqrt (q k * (T *ᵥ p) k)
    exact continuous_const.sub (continuous_finsetSum _ fun k _ => (continuous_const.mul (hT k)).sqrt)

theorem bestPrev_exists {n : ℕ} (hn : 0 < n) (g : (Fin n → ℝ) → ℝ) (hg : Continuous g) : ∃ x, BestPrev g x := by
  haveI : Nonempty (Fin n) := ⟨⟨0, hn⟩⟩
  obtain ⟨x, hx, hmin⟩ := (isCompact_stdSimplex ℝ (Fin n)).exists_isMinOn ⟨_, single_mem_stdSimplex ℝ ⟨0, hn⟩⟩ hg.continuousOn
  exact ⟨x, ⟨hx.1, hx.2⟩, fun p hp => hmin ⟨hp.1, hp.2⟩⟩

open Classical in
/-- The contract of the solver can be met. -/
theorem exactCvx_exists : ∃ sv, ExactCvx sv := by
  refine ⟨⟨fun loss {m n} T q _ => if h : ∃ x, BestPrev (cvxObjective loss T q) x then h.choose else fun _ => 0⟩, ?_⟩
  intro loss m n T q start hn _
  have h := bestPrev_exists hn _ (cvxObjective_continuous loss T q)
  simp only [dif_pos h]
  exact h.choose_spec

/-- A history with two different fits and a quantifier that uses the solver. -/
example : ∃ (Q : WarmQuantifier ℝ ℝ) (hist : List (WarmCall ℝ ℝ)), lastFit 1 hist = 2 ∧ hist.length = 3 ∧
    0 < (Q.train (lastFit 1 hist)).n ∧ Q.prep 2 (1/2) = .ok (.inl ⟨1, fun _ => 1/2⟩) :=
  ⟨⟨fun f => ⟨1, 2, fun _ j => if j = 0 then f else 0⟩, fun _ b => .ok (.inl ⟨1, fun _ => b⟩), fun _ x => x⟩,
    [.predict (1/4), .fit 2, .predict (1/3)], rfl, rfl, by norm_num, rfl⟩

/-! ## C73 -/

theorem mulVec_nonneg {m n : ℕ} {T : Matrix (Fin m) (Fin n) ℝ} (hT : ∀ k j, 0 ≤ T k j) {p : Fin n → ℝ} (hp : IsPrev p) (k : Fin m) :
    0 ≤ (T *ᵥ p) k :=
  show 0 ≤ ∑ j, T k j * p j from Finset.sum_nonneg fun j _ => mul_nonneg (hT k j) (hp.1 j)

theorem sum_mulVec {m n : ℕ} {T : Matrix (Fin m) (Fin n) ℝ} {s : ℝ} (hs : ∀ j, ∑ k, T k j = s) {p : Fin n → ℝ} (hp : IsPrev p) :
    ∑ k, (T *ᵥ p) k = s := by
  simp only [Matrix.mulVec, dotProduct]
  rw [Finset.sum_comm]
  simp only [← Finset.sum_mul, hs]
  rw [← Finset.mul_sum, hp.2, mul_one]

/-- The squared Hellinger distance between two nonnegative vectors (without the factor 1/2). -/
noncomputable def hellingerSq {m : ℕ} (q r : Fin m → ℝ) : ℝ := ∑ k, (Real.sqrt (q k) - Real.sqrt (r k)) ^ 2

theorem hellingerSq_eq {m : ℕ} (q r : Fin m → ℝ) (hq : ∀ k, 0 ≤ q k) (hr : ∀ k, 0 ≤ r k) :
    hellingerSq q r = ∑ k, q k + ∑ k, r k - 2 * ∑ k, Real.sqrt (q k * r k) := by
  unfold hellingerSq
  rw [Finset.mul_sum, ← Finset.sum_add_distrib, ← Finset.sum_sub_distrib]
  apply Finset.sum_congr rfl
  intro k _
  rw [Real.sqrt_mul (hq k), sub_sq, Real.sq_sqrt (hq k), Real.sq_sqrt (hr k)]
  ring

/-- **C73**, `solve_l1`: with an exact solver, for every training distribution and every nonnegative testing
distribution of the right length, whatever problem was kept from an earlier call with the same training
distribution, the answer is a valid prevalence vector whose L1 distance to the testing distribution is the
smallest of all valid vectors. -/
theorem C73_solve_l1_optimal (sv : CvxSolver) (hsv : ExactCvx sv) {m n : ℕ} (hn : 0 < n) (T : Matrix (Fin m) (Fin n) ℝ) (q : Fin m → ℝ)
    (hq : ∀ k, 0 ≤ q k) (last : Option (Fin n → ℝ)) :
    ∃ pr x, solveCvx sv .l1 ⟨m, n, T⟩ ⟨m, q⟩ (last.map fun l => ⟨⟨m, n, T⟩, l⟩) = .ok (pr, ⟨n, x⟩) ∧ pr.toTrain = ⟨m, n, T⟩ ∧ IsPrev x
      ∧ ∀ p, IsPrev p → ∑ k, |q k - ∑ j, T k j * x j| ≤ ∑ k, |q k - ∑ j, T k j * p j| := by
  have hset : setParameter m ⟨m, q⟩ = .ok q := by unfold setParameter; simp [hq]
  cases last with
  | none =>
    have := hsv .l1 T q none hn hq
    exact ⟨⟨⟨m, n, T⟩, sv.solve .l1 T q none⟩, _, by simp only [Option.map, solveCvx, hset], rfl, this.1, this.2⟩
  | some l =>
    have := hsv .l1 T q (some l) hn hq
    exact ⟨⟨⟨m, n, T⟩, sv.solve .l1 T q (some l)⟩, _, by simp only [Option.map, solveCvx, hset], rfl, this.1, this.2⟩

/-- **C73**, `solve_hd`: if the columns of the training distribution are nonnegative and have the same total
(class histograms do), the answer of an exact solver is a valid prevalence vector whose Hellinger distance to the
testing distribution is the smallest of all valid vectors. -/
theorem C73_solve_hd_optimal (sv : CvxSolver) (hsv : ExactCvx sv) {m n : ℕ} (hn : 0 < n) (T : Matrix (Fin m) (Fin n) ℝ) (q : Fin m → ℝ)
    (hq : ∀ k, 0 ≤ q k) (hT : ∀ k j, 0 ≤ T k j) (s : ℝ) (hs : ∀ j, ∑ k, T k j = s) (last : Option (Fin n → ℝ)) :
    ∃ pr x, solveCvx sv .hd ⟨m, n, T⟩ ⟨m, q⟩ (last.map fun l => ⟨⟨m, n, T⟩, l⟩) = .ok (pr, ⟨n, x⟩) ∧ pr.toTrain = ⟨m, n, T⟩ ∧ IsPrev x
      ∧ ∀ p, IsPrev p → hellingerSq q (fun k => ∑ j, T k j * x j) ≤ hellingerSq q (fun k => ∑ j, T k j * p j) := by
  have hset : setParameter m ⟨m, q⟩ = .ok q := by unfold setParameter; simp [hq]
  have conv : ∀ x, BestPrev (cvxObjective .hd T q) x → ∀ p, IsPrev p →
      hellingerSq q (fun k => ∑ j, T k j * x j) ≤ hellingerSq q (fun k => ∑ j, T k j * p j) := by
    intro x hx p hp
    have h1 := hellingerSq_eq q (T *ᵥ x) hq (mulVec_nonneg hT hx.1)
    have h2 := hellingerSq_eq q (T *ᵥ p) hq (mulVec_nonneg hT hp)
    rw [sum_mulVec hs hx.1] at h1
    rw [sum_mulVec hs hp] at h2
    have h3 : 1 - ∑ k, Real.sqrt (q k * (T *ᵥ x) k) ≤ 1 - ∑ k, Real.sqrt (q k * (T *ᵥ p) k) := hx.2 p hp
    show hellingerSq q (T *ᵥ x) ≤ hellingerSq q (T *ᵥ p)
    linarith
  cases last with
  | none =>
    have := hsv .hd T q none hn hq
    exact ⟨⟨⟨m, n, T⟩, sv.solve .hd T q none⟩, _, by simp only [Option.map, solveCvx, hset], rfl, this.1, conv _ this⟩
  | some l =>
    have := hsv .hd T q (some l) hn hq
    exact ⟨⟨⟨m, n, T⟩, sv.solve .hd T q (some l)⟩, _, by simp only [Option.map, solveCvx, hset], rfl, this.1, conv _ this⟩

/-- **C73**, nonnegativity: the L1 objective is nonnegative; so is the HD objective when training columns and
testing distribution have total 1; in general it is at least `1 - s` for total `s`. -/
theorem C73_objectives_bounded {m n : ℕ} (T : Matrix (Fin m) (Fin n) ℝ) (q : Fin m → ℝ) (hq : ∀ k, 0 ≤ q k) (hT : ∀ k j, 0 ≤ T k j)
    (s : ℝ) (hs : ∀ j, ∑ k, T k j = s) (hqs : ∑ k, q k = s) (p : Fin n → ℝ) (hp : IsPrev p) :
    0 ≤ cvxObjective .l1 T q p ∧ 1 - s ≤ cvxObjective .hd T q p := by
  constructor
  · exact Finset.sum_nonneg fun k _ => abs_nonneg _
  · have h1 := hellingerSq_eq q (T *ᵥ p) hq (mulVec_nonneg hT hp)
    rw [sum_mulVec hs hp, hqs] at h1
    have h2 : 0 ≤ hellingerSq q (T *ᵥ p) := Finset.sum_nonneg fun k _ => sq_nonneg _
    show 1 - s ≤ 1 - ∑ k, Real.sqrt (q k * (T *ᵥ p) k)
    linarith

/-! ## C81 -/

/-- Different prevalences give different mixtures. -/
def Identifiable {m n : ℕ} (T : Matrix (Fin m) (Fin n) ℝ) : Prop :=
  ∀ p p', IsPrev p → IsPrev p' → (∀ k, ∑ j, T k j * p j = ∑ j, T k j * p' j) → p = p'

/-- **C81**, L1: if the testing distribution is exactly the mixture with prevalences `p` and different
prevalences give different mixtures, `solve_l1` with an exact solver returns `p`. -/
theorem C81_l1_recovers_mixture (sv : CvxSolver) (hsv : ExactCvx sv) {m n : ℕ} (hn : 0 < n) (T : Matrix (Fin m) (Fin n) ℝ)
    (hT : ∀ k j, 0 ≤ T k j) (hid : Identifiable T) (p : Fin n → ℝ) (hp : IsPrev p) :
    ∃ pr, solveCvx sv .l1 ⟨m, n, T⟩ ⟨m, fun k => ∑ j, T k j * p j⟩ none = .ok (pr, ⟨n, p⟩) := by
  have hq : ∀ k, 0 ≤ ∑ j, T k j * p j := fun k => mulVec_nonneg hT hp k
  obtain ⟨pr, x, h1, _, hx, hopt⟩ := C73_solve_l1_optimal sv hsv hn T _ hq none
  have h2 := hopt p hp
  simp only [sub_self, abs_zero, Finset.sum_const_zero] at h2
  have h3 : ∑ k, |(∑ j, T k j * p j) - ∑ j, T k j * x j| = 0 := le_antisymm h2 (Finset.sum_nonneg fun k _ => abs_nonneg _)
  rw [Finset.sum_eq_zero_iff_of_nonneg fun k _ => abs_nonneg _] at h3
  have : x = p := hid x p hx hp fun k => (sub_eq_zero.1 (abs_eq_zero.1 (h3 k (Finset.mem_univ k)))).symm
  exact ⟨pr, by rw [← this] at h1 ⊢; exact h1⟩

/-- **C81, partial**, HD: the same for `solve_hd` if the columns of the training distribution have the same total. -/
theorem C81_hd_recovers_mixture_partial (sv : CvxSolver) (hsv : ExactCvx sv) {m n : ℕ} (hn : 0 < n) (T : Matrix (Fin m) (Fin n) ℝ)
    (hT : ∀ k j, 0 ≤ T k j) (s : ℝ) (hs : ∀ j, ∑ k, T k j = s) (hid : Identifiable T) (p : Fin n → ℝ) (hp : IsPrev p) :
    ∃ pr, solveCvx sv .hd ⟨m, n, T⟩ ⟨m, fun k => ∑ j, T k j * p j⟩ none = .ok (pr, ⟨n, p⟩) := by
  have hq : ∀ k, 0 ≤ ∑ j, T k j * p j := fun k => mulVec_nonneg hT hp k
  obtain ⟨pr, x, h1, _, hx, hopt⟩ := C73_solve_hd_optimal sv hsv hn T _ hq hT s hs none
  have h2 := hopt p hp
  have h0 : hellingerSq (fun k => ∑ j, T k j * p j) (fun k => ∑ j, T k j * p j) = 0 := by unfold hellingerSq; simp
  rw [h0] at h2
  have h3 : hellingerSq (fun k => ∑ j, T k j * p j) (fun k => ∑ j, T k j * x j) = 0 :=
    le_antisymm h2 (Finset.sum_nonneg fun k _ => sq_nonneg _)
  unfold hellingerSq at h3
  rw [Finset.sum_eq_zero_iff_of_nonneg fun k _ => sq_nonneg _] at h3
  have : x = p := by
    refine hid x p hx hp fun k => ?_
    have h4 := sub_eq_zero.1 (pow_eq_zero_iff (two_ne_zero) |>.1 (h3 k (Finset.mem_univ k)))
    exact ((Real.sqrt_inj (hq k) (mulVec_nonneg hT hx k)).1 h4).symm
  exact ⟨pr, by rw [← this] at h1 ⊢; exact h1⟩

/-- **C81 is false** for HD with other training distributions. Cumulative histograms are such a case: the columns
`(1,1)` and `(0,1)` are the two-bin CDFs of two perfectly separated classes. For every bag that is a mixture with
prevalences `(r, 1-r)`, `0 < r`, an exact solver answers `(1, 0)`. -/
theorem C81_hd_recovers_mixture_refuted (sv : CvxSolver) (hsv : ExactCvx sv) (r : ℝ) (hr0 : 0 < r) (hr1 : r ≤ 1) :
    Identifiable !![(1 : ℝ), 0; 1, 1] ∧
    ∃ pr, solveCvx sv .hd ⟨2, 2, !![1, 0; 1, 1]⟩ ⟨2, fun k => ∑ j, !![(1 : ℝ), 0; 1, 1] k j * ![r, 1 - r] j⟩ none = .ok (pr, ⟨2, ![1, 0]⟩) := by
  constructor
  · intro p p' hp hp' h
    have h0 := h 0
    have h1 := h 1
    simp [Fin.sum_univ_two] at h0 h1
    funext i; fin_cases i
    · exact h0
    · simp only [Fin.mk_one]; linarith
  · set T : Matrix (Fin 2) (Fin 2) ℝ := !![1, 0; 1, 1] with hTd
    have hmix : ∀ k, (∑ j, T k j * ![r, 1 - r] j) = ![r, 1] k := by
      intro k; fin_cases k <;> simp [hTd, Fin.sum_univ_two]
    have hq : ∀ k, 0 ≤ ∑ j, T k j * ![r, 1 - r] j := by
      intro k; rw [hmix k]; fin_cases k
      · exact hr0.le
      · exact zero_le_one
    have hbest := hsv .hd T (fun k => ∑ j, T k j * ![r, 1 - r] j) none (by norm_num) hq
    have hset : setParameter 2 ⟨2, fun k => ∑ j, T k j * ![r, 1 - r] j⟩ = .ok (fun k => ∑ j, T k j * ![r, 1 - r] j) := by
      unfold setParameter; simp only [dif_pos]; rw [if_pos hq]; rfl
    refine ⟨⟨⟨2, 2, T⟩, sv.solve .hd T (fun k => ∑ j, T k j * ![r, 1 - r] j) none⟩, ?_⟩
    have hx : sv.solve .hd T (fun k => ∑ j, T k j * ![r, 1 - r] j) none = ![1, 0] := by
      set x := sv.solve .hd T (fun k => ∑ j, T k j * ![r, 1 - r] j) none with hxd
      have hobj : ∀ p, IsPrev p → cvxObjective .hd T (fun k => ∑ j, T k j * ![r, 1 - r] j) p = - Real.sqrt (r * p 0) := by
        intro p hp
        have hsum := hp.2
        rw [Fin.sum_univ_two] at hsum
        have e0 : (T *ᵥ p) 0 = p 0 := by simp [hTd, Matrix.mulVec, dotProduct, Fin.sum_univ_two]
        have e1 : (T *ᵥ p) 1 = 1 := by simp [hTd, Matrix.mulVec, dotProduct, Fin.sum_univ_two, hsum]
        show 1 - ∑ k, Real.sqrt ((∑ j, T k j * ![r, 1 - r] j) * (T *ᵥ p) k) = _
        rw [Fin.sum_univ_two, hmix 0, hmix 1, e0, e1]
        simp
      have h10 : IsPrev ![(1 : ℝ), 0] := ⟨fun i => by fin_cases i <;> norm_num, by norm_num⟩
      have h1 := hbest.2 _ h10
      rw [hobj _ hbest.1, hobj _ h10] at h1
      have h2 : Real.sqrt (r * 1) ≤ Real.sqrt (r * x 0) := by simpa using h1
      have h3 : r * 1 ≤ r * x 0 := (Real.sqrt_le_sqrt_iff (mul_nonneg hr0.le (hbest.1.1 0))).1 h2
      have h4 : 1 ≤ x 0 := le_of_mul_le_mul_left h3 hr0
      have hsum := hbest.1.2
      rw [Fin.sum_univ_two] at hsum
      have h5 := hbest.1.1 1
      funext i
      fin_cases i
      · show x 0 = 1; linarith
      · show x 1 = 0; linarith
    simp only [solveCvx, hset]
    rw [hx]

/-- An identifiable training distribution with columns of total 1. -/
example : Identifiable !![(9/10 : ℝ), 2/10; 1/10, 8/10] ∧ ∀ j, ∑ k, !![(9/10 : ℝ), 2/10; 1/10, 8/10] k j = 1 := by
  constructor
  · intro p p' hp hp' h
    have h0 := h 0
    have s := hp.2
    have s' := hp'.2
    rw [Fin.sum_univ_two] at s s'
    simp [Fin.sum_univ_two] at h0
    funext i; fin_cases i
    · simp only [Fin.zero_eta]; linarith
    · simp only [Fin.mk_one]; linarith
  · intro j; fin_cases j <;> norm_num [Fin.sum_univ_two]

end Verif.Props
