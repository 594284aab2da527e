import Verif.Props.L2Search
import Mathlib.Analysis.Seminorm
import Mathlib.Topology.Order.Compact

/-!
# C175 with any norm as distance

With `l1`, the mean absolute error, `l2` and every other (semi)norm of the difference, the search answers with nearly the closest mixture whatever the training set and the bag, except that it may raise ValueError when all mixtures
are about as close.
-/

namespace Verif.Props

open Verif.Model Verif.Spec Verif.Proof

/-- **C33, partial** (convex distances that change at most by `L` per unit of prevalence): the search returns a prevalence that is as good as every other up to `2 * tol * L` or `L / 50`, or it raises ValueError and the
distance is the same for all prevalences up to `L / 50`. -/
theorem C33_global_search_lipschitz_partial (g : ℝ → ℝ) (tol L : ℝ) (htol : 0 < tol) (hg : ConvexOn ℝ (Set.Icc 0 1) g) (hL : ∀ x ∈ Set.Icc (0:ℝ) 1, ∀ y ∈ Set.Icc (0:ℝ) 1, |g x - g y| ≤ L * |x - y|) :
    (∃ p, globalSearch (fun (m : ℝ) (_ : Unit) => Fl.fin m) g () tol none false = .ok (none, some p) ∧ p ∈ Set.Icc (0:ℝ) 1 ∧ ∀ q ∈ Set.Icc (0:ℝ) 1, g p ≤ g q + max (2 * tol) (1 / 50) * L)
    ∨ (globalSearch (fun (m : ℝ) (_ : Unit) => Fl.fin m) g () tol none false = .error .valueError ∧ ∀ p ∈ Set.Icc (0:ℝ) 1, ∀ q ∈ Set.Icc (0:ℝ) 1, g p ≤ g q + 1 / 50 * L) := by
  have i0 : (0:ℝ) ∈ Set.Icc (0:ℝ) 1 := ⟨le_rfl, zero_le_one⟩
  have i1 : (1:ℝ) ∈ Set.Icc (0:ℝ) 1 := ⟨zero_le_one, le_rfl⟩
  have hL0 : 0 ≤ L := by
    have := hL 0 i0 1 i1
    norm_num at this
    exact (abs_nonneg _).trans this
  have hcont : ContinuousOn g (Set.Icc 0 1) := by
    refine LipschitzOnWith.continuousOn (K := L.toNNReal) (LipschitzOnWith.of_dist_le_mul fun x hx y hy => ?_)
    rw [Real.dist_eq, Real.dist_eq, Real.coe_toNNReal _ hL0]
    exact hL x hx y hy
  obtain ⟨x0, hx0, hmin0⟩ := isCompact_Icc.exists_isMinOn (⟨0, i0⟩ : (Set.Icc (0:ℝ) 1).Nonempty) hcont
  have hcl : IsClosed (Set.Icc (0:ℝ) 1 ∩ g ⁻¹' Set.Iic (g x0)) := hcont.preimage_isClosed_of_isClosed isClosed_Icc isClosed_Iic
  have hcp : IsCompact (Set.Icc (0:ℝ) 1 ∩ g ⁻¹' Set.Iic (g x0)) := isCompact_Icc.of_isClosed_subset hcl Set.inter_subset_left
  obtain ⟨hm, hgm⟩ := hcp.sSup_mem ⟨x0, hx0, le_refl (g x0)⟩
  set m := sSup (Set.Icc (0:ℝ) 1 ∩ g ⁻¹' Set.Iic (g x0)) with hmdef
  have hgm' : g m ≤ g x0 := hgm
  have hmin : ∀ q ∈ Set.Icc (0:ℝ) 1, g m ≤ g q := fun q hq => hgm'.trans (hmin0 hq)
  have hlast : ∀ q ∈ Set.Icc (0:ℝ) 1, m < q → g m < g q := by
    intro q hq hlt
    by_contra hcon
    push Not at hcon
    exact absurd (le_csSup hcp.bddAbove ⟨hq, (hcon.trans hgm' : g q ≤ g x0)⟩) (not_le.2 hlt)
  by_cases hside : m ≤ 98 / 100 ∨ g 1 < g 0
  · obtain ⟨p, h1, h2, h3⟩ := C33_global_search_convex_partial g tol (L * tol) m htol hg hm hmin hlast hside
      fun x hx y hy h => (hL x hx y hy).trans (mul_le_mul_of_nonneg_left h hL0)
    refine .inl ⟨p, h1, h2, fun q hq => (h3 q hq).trans ?_⟩
    nlinarith [mul_le_mul_of_nonneg_right (le_max_left (2 * tol) (1 / 50)) hL0]
  · push Not at hside
    obtain ⟨h98, h01⟩ := hside
    have hup : ∀ p ∈ Set.Icc (0:ℝ) 1, ∀ q ∈ Set.Icc (0:ℝ) 1, g p ≤ g q + 1 / 50 * L := by
      intro p hp q hq
      have e1 := hg.2 i0 i1 (sub_nonneg.2 hp.2) hp.1 (by ring)
      simp only [smul_eq_mul, mul_zero, mul_one, zero_add] at e1
      have e2 := (abs_le.1 (hL 1 i1 m hm)).2
      rw [abs_of_nonneg (by linarith [hm.2])] at e2
      have e3 := hmin q hq
      have e4 : (1 - p) * g 0 ≤ (1 - p) * g 1 := mul_le_mul_of_nonneg_left h01 (by linarith [hp.2])
      nlinarith
    rcases C33_global_search_valid_partial g tol htol with ⟨p, h1, h2, h3⟩ | ⟨h1, -, -⟩
    · refine .inl ⟨p, h1, ⟨h2, h3⟩, fun q hq => (hup p ⟨h2, h3⟩ q hq).trans ?_⟩
      have := mul_le_mul_of_nonneg_right (le_max_right (2 * tol) (1 / 50)) hL0
      linarith
    · exact .inr ⟨h1, hup⟩

/-- What C175 says of the answer `r` with the norm `N` as distance: its mixture of the classes `T` is as near to the bag `q` as every other one, up to twice the tolerance or 2% of the distance between the classes; or a ValueError was
raised, and the mixtures of all prevalences are equally near up to 2% of the distance between the classes. -/
def NearlyClosest {m nc : ℕ} (N : Seminorm ℝ (Fin m → ℝ)) (tol : ℝ) (c0 c1 : Fin nc) (T : Matrix (Fin m) (Fin nc) ℝ) (q : Fin m → ℝ) (r : Except Err (Option (List Fl))) : Prop :=
  (∃ x, r = .ok (some (realList x)) ∧ IsPrev x ∧ ∀ p, IsPrev p → N (mixtureOf T x - q) ≤ N (mixtureOf T p - q) + max (2 * tol) (1 / 50) * N ((fun i => T i c1) - fun i => T i c0))
  ∨ (r = .error .valueError ∧ ∀ p p', IsPrev p → IsPrev p' → N (mixtureOf T p - q) ≤ N (mixtureOf T p' - q) + 1 / 50 * N ((fun i => T i c1) - fun i => T i c0))

theorem matchAnswer_norm {F : Type} {m nc : ℕ} (hnc : nc = 2) (sv : CvxSolver) (qp : QPSolver) (tol : ℝ) (htol : 0 < tol) (N : Seminorm ℝ (Fin m → ℝ)) (f : F) (T : Matrix (Fin m) (Fin nc) ℝ) (par) (q : Fin m → ℝ) :
    NearlyClosest N tol ⟨0, by omega⟩ ⟨1, by omega⟩ T q (matchAnswer sv qp tol (.fn fun v q => Fl.fin (N (v - q))) ⟨f, T, par, none, none⟩ q).2 := by
  subst hnc
  show NearlyClosest N tol 0 1 T q _
  set g : ℝ → ℝ := fun p => N (mixtureOf T ![1 - p, p] - q) with hg
  have hm : ∀ p : ℝ, mixtureOfPdfs p (fun i => T i 1) (fun i => T i 0) = mixtureOf T ![1 - p, p] := by
    intro p
    funext i
    simp [mixtureOfPdfs, mixtureOf, Fin.sum_univ_two]
    ring
  have hrun : (matchAnswer sv qp tol (.fn fun v q => Fl.fin (N (v - q))) (⟨f, T, par, none, none⟩ : MatchState F m 2) q).2
      = (globalSearch (fun (m : ℝ) (_ : Unit) => Fl.fin m) g () tol none false).map fun r => r.2.map fun p => realList ![1 - p, p] := by
    have hlt : 1 < 2 := by norm_num
    unfold matchAnswer
    simp only [hlt, dite_true]
    unfold globalSearch
    simp only
    have e : ∀ p : ℝ, mixtureOfPdfs p (fun i => T i ⟨1, hlt⟩) (fun i => T i ⟨0, by omega⟩) = mixtureOf T ![1 - p, p] := hm
    simp only [e]
    simp only [hg]
    generalize globalCore _ _ = r
    cases r <;> rfl
  have hdiff : ∀ x y : ℝ, mixtureOf T ![1 - x, x] - q - (mixtureOf T ![1 - y, y] - q) = (x - y) • ((fun i => T i 1) - fun i => T i 0) := by
    intro x y
    funext i
    simp [mixtureOf, Fin.sum_univ_two]
    ring
  have hconv : ConvexOn ℝ (Set.Icc 0 1) g := by
    refine ⟨convex_Icc _ _, fun x _ y _ a b ha hb hab => ?_⟩
    have e : mixtureOf T ![1 - (a • x + b • y), a • x + b • y] - q = a • (mixtureOf T ![1 - x, x] - q) + b • (mixtureOf T ![1 - y, y] - q) := by
      funext i
      obtain rfl : b = 1 - a := by linarith
      simp [mixtureOf, Fin.sum_univ_two]
      ring
    show N _ ≤ a • N _ + b • N _
    rw [e]
    refine (map_add_le_add N _ _).trans (le_of_eq ?_)
    rw [map_smul_eq_mul, map_smul_eq_mul, Real.norm_of_nonneg ha, Real.norm_of_nonneg hb]
    rfl
  have hL : ∀ x ∈ Set.Icc (0:ℝ) 1, ∀ y ∈ Set.Icc (0:ℝ) 1, |g x - g y| ≤ N ((fun i => T i 1) - fun i => T i 0) * |x - y| := by
    intro x _ y _
    refine (abs_sub_map_le_sub N _ _).trans (le_of_eq ?_)
    rw [hdiff, map_smul_eq_mul, Real.norm_eq_abs, mul_comm]
  rw [hrun]
  rcases C33_global_search_lipschitz_partial g tol _ htol hconv hL with ⟨p, h1, h2, h3⟩ | ⟨h1, h2⟩
  · refine .inl ⟨![1 - p, p], by rw [h1]; rfl, pair_isPrev h2, fun r hr => ?_⟩
    obtain ⟨e, hr1⟩ := prev_two hr
    rw [e]
    exact h3 _ hr1
  · refine .inr ⟨by rw [h1]; rfl, fun r r' hr hr' => ?_⟩
    obtain ⟨e, hr1⟩ := prev_two hr
    obtain ⟨e', hr1'⟩ := prev_two hr'
    rw [e, e']
    exact h2 _ hr1 _ hr1'

section
variable {σ D α : Type} [LinearOrder α] (enc : Bool → α) (w : World σ D α) (et et' : Option ℕ) (X Xt : List D) (y : List α) (hy : y ≠ []) (r : ℕ) (hr : 0 < r) (hk : (labelsOf y).length = 2)
include hy

/-- **C175** for DFy (HDy, MMy) with any norm of the difference as distance. -/
theorem C175_dfy_norm (ops : EstOps σ D α (labelsOf y).length) (sv : CvxSolver) (qp : QPSolver) (ppf : ℝ → EReal) (la : LinAlg (labelsOf y).length) (fuel : ℕ) (tol : ℝ) (htol : 0 < tol) (cfg : DfCfg)
    (N : Seminorm ℝ (Fin (nDescriptors (labelsOf y).length * cfg.nBins) → ℝ)) (P : List (Fin (labelsOf y).length → ℝ)) (hP : P.length = r * y.length)
    (fit : DfFit (nDescriptors (labelsOf y).length) cfg.nBins (labelsOf y).length) (hfit : dfyFit ppf cfg (labelsOf y) y (stacked y r) P = .ok fit) (bag : List (Fin (labelsOf y).length → ℝ)) (_hbag : bag ≠ []) :
    ∃ q, dfyTest cfg fit bag = .ok q ∧ NearlyClosest N tol ⟨0, by omega⟩ ⟨1, by omega⟩ fit.train q
      (ucRun ops enc w ⟨dfyClass ppf sv qp la fuel tol cfg (.fn fun v q => Fl.fin (N (v - q))), et, et'⟩ X y (some (.probs P)) Xt (some (.probs bag))) := by
  obtain ⟨-, q, hq, -⟩ := df_nonneg ppf .whole cfg (some (0, 1)) _ y (stacked y r) hy P fit hfit bag
  refine ⟨q, hq, ?_⟩
  have hval := matchAnswer_norm hk sv qp tol htol N fit fit.train none q
  rw [ucRun_given_probs ops enc w X Xt y (dfyClass ppf sv qp la fuel tol cfg (.fn fun v q => Fl.fin (N (v - q)))) rfl rfl et et' hy r P _ hP]
  have h1' : dfFit ppf .whole cfg (some (0, 1)) (dfyAtt (npUnique y).length) (npUnique y) y (stacked y r) P = .ok fit := hfit
  refine Eq.mp (congrArg _ (Eq.symm ?_)) hval
  change answerOn (dfyClass (k := (npUnique y).length) ppf sv qp la fuel tol cfg (.fn fun v q => Fl.fin (N (v - q)))) y r (.probs P) (.probs bag) = _
  simp only [answerOn, learnAnswer, fittedState, dfyClass, trainData, probRows, columnsAre_self, if_true, bind, Except.bind]
  simp only [h1', Fin.cast_eq_self, matchParams]
  simp only [pure, Except.pure]
  have : dfyTest cfg (⟨fit.cuts, fun i c => fit.train i c⟩ : DfFit (nDescriptors (npUnique y).length) cfg.nBins (npUnique y).length) bag = .ok q := hq
  simp only [this]
  rfl

include hr in
/-- **C175** for FriedmanME with any norm of the difference as distance. -/
theorem C175_friedman_norm (ops : EstOps σ D α (labelsOf y).length) (sv : CvxSolver) (qp : QPSolver) (la : LinAlg (labelsOf y).length) (fuel : ℕ) (tol : ℝ) (htol : 0 < tol)
    (N : Seminorm ℝ (Fin (labelsOf y).length → ℝ)) (P : List (Fin (labelsOf y).length → ℝ)) (hP : P.length = r * y.length) (bag : List (Fin (labelsOf y).length → ℝ)) (_hbag : bag ≠ []) :
    NearlyClosest (nc := (labelsOf y).length) N tol ⟨0, by omega⟩ ⟨1, by omega⟩ (fun i c => reachShare i (freq y (labelsOf y)[i]) (ofClass ((stacked y r).zip P) (labelsOf y)[c])) (fun i => reachShare i (freq y (labelsOf y)[i]) bag)
      (ucRun ops enc w ⟨friedmanClass sv qp la fuel tol (.fn fun v q => Fl.fin (N (v - q))), et, et'⟩ X y (some (.probs P)) Xt (some (.probs bag))) := by
  have hl : (stacked y r).length = P.length := by rw [stacked_length, hP]
  obtain ⟨fit, h1, -, h2, h3, -⟩ := C54_friedman (labelsOf y) y (stacked y r) P hl (labelsOf_nodup' y) fun a => ((mem_labelsOf' y a).trans (stacked_mem_iff y r hr a).symm)
  have hT' : fit.train = fun i c => reachShare i (freq y (labelsOf y)[i]) (ofClass ((stacked y r).zip P) (labelsOf y)[c]) := by
    funext i c
    exact (h2 i c).1
  have hq : friedmanTest fit bag = fun i => reachShare i (freq y (labelsOf y)[i]) bag := funext fun i => h3 bag i
  rw [← hq, ← hT']
  have hval := matchAnswer_norm hk sv qp tol htol N fit fit.train none (friedmanTest fit bag)
  rw [ucRun_given_probs ops enc w X Xt y (friedmanClass sv qp la fuel tol (.fn fun v q => Fl.fin (N (v - q)))) rfl rfl et et' hy r P _ hP]
  refine Eq.mp (congrArg _ (Eq.symm ?_)) hval
  change answerOn (friedmanClass (k := (npUnique y).length) sv qp la fuel tol (.fn fun v q => Fl.fin (N (v - q)))) y r (.probs P) (.probs bag) = _
  have h1' : friedmanFit (npUnique y) y (stacked y r) P = .ok fit := h1
  simp only [answerOn, learnAnswer, fittedState, friedmanClass, trainData, probRows, columnsAre_self, if_true, bind, Except.bind]
  simp only [Fin.cast_eq_self]
  have h3' : List.map (fun (r : Fin (npUnique y).length → ℝ) j => r j) P = P := List.map_id P
  rw [h3', h1']
  simp only [matchParams, pure, Except.pure]
  rfl

end

/-- **C175** for DFX (HDX, MMX) with any norm of the difference as distance: any number of bags one after the other. -/
theorem C175_dfx_norm {α : Type} [LinearOrder α] {nf : ℕ} (y : List α) (hy : y ≠ []) (hk : (labelsOf y).length = 2) (sv : CvxSolver) (qp : QPSolver) (ppf : ℝ → EReal) (la : LinAlg (labelsOf y).length) (fuel : ℕ) (tol : ℝ) (htol : 0 < tol)
    (cfg : DfCfg) (N : Seminorm ℝ (Fin (nf * cfg.nBins) → ℝ)) (X : List (Fin nf → ℝ)) (fit : DfFit nf cfg.nBins (labelsOf y).length) (hfit : dfxFit ppf cfg (labelsOf y) y X = .ok fit)
    (bags : List (List (Fin nf → ℝ))) (hbags : ∀ bag ∈ bags, bag ≠ []) :
    ∃ answers, dfxRun ppf sv qp tol cfg (.fn fun v q => Fl.fin (N (v - q))) (labelsOf y) la fuel y X bags = .ok answers
      ∧ List.Forall₂ (fun bag a => ∃ q, dfxTest cfg fit bag = .ok q ∧ NearlyClosest N tol ⟨0, by omega⟩ ⟨1, by omega⟩ fit.train q a) bags answers := by
  refine ⟨_, by simp only [dfxRun, hfit, matchParams]; rfl, ?_⟩
  obtain ⟨Inv, h0, hinv⟩ := matchAnswer_same ⟨fun loss {_ _} T q _ => sv.solve loss T q none⟩ (fun _ {_ _} _ _ _ => rfl) qp tol (.fn fun v q => Fl.fin (N (v - q))) (⟨(), fit.train, none, none, none⟩ : MatchState Unit (nf * cfg.nBins) (labelsOf y).length) rfl rfl
  generalize (⟨(), fit.train, none, none, none⟩ : MatchState Unit (nf * cfg.nBins) (labelsOf y).length) = s at h0
  induction bags generalizing s with
  | nil => exact .nil
  | cons bag bags ih =>
    obtain ⟨-, q, hq, -⟩ := df_nonneg ppf .perBlock cfg none _ y y hy X fit hfit bag
    have hq' : dfxTest cfg fit bag = .ok q := hq
    have hval := matchAnswer_norm hk sv qp tol htol N () fit.train none q
    obtain ⟨-, hstep⟩ := hinv s h0
    simp only [dfxAnswers, hq']
    refine .cons ⟨q, hq', ?_⟩ (ih (fun b hb => hbags b (List.mem_cons_of_mem _ hb)) _ (hstep q).1)
    exact Eq.mp (congrArg _ (hstep q).2.symm) hval

/-- The sum of the absolute values. -/
def taxicab (m : ℕ) : Seminorm ℝ (Fin m → ℝ) := Seminorm.of (fun v => ∑ i, |v i|)
  (fun v w => by rw [← Finset.sum_add_distrib]; exact Finset.sum_le_sum fun i _ => abs_add_le _ _)
  (fun a v => by simp [abs_mul, Finset.mul_sum])

/-- **C175**: the metrics of the library that are norms of the difference: `l1`, `l2` and the mean absolute error. -/
theorem C175_norms {m : ℕ} (hm : m ≠ 0) : (fun v q : Fin m → ℝ => Fl.fin (taxicab m (v - q))) = l1
    ∧ (∃ N : Seminorm ℝ (Fin m → ℝ), (∀ v, N v = √(∑ i, v i ^ 2)) ∧ (fun v q : Fin m → ℝ => Fl.fin (N (v - q))) = l2)
    ∧ (∃ N : Seminorm ℝ (Fin m → ℝ), (∀ v, N v = (∑ i, |v i|) / m) ∧ (fun v q : Fin m → ℝ => Fl.fin (N (v - q))) = meanAbsoluteError) := by
  refine ⟨?_, ⟨(normSeminorm ℝ (EuclideanSpace ℝ (Fin m))).comp (WithLp.linearEquiv 2 ℝ (Fin m → ℝ)).symm.toLinearMap, fun v => ?_, ?_⟩, ⟨(1 / m : NNReal) • taxicab m, fun v => ?_, ?_⟩⟩
  · funext v q
    rw [l1_eq]
    rfl
  · simp [EuclideanSpace.norm_eq]
  · funext v q
    rw [l2_eq]
    simp [EuclideanSpace.norm_eq]
  · show (1 / m : NNReal) • (∑ i, |v i|) = _
    rw [NNReal.smul_def]
    simp
    ring
  · funext v q
    rw [mae_eq hm]
    show Fl.fin ((1 / m : NNReal) • (∑ i, |v i - q i|)) = _
    rw [NNReal.smul_def]
    congr 1
    simp
    ring

/-- Non-vacuity: two classes, with the predictions `(1, 0)` and `(0, 1)` for an example of each; their distance in `l1` is 2. -/
example : (labelsOf [0, 1] : List ℕ).length = 2 ∧ [![(1:ℝ), 0], ![0, 1]].length = 1 * [0, 1].length ∧ taxicab 2 (![0, 1] - ![1, 0]) = 2 := by
  refine ⟨by simp [labelsOf], rfl, ?_⟩
  show ∑ i, |(![0, 1] - ![1, 0] : Fin 2 → ℝ) i| = 2
  norm_num [Fin.sum_univ_two]

end Verif.Props
