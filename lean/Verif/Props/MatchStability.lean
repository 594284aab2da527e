import Mathlib.Analysis.Normed.Module.FiniteDimension
import Verif.Props.Stability

/-!
# C137: the error of DFy, DFX and FriedmanME
-/

namespace Verif.Props

open Verif.Model Verif.Spec Verif.Proof

/-- The distance that is minimised with each name of the argument `distance`; callables are not covered (`none`). -/
noncomputable def namedDistance {m : ℕ} : DfDistance m → Option ((Fin m → ℝ) → (Fin m → ℝ) → ℝ)
  | .l1 => some totalError
  | .l2 => some euclidean
  | .hd => some hellingerDist
  | .fn _ => none

/-- What it takes for an exact solution: nothing for 'L1', independent columns for 'L2', columns with the same total for 'HD'. -/
def Solvable {m n : ℕ} (distance : DfDistance m) (T : Matrix (Fin m) (Fin n) ℝ) : Prop :=
  match distance with
  | .l1 => True
  | .hd => ∃ s, ∀ j, ∑ i, T i j = s
  | .l2 => ∀ x : Fin n → ℝ, (∀ i, ∑ j, T i j * x j = 0) → x = 0
  | .fn _ => False

theorem namedDistance_metric {m : ℕ} {distance : DfDistance m} {D : (Fin m → ℝ) → (Fin m → ℝ) → ℝ} (h : namedDistance distance = some D) :
    (∀ v w, D v w = D w v) ∧ ∀ u v w, D u w ≤ D u v + D v w := by
  cases distance with
  | fn d => cases h
  | l1 =>
    obtain rfl := Option.some.inj h
    exact ⟨fun v w => by unfold totalError; simp_rw [abs_sub_comm], fun u v w => l1_triangle u v w⟩
  | l2 =>
    obtain rfl := Option.some.inj h
    exact ⟨fun v w => by unfold euclidean; congr 1; exact Finset.sum_congr rfl fun k _ => by ring, fun u v w => l2_triangle u v w⟩
  | hd =>
    obtain rfl := Option.some.inj h
    exact ⟨fun v w => by unfold hellingerDist; congr 1; exact Finset.sum_congr rfl fun k _ => by ring,
      fun u v w => l2_triangle (fun k => Real.sqrt (u k)) (fun k => Real.sqrt (v k)) fun k => Real.sqrt (w k)⟩

/-- The solvers return the closest mixture. -/
theorem matchAnswer_closest (sv : CvxSolver) (hsv : ExactCvx sv) (qp : QPSolver) (hqp : ExactQP qp) {F : Type} {m nc : ℕ} (hn : 0 < nc) (la : LinAlg nc) (hla : ExactLinAlg la) (fuel : ℕ) (tol : ℝ)
    (distance : DfDistance m) {D : (Fin m → ℝ) → (Fin m → ℝ) → ℝ} (hD : namedDistance distance = some D) (f : F) (T : Matrix (Fin m) (Fin nc) ℝ) (hT : ∀ k j, 0 ≤ T k j) (hd : Solvable distance T)
    (q : Fin m → ℝ) (hq : ∀ k, 0 ≤ q k) :
    ∃ par x, matchParams la (fuel + 1) distance T = .ok par ∧ (matchAnswer sv qp tol distance ⟨f, T, par, none, none⟩ q).2 = .ok (some (realList x))
      ∧ (∀ par', (distance = .l2 → par = some par') → dfSolve sv qp tol distance T par' q = .ok (some ⟨_, x⟩)) ∧ IsPrev x ∧ ∀ p, IsPrev p → D q (mixtureOf T x) ≤ D q (mixtureOf T p) := by
  cases distance with
  | fn d => cases hD
  | l1 =>
    obtain rfl := Option.some.inj hD
    obtain ⟨pr, x, h1, -, hx, hopt⟩ := C73_solve_l1_optimal sv hsv hn T q hq none
    simp only [Option.map_none] at h1
    refine ⟨none, x, rfl, ?_, fun par' _ => ?_, hx, hopt⟩
    · simp only [matchAnswer, h1]
    · simp only [dfSolve, h1, Except.map]
  | hd =>
    obtain rfl := Option.some.inj hD
    obtain ⟨s, hs⟩ := hd
    obtain ⟨pr, x, h1, -, hx, hopt⟩ := C73_solve_hd_optimal sv hsv hn T q hq hT s hs none
    simp only [Option.map_none] at h1
    refine ⟨none, x, rfl, ?_, fun par' _ => ?_, hx, fun p hp => Real.sqrt_le_sqrt (hopt p hp)⟩
    · simp only [matchAnswer, h1]
    · simp only [dfSolve, h1, Except.map]
  | l2 =>
    obtain rfl := Option.some.inj hD
    obtain ⟨par, x, h1, h2, hx, hopt⟩ := C26_l2_exact qp hqp la hla hn T q fuel fun x hx => hd x fun i => congrFun hx i
    refine ⟨some par, x, by simp only [matchParams, h1], ?_, fun par' h => ?_, hx, fun p hp => Real.sqrt_le_sqrt ?_⟩
    · simp only [matchAnswer, h2, Except.map]
    · obtain rfl := Option.some.inj (h rfl)
      simp only [dfSolve, h2, Except.map]
    · refine le_of_eq_of_le (Finset.sum_congr rfl fun k _ => ?_) ((hopt p hp).trans (le_of_eq (Finset.sum_congr rfl fun k _ => ?_)))
      · unfold mixtureOf; ring
      · unfold mixtureOf; ring

/-- The closest mixture has at most twice the distance between the representation and any other mixture. -/
theorem closest_error {m n : ℕ} {distance : DfDistance m} {D : (Fin m → ℝ) → (Fin m → ℝ) → ℝ} (hD : namedDistance distance = some D) {T : Fin m → Fin n → ℝ} {κ : ℝ} (hκ0 : 0 ≤ κ) (hκ : MixturesTellApart D T κ)
    {q : Fin m → ℝ} {x p : Fin n → ℝ} (hx : IsPrev x) (hp : IsPrev p) (hopt : D q (mixtureOf T x) ≤ D q (mixtureOf T p)) : totalError x p ≤ 2 * κ * D q (mixtureOf T p) := by
  obtain ⟨hsym, htri⟩ := namedDistance_metric hD
  have h1 := htri (mixtureOf T x) q (mixtureOf T p)
  rw [hsym (mixtureOf T x) q] at h1
  calc totalError x p ≤ κ * D (mixtureOf T x) (mixtureOf T p) := hκ x p hx hp
    _ ≤ κ * (2 * D q (mixtureOf T p)) := mul_le_mul_of_nonneg_left (by linarith) hκ0
    _ = 2 * κ * D q (mixtureOf T p) := by ring

/-- The representations of the classes and of a bag have no negative entries. -/
theorem df_nonneg {α : Type} [LinearOrder α] (ppf : ℝ → EReal) {D : Type*} {nd : ℕ} (kind : CumKind) (cfg : DfCfg) (range : Option (ℝ × ℝ)) (att : Fin nd → D → ℝ) (y yE : List α) (hy : y ≠ [])
    (rows : List D) (fit : DfFit nd cfg.nBins (labelsOf y).length) (hfit : dfFit ppf kind cfg range att (labelsOf y) y yE rows = .ok fit) (bag : List D) :
    (∀ i c, 0 ≤ fit.train i c) ∧ ∃ q, dfTest kind cfg att fit bag = .ok q ∧ ∀ i, 0 ≤ q i := by
  unfold dfFit at hfit
  split at hfit
  · cases hfit
  · rename_i cuts hcuts
    split_ifs at hfit with hlen
    split at hfit
    · cases hfit
    · rename_i v hv
      rw [not_not] at hlen
      cases hfit
      have hv' := (seqFin_ok _ _).1 hv
      have hpos : 0 < (labelsOf y).length := labels_pos y hy
      have hm : ∀ d, Monotone (cuts d) := fun d => histBlocks_mono (hv' ⟨0, hpos⟩) d
      have hnn : ∀ (l : List D) d b, 0 ≤ (l.map fun r => binInd (cuts d) b (att d r)).sum / (l.length : ℝ) := by
        intro l d b
        refine div_nonneg (List.sum_nonneg fun x hx => ?_) (Nat.cast_nonneg _)
        obtain ⟨r, -, rfl⟩ := List.mem_map.1 hx
        exact binInd_nonneg _ (hm d) _ _
      have he : ∀ c, v c = fun d b => ((selectRows yE rows (labelsOf y)[c]).map fun r => binInd (cuts d) b (att d r)).sum / (selectRows yE rows (labelsOf y)[c]).length := by
        intro c
        have := histBlocks_eq att cuts hm (selectRows yE rows (labelsOf y)[c])
        rw [hv' c] at this
        exact Except.ok.inj this
      refine ⟨fun i c => accumulate_nonneg kind cfg.f _ (fun d b => ?_) i, _, dfTest_eq kind cfg att _ hm _, fun i => accumulate_nonneg kind cfg.f _ (fun d b => hnn _ d b) i⟩
      rw [he]
      exact hnn _ d b

/-! ## The constants exist -/

/-- Two prevalences that differ by a multiple of `d`. -/
theorem identifiable_ker {m n : ℕ} {T : Matrix (Fin m) (Fin n) ℝ} (h : Identifiable T) (d : Fin n → ℝ) (hs : ∑ j, d j = 0) (hT : ∀ k, ∑ j, T k j * d j = 0) : d = 0 := by
  rcases Nat.eq_zero_or_pos n with rfl | hn
  · exact funext fun j => j.elim0
  have hn' : (0 : ℝ) < n := Nat.cast_pos.2 hn
  set S := ∑ j, |d j| with hS
  have hS0 : 0 ≤ S := Finset.sum_nonneg fun j _ => abs_nonneg _
  set ε : ℝ := 1 / (n * (S + 1)) with hε
  have hε0 : 0 < ε := by positivity
  have hle : ∀ j, |ε * d j| ≤ 1 / n := by
    intro j
    have h1 : |d j| ≤ S := Finset.single_le_sum (f := fun j => |d j|) (fun j _ => abs_nonneg _) (Finset.mem_univ j)
    rw [abs_mul, abs_of_pos hε0, hε, div_mul_eq_mul_div, one_mul, div_le_div_iff₀ (by positivity) hn']
    nlinarith
  have := h (fun _ => 1 / n) (fun j => 1 / n + ε * d j) ⟨fun _ => by positivity, by simp [hn.ne']⟩
    ⟨fun j => by have := neg_le_of_abs_le (hle j); linarith, by rw [Finset.sum_add_distrib, ← Finset.mul_sum, hs]; simp [hn.ne']⟩
    fun k => by
      have : ∑ j, T k j * (1 / n + ε * d j) = ∑ j, T k j * (1 / n) + ε * ∑ j, T k j * d j := by
        rw [Finset.mul_sum, ← Finset.sum_add_distrib]
        exact Finset.sum_congr rfl fun j _ => by ring
      rw [this, hT k, mul_zero, add_zero]
  funext j
  have hj := congrFun this j
  simp only [Pi.zero_apply]
  have : ε * d j = 0 := by linarith
  exact (mul_eq_zero.1 this).resolve_left hε0.ne'

/-- A map that sends no vector with sum 0 to 0 stretches them all by at least a fixed factor. -/
theorem ker_bound {m n : ℕ} (T : Fin m → Fin n → ℝ) (h : ∀ d : Fin n → ℝ, ∑ j, d j = 0 → (∀ k, ∑ j, T k j * d j = 0) → d = 0) :
    ∃ K : ℝ, 0 ≤ K ∧ ∀ d : Fin n → ℝ, ∑ j, d j = 0 → ∑ j, |d j| ≤ K * ∑ k, |∑ j, T k j * d j| := by
  let L : (Fin n → ℝ) →ₗ[ℝ] (Fin m → ℝ) × ℝ := LinearMap.prod (Matrix.mulVecLin (Matrix.of T)) (∑ j, LinearMap.proj j)
  have hL : ∀ d, L d = (fun k => ∑ j, T k j * d j, ∑ j, d j) := by
    intro d
    simp only [L, LinearMap.prod_apply, Function.prod, Matrix.mulVecLin_apply, LinearMap.sum_apply, LinearMap.proj_apply]
    rfl
  obtain ⟨K, -, hK⟩ := L.exists_antilipschitzWith (by
    rw [LinearMap.ker_eq_bot']
    intro d hd
    rw [hL, Prod.mk_eq_zero] at hd
    exact h d hd.2 fun k => congrFun hd.1 k)
  refine ⟨n * K, by positivity, fun d hd => ?_⟩
  have h1 : ‖d‖ ≤ K * ‖L d‖ := by simpa [dist_zero_right] using hK.le_mul_dist d 0
  have h2 : ‖L d‖ ≤ ∑ k, |∑ j, T k j * d j| := by
    rw [hL, hd, Prod.norm_def]
    have h0 : 0 ≤ ∑ k, |∑ j, T k j * d j| := Finset.sum_nonneg fun k _ => abs_nonneg _
    refine max_le ((pi_norm_le_iff_of_nonneg h0).2 fun k => ?_) (by simpa using h0)
    exact Finset.single_le_sum (f := fun k => |∑ j, T k j * d j|) (fun k _ => abs_nonneg _) (Finset.mem_univ k)
  calc ∑ j, |d j| ≤ ∑ _j : Fin n, ‖d‖ := Finset.sum_le_sum fun j _ => norm_le_pi_norm d j
    _ = n * ‖d‖ := by simp
    _ ≤ n * (K * ∑ k, |∑ j, T k j * d j|) := mul_le_mul_of_nonneg_left (h1.trans (mul_le_mul_of_nonneg_left h2 K.2)) (Nat.cast_nonneg n)
    _ = _ := by ring

/-- **C135**: a constant exists whenever the matrix of the rates is invertible. -/
theorem C135_constant {n : ℕ} (M : Matrix (Fin n) (Fin n) ℝ) (h : M.det ≠ 0) : ∃ κ, 0 ≤ κ ∧ TellsApart M κ := by
  obtain ⟨K, hK, hb⟩ := ker_bound (fun j i => M i j) fun d _ hd => by
    by_contra hne
    refine h (Matrix.exists_vecMul_eq_zero_iff.1 ⟨d, hne, funext fun j => ?_⟩)
    exact (Finset.sum_congr rfl fun i _ => mul_comm _ _).trans (hd j)
  refine ⟨K, hK, fun p q hpq => ?_⟩
  refine (hb (fun i => p i - q i) (by rw [Finset.sum_sub_distrib, hpq, sub_self])).trans (mul_le_mul_of_nonneg_left (le_of_eq ?_) hK)
  refine Finset.sum_congr rfl fun j _ => ?_
  unfold expectedPreds
  rw [← Finset.sum_sub_distrib]
  congr 1
  exact Finset.sum_congr rfl fun i _ => by ring

/-- The sum of absolute differences is at most a multiple of the distance that is minimised, for mixtures of `T`. -/
theorem l1_le_named {m n : ℕ} {distance : DfDistance m} {D : (Fin m → ℝ) → (Fin m → ℝ) → ℝ} (hD : namedDistance distance = some D) (T : Fin m → Fin n → ℝ) (hT : ∀ k j, 0 ≤ T k j) :
    ∃ C : ℝ, 0 ≤ C ∧ ∀ p q, IsPrev p → IsPrev q → totalError (mixtureOf T p) (mixtureOf T q) ≤ C * D (mixtureOf T p) (mixtureOf T q) := by
  have euc : ∀ v w : Fin m → ℝ, ∀ k, |v k - w k| ≤ Real.sqrt (∑ k, (v k - w k) ^ 2) := fun v w k =>
    Real.abs_le_sqrt (Finset.single_le_sum (f := fun k => (v k - w k) ^ 2) (fun k _ => sq_nonneg _) (Finset.mem_univ k))
  cases distance with
  | fn d => cases hD
  | l1 =>
    obtain rfl := Option.some.inj hD
    exact ⟨1, zero_le_one, fun p q _ _ => (one_mul _).ge⟩
  | l2 =>
    obtain rfl := Option.some.inj hD
    refine ⟨m, Nat.cast_nonneg m, fun p q _ _ => ?_⟩
    refine (Finset.sum_le_sum fun k _ => euc _ _ k).trans_eq ?_
    simp [euclidean]
  | hd =>
    obtain rfl := Option.some.inj hD
    set B := ∑ k, ∑ j, T k j with hB
    have hB0 : 0 ≤ B := Finset.sum_nonneg fun k _ => Finset.sum_nonneg fun j _ => hT k j
    have hmix : ∀ p, IsPrev p → ∀ k, 0 ≤ mixtureOf T p k ∧ Real.sqrt (mixtureOf T p k) ≤ Real.sqrt B := by
      intro p hp k
      refine ⟨Finset.sum_nonneg fun j _ => mul_nonneg (hT k j) (hp.1 j), Real.sqrt_le_sqrt ?_⟩
      have h1 : mixtureOf T p k ≤ ∑ j, T k j := Finset.sum_le_sum fun j _ => by
        have : p j ≤ 1 := (Finset.single_le_sum (f := p) (fun j _ => hp.1 j) (Finset.mem_univ j)).trans_eq hp.2
        exact mul_le_of_le_one_right (hT k j) this
      exact h1.trans (Finset.single_le_sum (f := fun k => ∑ j, T k j) (fun k _ => Finset.sum_nonneg fun j _ => hT k j) (Finset.mem_univ k))
    refine ⟨m * (2 * Real.sqrt B), by positivity, fun p q hp hq => ?_⟩
    have : ∀ k, |mixtureOf T p k - mixtureOf T q k| ≤ 2 * Real.sqrt B * hellingerDist (mixtureOf T p) (mixtureOf T q) := by
      intro k
      obtain ⟨p0, pB⟩ := hmix p hp k
      obtain ⟨q0, qB⟩ := hmix q hq k
      have e : mixtureOf T p k - mixtureOf T q k = (Real.sqrt (mixtureOf T p k) + Real.sqrt (mixtureOf T q k)) * (Real.sqrt (mixtureOf T p k) - Real.sqrt (mixtureOf T q k)) := by
        have h1 := Real.mul_self_sqrt p0
        have h2 := Real.mul_self_sqrt q0
        ring_nf
        rw [Real.sq_sqrt p0, Real.sq_sqrt q0]
      rw [e, abs_mul, abs_of_nonneg (add_nonneg (Real.sqrt_nonneg _) (Real.sqrt_nonneg _))]
      exact mul_le_mul (by linarith) (euc (fun k => Real.sqrt (mixtureOf T p k)) (fun k => Real.sqrt (mixtureOf T q k)) k) (abs_nonneg _) (by positivity)
    refine (Finset.sum_le_sum fun k _ => this k).trans_eq ?_
    simp only [Finset.sum_const, Finset.card_univ, Fintype.card_fin, nsmul_eq_mul]
    ring

/-- **C137**: a constant exists, for the three distances, whenever different prevalences give different mixtures. -/
theorem C137_constant {m n : ℕ} {distance : DfDistance m} {D : (Fin m → ℝ) → (Fin m → ℝ) → ℝ} (hD : namedDistance distance = some D) (T : Fin m → Fin n → ℝ) (hT : ∀ k j, 0 ≤ T k j) (h : Identifiable T) :
    ∃ κ, 0 ≤ κ ∧ MixturesTellApart D T κ := by
  obtain ⟨C, hC, hl1⟩ := l1_le_named hD T hT
  obtain ⟨K, hK, hb⟩ := ker_bound T fun d hs hd => identifiable_ker h d hs hd
  refine ⟨K * C, mul_nonneg hK hC, fun p q hp hq => ?_⟩
  have h1 : totalError p q ≤ K * totalError (mixtureOf T p) (mixtureOf T q) := by
    refine (hb (fun i => p i - q i) (by rw [Finset.sum_sub_distrib, hp.2, hq.2, sub_self])).trans (mul_le_mul_of_nonneg_left (le_of_eq ?_) hK)
    refine Finset.sum_congr rfl fun k _ => ?_
    unfold mixtureOf
    rw [← Finset.sum_sub_distrib]
    congr 1
    exact Finset.sum_congr rfl fun i _ => by ring
  exact h1.trans ((mul_le_mul_of_nonneg_left (hl1 p q hp hq) hK).trans_eq (mul_assoc _ _ _).symm)

section
variable {σ D α : Type} {k : ℕ} [LinearOrder α] (enc : Bool → α) (w : World σ D α) (et et' : Option ℕ) (X Xt : List D) (y : List α) (hy : y ≠ []) (r : ℕ) (hr : 0 < r)
include hy hr

omit hr in
/-- DFy returns the prevalences of the closest mixture. -/
theorem dfy_closest (ops : EstOps σ D α (labelsOf y).length) (sv : CvxSolver) (hsv : ExactCvx sv) (qp : QPSolver) (hqp : ExactQP qp) (ppf : ℝ → EReal) (la : LinAlg (labelsOf y).length) (hla : ExactLinAlg la) (fuel : ℕ) (tol : ℝ)
    (cfg : DfCfg) (distance : DfDistance (nDescriptors (labelsOf y).length * cfg.nBins)) {dist : (Fin (nDescriptors (labelsOf y).length * cfg.nBins) → ℝ) → (Fin (nDescriptors (labelsOf y).length * cfg.nBins) → ℝ) → ℝ}
    (hD : namedDistance distance = some dist) (P : List (Fin (labelsOf y).length → ℝ)) (hP : P.length = r * y.length)
    (fit : DfFit (nDescriptors (labelsOf y).length) cfg.nBins (labelsOf y).length) (hfit : dfyFit ppf cfg (labelsOf y) y (stacked y r) P = .ok fit) (hd : Solvable distance fit.train)
    (bag : List (Fin (labelsOf y).length → ℝ)) :
    ∃ q x, dfyTest cfg fit bag = .ok q ∧ ucRun ops enc w ⟨dfyClass ppf sv qp la (fuel + 1) tol cfg distance, et, et'⟩ X y (some (.probs P)) Xt (some (.probs bag)) = .ok (some (realList x)) ∧ IsPrev x
      ∧ ∀ p, IsPrev p → dist q (mixtureOf fit.train x) ≤ dist q (mixtureOf fit.train p) := by
  obtain ⟨h0, q, hq, hq0⟩ := df_nonneg ppf .whole cfg (some (0, 1)) _ y (stacked y r) hy P fit hfit bag
  obtain ⟨par, x, hpar, hval, -, hx, hopt⟩ := matchAnswer_closest sv hsv qp hqp (labels_pos y hy) la hla fuel tol distance hD fit fit.train h0 hd q hq0
  refine ⟨q, x, hq, ?_, hx, hopt⟩
  rw [ucRun_given_probs ops enc w X Xt y (dfyClass ppf sv qp la (fuel + 1) tol cfg distance) rfl rfl et et' hy r P _ hP]
  have h1' : dfFit ppf .whole cfg (some (0, 1)) (dfyAtt (npUnique y).length) (npUnique y) y (stacked y r) P = .ok fit := hfit
  refine Eq.trans ?_ hval
  change answerOn (dfyClass (k := (npUnique y).length) ppf sv qp la (fuel + 1) tol cfg distance) y r (.probs P) (.probs bag) = _
  simp only [answerOn, learnAnswer, fittedState, dfyClass, trainData, probRows, columnsAre_self, if_true, bind, Except.bind]
  simp only [h1', Fin.cast_eq_self]
  have h2 : matchParams la (fuel + 1) distance (fun i c => fit.train i c) = .ok par := hpar
  erw [h2]
  simp only [pure, Except.pure]
  have : dfyTest cfg (⟨fit.cuts, fun i c => fit.train i c⟩ : DfFit (nDescriptors (npUnique y).length) cfg.nBins (npUnique y).length) bag = .ok q := hq
  simp only [this]
  rfl

/-- **C137** for DFy (and HDy, MMy): for every bag and all prevalences `p`, the answer is a vector of prevalences whose distance to `p` is at most `2 κ` times the distance between the representation of the bag and the
mixture of the representations of the classes with prevalences `p`. -/
theorem C137_dfy (ops : EstOps σ D α (labelsOf y).length) (sv : CvxSolver) (hsv : ExactCvx sv) (qp : QPSolver) (hqp : ExactQP qp) (ppf : ℝ → EReal) (la : LinAlg (labelsOf y).length) (hla : ExactLinAlg la) (fuel : ℕ) (tol : ℝ)
    (cfg : DfCfg) (distance : DfDistance (nDescriptors (labelsOf y).length * cfg.nBins)) {dist : (Fin (nDescriptors (labelsOf y).length * cfg.nBins) → ℝ) → (Fin (nDescriptors (labelsOf y).length * cfg.nBins) → ℝ) → ℝ}
    (hD : namedDistance distance = some dist) (P : List (Fin (labelsOf y).length → ℝ)) (hP : P.length = r * y.length)
    (fit : DfFit (nDescriptors (labelsOf y).length) cfg.nBins (labelsOf y).length) (hfit : dfyFit ppf cfg (labelsOf y) y (stacked y r) P = .ok fit) (hd : Solvable distance fit.train)
    (κ : ℝ) (hκ0 : 0 ≤ κ) (hκ : MixturesTellApart dist fit.train κ) (bag : List (Fin (labelsOf y).length → ℝ)) (_hne : bag ≠ []) :
    ∃ q x, dfyTest cfg fit bag = .ok q ∧ ucRun ops enc w ⟨dfyClass ppf sv qp la (fuel + 1) tol cfg distance, et, et'⟩ X y (some (.probs P)) Xt (some (.probs bag)) = .ok (some (realList x)) ∧ IsPrev x
      ∧ ∀ p, IsPrev p → totalError x p ≤ 2 * κ * dist q (mixtureOf fit.train p) := by
  obtain ⟨q, x, hq, h1, hx, hopt⟩ := dfy_closest enc w et et' X Xt y hy r ops sv hsv qp hqp ppf la hla fuel tol cfg distance hD P hP fit hfit hd bag
  exact ⟨q, x, hq, h1, hx, fun p hp => closest_error hD hκ0 hκ hx hp (hopt p hp)⟩

/-- FriedmanME returns the prevalences of the closest mixture. -/
theorem friedman_closest (ops : EstOps σ D α (labelsOf y).length) (sv : CvxSolver) (hsv : ExactCvx sv) (qp : QPSolver) (hqp : ExactQP qp) (la : LinAlg (labelsOf y).length) (hla : ExactLinAlg la) (fuel : ℕ) (tol : ℝ)
    (distance : DfDistance (labelsOf y).length) {dist : (Fin (labelsOf y).length → ℝ) → (Fin (labelsOf y).length → ℝ) → ℝ} (hD : namedDistance distance = some dist)
    (P : List (Fin (labelsOf y).length → ℝ)) (hP : P.length = r * y.length) (T : Fin (labelsOf y).length → Fin (labelsOf y).length → ℝ)
    (hT : T = fun i c => reachShare i (freq y (labelsOf y)[i]) (ofClass ((stacked y r).zip P) (labelsOf y)[c])) (hd : Solvable distance T) (bag : List (Fin (labelsOf y).length → ℝ))  :
    ∃ x, ucRun ops enc w ⟨friedmanClass sv qp la (fuel + 1) tol distance, et, et'⟩ X y (some (.probs P)) Xt (some (.probs bag)) = .ok (some (realList x)) ∧ IsPrev x
      ∧ ∀ p, IsPrev p → dist (fun i => reachShare i (freq y (labelsOf y)[i]) bag) (mixtureOf T x) ≤ dist (fun i => reachShare i (freq y (labelsOf y)[i]) bag) (mixtureOf T p) := by
  have hl : (stacked y r).length = P.length := by rw [stacked_length, hP]
  obtain ⟨fit, h1, -, h2, h3, -⟩ := C54_friedman (labelsOf y) y (stacked y r) P hl (labelsOf_nodup' y) fun a => ((mem_labelsOf' y a).trans (stacked_mem_iff y r hr a).symm)
  have hT' : fit.train = T := by
    rw [hT]
    funext i c
    exact (h2 i c).1
  subst hT'
  obtain ⟨par, x, hpar, hval, -, hx, hopt⟩ := matchAnswer_closest sv hsv qp hqp (labels_pos y hy) la hla fuel tol distance hD fit fit.train (fun i c => (h2 i c).2.1) hd (friedmanTest fit bag)
    fun i => by rw [h3]; exact (reachShare_mem _ _ _).1
  have hq : friedmanTest fit bag = fun i => reachShare i (freq y (labelsOf y)[i]) bag := funext fun i => h3 bag i
  refine ⟨x, ?_, hx, fun p hp => hq ▸ hopt p hp⟩
  rw [ucRun_given_probs ops enc w X Xt y (friedmanClass sv qp la (fuel + 1) tol distance) rfl rfl et et' hy r P _ hP]
  refine Eq.trans ?_ hval
  change answerOn (friedmanClass (k := (npUnique y).length) sv qp la (fuel + 1) tol distance) y r (.probs P) (.probs bag) = _
  have h1' : friedmanFit (npUnique y) y (stacked y r) P = .ok fit := h1
  simp only [answerOn, learnAnswer, fittedState, friedmanClass, trainData, probRows, columnsAre_self, if_true, bind, Except.bind]
  simp only [Fin.cast_eq_self]
  have h3' : List.map (fun (r : Fin (npUnique y).length → ℝ) j => r j) P = P := List.map_id P
  rw [h3', h1']
  dsimp only
  have h2' : matchParams la (fuel + 1) distance (fun i c => fit.train i c) = .ok par := hpar
  erw [h2']
  rfl

/-- **C137** for FriedmanME. -/
theorem C137_friedman (ops : EstOps σ D α (labelsOf y).length) (sv : CvxSolver) (hsv : ExactCvx sv) (qp : QPSolver) (hqp : ExactQP qp) (la : LinAlg (labelsOf y).length) (hla : ExactLinAlg la) (fuel : ℕ) (tol : ℝ)
    (distance : DfDistance (labelsOf y).length) {dist : (Fin (labelsOf y).length → ℝ) → (Fin (labelsOf y).length → ℝ) → ℝ} (hD : namedDistance distance = some dist)
    (P : List (Fin (labelsOf y).length → ℝ)) (hP : P.length = r * y.length) (T : Fin (labelsOf y).length → Fin (labelsOf y).length → ℝ)
    (hT : T = fun i c => reachShare i (freq y (labelsOf y)[i]) (ofClass ((stacked y r).zip P) (labelsOf y)[c])) (hd : Solvable distance T)
    (κ : ℝ) (hκ0 : 0 ≤ κ) (hκ : MixturesTellApart dist T κ) (bag : List (Fin (labelsOf y).length → ℝ)) (_hne : bag ≠ []) :
    ∃ x, ucRun ops enc w ⟨friedmanClass sv qp la (fuel + 1) tol distance, et, et'⟩ X y (some (.probs P)) Xt (some (.probs bag)) = .ok (some (realList x)) ∧ IsPrev x
      ∧ ∀ p, IsPrev p → totalError x p ≤ 2 * κ * dist (fun i => reachShare i (freq y (labelsOf y)[i]) bag) (mixtureOf T p) := by
  obtain ⟨x, h1, hx, hopt⟩ := friedman_closest enc w et et' X Xt y hy r hr ops sv hsv qp hqp la hla fuel tol distance hD P hP T hT hd bag
  exact ⟨x, h1, hx, fun p hp => closest_error hD hκ0 hκ hx hp (hopt p hp)⟩

/-- ACOrdinal returns the prevalences of the closest mixture of accumulated frequencies. -/
theorem aco_closest (ops : EstOps σ D α k) (sv : CvxSolver) (hsv : ExactCvx sv) (P : List α) (hP : P.length = r * y.length) (hPy : ∀ a ∈ P, a ∈ y)
    (T : Fin (labelsOf y).length → Fin (labelsOf y).length → ℝ) (hT : T = fun i j => ∑ l, if l ≤ i then condFreq (stacked y r) P (labelsOf y)[j] (labelsOf y)[l] else 0) (Q : List α) (hbne : Q ≠ []) :
    ∃ x, ucRun ops enc w ⟨acoClass sv, et, et'⟩ X y (some (.crisp P)) Xt (some (.crisp Q)) = .ok (some (realList x)) ∧ IsPrev x
      ∧ ∀ p, IsPrev p → totalError (fun i => ∑ l, if l ≤ i then freq Q (labelsOf y)[l] else 0) (mixtureOf T x) ≤ totalError (fun i => ∑ l, if l ≤ i then freq Q (labelsOf y)[l] else 0) (mixtureOf T p) := by
  have hl : (stacked y r).length = P.length := by rw [stacked_length, hP]
  subst hT
  have hcm : confusionMatrix (npUnique y) (stacked y r) P = .ok fun i j => ((stacked y r).zip P).count ((npUnique y)[i], (npUnique y)[j]) := by
    unfold confusionMatrix
    rw [if_pos (by rw [stacked_length, hP])]
  have hnr : (normalizeRows fun i j : Fin (npUnique y).length => ((stacked y r).zip P).count ((npUnique y)[i], (npUnique y)[j])) = fun i j => Fl.fin (cmReal y r P i j) := normalizeRows_eq y r hr P hP hPy
  have htest : accumArr (classFreqs (npUnique y) Q) = fun i => Fl.fin (cumsum (freqs (npUnique y) Q) i) := by rw [classFreqs_fin _ _ hbne, accumArr_fin]
  have htr : ∀ i j : Fin (npUnique y).length, accumArr (fun l : Fin (npUnique y).length => Fl.fin (cmReal y r P j l)) i = Fl.fin (cumsum (fun l => cmReal y r P j l) i) := fun i j => congrFun (accumArr_fin (cmReal y r P j)) i
  have hfin : (∀ i j : Fin (npUnique y).length, flFinite (accumArr (fun l : Fin (npUnique y).length => Fl.fin (cmReal y r P j l)) i)) ∧ ∀ i, flFinite (accumArr (classFreqs (npUnique y) Q) i) := by
    refine ⟨fun i j => ?_, fun i => ?_⟩
    · rw [htr]; trivial
    · rw [htest]; trivial
  have hvec : (fun i => flReal (accumArr (classFreqs (npUnique y) Q) i)) = fun i => cumsum (freqs (npUnique y) Q) i := by
    funext i
    rw [htest]
    rfl
  have hmat : (fun i j => flReal (accumArr (fun l : Fin (npUnique y).length => Fl.fin (cmReal y r P j l)) i)) = fun i j => cumsum (fun l => cmReal y r P j l) i := by
    funext i j
    exact congrArg flReal (htr i j)
  have e : answerOn (k := k) (acoClass sv) y r (.crisp P) (.crisp Q)
      = (acoSolve sv ⟨⟨npUnique y, fun i j => Fl.fin (cmReal y r P i j), fun i j => accumArr (fun l => Fl.fin (cmReal y r P j l)) i⟩, none⟩ (accumArr (classFreqs (npUnique y) Q))).2 := by
    simp only [answerOn, learnAnswer, fittedState, acoClass, trainData, crispLabels, if_true, bind, Except.bind, hcm, pure, Except.pure, hnr]
    exact congrArg Prod.snd (dif_neg (not_not.2 rfl))
  obtain ⟨pr, x, h1, -, hx, hopt⟩ := C73_solve_l1_optimal sv hsv (labels_pos y hy) (fun i j : Fin (labelsOf y).length => cumsum (fun l => cmReal y r P j l) i) (fun i => cumsum (freqs (npUnique y) Q) i)
    (fun i => cumsum_nonneg _ (fun l => by unfold freqs freq; positivity) i) none
  refine ⟨x, ?_, hx, fun p hp => hopt p hp⟩
  rw [ucRun_given_crisp ops enc w X Xt y (acoClass sv) rfl rfl et et' hy r P _ hP]
  rw [e]
  simp only [acoSolve, warmPredict]
  erw [if_pos hfin]
  simp only [hvec]
  have h1' : solveCvx sv .l1 ⟨(npUnique y).length, (npUnique y).length, fun i j => flReal (accumArr (fun l : Fin (npUnique y).length => Fl.fin (cmReal y r P j l)) i)⟩
      ⟨(npUnique y).length, fun i => cumsum (freqs (npUnique y) Q) i⟩ none = .ok (pr, ⟨(npUnique y).length, x⟩) :=
    (congrArg (fun T => solveCvx sv .l1 ⟨(npUnique y).length, (npUnique y).length, T⟩ ⟨(npUnique y).length, fun i => cumsum (freqs (npUnique y) Q) i⟩ none) hmat).trans h1
  erw [h1']
  rfl

/-- **C137** for ACOrdinal, which compares accumulated frequencies with 'L1'. -/
theorem C137_aco (ops : EstOps σ D α k) (sv : CvxSolver) (hsv : ExactCvx sv) (P : List α) (hP : P.length = r * y.length) (hPy : ∀ a ∈ P, a ∈ y)
    (T : Fin (labelsOf y).length → Fin (labelsOf y).length → ℝ) (hT : T = fun i j => ∑ l, if l ≤ i then condFreq (stacked y r) P (labelsOf y)[j] (labelsOf y)[l] else 0)
    (κ : ℝ) (hκ0 : 0 ≤ κ) (hκ : MixturesTellApart totalError T κ) (Q : List α) (hbne : Q ≠ []) :
    ∃ x, ucRun ops enc w ⟨acoClass sv, et, et'⟩ X y (some (.crisp P)) Xt (some (.crisp Q)) = .ok (some (realList x)) ∧ IsPrev x
      ∧ ∀ p, IsPrev p → totalError x p ≤ 2 * κ * totalError (fun i => ∑ l, if l ≤ i then freq Q (labelsOf y)[l] else 0) (mixtureOf T p) := by
  obtain ⟨x, h1, hx, hopt⟩ := aco_closest enc w et et' X Xt y hy r hr ops sv hsv P hP hPy T hT Q hbne
  exact ⟨x, h1, hx, fun p hp => closest_error (distance := .l1) rfl hκ0 hκ hx hp (hopt p hp)⟩

end

/-- **C137** for DFX (and HDX, MMX...): `X` and the bag are rows of features. -/
theorem C137_dfx {α : Type} [LinearOrder α] {nf : ℕ} (y : List α) (hy : y ≠ []) (sv : CvxSolver) (hsv : ExactCvx sv) (qp : QPSolver) (hqp : ExactQP qp) (ppf : ℝ → EReal) (la : LinAlg (labelsOf y).length) (hla : ExactLinAlg la)
    (fuel : ℕ) (tol : ℝ) (cfg : DfCfg) (distance : DfDistance (nf * cfg.nBins)) {dist : (Fin (nf * cfg.nBins) → ℝ) → (Fin (nf * cfg.nBins) → ℝ) → ℝ} (hD : namedDistance distance = some dist)
    (X : List (Fin nf → ℝ)) (fit : DfFit nf cfg.nBins (labelsOf y).length) (hfit : dfxFit ppf cfg (labelsOf y) y X = .ok fit)
    (hd : Solvable distance fit.train) (par : QPParams (labelsOf y).length ((labelsOf y).length + 1)) (hpar : distance = .l2 → computeL2ParamTrain la (fuel + 1) fit.train = some par)
    (κ : ℝ) (hκ0 : 0 ≤ κ) (hκ : MixturesTellApart dist fit.train κ) (bag : List (Fin nf → ℝ)) (_hne : bag ≠ []) :
    ∃ q x, dfxTest cfg fit bag = .ok q ∧ dfSolve sv qp tol distance fit.train par q = .ok (some ⟨_, x⟩) ∧ IsPrev x
      ∧ ∀ p, IsPrev p → totalError x p ≤ 2 * κ * dist q (mixtureOf fit.train p) := by
  obtain ⟨h0, q, hq, hq0⟩ := df_nonneg ppf .perBlock cfg none _ y y hy X fit hfit bag
  obtain ⟨par', x, hpar', -, hsolve, hx, hopt⟩ := matchAnswer_closest sv hsv qp hqp (labels_pos y hy) la hla fuel tol distance hD fit fit.train h0 hd q hq0
  refine ⟨q, x, hq, ?_, hx, fun p hp => closest_error hD hκ0 hκ hx hp (hopt p hp)⟩
  refine hsolve par fun h => ?_
  subst h
  simp only [matchParams, hpar rfl] at hpar'
  exact (Except.ok.inj hpar').symm

/-- C137: the hypotheses are met with `κ = 1` by a classifier that is always right and 'L1'. -/
example : (fun i c : Fin 2 => reachShare i (freq [0, 1] ([0, 1].getD i 0)) (ofClass ((stacked [0, 1] 1).zip [![1, 0], ![0, 1]]) ([0, 1].getD c 0))) = ![![1, 0], ![0, 1]]
    ∧ Solvable (DfDistance.l1 : DfDistance 2) (fun i j => (![![1, 0], ![0, 1]] : Fin 2 → Fin 2 → ℝ) i j) ∧ MixturesTellApart totalError ![![1, 0], ![0, 1]] 1 := by
  refine ⟨?_, trivial, fun p q _ _ => ?_⟩
  · funext i c
    fin_cases i <;> fin_cases c <;> norm_num [reachShare, freq, ofClass, stacked]
  · simp [totalError, mixtureOf, Fin.sum_univ_two]

end Verif.Props
