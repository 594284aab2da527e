import Verif.Spec.SaysNothing
import Verif.Props.TrainInfluenceMatch
import Verif.Props.Sord
import Verif.Props.TrainOrder

/-!
# C172: predictions that say nothing about the class
-/

namespace Verif.Props

open Verif.Model Verif.Spec Verif.Proof Matrix MeasureTheory

section
variable {α : Type} {β : Type*} [LinearOrder α] (y : List α) (r : ℕ) (hr : 0 < r) (P : List β) (hP : P.length = r * y.length) (hs : SaysNothing ((stacked y r).zip P))
include hr hP hs

theorem nothing_freqs (i j : Fin (labelsOf y).length) : SameFrequencies (ofClass ((stacked y r).zip P) (labelsOf y)[i]) (ofClass ((stacked y r).zip P) (labelsOf y)[j]) := by
  have hl : (stacked y r).length = P.length := by rw [stacked_length, hP]
  have hmem : ∀ i : Fin (labelsOf y).length, (labelsOf y)[i] ∈ ((stacked y r).zip P).map Prod.fst := fun i => by
    rw [List.map_fst_zip (le_of_eq hl)]
    exact stacked_mem y r hr _ ((mem_labelsOf y _).1 (List.getElem_mem _))
  exact hs _ (hmem i) _ (hmem j)

theorem nothing_mean (i j : Fin (labelsOf y).length) (f : β → ℝ) : meanOf (ofClass ((stacked y r).zip P) (labelsOf y)[i]) f = meanOf (ofClass ((stacked y r).zip P) (labelsOf y)[j]) f :=
  (nothing_freqs y r hr P hP hs i j).average f

end

open Classical in
theorem binaryAdjust_none (cm : Fin 2 → Fin 2 → Fl) (p : Fin 2 → Fl) (hno : ¬ Fl.fin (1/1000) < (cm 1 1 - cm 0 1).abs) (hcl : ∀ i, (p i).clip01 = p i) : binaryAdjust cm p = if Fl.fin 0 < ∑ i, p i then fun i => p i / ∑ i, p i else p := by
  have hcl' : (fun i => (p i).clip01) = p := funext hcl
  unfold binaryAdjust
  dsimp only
  rw [if_neg hno, hcl']
  exact if_congr Iff.rfl (funext fun i => by rw [hcl i]) rfl

/-- Two classes and rows that are equal: no adjustment. -/
theorem adjust_flat (sol : Solvers) (dist : Dist) {n : ℕ} (h2 : n = 2) (M : Fin n → Fin n → ℝ) (hM : ∀ i i' j, M i j = M i' j) (p : Fin n → ℝ) (hp : IsPrev p) :
    adjust sol dist (fun i j => Fl.fin (M i j)) (fun i => Fl.fin (p i)) = .ok fun i => Fl.fin (p i) := by
  subst h2
  simp only [adjust]
  congr 1
  have hd : (Fl.fin (M 1 1) - Fl.fin (M 0 1)) = Fl.fin 0 := by
    rw [hM 1 0 1]
    show Fl.fin (M 0 1 - M 0 1) = _
    rw [sub_self]
  have h1 := hp.2
  rw [Fin.sum_univ_two] at h1
  have hcl : ∀ i, (Fl.fin (p i)).clip01 = Fl.fin (p i) := fun i => by
    have h0 := hp.1 i
    have h1' : p i ≤ 1 := by rw [← hp.2]; exact Finset.single_le_sum (fun j _ => hp.1 j) (Finset.mem_univ i)
    simp [Fl.clip01, h0, h1']
  have hsum : (∑ i, Fl.fin (p i)) = Fl.fin 1 := by
    rw [Fl.sum_fin, hp.2]
  rw [binaryAdjust_none _ _ (by rw [hd]; norm_num [Fl.abs]) hcl, hsum, if_pos (by norm_num)]
  funext i
  rw [Fl.fin_div _ (by norm_num), div_one]

/-- When all the losses are the same number there is no increasing point and the ends are equal. -/
theorem globalSearch_constant {M T : Type*} (dist : M → T → Fl) (mix : ℝ → M) (test : T) (tol v : ℝ) (h : ∀ p, dist (mix p) test = Fl.fin v) (ret : Bool) : globalSearch dist mix test tol none ret = .error .valueError := by
  have hscan : ∀ (search : ℝ → ℝ → Except Err (Fl × ℝ)) (is : List ℕ) (st : ℕ × Fl × Option ℝ), globalScan (fun i => dist (mix ((i : ℝ) / 100)) test) search is st = .ok st := by
    intro search is
    induction is with
    | nil => intro st; rfl
    | cons i is ih =>
      rintro ⟨a, b, c⟩
      unfold globalScan
      rw [if_neg (by simp only [h]; intro hh; exact absurd hh.1 (by simp)), ih]
  have hcore : ∀ search, globalCore (fun i => dist (mix ((i : ℝ) / 100)) test) search = .error .valueError := by
    intro search
    unfold globalCore
    rw [hscan]
    simp [h, Fl.eq]
  unfold globalSearch
  cases ret <;> simp only [hcore] <;> rfl

/-- When all the losses are the same number the golden section search goes to the right end. -/
theorem golden_constant (f : ℝ → Fl) (v tol a b : ℝ) (hf : ∀ p, f p = Fl.fin v) (hab : a < b) (htol : 0 < tol) :
    ∃ loss p, goldenSectionSearch f tol a b = .ok (loss, p) ∧ p ≤ b ∧ b - p ≤ tol / 2 := by
  have hb : ∀ k, ((goldenStep f)^[k] (goldenInit f a b)).b = b := by
    intro k
    induction k with
    | zero => rfl
    | succ k ih =>
      rw [Function.iterate_succ_apply']
      have hi := ginv_iter f a b hab k
      have hno : ¬ ((goldenStep f)^[k] (goldenInit f a b)).fc < ((goldenStep f)^[k] (goldenInit f a b)).fd := by rw [hi.fc, hi.fd, hf, hf]; simp
      generalize (goldenStep f)^[k] (goldenInit f a b) = s at ih hno
      unfold goldenStep
      rw [if_neg hno]
      exact ih
  set k := (goldenSteps tol (b - a) - 1).toNat with hk
  have hi := ginv_iter f a b hab k
  have hw := golden_width tol a b hab htol
  rw [← hk] at hw
  set s := (goldenStep f)^[k] (goldenInit f a b) with hs
  have hbs : s.b = b := hb k
  have hh := hi.h_pos hab
  refine ⟨s.fd, (s.c + s.b) / 2, ?_, ?_, ?_⟩
  · unfold goldenSectionSearch
    rw [if_neg (by linarith), if_neg (not_le.2 (div_pos htol (by linarith)))]
    congr 1
    change goldenResult s = _
    unfold goldenResult
    rw [if_neg (by rw [hi.fc, hi.fd, hf, hf]; simp)]
  · have := hi.c_lt_d hab
    have := hi.d_lt_b hab
    linarith
  · have h1 := hi.c_eq
    have h2 := hi.h_eq
    have h3 := invphi2_eq
    have h4 := hi.h_pow
    rw [pow_succ] at hw
    have : invphi * s.h ≤ tol := by rw [h4]; linarith
    rw [h3] at h1
    nlinarith

/-- Columns that are equal: with 'L2' the answer is the uniform distribution. -/
theorem l2_flat {m n : ℕ} (qp : QPSolver) (hqp : ExactQP qp) (la : LinAlg n) (hla : ExactLinAlg la) (hn : 0 < n) (T : Matrix (Fin m) (Fin n) ℝ) (hT : ∀ i c c', T i c = T i c') (q : Fin m → ℝ) (fuel : ℕ) :
    ∃ par, computeL2ParamTrain la (fuel + 1) T = some par ∧ solveL2 qp T q par = .ok fun _ => 1 / n := by
  obtain ⟨par, p, h1, h2, hp, h4⟩ := C26_l2 qp hqp la hla hn T q fuel
  refine ⟨par, h1, ?_⟩
  rw [h2]
  congr 1
  have hn0 : (0:ℝ) < n := by exact_mod_cast hn
  have hu : IsPrev fun _ : Fin n => 1 / (n:ℝ) := ⟨fun _ => by positivity, by simp [hn0.ne']⟩
  have hloss : ∀ x : Fin n → ℝ, IsPrev x → l2Loss T q x = l2Loss T q fun _ : Fin n => 1 / (n:ℝ) := fun x hx => by
    have hm : ∀ z : Fin n → ℝ, IsPrev z → ∀ i, ∑ j, T i j * z j = T i ⟨0, hn⟩ := fun z hz i => by
      rw [Finset.sum_congr rfl fun j _ => by rw [hT i j ⟨0, hn⟩], ← Finset.mul_sum, hz.2, mul_one]
    unfold l2Loss
    simp only [hm _ hx, hm _ hu]
  rcases Nat.lt_or_ge 1 n with h | h
  · have hr : 0 < ridge la T := by
      unfold ridge
      rw [if_neg]
      · exact hla.spacing_pos _
      · intro hpd
        have hne : (Pi.single ⟨0, hn⟩ 1 - Pi.single ⟨1, h⟩ 1 : Fin n → ℝ) ≠ 0 := fun h0 => by
          have := congrFun h0 ⟨0, hn⟩
          simp at this
        have h0 : T *ᵥ (Pi.single ⟨0, hn⟩ 1 - Pi.single ⟨1, h⟩ 1) = 0 := by
          funext i
          rw [Matrix.mulVec_sub]
          simp [hT i ⟨0, hn⟩ ⟨1, h⟩]
        have := hpd.dotProduct_mulVec_pos hne
        rw [Matrix.smul_mulVec, ← Matrix.mulVec_mulVec, h0] at this
        simp at this
    have h5 := h4 _ hu
    rw [hloss p hp] at h5
    have h6 : ∑ i, p i ^ 2 ≤ ∑ i : Fin n, (1 / (n:ℝ)) ^ 2 := by nlinarith
    have h7 : ∑ i, (p i - 1 / n) ^ 2 = ∑ i, p i ^ 2 - ∑ i : Fin n, (1 / (n:ℝ)) ^ 2 := by
      have e : ∀ i, (p i - 1 / (n:ℝ)) ^ 2 = p i ^ 2 - 2 / n * p i + (1 / (n:ℝ)) ^ 2 := fun i => by ring
      simp only [e, Finset.sum_add_distrib, Finset.sum_sub_distrib, ← Finset.mul_sum, hp.2]
      simp only [Finset.sum_const, Finset.card_univ, Fintype.card_fin, nsmul_eq_mul]
      field_simp
      ring
    have h8 : ∑ i, (p i - 1 / n) ^ 2 ≤ 0 := by linarith
    have h9 := (Finset.sum_eq_zero_iff_of_nonneg fun i _ => sq_nonneg _).1 (le_antisymm h8 (Finset.sum_nonneg fun i _ => sq_nonneg _))
    funext i
    have := (pow_eq_zero_iff two_ne_zero).1 (h9 i (Finset.mem_univ i))
    linarith
  · obtain rfl : n = 1 := by omega
    funext i
    have := hp.2
    simp only [Fin.sum_univ_one] at this
    obtain rfl : i = 0 := Subsingleton.elim _ _
    rw [this]
    simp

/-- Average distances that are all equal: the energy methods answer with the last class. -/
theorem ed_flat {P : Type*} {n : ℕ} (hn : 0 < n) (qp : QPSolver) (hqp : ExactQP qp) (la : LinAlg n) (hla : ExactLinAlg la) (d : P → P → ℝ) (train : Fin (n + 1) → List P) (test : List P)
    (hK : ∀ i j i' j', edK d train i j = edK d train i' j') (hKt : ∀ i j, edKt d train test i = edKt d train test j) (fuel : ℕ) :
    ∃ par, computeEdParamTrain la (fuel + 1) (edK d train) = some par ∧ solveEd qp par (edA (edK d train) (edKt d train test)) = .ok (Pi.single (Fin.last n) 1) := by
  have hB : edB (edK d train) = 0 := by
    funext i j
    unfold edB
    simp only [hK _ _ 0 0]
    split_ifs
    · simp
      ring
    · simp
  have ha : edA (edK d train) (edKt d train test) = 0 := by
    funext i
    unfold edA
    simp only [hK _ _ 0 0, hKt _ 0]
    simp
  have h0 : ((2:ℝ) • edB (edK d train)) = 0 := by rw [hB, smul_zero]
  have hnot : ¬ (0 : Matrix (Fin n) (Fin n) ℝ).PosDef := fun h => by
    have := h.dotProduct_mulVec_pos (x := Pi.single ⟨0, hn⟩ 1) (fun h0 => by have := congrFun h0 ⟨0, hn⟩; simp at this)
    simp at this
  have hpd : ¬ isPd (0 : Matrix (Fin n) (Fin n) ℝ) = true := fun h => hnot ((isPd_iff _ (Matrix.transpose_zero)).1 h)
  have hmk := C75_nearest_pd_of_psd la hla (0 : Matrix (Fin n) (Fin n) ℝ) Matrix.PosSemidef.zero fuel
  rw [if_neg hpd, zero_add] at hmk
  unfold computeEdParamTrain
  rw [h0, hmk]
  refine ⟨_, rfl, ?_⟩
  unfold solveEd
  set pb : QP n (n + 1) := { G := la.spacing 0 • (1 : Matrix (Fin n) (Fin n) ℝ), a := edA (edK d train) (edKt d train test), C := fun i c => -Fin.cases (motive := fun _ => ℝ) 1 (fun j => -(if j = i then 1 else 0)) c, b := fun c => -Fin.cases (motive := fun _ => ℝ) 1 (fun _ => 0) c, meq := 0 } with hpb
  have hfeas : QPFeasible pb 0 := by
    intro c
    refine ⟨fun h => absurd h (Nat.not_lt_zero _), ?_⟩
    refine Fin.cases ?_ (fun j => ?_) c <;> simp [hpb]
  have hs := hla.spacing_pos 0
  obtain ⟨x, hx, -, hmin⟩ := hqp pb hn (by simpa [hpb] using (Matrix.PosDef.one (n := Fin n) (R := ℝ)).smul hs) ⟨0, hfeas⟩
  have hx0 : x = 0 := by
    have := hmin 0 hfeas
    simp only [qpObjective, hpb, ha, Matrix.smul_mulVec, Matrix.one_mulVec, dotProduct_smul, smul_eq_mul, zero_dotProduct, sub_zero, Matrix.mulVec_zero, dotProduct_zero, mul_zero] at this
    have h1 : x ⬝ᵥ x ≤ 0 := by nlinarith
    exact dotProduct_self_eq_zero.1 (le_antisymm h1 (by simp only [dotProduct]; exact Finset.sum_nonneg fun i _ => mul_self_nonneg _))
  have hx' : qp pb = .ok x := hx
  change Except.map _ (qp pb) = _
  rw [hx', hx0]
  simp only [Except.map]
  congr 1
  funext i
  refine Fin.lastCases ?_ (fun j => ?_) i
  · simp
  · simp [Fin.snoc_castSucc, (Fin.castSucc_lt_last j).ne]

section
variable {σ D α : Type} {k : ℕ} [LinearOrder α] (enc : Bool → α) (w : World σ D α) (et et' : Option ℕ) (X Xt : List D) (y : List α) (hy : y ≠ []) (r : ℕ) (hr : 0 < r)

/-- What DFy answers, in terms of the end of `predict`. -/
theorem dfy_run (hy : y ≠ []) (ops : EstOps σ D α (labelsOf y).length) (sv : CvxSolver) (qp : QPSolver) (ppf : ℝ → EReal) (la : LinAlg (labelsOf y).length) (fuel : ℕ) (tol : ℝ)
    (cfg : DfCfg) (distance : DfDistance (nDescriptors (labelsOf y).length * cfg.nBins)) (P : List (Fin (labelsOf y).length → ℝ)) (hP : P.length = r * y.length)
    (fit : DfFit (nDescriptors (labelsOf y).length) cfg.nBins (labelsOf y).length) (hfit : dfyFit ppf cfg (labelsOf y) y (stacked y r) P = .ok fit) (par : Option (QPParams (labelsOf y).length ((labelsOf y).length + 1)))
    (hpar : matchParams la fuel distance fit.train = .ok par) (bag : List (Fin (labelsOf y).length → ℝ)) (q : Fin (nDescriptors (labelsOf y).length * cfg.nBins) → ℝ) (hq : dfyTest cfg fit bag = .ok q) :
    ucRun ops enc w ⟨dfyClass ppf sv qp la fuel tol cfg distance, et, et'⟩ X y (some (.probs P)) Xt (some (.probs bag)) = (matchAnswer sv qp tol distance ⟨fit, fit.train, par, none, none⟩ q).2 := by
  rw [ucRun_given_probs ops enc w X Xt y (dfyClass ppf sv qp la fuel tol cfg distance) rfl rfl et et' hy r P _ hP]
  have h1' : dfFit ppf .whole cfg (some (0, 1)) (dfyAtt (npUnique y).length) (npUnique y) y (stacked y r) P = .ok fit := hfit
  change answerOn (dfyClass (k := (npUnique y).length) ppf sv qp la fuel tol cfg distance) y r (.probs P) (.probs bag) = _
  simp only [answerOn, learnAnswer, fittedState, dfyClass, trainData, probRows, columnsAre_self, if_true, bind, Except.bind]
  simp only [h1', Fin.cast_eq_self]
  have h2 : matchParams la fuel distance (fun i c => fit.train i c) = .ok par := hpar
  erw [h2]
  simp only [pure, Except.pure]
  have : dfyTest cfg (⟨fit.cuts, fun i c => fit.train i c⟩ : DfFit (nDescriptors (npUnique y).length) cfg.nBins (npUnique y).length) bag = .ok q := hq
  simp only [this]
  rfl

/-- What FriedmanME answers, in terms of the end of `predict`. -/
theorem friedman_run (hy : y ≠ []) (ops : EstOps σ D α (labelsOf y).length) (sv : CvxSolver) (qp : QPSolver) (la : LinAlg (labelsOf y).length) (fuel : ℕ) (tol : ℝ)
    (distance : DfDistance (labelsOf y).length) (P : List (Fin (labelsOf y).length → ℝ)) (hP : P.length = r * y.length)
    (fit : FriedmanFit (labelsOf y).length) (hfit : friedmanFit (labelsOf y) y (stacked y r) P = .ok fit) (par : Option (QPParams (labelsOf y).length ((labelsOf y).length + 1)))
    (hpar : matchParams la fuel distance fit.train = .ok par) (bag : List (Fin (labelsOf y).length → ℝ)) :
    ucRun ops enc w ⟨friedmanClass sv qp la fuel tol distance, et, et'⟩ X y (some (.probs P)) Xt (some (.probs bag)) = (matchAnswer sv qp tol distance ⟨fit, fit.train, par, none, none⟩ (friedmanTest fit bag)).2 := by
  rw [ucRun_given_probs ops enc w X Xt y (friedmanClass sv qp la fuel tol distance) rfl rfl et et' hy r P _ hP]
  change answerOn (friedmanClass (k := (npUnique y).length) sv qp la fuel tol distance) y r (.probs P) (.probs bag) = _
  have h1' : friedmanFit (npUnique y) y (stacked y r) P = .ok fit := hfit
  simp only [answerOn, learnAnswer, fittedState, friedmanClass, trainData, probRows, columnsAre_self, if_true, bind, Except.bind]
  simp only [Fin.cast_eq_self]
  have h3' : List.map (fun (r : Fin (npUnique y).length → ℝ) j => r j) P = P := List.map_id P
  rw [h3', h1']
  dsimp only
  have h2' : matchParams la fuel distance (fun i c => fit.train i c) = .ok par := hpar
  erw [h2']
  rfl

include hy hr

/-- **C172** for AC with two classes: it answers what CC answers. -/
theorem C172_ac_partial (ops : EstOps σ D α k) (sol : Solvers) (dist : Dist) (h2 : (labelsOf y).length = 2) (P : List α) (hP : P.length = r * y.length) (hPy : ∀ a ∈ P, a ∈ y) (hs : SaysNothing ((stacked y r).zip P))
    (bag : List α) (hbag : bag ≠ []) (hby : ∀ a ∈ bag, a ∈ y) :
    ucRun ops enc w ⟨acClass sol dist, et, et'⟩ X y (some (.crisp P)) Xt (some (.crisp bag)) = .ok (some (realList fun j : Fin (labelsOf y).length => freq bag (labelsOf y)[j])) := by
  have hl : (stacked y r).length = P.length := by rw [stacked_length, hP]
  rw [ucRun_given_crisp ops enc w X Xt y (acClass sol dist) rfl rfl et et' hy r P _ hP, answer_ac_eq y sol dist r P _ hP hbag, normalizeRows_eq y r hr P hP hPy,
    adjust_flat sol dist h2 (cmReal y r P) (fun i i' j => ?_) (freqs (labelsOf y) bag) (freqs_isPrev _ (labelsOf_nodup y) bag hbag fun a ha => (mem_labelsOf y a).2 (hby a ha))]
  · rfl
  · unfold cmReal
    rw [condFreq_condMean, condFreq_condMean, ← meanOf_ofClass _ _ hl, ← meanOf_ofClass _ _ hl]
    exact nothing_mean y r hr P hP hs i i' _

/-- **C172** for PAC with two classes: it answers what PCC answers. -/
theorem C172_pac_partial (ops : EstOps σ D α (labelsOf y).length) (sol : Solvers) (dist : Dist) (h2 : (labelsOf y).length = 2) (P : List (Fin (labelsOf y).length → ℝ)) (hP : P.length = r * y.length) (hs : SaysNothing ((stacked y r).zip P))
    (bag : List (Fin (labelsOf y).length → ℝ)) (hbag : bag ≠ []) (hb : ∀ row ∈ bag, IsPrev row) :
    ucRun ops enc w ⟨pacClass sol dist, et, et'⟩ X y (some (.probs P)) Xt (some (.probs bag)) = .ok (some (realList fun j : Fin (labelsOf y).length => meanOf bag fun row => row j)) := by
  have hl : (stacked y r).length = P.length := by rw [stacked_length, hP]
  rw [ucRun_given_probs ops enc w X Xt y (pacClass sol dist) rfl rfl et et' hy r P _ hP]
  have e : answerOn (pacClass sol dist) y r (.probs P) (.probs bag)
      = ((adjust sol dist (fun i j => colMeans (rowsOf (stacked y r) P (labelsOf y)[i]) j) (colMeans bag)).map vecList).map some := by
    simp only [answerOn, learnAnswer, fittedState, pacClass, trainData, probRows, if_true, bind, Except.bind, hl, keep]
    rw [dif_pos (show (labelsOf y).length = (npUnique y).length from rfl)]
    simp only [pure, Except.pure]
    rw [dif_pos (show (labelsOf y).length = (npUnique y).length from rfl)]
    rfl
  have hent : (fun i j => colMeans (rowsOf (stacked y r) P (labelsOf y)[i]) j) = fun i j => Fl.fin (pcmReal y r P i j) := by
    funext i j
    exact pcm_entry y r hr P hP i j
  have hq : colMeans bag = fun j => Fl.fin (meanOf bag fun row => row j) := colMeans_eq _ hbag
  have hbl : (0:ℝ) < bag.length := by exact_mod_cast List.length_pos_iff.2 hbag
  have hprev : IsPrev fun j => meanOf bag fun row => row j := by
    constructor
    · refine fun j => div_nonneg (List.sum_nonneg fun x hx => ?_) hbl.le
      obtain ⟨row, hrow, rfl⟩ := List.mem_map.1 hx
      exact (hb row hrow).1 j
    · unfold meanOf
      rw [← Finset.sum_div, div_eq_one_iff_eq hbl.ne']
      clear hbag hbl hq e
      induction bag with
      | nil => simp
      | cons a l ih =>
        simp only [List.map_cons, List.sum_cons, Finset.sum_add_distrib, List.length_cons, Nat.cast_add, Nat.cast_one]
        rw [ih fun row hrow => hb row (List.mem_cons_of_mem _ hrow), (hb a List.mem_cons_self).2, add_comm]
  rw [e, hent, hq, adjust_flat sol dist h2 (pcmReal y r P) (fun i i' j => ?_) _ hprev]
  · rfl
  · unfold pcmReal
    rw [← meanOf_ofClass _ _ hl, ← meanOf_ofClass _ _ hl]
    exact nothing_mean y r hr P hP hs i i' _

theorem df_flat (ppf : ℝ → EReal) (cfg : DfCfg) (P : List (Fin (labelsOf y).length → ℝ)) (hP : P.length = r * y.length) (hs : SaysNothing ((stacked y r).zip P))
    (fit : DfFit (nDescriptors (labelsOf y).length) cfg.nBins (labelsOf y).length) (hfit : dfyFit ppf cfg (labelsOf y) y (stacked y r) P = .ok fit) (i) (c c' : Fin (labelsOf y).length) : fit.train i c = fit.train i c' := by
  have col : ∀ c, fit.train i c = accumulate .whole cfg.f (fun d b => meanOf (ofClass ((stacked y r).zip P) (labelsOf y)[c]) fun row => binInd (fit.cuts d) b (dfyAtt (labelsOf y).length d row)) i := by
    intro c
    have := congrFun (df_means ppf .whole cfg (some (0, 1)) _ y (stacked y r) hy P fit hfit (Pi.single c 1)).2 i
    simp only [mixtureOf, Pi.single_apply, ite_mul, one_mul, zero_mul, mul_ite, mul_one, mul_zero, Finset.sum_ite_eq', Finset.mem_univ, if_true] at this
    exact this.symm
  rw [col, col]
  congr 1
  funext d b
  exact nothing_mean y r hr P hP hs c c' _

/-- **C172** for DFy with two classes and a function as distance: `predict` raises. -/
theorem C172_dfy_distance_partial (ops : EstOps σ D α (labelsOf y).length) (sv : CvxSolver) (qp : QPSolver) (ppf : ℝ → EReal) (la : LinAlg (labelsOf y).length) (fuel : ℕ) (tol : ℝ) (h2 : (labelsOf y).length = 2)
    (cfg : DfCfg) (dist : (Fin (nDescriptors (labelsOf y).length * cfg.nBins) → ℝ) → (Fin (nDescriptors (labelsOf y).length * cfg.nBins) → ℝ) → ℝ) (P : List (Fin (labelsOf y).length → ℝ)) (hP : P.length = r * y.length)
    (hs : SaysNothing ((stacked y r).zip P)) (fit : DfFit (nDescriptors (labelsOf y).length) cfg.nBins (labelsOf y).length) (hfit : dfyFit ppf cfg (labelsOf y) y (stacked y r) P = .ok fit) (bag : List (Fin (labelsOf y).length → ℝ)) :
    ucRun ops enc w ⟨dfyClass ppf sv qp la fuel tol cfg (.fn fun v w => Fl.fin (dist v w)), et, et'⟩ X y (some (.probs P)) Xt (some (.probs bag)) = .error .valueError := by
  have hm := (df_means ppf .whole cfg (some (0, 1)) _ y (stacked y r) hy P fit hfit fun _ => 0).1
  obtain ⟨q, hq⟩ : ∃ q, dfyTest cfg fit bag = .ok q := ⟨_, dfTest_eq .whole cfg _ fit hm bag⟩
  rw [dfy_run enc w et et' X Xt y r hy ops sv qp ppf la fuel tol cfg _ P hP fit hfit none rfl bag q hq]
  simp only [matchAnswer]
  rw [dif_pos (by omega), globalSearch_constant _ _ _ tol (dist (fun i => fit.train i ⟨0, by omega⟩) q)]
  intro p
  congr 2
  funext i
  unfold mixtureOfPdfs
  have h := df_flat y hy r hr ppf cfg P hP hs fit hfit i ⟨1, by omega⟩ ⟨0, by omega⟩
  dsimp only
  rw [h]
  ring

omit hy in
theorem friedman_flat (P : List (Fin (labelsOf y).length → ℝ)) (hP : P.length = r * y.length) (hs : SaysNothing ((stacked y r).zip P)) :
    ∃ fit, friedmanFit (labelsOf y) y (stacked y r) P = .ok fit ∧ ∀ i c c', fit.train i c = fit.train i c' := by
  have hl : (stacked y r).length = P.length := by rw [stacked_length, hP]
  obtain ⟨fit, h1, -, h2, h3, -⟩ := C54_friedman (labelsOf y) y (stacked y r) P hl (labelsOf_nodup' y) fun a => ((mem_labelsOf' y a).trans (stacked_mem_iff y r hr a).symm)
  refine ⟨fit, h1, fun i c c' => ?_⟩
  rw [(h2 i c).1, (h2 i c').1, reachShare_mean, reachShare_mean]
  exact nothing_mean y r hr P hP hs c c' _

/-- **C172** for FriedmanME with two classes and a function as distance. -/
theorem C172_friedman_distance_partial (ops : EstOps σ D α (labelsOf y).length) (sv : CvxSolver) (qp : QPSolver) (la : LinAlg (labelsOf y).length) (fuel : ℕ) (tol : ℝ) (h2 : (labelsOf y).length = 2)
    (dist : (Fin (labelsOf y).length → ℝ) → (Fin (labelsOf y).length → ℝ) → ℝ) (P : List (Fin (labelsOf y).length → ℝ)) (hP : P.length = r * y.length) (hs : SaysNothing ((stacked y r).zip P)) (bag : List (Fin (labelsOf y).length → ℝ)) :
    ucRun ops enc w ⟨friedmanClass sv qp la fuel tol (.fn fun v w => Fl.fin (dist v w)), et, et'⟩ X y (some (.probs P)) Xt (some (.probs bag)) = .error .valueError := by
  obtain ⟨fit, hfit, hflat⟩ := friedman_flat y r hr P hP hs
  rw [friedman_run enc w et et' X Xt y r hy ops sv qp la fuel tol _ P hP fit hfit none rfl bag]
  simp only [matchAnswer]
  rw [dif_pos (by omega), globalSearch_constant _ _ _ tol (dist (fun i => fit.train i ⟨0, by omega⟩) (friedmanTest fit bag))]
  intro p
  congr 2
  funext i
  unfold mixtureOfPdfs
  have h := hflat i ⟨1, by omega⟩ ⟨0, by omega⟩
  dsimp only
  rw [h]
  ring

/-- **C172** is false for DFy with 'L2': it answers with the uniform prevalences, for every bag. -/
theorem C172_dfy_l2_refuted (ops : EstOps σ D α (labelsOf y).length) (sv : CvxSolver) (qp : QPSolver) (hqp : ExactQP qp) (ppf : ℝ → EReal) (la : LinAlg (labelsOf y).length) (hla : ExactLinAlg la) (fuel : ℕ) (tol : ℝ)
    (cfg : DfCfg) (P : List (Fin (labelsOf y).length → ℝ)) (hP : P.length = r * y.length)
    (hs : SaysNothing ((stacked y r).zip P)) (fit : DfFit (nDescriptors (labelsOf y).length) cfg.nBins (labelsOf y).length) (hfit : dfyFit ppf cfg (labelsOf y) y (stacked y r) P = .ok fit) (bag : List (Fin (labelsOf y).length → ℝ)) :
    ucRun ops enc w ⟨dfyClass ppf sv qp la (fuel + 1) tol cfg .l2, et, et'⟩ X y (some (.probs P)) Xt (some (.probs bag)) = .ok (some (realList fun _ : Fin (labelsOf y).length => 1 / (labelsOf y).length)) := by
  have hm := (df_means ppf .whole cfg (some (0, 1)) _ y (stacked y r) hy P fit hfit fun _ => 0).1
  obtain ⟨q, hq⟩ : ∃ q, dfyTest cfg fit bag = .ok q := ⟨_, dfTest_eq .whole cfg _ fit hm bag⟩
  obtain ⟨par, h1, h2⟩ := l2_flat qp hqp la hla (labels_pos y hy) fit.train (df_flat y hy r hr ppf cfg P hP hs fit hfit) q fuel
  rw [dfy_run enc w et et' X Xt y r hy ops sv qp ppf la (fuel + 1) tol cfg _ P hP fit hfit (some par) (by simp only [matchParams, h1]) bag q hq]
  simp only [matchAnswer, h2, Except.map]

/-- **C172** is false for FriedmanME with 'L2'. -/
theorem C172_friedman_l2_refuted (ops : EstOps σ D α (labelsOf y).length) (sv : CvxSolver) (qp : QPSolver) (hqp : ExactQP qp) (la : LinAlg (labelsOf y).length) (hla : ExactLinAlg la) (fuel : ℕ) (tol : ℝ)
    (P : List (Fin (labelsOf y).length → ℝ)) (hP : P.length = r * y.length) (hs : SaysNothing ((stacked y r).zip P)) (bag : List (Fin (labelsOf y).length → ℝ)) :
    ucRun ops enc w ⟨friedmanClass sv qp la (fuel + 1) tol .l2, et, et'⟩ X y (some (.probs P)) Xt (some (.probs bag)) = .ok (some (realList fun _ : Fin (labelsOf y).length => 1 / (labelsOf y).length)) := by
  obtain ⟨fit, hfit, hflat⟩ := friedman_flat y r hr P hP hs
  obtain ⟨par, h1, h2⟩ := l2_flat qp hqp la hla (labels_pos y hy) fit.train hflat (friedmanTest fit bag) fuel
  rw [friedman_run enc w et et' X Xt y r hy ops sv qp la (fuel + 1) tol _ P hP fit hfit (some par) (by simp only [matchParams, h1]) bag]
  simp only [matchAnswer, h2, Except.map]

/-- **C172** is false for EDy: it answers that all of the bag is of the last class, for every bag. -/
theorem C172_edy_refuted {n : ℕ} (ops : EstOps σ D α (n + 1)) (hn : 0 < n) (hk : (labelsOf y).length = n + 1) (qp : QPSolver) (hqp : ExactQP qp) (la : LinAlg n) (hla : ExactLinAlg la) (fuel : ℕ) (d : (Fin (n + 1) → ℝ) → (Fin (n + 1) → ℝ) → ℝ)
    (P : List (Fin (n + 1) → ℝ)) (hP : P.length = r * y.length) (hs : SaysNothing ((stacked y r).zip P)) (bag : List (Fin (n + 1) → ℝ)) (hbag : bag ≠ []) :
    ucRun ops enc w ⟨edyClass qp la (fuel + 1) d, et, et'⟩ X y (some (.probs P)) Xt (some (.probs bag)) = .ok (some (realList (Pi.single (Fin.last n) (1:ℝ) : Fin (n + 1) → ℝ))) := by
  have hl : (stacked y r).length = P.length := by rw [stacked_length, hP]
  have hc : ∀ i j : Fin (n + 1), SameFrequencies (selectRows (stacked y r) P (labelsOf y)[Fin.cast hk.symm i]) (selectRows (stacked y r) P (labelsOf y)[Fin.cast hk.symm j]) := fun i j => nothing_freqs y r hr P hP hs _ _
  set train := fun i : Fin (n + 1) => selectRows (stacked y r) P (labelsOf y)[Fin.cast hk.symm i] with htr
  have hK : ∀ i j, edK d train i j = sumDist d (train 0) (train 0) / (((train 0).length : ℝ) * (train 0).length) := by
    intro i j
    unfold edK
    split_ifs
    · exact meanDist_same d (.inr (hc _ _)) (.inr (hc _ _))
    · rw [mul_comm, meanDist_same d (.inr (hc _ _)) (.inr (hc _ _))]
  obtain ⟨par, h1, h2⟩ := ed_flat hn qp hqp la hla d train bag (fun i j i' j' => by rw [hK, hK]) (fun i j => meanDist_same d (.inr (hc _ _)) (.inr ⟨hbag, hbag, fun _ => rfl⟩)) fuel
  rw [ucRun_given_probs ops enc w X Xt y (edyClass qp la (fuel + 1) d) rfl rfl et et' hy r P _ hP]
  have h1' : edFit la (fuel + 1) d (fun i => (npUnique y)[Fin.cast (show n + 1 = (npUnique y).length from hk.symm) i]) (stacked y r) P = some ⟨train, edK d train, par⟩ := by
    unfold edFit
    show Option.map _ (computeEdParamTrain la (fuel + 1) (edK d train)) = _
    rw [h1]
    rfl
  have h2' : edPredict qp d ⟨train, edK d train, par⟩ bag = .ok (Pi.single (Fin.last n) 1) := h2
  simp only [answerOn, learnAnswer, fittedState, edyClass, trainData, probRows, columnsAre, if_true, bind, Except.bind, keep, hl, ne_eq, not_true_eq_false, if_false]
  rw [dif_pos (show (npUnique y).length = n + 1 from hk)]
  simp only [h1', h2', Except.map]

end

/-- **C172** is false for SORDy: it answers that all of the bag is of the second class, for every bag. -/
theorem C172_sordy_refuted {σ D : Type} (enc : Bool → ℤ) (w : World σ D ℤ) (et et' : Option ℕ) (X Xt : List D) (ops : EstOps σ D ℤ 2) (sort : List (ℝ × ℤ) → List (ℝ × ℤ)) (hsort : IsSort sort) (tol : ℝ) (htol : 0 < tol)
    (y : List ℤ) (c0 c1 : ℤ) (hc : labelsOf y = [c0, c1]) (P : List (Fin 2 → ℝ)) (hP : P.length = y.length) (hs : SaysNothing (y.zip P)) (bag : List (Fin 2 → ℝ)) (hbag : bag ≠ []) :
    ∃ v : Fin 2 → ℝ, ucRun ops enc w ⟨sordyClass 0 sort tol, et, et'⟩ X y (some (.probs P)) Xt (some (.probs bag)) = .ok (some (realList v)) ∧ |v 1 - 1| ≤ tol / 2 := by
  have hy : y ≠ [] := by rintro rfl; rw [show labelsOf ([] : List ℤ) = [] from labelsOf_eq _ _ (by decide) (by decide)] at hc; cases hc
  have hmem : ∀ a, a ∈ y ↔ a = c0 ∨ a = c1 := fun a => by rw [← mem_labelsOf y a, hc]; simp
  have hsc : ∀ c, scoresOf ((P.map fun row => row 1).zip y) c = (ofClass (y.zip P) c).map fun row => row 1 := by
    intro c
    unfold scoresOf ofClass
    have e : ∀ (y : List ℤ) (P : List (Fin 2 → ℝ)), (P.map fun row => row 1).zip y = (y.zip P).map fun t => (t.2 1, t.1) := by
      intro y
      induction y with
      | nil => simp
      | cons a y ih =>
        intro P
        cases P with
        | nil => simp
        | cons b P => simp [ih P]
    rw [e, List.filter_map, List.map_map, List.map_map]
    rfl
  have hin : ∀ c, c = c0 ∨ c = c1 → c ∈ (y.zip P).map Prod.fst := fun c h => by
    rw [List.map_fst_zip (le_of_eq hP.symm)]
    exact (hmem c).2 h
  have hsame : SameFrequencies (ofClass (y.zip P) c0) (ofClass (y.zip P) c1) := hs c0 (hin _ (.inl rfl)) c1 (hin _ (.inr rfl))
  have hlen : (P.map fun row => row 1).length = y.length := by simpa using hP
  have htest : (bag.map fun row => row 1) ≠ [] := by simpa using hbag
  obtain ⟨hU, u0, u1, u2⟩ := sordy_union sort hsort y (P.map fun row => row 1) hlen c0 c1 hc (bag.map fun row => row 1) htest
  set union := sordyUnion sort ⟨[c0, c1], sort ((P.map fun row => row 1).zip y)⟩ (bag.map fun row => row 1) with hun
  have hsu : union.Pairwise fun a b => a.1 ≤ b.1 := (hsort _).2
  have hval : ∀ p, sordyLoss [c0, c1] union p = Fl.fin (∫ t, |ecdf (scoresOf union c0) t - ecdf (scoresOf union (c1 + 1)) t|) := by
    intro p
    obtain ⟨_, v, h1, h2, _⟩ := C36_sord_is_wasserstein union c0 c1 (c1 + 1) hU hsu p
    unfold sordyLoss
    rw [h1, h2]
    show Fl.fin _ = Fl.fin _
    congr 2
    funext t
    rw [u0, u1, hsc, hsc, ecdf_same (hsame.map _) t]
    congr 1
    ring
  have hneU : union ≠ [] := by
    intro he; apply hU.neg; rw [he]; rfl
  obtain ⟨loss, p, g1, g2, g3⟩ := golden_constant (sordyLoss [c0, c1] union) _ tol 0 1 hval zero_lt_one htol
  refine ⟨![1 - p, p], ?_, by change |p - 1| ≤ _; rw [abs_le]; constructor <;> linarith⟩
  rw [ucRun_given_probs ops enc w X Xt y (sordyClass 0 sort tol) rfl rfl et et' hy 1 P _ (by rw [hP, one_mul])]
  have hst : stacked y 1 = y := by simp [stacked]
  have hc' : ¬ 2 < (npUnique y).length := by rw [npUnique_eq_labelsOf, hc]; simp
  simp only [answerOn, learnAnswer, fittedState, sordyClass, trainData, probRows, if_true, bind, Except.bind, hst, hc', if_false, hP, keep, pure, Except.pure, gt_iff_lt]
  change Except.map some (Except.map realList (sordyPredict sort tol ⟨npUnique y, sort ((P.map fun r => r 1).zip y)⟩ (bag.map fun r => r 1))) = _
  rw [npUnique_eq_labelsOf, hc]
  unfold sordyPredict
  simp only
  rw [← hun, if_neg hneU, g1]
  rfl

/-! ## Non-vacuity -/

section examples

/-- Both classes are predicted 0 and 1 equally often. -/
theorem nothing_example : SaysNothing ((stacked [0, 0, 1, 1, 1, 1] 1).zip [0, 1, 1, 0, 0, 1]) := by
  have h0 : ofClass ((stacked [0, 0, 1, 1, 1, 1] 1).zip [0, 1, 1, 0, 0, 1]) 0 = [0, 1] := by simp [stacked, ofClass]
  have h1 : ofClass ((stacked [0, 0, 1, 1, 1, 1] 1).zip [0, 1, 1, 0, 0, 1]) 1 = [1, 0, 0, 1] := by simp [stacked, ofClass]
  have hr : SameFrequencies [0, 1, 0, 1] [0, 1] := SameFrequencies.replicate (l := [0, 1]) (by simp) (r := 2) (by decide)
  have hp : SameFrequencies [1, 0, 0, 1] [0, 1, 0, 1] := SameFrequencies.of_perm (List.Perm.swap _ _ _) (by simp)
  have h : SameFrequencies [1, 0, 0, 1] [0, 1] := ⟨by simp, by simp, fun a => (hp.2.2 a).trans (hr.2.2 a)⟩
  have hrefl : ∀ l : List ℕ, l ≠ [] → SameFrequencies l l := fun l hl => ⟨hl, hl, fun _ => rfl⟩
  have hin : ∀ c ∈ ((stacked [0, 0, 1, 1, 1, 1] 1).zip [0, 1, 1, 0, 0, 1]).map Prod.fst, c = 0 ∨ c = 1 := by
    intro c hc
    simp [stacked] at hc
    tauto
  intro c hc c' hc'
  rcases hin c hc with rfl | rfl <;> rcases hin c' hc' with rfl | rfl <;> simp only [h0, h1]
  · exact hrefl _ (by simp)
  · exact h.symm
  · exact h
  · exact hrefl _ (by simp)

example {σ D : Type} {k : ℕ} (enc : Bool → ℕ) (w : World σ D ℕ) (X Xt : List D) (ops : EstOps σ D ℕ k) (sol : Solvers) (dist : Dist) :
    ucRun ops enc w ⟨acClass sol dist, none, none⟩ X [0, 0, 1, 1, 1, 1] (some (.crisp [0, 1, 1, 0, 0, 1])) Xt (some (.crisp [1, 1, 0]))
      = .ok (some (realList fun j : Fin (labelsOf [0, 0, 1, 1, 1, 1]).length => freq [1, 1, 0] (labelsOf [0, 0, 1, 1, 1, 1])[j])) :=
  C172_ac_partial enc w none none X Xt _ (by simp) 1 (by norm_num) ops sol dist (by rw [labelsOf_eq [0, 0, 1, 1, 1, 1] [0, 1] (by decide) (by decide)]; rfl) _ (by simp) (by decide) nothing_example _ (by simp) (by decide)

end examples

end Verif.Props
