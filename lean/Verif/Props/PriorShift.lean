import Verif.Props.EndToEnd
import Verif.Proof.PriorShift

/-!
# C128: exact prevalences under prior probability shift

The training set and the bag are lists of pairs (true class, prediction). When they differ in the prevalences of the classes only (`PriorShift`) and the representations of the classes can be told apart, the
methods that correct the shift answer the prevalences of the bag, exactly.
-/

namespace Verif.Props

open Verif.Model Verif.Spec Verif.Proof

/-- The answer of a quantifier that is right: the prevalences of the classes of `y` in the bag, in the order of the labels. -/
noncomputable def rightAnswer {α β : Type*} [LinearOrder α] (y : List α) (bag : List (α × β)) : Except Err (Option (List Fl)) := .ok (some ((labelsOf y).map fun c => Fl.fin (freq (bag.map Prod.fst) c)))

theorem rightAnswer_eq {α β : Type*} [LinearOrder α] (y : List α) (bag : List (α × β)) : rightAnswer y bag = .ok (some (realList (bagPrevs y bag))) := by
  unfold rightAnswer realList bagPrevs
  rw [← List.ofFn_getElem_eq_map]
  rfl

/-- What it takes to tell the classes apart from their representations, the columns of `T`, with each loss: different prevalences give different mixtures; for 'HD' also that all the columns have
the same total, and for 'L2' that the columns are independent. -/
def Distinguishes {m n : ℕ} (distance : DfDistance m) (T : Matrix (Fin m) (Fin n) ℝ) : Prop :=
  match distance with
  | .l1 => Identifiable T
  | .hd => Identifiable T ∧ ∃ s, ∀ j, ∑ i, T i j = s
  | .l2 => ∀ x : Fin n → ℝ, (∀ i, ∑ j, T i j * x j = 0) → x = 0
  | .fn _ => False

theorem stacked_mem_iff {α : Type*} (y : List α) (r : ℕ) (hr : 0 < r) (a : α) : a ∈ stacked y r ↔ a ∈ y := by
  unfold stacked
  rw [List.mem_flatten]
  constructor
  · rintro ⟨l, hl, ha⟩
    rwa [(List.mem_replicate.1 hl).2] at ha
  · intro h
    exact ⟨y, List.mem_replicate.2 ⟨hr.ne', rfl⟩, h⟩

theorem l2_unique {m n : ℕ} (T : Matrix (Fin m) (Fin n) ℝ) (hT : ∀ x : Fin n → ℝ, (∀ i, ∑ j, T i j * x j = 0) → x = 0) (p x q : Fin n → ℝ) (v : Fin m → ℝ) (hv : ∀ i, v i = ∑ j, T i j * p j)
    (hle : l2Loss T v x ≤ l2Loss T v p) : x = p := by
  have h0 : l2Loss T v p = 0 := (C45_zero_loss T v p hv).2.1
  rw [h0] at hle
  have h1 : l2Loss T v x = 0 := le_antisymm hle (Finset.sum_nonneg fun k _ => sq_nonneg _)
  unfold l2Loss at h1
  rw [Finset.sum_eq_zero_iff_of_nonneg fun k _ => sq_nonneg _] at h1
  have := hT (fun j => x j - p j) fun i => by
    have h2 := (pow_eq_zero_iff two_ne_zero).1 (h1 i (Finset.mem_univ i))
    simp only [mul_sub, Finset.sum_sub_distrib]
    rw [← hv i]
    exact h2
  funext j
  exact sub_eq_zero.1 (congrFun this j)

theorem matchAnswer_exact (sv : CvxSolver) (hsv : ExactCvx sv) (qp : QPSolver) (hqp : ExactQP qp) {F : Type} {m nc : ℕ} (hn : 0 < nc) (la : LinAlg nc) (hla : ExactLinAlg la) (fuel : ℕ) (tol : ℝ)
    (distance : DfDistance m) (f : F) (T : Matrix (Fin m) (Fin nc) ℝ) (hT : ∀ k j, 0 ≤ T k j) (hd : Distinguishes distance T) (p : Fin nc → ℝ) (hp : IsPrev p) (q : Fin m → ℝ) (hq : ∀ i, q i = ∑ j, T i j * p j) :
    ∃ par, matchParams la (fuel + 1) distance T = .ok par ∧ (matchAnswer sv qp tol distance ⟨f, T, par, none, none⟩ q).2 = .ok (some (realList p)) := by
  obtain rfl : q = fun i => ∑ j, T i j * p j := funext hq
  cases distance with
  | fn d => exact hd.elim
  | l1 =>
    obtain ⟨pr, h1⟩ := C81_l1_recovers_mixture sv hsv hn T hT hd p hp
    refine ⟨none, rfl, ?_⟩
    simp only [matchAnswer, h1]
  | hd =>
    obtain ⟨h1, s, h2⟩ := hd
    obtain ⟨pr, h1⟩ := C81_hd_recovers_mixture_partial sv hsv hn T hT s h2 h1 p hp
    refine ⟨none, rfl, ?_⟩
    simp only [matchAnswer, h1]
  | l2 =>
    obtain ⟨par, x, h1, h2, h3, h4⟩ := C26_l2_exact qp hqp la hla hn T (fun i => ∑ j, T i j * p j) fuel fun x hx => hd x fun i => congrFun hx i
    refine ⟨some par, by simp only [matchParams, h1], ?_⟩
    have := l2_unique T hd p x p _ (fun _ => rfl) (h4 p hp)
    simp only [matchAnswer, h2, Except.map, this]

theorem accumulate_nonneg (kind : CumKind) (f : DistFun) {nd nb : ℕ} (v : Fin nd → Fin nb → ℝ) (h : ∀ d b, 0 ≤ v d b) (i : Fin (nd * nb)) : 0 ≤ accumulate kind f v i := by
  unfold accumulate
  cases f with
  | pdf => exact h _ _
  | cdf =>
    cases kind with
    | whole => exact cumsum_nonneg _ (fun _ => h _ _) _
    | perBlock => exact cumsum_nonneg _ (fun _ => h _ _) _

/-- The representation of the bag is the mixture of those of the classes. -/
theorem df_shift {α : Type} [LinearOrder α] (ppf : ℝ → EReal) {D : Type*} {nd : ℕ} (kind : CumKind) (cfg : DfCfg) (range : Option (ℝ × ℝ)) (att : Fin nd → D → ℝ) (y yE : List α) (hy : y ≠ []) (hyE : ∀ a, a ∈ yE ↔ a ∈ y)
    (rows : List D) (fit : DfFit nd cfg.nBins (labelsOf y).length) (hfit : dfFit ppf kind cfg range att (labelsOf y) y yE rows = .ok fit) (bag : List (α × D)) (hs : PriorShift (yE.zip rows) bag) :
    (∀ i c, 0 ≤ fit.train i c) ∧ ∃ q, dfTest kind cfg att fit (bag.map Prod.snd) = .ok q ∧ ∀ i, q i = ∑ c, fit.train i c * bagPrevs y bag c := by
  unfold dfFit at hfit
  split at hfit
  · cases hfit
  · rename_i cuts hcuts
    split_ifs at hfit with hlen
    split at hfit
    · cases hfit
    · rename_i v hv
      rw [not_not] at hlen
      cases hfit
      have hv' := (seqFin_ok _ _).1 hv
      have hpos : 0 < (labelsOf y).length := labels_pos y hy
      have hm : ∀ d, Monotone (cuts d) := fun d => histBlocks_mono (hv' ⟨0, hpos⟩) d
      have he : ∀ c, v c = fun d b => ((selectRows yE rows (labelsOf y)[c]).map fun r => binInd (cuts d) b (att d r)).sum / (selectRows yE rows (labelsOf y)[c]).length := by
        intro c
        have := histBlocks_eq att cuts hm (selectRows yE rows (labelsOf y)[c])
        rw [hv' c] at this
        exact Except.ok.inj this
      refine ⟨fun i c => accumulate_nonneg kind cfg.f _ (fun d b => ?_) i, _, dfTest_eq kind cfg att _ hm _, fun i => ?_⟩
      · rw [he]
        refine div_nonneg (List.sum_nonneg fun x hx => ?_) (Nat.cast_nonneg _)
        obtain ⟨r, -, rfl⟩ := List.mem_map.1 hx
        exact binInd_nonneg _ (hm d) _ _
      · rw [← accumulate_mixture kind cfg.f v (bagPrevs y bag) i]
        congr 1
        funext d b
        rw [hs.mean_labels hyE]
        refine Finset.sum_congr rfl fun c _ => ?_
        rw [he]

theorem freqs_shift {α : Type} [LinearOrder α] (y : List α) (r : ℕ) (hr : 0 < r) (P : List α) (hl : (stacked y r).length = P.length) (bag : List (α × α)) (hs : PriorShift ((stacked y r).zip P) bag) (j : Fin (labelsOf y).length) :
    freqs (labelsOf y) (bag.map Prod.snd) j = ∑ i, bagPrevs y bag i * cmReal y r P i j := by
  have h1 := hs.mean_labels (stacked_mem_iff y r hr) fun a => if a = (labelsOf y)[j] then (1:ℝ) else 0
  have hcount : ∀ l : List α, (l.map fun a => if a = (labelsOf y)[j] then (1:ℝ) else 0).sum = l.count (labelsOf y)[j] := by
    intro l
    induction l with
    | nil => simp
    | cons a l ih =>
      rw [List.map_cons, List.sum_cons, ih, List.count_cons]
      by_cases h : a = (labelsOf y)[j] <;> simp [h, add_comm]
  rw [hcount] at h1
  refine h1.trans (Finset.sum_congr rfl fun c _ => ?_)
  rw [mul_comm, hcount, selectRows_length _ _ hl]
  congr 2
  unfold selectRows
  rw [List.count, List.countP_map, List.countP_filter]
  congr 1
  refine List.countP_congr fun t _ => ?_
  simp [and_comm]

section
variable {σ D α : Type} {k : ℕ} [LinearOrder α] (enc : Bool → α) (w : World σ D α) (et et' : Option ℕ) (X Xt : List D) (y : List α) (hy : y ≠ []) (r : ℕ) (hr : 0 < r)
include hy hr

/-- **C128** for AC: the bag is made of pairs (true class, predicted class), the training set gives the confusion matrix. -/
theorem C128_ac (ops : EstOps σ D α k) (sol : Solvers) (dist : Dist) (P : List α) (hP : P.length = r * y.length) (hPy : ∀ a ∈ P, a ∈ y)
    (hM : NonDegenerate fun i j : Fin (labelsOf y).length => condFreq (stacked y r) P (labelsOf y)[i] (labelsOf y)[j])
    (bag : List (α × α)) (hs : PriorShift ((stacked y r).zip P) bag) :
    ucRun ops enc w ⟨acClass sol dist, et, et'⟩ X y (some (.crisp P)) Xt (some (.crisp (bag.map Prod.snd))) = rightAnswer y bag := by
  rw [rightAnswer_eq]
  have hl : (stacked y r).length = P.length := by rw [stacked_length, hP]
  have hbne : bag.map Prod.snd ≠ [] := by simpa using hs.nonempty
  have hp := hs.bagPrevs_isPrev (stacked_mem_iff y r hr) hl
  rw [ucRun_given_crisp ops enc w X Xt y (acClass sol dist) rfl rfl et et' hy r P _ hP, answer_ac_eq y sol dist r P _ hP hbne, normalizeRows_eq y r hr P hP hPy]
  have e : (fun i => Fl.fin (freqs (labelsOf y) (bag.map Prod.snd) i)) = fun j => Fl.fin (∑ i, bagPrevs y bag i * cmReal y r P i j) := by
    funext j
    rw [freqs_shift y r hr P hl bag hs j]
  rw [e, show (fun i j => Fl.fin (cmReal y r P i j)) = fun i j => Fl.fin (cmReal y r P i j) from rfl]
  erw [C11_recovery sol dist (cmReal y r P) hM (bagPrevs y bag) hp]
  rfl

/-- **C128** for PAC. -/
theorem C128_pac (ops : EstOps σ D α (labelsOf y).length) (sol : Solvers) (dist : Dist) (P : List (Fin (labelsOf y).length → ℝ)) (hP : P.length = r * y.length)
    (hM : NonDegenerate fun i j : Fin (labelsOf y).length => condMean (stacked y r) P (fun row => row j) (labelsOf y)[i])
    (bag : List (α × (Fin (labelsOf y).length → ℝ))) (hs : PriorShift ((stacked y r).zip P) bag) :
    ucRun ops enc w ⟨pacClass sol dist, et, et'⟩ X y (some (.probs P)) Xt (some (.probs (bag.map Prod.snd))) = rightAnswer y bag := by
  rw [rightAnswer_eq]
  have hl : (stacked y r).length = P.length := by rw [stacked_length, hP]
  have hbne : bag.map Prod.snd ≠ [] := by simpa using hs.nonempty
  have hp := hs.bagPrevs_isPrev (stacked_mem_iff y r hr) hl
  rw [ucRun_given_probs ops enc w X Xt y (pacClass sol dist) rfl rfl et et' hy r P _ hP]
  have e : answerOn (pacClass sol dist) y r (.probs P) (.probs (bag.map Prod.snd))
      = ((adjust sol dist (fun i j => colMeans (rowsOf (stacked y r) P (labelsOf y)[i]) j) (colMeans (bag.map Prod.snd))).map vecList).map some := by
    simp only [answerOn, learnAnswer, fittedState, pacClass, trainData, probRows, if_true, bind, Except.bind, hl, keep]
    rw [dif_pos (show (labelsOf y).length = (npUnique y).length from rfl)]
    simp only [pure, Except.pure]
    rw [dif_pos (show (labelsOf y).length = (npUnique y).length from rfl)]
    rfl
  have hent : (fun i j => colMeans (rowsOf (stacked y r) P (labelsOf y)[i]) j) = fun i j => Fl.fin (pcmReal y r P i j) := by
    funext i j
    exact pcm_entry y r hr P hP i j
  have hq : colMeans (bag.map Prod.snd) = fun j => Fl.fin (∑ i, bagPrevs y bag i * pcmReal y r P i j) := by
    rw [colMeans_eq _ hbne]
    funext j
    congr 1
    refine (hs.mean_labels (stacked_mem_iff y r hr) fun row => row j).trans (Finset.sum_congr rfl fun c _ => ?_)
    rw [mul_comm, selectRows_length _ _ hl]
    unfold pcmReal condMean selectRows
    rw [List.map_map]
    rfl
  rw [e, hent, hq, C11_recovery sol dist (pcmReal y r P) hM (bagPrevs y bag) hp]
  rfl

/-- **C128** for DFy (and HDy, MMy): every number of bins, every strategy and both distribution functions with which `fit` succeeds. -/
theorem C128_dfy (ops : EstOps σ D α (labelsOf y).length) (sv : CvxSolver) (hsv : ExactCvx sv) (qp : QPSolver) (hqp : ExactQP qp) (ppf : ℝ → EReal) (la : LinAlg (labelsOf y).length) (hla : ExactLinAlg la) (fuel : ℕ) (tol : ℝ)
    (cfg : DfCfg) (distance : DfDistance (nDescriptors (labelsOf y).length * cfg.nBins)) (P : List (Fin (labelsOf y).length → ℝ)) (hP : P.length = r * y.length)
    (fit : DfFit (nDescriptors (labelsOf y).length) cfg.nBins (labelsOf y).length) (hfit : dfyFit ppf cfg (labelsOf y) y (stacked y r) P = .ok fit) (hd : Distinguishes distance fit.train)
    (bag : List (α × (Fin (labelsOf y).length → ℝ))) (hs : PriorShift ((stacked y r).zip P) bag) :
    ucRun ops enc w ⟨dfyClass ppf sv qp la (fuel + 1) tol cfg distance, et, et'⟩ X y (some (.probs P)) Xt (some (.probs (bag.map Prod.snd))) = rightAnswer y bag := by
  rw [rightAnswer_eq]
  have hl : (stacked y r).length = P.length := by rw [stacked_length, hP]
  have hp := hs.bagPrevs_isPrev (stacked_mem_iff y r hr) hl
  obtain ⟨h0, q, hq, hmix⟩ := df_shift ppf .whole cfg (some (0, 1)) _ y (stacked y r) hy (stacked_mem_iff y r hr) P fit hfit bag hs
  obtain ⟨par, hpar, hval⟩ := matchAnswer_exact sv hsv qp hqp (labels_pos y hy) la hla fuel tol distance fit fit.train h0 hd (bagPrevs y bag) hp q hmix
  rw [ucRun_given_probs ops enc w X Xt y (dfyClass ppf sv qp la (fuel + 1) tol cfg distance) rfl rfl et et' hy r P _ hP]
  have h1' : dfFit ppf .whole cfg (some (0, 1)) (dfyAtt (npUnique y).length) (npUnique y) y (stacked y r) P = .ok fit := hfit
  refine Eq.trans ?_ hval
  change answerOn (dfyClass (k := (npUnique y).length) ppf sv qp la (fuel + 1) tol cfg distance) y r (.probs P) (.probs (bag.map Prod.snd)) = _
  simp only [answerOn, learnAnswer, fittedState, dfyClass, trainData, probRows, columnsAre_self, if_true, bind, Except.bind]
  simp only [h1', Fin.cast_eq_self]
  have h2 : matchParams la (fuel + 1) distance (fun i c => fit.train i c) = .ok par := hpar
  erw [h2]
  simp only [pure, Except.pure]
  have : dfyTest cfg (⟨fit.cuts, fun i c => fit.train i c⟩ : DfFit (nDescriptors (npUnique y).length) cfg.nBins (npUnique y).length) (bag.map Prod.snd) = .ok q := hq
  simp only [this]
  rfl

/-- **C128** for FriedmanME. -/
theorem C128_friedman (ops : EstOps σ D α (labelsOf y).length) (sv : CvxSolver) (hsv : ExactCvx sv) (qp : QPSolver) (hqp : ExactQP qp) (la : LinAlg (labelsOf y).length) (hla : ExactLinAlg la) (fuel : ℕ) (tol : ℝ)
    (distance : DfDistance (labelsOf y).length) (P : List (Fin (labelsOf y).length → ℝ)) (hP : P.length = r * y.length)
    (hd : Distinguishes distance fun i c => reachShare i (freq y (labelsOf y)[i]) (ofClass ((stacked y r).zip P) (labelsOf y)[c]))
    (bag : List (α × (Fin (labelsOf y).length → ℝ))) (hs : PriorShift ((stacked y r).zip P) bag) :
    ucRun ops enc w ⟨friedmanClass sv qp la (fuel + 1) tol distance, et, et'⟩ X y (some (.probs P)) Xt (some (.probs (bag.map Prod.snd))) = rightAnswer y bag := by
  rw [rightAnswer_eq]
  have hl : (stacked y r).length = P.length := by rw [stacked_length, hP]
  have hp := hs.bagPrevs_isPrev (stacked_mem_iff y r hr) hl
  obtain ⟨fit, h1, -, h2, h3, -⟩ := C54_friedman (labelsOf y) y (stacked y r) P hl (labelsOf_nodup' y) fun a => ((mem_labelsOf' y a).trans (stacked_mem_iff y r hr a).symm)
  have hT : fit.train = fun i c => reachShare i (freq y (labelsOf y)[i]) (ofClass ((stacked y r).zip P) (labelsOf y)[c]) := by
    funext i c
    exact (h2 i c).1
  rw [← hT] at hd
  have hmix : ∀ i, friedmanTest fit (bag.map Prod.snd) i = ∑ c, fit.train i c * bagPrevs y bag c := by
    intro i
    unfold friedmanTest meanRows
    simp only [List.map_map, List.length_map]
    have h4 := hs.mean_labels (stacked_mem_iff y r hr) fun row => friedmanRow fit.prevs row i
    simp only [List.map_map, List.length_map] at h4
    refine h4.trans (Finset.sum_congr rfl fun c _ => ?_)
    congr 1
    unfold friedmanFit at h1
    rw [if_neg (not_not.2 hl)] at h1
    cases h1
    simp only [meanRows, List.map_map, List.length_map]
    rfl
  obtain ⟨par, hpar, hval⟩ := matchAnswer_exact sv hsv qp hqp (labels_pos y hy) la hla fuel tol distance fit fit.train (fun i c => (h2 i c).2.1) hd (bagPrevs y bag) hp _ hmix
  rw [ucRun_given_probs ops enc w X Xt y (friedmanClass sv qp la (fuel + 1) tol distance) rfl rfl et et' hy r P _ hP]
  refine Eq.trans ?_ hval
  change answerOn (friedmanClass (k := (npUnique y).length) sv qp la (fuel + 1) tol distance) y r (.probs P) (.probs (bag.map Prod.snd)) = _
  have h1' : friedmanFit (npUnique y) y (stacked y r) P = .ok fit := h1
  simp only [answerOn, learnAnswer, fittedState, friedmanClass, trainData, probRows, columnsAre_self, if_true, bind, Except.bind]
  simp only [Fin.cast_eq_self]
  have h3' : List.map (fun (r : Fin (npUnique y).length → ℝ) j => r j) P = P := List.map_id P
  rw [h3', h1']
  dsimp only
  have h2' : matchParams la (fuel + 1) distance (fun i c => fit.train i c) = .ok par := hpar
  erw [h2']
  rfl

/-- **C128** for ACOrdinal. -/
theorem C128_aco (ops : EstOps σ D α k) (sv : CvxSolver) (hsv : ExactCvx sv) (P : List α) (hP : P.length = r * y.length) (hPy : ∀ a ∈ P, a ∈ y)
    (hid : Identifiable fun i j : Fin (labelsOf y).length => ∑ l, if l ≤ i then condFreq (stacked y r) P (labelsOf y)[j] (labelsOf y)[l] else 0)
    (bag : List (α × α)) (hs : PriorShift ((stacked y r).zip P) bag) :
    ucRun ops enc w ⟨acoClass sv, et, et'⟩ X y (some (.crisp P)) Xt (some (.crisp (bag.map Prod.snd))) = rightAnswer y bag := by
  rw [rightAnswer_eq]
  have hl : (stacked y r).length = P.length := by rw [stacked_length, hP]
  have hbne : bag.map Prod.snd ≠ [] := by simpa using hs.nonempty
  have hp := hs.bagPrevs_isPrev (stacked_mem_iff y r hr) hl
  rw [ucRun_given_crisp ops enc w X Xt y (acoClass sv) rfl rfl et et' hy r P _ hP]
  have hcm : confusionMatrix (npUnique y) (stacked y r) P = .ok fun i j => ((stacked y r).zip P).count ((npUnique y)[i], (npUnique y)[j]) := by
    unfold confusionMatrix
    rw [if_pos (by rw [stacked_length, hP])]
  have hnr : (normalizeRows fun i j : Fin (npUnique y).length => ((stacked y r).zip P).count ((npUnique y)[i], (npUnique y)[j])) = fun i j => Fl.fin (cmReal y r P i j) := normalizeRows_eq y r hr P hP hPy
  set Q := bag.map Prod.snd with hQ
  have htest : accumArr (classFreqs (npUnique y) Q) = fun i => Fl.fin (cumsum (freqs (npUnique y) Q) i) := by rw [classFreqs_fin _ _ hbne, accumArr_fin]
  have htr : ∀ i j : Fin (npUnique y).length, accumArr (fun l : Fin (npUnique y).length => Fl.fin (cmReal y r P j l)) i = Fl.fin (cumsum (fun l => cmReal y r P j l) i) := fun i j => congrFun (accumArr_fin (cmReal y r P j)) i
  have hfin : (∀ i j : Fin (npUnique y).length, flFinite (accumArr (fun l : Fin (npUnique y).length => Fl.fin (cmReal y r P j l)) i)) ∧ ∀ i, flFinite (accumArr (classFreqs (npUnique y) Q) i) := by
    refine ⟨fun i j => ?_, fun i => ?_⟩
    · rw [htr]; trivial
    · rw [htest]; trivial
  have hvec : (fun i => flReal (accumArr (classFreqs (npUnique y) Q) i)) = fun i => ∑ j, cumsum (fun l => cmReal y r P j l) i * bagPrevs y bag j := by
    funext i
    rw [htest]
    refine Eq.trans ?_ (cumsum_mixture (fun j l => cmReal y r P j l) (bagPrevs y bag) i)
    exact congrArg (fun v => cumsum v i) (funext fun j => (freqs_shift y r hr P hl bag hs j).trans (Finset.sum_congr rfl fun c _ => mul_comm _ _))
  have hmat : (fun i j => flReal (accumArr (fun l : Fin (npUnique y).length => Fl.fin (cmReal y r P j l)) i)) = fun i j => cumsum (fun l => cmReal y r P j l) i := by
    funext i j
    exact congrArg flReal (htr i j)
  have e : answerOn (k := k) (acoClass sv) y r (.crisp P) (.crisp Q)
      = (acoSolve sv ⟨⟨npUnique y, fun i j => Fl.fin (cmReal y r P i j), fun i j => accumArr (fun l => Fl.fin (cmReal y r P j l)) i⟩, none⟩ (accumArr (classFreqs (npUnique y) Q))).2 := by
    simp only [answerOn, learnAnswer, fittedState, acoClass, trainData, crispLabels, if_true, bind, Except.bind, hcm, pure, Except.pure, hnr]
    exact congrArg Prod.snd (dif_neg (not_not.2 rfl))
  rw [e]
  simp only [acoSolve, warmPredict]
  erw [if_pos hfin]
  simp only [hvec]
  obtain ⟨pr, h1⟩ := C81_l1_recovers_mixture sv hsv (labels_pos y hy) (fun i j : Fin (labelsOf y).length => cumsum (fun l => cmReal y r P j l) i)
    (fun i j => cumsum_nonneg _ (fun l => by unfold cmReal condFreq; positivity) i) hid (bagPrevs y bag) hp
  have h1' : solveCvx sv .l1 ⟨(npUnique y).length, (npUnique y).length, fun i j => flReal (accumArr (fun l : Fin (npUnique y).length => Fl.fin (cmReal y r P j l)) i)⟩
      ⟨(npUnique y).length, fun i => ∑ j, cumsum (fun l => cmReal y r P j l) i * bagPrevs y bag j⟩ none = .ok (pr, ⟨(npUnique y).length, bagPrevs y bag⟩) :=
    (congrArg (fun T => solveCvx sv .l1 ⟨(npUnique y).length, (npUnique y).length, T⟩ ⟨(npUnique y).length, fun i => ∑ j, cumsum (fun l => cmReal y r P j l) i * bagPrevs y bag j⟩ none) hmat).trans h1
  erw [h1']
  rfl

/-- **C128** for PDFOrdinaly with 'full_probabilistic', three classes or more. `T` are the histograms of the expected positions of the examples of each class. -/
theorem C128_pdfo (ops : EstOps σ D α (labelsOf y).length) (h3 : 2 < (labelsOf y).length) (sv : CvxSolver) (hsv : ExactCvx sv) (qp : QPSolver) (hqp : ExactQP qp) (la : LinAlg (labelsOf y).length) (hla : ExactLinAlg la) (fuel nBins : ℕ)
    (hb : 0 < nBins) (dist : OrdDist) (hd : dist ≠ .other) (P : List (Fin (labelsOf y).length → ℝ)) (hP : P.length = r * y.length) (hPp : ∀ row ∈ P, IsPrev row)
    (bag : List (α × (Fin (labelsOf y).length → ℝ))) (hQ : ∀ row ∈ bag.map Prod.snd, IsPrev row) (hs : PriorShift ((stacked y r).zip P) bag)
    (T : Matrix (Fin (nBins * ((labelsOf y).length - 1))) (Fin (labelsOf y).length) ℝ)
    (hT : T = fun b c => positionPdf (nBins * ((labelsOf y).length - 1)) (ofClass ((stacked y r).zip P) (labelsOf y)[c]) b)
    (hid : if dist = .l2 then ∀ x : Fin (labelsOf y).length → ℝ, (∀ i, ∑ j, T i j * x j = 0) → x = 0 else Identifiable T) :
    ucRun ops enc w ⟨pdfoClass sv qp la (fuel + 1) nBins .fullProbabilistic dist, et, et'⟩ X y (some (.probs P)) Xt (some (.probs (bag.map Prod.snd))) = rightAnswer y bag := by
  rw [rightAnswer_eq]
  have hl : (stacked y r).length = P.length := by rw [stacked_length, hP]
  have hbne : bag.map Prod.snd ≠ [] := by simpa using hs.nonempty
  have hp := hs.bagPrevs_isPrev (stacked_mem_iff y r hr) hl
  rw [ucRun_given_probs ops enc w X Xt y (pdfoClass sv qp la (fuel + 1) nBins .fullProbabilistic dist) rfl rfl et et' hy r P _ hP]
  have haP : Admissible .fullProbabilistic P := ⟨hPp, Or.inl rfl⟩
  have haQ : Admissible .fullProbabilistic (bag.map Prod.snd) := ⟨hQ, Or.inl rfl⟩
  have hcl : ∀ c : Fin (labelsOf y).length, (labelsOf y)[c] ∈ stacked y r := fun c => stacked_mem y r hr _ ((mem_labelsOf y _).1 (List.getElem_mem _))
  have hfit := pdfoFit_eq la (fuel + 1) nBins .fullProbabilistic dist h3 hb (fun i : Fin (labelsOf y).length => (labelsOf y)[i]) (stacked y r) P hl haP
  obtain ⟨f, hf⟩ : ∃ f, pdfoFit la (fuel + 1) nBins .fullProbabilistic dist (fun i : Fin (labelsOf y).length => (labelsOf y)[i]) (stacked y r) P = .ok f := ⟨_, hfit⟩
  have hTc : classPdfs (nBins * ((labelsOf y).length - 1)) (fun i : Fin (labelsOf y).length => (labelsOf y)[i]) (stacked y r) P = T := hT.symm
  have hcount : ∀ (b : Fin (nBins * ((labelsOf y).length - 1))) (l : List (Fin (labelsOf y).length → ℝ)), positionPdf (nBins * ((labelsOf y).length - 1)) l b
      = (l.map fun row => evenBinShare 1 (labelsOf y).length (nBins * ((labelsOf y).length - 1)) [expectedPosition row] b).sum / l.length := by
    intro b l
    unfold positionPdf evenBinShare
    rw [List.length_map]
    congr 1
    induction l with
    | nil => simp
    | cons a l ih =>
      rw [List.map_cons, List.countP_cons, Nat.cast_add, ih, List.map_cons, List.sum_cons, add_comm]
      simp [List.countP_cons]
  have hmix : mixtureOf T (bagPrevs y bag) = positionPdf (nBins * ((labelsOf y).length - 1)) (bag.map Prod.snd) := by
    funext b
    rw [hcount, hs.mean_labels (stacked_mem_iff y r hr)]
    unfold mixtureOf
    refine Finset.sum_congr rfl fun c _ => ?_
    rw [hT, ← hcount]
    rfl
  have hid' : dist ≠ .l2 → Identifiable T := fun h => by rwa [if_neg h] at hid
  have huniq : ∀ x : Fin (labelsOf y).length → ℝ, IsPrev x → dist ≠ .l2 → mixtureOf T x = mixtureOf T (bagPrevs y bag) → x = bagPrevs y bag := fun x hx hne h => hid' hne x _ hx hp fun i => congrFun h i
  have hT0 : ∀ i j, 0 ≤ T i j := by
    intro i j
    rw [hT]
    exact (positionPdf_isPrev h3.le _ (Nat.mul_pos hb (by omega)) _ (selectRows_ne hl (hcl j)) fun row hrow => hPp row (mem_selectRows _ _ _ _ hrow)).1 i
  have : (pdfoPredict sv qp .fullProbabilistic dist ⟨f, none⟩ (bag.map Prod.snd)).2 = .ok (some ⟨_, bagPrevs y bag⟩) := by
    cases dist with
    | other => exact absurd rfl hd
    | emd =>
      obtain ⟨x, h1, h2, h4⟩ := C104_emd_optimal sv hsv qp la (fuel + 1) nBins .fullProbabilistic h3 hb _ _ P hl haP hcl f f hf [] rfl (bag.map Prod.snd) hbne haQ
      have h5 := h4 _ hp
      rw [hTc, hmix] at h5
      have h6 : emd (positionPdf (nBins * ((labelsOf y).length - 1)) (bag.map Prod.snd)) (positionPdf (nBins * ((labelsOf y).length - 1)) (bag.map Prod.snd)) = 0 := by simp [emd, cumsum]
      rw [h6] at h5
      have h7 := (emd_eq_zero_iff _ _).1 (le_antisymm h5 (Finset.sum_nonneg fun _ _ => abs_nonneg _))
      rw [← huniq x h2 (by simp) (h7.trans hmix.symm)]
      exact h1
    | hd =>
      obtain ⟨x, h1, h2, h4⟩ := C105_hd_optimal sv hsv qp la (fuel + 1) nBins .fullProbabilistic h3 hb _ _ P hl haP hcl f f hf [] rfl (bag.map Prod.snd) hbne haQ
      have h5 := h4 _ hp
      rw [hTc, hmix] at h5
      have h6 : hellingerSq (positionPdf (nBins * ((labelsOf y).length - 1)) (bag.map Prod.snd)) (positionPdf (nBins * ((labelsOf y).length - 1)) (bag.map Prod.snd)) = 0 := by simp [hellingerSq]
      rw [h6] at h5
      have h7 : hellingerSq (positionPdf (nBins * ((labelsOf y).length - 1)) (bag.map Prod.snd)) (mixtureOf T x) = 0 := le_antisymm h5 (Finset.sum_nonneg fun _ _ => sq_nonneg _)
      unfold hellingerSq at h7
      rw [Finset.sum_eq_zero_iff_of_nonneg fun k _ => sq_nonneg _] at h7
      have h8 : mixtureOf T x = mixtureOf T (bagPrevs y bag) := by
        rw [← hmix] at h7
        funext b
        have h9 := sub_eq_zero.1 ((pow_eq_zero_iff two_ne_zero).1 (h7 b (Finset.mem_univ b)))
        exact ((Real.sqrt_inj (mulVec_nonneg hT0 hp b) (mulVec_nonneg hT0 h2 b)).1 h9).symm
      rw [← huniq x h2 (by simp) h8]
      exact h1
    | l2 =>
      rw [if_pos rfl] at hid
      obtain ⟨x, h1, h2, -, h4⟩ := C105_l2_optimal sv qp hqp la hla fuel nBins .fullProbabilistic h3 hb _ _ P hl haP f f hf [] rfl (bag.map Prod.snd) haQ
      rw [hTc] at h4
      have h5 := h4 (fun v hv => hid v fun i => congrFun hv i) _ hp
      rw [← l2_unique T hid (bagPrevs y bag) x x _ (fun i => (congrFun hmix i).symm) h5]
      exact h1
  change answerOn (pdfoClass (k := (npUnique y).length) sv qp la (fuel + 1) nBins .fullProbabilistic dist) y r (.probs P) (.probs (bag.map Prod.snd)) = _
  have hf' : pdfoFit la (fuel + 1) nBins .fullProbabilistic dist (fun i : Fin (npUnique y).length => (npUnique y)[i]) (stacked y r) P = .ok f := hf
  simp only [answerOn, learnAnswer, fittedState, pdfoClass, trainData, probRows, columnsAre_self, if_true, bind, Except.bind]
  simp only [Fin.cast_eq_self]
  erw [hf']
  simp only [pure, Except.pure]
  erw [this]
  rfl

end

/-- Exact recovery by the energy quantifiers, from the mixture of the average distances. -/
theorem ed_recovers {P : Type*} {α : Type*} [DecidableEq α] {n : ℕ} (hn : 0 < n) (qp : QPSolver) (hqp : ExactQP qp) (la : LinAlg n) (d : P → P → ℝ) (hd : ∀ x y, d x y = d y x) (classes : Fin (n + 1) → α) (y : List α)
    (rows : List P) (hlen : y.length = rows.length) (hcl : ∀ i, classes i ∈ y) (hsep : Separated d fun i => ofClass (y.zip rows) (classes i)) (test : List P) (hne : test ≠ []) (q : Fin (n + 1) → ℝ) (hq : IsPrev q)
    (hmix : ∀ i, avgDist d (ofClass (y.zip rows) (classes i)) test = ∑ j, q j * avgDist d (ofClass (y.zip rows) (classes i)) (ofClass (y.zip rows) (classes j))) (fuel : ℕ) :
    ∃ f, edFit la fuel d classes y rows = some f ∧ edPredict qp d f test = .ok q := by
  have htrain : ∀ i, ofClass (y.zip rows) (classes i) ≠ [] := fun i => selectRows_ne hlen (hcl i)
  set train := fun i => ofClass (y.zip rows) (classes i) with htr
  obtain ⟨par, p, h1, h2, h3, h4⟩ := C28_energy hn qp hqp la d hd train test htrain hne fuel hsep
  refine ⟨⟨train, edK d train, par⟩, ?_, ?_⟩
  · unfold edFit
    show Option.map _ (computeEdParamTrain la fuel (edK d train)) = _
    rw [h1]
    rfl
  · have hle := h4 _ hq
    have hsub := energyLoss_sub d hd train test q hmix p
    have hpq : p = q := by
      by_contra hne
      have := hsep (fun i => p i - q i) (by rw [Finset.sum_sub_distrib, h3.2, hq.2, sub_self]) (fun h => hne (by funext i; exact sub_eq_zero.1 (congrFun h i)))
      linarith
    rw [← hpq]
    exact h2

/-- Average distances to a bag under prior probability shift. -/
theorem avgDist_shift {P : Type*} {α : Type*} [DecidableEq α] {m : ℕ} (d : P → P → ℝ) (cls : Fin m → α) (hinj : Function.Injective cls) {y : List α} {rows : List P} (hall : ∀ a ∈ y, ∃ c, cls c = a) (A : List P)
    {bag : List (α × P)} (hs : PriorShift (y.zip rows) bag) (g : P → P) :
    avgDist d A ((bag.map Prod.snd).map g) = ∑ c, freq (bag.map Prod.fst) (cls c) * avgDist d A ((ofClass (y.zip rows) (cls c)).map g) := by
  have key : ∀ B : List P, avgDist d A (B.map g) = (B.map fun b => (A.map fun a => d a (g b)).sum / A.length).sum / B.length := by
    intro B
    unfold avgDist
    rw [List.length_map, ← div_div]
    congr 1
    induction B with
    | nil => simp
    | cons b B ih =>
      rw [List.map_cons, List.map_cons, List.sum_cons, ← ih, ← add_div]
      congr 1
      simp only [List.map_cons, List.sum_cons]
      rw [List.sum_map_add]
  rw [key, hs.mean cls hinj hall]
  refine Finset.sum_congr rfl fun c _ => ?_
  rw [key, mul_comm]
  rfl

theorem rightAnswer_cast {α β : Type*} [LinearOrder α] (y : List α) (bag : List (α × β)) {n : ℕ} (hk : (labelsOf y).length = n) :
    (.ok (some (realList fun i : Fin n => freq (bag.map Prod.fst) (labelsOf y)[Fin.cast hk.symm i])) : Except Err (Option (List Fl))) = rightAnswer y bag := by
  rw [rightAnswer_eq]
  subst hk
  rfl

section
variable {σ D α : Type} {n : ℕ} [LinearOrder α] (enc : Bool → α) (w : World σ D α) (et et' : Option ℕ) (X Xt : List D) (y : List α) (hy : y ≠ []) (r : ℕ) (hr : 0 < r)
include hy hr

/-- **C128** for EDy: two classes or more, separated by the energy distance. -/
theorem C128_edy (ops : EstOps σ D α (n + 1)) (hn : 0 < n) (hk : (labelsOf y).length = n + 1) (qp : QPSolver) (hqp : ExactQP qp) (la : LinAlg n) (fuel : ℕ) (d : (Fin (n + 1) → ℝ) → (Fin (n + 1) → ℝ) → ℝ) (hd : ∀ x y, d x y = d y x)
    (P : List (Fin (n + 1) → ℝ)) (hP : P.length = r * y.length) (hsep : Separated d fun i => ofClass ((stacked y r).zip P) (labelsOf y)[Fin.cast hk.symm i])
    (bag : List (α × (Fin (n + 1) → ℝ))) (hs : PriorShift ((stacked y r).zip P) bag) :
    ucRun ops enc w ⟨edyClass qp la fuel d, et, et'⟩ X y (some (.probs P)) Xt (some (.probs (bag.map Prod.snd))) = rightAnswer y bag := by
  rw [rightAnswer_eq]
  have hl : (stacked y r).length = P.length := by rw [stacked_length, hP]
  have hbne : bag.map Prod.snd ≠ [] := by simpa using hs.nonempty
  have hinj : Function.Injective fun i : Fin (n + 1) => (labelsOf y)[Fin.cast hk.symm i] := fun i j h => Fin.cast_injective hk.symm (getElem_inj_of_nodup (labelsOf_nodup y) h)
  have hmem : ∀ i : Fin (n + 1), (labelsOf y)[Fin.cast hk.symm i] ∈ stacked y r := fun i => stacked_mem y r hr _ ((mem_labelsOf y _).1 (List.getElem_mem _))
  have hall : ∀ a ∈ stacked y r, ∃ i : Fin (n + 1), (labelsOf y)[Fin.cast hk.symm i] = a := fun a ha => by
    obtain ⟨i, hi⟩ := exists_getElem_of_mem ((mem_labelsOf y a).2 ((stacked_mem_iff y r hr a).1 ha))
    exact ⟨Fin.cast hk i, hi⟩
  have hp := hs.isPrev hl _ hinj hall hmem
  obtain ⟨f, h1, h2⟩ := ed_recovers hn qp hqp la d hd _ (stacked y r) P hl hmem hsep _ hbne _ hp (fun i => by
    have := avgDist_shift d _ hinj hall (ofClass ((stacked y r).zip P) (labelsOf y)[Fin.cast hk.symm i]) hs id
    simpa using this) fuel
  rw [ucRun_given_probs ops enc w X Xt y (edyClass qp la fuel d) rfl rfl et et' hy r P _ hP, ← rightAnswer_eq, ← rightAnswer_cast y bag hk]
  have h1' : edFit la fuel d (fun i => (npUnique y)[Fin.cast (show n + 1 = (npUnique y).length from hk.symm) i]) (stacked y r) P = some f := h1
  simp only [answerOn, learnAnswer, fittedState, edyClass, trainData, probRows, columnsAre, if_true, bind, Except.bind, keep, hl, ne_eq, not_true_eq_false, if_false]
  rw [dif_pos (show (npUnique y).length = n + 1 from hk)]
  simp only [h1', h2, Except.map]

/-- **C128** for CvMy: the same for the ranks of the predictions among those of the training set and the bag. -/
theorem C128_cvmy (ops : EstOps σ D α (n + 1)) (hn : 0 < n) (hk : (labelsOf y).length = n + 1) (qp : QPSolver) (hqp : ExactQP qp) (la : LinAlg n) (fuel : ℕ) (d : (Fin (n + 1) → ℝ) → (Fin (n + 1) → ℝ) → ℝ) (hd : ∀ x y, d x y = d y x)
    (P : List (Fin (n + 1) → ℝ)) (hP : P.length = r * y.length) (bag : List (α × (Fin (n + 1) → ℝ)))
    (hsep : Separated d fun i => (ofClass ((stacked y r).zip P) (labelsOf y)[Fin.cast hk.symm i]).map (rankRow (P ++ bag.map Prod.snd))) (hs : PriorShift ((stacked y r).zip P) bag) :
    ucRun ops enc w ⟨cvmyClass qp la fuel d, et, et'⟩ X y (some (.probs P)) Xt (some (.probs (bag.map Prod.snd))) = rightAnswer y bag := by
  rw [rightAnswer_eq]
  have hl : (stacked y r).length = P.length := by rw [stacked_length, hP]
  have hbne : bag.map Prod.snd ≠ [] := by simpa using hs.nonempty
  have hinj : Function.Injective fun i : Fin (n + 1) => (labelsOf y)[Fin.cast hk.symm i] := fun i j h => Fin.cast_injective hk.symm (getElem_inj_of_nodup (labelsOf_nodup y) h)
  have hmem : ∀ i : Fin (n + 1), (labelsOf y)[Fin.cast hk.symm i] ∈ stacked y r := fun i => stacked_mem y r hr _ ((mem_labelsOf y _).1 (List.getElem_mem _))
  have hall : ∀ a ∈ stacked y r, ∃ i : Fin (n + 1), (labelsOf y)[Fin.cast hk.symm i] = a := fun a ha => by
    obtain ⟨i, hi⟩ := exists_getElem_of_mem ((mem_labelsOf y a).2 ((stacked_mem_iff y r hr a).1 ha))
    exact ⟨Fin.cast hk i, hi⟩
  have hp := hs.isPrev hl _ hinj hall hmem
  have hmap : ∀ c, ofClass ((stacked y r).zip (P.map (rankRow (P ++ bag.map Prod.snd)))) c = (ofClass ((stacked y r).zip P) c).map (rankRow (P ++ bag.map Prod.snd)) := fun c => classRows_map _ _ _ _
  obtain ⟨f, h1, h2⟩ := ed_recovers hn qp hqp la d hd (fun i : Fin (n + 1) => (labelsOf y)[Fin.cast hk.symm i]) (stacked y r) (P.map (rankRow (P ++ bag.map Prod.snd))) (by rw [List.length_map, hl]) hmem
    (by simp only [hmap]; exact hsep) ((bag.map Prod.snd).map (rankRow (P ++ bag.map Prod.snd))) (by simpa using hbne) _ hp (fun i => by
      simp only [hmap]
      exact avgDist_shift d _ hinj hall _ hs _) fuel
  rw [ucRun_given_probs ops enc w X Xt y (cvmyClass qp la fuel d) rfl rfl et et' hy r P _ hP, ← rightAnswer_eq, ← rightAnswer_cast y bag hk]
  have h3 : cvmPredict la fuel qp d (fun i : Fin (n + 1) => (labelsOf y)[Fin.cast hk.symm i]) (stacked y r) P (bag.map Prod.snd) = some (.ok fun i => freq (bag.map Prod.fst) (labelsOf y)[Fin.cast hk.symm i]) := by
    unfold cvmPredict
    simp only [h1, Option.map_some, h2]
  simp only [answerOn, learnAnswer, fittedState, cvmyClass, trainData, probRows, columnsAre, if_true, bind, Except.bind, keep, hl, ne_eq, not_true_eq_false, if_false, Option.getD_some]
  rw [dif_pos hk]
  simp only [h3, Except.map]

end

/-! ## Methods that use no classifier -/

/-- **C128** for EDX: the examples are compared directly. -/
theorem C128_edx {β α : Type*} [LinearOrder α] {n : ℕ} (y : List α) (hn : 0 < n) (hk : (labelsOf y).length = n + 1) (qp : QPSolver) (hqp : ExactQP qp) (la : LinAlg n) (fuel : ℕ) (d : β → β → ℝ) (hd : ∀ x y, d x y = d y x)
    (X : List β) (hX : y.length = X.length) (hsep : Separated d fun i => ofClass (y.zip X) (labelsOf y)[Fin.cast hk.symm i]) (bag : List (α × β)) (hs : PriorShift (y.zip X) bag) :
    ∃ f, edFit la fuel d (fun i => (labelsOf y)[Fin.cast hk.symm i]) y X = some f
      ∧ edPredict qp d f (bag.map Prod.snd) = .ok fun i => freq (bag.map Prod.fst) (labelsOf y)[Fin.cast hk.symm i] := by
  have hinj : Function.Injective fun i : Fin (n + 1) => (labelsOf y)[Fin.cast hk.symm i] := fun i j h => Fin.cast_injective hk.symm (getElem_inj_of_nodup (labelsOf_nodup' y) h)
  have hmem : ∀ i : Fin (n + 1), (labelsOf y)[Fin.cast hk.symm i] ∈ y := fun i => (mem_labelsOf' y _).1 (List.getElem_mem _)
  have hall : ∀ a ∈ y, ∃ i : Fin (n + 1), (labelsOf y)[Fin.cast hk.symm i] = a := fun a ha => by
    obtain ⟨i, hi⟩ := exists_getElem_of_mem ((mem_labelsOf' y a).2 ha)
    exact ⟨Fin.cast hk i, hi⟩
  exact ed_recovers hn qp hqp la d hd _ y X hX hmem hsep _ (by simpa using hs.nonempty) _ (hs.isPrev hX _ hinj hall hmem) (fun i => by
    have := avgDist_shift d _ hinj hall (ofClass (y.zip X) (labelsOf y)[Fin.cast hk.symm i]) hs id
    simpa using this) fuel

/-- **C128** for DFX (and HDX, MMX): `par` are the parameters computed by `fit` for 'L2'. -/
theorem C128_dfx {α : Type} [LinearOrder α] {nf : ℕ} (y : List α) (hy : y ≠ []) (sv : CvxSolver) (hsv : ExactCvx sv) (qp : QPSolver) (hqp : ExactQP qp) (ppf : ℝ → EReal) (la : LinAlg (labelsOf y).length) (hla : ExactLinAlg la)
    (fuel : ℕ) (tol : ℝ) (cfg : DfCfg) (distance : DfDistance (nf * cfg.nBins)) (X : List (Fin nf → ℝ)) (hX : y.length = X.length) (fit : DfFit nf cfg.nBins (labelsOf y).length) (hfit : dfxFit ppf cfg (labelsOf y) y X = .ok fit)
    (hd : Distinguishes distance fit.train) (par : QPParams (labelsOf y).length ((labelsOf y).length + 1)) (hpar : distance = .l2 → computeL2ParamTrain la (fuel + 1) fit.train = some par)
    (bag : List (α × (Fin nf → ℝ))) (hs : PriorShift (y.zip X) bag) :
    ∃ q, dfxTest cfg fit (bag.map Prod.snd) = .ok q ∧ dfSolve sv qp tol distance fit.train par q = .ok (some ⟨_, bagPrevs y bag⟩) := by
  have hp := hs.bagPrevs_isPrev (fun _ => Iff.rfl) hX
  obtain ⟨h0, q, hq, hmix⟩ := df_shift ppf .perBlock cfg none _ y y hy (fun _ => Iff.rfl) X fit hfit bag hs
  refine ⟨q, hq, ?_⟩
  obtain rfl : q = fun i => ∑ j, fit.train i j * bagPrevs y bag j := funext hmix
  cases distance with
  | fn d => exact hd.elim
  | l1 =>
    obtain ⟨pr, h1⟩ := C81_l1_recovers_mixture sv hsv (labels_pos y hy) fit.train h0 hd _ hp
    simp only [dfSolve, h1, Except.map]
  | hd =>
    obtain ⟨h1, s, h2⟩ := hd
    obtain ⟨pr, h1⟩ := C81_hd_recovers_mixture_partial sv hsv (labels_pos y hy) fit.train h0 s h2 h1 _ hp
    simp only [dfSolve, h1, Except.map]
  | l2 =>
    obtain ⟨par', x, h1, h2, h3, h4⟩ := C26_l2_exact qp hqp la hla (labels_pos y hy) fit.train (fun i => ∑ j, fit.train i j * bagPrevs y bag j) fuel fun x hx => hd x fun i => congrFun hx i
    obtain rfl : par' = par := Option.some.inj (h1.symm.trans (hpar rfl))
    have := l2_unique fit.train hd (bagPrevs y bag) x x _ (fun _ => rfl) (h4 _ hp)
    simp only [dfSolve, h2, Except.map, this]

/-! ## HDy with the default arguments, SORDy -/

theorem sum_of_blocks {nd nb : ℕ} (v : Fin (nd * nb) → ℝ) (h : ∀ d, IsPrev (blockOf v d)) : ∑ i, v i = nd := by
  rw [← finProdFinEquiv.sum_comp, Fintype.sum_prod_type]
  have : ∀ d, ∑ b, v (finProdFinEquiv (d, b)) = 1 := fun d => (h d).2
  simp [this]

/-- **C128** for histograms of densities with bins that cover all the predictions (equal width, or equal count with enough predictions) and the Hellinger distance: it is enough that different prevalences give
different mixtures of the histograms of the classes. -/
theorem C128_hdy {σ D α : Type} [LinearOrder α] (enc : Bool → α) (w : World σ D α) (et et' : Option ℕ) (X Xt : List D) (y : List α) (hy : y ≠ []) (r : ℕ) (hr : 0 < r) (ops : EstOps σ D α (labelsOf y).length) (sv : CvxSolver)
    (hsv : ExactCvx sv) (qp : QPSolver) (hqp : ExactQP qp) (ppf : ℝ → EReal) (la : LinAlg (labelsOf y).length) (hla : ExactLinAlg la) (fuel : ℕ) (tol : ℝ) (cfg : DfCfg) (hf : cfg.f = .pdf) (hnb : 0 < cfg.nBins)
    (P : List (Fin (labelsOf y).length → ℝ)) (hP : P.length = r * y.length) (hsp : SpanningStrategy cfg P.length) (bag : List (α × (Fin (labelsOf y).length → ℝ))) (hs : PriorShift ((stacked y r).zip P) bag) :
    ∃ fit : DfFit (nDescriptors (labelsOf y).length) cfg.nBins (labelsOf y).length, dfyFit ppf cfg (labelsOf y) y (stacked y r) P = .ok fit
      ∧ (∀ c d, blockOf (fun i => fit.train i c) d = binShare (fit.cuts d) ((ofClass ((stacked y r).zip P) (labelsOf y)[c]).map (dfyAtt (labelsOf y).length d)))
      ∧ (Identifiable fit.train →
        ucRun ops enc w ⟨dfyClass ppf sv qp la (fuel + 1) tol cfg .hd, et, et'⟩ X y (some (.probs P)) Xt (some (.probs (bag.map Prod.snd))) = rightAnswer y bag) := by
  have hl : (stacked y r).length = P.length := by rw [stacked_length, hP]
  have hPne : P ≠ [] := by
    intro h
    rw [h, List.length_nil] at hP
    have := Nat.mul_pos hr (List.length_pos_of_ne_nil hy)
    omega
  obtain ⟨fit, h1, -, h3, -⟩ := C43_dfy_distributions ppf cfg hf hnb (labelsOf y) y (stacked y r) P hPne hl (fun c hc => stacked_mem y r hr c ((mem_labelsOf y c).1 hc)) hsp
  refine ⟨fit, h1, fun c d => (h3 c d).1, fun hid => ?_⟩
  exact C128_dfy enc w et et' X Xt y hy r hr ops sv hsv qp hqp ppf la hla fuel tol cfg .hd P hP fit h1 ⟨hid, _, fun c => sum_of_blocks _ fun d => (h3 c d).2⟩ bag hs

/-- **C128** for SORDy, whose search has a tolerance: it answers the prevalences of the bag with an error of at most half of its tolerance, if the scores of the two classes have different distributions. -/
theorem C128_sordy {σ D : Type} (enc : Bool → ℤ) (w : World σ D ℤ) (et et' : Option ℕ) (X Xt : List D) (ops : EstOps σ D ℤ 2) (sort : List (ℝ × ℤ) → List (ℝ × ℤ)) (hsort : IsSort sort) (tol : ℝ) (htol : 0 < tol)
    (y : List ℤ) (c0 c1 : ℤ) (hc : labelsOf y = [c0, c1]) (P : List (Fin 2 → ℝ)) (hP : P.length = y.length)
    (hdiff : ∃ t, ecdf ((ofClass (y.zip P) c0).map fun row => row 1) t ≠ ecdf ((ofClass (y.zip P) c1).map fun row => row 1) t) (bag : List (ℤ × (Fin 2 → ℝ))) (hs : PriorShift (y.zip P) bag) :
    ∃ v : Fin 2 → ℝ, ucRun ops enc w ⟨sordyClass 0 sort tol, et, et'⟩ X y (some (.probs P)) Xt (some (.probs (bag.map Prod.snd))) = .ok (some (realList v))
      ∧ |v 1 - freq (bag.map Prod.fst) c1| ≤ tol / 2 := by
  have hy : y ≠ [] := by rintro rfl; rw [show labelsOf ([] : List ℤ) = [] from labelsOf_eq _ _ (by decide) (by decide)] at hc; cases hc
  have hlt : c0 ≠ c1 := by
    have := labelsOf_nodup y
    rw [hc] at this
    simpa using this
  have hmem : ∀ a, a ∈ y ↔ a = c0 ∨ a = c1 := fun a => by rw [← mem_labelsOf y a, hc]; simp
  have hinj : Function.Injective ![c0, c1] := by
    intro i j h
    fin_cases i <;> fin_cases j <;> simp_all
  have hall : ∀ a ∈ y, ∃ i : Fin 2, ![c0, c1] i = a := fun a ha => by
    rcases (hmem a).1 ha with rfl | rfl
    · exact ⟨0, rfl⟩
    · exact ⟨1, rfl⟩
  have hin : ∀ i, ![c0, c1] i ∈ y := by
    intro i
    fin_cases i
    · exact (hmem c0).2 (.inl rfl)
    · exact (hmem c1).2 (.inr rfl)
  have hp := hs.isPrev hP.symm _ hinj hall hin
  have hsum := hp.2
  simp only [Fin.sum_univ_two, Matrix.cons_val_zero, Matrix.cons_val_one] at hsum
  have hsc : ∀ c, scoresOf ((P.map fun row => row 1).zip y) c = (ofClass (y.zip P) c).map fun row => row 1 := by
    intro c
    unfold scoresOf ofClass
    have e : (P.map fun row => row 1).zip y = (y.zip P).map fun t => (t.2 1, t.1) := by
      clear hs hdiff hp hsum
      generalize hP = h
      clear hmem hall hin hc hy
      induction y generalizing P with
      | nil => simp
      | cons a y ih =>
        cases P with
        | nil => simp at hP
        | cons b P => simp [ih P (by simpa using hP) (by simpa using hP)]
    rw [e, List.filter_map, List.map_map, List.map_map]
    rfl
  have hecdf : ∀ (l : List (Fin 2 → ℝ)) t, ecdf (l.map fun row => row 1) t = (l.map fun row => if row 1 ≤ t then (1:ℝ) else 0).sum / l.length := by
    intro l t
    unfold ecdf
    rw [List.length_map]
    congr 1
    induction l with
    | nil => simp
    | cons a l ih =>
      rw [List.map_cons, List.countP_cons, Nat.cast_add, ih, List.map_cons, List.sum_cons, add_comm]
      simp
  obtain ⟨f, v, h1, h3, h4⟩ := C80_sordy_consistent sort hsort tol htol y (P.map fun row => row 1) (by simpa using hP) c0 c1 hc ((bag.map Prod.snd).map fun row => row 1) (by simpa using hs.nonempty)
    (freq (bag.map Prod.fst) c1) ⟨hp.1 1, by have := hp.1 0; simp only [Matrix.cons_val_zero] at this; linarith⟩ (fun t => by
      rw [hsc, hsc, hecdf, hecdf, hecdf, hs.mean _ hinj hall, Fin.sum_univ_two]
      simp only [Matrix.cons_val_zero, Matrix.cons_val_one]
      rw [show 1 - freq (bag.map Prod.fst) c1 = freq (bag.map Prod.fst) c0 by linarith, mul_comm, mul_comm (freq _ c1)]
      rfl) (by simpa only [hsc] using hdiff)
  refine ⟨v, ?_, h4⟩
  rw [ucRun_given_probs ops enc w X Xt y (sordyClass 0 sort tol) rfl rfl et et' hy 1 P _ (by rw [hP, one_mul])]
  have hst : stacked y 1 = y := by simp [stacked]
  have hc' : ¬ 2 < (npUnique y).length := by rw [npUnique_eq_labelsOf, hc]; simp
  unfold sordyFit at h1
  rw [if_neg hc'] at h1
  simp only [answerOn, learnAnswer, fittedState, sordyClass, trainData, probRows, if_true, bind, Except.bind, hst, hc', if_false, hP, keep, pure, Except.pure, gt_iff_lt]
  change Except.map some (Except.map realList (sordyPredict sort tol ⟨npUnique y, sort ((P.map fun r => r 1).zip y)⟩ ((bag.map Prod.snd).map fun r => r 1))) = _
  rw [Except.ok.inj h1, h3]
  rfl

/-- **C128**, with a classifier: `fit` and `predict` without predictions do the same as when they are given the predictions of the trained estimators, so the theorems above apply to them. -/
theorem C128_own_classifier {σ D α : Type} {k : ℕ} [LinearOrder α] (ops : EstOps σ D α k) (enc : Bool → α) (w : World σ D α) (e e' : ℕ) (X Xt : List D) (y : List α) (hy : y ≠ []) (cls : UcClass α k) (hpre : cls.pre y = none)
    (hops : ProperClassifier ops y) (hX : X.length = y.length) :
    ucRun ops enc w ⟨cls, some e, some e'⟩ X y none Xt none
      = if cls.probabilistic then ucRun ops enc w ⟨cls, some e, some e'⟩ X y (some (.probs (ops.predictProba (trained ops w e e' X y e) X))) Xt (some (.probs (ops.predictProba (trained ops w e e' X y e') Xt)))
        else ucRun ops enc w ⟨cls, some e, some e'⟩ X y (some (.crisp (ops.predict (trained ops w e e' X y e) X))) Xt (some (.crisp (ops.predict (trained ops w e e' X y e') Xt))) := by
  rw [ucRun_answerOn ops enc w e e' X Xt y cls hpre hops hX]
  cases hp : cls.probabilistic with
  | true =>
    rw [if_pos rfl, ucRun_given_probs ops enc w X Xt y cls hp hpre _ _ hy 1 _ _ (by rw [(hops.probs _ X).1, hX, one_mul])]
    rfl
  | false =>
    rw [if_neg (by simp), ucRun_given_crisp ops enc w X Xt y cls hp hpre _ _ hy 1 _ _ (by rw [(hops.labels _ X).1, hX, one_mul])]
    rfl

/-! ## Non-vacuity -/

section examples

theorem shift_example : PriorShift ((stacked [0, 0, 1] 1).zip [0, 1, 1]) [(1, 1), (1, 1), (0, 1), (0, 0), (1, 1)] where
  nonempty := by simp
  same := by
    intro c hc
    simp only [List.map_cons, List.map_nil, List.mem_cons, List.not_mem_nil, or_false] at hc
    have h1 : SameFrequencies [1, 1, 1] [1] := SameFrequencies.replicate (l := [1]) (by simp) (r := 3) (by decide)
    have h0 : SameFrequencies [1, 0] [0, 1] := SameFrequencies.of_perm (List.Perm.swap _ _ _) (by simp)
    have : c = 1 ∨ c = 0 := by tauto
    rcases this with rfl | rfl
    · exact h1
    · exact h0

theorem label_index {y : List ℕ} {i : Fin (labelsOf y).length} (h : labelsOf y = [0, 1]) : (labelsOf y)[i] = i.1 ∧ i.1 < 2 := by
  have h2 : i.1 < 2 := lt_of_lt_of_eq i.2 (by rw [h]; rfl)
  refine ⟨?_, h2⟩
  have e : (labelsOf y)[i.1] = [0, 1][i.1] := List.getElem_of_eq h i.2
  refine e.trans ?_
  have : i.1 = 0 ∨ i.1 = 1 := by omega
  rcases this with h | h <;> simp [h]

/-- AC: the training set has three examples, one of them misclassified; the bag has other prevalences, 2/5 and 3/5. -/
example (ops : EstOps Unit Unit ℕ 2) (enc : Bool → ℕ) (w : World Unit Unit ℕ) (sol : Solvers) :
    ucRun ops enc w ⟨acClass sol .HD, none, none⟩ [] [0, 0, 1] (some (.crisp [0, 1, 1])) [] (some (.crisp [1, 1, 1, 0, 1])) = .ok (some [Fl.fin (2 / 5), Fl.fin (3 / 5)]) := by
  have hl : labelsOf [0, 0, 1] = [0, 1] := labelsOf_eq _ _ (by decide) (by decide)
  have h := C128_ac enc w none none [] [] [0, 0, 1] (by simp) 1 one_pos ops sol .HD [0, 1, 1] rfl (by simp) (.inr ⟨by rw [hl]; rfl, by
    simp only [(label_index hl).1]
    simp only [condFreq, stacked, Fin.val_cast]
    simp [List.countP_cons, List.count_cons]
    norm_num [abs_of_pos]⟩) _ shift_example
  refine h.trans ?_
  unfold rightAnswer
  rw [hl]
  simp [freq, List.count_cons]
  norm_num

/-- FriedmanME: the predictions of the two classes are on opposite sides of the prevalences. -/
example (P : List (Fin (labelsOf [0, 0, 1]).length → ℝ)) (hP : P = [fun j => if j.1 = 0 then 1 else 0, fun j => if j.1 = 0 then 1 else 0, fun j => if j.1 = 0 then 0 else 1]) :
    Distinguishes .l1 (fun i c : Fin (labelsOf [0, 0, 1]).length => reachShare i (freq [0, 0, 1] (labelsOf [0, 0, 1])[i]) (ofClass ((stacked [0, 0, 1] 1).zip P) (labelsOf [0, 0, 1])[c])) := by
  have hl : labelsOf [0, 0, 1] = [0, 1] := labelsOf_eq _ _ (by decide) (by decide)
  have e : (fun i c : Fin (labelsOf [0, 0, 1]).length => reachShare i (freq [0, 0, 1] (labelsOf [0, 0, 1])[i]) (ofClass ((stacked [0, 0, 1] 1).zip P) (labelsOf [0, 0, 1])[c]))
      = fun i c => if i = c then 1 else 0 := by
    funext i c
    rw [(label_index hl).1, (label_index hl).1, hP]
    have hi := (label_index (i := i) hl).2
    have hc := (label_index (i := c) hl).2
    have h1 : i.1 = 0 ∨ i.1 = 1 := by omega
    have h2 : c.1 = 0 ∨ c.1 = 1 := by omega
    simp only [Fin.ext_iff]
    rcases h1 with h1 | h1 <;> rcases h2 with h2 | h2 <;> rw [h1, h2] <;> simp [reachShare, ofClass, stacked, freq, List.count_cons, List.countP_cons, h1] <;> norm_num
  rw [e]
  intro p p' _ _ h
  funext i
  simpa using h i

end examples

end Verif.Props
