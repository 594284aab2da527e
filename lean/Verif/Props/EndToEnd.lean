import Verif.Props.Pipeline
import Verif.Props.AC
import Verif.Props.EM
import Verif.Props.DeBias
import Verif.Props.Energy
import Verif.Props.Ordinal
import Verif.Props.Df
import Verif.Props.Sord
import Verif.Props.Quanty

/-!
# C115: from a classifier to prevalences
-/

namespace Verif.Props

open Verif.Model Verif.Spec Verif.Proof

variable {σ D α : Type} {k : ℕ}

/-- What the theorems ask of a classifier for the classes of `y`: one prediction per example; labels among those of `y`; probabilities that are distributions over the classes. -/
structure ProperClassifier [LinearOrder α] (ops : EstOps σ D α k) (y : List α) : Prop where
  columns : k = (labelsOf y).length
  labels : ∀ s X, (ops.predict s X).length = X.length ∧ ∀ a ∈ ops.predict s X, a ∈ y
  probs : ∀ s X, (ops.predictProba s X).length = X.length ∧ ∀ r ∈ ops.predictProba s X, IsPrev r

/-- A call that returned a valid prevalence vector for `n` classes. -/
def ValidAnswer (n : ℕ) (r : Except Err (Option (List Fl))) : Prop := ∃ p : Fin n → ℝ, IsPrev p ∧ r = .ok (some (List.ofFn fun i => Fl.fin (p i)))

theorem validAnswer_fl {n : ℕ} {v : Fin n → Fl} (h : IsPrevFl v) : ValidAnswer n (.ok (some (vecList v))) := by
  obtain ⟨p, hp, rfl⟩ := h
  exact ⟨p, hp, rfl⟩

theorem validAnswer_real {n : ℕ} {v : Fin n → ℝ} (h : IsPrev v) : ValidAnswer n (.ok (some (realList v))) := ⟨v, h, rfl⟩

/-- The estimators after `fit`. -/
noncomputable def trainedWorld (ops : EstOps σ D α k) (w : World σ D α) (e e' : Option ℕ) (X : List D) (y : List α) : World σ D α := fitIfNeeded ops (fitIfNeeded ops w e X y) e' X y

/-- What a class answers after `super().fit` left the attributes `s` and `super().predict` the predictions `p`. -/
def learnAnswer (cls : UcClass α k) (y : List α) (s : QState α k) (p : Preds α k) : Except Err (Option (List Fl)) :=
  match cls.learn none y s with
  | .error e => .error e
  | .ok m => (cls.answer m s p).2

/-- `fit` followed by `predict`, in terms of what the class learns and answers. -/
theorem ucRun_eq [LinearOrder α] (ops : EstOps σ D α k) (enc : Bool → α) (w w' : World σ D α) (o : UcObj α k) (X Xt : List D) (y : List α) (pt ptt : Option (Preds α k)) (s : QState α k) (p : Preds α k)
    (hpre : o.cls.pre y = none) (hfit : usingFit ops enc w o.cfg ⟨none, none, none⟩ X y pt = (w', s, none))
    (hpredict : usingPredict ops enc w' o.cfg (s.classes.getD []) Xt ptt = .ok p) :
    ucRun ops enc w o X y pt Xt ptt = learnAnswer o.cls y s p := by
  simp only [learnAnswer, ucRun, ucFit, hpre, ucNew, hfit]
  cases hL : o.cls.learn none y s with
  | error e => rfl
  | ok m => simp only [ucPredict, hpredict]

/-- The predictions a classifier makes for a class: probabilities or labels. -/
def predictionsOf (ops : EstOps σ D α k) (probabilistic : Bool) (s : σ) (X : List D) : Preds α k := if probabilistic then .probs (ops.predictProba s X) else .crisp (ops.predict s X)

/-- The attributes after `super().fit`, when the predictions have one row per example. -/
theorem usingFit_own [LinearOrder α] (ops : EstOps σ D α k) (enc : Bool → α) (w : World σ D α) (cls : UcClass α k) (e e' : ℕ) (X : List D) (y : List α)
    (hlen : (predictionsOf ops cls.probabilistic ((trainedWorld ops w (some e) (some e') X y).est e) X).len = y.length) :
    usingFit ops enc w (UcObj.cfg ⟨cls, some e, some e'⟩) ⟨none, none, none⟩ X y none
      = (trainedWorld ops w (some e) (some e') X y,
          if cls.needsTrain then ⟨some (labelsOf y), some (predictionsOf ops cls.probabilistic ((trainedWorld ops w (some e) (some e') X y).est e) X), some y⟩ else ⟨some (labelsOf y), none, none⟩, none) := by
  have he : extendLabels y (predictionsOf ops cls.probabilistic ((trainedWorld ops w (some e) (some e') X y).est e) X).len = .ok y := by
    unfold extendLabels
    rw [if_pos hlen.symm]
  cases hn : cls.needsTrain
  · simp [usingFit, UcObj.cfg, hn, npUnique_eq_labelsOf, trainedWorld]
  · cases hp : cls.probabilistic <;> simp only [hp, predictionsOf, trainedWorld] at he <;>
      simp_all [usingFit, UcObj.cfg, npUnique_eq_labelsOf, trainedWorld, trainPreds, predictionsOf]

theorem usingPredict_own [LinearOrder α] (ops : EstOps σ D α k) (enc : Bool → α) (w : World σ D α) (cls : UcClass α k) (e e' : ℕ) (c : List α) (Xt : List D) :
    usingPredict ops enc w (UcObj.cfg ⟨cls, some e, some e'⟩) c Xt none = .ok (predictionsOf ops cls.probabilistic (w.est e') Xt) := by
  cases hp : cls.probabilistic <;> simp [usingPredict, UcObj.cfg, hp, predictionsOf]

/-- `fit` and `predict` with classifiers that give one prediction per example. -/
theorem ucRun_own [LinearOrder α] (ops : EstOps σ D α k) (enc : Bool → α) (w : World σ D α) (cls : UcClass α k) (e e' : ℕ) (X Xt : List D) (y : List α) (hpre : cls.pre y = none)
    (hops : ProperClassifier ops y) (hX : X.length = y.length) :
    ucRun ops enc w ⟨cls, some e, some e'⟩ X y none Xt none
      = learnAnswer cls y (if cls.needsTrain then ⟨some (labelsOf y), some (predictionsOf ops cls.probabilistic ((trainedWorld ops w (some e) (some e') X y).est e) X), some y⟩ else ⟨some (labelsOf y), none, none⟩)
          (predictionsOf ops cls.probabilistic ((trainedWorld ops w (some e) (some e') X y).est e') Xt) := by
  refine ucRun_eq ops enc w _ ⟨cls, some e, some e'⟩ X Xt y none none _ _ hpre (usingFit_own ops enc w cls e e' X y ?_) (usingPredict_own ..)
  unfold predictionsOf Preds.len
  cases cls.probabilistic
  · simpa using (hops.labels _ X).1.trans hX
  · simpa using (hops.probs _ X).1.trans hX

/-- The inherited attributes after a `fit` whose predictions of the training set are `P`, with `r` rows per example. -/
def fittedState [LinearOrder α] (cls : UcClass α k) (y : List α) (r : ℕ) (P : Preds α k) : QState α k := if cls.needsTrain then ⟨some (labelsOf y), some P, some (stacked y r)⟩ else ⟨some (labelsOf y), none, none⟩

/-- What a class answers after a `fit` with the predictions `P` of the training set, for a bag with the predictions `Q`. -/
def answerOn [LinearOrder α] (cls : UcClass α k) (y : List α) (r : ℕ) (P Q : Preds α k) : Except Err (Option (List Fl)) := learnAnswer cls y (fittedState cls y r P) Q

section
variable [LinearOrder α] (ops : EstOps σ D α k) (enc : Bool → α) (w : World σ D α) (e e' : ℕ) (X Xt : List D) (y : List α)

theorem ucRun_answerOn (cls : UcClass α k) (hpre : cls.pre y = none) (hops : ProperClassifier ops y) (hX : X.length = y.length) :
    ucRun ops enc w ⟨cls, some e, some e'⟩ X y none Xt none
      = answerOn cls y 1 (predictionsOf ops cls.probabilistic ((trainedWorld ops w (some e) (some e') X y).est e) X) (predictionsOf ops cls.probabilistic ((trainedWorld ops w (some e) (some e') X y).est e') Xt) := by
  rw [ucRun_own ops enc w cls e e' X Xt y hpre hops hX]
  have : stacked y 1 = y := by simp [stacked]
  unfold answerOn fittedState
  rw [this]

/-- The same when the predictions are given to `fit` and `predict`, with any estimators or none. -/
theorem ucRun_given_probs (cls : UcClass α k) (hp : cls.probabilistic = true) (hpre : cls.pre y = none) (et et' : Option ℕ) (hy : y ≠ []) (r : ℕ) (P Q : List (Fin k → ℝ)) (hP : P.length = r * y.length) :
    ucRun ops enc w ⟨cls, et, et'⟩ X y (some (.probs P)) Xt (some (.probs Q)) = answerOn cls y r (.probs P) (.probs Q) := by
  have ht := extendLabels_tile y hy r
  rw [← hP] at ht
  refine ucRun_eq ops enc w (trainedWorld ops w et et' X y) ⟨cls, et, et'⟩ X Xt y _ _ (fittedState cls y r (.probs P)) (.probs Q) hpre ?_ ?_
  · cases hn : cls.needsTrain <;> simp [usingFit, UcObj.cfg, hn, hp, npUnique_eq_labelsOf, trainedWorld, trainPreds, Preds.len, ht, fittedState, stacked_eq_npTile]
  · cases et' <;> simp [usingPredict, UcObj.cfg, hp]

/-- The same for crisp predictions. -/
theorem ucRun_given_crisp (cls : UcClass α k) (hp : cls.probabilistic = false) (hpre : cls.pre y = none) (et et' : Option ℕ) (hy : y ≠ []) (r : ℕ) (P Q : List α) (hP : P.length = r * y.length) :
    ucRun ops enc w ⟨cls, et, et'⟩ X y (some (.crisp P)) Xt (some (.crisp Q)) = answerOn cls y r (.crisp P) (.crisp Q) := by
  have ht := extendLabels_tile y hy r
  rw [← hP] at ht
  refine ucRun_eq ops enc w (trainedWorld ops w et et' X y) ⟨cls, et, et'⟩ X Xt y _ _ (fittedState cls y r (.crisp P)) (.crisp Q) hpre ?_ ?_
  · cases hn : cls.needsTrain <;> simp [usingFit, UcObj.cfg, hn, hp, npUnique_eq_labelsOf, trainedWorld, trainPreds, probs2crisps, Except.map, Preds.len, ht, fittedState, stacked_eq_npTile]
  · cases et' <;> simp [usingPredict, UcObj.cfg, hp, probs2crisps, Except.map]

end

/-! ## The classes, one by one -/

section
variable [LinearOrder α] (y : List α)

theorem answer_cc (r : ℕ) (P : Preds α k) (Q : List α) (hne : Q ≠ []) (hQ : ∀ a ∈ Q, a ∈ y) : ValidAnswer (labelsOf y).length (answerOn ccClass y r P (.crisp Q)) := by
  have : answerOn ccClass y r P (.crisp Q) = .ok (some (vecList (classFreqs (labelsOf y) Q))) := rfl
  rw [this, classFreqs_eq _ _ hne]
  exact validAnswer_fl ⟨_, freqs_isPrev _ (labelsOf_nodup y) _ hne (fun a ha => (mem_labelsOf y a).2 (hQ a ha)), rfl⟩

theorem answer_pcc (r : ℕ) (P : Preds α k) (Q : List (Fin k → ℝ)) (hk : k = (labelsOf y).length) (hne : Q ≠ []) (hQ : ∀ row ∈ Q, IsPrev row) : ValidAnswer (labelsOf y).length (answerOn pccClass y r P (.probs Q)) := by
  subst hk
  have : answerOn pccClass y r P (.probs Q) = .ok (some (vecList (colMeans Q))) := rfl
  rw [this, colMeans_eq _ hne]
  exact validAnswer_fl ⟨_, meanOf_isPrev Q hne hQ, rfl⟩

theorem answer_ac_eq (sol : Solvers) (dist : Dist) (r : ℕ) (P Q : List α) (hP : P.length = r * y.length) (hne : Q ≠ []) :
    answerOn (k := k) (acClass sol dist) y r (.crisp P) (.crisp Q)
      = ((adjust sol dist (normalizeRows fun i j : Fin (labelsOf y).length => ((stacked y r).zip P).count ((labelsOf y)[i], (labelsOf y)[j])) fun i => Fl.fin (freqs (labelsOf y) Q i)).map vecList).map some := by
  have hcm : confusionMatrix (npUnique y) (stacked y r) P = .ok fun i j => ((stacked y r).zip P).count ((npUnique y)[i], (npUnique y)[j]) := by
    unfold confusionMatrix
    rw [if_pos (by rw [stacked_length, hP])]
  rw [← classFreqs_eq _ _ hne]
  simp only [answerOn, learnAnswer, fittedState, acClass, trainData, crispLabels, if_true, bind, Except.bind, hcm, keep, pure, Except.pure]
  exact congrArg (Except.map some) (dif_pos rfl)

theorem stacked_mem (r : ℕ) (hr : 0 < r) (c : α) (h : c ∈ y) : c ∈ stacked y r := by
  unfold stacked
  rw [List.mem_flatten]
  exact ⟨y, List.mem_replicate.2 ⟨hr.ne', rfl⟩, h⟩

/-- The solvers return prevalences for every finite matrix and vector. -/
def ValidSolvers (sol : Solvers) : Prop := ∀ (n : ℕ) (T : Fin n → Fin n → ℝ) (q : Fin n → ℝ), 0 < n →
  IsPrevFl (sol.hd (fun i j => Fl.fin (T i j)) fun i => Fl.fin (q i)) ∧ IsPrevFl (sol.l1 (fun i j => Fl.fin (T i j)) fun i => Fl.fin (q i)) ∧ IsPrevFl (sol.l2 (fun i j => Fl.fin (T i j)) fun i => Fl.fin (q i))

theorem adjust_valid (sol : Solvers) (dist : Dist) {n : ℕ} (hn : 0 < n) (M : Matrix (Fin n) (Fin n) ℝ) (hrow : ∀ i, ∑ j, M i j = 1) (p0 : Fin n → ℝ) (hp0 : IsPrev p0)
    (h : n = 2 ∨ M.det ≠ 0 ∨ (dist ≠ .other ∧ ValidSolvers sol)) : ∃ v, adjust sol dist (fun i j => Fl.fin (M i j)) (fun i => Fl.fin (p0 i)) = .ok v ∧ IsPrevFl v := by
  by_cases h2 : n = 2
  · exact adjust_two_valid sol dist h2 _ _ hp0 fun i j => by simp
  by_cases hM : M.det = 0
  · obtain ⟨hd, hs⟩ := (h.resolve_left h2).resolve_left fun h => h hM
    rw [C10_singular sol dist h2 M hM]
    obtain ⟨h1, h2, h3⟩ := hs n (fun i j => M j i) p0 hn
    cases dist
    · exact ⟨_, rfl, h1⟩
    · exact ⟨_, rfl, h2⟩
    · exact ⟨_, rfl, h3⟩
    · exact absurd rfl hd
  · exact C10_multi_valid sol dist h2 M hrow hM p0 hp0.2

theorem labels_pos (hy : y ≠ []) : 0 < (labelsOf y).length := by
  obtain ⟨a, l, rfl⟩ := List.exists_cons_of_ne_nil hy
  exact List.length_pos_of_mem ((mem_labelsOf _ a).2 List.mem_cons_self)

theorem answer_ac (sol : Solvers) (dist : Dist) (hy : y ≠ []) (r : ℕ) (hr : 0 < r) (P Q : List α) (hP : P.length = r * y.length) (hPy : ∀ a ∈ P, a ∈ y) (hne : Q ≠ []) (hQ : ∀ a ∈ Q, a ∈ y)
    (hdet : (labelsOf y).length = 2 ∨ Matrix.det (fun i j : Fin (labelsOf y).length => condFreq (stacked y r) P (labelsOf y)[i] (labelsOf y)[j]) ≠ 0 ∨ (dist ≠ .other ∧ ValidSolvers sol)) :
    ValidAnswer (labelsOf y).length (answerOn (k := k) (acClass sol dist) y r (.crisp P) (.crisp Q)) := by
  rw [answer_ac_eq y sol dist r P Q hP hne, normalizeRows_eq y r hr P hP hPy]
  have hf := freqs_isPrev _ (labelsOf_nodup y) _ hne fun a ha => (mem_labelsOf y a).2 (hQ a ha)
  obtain ⟨v, hv, hp⟩ := adjust_valid sol dist (labels_pos y hy) (cmReal y r P) (fun i => (cmReal_row y r hr P hP hPy i).2) _ hf hdet
  rw [hv]
  exact validAnswer_fl hp

theorem answer_pac (sol : Solvers) (dist : Dist) (hy : y ≠ []) (r : ℕ) (hr : 0 < r) (P Q : List (Fin (labelsOf y).length → ℝ)) (hP : P.length = r * y.length) (hPp : ∀ row ∈ P, IsPrev row) (hne : Q ≠ [])
    (hQ : ∀ row ∈ Q, IsPrev row)
    (hdet : (labelsOf y).length = 2 ∨ Matrix.det (fun i j : Fin (labelsOf y).length => condMean (stacked y r) P (fun row => row j) (labelsOf y)[i]) ≠ 0 ∨ (dist ≠ .other ∧ ValidSolvers sol)) :
    ValidAnswer (labelsOf y).length (answerOn (pacClass sol dist) y r (.probs P) (.probs Q)) := by
  have hl : (stacked y r).length = P.length := by rw [stacked_length, hP]
  have e : answerOn (pacClass sol dist) y r (.probs P) (.probs Q)
      = ((adjust sol dist (fun i j => colMeans (rowsOf (stacked y r) P (labelsOf y)[i]) j) (colMeans Q)).map vecList).map some := by
    simp only [answerOn, learnAnswer, fittedState, pacClass, trainData, probRows, if_true, bind, Except.bind, hl, keep]
    rw [dif_pos (show (labelsOf y).length = (npUnique y).length from rfl)]
    simp only [pure, Except.pure]
    rw [dif_pos (show (labelsOf y).length = (npUnique y).length from rfl)]
    rfl
  have hent : (fun i j => colMeans (rowsOf (stacked y r) P (labelsOf y)[i]) j) = fun i j => Fl.fin (pcmReal y r P i j) := by
    funext i j
    exact pcm_entry y r hr P hP i j
  rw [e, colMeans_eq _ hne, hent]
  obtain ⟨v, hv, hp⟩ := adjust_valid sol dist (labels_pos y hy) (pcmReal y r P) (fun i => (pcmReal_row y r hr P hP hPp i).2) _ (meanOf_isPrev Q hne hQ) hdet
  rw [hv]
  exact validAnswer_fl hp

theorem answer_em (hy : y ≠ []) (eps : ℝ) (maxIter r : ℕ) (P : Preds α (labelsOf y).length) (Q : List (Fin (labelsOf y).length → ℝ)) (hne : Q ≠ []) (hQ : ∀ row ∈ Q, IsPrev row) :
    ValidAnswer (labelsOf y).length (answerOn (emClass eps maxIter) y r P (.probs Q)) := by
  obtain ⟨s, hs, hv⟩ := C47_em_valid y hy Q hne hQ eps maxIter
  have e : answerOn (emClass eps maxIter) y r P (.probs Q) = .ok (some (vecList s.prevalences)) := by
    simp only [answerOn, learnAnswer, fittedState, emClass, probRows, keep, bind, Except.bind]
    rw [dif_pos (show (npUnique y).length = (labelsOf y).length from rfl)]
    change Except.map some (Except.map (fun r => vecList r.prevalences) (emPredict (emFit (labelsOf y) y) Q eps maxIter)) = _
    rw [hs]
    rfl
  rw [e]
  exact validAnswer_fl hv

theorem answer_debias (h2 : (labelsOf y).length = 2) (r : ℕ) (P Q : List (Fin 2 → ℝ)) (hv : ∃ row ∈ P, row 1 ≠ freq y (posLabel y h2)) (hne : Q ≠ []) :
    ValidAnswer 2 (answerOn deBiasClass y r (.probs P) (.probs Q)) := by
  obtain ⟨f, h1, hp⟩ := C50_debias_valid y h2 P Q hv hne
  have e : answerOn deBiasClass y r (.probs P) (.probs Q) = .ok (some (vecList (deBiasPredict f Q))) := by
    simp only [answerOn, learnAnswer, fittedState, deBiasClass, trainData, probRows, if_true, bind, Except.bind, h1, keep, Except.map]
  rw [e]
  exact validAnswer_fl hp

theorem answer_edy {n : ℕ} (hn : 0 < n) (hk : (labelsOf y).length = n + 1) (qp : QPSolver) (hqp : ExactQP qp) (la : LinAlg n) (hla : ExactLinAlg la) (fuel r : ℕ) (hr : 0 < r) (P Q : List (Fin (n + 1) → ℝ))
    (hP : P.length = r * y.length) (hne : Q ≠ []) : ValidAnswer (n + 1) (answerOn (edyClass qp la (fuel + 1) manhattan) y r (.probs P) (.probs Q)) := by
  have hl : (stacked y r).length = P.length := by rw [stacked_length, hP]
  obtain ⟨f, p, h1, h2, h3, -⟩ := C76_EDy hn qp hqp la hla (fun i => (npUnique y)[Fin.cast (show (npUnique y).length = n + 1 from hk).symm i]) (stacked y r) P Q hl
    (fun i => stacked_mem y r hr _ ((mem_labelsOf y _).1 (List.getElem_mem _))) hne fuel
  have e : answerOn (edyClass qp la (fuel + 1) manhattan) y r (.probs P) (.probs Q) = .ok (some (realList p)) := by
    simp only [answerOn, learnAnswer, fittedState, edyClass, trainData, probRows, columnsAre, if_true, bind, Except.bind, keep, hl, ne_eq, not_true_eq_false, if_false]
    rw [dif_pos (show (npUnique y).length = n + 1 from hk)]
    simp only [h1, h2, Except.map]
  rw [e]
  exact validAnswer_real h3

theorem answer_cvmy {n : ℕ} (hn : 0 < n) (hk : (labelsOf y).length = n + 1) (qp : QPSolver) (hqp : ExactQP qp) (la : LinAlg n) (hla : ExactLinAlg la) (fuel r : ℕ) (hr : 0 < r) (P Q : List (Fin (n + 1) → ℝ))
    (hP : P.length = r * y.length) (hne : Q ≠ []) : ValidAnswer (n + 1) (answerOn (cvmyClass qp la (fuel + 1) manhattan) y r (.probs P) (.probs Q)) := by
  have hl : (stacked y r).length = P.length := by rw [stacked_length, hP]
  obtain ⟨p, h1, h3⟩ := C78_cvm_valid hn qp hqp la hla (fun i => (labelsOf y)[Fin.cast hk.symm i]) (stacked y r) P Q hl
    (fun i => stacked_mem y r hr _ ((mem_labelsOf y _).1 (List.getElem_mem _))) hne fuel
  have e : answerOn (cvmyClass qp la (fuel + 1) manhattan) y r (.probs P) (.probs Q) = .ok (some (realList p)) := by
    simp only [answerOn, learnAnswer, fittedState, cvmyClass, trainData, probRows, columnsAre, if_true, bind, Except.bind, keep, hl, ne_eq, not_true_eq_false, if_false, Option.getD_some]
    rw [dif_pos hk]
    simp only [h1, Except.map]
  rw [e]
  exact validAnswer_real h3

theorem columnsAre_self (l : List α) : columnsAre l l.length = .ok ⟨rfl⟩ := by unfold columnsAre; rw [dif_pos rfl]

theorem matchAnswer_valid (sv : CvxSolver) (hsv : ExactCvx sv) (qp : QPSolver) (hqp : ExactQP qp) {F : Type} {m nc : ℕ} (hn : 0 < nc) (la : LinAlg nc) (hla : ExactLinAlg la) (fuel : ℕ) (tol : ℝ)
    (distance : DfDistance m) (hd : ∀ d, distance ≠ .fn d) (f : F) (T : Matrix (Fin m) (Fin nc) ℝ) (q : Fin m → ℝ) (hq : distance = .l2 ∨ ∀ i, 0 ≤ q i) :
    ∃ par, matchParams la (fuel + 1) distance T = .ok par ∧ ValidAnswer nc (matchAnswer sv qp tol distance ⟨f, T, par, none, none⟩ q).2 := by
  cases distance with
  | fn d => exact absurd rfl (hd d)
  | l2 =>
    obtain ⟨par, p, h1, h2, h3, -⟩ := C26_l2 qp hqp la hla hn T q fuel
    refine ⟨some par, by simp only [matchParams, h1], ?_⟩
    simp only [matchAnswer, h2, Except.map]
    exact validAnswer_real h3
  | l1 =>
    have hq := hq.resolve_left (by simp)
    refine ⟨none, rfl, ?_⟩
    have hset : setParameter m ⟨m, q⟩ = .ok q := by unfold setParameter; simp [hq]
    simp only [matchAnswer, solveCvx, hset]
    exact validAnswer_real (hsv .l1 T q none hn hq).1
  | hd =>
    have hq := hq.resolve_left (by simp)
    refine ⟨none, rfl, ?_⟩
    have hset : setParameter m ⟨m, q⟩ = .ok q := by unfold setParameter; simp [hq]
    simp only [matchAnswer, solveCvx, hset]
    exact validAnswer_real (hsv .hd T q none hn hq).1

theorem answer_dfy (sv : CvxSolver) (hsv : ExactCvx sv) (qp : QPSolver) (hqp : ExactQP qp) (ppf : ℝ → EReal) (hk : (npUnique y).length = k) (la : LinAlg k) (hla : ExactLinAlg la) (fuel : ℕ) (tol : ℝ) (cfg : DfCfg)
    (hf : cfg.f = .pdf) (hnb : 0 < cfg.nBins) (distance : DfDistance (nDescriptors k * cfg.nBins)) (hd : ∀ d, distance ≠ .fn d) (hy : y ≠ []) (r : ℕ) (hr : 0 < r)
    (P Q : List (Fin k → ℝ)) (hP : P.length = r * y.length) (hs : SpanningStrategy cfg P.length) (hne : Q ≠ []) :
    ValidAnswer k (answerOn (dfyClass ppf sv qp la (fuel + 1) tol cfg distance) y r (.probs P) (.probs Q)) := by
  subst hk
  have hl : (stacked y r).length = P.length := by rw [stacked_length, hP]
  have hPne : P ≠ [] := by
    intro h
    rw [h, List.length_nil] at hP
    have := Nat.mul_pos hr (List.length_pos_of_ne_nil hy)
    omega
  obtain ⟨fit, h1, -, -, h4⟩ := C43_dfy_distributions ppf cfg hf hnb (npUnique y) y (stacked y r) P hPne hl (fun c hc => stacked_mem y r hr c ((mem_labelsOf y c).1 hc)) hs
  obtain ⟨q, hq, hqb⟩ := h4 Q hne
  have hq0 : ∀ i, 0 ≤ q i := by
    intro i
    have := (hqb (finProdFinEquiv.symm i).1).2.1 (finProdFinEquiv.symm i).2
    unfold blockOf at this
    rwa [Prod.mk.eta, Equiv.apply_symm_apply] at this
  obtain ⟨par, hpar, hval⟩ := matchAnswer_valid sv hsv qp hqp (nc := (npUnique y).length) (labels_pos y hy) la hla fuel tol distance hd fit fit.train q (Or.inr hq0)
  have e : answerOn (dfyClass ppf sv qp la (fuel + 1) tol cfg distance) y r (.probs P) (.probs Q) = (matchAnswer sv qp tol distance ⟨fit, fit.train, par, none, none⟩ q).2 := by
    have h1' : dfFit ppf .whole cfg (some (0, 1)) (dfyAtt (npUnique y).length) (npUnique y) y (stacked y r) P = .ok fit := h1
    simp only [answerOn, learnAnswer, fittedState, dfyClass, trainData, probRows, columnsAre_self, if_true, bind, Except.bind]
    simp only [h1', Fin.cast_eq_self]
    simp only [hpar, pure, Except.pure]
    have : dfyTest cfg (⟨fit.cuts, fun i c => fit.train i c⟩ : DfFit (nDescriptors (npUnique y).length) cfg.nBins (npUnique y).length) Q = .ok q := hq
    simp only [this]
  rw [e]
  exact hval

theorem answer_friedman (sv : CvxSolver) (hsv : ExactCvx sv) (qp : QPSolver) (hqp : ExactQP qp) (hk : (npUnique y).length = k) (la : LinAlg k) (hla : ExactLinAlg la) (fuel : ℕ) (tol : ℝ)
    (distance : DfDistance k) (hd : ∀ d, distance ≠ .fn d) (hy : y ≠ []) (r : ℕ) (P Q : List (Fin k → ℝ)) (hP : P.length = r * y.length) :
    ValidAnswer k (answerOn (friedmanClass sv qp la (fuel + 1) tol distance) y r (.probs P) (.probs Q)) := by
  subst hk
  have hl : (stacked y r).length = P.length := by rw [stacked_length, hP]
  obtain ⟨fit, h1⟩ : ∃ fit, friedmanFit (npUnique y) y (stacked y r) P = .ok fit := by
    unfold friedmanFit
    rw [if_neg (not_not.2 hl)]
    exact ⟨_, rfl⟩
  have hq0 : ∀ i, 0 ≤ friedmanTest fit Q i := by
    intro i
    unfold friedmanTest meanRows
    refine div_nonneg (List.sum_nonneg fun v hv => ?_) (Nat.cast_nonneg _)
    simp only [List.map_map, List.mem_map, Function.comp, friedmanRow] at hv
    obtain ⟨_, -, rfl⟩ := hv
    split <;> norm_num
  obtain ⟨par, hpar, hval⟩ := matchAnswer_valid sv hsv qp hqp (nc := (npUnique y).length) (labels_pos y hy) la hla fuel tol distance hd fit fit.train (friedmanTest fit Q) (Or.inr hq0)
  have e : answerOn (friedmanClass sv qp la (fuel + 1) tol distance) y r (.probs P) (.probs Q) = (matchAnswer sv qp tol distance ⟨fit, fit.train, par, none, none⟩ (friedmanTest fit Q)).2 := by
    simp only [answerOn, learnAnswer, fittedState, friedmanClass, trainData, probRows, columnsAre_self, if_true, bind, Except.bind]
    simp only [Fin.cast_eq_self, List.map_id', h1]
    simp only [hpar, pure, Except.pure]
  rw [e]
  exact hval

theorem answer_aco (sv : CvxSolver) (hsv : ExactCvx sv) (hy : y ≠ []) (r : ℕ) (hr : 0 < r) (P Q : List α) (hP : P.length = r * y.length) (hPy : ∀ a ∈ P, a ∈ y) (hne : Q ≠ []) :
    ValidAnswer (labelsOf y).length (answerOn (k := k) (acoClass sv) y r (.crisp P) (.crisp Q)) := by
  have hcm : confusionMatrix (npUnique y) (stacked y r) P = .ok fun i j => ((stacked y r).zip P).count ((npUnique y)[i], (npUnique y)[j]) := by
    unfold confusionMatrix
    rw [if_pos (by rw [stacked_length, hP])]
  have hnr : (normalizeRows fun i j : Fin (npUnique y).length => ((stacked y r).zip P).count ((npUnique y)[i], (npUnique y)[j])) = fun i j => Fl.fin (cmReal y r P i j) := normalizeRows_eq y r hr P hP hPy
  have htest : accumArr (classFreqs (npUnique y) Q) = fun i => Fl.fin (cumsum (freqs (npUnique y) Q) i) := by rw [classFreqs_fin _ _ hne, accumArr_fin]
  have h0 : ∀ i, 0 ≤ cumsum (freqs (npUnique y) Q) i := fun i => cumsum_nonneg _ (freqs_nonneg _ _) i
  have hset : setParameter (npUnique y).length ⟨(npUnique y).length, fun i => cumsum (freqs (npUnique y) Q) i⟩ = .ok fun i => cumsum (freqs (npUnique y) Q) i := by unfold setParameter; simp [h0]
  have htr : ∀ i j : Fin (npUnique y).length, accumArr (fun l : Fin (npUnique y).length => Fl.fin (cmReal y r P j l)) i = Fl.fin (cumsum (fun l => cmReal y r P j l) i) := fun i j => congrFun (accumArr_fin (cmReal y r P j)) i
  have hfin : (∀ i j : Fin (npUnique y).length, flFinite (accumArr (fun l : Fin (npUnique y).length => Fl.fin (cmReal y r P j l)) i)) ∧ ∀ i, flFinite (accumArr (classFreqs (npUnique y) Q) i) := by
    refine ⟨fun i j => ?_, fun i => ?_⟩
    · rw [htr]; trivial
    · rw [htest]; trivial
  have hvec : (fun i => flReal (accumArr (classFreqs (npUnique y) Q) i)) = fun i => cumsum (freqs (npUnique y) Q) i := by
    funext i
    rw [htest]
    rfl
  have e : answerOn (k := k) (acoClass sv) y r (.crisp P) (.crisp Q)
      = (acoSolve sv ⟨⟨npUnique y, fun i j => Fl.fin (cmReal y r P i j), fun i j => accumArr (fun l => Fl.fin (cmReal y r P j l)) i⟩, none⟩ (accumArr (classFreqs (npUnique y) Q))).2 := by
    simp only [answerOn, learnAnswer, fittedState, acoClass, trainData, crispLabels, if_true, bind, Except.bind, hcm, pure, Except.pure, hnr]
    exact congrArg Prod.snd (dif_neg (not_not.2 rfl))
  rw [e]
  simp only [acoSolve, warmPredict]
  erw [if_pos hfin]
  simp only [hvec, solveCvx, hset, Except.map]
  exact validAnswer_real (hsv .l1 _ _ none (labels_pos y hy) h0).1

theorem answer_pdfo (sv : CvxSolver) (hsv : ExactCvx sv) (qp : QPSolver) (hqp : ExactQP qp) (hk : (npUnique y).length = k) (h3 : 2 < k) (la : LinAlg k) (hla : ExactLinAlg la) (fuel nBins : ℕ) (hb : 0 < nBins)
    (dist : OrdDist) (hd : dist ≠ .other) (r : ℕ) (hr : 0 < r) (P Q : List (Fin k → ℝ)) (hP : P.length = r * y.length) (hPp : ∀ row ∈ P, IsPrev row) (hne : Q ≠ []) (hQ : ∀ row ∈ Q, IsPrev row) :
    ValidAnswer k (answerOn (pdfoClass sv qp la (fuel + 1) nBins .fullProbabilistic dist) y r (.probs P) (.probs Q)) := by
  subst hk
  have hl : (stacked y r).length = P.length := by rw [stacked_length, hP]
  have haP : Admissible .fullProbabilistic P := ⟨hPp, Or.inl rfl⟩
  have haQ : Admissible .fullProbabilistic Q := ⟨hQ, Or.inl rfl⟩
  have hcl : ∀ c : Fin (npUnique y).length, (npUnique y)[c] ∈ stacked y r := fun c => stacked_mem y r hr _ ((mem_labelsOf y _).1 (List.getElem_mem _))
  have hfit := pdfoFit_eq la (fuel + 1) nBins .fullProbabilistic dist h3 hb (fun i : Fin (npUnique y).length => (npUnique y)[i]) (stacked y r) P hl haP
  obtain ⟨f, hf⟩ : ∃ f, pdfoFit la (fuel + 1) nBins .fullProbabilistic dist (fun i : Fin (npUnique y).length => (npUnique y)[i]) (stacked y r) P = .ok f := ⟨_, hfit⟩
  have : ∃ x : Fin (npUnique y).length → ℝ, (pdfoPredict sv qp .fullProbabilistic dist ⟨f, none⟩ Q).2 = .ok (some ⟨_, x⟩) ∧ IsPrev x := by
    cases dist with
    | other => exact absurd rfl hd
    | emd =>
      obtain ⟨x, h1, h2, -⟩ := C104_emd_optimal sv hsv qp la (fuel + 1) nBins .fullProbabilistic h3 hb _ _ P hl haP hcl f f hf [] rfl Q hne haQ
      exact ⟨x, h1, h2⟩
    | hd =>
      obtain ⟨x, h1, h2, -⟩ := C105_hd_optimal sv hsv qp la (fuel + 1) nBins .fullProbabilistic h3 hb _ _ P hl haP hcl f f hf [] rfl Q hne haQ
      exact ⟨x, h1, h2⟩
    | l2 =>
      obtain ⟨x, h1, h2, -⟩ := C105_l2_optimal sv qp hqp la hla fuel nBins .fullProbabilistic h3 hb _ _ P hl haP f f hf [] rfl Q haQ
      exact ⟨x, h1, h2⟩
  obtain ⟨x, h1, h2⟩ := this
  have e : answerOn (pdfoClass sv qp la (fuel + 1) nBins .fullProbabilistic dist) y r (.probs P) (.probs Q) = .ok (some (realList x)) := by
    simp only [answerOn, learnAnswer, fittedState, pdfoClass, trainData, probRows, columnsAre_self, if_true, bind, Except.bind]
    simp only [Fin.cast_eq_self, hf, pure, Except.pure, h1, Except.map, Option.map]
  rw [e]
  exact validAnswer_real h2

end

theorem answer_sordy (sort : List (ℝ × ℤ) → List (ℝ × ℤ)) (hsort : IsSort sort) (tol : ℝ) (htol : 0 < tol) (y : List ℤ) (h2 : (labelsOf y).length = 2) (P Q : List (Fin 2 → ℝ)) (hP : P.length = y.length) (hne : Q ≠ []) :
    ValidAnswer 2 (answerOn (sordyClass 0 sort tol) y 1 (.probs P) (.probs Q)) := by
  obtain ⟨c0, c1, hc⟩ := List.length_eq_two.1 h2
  obtain ⟨f, v, h1, h3, h4, -⟩ := C80_sordy_minimises_wasserstein sort hsort tol htol y (P.map fun r => r 1) (by simpa using hP) c0 c1 hc (Q.map fun r => r 1) (by simpa using hne) _ fun _ => rfl
  have hst : stacked y 1 = y := by simp [stacked]
  have hc' : ¬ 2 < (npUnique y).length := by rw [npUnique_eq_labelsOf, h2]; omega
  unfold sordyFit at h1
  rw [if_neg hc'] at h1
  have e : answerOn (sordyClass 0 sort tol) y 1 (.probs P) (.probs Q) = .ok (some (realList v)) := by
    simp only [answerOn, learnAnswer, fittedState, sordyClass, trainData, probRows, if_true, bind, Except.bind, hst, hc', if_false, hP, keep, pure, Except.pure, gt_iff_lt]
    change Except.map some (Except.map realList (sordyPredict sort tol ⟨npUnique y, sort ((P.map fun r => r 1).zip y)⟩ (Q.map fun r => r 1))) = _
    rw [Except.ok.inj h1, h3]
    rfl
  rw [e]
  exact validAnswer_real h4

/-! ## C115 -/

section
variable [LinearOrder α] (ops : EstOps σ D α k) (enc : Bool → α) (w : World σ D α) (e e' : ℕ) (X Xt : List D) (y : List α)

/-- The state of estimator number `i` after `fit` trained the estimators that were not trained. -/
noncomputable def trained (i : ℕ) : σ := (trainedWorld ops w (some e) (some e') X y).est i

theorem ucRun_crisp (cls : UcClass α k) (hp : cls.probabilistic = false) (hpre : cls.pre y = none) (hops : ProperClassifier ops y) (hX : X.length = y.length) :
    ucRun ops enc w ⟨cls, some e, some e'⟩ X y none Xt none = answerOn cls y 1 (.crisp (ops.predict (trained ops w e e' X y e) X)) (.crisp (ops.predict (trained ops w e e' X y e') Xt)) := by
  rw [ucRun_answerOn ops enc w e e' X Xt y cls hpre hops hX, hp]
  rfl

theorem ucRun_probs (cls : UcClass α k) (hp : cls.probabilistic = true) (hpre : cls.pre y = none) (hops : ProperClassifier ops y) (hX : X.length = y.length) :
    ucRun ops enc w ⟨cls, some e, some e'⟩ X y none Xt none = answerOn cls y 1 (.probs (ops.predictProba (trained ops w e e' X y e) X)) (.probs (ops.predictProba (trained ops w e e' X y e') Xt)) := by
  rw [ucRun_answerOn ops enc w e e' X Xt y cls hpre hops hX, hp]
  rfl

variable {ops y} in
theorem ProperClassifier.labels_ne (hops : ProperClassifier ops y) {X : List D} (hX : X ≠ []) (s : σ) : ops.predict s X ≠ [] := fun h => hX (List.length_eq_zero_iff.1 ((hops.labels s X).1.symm.trans (by rw [h]; rfl)))

variable {ops y} in
theorem ProperClassifier.probs_ne (hops : ProperClassifier ops y) {X : List D} (hX : X ≠ []) (s : σ) : ops.predictProba s X ≠ [] := fun h => hX (List.length_eq_zero_iff.1 ((hops.probs s X).1.symm.trans (by rw [h]; rfl)))

variable (hops : ProperClassifier ops y) (hX : X.length = y.length) (hXt : Xt ≠ [])
include hops hX

include hXt in
/-- **C115**, `CC`. -/
theorem C115_cc : ValidAnswer (labelsOf y).length (ucRun ops enc w ⟨ccClass, some e, some e'⟩ X y none Xt none) := by
  rw [ucRun_crisp ops enc w e e' X Xt y _ rfl rfl hops hX]
  exact answer_cc y 1 _ _ (hops.labels_ne hXt _) (hops.labels _ Xt).2

include hXt in
/-- **C115**, `PCC`. -/
theorem C115_pcc : ValidAnswer (labelsOf y).length (ucRun ops enc w ⟨pccClass, some e, some e'⟩ X y none Xt none) := by
  rw [ucRun_probs ops enc w e e' X Xt y _ rfl rfl hops hX]
  exact answer_pcc y 1 _ _ hops.columns (hops.probs_ne hXt _) (hops.probs _ Xt).2

include hXt in
/-- **C115**, `AC`: two classes, or an invertible matrix of rates, or a solver that returns prevalences. -/
theorem C115_ac (hy : y ≠ []) (sol : Solvers) (dist : Dist)
    (h : (labelsOf y).length = 2 ∨ Matrix.det (fun i j : Fin (labelsOf y).length => condFreq y (ops.predict (trained ops w e e' X y e) X) (labelsOf y)[i] (labelsOf y)[j]) ≠ 0 ∨ (dist ≠ .other ∧ ValidSolvers sol)) :
    ValidAnswer (labelsOf y).length (ucRun ops enc w ⟨acClass sol dist, some e, some e'⟩ X y none Xt none) := by
  rw [ucRun_crisp ops enc w e e' X Xt y _ rfl rfl hops hX]
  have hst : stacked y 1 = y := by simp [stacked]
  exact answer_ac y sol dist hy 1 one_pos _ _ (by rw [one_mul]; exact (hops.labels _ X).1.trans hX) (hops.labels _ X).2 (hops.labels_ne hXt _) (hops.labels _ Xt).2 (by rw [hst]; exact h)

include hXt in
/-- **C115**, `ACOrdinal`. -/
theorem C115_aco (hy : y ≠ []) (sv : CvxSolver) (hsv : ExactCvx sv) : ValidAnswer (labelsOf y).length (ucRun ops enc w ⟨acoClass sv, some e, some e'⟩ X y none Xt none) := by
  rw [ucRun_crisp ops enc w e e' X Xt y _ rfl rfl hops hX]
  exact answer_aco y sv hsv hy 1 one_pos _ _ (by rw [one_mul]; exact (hops.labels _ X).1.trans hX) (hops.labels _ X).2 (hops.labels_ne hXt _)

/-- The rows of the training set, one per example. -/
theorem train_rows (s : σ) : (ops.predictProba s X).length = 1 * y.length := by
  rw [one_mul]
  exact (hops.probs s X).1.trans hX

include hXt in
/-- **C115**, `PAC`. -/
theorem C115_pac (hy : y ≠ []) (sol : Solvers) (dist : Dist)
    (h : k = 2 ∨ Matrix.det (fun i j : Fin k => condMean y (ops.predictProba (trained ops w e e' X y e) X) (fun row => row j) (labelsOf y)[Fin.cast hops.columns i]) ≠ 0 ∨ (dist ≠ .other ∧ ValidSolvers sol)) :
    ValidAnswer k (ucRun ops enc w ⟨pacClass sol dist, some e, some e'⟩ X y none Xt none) := by
  rw [ucRun_probs ops enc w e e' X Xt y _ rfl rfl hops hX]
  have hst : stacked y 1 = y := by simp [stacked]
  obtain rfl := hops.columns
  exact answer_pac y sol dist hy 1 one_pos _ _ (train_rows ops X y hops hX _) (hops.probs _ X).2 (hops.probs_ne hXt _) (hops.probs _ Xt).2 (by rw [hst]; exact h)

include hXt in
/-- **C115**, `EM`. -/
theorem C115_em (hy : y ≠ []) (eps : ℝ) (maxIter : ℕ) : ValidAnswer k (ucRun ops enc w ⟨emClass eps maxIter, some e, some e'⟩ X y none Xt none) := by
  rw [ucRun_probs ops enc w e e' X Xt y _ rfl rfl hops hX]
  obtain rfl := hops.columns
  exact answer_em y hy eps maxIter 1 _ _ (hops.probs_ne hXt _) (hops.probs _ Xt).2

include hXt in
/-- **C115**, `DFy` (also `HDy` and `MMy`) with histograms, cut points that span the scores and one of the three losses. -/
theorem C115_dfy (hy : y ≠ []) (sv : CvxSolver) (hsv : ExactCvx sv) (qp : QPSolver) (hqp : ExactQP qp) (ppf : ℝ → EReal) (la : LinAlg k) (hla : ExactLinAlg la) (fuel : ℕ) (tol : ℝ) (cfg : DfCfg) (hf : cfg.f = .pdf)
    (hnb : 0 < cfg.nBins) (hs : SpanningStrategy cfg y.length) (distance : DfDistance (nDescriptors k * cfg.nBins)) (hd : ∀ d, distance ≠ .fn d) :
    ValidAnswer k (ucRun ops enc w ⟨dfyClass ppf sv qp la (fuel + 1) tol cfg distance, some e, some e'⟩ X y none Xt none) := by
  rw [ucRun_probs ops enc w e e' X Xt y _ rfl rfl hops hX]
  exact answer_dfy y sv hsv qp hqp ppf hops.columns.symm la hla fuel tol cfg hf hnb distance hd hy 1 one_pos _ _ (train_rows ops X y hops hX _) (by rw [train_rows ops X y hops hX, one_mul]; exact hs) (hops.probs_ne hXt _)

/-- **C115**, `FriedmanME` with one of the three losses; the bag may be empty. -/
theorem C115_friedman (hy : y ≠ []) (sv : CvxSolver) (hsv : ExactCvx sv) (qp : QPSolver) (hqp : ExactQP qp) (la : LinAlg k) (hla : ExactLinAlg la) (fuel : ℕ) (tol : ℝ) (distance : DfDistance k) (hd : ∀ d, distance ≠ .fn d) :
    ValidAnswer k (ucRun ops enc w ⟨friedmanClass sv qp la (fuel + 1) tol distance, some e, some e'⟩ X y none Xt none) := by
  rw [ucRun_probs ops enc w e e' X Xt y _ rfl rfl hops hX]
  exact answer_friedman y sv hsv qp hqp hops.columns.symm la hla fuel tol distance hd hy 1 _ _ (train_rows ops X y hops hX _)

include hXt in
/-- **C115**, `PDFOrdinaly` with three or more classes. -/
theorem C115_pdfo (h3 : 2 < k) (sv : CvxSolver) (hsv : ExactCvx sv) (qp : QPSolver) (hqp : ExactQP qp) (la : LinAlg k) (hla : ExactLinAlg la) (fuel nBins : ℕ) (hb : 0 < nBins) (dist : OrdDist) (hd : dist ≠ .other) :
    ValidAnswer k (ucRun ops enc w ⟨pdfoClass sv qp la (fuel + 1) nBins .fullProbabilistic dist, some e, some e'⟩ X y none Xt none) := by
  rw [ucRun_probs ops enc w e e' X Xt y _ rfl rfl hops hX]
  exact answer_pdfo y sv hsv qp hqp hops.columns.symm h3 la hla fuel nBins hb dist hd 1 one_pos _ _ (train_rows ops X y hops hX _) (hops.probs _ X).2 (hops.probs_ne hXt _) (hops.probs _ Xt).2

end

section
variable [LinearOrder α] (enc : Bool → α) (w : World σ D α) (e e' : ℕ) (X Xt : List D) (y : List α)

/-- **C115**, `DeBias`, unless every training posterior equals the prevalence of the positive class. -/
theorem C115_debias (ops : EstOps σ D α 2) (hops : ProperClassifier ops y) (hX : X.length = y.length) (hXt : Xt ≠ [])
    (hv : ∃ row ∈ ops.predictProba (trained ops w e e' X y e) X, row 1 ≠ freq y (posLabel y hops.columns.symm)) :
    ValidAnswer 2 (ucRun ops enc w ⟨deBiasClass, some e, some e'⟩ X y none Xt none) := by
  have hpre : (deBiasClass (α := α)).pre y = none := by
    simp only [deBiasClass]
    rw [if_neg (not_not.2 (show (npUnique y).length = 2 from hops.columns.symm))]
  rw [ucRun_probs ops enc w e e' X Xt y _ rfl hpre hops hX]
  exact answer_debias y hops.columns.symm 1 _ _ hv (hops.probs_ne hXt _)

/-- **C115**, `EDy`. -/
theorem C115_edy {n : ℕ} (hn : 0 < n) (ops : EstOps σ D α (n + 1)) (hops : ProperClassifier ops y) (hX : X.length = y.length) (hXt : Xt ≠ []) (qp : QPSolver) (hqp : ExactQP qp) (la : LinAlg n) (hla : ExactLinAlg la) (fuel : ℕ) :
    ValidAnswer (n + 1) (ucRun ops enc w ⟨edyClass qp la (fuel + 1) manhattan, some e, some e'⟩ X y none Xt none) := by
  rw [ucRun_probs ops enc w e e' X Xt y _ rfl rfl hops hX]
  exact answer_edy y hn hops.columns.symm qp hqp la hla fuel 1 one_pos _ _ (train_rows ops X y hops hX _) (hops.probs_ne hXt _)

/-- **C115**, `CvMy`. -/
theorem C115_cvmy {n : ℕ} (hn : 0 < n) (ops : EstOps σ D α (n + 1)) (hops : ProperClassifier ops y) (hX : X.length = y.length) (hXt : Xt ≠ []) (qp : QPSolver) (hqp : ExactQP qp) (la : LinAlg n) (hla : ExactLinAlg la) (fuel : ℕ) :
    ValidAnswer (n + 1) (ucRun ops enc w ⟨cvmyClass qp la (fuel + 1) manhattan, some e, some e'⟩ X y none Xt none) := by
  rw [ucRun_probs ops enc w e e' X Xt y _ rfl rfl hops hX]
  exact answer_cvmy y hn hops.columns.symm qp hqp la hla fuel 1 one_pos _ _ (train_rows ops X y hops hX _) (hops.probs_ne hXt _)

end

/-- **C115**, `SORDy` (binary, integer labels). -/
theorem C115_sordy (enc : Bool → ℤ) (w : World σ D ℤ) (e e' : ℕ) (X Xt : List D) (y : List ℤ) (ops : EstOps σ D ℤ 2) (hops : ProperClassifier ops y) (hX : X.length = y.length) (hXt : Xt ≠ [])
    (sort : List (ℝ × ℤ) → List (ℝ × ℤ)) (hsort : IsSort sort) (tol : ℝ) (htol : 0 < tol) :
    ValidAnswer 2 (ucRun ops enc w ⟨sordyClass 0 sort tol, some e, some e'⟩ X y none Xt none) := by
  rw [ucRun_probs ops enc w e e' X Xt y _ rfl rfl hops hX]
  exact answer_sordy sort hsort tol htol y hops.columns.symm _ _ ((hops.probs _ X).1.trans hX) (hops.probs_ne hXt _)

/-! ## Concrete cases -/

/-- A classifier of the labels 0 and 1 that is not fitted at the start and then gives the probabilities 1/4 and 3/4 to every example. -/
noncomputable def always : EstOps Bool ℕ ℕ 2 where
  notFitted s := !s
  fit _ _ _ := true
  predict _ X := X.map fun _ => 1
  predictProba _ X := X.map fun _ => ![1 / 4, 3 / 4]

theorem always_proper : ProperClassifier always [0, 1, 1] where
  columns := by rw [labelsOf_eq [0, 1, 1] [0, 1] (by decide) (by decide)]; rfl
  labels _ X := ⟨by simp [always], by intro a ha; simp only [always, List.mem_map] at ha; obtain ⟨_, _, rfl⟩ := ha; simp⟩
  probs _ X := ⟨by simp [always], by
    intro r hr
    simp only [always, List.mem_map] at hr
    obtain ⟨_, _, rfl⟩ := hr
    exact ⟨fun i => by fin_cases i <;> norm_num, by norm_num [Fin.sum_univ_two]⟩⟩

/-- Non-vacuity of C115: a training set of three examples, a bag of two, one estimator used for both purposes. -/
example (enc : Bool → ℕ) (w : World Bool ℕ ℕ) (sol : Solvers) : ValidAnswer (labelsOf [0, 1, 1]).length (ucRun always enc w ⟨acClass sol .HD, some 0, some 0⟩ [5, 6, 7] [0, 1, 1] none [8, 9] none) :=
  C115_ac always enc w 0 0 [5, 6, 7] [8, 9] [0, 1, 1] always_proper rfl (by simp) (by simp) sol .HD (.inl always_proper.columns.symm)

example (enc : Bool → ℕ) (w : World Bool ℕ ℕ) : ValidAnswer 2 (ucRun always enc w ⟨emClass (1 / 10) 100, some 0, some 1⟩ [5, 6, 7] [0, 1, 1] none [8, 9] none) :=
  C115_em always enc w 0 1 [5, 6, 7] [8, 9] [0, 1, 1] always_proper rfl (by simp) (by simp) (1 / 10) 100

end Verif.Props
