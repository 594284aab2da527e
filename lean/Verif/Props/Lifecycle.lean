import Verif.Model.Lifecycle
import Verif.Props.FrankHall
import Verif.Props.CvEstimator

/-!
# C123, C124: estimators that are not fitted, and trainings that fail
-/

namespace Verif.Props

open Verif.Model Verif.Spec Verif.Proof

variable {M D α S σ : Type} {k : ℕ}

/-- Calls to `fit`, one after another: the object after them and the exception that each one raised, if any. -/
def fitCalls (fit : σ → List D → List α → σ × Option Err) : σ → List (List D × List α) → σ × List (Option Err)
  | s, [] => (s, [])
  | s, c :: cs => ((fitCalls fit (fit s c.1 c.2).1 cs).1, (fit s c.1 c.2).2 :: (fitCalls fit (fit s c.1 c.2).1 cs).2)

theorem fitCalls_append (fit : σ → List D → List α → σ × Option Err) (s : σ) (a b : List (List D × List α)) :
    fitCalls fit s (a ++ b) = ((fitCalls fit (fitCalls fit s a).1 b).1, (fitCalls fit s a).2 ++ (fitCalls fit (fitCalls fit s a).1 b).2) := by
  induction a generalizing s with
  | nil => rfl
  | cons c a ih => simp only [List.cons_append, fitCalls, ih]

/-- A result that is not a NotFittedError. -/
def Fitted {β : Type} (r : Except Err β) : Prop := r ≠ .error .notFittedError

theorem Fitted.bind {β γ : Type} {r : Except Err β} {f : β → Except Err γ} (h : Fitted r) (hf : ∀ b, Fitted (f b)) : Fitted (r >>= f) := by
  cases r with
  | error e => intro hc; apply h; rw [show (Except.error e >>= f) = (Except.error e : Except Err γ) from rfl] at hc; rw [Except.error.inj hc]
  | ok b => exact hf b

theorem Fitted.map {β γ : Type} {r : Except Err β} {f : β → γ} (h : Fitted r) : Fitted (r.map f) := by
  cases r with
  | error e => intro hc; apply h; rw [show (Except.error e : Except Err β).map f = (Except.error e : Except Err γ) from rfl] at hc; rw [Except.error.inj hc]
  | ok b => intro hc; cases hc

theorem Fitted.ok {β : Type} (b : β) : Fitted (.ok b) := by intro h; cases h

theorem Fitted.mapM {β γ : Type} (l : List β) {f : β → Except Err γ} (hf : ∀ b, Fitted (f b)) : Fitted (l.mapM f) := by
  induction l with
  | nil => exact Fitted.ok []
  | cons a l ih =>
    rw [List.mapM_cons]
    exact (hf a).bind fun b => ih.bind fun c => Fitted.ok _

theorem Fitted.item {β : Type} (l : List β) (i : ℕ) : Fitted (item l i) := by
  unfold Verif.Model.item
  cases l[i]? with
  | none => intro h; cases h
  | some c => exact Fitted.ok c

theorem Fitted.fhBinary (ops : FhOps M D) (f : FhFit M α) (X : List D) : Fitted (fhBinary ops f X) := by
  unfold Verif.Model.fhBinary
  split_ifs
  · intro h; cases h
  · exact Fitted.mapM X fun x => Fitted.mapM _ fun i => (Fitted.item _ _).bind fun m => Fitted.item _ _

theorem Fitted.fhPredictProba (n : ℕ) (ops : FhOps M D) (f : FhFit M α) (X : List D) : Fitted (fhPredictProba n ops f X) := (Fitted.fhBinary ops f X).map

theorem Fitted.fhLabel {n : ℕ} (classes : List α) (row : Fin n → ℝ) : Fitted (fhLabel classes row) := by
  unfold Verif.Model.fhLabel
  cases npArgmax row with
  | none => intro h; cases h
  | some i => exact Fitted.item _ _

theorem Fitted.fhPredict (ops : FhOps M D) (f : FhFit M α) (X : List D) : Fitted (fhPredict ops f X) := (Fitted.fhPredictProba _ ops f X).bind fun rows => Fitted.mapM rows fun row => Fitted.fhLabel _ row

theorem Fitted.storeRow (n : ℕ) (v : List ℝ) : Fitted (storeRow n v) := by
  unfold Verif.Model.storeRow
  split_ifs
  · exact Fitted.ok _
  · split
    · exact Fitted.ok _
    · intro h; cases h

theorem Fitted.cvWrite (arr : List (List (Fin k → ℝ))) (r j : ℕ) (v : Fin k → ℝ) : Fitted (cvWrite arr r j v) := by
  unfold Verif.Model.cvWrite
  split
  · intro h; cases h
  · split_ifs
    · exact Fitted.ok _
    · intro h; cases h

theorem Fitted.cvWriteAll {g : ℕ → Except Err (Fin k → ℝ)} (hg : ∀ j, Fitted (g j)) (r : ℕ) (l : List ℕ) (arr : List (List (Fin k → ℝ))) : Fitted (cvWriteAll g r l arr) := by
  induction l generalizing arr with
  | nil => exact Fitted.ok _
  | cons j l ih => exact ((hg j).bind fun v => Fitted.cvWrite _ _ _ _).bind fun a => ih a

theorem Fitted.cvLoop (n : ℕ) {g : ℕ → ℕ → Except Err (Fin k → ℝ)} (hg : ∀ i j, Fitted (g i j)) (i : ℕ) (fs : List Fold) (arr : List (List (Fin k → ℝ))) (r c : ℕ) : Fitted (cvLoop n g i fs arr r c) := by
  induction fs generalizing i arr r c with
  | nil => exact Fitted.ok _
  | cons f fs ih =>
    refine Fitted.bind ?_ fun a => ?_
    · unfold cvFold
      split_ifs
      · exact Fitted.cvWriteAll (hg i) _ _ _
      · intro h; cases h
    · split_ifs
      · exact ih _ _ _ _
      · exact ih _ _ _ _

theorem Fitted.cvRaw [DecidableEq D] (split : Splitter S) (ops : CvOps M D α) (fit : CvFit M D α) (s : S) (X : List D) : Fitted (cvRaw k split ops fit s X).2 := by
  unfold Verif.Model.cvRaw
  split_ifs
  · unfold cvTrain
    dsimp only
    split_ifs
    · intro h; cases h
    · exact Fitted.cvLoop _ (fun i j => (Fitted.item _ _).bind fun m => (Fitted.item _ _).bind fun x => Fitted.storeRow _ _) _ _ _ _ _
  · exact Fitted.mapM _ fun m => Fitted.mapM _ fun x => Fitted.storeRow _ _

theorem Fitted.cvLabel (classes : List α) (row : Fin k → ℝ) : Fitted (cvLabel classes row) := by
  unfold Verif.Model.cvLabel
  cases npArgmax row with
  | none => intro h; cases h
  | some i => exact Fitted.item _ _

/-! ## C123: NotFittedError -/

/-- **C123**, new objects: `predict` and `predict_proba` of the classifiers of Frank and Hall, of `CV_estimator` and of `EnsembleOfClassifiers` raise NotFittedError before `fit` is called. -/
theorem C123_new_partial [LinearOrder α] [DecidableEq D] (ops : FhOps M D) (split : Splitter S) (cv : CvOps M D α) (label : M → D → α) (avg soft : Bool) (s : S) (n : ℕ) (X : List D) :
    fhObjPredict ops (fhNew : FhObj M α) X = .error .notFittedError
    ∧ fhObjProba n ops (fhNew : FhObj M α) X = .error .notFittedError
    ∧ fhmObjProba ops (fhNew : FhObj M α) X = .error .notFittedError
    ∧ fhtObjProba ops (fhtNew : FhtObj M α) X = .error .notFittedError
    ∧ (cvPredict n split cv avg soft cvNew s X).2 = .error .notFittedError
    ∧ (cvPredictProba n split cv avg cvNew s X).2 = .error .notFittedError
    ∧ ensObjPredict label (ensObjNew : EnsObj M α) X = .error .notFittedError
    ∧ ensObjProba n cv (ensObjNew : EnsObj M α) X = .error .notFittedError :=
  ⟨rfl, rfl, rfl, rfl, rfl, rfl, rfl, rfl⟩

/-- `CV_estimator.fit` as a call that changes the state of the splitter and the object. -/
def cvCall [LinearOrder α] (fails : List D → List α → Option Err) (split : Splitter S) (ops : CvOps M D α) (o : S × CvFit M D α) (X : List D) (y : List α) : (S × CvFit M D α) × Option Err :=
  (((cvObjFit fails split ops o.1 o.2 X y).1, (cvObjFit fails split ops o.1 o.2 X y).2.1), (cvObjFit fails split ops o.1 o.2 X y).2.2)

section
variable [LinearOrder α] {fails : List D → List α → Option Err} {split : Splitter S} {ops : CvOps M D α}

theorem cvCall_raised {o : S × CvFit M D α} {X : List D} {y : List α} {e : Err} (h : (cvCall fails split ops o X y).2 = some e) :
    (cvCall fails split ops o X y).1.2 = ⟨o.2.estimators, X, y, npUnique y⟩ := by
  unfold cvCall at h ⊢
  unfold cvObjFit at h ⊢
  cases hf : fails X y with
  | some e => simp
  | none =>
    simp only [hf] at h ⊢
    rcases hc : cvFit split ops o.1 X y with ⟨s', r⟩
    cases r with
    | error e => simp
    | ok f => simp [hc] at h

theorem cvCall_returned {o : S × CvFit M D α} {X : List D} {y : List α} (h : (cvCall fails split ops o X y).2 = none) :
    fails X y = none ∧ cvFit split ops o.1 X y = ((cvCall fails split ops o X y).1.1, .ok (cvCall fails split ops o X y).1.2) := by
  unfold cvCall at h ⊢
  unfold cvObjFit at h ⊢
  cases hf : fails X y with
  | some e => simp [hf] at h
  | none =>
    simp only [hf] at h ⊢
    rcases hc : cvFit split ops o.1 X y with ⟨s', r⟩
    cases r with
    | error e => simp [hc] at h
    | ok f => simp

/-- **C123** for `CV_estimator`: as long as no call to `fit` has returned, whatever the calls that raised, `predict` and `predict_proba` raise NotFittedError. -/
theorem C123_cv_unfitted_partial [DecidableEq D] (s0 : S) (calls : List (List D × List α)) (h : ∀ e ∈ (fitCalls (cvCall fails split ops) (s0, cvNew) calls).2, e ≠ none) (n : ℕ) (avg soft : Bool) (X : List D) :
    (cvPredict n split ops avg soft (fitCalls (cvCall fails split ops) (s0, cvNew) calls).1.2 (fitCalls (cvCall fails split ops) (s0, cvNew) calls).1.1 X).2 = .error .notFittedError
    ∧ (cvPredictProba n split ops avg (fitCalls (cvCall fails split ops) (s0, cvNew) calls).1.2 (fitCalls (cvCall fails split ops) (s0, cvNew) calls).1.1 X).2 = .error .notFittedError := by
  have key : ∀ (o : S × CvFit M D α), o.2.estimators = [] → (∀ e ∈ (fitCalls (cvCall fails split ops) o calls).2, e ≠ none) → (fitCalls (cvCall fails split ops) o calls).1.2.estimators = [] := by
    clear h
    induction calls with
    | nil => intro o ho _; exact ho
    | cons c cs ih =>
      intro o ho hr
      simp only [fitCalls, List.mem_cons, forall_eq_or_imp] at hr ⊢
      obtain ⟨e, he⟩ := Option.ne_none_iff_exists'.1 hr.1
      refine ih _ ?_ hr.2
      rw [cvCall_raised he]
      exact ho
  have h0 := key (s0, cvNew) rfl h
  unfold cvPredict cvPredictProba
  rw [if_pos (by rw [h0]; rfl), if_pos (by rw [h0]; rfl)]
  exact ⟨rfl, rfl⟩

/-- **C123** for `CV_estimator`: once a call to `fit` has returned, with one fold or more, NotFittedError is never raised, whatever the other calls. -/
theorem C123_cv_fitted_partial [DecidableEq D] (hsplit : ∀ s, (split s).2 ≠ []) (o : S × CvFit M D α) (before after : List (List D × List α)) (c : List D × List α)
    (h : (cvCall fails split ops (fitCalls (cvCall fails split ops) o before).1 c.1 c.2).2 = none) (n : ℕ) (avg soft : Bool) (s : S) (X : List D) :
    Fitted (cvPredict n split ops avg soft (fitCalls (cvCall fails split ops) o (before ++ c :: after)).1.2 s X).2
    ∧ Fitted (cvPredictProba n split ops avg (fitCalls (cvCall fails split ops) o (before ++ c :: after)).1.2 s X).2 := by
  have ret : ∀ {o : S × CvFit M D α} {X : List D} {y : List α}, (cvCall fails split ops o X y).2 = none → (cvCall fails split ops o X y).1.2.estimators.length ≠ 0 := by
    intro o X y hr
    obtain ⟨-, -, -, hl, -⟩ := cvFit_models (cvCall_returned hr).2
    rw [hl]
    simpa using hsplit _
  have key : ∀ (o : S × CvFit M D α), o.2.estimators.length ≠ 0 → (fitCalls (cvCall fails split ops) o after).1.2.estimators.length ≠ 0 := by
    clear h
    induction after with
    | nil => intro o ho; exact ho
    | cons d ds ih =>
      intro o ho
      simp only [fitCalls]
      refine ih _ ?_
      cases hd : (cvCall fails split ops o d.1 d.2).2 with
      | none => exact ret hd
      | some e => rw [cvCall_raised hd]; exact ho
  have hne := key _ (ret h)
  rw [fitCalls_append]
  simp only [fitCalls]
  unfold cvPredict cvPredictProba
  rw [if_neg hne, if_neg hne]
  refine ⟨(Fitted.cvRaw split ops _ s X).bind fun arr => ?_, (Fitted.cvRaw split ops _ s X).map⟩
  split_ifs <;> exact Fitted.mapM _ fun _ => Fitted.cvLabel _ _

end

section
variable [LinearOrder α] {finite : List D → Bool} {b : FhRaising M D}

theorem fhFitBinary_none {X : List D} {i : ℕ} {c : List ℤ} {m : M} (h : fhFitBinary b X i c = .ok m) : m = b.ops.fit i X c := by
  unfold fhFitBinary at h
  cases hr : b.raises i X c with
  | some e => simp [hr] at h
  | none => simp [hr] at h; exact h.symm

theorem mapM_some (ms : List M) : (ms.map some).mapM id = some ms := by
  induction ms with
  | nil => rfl
  | cons m ms ih => rw [List.map_cons, List.mapM_cons, ih]; rfl

theorem fhObjFit_cases (o : FhObj M α) (X : List D) (y : List α) :
    ((fhObjFit finite b o X y).1 = o ∧ (fhObjFit finite b o X y).2 ≠ none)
    ∨ ((fhObjFit finite b o X y).1 = ⟨some (labelsOf y), o.estimators⟩ ∧ (fhObjFit finite b o X y).2 = some .valueError)
    ∨ ((fhObjFit finite b o X y).1 = ⟨some (labelsOf y), some (List.replicate ((labelsOf y).length - 1) none)⟩ ∧ (fhObjFit finite b o X y).2 ≠ none)
    ∨ (∃ f, fhFit b.ops X y = .ok f ∧ f.classes = labelsOf y ∧ (fhObjFit finite b o X y) = (⟨some f.classes, some (f.estimators.map some)⟩, none)) := by
  unfold fhObjFit
  by_cases hy : y = []
  · rw [if_pos hy]; exact .inl ⟨rfl, by simp⟩
  rw [if_neg hy]
  cases ht : fhTransform 0 1 (npUnique y) y with
  | error e => exact .inl ⟨rfl, by simp⟩
  | ok yBin =>
    simp only
    by_cases ha : acceptsXy finite X y = false
    · rw [if_pos ha]; exact .inr (.inl ⟨rfl, rfl⟩)
    rw [if_neg ha]
    cases hm : (List.range ((npUnique y).length - 1)).mapM fun i => item yBin i >>= fhFitBinary b X i with
    | error e => exact .inr (.inr (.inl ⟨rfl, by simp⟩))
    | ok ms =>
      refine .inr (.inr (.inr ⟨⟨npUnique y, ms⟩, ?_, rfl, rfl⟩))
      have hXy : X.length = y.length := by
        simp only [acceptsXy, Bool.not_eq_false, Bool.and_eq_true, decide_eq_true_eq] at ha
        exact ha.1.1
      unfold fhFit
      rw [if_neg hy]
      refine (bind_ok ht _).trans ?_
      rw [if_neg (by simpa using hXy)]
      refine (bind_ok (b := ms) ?_ _).trans rfl
      rw [mapM_iff] at hm ⊢
      refine hm.imp fun i m h => ?_
      cases hi : item yBin i with
      | error e => rw [hi] at h; cases h
      | ok c =>
        rw [hi] at h
        have h' : fhFitBinary b X i c = .ok m := h
        rw [fhFitBinary_none h']
        rfl

theorem fhObjFit_returned {o : FhObj M α} {X : List D} {y : List α} (h : (fhObjFit finite b o X y).2 = none) :
    ∃ f, fhFit b.ops X y = .ok f ∧ f.classes = labelsOf y ∧ (fhObjFit finite b o X y) = (⟨some f.classes, some (f.estimators.map some)⟩, none) := by
  rcases fhObjFit_cases (finite := finite) (b := b) o X y with ⟨-, h'⟩ | ⟨-, h'⟩ | ⟨-, h'⟩ | h'
  · exact absurd h h'
  · rw [h] at h'; cases h'
  · exact absurd h h'
  · exact h'

theorem fhObjRead_fitted (f : FhFit M α) : fhObjRead ⟨some f.classes, some (f.estimators.map some)⟩ = .ok f := by
  unfold fhObjRead
  simp only [mapM_some]

/-- **C123** for the classifiers of Frank and Hall: once a call to `fit` has returned, NotFittedError is never raised, whatever the other calls. -/
theorem C123_fh_fitted_partial (o : FhObj M α) (before after : List (List D × List α)) (c : List D × List α) (h : (fhObjFit finite b (fitCalls (fhObjFit finite b) o before).1 c.1 c.2).2 = none) (n : ℕ) (X : List D) :
    Fitted (fhObjPredict b.ops (fitCalls (fhObjFit finite b) o (before ++ c :: after)).1 X)
    ∧ Fitted (fhObjProba n b.ops (fitCalls (fhObjFit finite b) o (before ++ c :: after)).1 X)
    ∧ Fitted (fhmObjProba b.ops (fitCalls (fhObjFit finite b) o (before ++ c :: after)).1 X) := by
  have step : ∀ (o : FhObj M α) X y, o.classes ≠ none → (fhObjFit finite b o X y).1.classes ≠ none := by
    intro o X y ho
    rcases fhObjFit_cases (finite := finite) (b := b) o X y with ⟨h', -⟩ | ⟨h', -⟩ | ⟨h', -⟩ | ⟨f, -, -, h'⟩ <;> rw [h'] <;> simp [ho]
  have key : ∀ (o : FhObj M α), o.classes ≠ none → (fitCalls (fhObjFit finite b) o after).1.classes ≠ none := by
    clear h
    induction after with
    | nil => intro o ho; exact ho
    | cons d ds ih => intro o ho; exact ih _ (step _ _ _ ho)
  have hne := key (fhObjFit finite b (fitCalls (fhObjFit finite b) o before).1 c.1 c.2).1 (by
    obtain ⟨f, -, -, hf⟩ := fhObjFit_returned h
    rw [hf]; simp)
  have read : ∀ (o : FhObj M α), o.classes ≠ none → Fitted (fhObjRead o) := by
    intro o ho
    unfold fhObjRead
    cases hc : o.classes with
    | none => exact absurd hc ho
    | some cs =>
      simp only
      cases o.estimators with
      | none => intro h; cases h
      | some es =>
        simp only
        cases es.mapM id with
        | none => intro h; cases h
        | some ms => exact Fitted.ok _
  rw [fitCalls_append]
  exact ⟨(read _ hne).bind fun f => Fitted.fhPredict _ _ _, (read _ hne).bind fun f => Fitted.fhPredictProba _ _ _ _, (read _ hne).bind fun f => (Fitted.fhBinary _ _ _).map⟩

/-- The first call to `fit` of a new `FrankAndHallClassifier` is rejected by `check_X_y`. -/
theorem fhObjFit_rejected (o : FhObj M α) (X : List D) (y : List α) (h3 : 3 ≤ (labelsOf y).length) (hrej : acceptsXy finite X y = false) :
    fhObjFit finite b o X y = (⟨some (labelsOf y), o.estimators⟩, some .valueError) := by
  obtain ⟨m, h1, -⟩ := C69_fh_binarizer y y h3
  have hy : y ≠ [] := by
    rintro rfl
    simp [labelsOf] at h3
  unfold fhObjFit
  rw [if_neg hy]
  simp only [npUnique_eq_labelsOf, h1]
  rw [if_pos hrej]

/-- **C123 is false** of the classifiers of Frank and Hall when the data are rejected (NaN in `X`, for example): the call raises ValueError, and from then on, until a call to `fit` returns, `predict` and `predict_proba` raise TypeError; with the tree, `predict_proba` raises ValueError. -/
theorem C123_fh_rejected_refuted (perf : ℝ → ℝ → Fl) (X : List D) (y : List α) (h3 : 3 ≤ (labelsOf y).length) (hrej : acceptsXy finite X y = false) (n : ℕ) (Xt : List D) :
    (fhObjFit finite b fhNew X y).2 = some .valueError
    ∧ fhObjPredict b.ops (fhObjFit finite b fhNew X y).1 Xt = .error .typeError
    ∧ fhObjProba n b.ops (fhObjFit finite b fhNew X y).1 Xt = .error .typeError
    ∧ fhmObjProba b.ops (fhObjFit finite b fhNew X y).1 Xt = .error .typeError
    ∧ (fhtObjFit perf finite b fhtNew X y).2 = some .valueError
    ∧ fhtObjProba b.ops (fhtObjFit perf finite b fhtNew X y).1 Xt = .error .valueError := by
  have h := fhObjFit_rejected (b := b) fhNew X y h3 hrej
  unfold fhtObjFit
  rw [show (fhtNew : FhtObj M α).base = fhNew from rfl, h]
  exact ⟨rfl, rfl, rfl, rfl, rfl, rfl⟩

/-- The training of a base estimator raises. -/
theorem fhObjFit_base (o : FhObj M α) (X : List D) (y : List α) (h3 : 3 ≤ (labelsOf y).length) (hacc : acceptsXy finite X y = true) (i : ℕ) (hi : i + 1 < (labelsOf y).length) (e : Err)
    (hr : b.raises i X (groupVsRest ((labelsOf y).take (i + 1)) y) = some e) :
    (fhObjFit finite b o X y).1 = ⟨some (labelsOf y), some (List.replicate ((labelsOf y).length - 1) none)⟩ ∧ (fhObjFit finite b o X y).2 ≠ none := by
  obtain ⟨m, h1, h2, h4⟩ := C69_fh_binarizer y y h3
  have hy : y ≠ [] := by
    rintro rfl
    simp [labelsOf] at h3
  unfold fhObjFit
  rw [if_neg hy]
  simp only [npUnique_eq_labelsOf, h1]
  rw [if_neg (by rw [hacc]; simp)]
  cases hm : (List.range ((labelsOf y).length - 1)).mapM fun i => item m i >>= fhFitBinary b X i with
  | error e => simp
  | ok ms =>
    exfalso
    have := (List.forall₂_iff_get.1 ((mapM_iff _ _ _).1 hm))
    have hi' : i < (List.range ((labelsOf y).length - 1)).length := by simp; omega
    have := this.2 i hi' (by rw [← this.1]; exact hi')
    simp only [List.get_eq_getElem, List.getElem_range] at this
    rw [bind_ok (item_ok.2 (h4 i (by omega)))] at this
    unfold fhFitBinary at this
    rw [hr] at this
    cases this

theorem replicate_none (n : ℕ) (hn : n ≠ 0) : (List.replicate n (none : Option M)).mapM id = none := by
  cases n with
  | zero => exact absurd rfl hn
  | succ n => rw [List.replicate_succ, List.mapM_cons]; rfl

/-- **C123 is false** of the classifiers of Frank and Hall when the training of one of the binary models raises: `predict` and `predict_proba` raise AttributeError. -/
theorem C123_fh_base_refuted (o : FhObj M α) (X : List D) (y : List α) (h3 : 3 ≤ (labelsOf y).length) (hacc : acceptsXy finite X y = true) (i : ℕ) (hi : i + 1 < (labelsOf y).length) (e : Err)
    (hr : b.raises i X (groupVsRest ((labelsOf y).take (i + 1)) y) = some e) (n : ℕ) (Xt : List D) :
    (fhObjFit finite b o X y).2 ≠ none
    ∧ fhObjPredict b.ops (fhObjFit finite b o X y).1 Xt = .error .attributeError
    ∧ fhObjProba n b.ops (fhObjFit finite b o X y).1 Xt = .error .attributeError
    ∧ fhmObjProba b.ops (fhObjFit finite b o X y).1 Xt = .error .attributeError := by
  obtain ⟨h1, h2⟩ := fhObjFit_base o X y h3 hacc i hi e hr
  have hread : fhObjRead (fhObjFit finite b o X y).1 = .error .attributeError := by
    rw [h1]
    unfold fhObjRead
    simp only [replicate_none (M := M) ((labelsOf y).length - 1) (by omega)]
  unfold fhObjPredict fhObjProba fhmObjProba
  rw [hread]
  exact ⟨h2, rfl, rfl, rfl⟩

/-- **C123 is false**, seen from a quantifier: when the training of a new `FrankAndHallClassifier` raises in `fit` of a quantifier, every later call to `fit` of a quantifier with that estimator, with whatever data, raises AttributeError and does not train it. -/
theorem C123_stuck_refuted (X : List D) (y : List α) (h3 : 3 ≤ (labelsOf y).length) (hacc : acceptsXy finite X y = true) (i : ℕ) (hi : i + 1 < (labelsOf y).length) (e : Err)
    (hr : b.raises i X (groupVsRest ((labelsOf y).take (i + 1)) y) = some e) (calls : List (List D × List α)) :
    (estStep finite (fhEst finite b) fhNew X y).2 ≠ none
    ∧ fitCalls (estStep finite (fhEst finite b)) (estStep finite (fhEst finite b) fhNew X y).1 calls = ((estStep finite (fhEst finite b) fhNew X y).1, calls.map fun _ => some .attributeError) := by
  have h0 : estStep finite (fhEst finite b) (fhNew : FhObj M α) X y = fhObjFit finite b fhNew X y := by
    unfold estStep
    rw [show (fhEst finite b).ask (fhNew : FhObj M α) (X.take 1) = some .notFittedError from rfl]
    simp only
    rw [if_neg (by rw [hacc]; simp)]
    rfl
  rw [h0]
  refine ⟨(fhObjFit_base fhNew X y h3 hacc i hi e hr).2, ?_⟩
  generalize hs : (fhObjFit finite b fhNew X y).1 = s
  have ask : ∀ Xt, (fhEst finite b).ask s Xt = some .attributeError := by
    intro Xt
    show raised (fhObjPredict b.ops s Xt) = _
    rw [← hs, (C123_fh_base_refuted fhNew X y h3 hacc i hi e hr 0 Xt).2.1]
    rfl
  induction calls with
  | nil => rfl
  | cons c cs ih =>
    have : estStep finite (fhEst finite b) s c.1 c.2 = (s, some .attributeError) := by
      unfold estStep
      rw [ask]
    simp only [fitCalls, this, ih, List.map_cons]

/-! ## C124: trainings that fail, and trainings after them -/

/-- **C124** for the classifiers of Frank and Hall: a call to `fit` that returns makes the object what it makes of a new one, whatever happened before; and `predict` and `predict_proba` use what was learned in that call. -/
theorem C124_fh_fresh_partial (before : List (List D × List α)) (X : List D) (y : List α) (h : (fhObjFit finite b (fitCalls (fhObjFit finite b) fhNew before).1 X y).2 = none) :
    fhObjFit finite b (fitCalls (fhObjFit finite b) fhNew before).1 X y = fhObjFit finite b fhNew X y
    ∧ ∃ f, fhFit b.ops X y = .ok f ∧ ∀ (n : ℕ) (Xt : List D), fhObjPredict b.ops (fhObjFit finite b (fitCalls (fhObjFit finite b) fhNew before).1 X y).1 Xt = fhPredict b.ops f Xt
      ∧ fhObjProba n b.ops (fhObjFit finite b (fitCalls (fhObjFit finite b) fhNew before).1 X y).1 Xt = fhPredictProba n b.ops f Xt
      ∧ fhmObjProba b.ops (fhObjFit finite b (fitCalls (fhObjFit finite b) fhNew before).1 X y).1 Xt = fhmPredictProba b.ops f Xt := by
  generalize (fitCalls (fhObjFit finite b) fhNew before).1 = o at h ⊢
  have hindep : (fhObjFit finite b o X y).2 = (fhObjFit finite b fhNew X y).2 := by
    unfold fhObjFit
    by_cases hy : y = []
    · simp [if_pos hy]
    simp only [if_neg hy]
    cases fhTransform 0 1 (npUnique y) y with
    | error e => rfl
    | ok yBin =>
      simp only
      split_ifs
      · rfl
      · cases (List.range ((npUnique y).length - 1)).mapM fun i => item yBin i >>= fhFitBinary b X i with
        | error e => rfl
        | ok ms => rfl
  obtain ⟨f, h1, h2, h3⟩ := fhObjFit_returned h
  obtain ⟨f', h1', h2', h3'⟩ := fhObjFit_returned (hindep ▸ h)
  rw [h1] at h1'
  obtain rfl := Except.ok.inj h1'
  refine ⟨by rw [h3, h3'], f, h1, fun n Xt => ?_⟩
  rw [h3]
  unfold fhObjPredict fhObjProba fhmObjProba
  simp only [fhObjRead_fitted]
  exact ⟨rfl, rfl, rfl⟩

theorem fhPredict_relabel (ops : FhOps M D) (cs cs' : List α) (est : List M) (hl : cs'.length = cs.length) (X : List D) (out : List α) (h : fhPredict ops ⟨cs, est⟩ X = .ok out) :
    ∃ out', fhPredict ops ⟨cs', est⟩ X = .ok out' ∧ List.Forall₂ (fun a c => ∃ i : ℕ, cs[i]? = some a ∧ cs'[i]? = some c) out out' := by
  have gen : ∀ (n : ℕ), cs.length = n → ∀ (c : List α), c.length = n → fhPredict ops ⟨c, est⟩ X = (fhPredictProba n ops ⟨cs, est⟩ X >>= fun rows => rows.mapM (fhLabel c)) := by
    intro n hn c hc
    subst hc
    unfold fhPredict
    have : fhPredictProba c.length ops ⟨c, est⟩ X = fhPredictProba c.length ops ⟨cs, est⟩ X := by
      unfold fhPredictProba fhBinary fhLeftRow
      simp only [hn]
    rw [this]
  rw [gen cs.length rfl cs rfl] at h
  rw [gen cs.length rfl cs' hl]
  cases hp : fhPredictProba cs.length ops ⟨cs, est⟩ X with
  | error e => rw [hp] at h; cases h
  | ok rows =>
    rw [hp] at h
    replace h : rows.mapM (fhLabel cs) = .ok out := h
    show ∃ out', rows.mapM (fhLabel cs') = .ok out' ∧ _
    clear hp
    induction rows generalizing out with
    | nil =>
      obtain rfl := Except.ok.inj h
      exact ⟨[], rfl, .nil⟩
    | cons row rows ih =>
      cases hrow : fhLabel cs row with
      | error e => rw [List.mapM_cons, hrow] at h; cases h
      | ok a =>
        cases ho : rows.mapM (fhLabel cs) with
        | error e => rw [List.mapM_cons, hrow, ho] at h; cases h
        | ok out1 =>
          rw [List.mapM_cons, hrow, ho] at h
          obtain rfl := Except.ok.inj h
          obtain ⟨out1', e1, e2⟩ := ih out1 ho
          unfold fhLabel at hrow
          cases hm : npArgmax row with
          | none => rw [hm] at hrow; cases hrow
          | some i =>
            rw [hm] at hrow
            have hc : cs'[(i : ℕ)]? = some (cs'[(i : ℕ)]'(by rw [hl]; exact i.2)) := List.getElem?_eq_getElem _
            have hlab : fhLabel cs' row = .ok (cs'[(i : ℕ)]'(by rw [hl]; exact i.2)) := by
              unfold fhLabel
              rw [hm]
              exact item_ok.2 hc
            refine ⟨_ :: out1', ?_, .cons ⟨i, item_ok.1 hrow, hc⟩ e2⟩
            rw [List.mapM_cons, hlab, e1]
            rfl

/-- **C124 is false** of the classifiers of Frank and Hall: after a call to `fit` that returned, a call that is rejected by `check_X_y` raises, but from then on the models of the first training set answer with the labels of the second one. -/
theorem C124_fh_relabels_refuted (o : FhObj M α) (X X' : List D) (y y' : List α) (hfit : (fhObjFit finite b o X y).2 = none) (h3 : 3 ≤ (labelsOf y').length) (hl : (labelsOf y').length = (labelsOf y).length)
    (hrej : acceptsXy finite X' y' = false) (Xt : List D) (out : List α) (hout : fhObjPredict b.ops (fhObjFit finite b o X y).1 Xt = .ok out) :
    (fhObjFit finite b (fhObjFit finite b o X y).1 X' y').2 = some .valueError
    ∧ ∃ out', fhObjPredict b.ops (fhObjFit finite b (fhObjFit finite b o X y).1 X' y').1 Xt = .ok out'
      ∧ List.Forall₂ (fun a c => ∃ i : ℕ, (labelsOf y)[i]? = some a ∧ (labelsOf y')[i]? = some c) out out' := by
  obtain ⟨f, h1, h2, e1⟩ := fhObjFit_returned hfit
  have e2 := fhObjFit_rejected (b := b) (fhObjFit finite b o X y).1 X' y' h3 hrej
  rw [e2]
  refine ⟨rfl, ?_⟩
  rw [e1] at hout ⊢
  unfold fhObjPredict at hout ⊢
  rw [fhObjRead_fitted] at hout
  rw [show (fhObjRead ⟨some (labelsOf y'), some (f.estimators.map some)⟩ : Except Err (FhFit M α)) = .ok ⟨labelsOf y', f.estimators⟩ from fhObjRead_fitted ⟨labelsOf y', f.estimators⟩]
  rw [← h2] at hl ⊢
  exact fhPredict_relabel b.ops f.classes (labelsOf y') f.estimators hl Xt out hout

end

section
variable [LinearOrder α] {fails : List D → List α → Option Err} {split : Splitter S} {ops : CvOps M D α}

/-- **C124** for `CV_estimator`: a call to `fit` that returns leaves what `fit` learns from its arguments, whatever happened before. -/
theorem C124_cv_fresh_partial (o : S × CvFit M D α) (before : List (List D × List α)) (X : List D) (y : List α) (h : (cvCall fails split ops (fitCalls (cvCall fails split ops) o before).1 X y).2 = none) :
    cvFit split ops (fitCalls (cvCall fails split ops) o before).1.1 X y
      = ((cvCall fails split ops (fitCalls (cvCall fails split ops) o before).1 X y).1.1, .ok (cvCall fails split ops (fitCalls (cvCall fails split ops) o before).1 X y).1.2) :=
  (cvCall_returned h).2

theorem cvLabels_relabel (cs cs' : List α) (hl : cs'.length = cs.length) (hk : cs.length = k) (rows : List (Fin k → ℝ)) (out : List α) (h : rows.mapM (cvLabel cs) = .ok out) :
    ∃ out', rows.mapM (cvLabel cs') = .ok out' ∧ List.Forall₂ (fun a c => ∃ i : ℕ, cs[i]? = some a ∧ cs'[i]? = some c) out out' := by
  induction rows generalizing out with
  | nil =>
    obtain rfl := Except.ok.inj h
    exact ⟨[], rfl, .nil⟩
  | cons row rows ih =>
    cases hrow : cvLabel cs row with
    | error e => rw [List.mapM_cons, hrow] at h; cases h
    | ok a =>
      cases ho : rows.mapM (cvLabel cs) with
      | error e => rw [List.mapM_cons, hrow, ho] at h; cases h
      | ok out1 =>
        rw [List.mapM_cons, hrow, ho] at h
        obtain rfl := Except.ok.inj h
        obtain ⟨out1', e1, e2⟩ := ih out1 ho
        unfold cvLabel at hrow
        cases hm : npArgmax row with
        | none => rw [hm] at hrow; cases hrow
        | some i =>
          rw [hm] at hrow
          have hc : cs'[(i : ℕ)]? = some (cs'[(i : ℕ)]'(by rw [hl, hk]; exact i.2)) := List.getElem?_eq_getElem _
          have hlab : cvLabel cs' row = .ok (cs'[(i : ℕ)]'(by rw [hl, hk]; exact i.2)) := by
            unfold cvLabel
            rw [hm]
            exact item_ok.2 hc
          refine ⟨_ :: out1', ?_, .cons ⟨i, item_ok.1 hrow, hc⟩ e2⟩
          rw [List.mapM_cons, hlab, e1]
          rfl

/-- **C124 is false** of `CV_estimator`: after a call to `fit` that returned, a call that raises (more folds than examples, for example) makes the models of the first training set answer with the labels of the second one. -/
theorem C124_cv_relabels_refuted [DecidableEq D] (o : S × CvFit M D α) (X X' : List D) (y y' : List α) (hfit : (cvCall fails split ops o X y).2 = none) (hl : (labelsOf y').length = (labelsOf y).length) (e : Err)
    (hfail : fails X' y' = some e) (Xt : List D) (h1 : Xt ≠ X) (h2 : Xt ≠ X') (avg soft : Bool) (s : S) (out : List α)
    (hout : (cvPredict (labelsOf y).length split ops avg soft (cvCall fails split ops o X y).1.2 s Xt).2 = .ok out) :
    (cvCall fails split ops (cvCall fails split ops o X y).1 X' y').2 = some e
    ∧ ∃ out', (cvPredict (labelsOf y).length split ops avg soft (cvCall fails split ops (cvCall fails split ops o X y).1 X' y').1.2 s Xt).2 = .ok out'
      ∧ List.Forall₂ (fun a c => ∃ i : ℕ, (labelsOf y)[i]? = some a ∧ (labelsOf y')[i]? = some c) out out' := by
  have hr : (cvCall fails split ops (cvCall fails split ops o X y).1 X' y').2 = some e := by
    unfold cvCall cvObjFit
    simp only [hfail]
  refine ⟨hr, ?_⟩
  rw [cvCall_raised hr]
  obtain ⟨m1, m2, m3, -, -⟩ := cvFit_models (cvCall_returned hfit).2
  generalize (cvCall fails split ops o X y).1.2 = f at hout m1 m2 m3 ⊢
  unfold cvPredict at hout ⊢
  by_cases h0 : f.estimators.length = 0
  · rw [if_pos h0] at hout; cases hout
  rw [if_neg h0] at hout
  rw [if_neg h0]
  have e1 : (cvRaw (labelsOf y).length split ops f s Xt).2 = (cvRaw (labelsOf y).length split ops ⟨f.estimators, X', y', npUnique y'⟩ s Xt).2 := by
    unfold cvRaw
    rw [if_neg (by rw [m1]; exact h1), if_neg (by exact h2)]
    rfl
  rw [e1] at hout
  simp only at hout ⊢
  cases hraw : (cvRaw (labelsOf y).length split ops ⟨f.estimators, X', y', npUnique y'⟩ s Xt).2 with
  | error e => rw [hraw] at hout; cases hout
  | ok arr =>
    rw [hraw] at hout
    rw [bind_ok rfl] at hout ⊢
    have m3' : f.classes = labelsOf y := m3
    rw [m3'] at hout
    simp only [npUnique_eq_labelsOf]
    split_ifs at hout ⊢ <;> exact cvLabels_relabel _ _ hl rfl _ _ hout

/-- **C124 is false** of `EnsembleOfClassifiers`: after a call to `fit` in which the training of a classifier raised, every later call returns without training anything, and then `predict` and `predict_proba` raise AttributeError. -/
theorem C124_ens_retry_refuted {finite : List D → Bool} {raises : List D → List α → List (List ℕ) → Option Err} (sch : Schedule) (label : M → D → α) (X X' : List D) (y y' : List α) (bags bags' : List (List ℕ)) (hb : bags ≠ [])
    (hacc : acceptsXy finite X y = true) (e : Err) (hr : raises X y bags = some e) (n : ℕ) (Xt : List D) :
    let o1 := (ensObjFit finite raises sch ops ensObjNew X y bags).1
    let o2 := (ensObjFit finite raises sch ops o1 X' y' bags').1
    (ensObjFit finite raises sch ops ensObjNew X y bags).2 = some e
    ∧ ensObjPredict label o1 Xt = .error .notFittedError
    ∧ (ensObjFit finite raises sch ops o1 X' y' bags').2 = none
    ∧ ensObjPredict label o2 Xt = .error .attributeError ∧ ensObjProba n ops o2 Xt = .error .attributeError := by
  have h1 : ensObjFit finite raises sch ops (ensObjNew : EnsObj M α) X y bags = (⟨ensNew, some bags.length⟩, some e) := by
    unfold ensObjFit
    rw [if_pos (by rfl), if_neg (by rw [hacc]; simp)]
    simp only [hr]
    rfl
  obtain ⟨c, l, rfl⟩ := List.exists_cons_of_ne_nil hb
  simp only [h1]
  exact ⟨trivial, rfl, rfl, rfl, rfl⟩

end

/-! ## Non-vacuity -/

/-- A call to `fit` with data that are accepted and binary models whose training does not raise returns. -/
theorem fhObjFit_ok [LinearOrder α] {finite : List D → Bool} {b : FhRaising M D} (o : FhObj M α) (X : List D) (y : List α) (h3 : 3 ≤ (labelsOf y).length) (hacc : acceptsXy finite X y = true)
    (hr : ∀ i c, b.raises i X c = none) : (fhObjFit finite b o X y).2 = none := by
  obtain ⟨m, h1, h2, h4⟩ := C69_fh_binarizer y y h3
  have hy : y ≠ [] := by
    rintro rfl
    simp [labelsOf] at h3
  unfold fhObjFit
  rw [if_neg hy]
  simp only [npUnique_eq_labelsOf, h1]
  rw [if_neg (by rw [hacc]; simp)]
  obtain ⟨ms, hms, -⟩ := mapM_exists (List.range ((labelsOf y).length - 1)) (fun i => item m i >>= fhFitBinary b X i) fun i hi => by
    rw [List.mem_range] at hi
    refine ⟨b.ops.fit i X (groupVsRest ((labelsOf y).take (i + 1)) y), ?_⟩
    rw [bind_ok (item_ok.2 (h4 i (by omega)))]
    unfold fhFitBinary
    rw [hr]
  rw [hms]

theorem forall2_left {β γ : Type} {R : β → γ → Prop} {l : List β} {r : List γ} (h : List.Forall₂ R l r) (a : β) (ha : a ∈ l) : ∃ c, c ∈ r ∧ R a c := by
  induction h with
  | nil => cases ha
  | cons hab _ ih =>
    rcases List.mem_cons.1 ha with rfl | ha
    · exact ⟨_, List.mem_cons_self, hab⟩
    · obtain ⟨c, h1, h2⟩ := ih ha
      exact ⟨c, List.mem_cons_of_mem _ h1, h2⟩

theorem forall2_right {β γ : Type} {R : β → γ → Prop} {l : List β} {r : List γ} (h : List.Forall₂ R l r) (c : γ) (hc : c ∈ r) : ∃ a, a ∈ l ∧ R a c := forall2_left h.flip c hc

/-- Examples other than 0 are finite. -/
def nonzero : List ℕ → Bool := fun X => decide (0 ∉ X)

/-- Models whose training raises with five examples. -/
noncomputable def picky : FhRaising ℕ ℕ := ⟨tableOps decreasing, fun _ X _ => if X.length = 5 then some .valueError else none⟩

theorem picky_fit : (fhObjFit nonzero picky (fhNew : FhObj ℕ ℕ) [10, 20, 30, 40] [0, 1, 2, 2]).2 = none :=
  fhObjFit_ok _ _ _ (by rw [four_labels]; decide) (by decide) fun i c => rfl

theorem five_labels : labelsOf [7, 8, 9, 9, 9] = [7, 8, 9] := labelsOf_eq _ _ (by decide) (by decide)

example := C123_fh_rejected_refuted (finite := nonzero) (b := picky) (fun _ _ => 0) [10, 0, 30, 40] [0, 1, 2, 2] (by rw [four_labels]; decide) (by decide) 3 [50]

example := C123_fh_base_refuted (finite := nonzero) (b := picky) fhNew [10, 20, 30, 40, 50] [7, 8, 9, 9, 9] (by rw [five_labels]; decide) (by decide) 1 (by rw [five_labels]; decide) .valueError rfl 3 [50]

example := C123_stuck_refuted (finite := nonzero) (b := picky) [10, 20, 30, 40, 50] [7, 8, 9, 9, 9] (by rw [five_labels]; decide) (by decide) 1 (by rw [five_labels]; decide) .valueError rfl [([10, 20, 30, 40], [0, 1, 2, 2])]

/-- A call that fails, one that returns and one that fails. -/
example := C123_fh_fitted_partial (finite := nonzero) (b := picky) fhNew [([10, 0, 30, 40], [0, 1, 2, 2])] [([10, 20, 30, 40, 50], [7, 8, 9, 9, 9])] ([10, 20, 30, 40], [0, 1, 2, 2])
  (fhObjFit_ok _ _ _ (by rw [four_labels]; decide) (by decide) fun i c => rfl) 3 [50]

example := C124_fh_fresh_partial (finite := nonzero) (b := picky) [([10, 0, 30, 40], [0, 1, 2, 2]), ([10, 20, 30, 40, 50], [7, 8, 9, 9, 9])] [10, 20, 30, 40] [0, 1, 2, 2]
  (fhObjFit_ok _ _ _ (by rw [four_labels]; decide) (by decide) fun i c => rfl)

/-- Labels 0, 1, 2 and then, in data with a value that is not finite, labels 7, 8, 9: the answer, which was in the first set, is in the second one. -/
example : ∃ out out', fhObjPredict picky.ops (fhObjFit nonzero picky fhNew [10, 20, 30, 40] [0, 1, 2, 2]).1 [50, 60] = .ok out
    ∧ fhObjPredict picky.ops (fhObjFit nonzero picky (fhObjFit nonzero picky fhNew [10, 20, 30, 40] [0, 1, 2, 2]).1 [10, 0, 30, 40, 50] [7, 8, 9, 9, 9]).1 [50, 60] = .ok out'
    ∧ out.length = 2 ∧ (∀ c ∈ out, c ≤ 2) ∧ ∀ c ∈ out', 7 ≤ c := by
  obtain ⟨-, f, hf, hp⟩ := C124_fh_fresh_partial (finite := nonzero) (b := picky) [] [10, 20, 30, 40] [0, 1, 2, 2] picky_fit
  obtain ⟨out, h1, h2, -⟩ := C99_last_class_refuted (tableOps decreasing) _ _ rfl (by rw [four_labels]; decide) f hf [50, 60] fun m _ x _ => table_prev _ decreasing_bounds m x
  have hout := (hp 0 [50, 60]).1.trans h1
  obtain ⟨-, out', h3, h4⟩ := C124_fh_relabels_refuted (finite := nonzero) (b := picky) fhNew [10, 20, 30, 40] [10, 0, 30, 40, 50] [0, 1, 2, 2] [7, 8, 9, 9, 9] picky_fit (by rw [five_labels]; decide)
    (by rw [five_labels, four_labels]; rfl) (by decide) [50, 60] out hout
  rw [four_labels, five_labels] at h4
  refine ⟨out, out', hout, h3, h2, fun c hc => ?_, fun c hc => ?_⟩
  · obtain ⟨c', -, i, hi, -⟩ := forall2_left h4 c hc
    have := List.mem_of_getElem? hi
    simp only [List.mem_cons, List.not_mem_nil, or_false] at this
    omega
  · obtain ⟨c', -, i, -, hi⟩ := forall2_right h4 c hc
    have := List.mem_of_getElem? hi
    simp only [List.mem_cons, List.not_mem_nil, or_false] at this
    omega

/-- A cross-validation that fails with three examples. -/
def three (X : List ℕ) (_ : List ℕ) : Option Err := if X.length = 3 then some .valueError else none

theorem three_fit (e : CvFit ℝ ℕ ℕ) : cvCall three fixedSplit meanOps (0, e) [10, 20] [0, 1] = ((0, ⟨[1, 0], [10, 20], [0, 1], [0, 1]⟩), none) := by
  unfold cvCall cvObjFit
  rw [show three [10, 20] [0, 1] = none from rfl]
  simp only [fixed_fit]

example := C123_cv_unfitted_partial (fails := three) (split := fixedSplit) (ops := meanOps) 0 [([1, 2, 3], [0, 1, 1])] (by simp [fitCalls, cvCall, cvObjFit, three]) 2 true false [50]

example := C123_cv_fitted_partial (fails := three) (split := fixedSplit) (ops := meanOps) (fun _ => by simp [fixedSplit]) (0, cvNew) [([1, 2, 3], [0, 1, 1])] [([1, 2, 3], [5, 6, 6])] ([10, 20], [0, 1])
  (by rw [show (fitCalls (cvCall three fixedSplit meanOps) (0, cvNew) [([1, 2, 3], [0, 1, 1])]).1 = (0, ⟨[], [1, 2, 3], [0, 1, 1], npUnique [0, 1, 1]⟩) from rfl]; rw [three_fit]) 2 true false 0 [50]

example := C124_cv_fresh_partial (fails := three) (split := fixedSplit) (ops := meanOps) (0, cvNew) [([1, 2, 3], [0, 1, 1])] [10, 20] [0, 1]
  (by rw [show (fitCalls (cvCall three fixedSplit meanOps) (0, cvNew) [([1, 2, 3], [0, 1, 1])]).1 = (0, ⟨[], [1, 2, 3], [0, 1, 1], npUnique [0, 1, 1]⟩) from rfl]; rw [three_fit])

/-- Labels 0, 1 and then, in a call that fails, 5, 6. -/
example : ∃ out out', (cvPredict 2 fixedSplit meanOps true false (cvCall three fixedSplit meanOps (0, cvNew) [10, 20] [0, 1]).1.2 0 [50]).2 = .ok out
    ∧ (cvPredict 2 fixedSplit meanOps true false (cvCall three fixedSplit meanOps (cvCall three fixedSplit meanOps (0, cvNew) [10, 20] [0, 1]).1 [1, 2, 3] [5, 6, 6]).1.2 0 [50]).2 = .ok out'
    ∧ out.length = 1 ∧ (∀ c ∈ out, c ≤ 1) ∧ ∀ c ∈ out', 5 ≤ c := by
  have l1 : labelsOf [0, 1] = [0, 1] := labelsOf_eq _ _ (by decide) (by decide)
  have l2 : labelsOf [5, 6, 6] = [5, 6] := labelsOf_eq _ _ (by decide) (by decide)
  have hret : (cvCall three fixedSplit meanOps (0, cvNew) [10, 20] [0, 1]).2 = none := by rw [three_fit]
  obtain ⟨arr, harr⟩ : ∃ arr, (cvRaw 2 fixedSplit meanOps ⟨[1, 0], [10, 20], [0, 1], [0, 1]⟩ 0 [50]).2 = .ok arr := by
    unfold cvRaw
    rw [if_neg (by decide)]
    obtain ⟨arr, h, -⟩ := mapM_exists [(1 : ℝ), 0] (fun m => [50].mapM fun x => storeRow 2 (meanOps.proba m x)) fun m _ => by
      obtain ⟨r, h, -⟩ := mapM_exists [50] (fun x => storeRow 2 (meanOps.proba m x)) fun x _ => ⟨_, storeRow_of_length _ rfl⟩
      exact ⟨r, h⟩
    exact ⟨arr, h⟩
  obtain ⟨-, -, -, out, h1, h2, -⟩ := C98_predict (k := 2) (split := fixedSplit) (ops := meanOps) ⟨[1, 0], [10, 20], [0, 1], [0, 1]⟩ (by decide) rfl 0 [50] arr (by simp) harr
  have hout : (cvPredict (labelsOf [0, 1]).length fixedSplit meanOps true false (cvCall three fixedSplit meanOps (0, cvNew) [10, 20] [0, 1]).1.2 0 [50]).2 = .ok out := by
    rw [three_fit, l1]
    exact h1
  obtain ⟨-, out', h3, h4⟩ := C124_cv_relabels_refuted (fails := three) (split := fixedSplit) (ops := meanOps) (0, cvNew) [10, 20] [1, 2, 3] [0, 1] [5, 6, 6] hret (by rw [l1, l2]; rfl) .valueError rfl [50] (by decide) (by decide)
    true false 0 out hout
  rw [l1] at hout h3 h4
  rw [l2] at h4
  refine ⟨out, out', hout, h3, h2, fun c hc => ?_, fun c hc => ?_⟩
  · obtain ⟨c', -, i, hi, -⟩ := forall2_left h4 c hc
    have := List.mem_of_getElem? hi
    simp only [List.mem_cons, List.not_mem_nil, or_false] at this
    omega
  · obtain ⟨c', -, i, -, hi⟩ := forall2_right h4 c hc
    have := List.mem_of_getElem? hi
    simp only [List.mem_cons, List.not_mem_nil, or_false] at this
    omega

/-- The training of the classifiers raises with three examples; the second call has two. -/
example := C124_ens_retry_refuted (finite := nonzero) (raises := fun X _ _ => if X.length = 3 then some .valueError else none) (ops := meanOps) .processes (fun _ _ => 0) [1, 2, 3] [10, 20] [0, 1, 1] [0, 1] [[0, 1], [1, 2]] [[0, 1]]
  (by simp) (by decide) .valueError rfl 2 [50]

end Verif.Props
