import Verif.Proof.CvEstimator

/-!
# C61, C96 - C98: cross validation
-/

namespace Verif.Props

open Verif.Model Verif.Spec Verif.Proof

variable {M D α S : Type} {k : ℕ}

theorem flatten_get {β : Type} (n : ℕ) (arr : List (List β)) (h : ∀ rows ∈ arr, rows.length = n) (q j : ℕ) (hj : j < n) : arr.flatten[q * n + j]? = arr[q]?.bind fun rows => rows[j]? := by
  induction arr generalizing q with
  | nil => simp
  | cons rows arr ih =>
    have hl := h rows (by simp)
    cases q with
    | zero => rw [List.flatten_cons, Nat.zero_mul, Nat.zero_add, List.getElem?_append_left (by omega)]; rfl
    | succ q =>
      have := ih (fun r hr => h r (List.mem_cons_of_mem _ hr)) q
      rw [List.flatten_cons, List.getElem?_append_right (by rw [hl, Nat.succ_mul]; omega), hl, show (q + 1) * n + j - n = q * n + j by rw [Nat.succ_mul]; omega, this]
      rfl

theorem flatten_length {β : Type} (n : ℕ) (arr : List (List β)) (h : ∀ rows ∈ arr, rows.length = n) : arr.flatten.length = arr.length * n := by
  induction arr with
  | nil => simp
  | cons rows arr ih =>
    rw [List.flatten_cons, List.length_append, ih fun r hr => h r (List.mem_cons_of_mem _ hr), h rows (by simp), List.length_cons]
    ring

section
variable [LinearOrder α] {split : Splitter S} {ops : CvOps M D α} {s s1 : S} {X : List D} {y : List α} {fit : CvFit M D α}

/-- `fit` returns, for every splitter whose indexes are right. -/
theorem cvFit_returns (split : Splitter S) (ops : CvOps M D α) (s : S) (X : List D) (y : List α) (hy : X.length = y.length) (hin : ∀ f ∈ (split s).2, ∀ i ∈ f.1, i < X.length) :
    ∃ s1 fit, cvFit split ops s X y = (s1, .ok fit) := by
  obtain ⟨est, he, -⟩ := mapM_exists (split s).2 (cvTrainFold ops X y) fun f hf => by
    have hitem : ∀ {β : Type} (l : List β), l.length = X.length → ∃ r, f.1.mapM (item l) = .ok r := by
      intro β l hl
      obtain ⟨r, hr, -⟩ := mapM_exists f.1 (item l) fun i hi => by
        have := hin f hf i hi
        exact ⟨l[i], item_ok.2 (List.getElem?_eq_getElem (by omega))⟩
      exact ⟨r, hr⟩
    obtain ⟨rows, h1⟩ := hitem X rfl
    obtain ⟨ys, h2⟩ := hitem y hy.symm
    exact ⟨_, (bind_ok h1 _).trans ((bind_ok h2 _).trans rfl)⟩
  exact ⟨_, ⟨est, X, y, npUnique y⟩, by unfold cvFit; rw [he]; rfl⟩

/-- The models are those of the folds given at `fit`. -/
theorem cvFit_models (hfit : cvFit split ops s X y = (s1, .ok fit)) :
    fit.X = X ∧ fit.y = y ∧ fit.classes = labelsOf y ∧ fit.estimators.length = (split s).2.length ∧ ∀ (a : ℕ) (f : Fold), (split s).2[a]? = some f → ∃ m, fit.estimators[a]? = some m ∧ IsFoldModel ops X y f m := by
  unfold cvFit at hfit
  simp only [Prod.mk.injEq] at hfit
  obtain ⟨est, he, rfl⟩ := map_inv hfit.2
  have hf := (mapM_iff _ _ _).1 he
  refine ⟨rfl, rfl, rfl, hf.length_eq.symm, fun a f ha => ?_⟩
  obtain ⟨m, hm, hr⟩ := forall2_get hf a f ha
  obtain ⟨rows, h1, hr⟩ := bind_inv hr
  obtain ⟨ys, h2, hr⟩ := bind_inv hr
  exact ⟨m, hm, rows, ys, (mapM_item_iff _ _ _).1 h1, (mapM_item_iff _ _ _).1 h2, (Except.ok.inj hr).symm⟩

theorem cvRow_ok (est : List M) (X : List D) (m : M) (x : D) (i j : ℕ) (hm : est[i]? = some m) (hx : X[j]? = some x) (hk : (ops.proba m x).length = k) :
    cvRow k ops est X i j = .ok fun c => (ops.proba m x).getD c 0 :=
  (bind_ok (item_ok.2 hm) _).trans ((bind_ok (item_ok.2 hx) _).trans (storeRow_of_length _ hk))

/-- The array of predictions over the training set. -/
theorem cvTrain_spec {reps : List (List Fold)} (hsplit : (split s).2 = reps.flatten) (hk : ∀ rep ∈ reps, IsKFold X.length rep) (hX : X ≠ []) (hfit : cvFit split ops s X y = (s1, .ok fit))
    (hcols : ∀ m ∈ fit.estimators, ∀ x ∈ X, (ops.proba m x).length = k) :
    ∃ arr, cvTrain k ops fit X reps.flatten reps.flatten = .ok arr ∧ arr.length = reps.length ∧ (∀ rows ∈ arr, rows.length = X.length)
      ∧ ∀ (q : ℕ) (rep : List Fold), reps[q]? = some rep → ∀ j < X.length, ∃ (f : Fold) (m : M) (x : D) (row : Fin k → ℝ) (rows : List (Fin k → ℝ)), f ∈ rep ∧ j ∈ f.2 ∧ j ∉ f.1 ∧ IsFoldModel ops X y f m ∧ X[j]? = some x ∧ arr[q]? = some rows ∧ rows[j]? = some row
        ∧ ∀ c : Fin k, row c = (ops.proba m x).getD c 0 := by
  obtain ⟨-, -, -, hl, hm⟩ := cvFit_models hfit
  rw [hsplit] at hl hm
  have hn : 0 < X.length := List.length_pos_iff.2 hX
  set n := X.length with hnd
  have hg : ∀ a < fit.estimators.length, ∀ j < n, ∃ v, cvRow k ops fit.estimators X a j = .ok v := by
    intro a ha j hj
    exact ⟨_, cvRow_ok fit.estimators X fit.estimators[a] X[j] a j (List.getElem?_eq_getElem ha) (List.getElem?_eq_getElem hj) (hcols _ (List.getElem_mem ha) _ (List.getElem_mem hj))⟩
  choose! v hv using hg
  have hreps : (reps.flatten.map fun f => f.2.length).sum = reps.length * n := by
    clear hsplit hl hm hv hfit
    clear_value n
    induction reps with
    | nil => simp
    | cons rep reps ih =>
      rw [List.flatten_cons, List.map_append, List.sum_append, kfold_sum (hk rep (by simp)), ih (fun r hr => hk r (List.mem_cons_of_mem _ hr)), List.length_cons]
      ring
  obtain ⟨arr, h1, h2, h3, -, h5⟩ := cvLoop_reps n hn (cvRow k ops fit.estimators X) v fit.estimators.length hv reps hk 0 0 (by omega) (List.replicate reps.length (List.replicate n 0)) (by simp)
    (fun rows hr => by rw [List.eq_of_mem_replicate hr, List.length_replicate])
  refine ⟨arr, ?_, by rw [h2, List.length_replicate], h3, fun q rep hq j hj => ?_⟩
  · unfold cvTrain
    rw [if_neg (by omega), hreps, ← hnd, Nat.mul_div_cancel _ hn, h1]
  · obtain ⟨a, f, rows, e1, e2, e3, e4, e5⟩ := h5 q rep hq j hj
    obtain ⟨m, hma, hmf⟩ := hm a f e1
    have hx : X[j]? = some X[j] := List.getElem?_eq_getElem hj
    have ha : a < fit.estimators.length := (List.getElem?_eq_some_iff.1 hma).1
    have hrow := hv a ha j hj
    rw [cvRow_ok fit.estimators X m X[j] a j hma hx (hcols m (List.mem_of_getElem? hma) _ (List.getElem_mem hj))] at hrow
    rw [Nat.zero_add] at e4 e5
    refine ⟨f, m, X[j], v a j, rows, e2, e3, fun hjf => (hk rep (List.mem_of_getElem? hq)).disjoint f e2 j hjf e3, hmf, hx, e4, e5, fun c => ?_⟩
    rw [← Except.ok.inj hrow]

variable [DecidableEq D]

theorem cvRaw_train {reps : List (List Fold)} (hdet : ∀ s', (split s').2 = reps.flatten) (hfit : cvFit split ops s X y = (s1, .ok fit)) (s2 : S) :
    (cvRaw k split ops fit s2 X).2 = cvTrain k ops fit X reps.flatten reps.flatten := by
  unfold cvRaw
  rw [if_pos (cvFit_models hfit).1.symm]
  simp only [hdet]

theorem cvFit_ne {reps : List (List Fold)} (hsplit : (split s).2 = reps.flatten) (hk : ∀ rep ∈ reps, IsKFold X.length rep) (hX : X ≠ []) (hr : reps ≠ []) (hfit : cvFit split ops s X y = (s1, .ok fit)) :
    fit.estimators.length ≠ 0 := by
  obtain ⟨rep, reps', rfl⟩ := List.exists_cons_of_ne_nil hr
  rw [(cvFit_models hfit).2.2.2.1, hsplit, List.flatten_cons, List.length_append]
  have := List.length_pos_iff.2 (kfold_ne (List.length_pos_iff.2 hX) (hk rep (by simp)))
  omega

/-- **C61**, training set: with a deterministic splitter, `predict_proba` (not averaged) returns a row for every repetition and example, in this order, and it comes from the only model of the repetition that
has the example in its testing part, that is, not in its training part. -/
theorem C61_training_set {reps : List (List Fold)} (hdet : ∀ s', (split s').2 = reps.flatten) (hk : ∀ rep ∈ reps, IsKFold X.length rep) (hX : X ≠ []) (hr : reps ≠ []) (hfit : cvFit split ops s X y = (s1, .ok fit))
    (hcols : ∀ m ∈ fit.estimators, ∀ x ∈ X, (ops.proba m x).length = k) (s2 : S) :
    ∃ out, (cvPredictProba k split ops false fit s2 X).2 = .ok out ∧ out.length = reps.length * X.length ∧ ∀ (q : ℕ) (rep : List Fold), reps[q]? = some rep → ∀ j < X.length,
      ∃ (f : Fold) (m : M) (x : D) (row : Fin k → ℝ), f ∈ rep ∧ j ∈ f.2 ∧ j ∉ f.1 ∧ IsFoldModel ops X y f m ∧ X[j]? = some x ∧ out[q * X.length + j]? = some row ∧ (∀ c : Fin k, row c = (ops.proba m x).getD c 0)
        ∧ ∀ f' ∈ rep, j ∈ f'.2 → f' = f := by
  obtain ⟨arr, h1, h2, h3, h4⟩ := cvTrain_spec (hdet s) hk hX hfit hcols
  refine ⟨arr.flatten, ?_, by rw [flatten_length _ _ h3, h2], fun q rep hq j hj => ?_⟩
  · unfold cvPredictProba
    rw [if_neg (cvFit_ne (hdet s) hk hX hr hfit)]
    simp only
    rw [cvRaw_train hdet hfit, h1]
    rfl
  · obtain ⟨f, m, x, row, rows, e1, e2, e3, e4, e5, e6, e7, e8⟩ := h4 q rep hq j hj
    refine ⟨f, m, x, row, e1, e2, e3, e4, e5, ?_, e8, fun f' hf' hj' => ?_⟩
    · rw [flatten_get _ _ h3 q j hj, e6]
      exact e7
    · have hnd := (hk rep (List.mem_of_getElem? hq)).partition.nodup_iff.2 List.nodup_range
      by_contra hne
      rw [List.nodup_flatMap] at hnd
      have : ∀ a ∈ rep, ∀ b ∈ rep, a ≠ b → List.Disjoint a.2 b.2 := by
        intro a ha b hb hab
        haveI : Std.Symm fun a b : Fold => List.Disjoint a.2 b.2 := ⟨fun _ _ h => h.symm⟩
        exact List.Pairwise.forall (R := fun a b : Fold => List.Disjoint a.2 b.2) hnd.2 ha hb hab
      exact this f' hf' f e1 hne hj' e2

/-- **C61**, training set, averaged predictions: the mean over the repetitions of the predictions of models that were not trained with the example. -/
theorem C61_training_set_averaged {reps : List (List Fold)} (hdet : ∀ s', (split s').2 = reps.flatten) (hk : ∀ rep ∈ reps, IsKFold X.length rep) (hX : X ≠ []) (hr : reps ≠ [])
    (hfit : cvFit split ops s X y = (s1, .ok fit)) (hcols : ∀ m ∈ fit.estimators, ∀ x ∈ X, (ops.proba m x).length = k) (s2 : S) :
    ∃ out, (cvPredictProba k split ops true fit s2 X).2 = .ok out ∧ out.length = X.length ∧ ∀ j (hj : j < X.length), ∃ models : List M,
      List.Forall₂ (fun rep m => ∃ f ∈ rep, j ∈ f.2 ∧ j ∉ f.1 ∧ IsFoldModel ops X y f m) reps models
      ∧ ∃ row, out[j]? = some row ∧ ∀ c : Fin k, row c = (models.map fun m => (ops.proba m X[j]).getD c 0).sum / reps.length := by
  obtain ⟨arr, h1, h2, h3, h4⟩ := cvTrain_spec (hdet s) hk hX hfit hcols
  refine ⟨cvMean X.length arr, ?_, by simp [cvMean], fun j hj => ?_⟩
  · unfold cvPredictProba
    rw [if_neg (cvFit_ne (hdet s) hk hX hr hfit)]
    simp only
    rw [cvRaw_train hdet hfit, h1]
    rfl
  · have hex : ∀ q : Fin reps.length, ∃ (m : M) (row : Fin k → ℝ), (∃ f ∈ reps[q], j ∈ f.2 ∧ j ∉ f.1 ∧ IsFoldModel ops X y f m) ∧ (arr[q]'(by rw [h2]; exact q.2)).getD j 0 = row
        ∧ ∀ c : Fin k, row c = (ops.proba m X[j]).getD c 0 := by
      intro q
      obtain ⟨f, m, x, row, rows, e1, e2, e3, e4, e5, e6, e7, e8⟩ := h4 q reps[q] (List.getElem?_eq_getElem q.2) j hj
      rw [List.getElem?_eq_getElem hj] at e5
      cases e5
      refine ⟨m, row, ⟨f, e1, e2, e3, e4⟩, ?_, e8⟩
      rw [List.getElem?_eq_getElem (by rw [h2]; exact q.2)] at e6
      have e9 : (arr[(q : ℕ)]'(by rw [h2]; exact q.2)) = rows := Option.some.inj e6
      show (arr[(q : ℕ)]'(by rw [h2]; exact q.2)).getD j 0 = row
      rw [e9, List.getD_eq_getElem?_getD, e7]
      rfl
    choose m row m1 m2 m3 using hex
    refine ⟨List.ofFn m, ?_, meanRows (arr.map fun rows => rows.getD j 0), by simp [cvMean, hj], fun c => ?_⟩
    · rw [List.forall₂_iff_get]
      refine ⟨by simp, fun i h1 h2 => ?_⟩
      simpa using m1 ⟨i, h1⟩
    · unfold meanRows
      rw [List.length_map, h2, List.map_map]
      congr 2
      apply List.ext_getElem (by simp [h2])
      intro i hi1 hi2
      simp only [List.length_map] at hi1
      have hi : i < reps.length := by omega
      simp only [List.getElem_map, Function.comp, List.getElem_ofFn]
      rw [← m3 ⟨i, hi⟩ c, ← m2 ⟨i, hi⟩]
      rfl

/-- **C61**, other data: every model predicts every example. -/
theorem C61_testing_set (hfit : cvFit split ops s X y = (s1, .ok fit)) (Xt : List D) (hne : Xt ≠ X) (hest : (split s).2 ≠ []) (hcols : ∀ m ∈ fit.estimators, ∀ x ∈ Xt, (ops.proba m x).length = k) (s2 : S) :
    ∃ out, (cvPredictProba k split ops false fit s2 Xt).2 = .ok out ∧ out.length = (split s).2.length * Xt.length ∧ ∀ (a : ℕ) (f : Fold), (split s).2[a]? = some f → ∀ (j : ℕ) (x : D), Xt[j]? = some x →
      ∃ m row, IsFoldModel ops X y f m ∧ out[a * Xt.length + j]? = some row ∧ ∀ c : Fin k, row c = (ops.proba m x).getD c 0 := by
  obtain ⟨hXf, -, -, hl, hm⟩ := cvFit_models hfit
  have e1 : cvTest k ops fit Xt = .ok (fit.estimators.map fun m => Xt.map fun x => fun c => (ops.proba m x).getD c 0) := by
    unfold cvTest
    refine mapM_ok _ _ _ fun m hmm => mapM_ok _ _ _ fun x hx => ?_
    exact storeRow_of_length _ (hcols m hmm x hx)
  have hrows : ∀ rows ∈ fit.estimators.map fun m => Xt.map fun x => fun c : Fin k => (ops.proba m x).getD c 0, rows.length = Xt.length := by
    intro rows hr
    obtain ⟨m, -, rfl⟩ := List.mem_map.1 hr
    simp
  refine ⟨(fit.estimators.map fun m => Xt.map fun x => fun c : Fin k => (ops.proba m x).getD c 0).flatten, ?_, ?_, fun a f ha j x hx => ?_⟩
  · unfold cvPredictProba
    rw [if_neg (by rw [hl]; simpa using hest)]
    simp only [cvRaw]
    rw [if_neg (by rw [hXf]; exact hne)]
    simp only
    rw [e1]
    rfl
  · rw [flatten_length _ _ hrows, List.length_map, hl]
  · obtain ⟨m, hma, hmf⟩ := hm a f ha
    refine ⟨m, fun c => (ops.proba m x).getD c 0, hmf, ?_, fun _ => rfl⟩
    rw [flatten_get _ _ hrows a j (List.getElem?_eq_some_iff.1 hx).1, List.getElem?_map, hma]
    simp [hx]

/-! ## C97: folds without some class -/

/-- **C97 is false**: a model that knows a single class gives probability 1 to it, and this value is recorded for every class: rows sum to the number of classes. -/
theorem C97_single_class_refuted (hfit : cvFit split ops s X y = (s1, .ok fit)) (Xt : List D) (hne : Xt ≠ X) (hest : (split s).2 ≠ []) (hk : 1 < k) (hone : ∀ m ∈ fit.estimators, ∀ x ∈ Xt, ops.proba m x = [1]) (s2 : S) :
    (cvPredictProba k split ops true fit s2 Xt).2 = .ok (Xt.map fun _ _ => 1) := by
  obtain ⟨hXf, -, -, hl, -⟩ := cvFit_models hfit
  have hl0 : fit.estimators.length ≠ 0 := by rw [hl]; simpa using hest
  have e1 : cvTest k ops fit Xt = .ok (fit.estimators.map fun m => Xt.map fun _ _ => 1) := by
    unfold cvTest
    refine mapM_ok _ _ _ fun m hmm => mapM_ok _ _ _ fun x hx => ?_
    rw [hone m hmm x hx]
    unfold storeRow
    rw [dif_neg (by simp; omega)]
  unfold cvPredictProba
  rw [if_neg hl0]
  simp only [cvRaw]
  rw [if_neg (by rw [hXf]; exact hne)]
  simp only
  rw [e1]
  simp only [Except.map, if_true, Except.ok.injEq]
  unfold cvMean
  apply List.ext_getElem (by simp)
  intro j h1 h2
  simp only [List.length_map, List.length_range] at h1
  funext c
  have hl1 : (fit.estimators.length : ℝ) ≠ 0 := by exact_mod_cast hl0
  simp [meanRows, List.getD_eq_getElem, h1, hl1]

theorem storeRow_short {v : List ℝ} (h1 : v.length ≠ 1) (hk : v.length < k) (row : Fin k → ℝ) : storeRow k v ≠ .ok row := by
  intro h
  unfold storeRow at h
  rw [dif_neg (by omega)] at h
  match v, h1 with
  | [], _ => cases h
  | [a], h1 => exact h1 rfl
  | _ :: _ :: _, _ => cases h

/-- **C97 is false**: when a model does not know all the classes (but knows several) `predict_proba` never returns. -/
theorem C97_missing_class_refuted (hfit : cvFit split ops s X y = (s1, .ok fit)) (Xt : List D) (hne : Xt ≠ X) (m : M) (hm : m ∈ fit.estimators) (x : D) (hx : x ∈ Xt) (h1 : (ops.proba m x).length ≠ 1)
    (hk : (ops.proba m x).length < k) (avg : Bool) (s2 : S) (out : List (Fin k → ℝ)) : (cvPredictProba k split ops avg fit s2 Xt).2 ≠ .ok out := by
  intro h
  obtain ⟨hXf, -⟩ := cvFit_models hfit
  unfold cvPredictProba at h
  by_cases h0 : fit.estimators.length = 0
  · rw [if_pos h0] at h; cases h
  rw [if_neg h0] at h
  simp only [cvRaw] at h
  rw [if_neg (by rw [hXf]; exact hne)] at h
  obtain ⟨arr, harr, -⟩ := map_inv h
  have h2 := (mapM_iff _ _ _).1 harr
  obtain ⟨a, ha⟩ := List.getElem?_of_mem hm
  obtain ⟨rows, -, h3⟩ := forall2_get h2 a m ha
  obtain ⟨b, hb⟩ := List.getElem?_of_mem hx
  obtain ⟨row, -, h4⟩ := forall2_get ((mapM_iff _ _ _).1 h3) b x hb
  exact storeRow_short h1 hk row h4

/-- **C97, partial**: when all the models know all the classes and give probability distributions, the averaged predictions are probability distributions. -/
theorem C97_all_classes_partial (hfit : cvFit split ops s X y = (s1, .ok fit)) (Xt : List D) (hne : Xt ≠ X) (hest : (split s).2 ≠ []) (hp : ∀ m ∈ fit.estimators, ∀ x ∈ Xt, IsPrevList k (ops.proba m x)) (s2 : S) :
    ∃ out, (cvPredictProba k split ops true fit s2 Xt).2 = .ok out ∧ out.length = Xt.length ∧ ∀ row ∈ out, IsPrev row := by
  obtain ⟨hXf, -, -, hl, -⟩ := cvFit_models hfit
  have hl0 : fit.estimators.length ≠ 0 := by rw [hl]; simpa using hest
  have e1 : cvTest k ops fit Xt = .ok (fit.estimators.map fun m => Xt.map fun x => asVec k (ops.proba m x)) := by
    unfold cvTest
    refine mapM_ok _ _ _ fun m hmm => mapM_ok _ _ _ fun x hx => ?_
    exact storeRow_of_length _ (hp m hmm x hx).1
  refine ⟨cvMean Xt.length (fit.estimators.map fun m => Xt.map fun x => asVec k (ops.proba m x)), ?_, by simp [cvMean], ?_⟩
  · unfold cvPredictProba
    rw [if_neg hl0]
    simp only [cvRaw]
    rw [if_neg (by rw [hXf]; exact hne)]
    simp only
    rw [e1]
    rfl
  · intro row hr
    obtain ⟨j, hj, rfl⟩ := List.mem_map.1 hr
    rw [List.mem_range] at hj
    refine meanRows_isPrev _ (by simpa using hl0) fun r hr => ?_
    simp only [List.map_map, List.mem_map, Function.comp] at hr
    obtain ⟨m, hm, rfl⟩ := hr
    rw [List.getD_eq_getElem _ _ (by simpa using hj), List.getElem_map]
    exact asVec_isPrev (hp m hm _ (List.getElem_mem _))

/-! ## C98: crisp predictions -/

theorem cvLabel_ok (classes : List α) (hc : classes.length = k) (hk : 0 < k) (row : Fin k → ℝ) : ∃ i : Fin k, IsFirstMax row i ∧ cvLabel classes row = .ok (classes[i]) := by
  cases h : npArgmax row with
  | none =>
    exfalso
    unfold npArgmax at h
    rw [List.argmax_eq_none] at h
    have := congrArg List.length h
    simp at this
    omega
  | some i =>
    refine ⟨i, ⟨fun j => List.le_of_mem_argmax (List.mem_finRange j) h, fun j hj => ?_⟩, ?_⟩
    · have hle : row j ≤ row i := List.le_of_mem_argmax (List.mem_finRange j) h
      refine lt_of_le_of_ne hle fun heq => ?_
      have hidx := List.index_of_argmax (f := row) (l := List.finRange k) (m := i) h (List.mem_finRange j) heq.ge
      simp at hidx
      omega
    · unfold cvLabel
      rw [h]
      exact item_ok.2 (List.getElem?_eq_getElem (by omega))

theorem cvLabels_ok (classes : List α) (hc : classes.length = k) (hk : 0 < k) (rows : List (Fin k → ℝ)) :
    ∃ out, rows.mapM (cvLabel classes) = .ok out ∧ List.Forall₂ (fun row c => ∃ i : Fin k, IsFirstMax row i ∧ classes[i]? = some c) rows out := by
  obtain ⟨out, ho, -⟩ := mapM_exists rows (cvLabel classes) fun row _ => by
    obtain ⟨i, -, h⟩ := cvLabel_ok classes hc hk row
    exact ⟨_, h⟩
  refine ⟨out, ho, ((mapM_iff _ _ _).1 ho).imp fun row c h => ?_⟩
  obtain ⟨i, h1, h2⟩ := cvLabel_ok classes hc hk row
  rw [h] at h2
  exact ⟨i, h1, by rw [Except.ok.inj h2]; exact List.getElem?_eq_getElem (by omega)⟩

open scoped Classical in
theorem countP_argmax (rows : List (Fin k → ℝ)) (i : Fin k) (hk : 0 < k) : rows.countP (fun row => decide (npArgmax row = some i)) = rows.countP fun row => decide (IsFirstMax row i) := by
  congr 1
  funext row
  rw [Bool.eq_iff_iff]
  simp only [decide_eq_true_eq]
  obtain ⟨j, hj, -⟩ := cvLabel_ok (List.finRange k) (by simp) hk row
  constructor
  · intro h
    refine ⟨fun j => List.le_of_mem_argmax (List.mem_finRange j) h, fun j hj => ?_⟩
    have hle : row j ≤ row i := List.le_of_mem_argmax (List.mem_finRange j) h
    refine lt_of_le_of_ne hle fun heq => ?_
    have hidx := List.index_of_argmax (f := row) (l := List.finRange k) (m := i) h (List.mem_finRange j) heq.ge
    simp at hidx
    omega
  · intro h
    cases hr : npArgmax row with
    | none =>
      exfalso
      unfold npArgmax at hr
      rw [List.argmax_eq_none] at hr
      have := congrArg List.length hr
      simp at this
      omega
    | some l =>
      have h1 : row i ≤ row l := List.le_of_mem_argmax (List.mem_finRange i) hr
      rcases lt_trichotomy l i with hlt | rfl | hgt
      · exact absurd (h.2 l hlt) (not_lt.2 h1)
      · rfl
      · have hidx := List.index_of_argmax (f := row) (l := List.finRange k) (m := l) hr (List.mem_finRange i) (h.1 l)
        simp at hidx
        omega

open scoped Classical in
/-- **C98**: whenever `predict_proba` (not averaged) returns rows of probabilities, `predict` returns labels: without averaging, for every row the first class with the largest probability; with soft voting,
for every example the first class whose mean probability over its rows is the largest; with hard voting, the first class with most votes, where every row votes for its first class with the largest
probability. -/
theorem C98_predict (fit : CvFit M D α) (hk : 0 < k) (hc : fit.classes.length = k) (s2 : S) (Xt : List D) (arr : List (List (Fin k → ℝ))) (hest : fit.estimators.length ≠ 0)
    (hraw : (cvRaw k split ops fit s2 Xt).2 = .ok arr) :
    (cvPredictProba k split ops false fit s2 Xt).2 = .ok arr.flatten
    ∧ (∃ out, (cvPredict k split ops false false fit s2 Xt).2 = .ok out ∧ (cvPredict k split ops false true fit s2 Xt).2 = .ok out
        ∧ List.Forall₂ (fun row c => ∃ i : Fin k, IsFirstMax row i ∧ fit.classes[i]? = some c) arr.flatten out)
    ∧ (∃ out, (cvPredict k split ops true true fit s2 Xt).2 = .ok out ∧ out.length = Xt.length ∧ ∀ j < Xt.length, ∃ i : Fin k,
        IsFirstMax (fun c => (arr.map fun rows => rows.getD j 0 c).sum / arr.length) i ∧ out[j]? = fit.classes[i]?)
    ∧ (∃ out, (cvPredict k split ops true false fit s2 Xt).2 = .ok out ∧ out.length = Xt.length ∧ ∀ j < Xt.length, ∃ i : Fin k,
        IsFirstMax (fun c => ((arr.countP fun rows => decide (IsFirstMax (rows.getD j 0) c) : ℕ) : ℝ)) i ∧ out[j]? = fit.classes[i]?) := by
  refine ⟨?_, ?_, ?_, ?_⟩
  · unfold cvPredictProba
    rw [if_neg hest]
    simp only [hraw]
    rfl
  · obtain ⟨out, h1, h2⟩ := cvLabels_ok fit.classes hc hk arr.flatten
    refine ⟨out, ?_, ?_, h2⟩ <;> unfold cvPredict <;> rw [if_neg hest] <;> simp only [hraw] <;> exact h1
  · obtain ⟨out, h1, h2⟩ := cvLabels_ok fit.classes hc hk (cvMean Xt.length arr)
    refine ⟨out, ?_, by rw [← h2.length_eq]; simp [cvMean], fun j hj => ?_⟩
    · unfold cvPredict
      rw [if_neg hest]
      simp only [hraw]
      exact h1
    · obtain ⟨c, hco, i, hi, hic⟩ := forall2_get h2 j (meanRows (arr.map fun rows => rows.getD j 0)) (by simp [cvMean, hj])
      refine ⟨i, ?_, by rw [hco, hic]⟩
      unfold meanRows at hi
      rw [List.length_map] at hi
      simpa only [List.map_map, Function.comp_def] using hi
  · obtain ⟨out, h1, h2⟩ := cvLabels_ok fit.classes hc hk ((List.range Xt.length).map fun j => cvVotes (arr.map fun rows => rows.getD j 0))
    refine ⟨out, ?_, by rw [← h2.length_eq]; simp, fun j hj => ?_⟩
    · unfold cvPredict
      rw [if_neg hest]
      simp only [hraw]
      exact h1
    · obtain ⟨c, hco, i, hi, hic⟩ := forall2_get h2 j (cvVotes (arr.map fun rows => rows.getD j 0)) (by simp [hj])
      refine ⟨i, ?_, by rw [hco, hic]⟩
      convert hi using 1
      funext c
      unfold cvVotes
      rw [countP_argmax _ _ hk, List.countP_map]
      rfl

open scoped Classical in
/-- **C98**, from `fit`: the labels that the fitted object predicts are the distinct labels of its training set, in order: column `i` of the probabilities is the `i`-th of them. -/
theorem C98_fitted (hfit : cvFit split ops s X y = (s1, .ok fit)) (hy : y ≠ []) (hc : (labelsOf y).length = k) (s2 : S) (Xt : List D) (arr : List (List (Fin k → ℝ))) (hest : (split s).2 ≠ [])
    (hraw : (cvRaw k split ops fit s2 Xt).2 = .ok arr) :
    (∃ out, (cvPredict k split ops false false fit s2 Xt).2 = .ok out ∧ (cvPredict k split ops false true fit s2 Xt).2 = .ok out
        ∧ List.Forall₂ (fun row c => c ∈ y ∧ ∃ i : Fin k, IsFirstMax row i ∧ (labelsOf y)[i]? = some c) arr.flatten out)
    ∧ (∃ out, (cvPredict k split ops true true fit s2 Xt).2 = .ok out ∧ out.length = Xt.length ∧ ∀ j < Xt.length, ∃ i : Fin k, ∃ c ∈ y,
        IsFirstMax (fun c => (arr.map fun rows => rows.getD j 0 c).sum / arr.length) i ∧ out[j]? = some c ∧ (labelsOf y)[i]? = some c)
    ∧ (∃ out, (cvPredict k split ops true false fit s2 Xt).2 = .ok out ∧ out.length = Xt.length ∧ ∀ j < Xt.length, ∃ i : Fin k, ∃ c ∈ y,
        IsFirstMax (fun c => ((arr.countP fun rows => decide (IsFirstMax (rows.getD j 0) c) : ℕ) : ℝ)) i ∧ out[j]? = some c ∧ (labelsOf y)[i]? = some c) := by
  obtain ⟨-, -, hcl, hlen, -⟩ := cvFit_models hfit
  have hmem : ∀ a, a ∈ labelsOf y ↔ a ∈ y := fun a => by simp [labelsOf]
  have hk : 0 < k := by
    obtain ⟨a, ha⟩ := List.exists_mem_of_ne_nil y hy
    rw [← hc]
    exact List.length_pos_of_mem ((hmem a).2 ha)
  have hlab : ∀ i : Fin k, ∃ c ∈ y, (labelsOf y)[i]? = some c := fun i =>
    ⟨(labelsOf y)[i]'(by rw [hc]; exact i.2), (hmem _).1 (List.getElem_mem _), List.getElem?_eq_getElem _⟩
  obtain ⟨-, ⟨o1, h1, h2, h3⟩, ⟨o2, h4, h5, h6⟩, o3, h7, h8, h9⟩ := C98_predict (k := k) (split := split) (ops := ops) fit hk (by rw [hcl, hc]) s2 Xt arr (by rw [hlen]; simpa using hest) hraw
  rw [hcl] at h3 h6 h9
  refine ⟨⟨o1, h1, h2, h3.imp fun row c ⟨i, hi, hci⟩ => ⟨(hmem _).1 (List.mem_of_getElem? hci), i, hi, hci⟩⟩, ⟨o2, h4, h5, fun j hj => ?_⟩, o3, h7, h8, fun j hj => ?_⟩
  · obtain ⟨i, hi, hji⟩ := h6 j hj
    obtain ⟨c, hc1, hc2⟩ := hlab i
    exact ⟨i, c, hc1, hi, hji.trans hc2, hc2⟩
  · obtain ⟨i, hi, hji⟩ := h9 j hj
    obtain ⟨c, hc1, hc2⟩ := hlab i
    exact ⟨i, c, hc1, hi, hji.trans hc2, hc2⟩

end

/-! ## C96: splitters that shuffle -/

/-- A splitter with two folds over two examples: the first call tests with example 0 in the first fold, the following ones with example 1. -/
def flipSplit : Splitter ℕ := fun s => (s + 1, if s = 0 then [([1], [0]), ([0], [1])] else [([0], [1]), ([1], [0])])

/-- A classifier that gives to every example the mean label of its training set as the probability of class 1. -/
noncomputable def meanOps : CvOps ℝ ℕ ℕ := ⟨fun _ ys => ((ys.map fun c => (c : ℝ)).sum) / ys.length, fun m _ => [1 - m, m]⟩

theorem flip_isKFold (s : ℕ) : IsKFold 2 (flipSplit s).2 := by
  unfold flipSplit
  by_cases h : s = 0
  · simp only [if_pos h]
    clear h
    exact ⟨by decide +revert, by decide +revert, by decide +revert, by decide +revert⟩
  · simp only [if_neg h]
    clear h
    exact ⟨by decide +revert, by decide +revert, by decide +revert, by decide +revert⟩

theorem flip_fit : cvFit flipSplit meanOps 0 [10, 20] [0, 1] = (1, .ok ⟨[1, 0], [10, 20], [0, 1], [0, 1]⟩) := by
  have h : labelsOf [0, 1] = [0, 1] := labelsOf_eq _ _ (by decide) (by decide)
  simp [cvFit, cvTrainFold, flipSplit, meanOps, item, npUnique_eq_labelsOf, h]
  rfl

/-- **C96 is false**: the folds are computed again to predict. With a splitter whose calls differ (shuffling without a fixed seed), every call giving a partition in folds, every example can be predicted by
the model trained with it: here both examples get their own label with probability 1, although no model trained without an example gives it that prediction. -/
theorem C96_shuffled_refuted : (∀ s, IsKFold 2 (flipSplit s).2)
    ∧ ∃ fit, cvFit flipSplit meanOps 0 [10, 20] [0, 1] = (1, .ok fit) ∧ (cvPredictProba 2 flipSplit meanOps false fit 1 [10, 20]).2 = .ok [![1, 0], ![0, 1]]
    ∧ ∀ (f : Fold), f ∈ (flipSplit 0).2 → ∀ m, IsFoldModel meanOps [10, 20] [0, 1] f m → (0 ∈ f.2 → meanOps.proba m 10 ≠ [1, 0]) ∧ (1 ∈ f.2 → meanOps.proba m 20 ≠ [0, 1]) := by
  refine ⟨flip_isKFold, _, flip_fit, ?_, ?_⟩
  · have e1 : storeRow 2 [1 - (1 : ℝ), 1] = .ok ![0, 1] := by
      unfold storeRow
      rw [dif_pos (by rfl)]
      congr 1
      funext i
      fin_cases i <;> simp
    have e2 : storeRow 2 [1 - (0 : ℝ), 0] = .ok ![1, 0] := by
      unfold storeRow
      rw [dif_pos (by rfl)]
      congr 1
      funext i
      fin_cases i <;> simp
    have w1 : cvRow 2 meanOps [1, 0] [10, 20] 0 1 = .ok ![0, 1] := e1
    have w2 : cvRow 2 meanOps [1, 0] [10, 20] 1 0 = .ok ![1, 0] := e2
    have hl : cvTrain 2 meanOps ⟨[1, 0], [10, 20], [0, 1], [0, 1]⟩ [10, 20] [([0], [1]), ([1], [0])] [([0], [1]), ([1], [0])] = .ok [[![1, 0], ![0, 1]]] := by
      simp only [cvTrain, cvLoop, cvFold, cvWriteAll, w1, w2, cvWrite, List.length_cons, List.length_nil]
      norm_num [List.replicate]
      rfl
    have hr : (cvRaw 2 flipSplit meanOps ⟨[1, 0], [10, 20], [0, 1], [0, 1]⟩ 1 [10, 20]).2 = .ok [[![1, 0], ![0, 1]]] := hl
    unfold cvPredictProba
    rw [if_neg (by simp)]
    simp only [hr]
    rfl
  · rintro f hf m ⟨rows, ys, h1, h2, rfl⟩
    have : f = ([1], [0]) ∨ f = ([0], [1]) := by simpa [flipSplit] using hf
    have hys : ∀ c : ℕ, [some c] = ys.map some → ys = [c] := by
      intro c h
      have : [c].map some = ys.map some := h
      exact (List.map_injective_iff.2 (Option.some_injective _) this).symm
    rcases this with rfl | rfl
    · have := hys 1 h2
      subst this
      simp [meanOps]
    · have := hys 0 h2
      subst this
      simp [meanOps]

/-! ## Non-vacuity -/

/-- The same two folds in every call. -/
def fixedSplit : Splitter ℕ := fun s => (s, [([1], [0]), ([0], [1])])

theorem fixed_fit : cvFit fixedSplit meanOps 0 [10, 20] [0, 1] = (0, .ok ⟨[1, 0], [10, 20], [0, 1], [0, 1]⟩) := by
  have h : labelsOf [0, 1] = [0, 1] := labelsOf_eq _ _ (by decide) (by decide)
  simp [cvFit, cvTrainFold, fixedSplit, meanOps, item, npUnique_eq_labelsOf, h]
  rfl

/-- The hypotheses of C61 hold for two folds over two examples. -/
example := C61_training_set (k := 2) (reps := [[([1], [0]), ([0], [1])]]) (fun _ => rfl) (by
  intro rep hr
  rw [List.mem_singleton.1 hr]
  exact ⟨by decide, by decide, by decide, by decide⟩) (by simp) (by simp) fixed_fit (fun _ _ _ _ => rfl) 0

example := C61_training_set_averaged (k := 2) (reps := [[([1], [0]), ([0], [1])]]) (fun _ => rfl) (by
  intro rep hr
  rw [List.mem_singleton.1 hr]
  exact ⟨by decide, by decide, by decide, by decide⟩) (by simp) (by simp) fixed_fit (fun _ _ _ _ => rfl) 0

example := C61_testing_set (k := 2) fixed_fit [10, 20, 30] (by decide) (by decide) (fun _ _ _ _ => rfl) 0

/-- A classifier over a training set with a single class. -/
example := C97_single_class_refuted (k := 2) (split := fixedSplit) (ops := (⟨fun _ _ => (), fun _ _ => [1]⟩ : CvOps Unit ℕ ℕ)) (s := 0) (X := [10, 20]) (y := [0, 1]) rfl [30] (by decide) (by decide) (by decide) (fun _ _ _ _ => rfl) 0

/-- Three classes, a model that knows two. -/
example := C97_missing_class_refuted (k := 3) (split := fixedSplit) (ops := (⟨fun _ _ => (), fun _ _ => [1 / 2, 1 / 2]⟩ : CvOps Unit ℕ ℕ)) (s := 0) (X := [10, 20]) (y := [0, 1]) rfl [30] (by decide) () (by decide) 30 (by decide) (by decide) (by decide)

example := C97_all_classes_partial (k := 2) fixed_fit [30] (by decide) (by decide) (by
  intro m hm x _
  have : m = 1 ∨ m = 0 := by simpa using hm
  rcases this with rfl | rfl <;> exact ⟨rfl, by simp [meanOps], by simp [meanOps]⟩) 0

/-- Soft and hard voting disagree: two rows vote for class 0 with probability 6/10, one gives probability 1 to class 1. -/
example : IsFirstMax (fun c : Fin 2 => ([[![6 / 10, 4 / 10]], [![6 / 10, 4 / 10]], [![0, 1]]].map fun rows => rows.getD 0 0 c).sum / 3) (1 : Fin 2) := by
  constructor
  · intro j; fin_cases j <;> norm_num
  · intro j hj
    have : j = 0 := by omega
    subst this
    norm_num

example := C98_predict (k := 2) (split := fixedSplit) (ops := (⟨fun _ _ => (), fun _ x => if x = 30 then [6 / 10, 4 / 10] else [1, 0]⟩ : CvOps Unit ℕ ℕ)) ⟨[(), ()], [10], [0], [0, 1]⟩ (by decide) rfl 0 [30]
  [[fun i => [6 / 10, 4 / 10][i]], [fun i => [6 / 10, 4 / 10][i]]] (by decide) rfl

/-- C98: a fitted estimator whose training set repeats a label. -/
example := C98_fitted (k := 2) (split := fun s : ℕ => (s, [([0, 1], [2]), ([1, 2], [0])])) (ops := (⟨fun _ _ => (), fun _ x => if x = 30 then [6 / 10, 4 / 10] else [1, 0]⟩ : CvOps Unit ℕ ℕ)) (s := 0) (X := [10, 20, 10]) (y := [0, 1, 1]) rfl (by decide)
  (by rw [labelsOf_eq [0, 1, 1] [0, 1] (by decide) (by decide)]; rfl) 0 [30] [[fun i => [6 / 10, 4 / 10][i]], [fun i => [6 / 10, 4 / 10][i]]] (by decide) rfl

end Verif.Props
