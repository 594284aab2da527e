import Verif.Model.Ensemble
import Verif.Props.FrankHall

/-!
# C70, C102, C103: ensembles of classifiers
-/

namespace Verif.Props

open Verif.Model Verif.Spec Verif.Proof

variable {M D α : Type} {k : ℕ}

/-- `m` is the base estimator trained with the examples of a bag. -/
def IsBagModel (ops : CvOps M D α) (X : List D) (y : List α) (bag : List ℕ) (m : M) : Prop := ∃ rows ys, BagOf X bag rows ∧ BagOf y bag ys ∧ m = ops.fit rows ys

theorem ensTask_iff (ops : CvOps M D α) (X : List D) (y : List α) (bag : List ℕ) (m : M) : ensTask ops X y bag = .ok m ↔ IsBagModel ops X y bag m := by
  unfold ensTask IsBagModel
  constructor
  · intro h
    obtain ⟨rows, h1, h⟩ := bind_inv h
    obtain ⟨ys, h2, h⟩ := bind_inv h
    exact ⟨rows, ys, (mapM_item_iff _ _ _).1 h1, (mapM_item_iff _ _ _).1 h2, (Except.ok.inj h).symm⟩
  · rintro ⟨rows, ys, h1, h2, rfl⟩
    exact (bind_ok ((mapM_item_iff _ _ _).2 h1) _).trans ((bind_ok ((mapM_item_iff _ _ _).2 h2) _).trans rfl)

theorem ensFit_new [LinearOrder α] {sch : Schedule} {ops : CvOps M D α} {X : List D} {y : List α} {bags : List (List ℕ)} {s : EnsState M α} (h : ensFit sch ops ensNew X y bags = .ok s) :
    ∃ models, List.Forall₂ (IsBagModel ops X y) bags models ∧ s = ⟨some (labelsOf y), some (ensRun sch models).1, (ensRun sch models).2⟩ := by
  unfold ensFit at h
  rw [if_pos (by rfl)] at h
  by_cases hv : X.length ≠ y.length ∨ X = []
  · rw [if_pos hv] at h; cases h
  · rw [if_neg hv] at h
    obtain ⟨models, h1, h⟩ := bind_inv h
    refine ⟨models, ((mapM_iff _ _ _).1 h1).imp fun bag m hm => (ensTask_iff _ _ _ _ _).1 hm, ?_⟩
    rw [← Except.ok.inj h, npUnique_eq_labelsOf]

/-- **C70, partial**: when the tasks run in other processes, after the first `fit` the `i`-th estimator is the base estimator trained with the `i`-th bag. -/
theorem C70_processes_partial [LinearOrder α] {ops : CvOps M D α} {X : List D} {y : List α} {bags : List (List ℕ)} {s : EnsState M α} (h : ensFit .processes ops ensNew X y bags = .ok s) (i : ℕ) (bag : List ℕ) (hi : bags[i]? = some bag) :
    ∃ m, ensModel s i = .ok m ∧ IsBagModel ops X y bag m := by
  obtain ⟨models, hF, rfl⟩ := ensFit_new h
  obtain ⟨m, hm, hb⟩ := forall2_get hF i bag hi
  refine ⟨m, ?_, hb⟩
  have hlt := (List.getElem?_eq_some_iff.1 hm).1
  unfold ensModel ensRun
  simp only
  refine (bind_ok ((item_ok (x := i + 1)).2 (by simp [hlt])) _).trans ?_
  simp [hm]

/-- **C70 is false** when the tasks share the process (the default, `n_jobs=None`, or threads): whatever the order, all the estimators are the same one, trained with the last bag. -/
theorem C70_shared_refuted [LinearOrder α] {ops : CvOps M D α} {X : List D} {y : List α} {bags : List (List ℕ)} {s : EnsState M α} (order : List ℕ) (last : ℕ) (bag : List ℕ) (hl : order.getLast? = some last) (hb : bags[last]? = some bag)
    (h : ensFit (.shared order) ops ensNew X y bags = .ok s) : ∃ m, IsBagModel ops X y bag m ∧ ∀ i, i < bags.length → ensModel s i = .ok m := by
  obtain ⟨models, hF, rfl⟩ := ensFit_new h
  obtain ⟨m, hm, hbm⟩ := forall2_get hF last bag hb
  refine ⟨m, hbm, fun i hi => ?_⟩
  unfold ensModel ensRun
  simp only
  refine (bind_ok ((item_ok (x := 0)).2 (by simp [← hF.length_eq, hi])) _).trans ?_
  simp [hl, hm]

/-- **C102 is false**: another call to `fit` does not train anything, whatever the data and bags given: only the classes change. -/
theorem C102_refit_refuted [LinearOrder α] (sch : Schedule) (ops : CvOps M D α) (s : EnsState M α) (hs : s.estimators.isSome) (X : List D) (y : List α) (bags : List (List ℕ)) :
    ∃ s', ensFit sch ops s X y bags = .ok s' ∧ s'.classes = some (labelsOf y) ∧ ∀ i, ensModel s' i = ensModel s i := by
  refine ⟨{ s with classes := some (npUnique y) }, ?_, by simp [npUnique_eq_labelsOf], fun i => rfl⟩
  unfold ensFit
  rw [if_neg (by cases hc : s.estimators <;> simp_all)]
  rfl

/-- **C103**: when all the estimators are available, `predict` gives for every example a row with the label that each estimator gives to it, in order. -/
theorem C103_predict (label : M → D → α) (s : EnsState M α) (hc : s.classes.isSome) (refs : List ℕ) (hr : s.estimators = some refs) (hne : refs ≠ []) (models : List M) (hl : models.length = refs.length)
    (hm : ∀ i (hi : i < models.length), ensModel s i = .ok models[i]) (X : List D) : ensPredict label s X = .ok (X.map fun x => models.map fun m => label m x) := by
  obtain ⟨cs, hcs⟩ := Option.isSome_iff_exists.1 hc
  unfold ensPredict
  rw [hcs]
  refine mapM_ok _ _ _ fun x _ => ?_
  unfold ensPredictRow
  rw [hr]
  have h0 : 0 < models.length := by rw [hl]; exact List.length_pos_of_ne_nil hne
  refine (bind_ok (hm 0 h0) _).trans ?_
  rw [← hl]
  rw [mapM_range_ok _ _ (fun i => label models[i] x) fun i => by rw [hm i i.2]; rfl]
  congr 1
  apply List.ext_getElem (by simp)
  intro i h1 h2
  simp

/-- **C103**: `predict_proba` gives for every example and estimator the row of probabilities that the estimator gives to it, when it has a value for every class. -/
theorem C103_predict_proba (ops : CvOps M D α) (s : EnsState M α) (hc : s.classes.isSome) (refs : List ℕ) (hr : s.estimators = some refs) (hne : refs ≠ []) (models : List M) (hl : models.length = refs.length)
    (hm : ∀ i (hi : i < models.length), ensModel s i = .ok models[i]) (X : List D) (hcols : ∀ m ∈ models, ∀ x ∈ X, (ops.proba m x).length = k) :
    ensPredictProba k ops s X = .ok (X.map fun x => models.map fun m c => (ops.proba m x).getD c 0) := by
  obtain ⟨cs, hcs⟩ := Option.isSome_iff_exists.1 hc
  unfold ensPredictProba
  rw [hcs]
  refine mapM_ok _ _ _ fun x hx => ?_
  unfold ensProbaRow
  rw [hr]
  have h0 : 0 < models.length := by rw [hl]; exact List.length_pos_of_ne_nil hne
  refine (bind_ok (hm 0 h0) _).trans ?_
  rw [← hl]
  rw [mapM_range_ok _ _ (fun i => fun c : Fin k => (ops.proba models[i] x).getD c 0) fun i => (bind_ok (hm i i.2) _).trans (storeRow_of_length _ (hcols _ (List.getElem_mem _) x hx))]
  congr 1
  apply List.ext_getElem (by simp)
  intro i h1 h2
  simp

/-- **C103 is false** when the bag of an estimator has a single class: its probability 1 is recorded for every class. -/
theorem C103_single_class_refuted (ops : CvOps M D α) (s : EnsState M α) (hc : s.classes.isSome) (hr : s.estimators = some [0]) (m : M) (hm : ensModel s 0 = .ok m) (x : D) (hone : ops.proba m x = [1]) (hk : 1 < k) :
    ensPredictProba k ops s [x] = .ok [[fun _ => 1]] := by
  obtain ⟨cs, hcs⟩ := Option.isSome_iff_exists.1 hc
  have hst : storeRow k (ops.proba m x) = .ok fun _ => 1 := by
    rw [hone]
    unfold storeRow
    rw [dif_neg (by simp; omega)]
  have hrow : ensProbaRow k ops s x = .ok [fun _ => 1] := by
    unfold ensProbaRow
    rw [hr]
    refine (bind_ok hm _).trans ?_
    exact mapM_range_ok 1 _ (fun _ => fun _ => 1) fun i => by
      have : (i : ℕ) = 0 := by omega
      rw [this]
      exact (bind_ok hm _).trans hst
  unfold ensPredictProba
  rw [hcs]
  exact mapM_ok _ _ (fun _ => [fun _ => 1]) fun z hz => by rw [List.mem_singleton.1 hz]; exact hrow

/-! ## Non-vacuity -/

/-- A model is the list of labels of its bag. -/
def bagOps : CvOps (List ℕ) ℕ ℕ := ⟨fun _ ys => ys, fun _ _ => [1]⟩

/-- With two bags, one of each class, and the default schedule both estimators are trained with the second bag. -/
example : ∃ s, ensFit (.shared [0, 1]) bagOps ensNew [10, 20] [0, 1] [[0, 0], [1, 1]] = .ok s ∧ ensModel s 0 = .ok [1, 1] ∧ ensModel s 1 = .ok [1, 1] := ⟨_, rfl, rfl, rfl⟩

/-- In other processes each one has its bag. -/
example : ∃ s, ensFit .processes bagOps ensNew [10, 20] [0, 1] [[0, 0], [1, 1]] = .ok s ∧ ensModel s 0 = .ok [0, 0] ∧ ensModel s 1 = .ok [1, 1] := ⟨_, rfl, rfl, rfl⟩

example := C103_predict (α := ℕ) (fun (m : List ℕ) (x : ℕ) => m.length + x) (⟨some [0, 1], some [1, 2], fun r => some [r, r]⟩ : EnsState (List ℕ) ℕ) rfl [1, 2] rfl (by decide) [[1, 1], [2, 2]] rfl (by
  intro i hi
  have : i = 0 ∨ i = 1 := by simp at hi; omega
  rcases this with rfl | rfl <;> rfl) [10]

example := C103_predict_proba (k := 1) bagOps (⟨some [0], some [1, 2], fun r => some [r, r]⟩ : EnsState (List ℕ) ℕ) rfl [1, 2] rfl (by decide) [[1, 1], [2, 2]] rfl (by
  intro i hi
  have : i = 0 ∨ i = 1 := by simp at hi; omega
  rcases this with rfl | rfl <;> rfl) [10] (fun _ _ _ _ => rfl)

example := C103_single_class_refuted (k := 2) bagOps (⟨some [0, 1], some [0], fun _ => some [1, 1]⟩ : EnsState (List ℕ) ℕ) rfl rfl [1, 1] rfl 10 rfl (by decide)

end Verif.Props
