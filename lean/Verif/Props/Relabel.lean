import Verif.Spec.Relabel
import Verif.Props.AC

/-!
# C74: the names of the classes do not matter
-/

namespace Verif.Props

open Verif.Model Verif.Spec Verif.Proof

variable {σ σ' D : Type*} {α β : Type} {k : ℕ}

theorem npUnique_map [LinearOrder α] [LinearOrder β] (g : α → β) (hg : StrictMono g) (y : List α) : npUnique (y.map g) = (npUnique y).map g := by
  unfold npUnique
  have h1 : ((y.toFinset.sort (· ≤ ·)).map g).Pairwise (· ≤ ·) := by
    rw [List.pairwise_map]
    exact (Finset.pairwise_sort _ _).imp fun h => hg.monotone h
  have h2 : ((y.toFinset.sort (· ≤ ·)).map g).Nodup := (Finset.sort_nodup _ _).map hg.injective
  have e : (y.map g).toFinset = ((y.toFinset.sort (· ≤ ·)).map g).toFinset := by
    ext b
    simp
  rw [e]
  exact (List.toFinset_sort (· ≤ ·) h2).2 h1

theorem npTile_map (g : α → β) (y : List α) (r : ℕ) : npTile (y.map g) r = (npTile y r).map g := by
  unfold npTile
  rw [List.map_flatten, List.map_replicate]

theorem extendLabels_map (g : α → β) (y : List α) (n : ℕ) : extendLabels (y.map g) n = (extendLabels y n).map (List.map g) := by
  unfold extendLabels
  simp only [List.length_map]
  split_ifs
  · rfl
  · rfl
  · rw [npTile_map]; rfl

theorem mapM_map_except {ε A B C : Type*} (f : A → Except ε B) (h : B → C) (l : List A) : (l.mapM fun a => (f a).map h) = (l.mapM f).map (List.map h) := by
  induction l with
  | nil => rfl
  | cons a l ih =>
    rw [List.mapM_cons, List.mapM_cons, ih]
    cases f a with
    | error e => rfl
    | ok b => cases l.mapM f <;> rfl

theorem probs2crisps_map (g : α → β) (enc : Bool → α) (enc' : Bool → β) (labels : List α) (p : Preds α k) (hp : NotSingleColumn (some p)) :
    probs2crisps enc' (labels.map g) (renamePreds g p) = (probs2crisps enc labels p).map (List.map g) := by
  cases p with
  | crisp l => rfl
  | probs1 l => exact absurd hp (by simp [NotSingleColumn])
  | probs l =>
    simp only [renamePreds, probs2crisps]
    rw [← mapM_map_except]
    congr 1
    funext row
    cases npArgmax row with
    | none => rfl
    | some i =>
      simp only [takeLabel, List.getElem?_map]
      cases labels[i.val]? <;> rfl

variable {g : α → β} {ops : EstOps σ D α k} {ops' : EstOps σ' D β k} {R : σ → σ' → Prop}

theorem fitIfNeeded_rel (hR : SameUpTo g ops ops' R) (w : World σ D α) (w' : World σ' D β) (hw : ∀ e, R (w.est e) (w'.est e)) (r : Option ℕ) (X : List D) (y : List α) (e : ℕ) :
    R ((fitIfNeeded ops w r X y).est e) ((fitIfNeeded ops' w' r X (y.map g)).est e) := by
  cases r with
  | none => exact hw e
  | some a =>
    simp only [fitIfNeeded]
    rw [hR.notFitted _ _ (hw a)]
    split_ifs
    · dsimp only
      split_ifs
      · exact hR.fit _ _ X y (hw a)
      · exact hw e
    · exact hw e

theorem trainPreds_rel (hR : SameUpTo g ops ops' R) (enc : Bool → α) (enc' : Bool → β) (w : World σ D α) (w' : World σ' D β) (hw : ∀ e, R (w.est e) (w'.est e)) (q : QuantCfg) (classes : List α)
    (X : List D) (pt : Option (Preds α k)) (hpt : NotSingleColumn pt) :
    trainPreds ops' enc' (classes.map g) w' q X (pt.map (renamePreds g)) = (trainPreds ops enc classes w q X pt).map (renamePreds g) := by
  cases pt with
  | some p =>
    simp only [trainPreds, Option.map_some]
    split_ifs
    · rfl
    · rw [probs2crisps_map g enc enc' classes p hpt]
      cases probs2crisps enc classes p <;> rfl
  | none =>
    simp only [trainPreds, Option.map_none]
    cases q.estTrain with
    | none => rfl
    | some e =>
      simp only
      split_ifs
      · rw [hR.proba _ _ X (hw e)]; rfl
      · rw [hR.predict _ _ X (hw e)]; rfl

theorem usingPredict_rel (hR : SameUpTo g ops ops' R) (enc : Bool → α) (enc' : Bool → β) (w : World σ D α) (w' : World σ' D β) (hw : ∀ e, R (w.est e) (w'.est e)) (q : QuantCfg) (classes : List α)
    (X : List D) (pt : Option (Preds α k)) (hpt : NotSingleColumn pt) :
    usingPredict ops' enc' w' q (classes.map g) X (pt.map (renamePreds g)) = (usingPredict ops enc w q classes X pt).map (renamePreds g) := by
  cases pt with
  | some p =>
    have key : (if q.probabilistic = true then .ok (renamePreds g p) else (probs2crisps enc' (classes.map g) (renamePreds g p)).map Preds.crisp : Except Err (Preds β k))
        = (if q.probabilistic = true then .ok p else (probs2crisps enc classes p).map Preds.crisp : Except Err (Preds α k)).map (renamePreds g) := by
      split_ifs
      · rfl
      · rw [probs2crisps_map g enc enc' classes p hpt]
        cases probs2crisps enc classes p <;> rfl
    cases h : q.estTest <;> simpa only [usingPredict, Option.map_some, h] using key
  | none =>
    cases h : q.estTest with
    | none => simp only [usingPredict, Option.map_none, h]; rfl
    | some e =>
      simp only [usingPredict, Option.map_none, h]
      split_ifs
      · rw [hR.proba _ _ X (hw e)]; rfl
      · rw [hR.predict _ _ X (hw e)]; rfl

/-- What `usingFit` leaves for `fit` of AC and PAC. -/
def fitData (r : World σ D α × QState α k × Option Err) : Except Err (Option (List α) × Option (Preds α k)) :=
  match r with
  | (_, _, some e) => .error e
  | (_, s, none) => .ok (s.yExt, s.predsTrain)

theorem preds_len_rename (g : α → β) (p : Preds α k) : (renamePreds g p).len = p.len := by
  cases p <;> simp [renamePreds, Preds.len]

theorem fitData_rel [LinearOrder α] [LinearOrder β] (hg : StrictMono g) (hR : SameUpTo g ops ops' R) (enc : Bool → α) (enc' : Bool → β) (w : World σ D α) (w' : World σ' D β)
    (hw : ∀ e, R (w.est e) (w'.est e)) (q : QuantCfg) (hq : q.needsTrain = true) (s : QState α k) (s' : QState β k) (X : List D) (y : List α) (pt : Option (Preds α k)) (hpt : NotSingleColumn pt) :
    fitData (usingFit ops' enc' w' q s' X (y.map g) (pt.map (renamePreds g)))
      = (fitData (usingFit ops enc w q s X y pt)).map fun t => (t.1.map (List.map g), t.2.map (renamePreds g)) := by
  unfold usingFit
  simp only [hq, Option.isNone_map, Bool.true_and, if_true]
  split_ifs with h
  · rfl
  · have e := trainPreds_rel hR enc enc' _ _ (fun e => fitIfNeeded_rel hR _ _ (fun e => fitIfNeeded_rel hR w w' hw q.estTrain X y e) q.estTest X y e) q (npUnique y) X pt hpt
    rw [npUnique_map g hg, e]
    cases trainPreds ops enc (npUnique y) (fitIfNeeded ops (fitIfNeeded ops w q.estTrain X y) q.estTest X y) q X pt with
    | error e => rfl
    | ok p =>
      simp only [Except.map, preds_len_rename, extendLabels_map]
      cases extendLabels y p.len <;> rfl

theorem ofFn_cast {A : Type*} {m n : ℕ} (h : m = n) (f : Fin n → A) : (List.ofFn fun i : Fin m => f (Fin.cast h i)) = List.ofFn f := by
  subst h; rfl

theorem adjust_cast (sol : Solvers) (dist : Dist) {m n : ℕ} (h : m = n) (cm : Fin n → Fin n → Fl) (p : Fin n → Fl) :
    (adjust sol dist (fun i j : Fin m => cm (Fin.cast h i) (Fin.cast h j)) fun i => p (Fin.cast h i)).map List.ofFn = (adjust sol dist cm p).map List.ofFn := by
  subst h; rfl

/-- A fitted AC or PAC with the classes renamed. -/
def renameFit (g : α → β) (f : ACFit α) : ACFit β :=
  ⟨f.classes.map g, fun i j => f.cm (Fin.cast (List.length_map g) i) (Fin.cast (List.length_map g) j)⟩

theorem classFreqs_map [DecidableEq α] [DecidableEq β] (hg : Function.Injective g) (classes l : List α) (i : Fin (classes.map g).length) :
    classFreqs (classes.map g) (l.map g) i = classFreqs classes l (Fin.cast (List.length_map g) i) := by
  unfold classFreqs
  simp only [Fin.getElem_fin, List.getElem_map, List.length_map, Fin.val_cast]
  rw [List.count_map_of_injective _ _ hg]

theorem confusionMatrix_map [DecidableEq α] [DecidableEq β] (hg : Function.Injective g) (classes l l' : List α) :
    confusionMatrix (classes.map g) (l.map g) (l'.map g)
      = (confusionMatrix classes l l').map fun cm i j => cm (Fin.cast (List.length_map g) i) (Fin.cast (List.length_map g) j) := by
  unfold confusionMatrix
  simp only [List.length_map]
  split_ifs
  · simp only [Except.map]
    congr 1
    funext i j
    simp only [Fin.getElem_fin, List.getElem_map, Fin.val_cast]
    rw [List.zip_map, show (g classes[i.val], g classes[j.val]) = Prod.map g g (classes[i.val], classes[j.val]) from rfl,
      List.count_map_of_injective _ _ (hg.prodMap hg)]
  · rfl

theorem normalizeRows_cast {m n : ℕ} (h : m = n) (cm : Fin n → Fin n → ℕ) :
    (normalizeRows fun i j : Fin m => cm (Fin.cast h i) (Fin.cast h j)) = fun i j => normalizeRows cm (Fin.cast h i) (Fin.cast h j) := by
  subst h; rfl

theorem rowsOf_map [DecidableEq α] [DecidableEq β] (hg : Function.Injective g) (y : List α) (rows : List (Fin k → ℝ)) (c : α) : rowsOf (y.map g) rows (g c) = rowsOf y rows c := by
  unfold rowsOf
  rw [List.zip_map_left, List.filter_map, List.map_map]
  congr 1
  refine List.filter_congr fun t _ => ?_
  simp [hg.eq_iff]

theorem acFit_eq [LinearOrder α] (ops : EstOps σ D α k) (enc : Bool → α) (w : World σ D α) (et et' : Option ℕ) (s : QState α k) (X : List D) (y : List α) (pt : Option (Preds α k)) :
    acFit ops enc w et et' s X y pt = (fitData (usingFit ops enc w ⟨et, et', true, false⟩ s X y pt)) >>= fun t =>
      match t.1, t.2 with
      | some ye, some (.crisp p) => (confusionMatrix (npUnique y) ye p).map fun cm => ⟨npUnique y, normalizeRows cm⟩
      | _, _ => .error .typeError := by
  unfold acFit fitData
  rcases usingFit ops enc w ⟨et, et', true, false⟩ s X y pt with ⟨w1, s1, _ | e⟩ <;> rfl

/-- The last part of `pacFit`. -/
noncomputable def pacPack [DecidableEq α] (classes ye : List α) (p : List (Fin k → ℝ)) : Except Err (ACFit α) :=
  if ye.length = p.length then
    if h : k = classes.length then .ok ⟨classes, fun i j => colMeans (rowsOf ye p classes[i]) (Fin.cast h.symm j)⟩
    else .error .valueError
  else .error .indexError

theorem pacFit_eq [LinearOrder α] (ops : EstOps σ D α k) (enc : Bool → α) (w : World σ D α) (et et' : Option ℕ) (s : QState α k) (X : List D) (y : List α) (pt : Option (Preds α k)) :
    pacFit ops enc w et et' s X y pt = (fitData (usingFit ops enc w ⟨et, et', true, true⟩ s X y pt)) >>= fun t =>
      match t.1, t.2 with
      | some ye, some (.probs p) => pacPack (npUnique y) ye p
      | _, _ => .error .typeError := by
  unfold pacFit fitData
  rcases usingFit ops enc w ⟨et, et', true, true⟩ s X y pt with ⟨w1, s1, _ | e⟩ <;> rfl

theorem acFit_rename [LinearOrder α] [LinearOrder β] (hg : StrictMono g) (hR : SameUpTo g ops ops' R) (enc : Bool → α) (enc' : Bool → β) (w : World σ D α) (w' : World σ' D β)
    (hw : ∀ e, R (w.est e) (w'.est e)) (et et' : Option ℕ) (s : QState α k) (s' : QState β k) (X : List D) (y : List α) (pt : Option (Preds α k)) (hpt : NotSingleColumn pt) :
    acFit ops' enc' w' et et' s' X (y.map g) (pt.map (renamePreds g)) = (acFit ops enc w et et' s X y pt).map (renameFit g) := by
  rw [acFit_eq, acFit_eq, fitData_rel hg hR enc enc' w w' hw ⟨et, et', true, false⟩ rfl s s' X y pt hpt]
  cases fitData (usingFit ops enc w ⟨et, et', true, false⟩ s X y pt) with
  | error e => rfl
  | ok t =>
    obtain ⟨ye, p⟩ := t
    cases ye with
    | none => rfl
    | some ye =>
      cases p with
      | none => rfl
      | some p =>
        cases p with
        | crisp p =>
          show (confusionMatrix (npUnique (y.map g)) (ye.map g) (p.map g)).map _ = ((confusionMatrix (npUnique y) ye p).map _).map _
          rw [npUnique_map g hg, confusionMatrix_map hg.injective]
          cases confusionMatrix (npUnique y) ye p with
          | error e => rfl
          | ok cm =>
            simp only [Except.map, renameFit]
            rw [normalizeRows_cast]
        | probs1 _ => rfl
        | probs _ => rfl

theorem pacFit_rename [LinearOrder α] [LinearOrder β] (hg : StrictMono g) (hR : SameUpTo g ops ops' R) (enc : Bool → α) (enc' : Bool → β) (w : World σ D α) (w' : World σ' D β)
    (hw : ∀ e, R (w.est e) (w'.est e)) (et et' : Option ℕ) (s : QState α k) (s' : QState β k) (X : List D) (y : List α) (pt : Option (Preds α k)) (hpt : NotSingleColumn pt) :
    pacFit ops' enc' w' et et' s' X (y.map g) (pt.map (renamePreds g)) = (pacFit ops enc w et et' s X y pt).map (renameFit g) := by
  rw [pacFit_eq, pacFit_eq, fitData_rel hg hR enc enc' w w' hw ⟨et, et', true, true⟩ rfl s s' X y pt hpt]
  cases fitData (usingFit ops enc w ⟨et, et', true, true⟩ s X y pt) with
  | error e => rfl
  | ok t =>
    obtain ⟨ye, p⟩ := t
    cases ye with
    | none => rfl
    | some ye =>
      cases p with
      | none => rfl
      | some p =>
        cases p with
        | crisp _ => rfl
        | probs1 _ => rfl
        | probs p =>
          show pacPack (npUnique (y.map g)) (ye.map g) p = (pacPack (npUnique y) ye p).map (renameFit g)
          rw [npUnique_map g hg]
          unfold pacPack
          rw [List.length_map]
          by_cases h1 : ye.length = p.length
          · rw [if_pos h1, if_pos h1]
            by_cases h2 : k = (npUnique y).length
            · rw [dif_pos (by rw [List.length_map]; exact h2), dif_pos h2]
              simp only [Except.map, renameFit]
              congr 2
              funext i j
              simp only [Fin.getElem_fin, List.getElem_map, rowsOf_map hg.injective]
              rfl
            · rw [dif_neg (by rw [List.length_map]; exact h2), dif_neg h2]; rfl
          · rw [if_neg h1, if_neg h1]; rfl

/-- **C74** (CC): renaming the classes by a strictly increasing function, in the training labels, in the labels an estimator works with and in the predictions handed to `predict`, does not change the answer of CC
(prevalences as a list, or the exception). -/
theorem C74_cc [LinearOrder α] [LinearOrder β] (hg : StrictMono g) (hR : SameUpTo g ops ops' R) (enc : Bool → α) (enc' : Bool → β) (w : World σ D α) (w' : World σ' D β)
    (hw : ∀ e, R (w.est e) (w'.est e)) (et : Option ℕ) (s : QState α k) (s' : QState β k) (X : List D) (y : List α) (Xt : List D) (pt : Option (Preds α k)) (hpt : NotSingleColumn pt) :
    (ccPredict ops' enc' (ccFit ops' enc' w' et s' X (y.map g)).1 et (labelsOf (y.map g)) Xt (pt.map (renamePreds g))).map List.ofFn
      = (ccPredict ops enc (ccFit ops enc w et s X y).1 et (labelsOf y) Xt pt).map List.ofFn := by
  have hw' : ∀ e, R ((ccFit ops enc w et s X y).1.est e) ((ccFit ops' enc' w' et s' X (y.map g)).1.est e) := fun e => by
    simpa [ccFit, usingFit, ccCfg] using fitIfNeeded_rel hR _ _ (fun e => fitIfNeeded_rel hR w w' hw none X y e) et X y e
  rw [← npUnique_eq_labelsOf, ← npUnique_eq_labelsOf, npUnique_map g hg]
  unfold ccPredict
  rw [usingPredict_rel hR enc enc' _ _ hw' (ccCfg et) (npUnique y) Xt pt hpt]
  cases usingPredict ops enc (ccFit ops enc w et s X y).1 (ccCfg et) (npUnique y) Xt pt with
  | error e => rfl
  | ok p =>
    cases p with
    | crisp l =>
      simp only [Except.map, renamePreds]
      rw [← ofFn_cast (List.length_map g) (classFreqs (npUnique y) l)]
      congr 2
      funext i
      exact classFreqs_map hg.injective _ _ i
    | probs1 _ => rfl
    | probs _ => rfl

/-- **C74** (AC). The worlds at `predict` are any two that agree up to the renaming, such as those `fit` leaves. -/
theorem C74_ac [LinearOrder α] [LinearOrder β] (hg : StrictMono g) (hR : SameUpTo g ops ops' R) (enc : Bool → α) (enc' : Bool → β) (w u : World σ D α) (w' u' : World σ' D β)
    (hw : ∀ e, R (w.est e) (w'.est e)) (hu : ∀ e, R (u.est e) (u'.est e)) (et et' : Option ℕ) (s : QState α k) (s' : QState β k) (sol : Solvers) (dist : Dist) (X : List D) (y : List α) (pt : Option (Preds α k))
    (hpt : NotSingleColumn pt) (Xt : List D) (qt : Option (Preds α k)) (hqt : NotSingleColumn qt) :
    ((acFit ops' enc' w' et et' s' X (y.map g) (pt.map (renamePreds g))) >>= fun f => (acPredict ops' enc' u' et et' sol dist f Xt (qt.map (renamePreds g))).map List.ofFn)
      = (acFit ops enc w et et' s X y pt) >>= fun f => (acPredict ops enc u et et' sol dist f Xt qt).map List.ofFn := by
  rw [acFit_rename hg hR enc enc' w w' hw et et' s s' X y pt hpt]
  cases acFit ops enc w et et' s X y pt with
  | error e => rfl
  | ok f =>
    show (acPredict ops' enc' u' et et' sol dist (renameFit g f) Xt (qt.map (renamePreds g))).map List.ofFn = (acPredict ops enc u et et' sol dist f Xt qt).map List.ofFn
    unfold acPredict
    have hup : usingPredict ops' enc' u' ⟨et, et', true, false⟩ (renameFit g f).classes Xt (qt.map (renamePreds g)) = (usingPredict ops enc u ⟨et, et', true, false⟩ f.classes Xt qt).map (renamePreds g) :=
      usingPredict_rel hR enc enc' u u' hu ⟨et, et', true, false⟩ f.classes Xt qt hqt
    rw [hup]
    cases usingPredict ops enc u ⟨et, et', true, false⟩ f.classes Xt qt with
    | error e => rfl
    | ok p =>
      cases p with
      | crisp l =>
        show (adjust sol dist (renameFit g f).cm (classFreqs (f.classes.map g) (l.map g))).map List.ofFn = (adjust sol dist f.cm (classFreqs f.classes l)).map List.ofFn
        rw [funext (classFreqs_map hg.injective f.classes l)]
        exact adjust_cast sol dist (List.length_map g) f.cm _
      | probs1 _ => rfl
      | probs _ => rfl

/-- **C74** (PAC). -/
theorem C74_pac [LinearOrder α] [LinearOrder β] (hg : StrictMono g) (hR : SameUpTo g ops ops' R) (enc : Bool → α) (enc' : Bool → β) (w u : World σ D α) (w' u' : World σ' D β)
    (hw : ∀ e, R (w.est e) (w'.est e)) (hu : ∀ e, R (u.est e) (u'.est e)) (et et' : Option ℕ) (s : QState α k) (s' : QState β k) (sol : Solvers) (dist : Dist) (X : List D) (y : List α) (pt : Option (Preds α k))
    (hpt : NotSingleColumn pt) (Xt : List D) (qt : Option (Preds α k)) (hqt : NotSingleColumn qt) :
    ((pacFit ops' enc' w' et et' s' X (y.map g) (pt.map (renamePreds g))) >>= fun f => (pacPredict ops' enc' u' et et' sol dist f Xt (qt.map (renamePreds g))).map List.ofFn)
      = (pacFit ops enc w et et' s X y pt) >>= fun f => (pacPredict ops enc u et et' sol dist f Xt qt).map List.ofFn := by
  rw [pacFit_rename hg hR enc enc' w w' hw et et' s s' X y pt hpt]
  cases pacFit ops enc w et et' s X y pt with
  | error e => rfl
  | ok f =>
    show (pacPredict ops' enc' u' et et' sol dist (renameFit g f) Xt (qt.map (renamePreds g))).map List.ofFn = (pacPredict ops enc u et et' sol dist f Xt qt).map List.ofFn
    unfold pacPredict
    have hup : usingPredict ops' enc' u' ⟨et, et', true, true⟩ (renameFit g f).classes Xt (qt.map (renamePreds g)) = (usingPredict ops enc u ⟨et, et', true, true⟩ f.classes Xt qt).map (renamePreds g) :=
      usingPredict_rel hR enc enc' u u' hu ⟨et, et', true, true⟩ f.classes Xt qt hqt
    rw [hup]
    cases usingPredict ops enc u ⟨et, et', true, true⟩ f.classes Xt qt with
    | error e => rfl
    | ok p =>
      cases p with
      | crisp _ => rfl
      | probs1 _ => rfl
      | probs rows =>
        simp only [Except.map, renamePreds]
        by_cases h2 : k = f.classes.length
        · rw [dif_pos (by simp only [renameFit]; rw [List.length_map]; exact h2), dif_pos h2]
          exact adjust_cast sol dist (List.length_map g) f.cm fun j => colMeans rows (Fin.cast h2.symm j)
        · rw [dif_neg (by simp only [renameFit]; rw [List.length_map]; exact h2), dif_neg h2]

/-- The hypothesis on the predictions cannot be dropped: a single column of probabilities is cut at 1/2 into the integers 0 and 1, whatever the classes are called. With classes 0 and 1 CC answers (1/2, 1/2) for
probabilities 0.9 and 0.1; with the classes called 1 and 2 it answers (1/2, 0). -/
theorem C74_single_column_refuted (ops : EstOps σ D ℕ k) (w : World σ D ℕ) (Xt : List D) :
    let enc : Bool → ℕ := fun b => if b then 1 else 0
    (ccPredict ops enc w none (labelsOf [0, 1]) Xt (some (.probs1 [9/10, 1/10]))).map List.ofFn = .ok [Fl.fin (1/2), Fl.fin (1/2)]
    ∧ (ccPredict ops enc w none (labelsOf ([0, 1].map Nat.succ)) Xt (some (.probs1 [9/10, 1/10]))).map List.ofFn = .ok [Fl.fin (1/2), Fl.fin 0] := by
  intro enc
  have e : probs2crisps (k := k) enc (labelsOf [0, 1]) (.probs1 [9/10, 1/10]) = .ok [1, 0] := by
    simp only [probs2crisps, List.map_cons, List.map_nil, enc]
    rw [if_pos (show (9/10 : ℝ) ≥ 1/2 by norm_num), if_neg (show ¬ (1/10 : ℝ) ≥ 1/2 by norm_num)]
    simp
  have e' : probs2crisps (k := k) enc (labelsOf ([0, 1].map Nat.succ)) (.probs1 [9/10, 1/10]) = .ok [1, 0] := e
  have key : ∀ classes : List ℕ, probs2crisps (k := k) enc classes (.probs1 [9/10, 1/10]) = .ok [1, 0] →
      (ccPredict ops enc w none classes Xt (some (.probs1 [9/10, 1/10]))).map List.ofFn = .ok (classes.map fun c => Fl.fin (([1, 0] : List ℕ).count c : ℝ) / Fl.fin 2) := fun classes h => by
    unfold ccPredict usingPredict
    simp only [ccCfg]
    simp only [Bool.false_eq_true, if_false]
    rw [h]
    simp only [Except.map]
    congr 1
    apply List.ext_getElem <;> simp [classFreqs]
  constructor
  · rw [key _ e, labelsOf_eq [0, 1] [0, 1] (by decide) (by decide)]
    simp [Fl.fin_div]
  · rw [key _ e', labelsOf_eq ([0, 1].map Nat.succ) [1, 2] (by decide) (by decide)]
    simp [Fl.fin_div]

/-! ## Non-vacuity: estimators that store their training labels and predict the first one -/

/-- A toy estimator for labels of type `α`. -/
noncomputable def firstLabelOps (α : Type) : EstOps (List α) ℕ α 2 where
  notFitted s := s.isEmpty
  fit _ _ y := y
  predict s X := X.flatMap fun _ => s.take 1
  predictProba _ X := X.map fun _ => ![1/2, 1/2]

theorem firstLabel_same (g : ℕ → ℤ) : SameUpTo g (firstLabelOps ℕ) (firstLabelOps ℤ) (fun s s' => s' = s.map g) where
  notFitted s s' h := by subst h; simp [firstLabelOps]
  fit s s' X y h := rfl
  predict s s' X h := by subst h; simp [firstLabelOps, List.map_flatMap]
  proba s s' X h := rfl

example : StrictMono (fun n : ℕ => (3 * n - 7 : ℤ)) ∧ NotSingleColumn (some (.crisp [3, 5, 5] : Preds ℕ 2)) ∧ NotSingleColumn (none : Option (Preds ℕ 2)) :=
  ⟨fun a b h => by simp only; omega, trivial, trivial⟩

end Verif.Props
