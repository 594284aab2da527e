import Verif.Props.EndToEnd

/-!
# C116: a `fit` that raises; C117: methods for a given number of classes
-/

namespace Verif.Props

open Verif.Model Verif.Spec Verif.Proof

/-! ## C116 -/

section
variable {σ D α : Type} {k : ℕ} [LinearOrder α]

/-- `predict` reads, of what `super().fit` stored, at most the labels; or nothing after `super().fit` can raise. -/
def ReadsLabels (cls : UcClass α k) : Prop :=
  (∀ m (s s' : QState α k) p, s.classes = s'.classes → cls.answer m s p = cls.answer m s' p) ∨ ∀ m y s, ∃ m', cls.learn m y s = .ok m'

omit [LinearOrder α] in
theorem fitIfNeeded_done (ops : EstOps σ D α k) (w : World σ D α) (r : Option ℕ) (X : List D) (y : List α) (h : ∀ e, r = some e → ops.notFitted (w.est e) = false) : fitIfNeeded ops w r X y = w := by
  cases r with
  | none => rfl
  | some e => simp [fitIfNeeded, h e rfl]

omit [LinearOrder α] in
theorem fitIfNeeded_fitted (ops : EstOps σ D α k) (hfit : ∀ s X y, ops.notFitted (ops.fit s X y) = false) (w : World σ D α) (r : Option ℕ) (X : List D) (y : List α) (e : ℕ)
    (h : r = some e ∨ ops.notFitted (w.est e) = false) : ops.notFitted ((fitIfNeeded ops w r X y).est e) = false := by
  cases r with
  | none => simpa [fitIfNeeded] using h
  | some e' =>
    unfold fitIfNeeded
    simp only
    by_cases hn : ops.notFitted (w.est e') = true
    · simp only [hn, if_true]
      split
      · exact hfit _ _ _
      · rename_i hne
        rcases h with h | h
        · exact absurd (Option.some.inj h).symm hne
        · exact h
    · simp only [hn, Bool.false_eq_true, if_false]
      rcases h with h | h
      · obtain rfl := Option.some.inj h
        simpa using hn
      · exact h

/-- After a `fit` that returned, the estimators of the object are trained. -/
theorem ucFit_trained (ops : EstOps σ D α k) (hfit : ∀ s X y, ops.notFitted (ops.fit s X y) = false) (enc : Bool → α) (o : UcObj α k) (w : World σ D α) (s : UcState o) (X : List D) (y : List α) (pt : Option (Preds α k))
    (h : (ucFit ops enc w o s X y pt).2.2 = none) (e : ℕ) (he : o.estTrain = some e ∨ o.estTest = some e) : ops.notFitted ((ucFit ops enc w o s X y pt).1.est e) = false := by
  have hw : (usingFit ops enc w o.cfg s.base X y pt).2.2 = none ∧ (ucFit ops enc w o s X y pt).1 = (usingFit ops enc w o.cfg s.base X y pt).1 := by
    unfold ucFit at h ⊢
    simp only at h ⊢
    cases hpre : o.cls.pre y with
    | some e => simp [hpre] at h
    | none =>
      simp only [hpre] at h ⊢
      cases h2 : (usingFit ops enc w o.cfg s.base X y pt).2.2 with
      | some e => simp [h2] at h
      | none =>
        simp only [h2] at h ⊢
        refine ⟨trivial, ?_⟩
        split <;> rfl
  rw [hw.2, usingFit_world]
  split
  · rename_i hc
    have := hw.1
    unfold usingFit at this
    simp [hc] at this
  · apply fitIfNeeded_fitted ops hfit
    rcases he with he | he
    · exact .inr (fitIfNeeded_fitted ops hfit _ _ _ _ _ (.inl he))
    · exact .inl he

/-- What a `fit` of the superclass that raised has changed. -/
theorem usingFit_failed (ops : EstOps σ D α k) (enc : Bool → α) (w : World σ D α) (q : QuantCfg) (s : QState α k) (X : List D) (y : List α) (pt : Option (Preds α k)) (hy : y ≠ []) (e : Err)
    (h : (usingFit ops enc w q s X y pt).2.2 = some e) : (usingFit ops enc w q s X y pt).2.1 = { s with classes := some (npUnique y) } := by
  unfold usingFit at h ⊢
  simp only at h ⊢
  split at h
  · rename_i hc; simp [hc]
  · rename_i hc
    simp only [hc, Bool.false_eq_true, if_false]
    split at h
    · rename_i hn
      simp only [hn, if_true]
      cases hp : trainPreds ops enc (npUnique y) (fitIfNeeded ops (fitIfNeeded ops w q.estTrain X y) q.estTest X y) q X pt with
      | error e' => rfl
      | ok p =>
        rw [hp] at h
        simp only at h ⊢
        have hy0 : y.length ≠ 0 := by simpa using hy
        obtain ⟨ye, hye⟩ : ∃ ye, extendLabels y p.len = .ok ye := by
          unfold extendLabels
          simp only [hy0, if_false]
          split <;> exact ⟨_, rfl⟩
        rw [hye] at h
        simp at h
    · simp at h

theorem usingFit_classes (ops : EstOps σ D α k) (enc : Bool → α) (w : World σ D α) (q : QuantCfg) (s : QState α k) (X : List D) (y : List α) (pt : Option (Preds α k)) : (usingFit ops enc w q s X y pt).2.1.classes = some (npUnique y) := by
  unfold usingFit
  simp only
  split
  · rfl
  · split
    · split
      · rfl
      · split <;> rfl
    · rfl

/-- **C116**, what holds: after a `fit` that returned, a second `fit` on examples with the same labels that raises trains no estimator and leaves every answer of `predict` as it was. Missing: other labels
(`C116_failed_fit_refuted`). -/
theorem C116_same_labels_partial (ops : EstOps σ D α k) (hfit : ∀ s X y, ops.notFitted (ops.fit s X y) = false) (enc : Bool → α) (o : UcObj α k) (hcls : ReadsLabels o.cls) (w w1 w2 : World σ D α) (s s1 s2 : UcState o)
    (X X' : List D) (y y' : List α) (pt pt' : Option (Preds α k)) (e : Err) (h1 : ucFit ops enc w o s X y pt = (w1, s1, none)) (h2 : ucFit ops enc w1 o s1 X' y' pt' = (w2, s2, some e))
    (hy : y' ≠ []) (hl : labelsOf y' = labelsOf y) (Xt : List D) (ptt : Option (Preds α k)) :
    w2 = w1 ∧ (ucPredict ops enc w2 o s2 Xt ptt).2 = (ucPredict ops enc w1 o s1 Xt ptt).2 := by
  have htr := ucFit_trained ops hfit enc o w s X y pt (by rw [h1])
  rw [h1] at htr
  have hworld : (usingFit ops enc w1 o.cfg s1.base X' y' pt').1 = w1 := by
    rw [usingFit_world]
    split
    · rfl
    · rw [fitIfNeeded_done ops w1 o.cfg.estTrain _ _ fun e he => htr e (.inl he), fitIfNeeded_done ops w1 o.cfg.estTest _ _ fun e he => htr e (.inr he)]
  have hc1 : s1.base.classes = some (npUnique y) := by
    unfold ucFit at h1
    simp only at h1
    cases hpre : o.cls.pre y with
    | some e => simp [hpre] at h1
    | none =>
      simp only [hpre] at h1
      have := usingFit_classes ops enc w o.cfg s.base X y pt
      split at h1
      · simp at h1
      · split at h1
        · simp at h1
        · simp only [Prod.mk.injEq] at h1
          rw [← h1.2.1]
          exact this
  have key : w2 = w1 ∧ (s2 = s1 ∨ ((∀ m p, o.cls.answer m s2.base p = o.cls.answer m s1.base p) ∧ s2.own = s1.own ∧ s2.base.classes = s1.base.classes)) := by
    have hcl := usingFit_classes ops enc w1 o.cfg s1.base X' y' pt'
    have hlab : npUnique y' = npUnique y := hl
    unfold ucFit at h2
    simp only at h2
    cases hpre : o.cls.pre y' with
    | some e =>
      simp only [hpre, Prod.mk.injEq] at h2
      exact ⟨h2.1.symm, .inl h2.2.1.symm⟩
    | none =>
      simp only [hpre] at h2
      cases hu : (usingFit ops enc w1 o.cfg s1.base X' y' pt').2.2 with
      | some e' =>
        simp only [hu, Prod.mk.injEq] at h2
        refine ⟨by rw [← h2.1, hworld], .inl ?_⟩
        rw [← h2.2.1, usingFit_failed ops enc w1 o.cfg s1.base X' y' pt' hy e' hu, hlab, ← hc1]
      | none =>
        simp only [hu] at h2
        cases hle : o.cls.learn s1.own y' (usingFit ops enc w1 o.cfg s1.base X' y' pt').2.1 with
        | ok m => simp [hle] at h2
        | error e' =>
          simp only [hle, Prod.mk.injEq] at h2
          refine ⟨by rw [← h2.1, hworld], .inr ?_⟩
          rcases hcls with hcls | hcls
          · rw [← h2.2.1]
            have hcc : (usingFit ops enc w1 o.cfg s1.base X' y' pt').2.1.classes = s1.base.classes := by rw [hcl, hc1, hlab]
            exact ⟨fun m p => hcls m _ _ p hcc, rfl, hcc⟩
          · obtain ⟨m', hm⟩ := hcls s1.own y' (usingFit ops enc w1 o.cfg s1.base X' y' pt').2.1
            rw [hm] at hle
            simp at hle
  refine ⟨key.1, ?_⟩
  rw [key.1]
  rcases key.2 with h | ⟨ha, ho, hc⟩
  · rw [h]
  · unfold ucPredict
    rw [ho, hc]
    cases s1.own with
    | none => rfl
    | some m =>
      simp only
      cases usingPredict ops enc w1 o.cfg (s1.base.classes.getD []) Xt ptt with
      | error e => rfl
      | ok p => simp only [ha]

/-- Every class modelled in `Verif.Model.Pipeline` meets the hypothesis of C116. -/
theorem readsLabels_cc : ReadsLabels (ccClass : UcClass α k) := .inr fun _ _ _ => ⟨_, rfl⟩
theorem readsLabels_pcc : ReadsLabels (pccClass : UcClass α k) := .inr fun _ _ _ => ⟨_, rfl⟩
theorem readsLabels_em (eps : ℝ) (maxIter : ℕ) : ReadsLabels (emClass eps maxIter : UcClass α k) := .inl fun _ _ _ _ _ => rfl
theorem readsLabels_ac (sol : Solvers) (dist : Dist) : ReadsLabels (acClass sol dist : UcClass α k) := .inl fun _ ⟨_, _, _⟩ ⟨_, _, _⟩ _ h => by obtain rfl := h; rfl
theorem readsLabels_pac (sol : Solvers) (dist : Dist) : ReadsLabels (pacClass sol dist : UcClass α k) := .inl fun _ _ _ _ _ => rfl
theorem readsLabels_debias : ReadsLabels (deBiasClass : UcClass α 2) := .inl fun _ _ _ _ _ => rfl
theorem readsLabels_sordy (sort : List (ℝ × ℤ) → List (ℝ × ℤ)) (tol : ℝ) : ReadsLabels (sordyClass k sort tol) := .inl fun _ _ _ _ h => by simp only [sordyClass, h]
theorem readsLabels_quanty (sort : List (ℝ × α) → List (ℝ × α)) (n : ℕ) (dist : (Fin n → Fl) → (Fin n → Fl) → Fl) (tol : ℝ) (d : α) : ReadsLabels (quantyClass k sort n dist tol d) := .inl fun _ _ _ _ h => by simp only [quantyClass, h]
theorem readsLabels_dfy (ppf : ℝ → EReal) (sv : CvxSolver) (qp : QPSolver) (la : LinAlg k) (fuel : ℕ) (tol : ℝ) (cfg : DfCfg) (distance : DfDistance (nDescriptors k * cfg.nBins)) :
    ReadsLabels (dfyClass ppf sv qp la fuel tol cfg distance : UcClass α k) := .inl fun _ _ _ _ _ => rfl
theorem readsLabels_friedman (sv : CvxSolver) (qp : QPSolver) (la : LinAlg k) (fuel : ℕ) (tol : ℝ) (distance : DfDistance k) : ReadsLabels (friedmanClass sv qp la fuel tol distance : UcClass α k) := .inl fun _ _ _ _ _ => rfl
theorem readsLabels_edy {n : ℕ} (qp : QPSolver) (la : LinAlg n) (fuel : ℕ) (d : (Fin (n + 1) → ℝ) → (Fin (n + 1) → ℝ) → ℝ) : ReadsLabels (edyClass qp la fuel d : UcClass α (n + 1)) := .inl fun _ _ _ _ _ => rfl
theorem readsLabels_cvmy {n : ℕ} (qp : QPSolver) (la : LinAlg n) (fuel : ℕ) (d : (Fin (n + 1) → ℝ) → (Fin (n + 1) → ℝ) → ℝ) : ReadsLabels (cvmyClass qp la fuel d : UcClass α (n + 1)) := .inr fun _ _ _ => ⟨_, rfl⟩
theorem readsLabels_aco (sv : CvxSolver) : ReadsLabels (acoClass sv : UcClass α k) := .inl fun _ ⟨_, _, _⟩ ⟨_, _, _⟩ _ h => by obtain rfl := h; rfl
theorem readsLabels_pdfo (sv : CvxSolver) (qp : QPSolver) (la : LinAlg k) (fuel nBins : ℕ) (method : OrdMethod) (dist : OrdDist) : ReadsLabels (pdfoClass sv qp la fuel nBins method dist : UcClass α k) := .inl fun _ _ _ _ _ => rfl

end

/-- An `AC` without estimators. -/
noncomputable def acGiven (sol : Solvers) (dist : Dist) : UcObj ℕ 2 := ⟨acClass sol dist, none, none⟩

/-- What `predict` answers for a bag whose only example is predicted as class 1, after a `fit` on the labels 0 and 1 that returned and, if `again`, another one on the labels 1 and 2, without predictions. -/
noncomputable def acAnswer (sol : Solvers) (dist : Dist) (again : Bool) : Except Err (Option (List Fl)) :=
  let r := ucFit firstLabel (fun b => if b then 1 else 0) ⟨fun _ => none, []⟩ (acGiven sol dist) (ucNew _) [(), ()] [0, 1] (some (.crisp [0, 1]))
  let r := if again then ucFit firstLabel (fun b => if b then 1 else 0) r.1 (acGiven sol dist) r.2.1 [(), ()] [1, 2] none else r
  (ucPredict firstLabel (fun b => if b then 1 else 0) r.1 (acGiven sol dist) r.2.1 [()] (some (.crisp [1]))).2

/-- The answer of `AC` when the confusion matrix was learned with the labels `L` and `classes_` is `C`. -/
noncomputable def acMixed (sol : Solvers) (dist : Dist) (L C : List ℕ) : Except Err (Option (List Fl)) :=
  (if h : L.length = C.length then
    (adjust sol dist (normalizeRows fun i j : Fin L.length => (([0, 1] : List ℕ).zip [0, 1]).count (L[i], L[j])) fun j => classFreqs C [1] (Fin.cast h j)).map vecList else .error .valueError).map some

theorem acAnswer_eq (sol : Solvers) (dist : Dist) (again : Bool) :
    acAnswer sol dist again = .ok (some (if again then [Fl.fin 1, Fl.fin 0] else [Fl.fin 0, Fl.fin 1])) := by
  have hL : npUnique ([0, 1] : List ℕ) = [0, 1] := labelsOf_eq _ _ (by decide) (by decide)
  have hL' : npUnique ([1, 2] : List ℕ) = [1, 2] := labelsOf_eq _ _ (by decide) (by decide)
  have hadj : ∀ q : ℝ, binaryAdjust (normalizeRows fun i j : Fin 2 => (([0, 1] : List ℕ).zip [0, 1]).count (([0, 1] : List ℕ)[i], ([0, 1] : List ℕ)[j])) ![Fl.fin (1 - q), Fl.fin q] = ![Fl.fin (1 - max 0 (min q 1)), Fl.fin (max 0 (min q 1))] := by
    intro q
    have := binaryAdjust_adjusted (normalizeRows fun i j : Fin 2 => (([0, 1] : List ℕ).zip [0, 1]).count (([0, 1] : List ℕ)[i], ([0, 1] : List ℕ)[j])) ![Fl.fin (1 - q), Fl.fin q] 1 0 q
      (by simp [normalizeRows, Fin.sum_univ_two, Fl.fin_div]) (by simp [normalizeRows, Fin.sum_univ_two, Fl.fin_div]) rfl (by norm_num)
    simpa using this
  have e : ∀ again, acAnswer sol dist again = acMixed sol dist (npUnique [0, 1]) (if again then npUnique [1, 2] else npUnique [0, 1]) := by
    intro again
    cases again <;> rfl
  rw [e, hL, hL']
  unfold acMixed
  cases again
  · have h := hadj 1
    rw [dif_pos (by rfl)]
    have hq : (fun j : Fin 2 => classFreqs (if false then ([1, 2] : List ℕ) else [0, 1]) [1] (Fin.cast (by rfl) j)) = ![Fl.fin (1 - 1), Fl.fin 1] := by
      funext j
      fin_cases j <;> simp [classFreqs, Fl.fin_div]
    change Except.map some (Except.map vecList (Except.ok (binaryAdjust _ (fun j : Fin 2 => classFreqs (if false then ([1, 2] : List ℕ) else [0, 1]) [1] (Fin.cast (by rfl) j))))) = _
    rw [hq]
    erw [h]
    simp [Except.map, vecList]
  · have h := hadj 0
    rw [dif_pos (by rfl)]
    have hq : (fun j : Fin 2 => classFreqs (if true then ([1, 2] : List ℕ) else [0, 1]) [1] (Fin.cast (by rfl) j)) = ![Fl.fin (1 - 0), Fl.fin 0] := by
      funext j
      fin_cases j <;> simp [classFreqs, Fl.fin_div]
    change Except.map some (Except.map vecList (Except.ok (binaryAdjust _ (fun j : Fin 2 => classFreqs (if true then ([1, 2] : List ℕ) else [0, 1]) [1] (Fin.cast (by rfl) j))))) = _
    rw [hq]
    erw [h]
    simp [Except.map, vecList]

/-- **C116**, refuted: the second `fit` of `acAnswer` raises ValueError, and the answer is no longer the one given by the `fit` that returned. -/
theorem C116_failed_fit_refuted (sol : Solvers) (dist : Dist) :
    (∃ w s, ucFit firstLabel (fun b => if b then 1 else 0) ⟨fun _ => none, []⟩ (acGiven sol dist) (ucNew _) [(), ()] [0, 1] (some (.crisp [0, 1])) = (w, s, none)
      ∧ (ucFit firstLabel (fun b => if b then 1 else 0) w (acGiven sol dist) s [(), ()] [1, 2] none).2.2 = some .valueError)
    ∧ acAnswer sol dist true ≠ acAnswer sol dist false := by
  refine ⟨⟨_, _, rfl, rfl⟩, ?_⟩
  rw [acAnswer_eq, acAnswer_eq]
  simp

/-- Non-vacuity of C116: the second `fit` on the same labels, without predictions, raises ValueError. -/
example (sol : Solvers) (dist : Dist) : ∃ w1 s1 w2 s2, ucFit firstLabel (fun b => if b then 1 else 0) ⟨fun _ => none, []⟩ (acGiven sol dist) (ucNew _) [(), ()] [0, 1] (some (.crisp [0, 1])) = (w1, s1, none)
    ∧ ucFit firstLabel (fun b => if b then 1 else 0) w1 (acGiven sol dist) s1 [(), (), ()] [1, 0, 1] none = (w2, s2, some .valueError)
    ∧ (ucPredict firstLabel (fun b => if b then 1 else 0) w2 (acGiven sol dist) s2 [()] (some (.crisp [1]))).2 = (ucPredict firstLabel (fun b => if b then 1 else 0) w1 (acGiven sol dist) s1 [()] (some (.crisp [1]))).2 :=
  ⟨_, _, _, _, rfl, rfl, (C116_same_labels_partial firstLabel (fun _ _ _ => rfl) _ (acGiven sol dist) (readsLabels_ac sol dist) ⟨fun _ => none, []⟩ _ _ (ucNew _) _ _ [(), ()] [(), (), ()] [0, 1] [1, 0, 1] (some (.crisp [0, 1])) none
    .valueError rfl rfl (by simp) (by rw [labelsOf_eq [1, 0, 1] [0, 1] (by decide) (by decide), labelsOf_eq [0, 1] [0, 1] (by decide) (by decide)]) _ _).2⟩

/-! ## C117 -/

section
variable {σ D α : Type} {k : ℕ} [LinearOrder α]

/-- `super().fit` of a probabilistic quantifier that needs the predictions of the training set, given one row for each example. -/
theorem usingFit_rows (ops : EstOps σ D α k) (enc : Bool → α) (w : World σ D α) (q : QuantCfg) (hn : q.needsTrain = true) (hp : q.probabilistic = true) (s : QState α k) (X : List D) (y : List α) (rows : List (Fin k → ℝ))
    (hlen : rows.length = y.length) : (usingFit ops enc w q s X y (some (.probs rows))).2 = (⟨some (npUnique y), some (.probs rows), some y⟩, none) := by
  unfold usingFit
  simp [hn, trainPreds, hp, extendLabels, Preds.len, hlen]

theorem ucFit_rows (ops : EstOps σ D α k) (enc : Bool → α) (w : World σ D α) (o : UcObj α k) (hn : o.cls.needsTrain = true) (hp : o.cls.probabilistic = true) (s : UcState o) (X : List D) (y : List α) (rows : List (Fin k → ℝ))
    (hlen : rows.length = y.length) : (ucFit ops enc w o s X y (some (.probs rows))).2.2 = match o.cls.pre y with
      | some e => some e
      | none => match o.cls.learn s.own y ⟨some (npUnique y), some (.probs rows), some y⟩ with
        | .error e => some e
        | .ok _ => none := by
  unfold ucFit
  simp only
  cases o.cls.pre y with
  | some e => rfl
  | none =>
    simp only [usingFit_rows ops enc w o.cfg hn hp s.base X y rows hlen]
    split <;> simp_all

/-- **C117**, `DeBias`: whatever the object has been used for, `fit` raises AttributeError when the number of classes is not two, and then nothing has changed, not even the estimators; with two classes it returns. -/
theorem C117_debias (ops : EstOps σ D α 2) (enc : Bool → α) (w : World σ D α) (e e' : Option ℕ) (s : UcState ⟨deBiasClass, e, e'⟩) (X : List D) (y : List α) (rows : List (Fin 2 → ℝ)) (hlen : rows.length = y.length) :
    ((labelsOf y).length ≠ 2 → ∀ pt, ucFit ops enc w ⟨deBiasClass, e, e'⟩ s X y pt = (w, s, some .attributeError))
    ∧ ((labelsOf y).length = 2 → (ucFit ops enc w ⟨deBiasClass, e, e'⟩ s X y (some (.probs rows))).2.2 = none) := by
  refine ⟨fun h pt => ?_, fun h => ?_⟩
  · have h' : (npUnique y).length ≠ 2 := h
    unfold ucFit
    simp [deBiasClass, h']
  · have h' : (npUnique y).length = 2 := h
    rw [ucFit_rows ops enc w _ rfl rfl s X y rows hlen]
    simp [deBiasClass, h', trainData, probRows, bind, Except.bind, deBiasFit]

/-- **C117**, `SORDy`: `fit` raises TypeError exactly when there are more than two classes, and otherwise it returns. -/
theorem C117_sordy (ops : EstOps σ D ℤ (k + 2)) (enc : Bool → ℤ) (w : World σ D ℤ) (sort : List (ℝ × ℤ) → List (ℝ × ℤ)) (tol : ℝ) (e e' : Option ℕ) (s : UcState ⟨sordyClass k sort tol, e, e'⟩) (X : List D) (y : List ℤ)
    (rows : List (Fin (k + 2) → ℝ)) (hlen : rows.length = y.length) :
    (ucFit ops enc w ⟨sordyClass k sort tol, e, e'⟩ s X y (some (.probs rows))).2.2 = if 2 < (labelsOf y).length then some .typeError else none := by
  rw [ucFit_rows ops enc w _ rfl rfl s X y rows hlen]
  by_cases h : 2 < (npUnique y).length
  · have h' : 2 < (labelsOf y).length := h
    simp [sordyClass, h, h']
  · have h' : ¬ 2 < (labelsOf y).length := h
    simp [sordyClass, h, h', trainData, probRows, bind, Except.bind, hlen, pure, Except.pure]

/-- **C117**, `SORDy` on its own: the part of `fit` after `super().fit`. -/
theorem C117_sordy_fit (sort : List (ℝ × ℤ) → List (ℝ × ℤ)) (y : List ℤ) (probs : List ℝ) : sordyFit sort y probs = .error .typeError ↔ 2 < (labelsOf y).length := by
  unfold sordyFit
  split
  · rename_i h; exact ⟨fun _ => h, fun _ => rfl⟩
  · rename_i h; exact ⟨fun h' => by simp at h', fun h' => absurd h' h⟩

/-- **C117**, `QUANTy`: the same. -/
theorem C117_quanty (ops : EstOps σ D α (k + 2)) (enc : Bool → α) (w : World σ D α) (sort : List (ℝ × α) → List (ℝ × α)) (n : ℕ) (dist : (Fin n → Fl) → (Fin n → Fl) → Fl) (tol : ℝ) (d : α) (e e' : Option ℕ)
    (s : UcState ⟨quantyClass k sort n dist tol d, e, e'⟩) (X : List D) (y : List α) (rows : List (Fin (k + 2) → ℝ)) (hlen : rows.length = y.length) :
    (ucFit ops enc w ⟨quantyClass k sort n dist tol d, e, e'⟩ s X y (some (.probs rows))).2.2 = if 2 < (labelsOf y).length then some .typeError else none := by
  rw [ucFit_rows ops enc w _ rfl rfl s X y rows hlen]
  by_cases h : 2 < (npUnique y).length
  · have h' : 2 < (labelsOf y).length := h
    simp [quantyClass, h, h']
  · have h' : ¬ 2 < (labelsOf y).length := h
    simp [quantyClass, h, h', trainData, probRows, bind, Except.bind, hlen, pure, Except.pure]

/-- **C117**, `PDFOrdinaly`: `fit` raises TypeError exactly when there are at most two classes, and otherwise it returns. -/
theorem C117_pdfo (ops : EstOps σ D α k) (enc : Bool → α) (w : World σ D α) (sv : CvxSolver) (qp : QPSolver) (la : LinAlg k) (fuel nBins : ℕ) (hb : 0 < nBins) (dist : OrdDist) (e e' : Option ℕ)
    (s : UcState ⟨pdfoClass sv qp la fuel nBins .fullProbabilistic dist, e, e'⟩) (X : List D) (y : List α) (rows : List (Fin k → ℝ)) (hlen : rows.length = y.length) (hk : k = (labelsOf y).length) (hrows : ∀ r ∈ rows, IsPrev r) :
    (ucFit ops enc w ⟨pdfoClass sv qp la fuel nBins .fullProbabilistic dist, e, e'⟩ s X y (some (.probs rows))).2.2 = if (labelsOf y).length ≤ 2 then some .typeError else none := by
  rw [ucFit_rows ops enc w _ rfl rfl s X y rows hlen]
  have hk' : (npUnique y).length = k := hk.symm
  subst hk'
  by_cases h : (npUnique y).length ≤ 2
  · have h' : (labelsOf y).length ≤ 2 := h
    simp only [pdfoClass, trainData, probRows, bind, Except.bind, columnsAre_self, pdfoFit, h, h', if_true]
  · have h' : ¬ (labelsOf y).length ≤ 2 := h
    have hfit := pdfoFit_eq la fuel nBins .fullProbabilistic dist (by omega) hb (fun i : Fin (npUnique y).length => (npUnique y)[i]) y rows hlen.symm ⟨hrows, .inl rfl⟩
    simp only [pdfoClass, trainData, probRows, bind, Except.bind, columnsAre_self, h', if_false, pure, Except.pure, Fin.cast_eq_self]
    rw [hfit]

end

/-- Non-vacuity of C117: three classes for `SORDy`. -/
example (w : World (Option ℕ) Unit ℤ) (ops : EstOps (Option ℕ) Unit ℤ 3) (sort : List (ℝ × ℤ) → List (ℝ × ℤ)) (tol : ℝ) :
    (ucFit ops (fun b => if b then 1 else 0) w ⟨sordyClass 1 sort tol, none, none⟩ (ucNew _) [(), (), ()] [0, 1, 2] (some (.probs [![1, 0, 0], ![0, 1, 0], ![0, 0, 1]]))).2.2 = some .typeError := by
  rw [C117_sordy ops _ w sort tol none none _ _ _ _ rfl, labelsOf_eq [0, 1, 2] [0, 1, 2] (by decide) (by decide)]
  rfl

end Verif.Props
