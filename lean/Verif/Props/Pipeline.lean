import Verif.Model.Pipeline
import Verif.Spec.Prevalence

/-!
# C114: quantifiers that share estimators do not influence each other
-/

namespace Verif.Props

open Verif.Model Verif.Spec

section
variable {σ D α : Type} {k : ℕ}

/-- An estimator of the initial world after it has been trained with `X`, `y` when that was needed. -/
def settledEst (ops : EstOps σ D α k) (X : List D) (y : List α) (s : σ) : σ := if ops.notFitted s then ops.fit s X y else s

/-- Every estimator is as in the initial world or trained with `X`, `y`. -/
def OnlyTrained (ops : EstOps σ D α k) (X : List D) (y : List α) (w0 w : World σ D α) : Prop := ∀ e, w.est e = w0.est e ∨ w.est e = settledEst ops X y (w0.est e)

/-- The estimator is no longer waiting to be trained. -/
def Settled (ops : EstOps σ D α k) (X : List D) (y : List α) (w0 w : World σ D α) (r : Option ℕ) : Prop := ∀ e, r = some e → w.est e = settledEst ops X y (w0.est e)

variable {ops : EstOps σ D α k} {X : List D} {y : List α} {w0 w : World σ D α}

theorem notFitted_settled (hfit : ∀ s X y, ops.notFitted (ops.fit s X y) = false) (s : σ) : ops.notFitted (settledEst ops X y s) = false := by
  unfold settledEst
  split
  · exact hfit _ _ _
  · rename_i h; simpa using h

theorem fitIfNeeded_est (hfit : ∀ s X y, ops.notFitted (ops.fit s X y) = false) (h : OnlyTrained ops X y w0 w) (r : Option ℕ) (e : ℕ) :
    (fitIfNeeded ops w r X y).est e = if r = some e then settledEst ops X y (w0.est e) else w.est e := by
  cases r with
  | none => simp [fitIfNeeded]
  | some e' =>
    simp only [fitIfNeeded, Option.some.injEq]
    by_cases he : e' = e
    · subst he
      simp only [if_true]
      rcases h e' with h1 | h1
      · rw [h1]
        unfold settledEst
        split
        · simp
        · exact h1
      · rw [h1, notFitted_settled hfit]
        simpa using h1
    · simp only [he, if_false]
      split
      · simp [Ne.symm he]
      · rfl

theorem fitIfNeeded_only (hfit : ∀ s X y, ops.notFitted (ops.fit s X y) = false) (h : OnlyTrained ops X y w0 w) (r : Option ℕ) : OnlyTrained ops X y w0 (fitIfNeeded ops w r X y) := by
  intro e
  rw [fitIfNeeded_est hfit h]
  split
  · exact .inr rfl
  · exact h e

theorem fitIfNeeded_keeps (hfit : ∀ s X y, ops.notFitted (ops.fit s X y) = false) (h : OnlyTrained ops X y w0 w) (r r' : Option ℕ) (hs : Settled ops X y w0 w r') :
    Settled ops X y w0 (fitIfNeeded ops w r X y) r' := by
  intro e he
  rw [fitIfNeeded_est hfit h]
  split
  · rfl
  · exact hs e he

theorem fitIfNeeded_settles (hfit : ∀ s X y, ops.notFitted (ops.fit s X y) = false) (h : OnlyTrained ops X y w0 w) (r : Option ℕ) : Settled ops X y w0 (fitIfNeeded ops w r X y) r := by
  intro e he
  rw [fitIfNeeded_est hfit h, if_pos he]

/-- The estimators after `fit`. -/
theorem usingFit_world [LinearOrder α] (ops : EstOps σ D α k) (enc : Bool → α) (w : World σ D α) (q : QuantCfg) (s : QState α k) (X : List D) (y : List α) (pt : Option (Preds α k)) :
    (usingFit ops enc w q s X y pt).1
      = if q.needsTrain && q.estTrain.isNone && pt.isNone then w else fitIfNeeded ops (fitIfNeeded ops w q.estTrain X y) q.estTest X y := by
  unfold usingFit
  simp only
  split
  · rfl
  · split
    · split
      · rfl
      · split <;> rfl
    · rfl

/-- What `fit` stores does not depend on the other estimators. -/
theorem usingFit_agree [LinearOrder α] (hfit : ∀ s X y, ops.notFitted (ops.fit s X y) = false) {w' : World σ D α} (h : OnlyTrained ops X y w0 w) (h' : OnlyTrained ops X y w0 w') (enc : Bool → α)
    (q : QuantCfg) (s : QState α k) (pt : Option (Preds α k)) : (usingFit ops enc w q s X y pt).2 = (usingFit ops enc w' q s X y pt).2 := by
  unfold usingFit
  simp only
  split
  · rfl
  · have key : ∀ e, q.estTrain = some e → (fitIfNeeded ops (fitIfNeeded ops w q.estTrain X y) q.estTest X y).est e = (fitIfNeeded ops (fitIfNeeded ops w' q.estTrain X y) q.estTest X y).est e := by
      intro e he
      rw [fitIfNeeded_keeps hfit (fitIfNeeded_only hfit h _) _ _ (fitIfNeeded_settles hfit h q.estTrain) e he,
        fitIfNeeded_keeps hfit (fitIfNeeded_only hfit h' _) _ _ (fitIfNeeded_settles hfit h' q.estTrain) e he]
    have ht : trainPreds ops enc (npUnique y) (fitIfNeeded ops (fitIfNeeded ops w q.estTrain X y) q.estTest X y) q X pt
        = trainPreds ops enc (npUnique y) (fitIfNeeded ops (fitIfNeeded ops w' q.estTrain X y) q.estTest X y) q X pt := by
      unfold trainPreds
      cases pt with
      | some p => rfl
      | none =>
        cases he : q.estTrain with
        | none => rfl
        | some e =>
          have := key e he
          rw [he] at this
          simp only [this]
    rw [ht]
    split
    · split
      · rfl
      · split <;> rfl
    · rfl

/-- The predictions of a bag do not depend on the other estimators. -/
theorem usingPredict_agree {w' : World σ D α} (enc : Bool → α) (q : QuantCfg) (h : Settled ops X y w0 w q.estTest) (h' : Settled ops X y w0 w' q.estTest) (classes : List α) (Xt : List D) (pt : Option (Preds α k)) :
    usingPredict ops enc w q classes Xt pt = usingPredict ops enc w' q classes Xt pt := by
  unfold usingPredict
  cases he : q.estTest with
  | none => cases pt <;> rfl
  | some e =>
    cases pt with
    | some p => rfl
    | none => simp only [h e he, h' e he]

/-- The relation between a program and the part of it that uses the object `i`. -/
structure Related [LinearOrder α] (ops : EstOps σ D α k) (X : List D) (y : List α) (objs : ℕ → UcObj α k) (w0 : World σ D α) (w w' : World σ D α) (i : ℕ) (s s' : UcState (objs i)) : Prop where
  only : OnlyTrained ops X y w0 w
  only' : OnlyTrained ops X y w0 w'
  same : s = s'
  settled : s.own.isSome → Settled ops X y w0 w (objs i).estTest ∧ Settled ops X y w0 w' (objs i).estTest

theorem ucFit_only [LinearOrder α] (hfit : ∀ s X y, ops.notFitted (ops.fit s X y) = false) (h : OnlyTrained ops X y w0 w) (enc : Bool → α) (o : UcObj α k) (s : UcState o) (pt : Option (Preds α k)) :
    OnlyTrained ops X y w0 (ucFit ops enc w o s X y pt).1 ∧ ∀ r, Settled ops X y w0 w r → Settled ops X y w0 (ucFit ops enc w o s X y pt).1 r := by
  have hw : (ucFit ops enc w o s X y pt).1 = w ∨ (ucFit ops enc w o s X y pt).1 = (usingFit ops enc w o.cfg s.base X y pt).1 := by
    unfold ucFit
    simp only
    split
    · exact .inl rfl
    · split
      · exact .inr rfl
      · split <;> exact .inr rfl
  rcases hw with hw | hw
  · rw [hw]; exact ⟨h, fun _ => id⟩
  · rw [hw, usingFit_world]
    split
    · exact ⟨h, fun _ => id⟩
    · exact ⟨fitIfNeeded_only hfit (fitIfNeeded_only hfit h _) _, fun r hr => fitIfNeeded_keeps hfit (fitIfNeeded_only hfit h _) _ _ (fitIfNeeded_keeps hfit h _ _ hr)⟩

theorem ucFit_agree [LinearOrder α] (hfit : ∀ s X y, ops.notFitted (ops.fit s X y) = false) {w' : World σ D α} (h : OnlyTrained ops X y w0 w) (h' : OnlyTrained ops X y w0 w') (enc : Bool → α)
    (o : UcObj α k) (s : UcState o) (pt : Option (Preds α k)) : (ucFit ops enc w o s X y pt).2 = (ucFit ops enc w' o s X y pt).2 := by
  unfold ucFit
  simp only
  split
  · rfl
  · rw [usingFit_agree hfit h h']
    split
    · rfl
    · split <;> rfl

/-- After a `fit` that taught the object something, its estimators are trained. -/
theorem ucFit_settles [LinearOrder α] (hfit : ∀ s X y, ops.notFitted (ops.fit s X y) = false) (h : OnlyTrained ops X y w0 w) (enc : Bool → α) (o : UcObj α k) (s : UcState o) (pt : Option (Preds α k))
    (hs : s.own.isSome → Settled ops X y w0 w o.estTest) (ho : (ucFit ops enc w o s X y pt).2.1.own.isSome) : Settled ops X y w0 (ucFit ops enc w o s X y pt).1 o.estTest := by
  by_cases hold : s.own.isSome
  · exact (ucFit_only hfit h enc o s pt).2 _ (hs hold)
  · have hnone : s.own = none := by simpa using hold
    have hcase : (usingFit ops enc w o.cfg s.base X y pt).2.2 = none ∧ (ucFit ops enc w o s X y pt).1 = (usingFit ops enc w o.cfg s.base X y pt).1 := by
      unfold ucFit at ho ⊢
      simp only [hnone] at ho ⊢
      cases hpre : o.cls.pre y with
      | some e => simp [hpre, hnone] at ho
      | none =>
        simp only [hpre] at ho ⊢
        cases h2 : (usingFit ops enc w o.cfg s.base X y pt).2.2 with
        | some e => simp [h2] at ho
        | none =>
          refine ⟨rfl, ?_⟩
          simp only [h2] at ho ⊢
          split <;> rfl
    rw [hcase.2, usingFit_world]
    split
    · rename_i hc
      exfalso
      have := hcase.1
      unfold usingFit at this
      simp [hc] at this
    · exact fitIfNeeded_settles hfit (fitIfNeeded_only hfit h _) o.cfg.estTest

/-- The programs considered: every `fit` gets the same training set. -/
def SameTraining (X : List D) (y : List α) (cs : List (UcCall D α k)) : Prop := ∀ c ∈ cs, ∀ i X' y' pt, c = .fit i X' y' pt → X' = X ∧ y' = y

theorem trace_related [LinearOrder α] (hfit : ∀ s X y, ops.notFitted (ops.fit s X y) = false) (enc : Bool → α) (objs : ℕ → UcObj α k) (i : ℕ) (cs : List (UcCall D α k)) (hcs : SameTraining X y cs)
    (w w' : World σ D α) (st st' : (j : ℕ) → UcState (objs j)) (h : Related ops X y objs w0 w w' i (st i) (st' i)) :
    (ucTrace ops enc objs w st cs).filter (fun r => r.1 = i) = ucTrace ops enc objs w' st' (cs.filter fun c => c.target = i) := by
  induction cs generalizing w w' st st' with
  | nil => rfl
  | cons c cs ih =>
    have hrest : SameTraining X y cs := fun c' hc' => hcs c' (List.mem_cons_of_mem _ hc')
    obtain ⟨h1, h2, h3, h4⟩ := h
    cases c with
    | fit j X' y' pt =>
      obtain ⟨rfl, rfl⟩ := hcs _ List.mem_cons_self j X' y' pt rfl
      by_cases hj : j = i
      · subst hj
        simp only [ucTrace, ucStep, UcCall.target, List.filter_cons, decide_true, if_true]
        have hag := ucFit_agree hfit h1 h2 enc (objs j) (st j) pt
        rw [← h3, ← hag]
        congr 1
        apply ih hrest
        refine ⟨(ucFit_only hfit h1 enc (objs j) (st j) pt).1, (ucFit_only hfit h2 enc (objs j) (st j) pt).1, by simp, ?_⟩
        intro ho
        rw [Function.update_self] at ho
        refine ⟨ucFit_settles hfit h1 enc (objs j) (st j) pt (fun x => (h4 x).1) ho, ucFit_settles hfit h2 enc (objs j) (st j) pt (fun x => (h4 x).2) ?_⟩
        rw [← hag]
        exact ho
      · simp only [ucTrace, ucStep, UcCall.target, List.filter_cons, hj, decide_false, Bool.false_eq_true, if_false]
        apply ih hrest
        have hu : Function.update st j (ucFit ops enc w (objs j) (st j) X' y' pt).2.1 i = st i := Function.update_of_ne (Ne.symm hj) _ _
        have ho := ucFit_only hfit h1 enc (objs j) (st j) pt
        refine ⟨ho.1, h2, by rw [hu, h3], ?_⟩
        rw [hu]
        exact fun x => ⟨ho.2 _ (h4 x).1, (h4 x).2⟩
    | predict j Xt pt =>
      by_cases hj : j = i
      · subst hj
        simp only [ucTrace, ucStep, UcCall.target, List.filter_cons, decide_true, if_true]
        have hag : ucPredict ops enc w (objs j) (st j) Xt pt = ucPredict ops enc w' (objs j) (st' j) Xt pt := by
          rw [← h3]
          unfold ucPredict
          cases hm : (st j).own with
          | none => rfl
          | some m =>
            obtain ⟨a, b⟩ := h4 (by rw [hm]; rfl)
            simp only
            rw [usingPredict_agree enc (objs j).cfg a b]
        rw [← hag]
        congr 1
        apply ih hrest
        refine ⟨h1, h2, by simp, ?_⟩
        intro ho
        rw [Function.update_self] at ho
        apply h4
        unfold ucPredict at ho
        cases hm : (st j).own with
        | none => rw [hm] at ho; simp [hm] at ho
        | some m => rfl
      · simp only [ucTrace, ucStep, UcCall.target, List.filter_cons, hj, decide_false, Bool.false_eq_true, if_false]
        apply ih hrest
        have hu : Function.update st j (ucPredict ops enc w (objs j) (st j) Xt pt).1 i = st i := Function.update_of_ne (Ne.symm hj) _ _
        refine ⟨h1, h2, by rw [hu, h3], ?_⟩
        rw [hu]
        exact h4

/-- **C114**: a program makes any calls on any new objects, which may share estimators, all of them fitted on the same training set. What the calls on an object give back is what they give back when the program makes only these
calls. The hypothesis is the estimators' contract: after `fit`, `predict` does not raise NotFittedError. -/
theorem C114_no_interference [LinearOrder α] (ops : EstOps σ D α k) (hfit : ∀ s X y, ops.notFitted (ops.fit s X y) = false) (enc : Bool → α) (objs : ℕ → UcObj α k) (w : World σ D α) (X : List D) (y : List α)
    (cs : List (UcCall D α k)) (hcs : SameTraining X y cs) (i : ℕ) :
    (ucTrace ops enc objs w (fun j => ucNew (objs j)) cs).filter (fun r => r.1 = i) = ucTrace ops enc objs w (fun j => ucNew (objs j)) (cs.filter fun c => c.target = i) :=
  trace_related hfit enc objs i cs hcs w w _ _ ⟨fun _ => .inl rfl, fun _ => .inl rfl, rfl, by simp [ucNew]⟩

end

/-! ## A concrete program -/

/-- A classifier that learns the first label of its training set and always predicts it; it is not fitted when it has learned nothing. -/
def firstLabel : EstOps (Option ℕ) Unit ℕ 2 where
  notFitted s := s.isNone
  fit _ _ y := some (y.headD 0)
  predict s X := X.map fun _ => s.getD 0
  predictProba s X := X.map fun _ => if s.getD 0 = 0 then ![1, 0] else ![0, 1]

/-- Three objects that share the estimator number 0: `CC`, `PCC` and another `CC`. -/
noncomputable def sharing (j : ℕ) : UcObj ℕ 2 := if j = 1 then ⟨pccClass, some 0, some 0⟩ else ⟨ccClass, some 0, some 0⟩

/-- Non-vacuity of C114: calls on three objects, interleaved, with one estimator that nobody has fitted. -/
example (i : ℕ) : let cs : List (UcCall Unit ℕ 2) := [.fit 1 [(), ()] [0, 1] none, .predict 1 [()] none, .fit 0 [(), ()] [0, 1] none, .fit 2 [(), ()] [0, 1] none, .predict 0 [(), ()] none, .predict 2 [()] none, .predict 1 [()] none]
    (ucTrace firstLabel (fun b => if b then 1 else 0) sharing ⟨fun _ => none, []⟩ (fun j => ucNew (sharing j)) cs).filter (fun r => r.1 = i)
      = ucTrace firstLabel (fun b => if b then 1 else 0) sharing ⟨fun _ => none, []⟩ (fun j => ucNew (sharing j)) (cs.filter fun c => c.target = i) := by
  refine C114_no_interference firstLabel (fun _ _ _ => rfl) _ sharing _ [(), ()] [0, 1] _ ?_ i
  intro c hc j X' y' pt he
  subst he
  simp only [List.mem_cons, UcCall.fit.injEq, List.not_mem_nil, or_false, reduceCtorEq, false_or] at hc
  rcases hc with ⟨-, h1, h2, -⟩ | ⟨-, h1, h2, -⟩ | ⟨-, h1, h2, -⟩ <;> exact ⟨h1, h2⟩

/-- The answer of a `CC` on an unfitted estimator, after another object that shares it was fitted on `y'`, or alone (`none`). -/
noncomputable def ccAfter (y' : Option (List ℕ)) (y : List ℕ) : List (ℕ × UcResult) :=
  (ucTrace firstLabel (fun b => if b then 1 else 0) sharing ⟨fun _ => none, []⟩ (fun j => ucNew (sharing j))
    ((match y' with | none => [] | some y' => [.fit 2 [(), ()] y' none]) ++ [.fit 0 [(), ()] y none, .predict 0 [()] none])).filter fun r => r.1 = 0

theorem ccAfter_eq (y' : Option (List ℕ)) (y : List ℕ) : ccAfter y' y = [(0, .fit none), (0, .predict (.ok (some (vecList (classFreqs (npUnique y) [(y'.getD y).headD 0])))))] := by
  cases y' with
  | none => rfl
  | some y' => rfl

/-- **C114**, why all the training sets must be the same: an object fitted first on other data decides what an object that shares its estimator answers. -/
theorem C114_other_training : ccAfter (some [1, 0]) [0, 1] ≠ ccAfter none [0, 1] := by
  rw [ccAfter_eq, ccAfter_eq]
  have hl : npUnique ([0, 1] : List ℕ) = [0, 1] := labelsOf_eq _ _ (by decide) (by decide)
  rw [hl]
  intro h
  simp [vecList, classFreqs, Fl.fin_div _ (one_ne_zero : (1:ℝ) ≠ 0)] at h

end Verif.Props
