import Verif.Model.Interrupt
import Verif.Props.NoMemory
import Verif.Props.ThreadsBags
import Verif.Props.ThreadsFit

/-!
# C169: an interrupted call does not spoil later ones

A call may be interrupted after any number `n` of its operations.
-/

namespace Verif.Props

open Verif.Model Verif.Spec Verif.Proof

section
variable {St R : Type}

/-- All the stores of a call have the property. -/
def Always (P : St → Prop) : St → Code St R → Prop
  | s, .ret _ => P s
  | s, .get k => P s ∧ Always P s (k s)
  | s, .put f k => P s ∧ Always P (f s) k

theorem Always.start {P : St → Prop} {s : St} {c : Code St R} (h : Always P s c) : P s := by
  cases c with
  | ret r => exact h
  | get k => exact h.1
  | put f k => exact h.1

theorem after_always {P : St → Prop} (n : ℕ) : ∀ (s : St) (c : Code St R), Always P s c → P (c.after n s) := by
  induction n with
  | zero => exact fun s c h => h.start
  | succ n ih =>
    intro s c h
    refine ih _ _ ?_
    cases c with
    | ret r => exact h
    | get k => exact h.2
    | put f k => exact h.2

theorem after_within {n m : ℕ} (hnm : n ≤ m) (s : St) (c : Code St R) (h : Within n c) : c.after m s = (c.run s).1 := by
  induction m generalizing n s c with
  | zero =>
    obtain rfl : n = 0 := by omega
    cases c with
    | ret r => rfl
    | get k => exact h.elim
    | put f k => exact h.elim
  | succ m ih =>
    cases c with
    | ret r => exact ih (n := 0) (by omega) s _ trivial
    | get k =>
      cases n with
      | zero => exact h.elim
      | succ n => exact ih (by omega) s (k s) (h s)
    | put f k =>
      cases n with
      | zero => exact h.elim
      | succ n => exact ih (by omega) (f s) k h

theorem run_step (s : St) (c : Code St R) : (c.step s).2.run (c.step s).1 = c.run s := by
  cases c <;> rfl

theorem alone_run (t n : ℕ) : ∀ (s : St) (T : ℕ → Code St R), ((runThreads (List.replicate n t) s T).2 t).run (runThreads (List.replicate n t) s T).1 = (T t).run s := by
  induction n with
  | zero => exact fun s T => rfl
  | succ n ih =>
    intro s T
    rw [List.replicate_succ, runThreads, ih, Function.update_self, run_step]

theorem GoesOn.run {s s' : St} {c : Code St R} {r : R} (h : GoesOn s c s' (.ret r)) : c.run s = (s', r) := by
  obtain ⟨n, hn⟩ := h
  have := alone_run 0 n s fun _ => c
  rw [hn (fun _ => c) 0 rfl] at this
  dsimp only at this
  rw [Function.update_self] at this
  exact this.symm

end

section
variable {σ D α : Type} {k : ℕ} {objs : ℕ → UcObj α k}

/-- **C169** (`predict`): whenever a call of `predict` is interrupted, the attributes that its object has from `fit` and from earlier predictions are as before the call or as after the complete one, and nothing else has changed. -/
theorem C169_predict (ops : EstOps σ D α k) (enc : Bool → α) (i : ℕ) (X : List D) (pt : Option (Preds α k)) (s : Store σ objs) (n : ℕ) :
    ((((ucCode ops enc i X pt).after n s).quant i).state = (s.quant i).state ∨ (((ucCode ops enc i X pt).after n s).quant i).state = (ucPredict ops enc s.world (objs i) (s.quant i).state X pt).1)
      ∧ (∀ e, (ucCode ops enc i X pt).after n s (.est e) = s (.est e)) ∧ ∀ j, j ≠ i → ((ucCode ops enc i X pt).after n s).quant j = s.quant j := by
  refine after_always (P := fun s' : Store σ objs => ((s'.quant i).state = (s.quant i).state ∨ (s'.quant i).state = (ucPredict ops enc s.world (objs i) (s.quant i).state X pt).1)
      ∧ (∀ e, s' (.est e) = s (.est e)) ∧ ∀ j, j ≠ i → s'.quant j = s.quant j) n s _ ?_
  have h0 : ((s.quant i).state = (s.quant i).state ∨ (s.quant i).state = (ucPredict ops enc s.world (objs i) (s.quant i).state X pt).1) ∧ (∀ e, s (.est e) = s (.est e)) ∧ ∀ j, j ≠ i → s.quant j = s.quant j :=
    ⟨.inl rfl, fun _ => rfl, fun _ _ => rfl⟩
  refine ⟨h0, ?_⟩
  dsimp only
  cases hown : (s.quant i).state.own with
  | none => exact h0
  | some m =>
    dsimp only
    cases hp : usingPredict ops enc s.world (objs i).cfg ((s.quant i).state.base.classes.getD []) X pt with
    | error e => exact h0
    | ok p =>
      refine ⟨h0, ?_⟩
      set s1 : Store σ objs := Store.setPreds i p s with hs1
      have q1 : s1.quant i = { s.quant i with predsTest := some p } := by rw [hs1, Store.setPreds, Store.quant_setQuant]
      have e1 : ∀ e, s1 (.est e) = s (.est e) := fun e => Store.est_setQuant s i _ e
      have o1 : ∀ j, j ≠ i → s1.quant j = s.quant j := fun j hj => Store.quant_setQuant_ne s _ hj
      have h1 : ((s1.quant i).state = (s.quant i).state ∨ (s1.quant i).state = (ucPredict ops enc s.world (objs i) (s.quant i).state X pt).1) ∧ (∀ e, s1 (.est e) = s (.est e)) ∧ ∀ j, j ≠ i → s1.quant j = s.quant j :=
        ⟨.inl (by rw [q1]), e1, o1⟩
      refine ⟨h1, ?_⟩
      dsimp only
      rw [q1]
      dsimp only
      rw [hown]
      refine ⟨h1, .inr ?_, fun e => (Store.est_setQuant s1 i _ e).trans (e1 e), fun j hj => (Store.quant_setQuant_ne s1 _ hj).trans (o1 j hj)⟩
      rw [Store.quant_setQuant, q1]
      unfold ucPredict
      rw [hown]
      dsimp only
      rw [hp]

variable [LinearOrder α]

/-- What every operation of `fit` keeps: an object of a class that makes no training predictions gets none, estimators are only trained, and other objects do not change. -/
structure FitKeeps (ops : EstOps σ D α k) (i : ℕ) (X : List D) (y : List α) (s s' : Store σ objs) : Prop where
  base : (objs i).cls.needsTrain = false → (s'.quant i).state.base.predsTrain = (s.quant i).state.base.predsTrain ∧ (s'.quant i).state.base.yExt = (s.quant i).state.base.yExt
  est : OnlyTrained ops X y s.world s'.world
  other : ∀ j, j ≠ i → s'.quant j = s.quant j

omit [LinearOrder α] in
theorem fitKeeps_setQuant {ops : EstOps σ D α k} {i : ℕ} {X : List D} {y : List α} {s s' : Store σ objs} (h : FitKeeps ops i X y s s') (c : UcCell (objs i))
    (hc : (objs i).cls.needsTrain = false → c.state.base.predsTrain = (s'.quant i).state.base.predsTrain ∧ c.state.base.yExt = (s'.quant i).state.base.yExt) : FitKeeps ops i X y s (s'.setQuant i c) where
  base hn := by
    rw [Store.quant_setQuant]
    exact ⟨(hc hn).1.trans (h.base hn).1, (hc hn).2.trans (h.base hn).2⟩
  est e := by
    have : ((s'.setQuant i c).world : World σ D α).est e = (s'.world : World σ D α).est e := Store.est_setQuant s' i c e
    rw [this]
    exact h.est e
  other j hj := (Store.quant_setQuant_ne s' c hj).trans (h.other j hj)

omit [LinearOrder α] in
theorem estCode_always (ops : EstOps σ D α k) (hfit : ∀ s X y, ops.notFitted (ops.fit s X y) = false) (i : ℕ) (X : List D) (y : List α) (s : Store σ objs) (r : Option ℕ) (rest : Code (Store σ objs) R)
    (hrest : ∀ s', FitKeeps ops i X y s s' → Always (FitKeeps ops i X y s) s' rest) (s' : Store σ objs) (h : FitKeeps ops i X y s s') : Always (FitKeeps ops i X y s) s' (estCode ops r X y rest) := by
  unfold estCode
  cases r with
  | none => exact hrest s' h
  | some e =>
    refine ⟨h, ?_⟩
    dsimp only
    split_ifs with hn
    · refine ⟨h, hrest _ ⟨fun hb => ?_, fun e' => ?_, fun j hj => (Store.quant_setEst s' e _ j).trans (h.other j hj)⟩⟩
      · rw [Store.quant_setEst]
        exact h.base hb
      · by_cases he : e' = e
        · subst he
          have hs' : ops.notFitted ((s'.world : World σ D α).est e') = true := hn
          have h1 : (s'.world : World σ D α).est e' = (s.world : World σ D α).est e' := by
            rcases h.est e' with h1 | h1
            · exact h1
            · rw [h1, notFitted_settled hfit] at hs'
              cases hs'
          refine .inr ((Function.update_self _ _ _).trans ?_)
          have h2 : s' (.est e') = (s.world : World σ D α).est e' := h1
          rw [h2]
          rw [h1] at hs'
          exact (if_pos hs').symm
        · have h1 : (Store.world (Function.update s' (.est e) (ops.fit (s' (.est e)) X y)) : World σ D α).est e' = (s'.world : World σ D α).est e' := Function.update_of_ne (by simpa using he) _ _
          rw [h1]
          exact h.est e'
    · exact hrest s' h

omit [LinearOrder α] in
theorem learnCode_always (ops : EstOps σ D α k) (i : ℕ) (X : List D) (y : List α) (s s' : Store σ objs) (h : FitKeeps ops i X y s s') : Always (FitKeeps ops i X y s) s' (learnCode i y .ret) := by
  refine ⟨h, ?_⟩
  dsimp only
  split
  · exact h
  · exact ⟨h, fitKeeps_setQuant h _ fun _ => ⟨rfl, rfl⟩⟩

/-- Every store of a call of `fit`. -/
theorem ucFitCode_always (ops : EstOps σ D α k) (hfit : ∀ s X y, ops.notFitted (ops.fit s X y) = false) (enc : Bool → α) (i : ℕ) (X : List D) (y : List α) (pt : Option (Preds α k)) (s : Store σ objs) :
    Always (FitKeeps ops i X y s) s (ucFitCode ops enc i X y pt .ret) := by
  have h0 : FitKeeps ops i X y s s := ⟨fun _ => ⟨rfl, rfl⟩, fun _ => .inl rfl, fun _ _ => rfl⟩
  unfold ucFitCode
  split
  · exact h0
  · refine ⟨h0, ?_⟩
    have h1 : FitKeeps ops i X y s (Store.setBase i (fun b => { b with classes := some (npUnique y) }) s) := fitKeeps_setQuant h0 _ fun _ => ⟨rfl, rfl⟩
    split
    · exact h1
    · refine estCode_always ops hfit i X y s _ _ (fun s2 h2 => estCode_always ops hfit i X y s _ _ (fun s3 h3 => ?_) s2 h2) _ h1
      unfold trainCode
      split_ifs with hn
      · refine ⟨h3, ?_⟩
        dsimp only
        split
        · exact h3
        · rename_i p _
          have h4 : FitKeeps ops i X y s (Store.setBase i (fun b => { b with predsTrain := some p }) s3) := fitKeeps_setQuant h3 _ fun hn' => by simp [hn] at hn'
          refine ⟨h3, ?_⟩
          split
          · exact h4
          · rename_i ye _
            exact ⟨h4, learnCode_always ops i X y s _ (fitKeeps_setQuant h4 _ fun hn' => by simp [hn] at hn')⟩
      · exact learnCode_always ops i X y s s3 h3

/-- A call that is not interrupted, as a call stopped after enough operations: it does what `ucFit` says. -/
theorem C169_complete (ops : EstOps σ D α k) (enc : Bool → α) (i : ℕ) (X : List D) (y : List α) (pt : Option (Preds α k)) (s : Store σ objs) (n : ℕ) (hn : 10 ≤ n) :
    (((ucFitCode ops enc i X y pt .ret).after n s).quant i).state = (ucFit ops enc s.world (objs i) (s.quant i).state X y pt).2.1 := by
  obtain ⟨s', hgo, hq, -, -⟩ := ucFitCode_goesOn ops enc i X y pt s.world s (fun _ => rfl) .ret
  rw [after_within hn s _ (ucFitCode_within (n := 0) ops enc i X y pt .ret fun _ => trivial), hgo.run]
  exact hq

/-! ## Later calls -/

/-- The states in which the object `i` of a program can be after some calls of `fit` and `predict`, each of them interrupted after any number of operations or complete; the estimators and the other objects may be used in between. When
an interruption finds a call of `fit` or `predict` while it assigns the attributes of the class itself, these can be any. -/
inductive UsedStop (ops : EstOps σ D α k) (enc : Bool → α) (objs : ℕ → UcObj α k) (i : ℕ) : UcState (objs i) → Prop
  | new : UsedStop ops enc objs i (ucNew (objs i))
  | fit (s : Store σ objs) (h : UsedStop ops enc objs i (s.quant i).state) (n : ℕ) (X : List D) (y : List α) (pt : Option (Preds α k)) : UsedStop ops enc objs i (((ucFitCode ops enc i X y pt .ret).after n s).quant i).state
  | predict (s : Store σ objs) (h : UsedStop ops enc objs i (s.quant i).state) (n : ℕ) (X : List D) (pt : Option (Preds α k)) : UsedStop ops enc objs i (((ucCode ops enc i X pt).after n s).quant i).state
  | inside (b : QState α k) (m m' : Option (objs i).cls.S) (h : UsedStop ops enc objs i ⟨b, m⟩) : UsedStop ops enc objs i ⟨b, m'⟩

/-- The states in which the object `i` can be after some calls of `predict`, interrupted or complete, from the state `s1`. -/
inductive AfterStops (ops : EstOps σ D α k) (enc : Bool → α) (objs : ℕ → UcObj α k) (i : ℕ) (s1 : UcState (objs i)) : UcState (objs i) → Prop
  | none : AfterStops ops enc objs i s1 s1
  | predict (s : Store σ objs) (h : AfterStops ops enc objs i s1 (s.quant i).state) (n : ℕ) (X : List D) (pt : Option (Preds α k)) : AfterStops ops enc objs i s1 (((ucCode ops enc i X pt).after n s).quant i).state

/-- The property for a class. After any calls, interrupted or not, if a call of `fit` returns, then the same call on a new object returns too and does the same to the estimators, and after any further calls of `predict`, interrupted or not,
both answer the same to every bag. And if a call of `fit` is interrupted and then repeated, it raises what it would have raised, or the object answers what it would have answered, without the interruption. -/
def SurvivesStops (cls : UcClass α k) : Prop :=
  ∀ (σ D : Type) (ops : EstOps σ D α k), (∀ s X y, ops.notFitted (ops.fit s X y) = false) → ∀ (enc : Bool → α) (objs : ℕ → UcObj α k) (i : ℕ), (objs i).cls = cls →
    ∀ s : Store σ objs, UsedStop ops enc objs i (s.quant i).state → ∀ (X : List D) (y : List α) (pt : Option (Preds α k)),
      ((ucFit ops enc s.world (objs i) (s.quant i).state X y pt).2.2 = none →
        (ucFit ops enc s.world (objs i) (ucNew (objs i)) X y pt).2.2 = none
        ∧ (ucFit ops enc s.world (objs i) (s.quant i).state X y pt).1 = (ucFit ops enc s.world (objs i) (ucNew (objs i)) X y pt).1
        ∧ ∀ s2, AfterStops ops enc objs i (ucFit ops enc s.world (objs i) (s.quant i).state X y pt).2.1 s2 → ∀ (w' : World σ D α) (Xt : List D) (ptt : Option (Preds α k)),
          (ucPredict ops enc w' (objs i) s2 Xt ptt).2 = (ucPredict ops enc w' (objs i) (ucFit ops enc s.world (objs i) (ucNew (objs i)) X y pt).2.1 Xt ptt).2)
      ∧ ∀ (n : ℕ) (m : Option (objs i).cls.S) (Xt : List D) (ptt : Option (Preds α k)),
        let s' := (ucFitCode ops enc i X y pt .ret).after n s
        let r := ucFit ops enc s'.world (objs i) ⟨(s'.quant i).state.base, m⟩ X y pt
        (match r.2.2 with
          | some e => .error e
          | none => (ucPredict ops enc r.1 (objs i) r.2.1 Xt ptt).2) = ucRun ops enc s.world (objs i) X y pt Xt ptt

theorem usedStop_noTrain (ops : EstOps σ D α k) (hfit : ∀ s X y, ops.notFitted (ops.fit s X y) = false) (enc : Bool → α) (i : ℕ) (ho : (objs i).cls.needsTrain = false) (st : UcState (objs i)) (h : UsedStop ops enc objs i st) :
    st.base.predsTrain = none ∧ st.base.yExt = none := by
  induction h with
  | new => exact ⟨rfl, rfl⟩
  | fit s _ n X y pt ih =>
    have := (after_always n s _ (ucFitCode_always ops hfit enc i X y pt s)).base ho
    exact ⟨this.1.trans ih.1, this.2.trans ih.2⟩
  | predict s _ n X pt ih =>
    rcases (C169_predict ops enc i X pt s n).1 with h | h
    · rw [h]; exact ih
    · rw [h]
      unfold ucPredict
      split
      · exact ih
      · split <;> exact ih
  | inside b m m' _ ih => exact ih

omit [LinearOrder α] in
theorem afterStops_afterPredicts (ops : EstOps σ D α k) (enc : Bool → α) (i : ℕ) (s1 s2 : UcState (objs i)) (h : AfterStops ops enc objs i s1 s2) : AfterPredicts ops enc (objs i) s1 s2 := by
  induction h with
  | none => exact .none
  | predict s _ n X pt ih =>
    rcases (C169_predict ops enc i X pt s n).1 with h | h
    · rw [h]; exact ih
    · rw [h]; exact .predict ih _ _ _

/-- Whether `fit` raises does not depend on the attributes that the object has. -/
theorem ucFit_error_forgets (ops : EstOps σ D α k) (enc : Bool → α) (o : UcObj α k) (hcls : Forgetful o.cls) (s : UcState o) (hbase : o.cls.needsTrain = false → s.base.predsTrain = none ∧ s.base.yExt = none) (w : World σ D α) (X : List D)
    (y : List α) (pt : Option (Preds α k)) : (ucFit ops enc w o s X y pt).2.2 = (ucFit ops enc w o (ucNew o) X y pt).2.2 := by
  have hu : ∀ b : QState α k, (usingFit ops enc w o.cfg b X y pt).2.2 = (usingFit ops enc w o.cfg ⟨none, none, none⟩ X y pt).2.2 := by
    intro b
    unfold usingFit
    dsimp only
    split_ifs
    · rfl
    · split
      · rfl
      · split <;> rfl
    · rfl
  unfold ucFit
  dsimp only
  split
  · rfl
  · have hb : (ucNew o).base = ⟨none, none, none⟩ := rfl
    cases hus : (usingFit ops enc w o.cfg s.base X y pt).2.2 with
    | some e =>
      rw [hb, ← hu s.base, hus]
    | none =>
      rw [hb, ← (usingFit_forgets ops enc w o.cfg s.base X y pt hbase hus).1, hus]
      dsimp only
      have hl := hcls.learn s.own y (usingFit ops enc w o.cfg s.base X y pt).2.1
      have hl' : o.cls.learn (ucNew o).own y (usingFit ops enc w o.cfg s.base X y pt).2.1 = o.cls.learn none y (usingFit ops enc w o.cfg s.base X y pt).2.1 := rfl
      rw [hl, hl']
      cases o.cls.learn none y (usingFit ops enc w o.cfg s.base X y pt).2.1 <;> rfl

theorem survivesStops_of (cls : UcClass α k) (hcls : Forgetful cls) : SurvivesStops cls := by
  intro σ D ops hfit enc objs i hi s hs X y pt
  have hf : Forgetful (objs i).cls := hi ▸ hcls
  refine ⟨fun hnone => ?_, fun n m Xt ptt => ?_⟩
  · obtain ⟨h1, h2, h3⟩ := onlyLastFit_aux ops enc (objs i) hf _ (fun hn => usedStop_noTrain ops hfit enc i hn _ hs) s.world X y pt hnone
    exact ⟨h1, h2, fun s2 h w' Xt ptt => (h3 s2 (afterStops_afterPredicts ops enc i _ _ h) w' Xt ptt).1⟩
  · intro s' r
    have hkeep : FitKeeps ops i X y s s' := after_always n s _ (ucFitCode_always ops hfit enc i X y pt s)
    have hbase : (objs i).cls.needsTrain = false → (⟨(s'.quant i).state.base, m⟩ : UcState (objs i)).base.predsTrain = none ∧ (⟨(s'.quant i).state.base, m⟩ : UcState (objs i)).base.yExt = none := by
      intro hn
      have h1 := hkeep.base hn
      have h2 := usedStop_noTrain ops hfit enc i hn _ hs
      exact ⟨h1.1.trans h2.1, h1.2.trans h2.2⟩
    have hstart : OnlyTrained ops X y s.world (s.world : World σ D α) := fun _ => .inl rfl
    have hag : (ucFit ops enc s'.world (objs i) (ucNew (objs i)) X y pt).2 = (ucFit ops enc s.world (objs i) (ucNew (objs i)) X y pt).2 := ucFit_agree hfit hkeep.est hstart enc (objs i) (ucNew (objs i)) pt
    have herr : r.2.2 = (ucFit ops enc s.world (objs i) (ucNew (objs i)) X y pt).2.2 := (ucFit_error_forgets ops enc (objs i) hf _ hbase s'.world X y pt).trans (congrArg Prod.snd hag)
    unfold ucRun
    dsimp only
    cases hr : r.2.2 with
    | some e =>
      rw [hr] at herr
      rw [← herr]
    | none =>
      rw [hr] at herr
      rw [← herr]
      dsimp only
      obtain ⟨h1, h2, h3⟩ := onlyLastFit_aux ops enc (objs i) hf _ hbase s'.world X y pt hr
      have h2' : r.1 = (ucFit ops enc s'.world (objs i) (ucNew (objs i)) X y pt).1 := h2
      rw [(h3 r.2.1 .none r.1 Xt ptt).1, h2']
      have hsome : ∀ w : World σ D α, (ucFit ops enc w (objs i) (ucNew (objs i)) X y pt).2.2 = none → (ucFit ops enc w (objs i) (ucNew (objs i)) X y pt).2.1.own.isSome := by
        intro w hn
        revert hn
        unfold ucFit
        dsimp only
        split
        · simp
        · split
          · simp
          · split
            · simp
            · simp
      have hs1 : Settled ops X y s.world (ucFit ops enc s'.world (objs i) (ucNew (objs i)) X y pt).1 (objs i).cfg.estTest := ucFit_settles hfit hkeep.est enc _ _ _ (by simp [ucNew]) (hsome _ h1)
      have hs2 : Settled ops X y s.world (ucFit ops enc s.world (objs i) (ucNew (objs i)) X y pt).1 (objs i).cfg.estTest := ucFit_settles hfit hstart enc _ _ _ (by simp [ucNew]) (hsome _ herr.symm)
      rw [hag]
      unfold ucPredict
      rw [usingPredict_agree enc (objs i).cfg hs1 hs2]

/-- **C169** for CC. -/
theorem C169_cc_partial : SurvivesStops (ccClass : UcClass α k) := survivesStops_of _ (forgetful_of_keep _ (fun _ _ _ => rfl) fun _ _ _ => rfl)

/-- **C169** for PCC. -/
theorem C169_pcc_partial : SurvivesStops (pccClass : UcClass α k) := survivesStops_of _ (forgetful_of_keep _ (fun _ _ _ => rfl) fun _ _ _ => rfl)

/-- **C169** for AC. -/
theorem C169_ac_partial (sol : Solvers) (dist : Dist) : SurvivesStops (acClass sol dist : UcClass α k) := survivesStops_of _ (forgetful_of_keep _ (fun _ _ _ => rfl) fun _ _ _ => rfl)

/-- **C169** for PAC. -/
theorem C169_pac_partial (sol : Solvers) (dist : Dist) : SurvivesStops (pacClass sol dist : UcClass α k) := survivesStops_of _ (forgetful_of_keep _ (fun _ _ _ => rfl) fun _ _ _ => rfl)

/-- **C169** for EM. -/
theorem C169_em_partial (eps : ℝ) (maxIter : ℕ) : SurvivesStops (emClass eps maxIter : UcClass α k) := survivesStops_of _ (forgetful_of_keep _ (fun _ _ _ => rfl) fun _ _ _ => rfl)

/-- **C169** for DeBias. -/
theorem C169_debias_partial : SurvivesStops (deBiasClass : UcClass α 2) := survivesStops_of _ (forgetful_of_keep _ (fun _ _ _ => rfl) fun _ _ _ => rfl)

/-- **C169** for EDy. -/
theorem C169_edy_partial {n : ℕ} (qp : QPSolver) (la : LinAlg n) (fuel : ℕ) (d : (Fin (n + 1) → ℝ) → (Fin (n + 1) → ℝ) → ℝ) : SurvivesStops (edyClass qp la fuel d : UcClass α (n + 1)) :=
  survivesStops_of _ (forgetful_of_keep _ (fun _ _ _ => rfl) fun _ _ _ => rfl)

/-- **C169** for CvMy. -/
theorem C169_cvmy_partial {n : ℕ} (qp : QPSolver) (la : LinAlg n) (fuel : ℕ) (d : (Fin (n + 1) → ℝ) → (Fin (n + 1) → ℝ) → ℝ) : SurvivesStops (cvmyClass qp la fuel d : UcClass α (n + 1)) :=
  survivesStops_of _ (forgetful_of_keep _ (fun _ _ _ => rfl) fun _ _ _ => rfl)

/-- **C169** for SORDy. -/
theorem C169_sordy_partial (k : ℕ) (sort : List (ℝ × ℤ) → List (ℝ × ℤ)) (tol : ℝ) : SurvivesStops (sordyClass k sort tol) := survivesStops_of _ (forgetful_of_keep _ (fun _ _ _ => rfl) fun _ _ _ => rfl)

/-- **C169** for DFy, HDy and MMy, with a solver whose solution does not depend on the starting point. -/
theorem C169_dfy_partial (ppf : ℝ → EReal) (sv : CvxSolver) (hsv : StartFree sv) (qp : QPSolver) (la : LinAlg k) (fuel : ℕ) (tol : ℝ) (cfg : DfCfg) (distance : DfDistance (nDescriptors k * cfg.nBins)) :
    SurvivesStops (dfyClass ppf sv qp la fuel tol cfg distance : UcClass α k) := survivesStops_of _ (forgetful_dfy ppf sv hsv qp la fuel tol cfg distance)

/-- **C169** for FriedmanME, with a solver whose solution does not depend on the starting point. -/
theorem C169_friedman_partial (sv : CvxSolver) (hsv : StartFree sv) (qp : QPSolver) (la : LinAlg k) (fuel : ℕ) (tol : ℝ) (distance : DfDistance k) : SurvivesStops (friedmanClass sv qp la fuel tol distance : UcClass α k) :=
  survivesStops_of _ (forgetful_friedman sv hsv qp la fuel tol distance)

/-- **C169** for ACOrdinal, with a solver whose solution does not depend on the starting point. -/
theorem C169_aco_partial (sv : CvxSolver) (hsv : StartFree sv) : SurvivesStops (acoClass sv : UcClass α k) := survivesStops_of _ (forgetful_aco sv hsv)

/-- **C169** for PDFOrdinaly, with a solver whose solution does not depend on the starting point. -/
theorem C169_pdfo_partial (sv : CvxSolver) (hsv : StartFree sv) (qp : QPSolver) (la : LinAlg k) (fuel nBins : ℕ) (method : OrdMethod) (dist : OrdDist) : SurvivesStops (pdfoClass sv qp la fuel nBins method dist : UcClass α k) :=
  survivesStops_of _ (forgetful_pdfo sv hsv qp la fuel nBins method dist)

/-- **C169** for QUANTy. -/
theorem C169_quanty_partial (k : ℕ) (sort : List (ℝ × α) → List (ℝ × α)) (n : ℕ) (dist : (Fin n → Fl) → (Fin n → Fl) → Fl) (tol : ℝ) (d : α) : SurvivesStops (quantyClass k sort n dist tol d) :=
  survivesStops_of _ (forgetful_quanty k sort n dist tol d)

/-! ## What an interrupted call does spoil -/

/-- **C169** (refuted for `predict` after an interrupted `fit`): a CC fitted to `y` (a complete call) whose next `fit`, to `y'`, is interrupted after its first operation answers about the classes of `y'`, and no longer about those of `y`. -/
theorem C169_half_fitted_refuted (ops : EstOps σ D α k) (enc : Bool → α) (s : Store σ fun _ : ℕ => (⟨ccClass, none, none⟩ : UcObj α k)) (X X' Xt : List D) (y y' l : List α) :
    let s1 := (ucFitCode ops enc 0 X y none .ret).after 10 s
    let s2 := (ucFitCode ops enc 0 X' y' none .ret).after 1 s1
    (ucPredict ops enc s1.world _ (s1.quant 0).state Xt (some (.crisp l))).2 = .ok (some ((labelsOf y).map fun c => Fl.fin (l.count c : ℝ) / Fl.fin (l.length : ℝ)))
      ∧ (ucPredict ops enc s2.world _ (s2.quant 0).state Xt (some (.crisp l))).2 = .ok (some ((labelsOf y').map fun c => Fl.fin (l.count c : ℝ) / Fl.fin (l.length : ℝ))) := by
  intro s1 s2
  have h1 : ∃ p e, (s1.quant 0).state = ⟨⟨some (npUnique y), p, e⟩, some ()⟩ := by
    have := C169_complete ops enc 0 X y none s 10 le_rfl
    refine ⟨(s.quant 0).state.base.predsTrain, (s.quant 0).state.base.yExt, this.trans ?_⟩
    simp [ucFit, usingFit, ccClass, UcObj.cfg]
  obtain ⟨p, e, h1⟩ := h1
  have h2 : (s2.quant 0).state = ⟨⟨some (npUnique y'), p, e⟩, some ()⟩ := by
    have : s2 = Store.setBase 0 (fun b => { b with classes := some (npUnique y') }) s1 := rfl
    rw [this, Store.setBase, Store.quant_setQuant, h1]
  have ans : ∀ (w : World σ D α) (c : List α), (ucPredict ops enc w (⟨ccClass, none, none⟩ : UcObj α k) ⟨⟨some c, p, e⟩, some ()⟩ Xt (some (.crisp l))).2 = .ok (some (c.map fun a => Fl.fin (l.count a : ℝ) / Fl.fin (l.length : ℝ))) := by
    intro w c
    have h : List.ofFn (classFreqs c l) = c.map fun a => Fl.fin (l.count a : ℝ) / Fl.fin (l.length : ℝ) := by
      unfold classFreqs
      apply List.ext_getElem <;> simp
    rw [← h]
    rfl
  rw [h1, h2, ans, ans, npUnique_eq, npUnique_eq]
  exact ⟨rfl, rfl⟩

/-- A CC whose first `fit` was interrupted after one operation, and whose next `fit`, to other labels, returns. -/
example (ops : EstOps σ D α k) (hfit : ∀ s X y, ops.notFitted (ops.fit s X y) = false) (enc : Bool → α) (s : Store σ fun _ : ℕ => (⟨ccClass, none, none⟩ : UcObj α k)) (hs : (s.quant 0).state = ucNew _) (X X' Xt : List D) (y y' l : List α) :
    let s1 := (ucFitCode ops enc 0 X y none .ret).after 1 s
    (ucPredict ops enc s1.world _ (ucFit ops enc s1.world _ (s1.quant 0).state X' y' none).2.1 Xt (some (.crisp l))).2
      = (ucPredict ops enc s1.world _ (ucFit ops enc s1.world (⟨ccClass, none, none⟩ : UcObj α k) (ucNew _) X' y' none).2.1 Xt (some (.crisp l))).2 := by
  intro s1
  refine ((C169_cc_partial σ D ops hfit enc _ 0 rfl s1 (.fit s (by rw [hs]; exact .new) 1 X y none) X' y' none).1 ?_).2.2 _ .none _ Xt _
  simp [ucFit, usingFit, ccClass, UcObj.cfg]

end

section
variable {G α : Type} [LinearOrder α]

/-- **C169** (refuted for `generate_bags`): whatever the data, when the first call of `generate_bags` is interrupted after its ninth operation, every later call returns, without any exception, the arrays of zeros that the first one has not filled. -/
theorem C169_bags_refuted (rng : Rng G) (g : G) (nBags bs : ℕ) (m : ℤ) (d d' : BagData α) (hd : d.lenX = some d.y.length) (hy : d.y ≠ []) (sim sim' : ℕ → List ℝ) :
    ((covCode rng 0 d' sim').run ((covCode rng 0 d sim).after 9 (newGens g nBags bs m))).2 = .ok ⟨List.replicate nBags (List.replicate (labelsOf d.y).length (Fl.fin 0)), List.replicate nBags (List.replicate bs 0)⟩
      ∧ ((covCode rng 0 d' sim').run ((covCode rng 0 d sim).after 9 (newGens g nBags bs m))).1 = (covCode rng 0 d sim).after 9 (newGens g nBags bs m) := by
  simp [AtomicCode.after, AtomicCode.run, AtomicCode.step, covCode, AtomicCode.get, AtomicCode.put, newGens, checkedCode, hd, hy, fillCode, BagStore.setGen, BagStore.setRng, returnCode, npUnique_eq]

end

section
variable {M D α : Type} [LinearOrder α]

/-- **C169** (refuted for a `FrankAndHallClassifier` as the estimator): when its training by a `fit` that would have worked is interrupted after it assigned `classes_`, every later `fit` of a quantifier with that estimator raises TypeError, the repeated one too,
and leaves the estimator as it is. -/
theorem C169_frank_hall_refuted (finite : List D → Bool) (b : FhRaising M D) (X X' : List D) (y y' : List α) (h : (estStep finite (fhEst finite b) (fhNew : FhObj M α) X y).2 = none) :
    (fhStepCode finite b X' y').run ((fhStepCode finite b X y).after 2 (fhNew : FhObj M α)) = ((fhStepCode finite b X y).after 2 fhNew, some .typeError) := by
  rw [← fhStep_alone] at h
  have hrun : (fhStepCode finite b X y).run (fhNew : FhObj M α) = (if acceptsXy finite X y = false then Code.ret (some Err.valueError) else fhFitCode finite b X y).run fhNew := rfl
  have hstart : (fhStepCode finite b X y).after 2 (fhNew : FhObj M α) = (if acceptsXy finite X y = false then Code.ret (some Err.valueError) else fhFitCode finite b X y).after 1 fhNew := rfl
  rw [hrun] at h
  by_cases hacc : acceptsXy finite X y = false
  · rw [if_pos hacc] at h
    exact absurd h (by simp [Code.run])
  · rw [if_neg hacc] at h hstart
    by_cases hy : y = []
    · unfold fhFitCode at h
      rw [if_pos hy] at h
      exact absurd h (by simp [Code.run])
    · cases ht : fhTransform 0 1 (npUnique y) y with
      | error e =>
        unfold fhFitCode at h
        rw [if_neg hy, ht] at h
        exact absurd h (by simp [Code.run])
      | ok yBin =>
        have hs : (fhStepCode finite b X y).after 2 (fhNew : FhObj M α) = ⟨some (npUnique y), none⟩ := by
          rw [hstart]
          unfold fhFitCode
          rw [if_neg hy, ht]
          rfl
        rw [hs]
        rfl

/-- Three classes. -/
example : (fhStepCode nonzero picky [10, 20, 30, 40] [0, 1, 2, 2]).run ((fhStepCode nonzero picky [10, 20, 30, 40] [0, 1, 2, 2]).after 2 (fhNew : FhObj ℕ ℕ)) =
    ((fhStepCode nonzero picky [10, 20, 30, 40] [0, 1, 2, 2]).after 2 fhNew, some .typeError) :=
  C169_frank_hall_refuted nonzero picky [10, 20, 30, 40] [10, 20, 30, 40] [0, 1, 2, 2] [0, 1, 2, 2] picky_fit

end

end Verif.Props
