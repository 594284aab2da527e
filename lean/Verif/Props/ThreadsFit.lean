import Verif.Props.Threads
import Verif.Proof.AC
import Verif.Props.Lifecycle

/-!
# C167: fitting quantifiers at the same time, with shared estimators
-/

namespace Verif.Props

open Verif.Model Verif.Spec Verif.Proof

section
variable {σ D α : Type} {k : ℕ} {objs : ℕ → UcObj α k}

theorem learnCode_within {R : Type} {n : ℕ} (i : ℕ) (y : List α) (rest : Option Err → Code (Store σ objs) R) (h : ∀ e, Within n (rest e)) : Within (n + 2) (learnCode i y rest) := by
  intro s
  dsimp only
  split
  · exact (h _).mono (by omega)
  · exact h _

theorem estCode_within {R : Type} {n : ℕ} (ops : EstOps σ D α k) (r : Option ℕ) (X : List D) (y : List α) (rest : Code (Store σ objs) R) (h : Within n rest) : Within (n + 2) (estCode ops r X y rest) := by
  unfold estCode
  split
  · exact h.mono (by omega)
  · intro s
    dsimp only
    split
    · exact h
    · exact h.mono (by omega)

theorem ucFitCode_within {R : Type} {n : ℕ} [LinearOrder α] (ops : EstOps σ D α k) (enc : Bool → α) (i : ℕ) (X : List D) (y : List α) (pt : Option (Preds α k)) (rest : Option Err → Code (Store σ objs) R) (h : ∀ e, Within n (rest e)) :
    Within (n + 10) (ucFitCode ops enc i X y pt rest) := by
  unfold ucFitCode
  split
  · exact (h _).mono (by omega)
  · show Within (n + 9) _
    split
    · exact (h _).mono (by omega)
    · refine estCode_within ops _ X y _ (n := n + 7) (estCode_within ops _ X y _ (n := n + 5) ?_)
      unfold trainCode
      split
      · intro s
        dsimp only
        split
        · exact (h _).mono (by omega)
        · show Within (n + 3) _
          split
          · exact (h _).mono (by omega)
          · exact learnCode_within i y rest h
      · exact (learnCode_within i y rest h).mono (by omega)

/-- **C167** (the same training set): threads that fit new quantifiers of any of the classes, one each, to the same training set and then ask about a bag, at the same time and with shared estimators that may still be untrained, all get, whatever
the schedule, the answer they get without the other threads. Training an estimator is taken as one operation, and training it again with the same examples changes nothing. A thread has returned after fourteen turns. -/
theorem C167_same_data [LinearOrder α] (ops : EstOps σ D α k) (hfit : ∀ s X y, ops.notFitted (ops.fit s X y) = false) (X : List D) (y : List α) (hid : ∀ s, ops.fit (ops.fit s X y) X y = ops.fit s X y) (enc : Bool → α) (s : Store σ objs)
    (o : ℕ → ℕ) (ho : Function.Injective o) (hnew : ∀ t, (s.quant (o t)).state = ucNew (objs (o t))) (pt : ℕ → Option (Preds α k)) (Xt : ℕ → List D) (ptt : ℕ → Option (Preds α k)) (sch : List ℕ) (t : ℕ) (ht : 14 ≤ sch.count t) :
    (runThreads sch s fun t => ucRunCode ops enc (o t) X y (pt t) (Xt t) (ptt t)).2 t = .ret (ucRun ops enc s.world (objs (o t)) X y (pt t) (Xt t) (ptt t)) := by
  refine sure_returns (G := Guar (Trains ops X y s.world) o) (fun t => ucRun ops enc s.world (objs (o t)) X y (pt t) (Xt t) (ptt t)) sch s (fun t => ucRunCode ops enc (o t) X y (pt t) (Xt t) (ptt t))
    (fun t => ⟨Holds (Ready ops X y s.world ∅) (o t) (s.quant (o t)), holds_stable ho (ready_trains _) _, ⟨rfl, fun _ => .inl rfl, fun _ h => h.elim⟩, ?_⟩) t 14
    (ucFitCode_within (n := 4) ops enc _ _ _ _ _ fun e => by cases e with | some e => trivial | none => exact ucCode_within ops enc _ _ _) ht
  unfold ucRunCode
  refine ucFitCode_sure ho hfit hid enc _ _ _ _ ?_ ?_
  · intro P e he
    dsimp only
    rw [hnew t] at he
    have : ucRun ops enc s.world (objs (o t)) X y (pt t) (Xt t) (ptt t) = .error e := by
      unfold ucRun
      dsimp only
      rw [he]
    rw [this]
    exact .ret _ _
  · intro hn
    rw [hnew t] at hn ⊢
    dsimp only
    have : ucRun ops enc s.world (objs (o t)) X y (pt t) (Xt t) (ptt t)
        = (ucPredict ops enc (ucFit ops enc s.world (objs (o t)) (ucNew (objs (o t))) X y (pt t)).1 (objs (o t)) (ucFit ops enc s.world (objs (o t)) (ucNew (objs (o t))) X y (pt t)).2.1 (Xt t) (ptt t)).2 := by
      unfold ucRun
      dsimp only
      rw [hn]
    rw [this]
    have hsome : (ucFit ops enc s.world (objs (o t)) (ucNew (objs (o t))) X y (pt t)).2.1.own.isSome := by
      revert hn
      unfold ucFit
      dsimp only
      split
      · simp
      · split
        · simp
        · split
          · simp
          · simp
    have hset : Settled ops X y s.world (ucFit ops enc s.world (objs (o t)) (ucNew (objs (o t))) X y (pt t)).1 (objs (o t)).cfg.estTest :=
      ucFit_settles hfit (fun e => .inl rfl) enc _ _ _ (by simp [ucNew]) hsome
    exact ucCode_sure ops enc ho trains_keeps (ready_trains _) _ _ _ _ fun s1 h1 => usingPredict_agree enc (objs (o t)).cfg (fun e he => h1.2 e he) hset _ _ _

/-! ### What one thread does alone -/

/-- With the turns of one thread alone, its code goes on to `c'`. -/
def GoesOn {St R : Type} (s : St) (c : Code St R) (s' : St) (c' : Code St R) : Prop := ∃ n, ∀ (T : ℕ → Code St R) (t : ℕ), T t = c → runThreads (List.replicate n t) s T = (s', Function.update T t c')

theorem GoesOn.refl {St R : Type} (s : St) (c : Code St R) : GoesOn s c s c := ⟨0, fun T t h => by rw [← h, Function.update_eq_self]; rfl⟩

theorem GoesOn.get {St R : Type} {s s' : St} {k : St → Code St R} {c' : Code St R} (h : GoesOn s (k s) s' c') : GoesOn s (.get k) s' c' := by
  obtain ⟨n, hn⟩ := h
  refine ⟨n + 1, fun T t hT => ?_⟩
  rw [List.replicate_succ, runThreads_step (s' := s) (c := k s) (by rw [hT]; rfl), hn _ t (Function.update_self _ _ _), Function.update_idem]

theorem GoesOn.put {St R : Type} {s s' : St} {f : St → St} {k c' : Code St R} (h : GoesOn (f s) k s' c') : GoesOn s (.put f k) s' c' := by
  obtain ⟨n, hn⟩ := h
  refine ⟨n + 1, fun T t hT => ?_⟩
  rw [List.replicate_succ, runThreads_step (s' := f s) (c := k) (by rw [hT]; rfl), hn _ t (Function.update_self _ _ _), Function.update_idem]

theorem estCode_goesOn {R : Type} (ops : EstOps σ D α k) (r : Option ℕ) (X : List D) (y : List α) (w : World σ D α) (s : Store σ objs) (hw : ∀ e, s (.est e) = w.est e) (rest : Code (Store σ objs) R) :
    ∃ s1 : Store σ objs, (∀ j, s1.quant j = s.quant j) ∧ (∀ e, s1 (.est e) = (fitIfNeeded ops w r X y).est e) ∧ ∀ s' c', GoesOn s1 rest s' c' → GoesOn s (estCode ops r X y rest) s' c' := by
  unfold estCode fitIfNeeded
  cases r with
  | none => exact ⟨s, fun _ => rfl, hw, fun _ _ h => h⟩
  | some e =>
    dsimp only
    cases hn : ops.notFitted (w.est e) with
    | true =>
      refine ⟨Function.update s (.est e) (ops.fit (s (.est e)) X y), fun j => Store.quant_setEst s e _ j, fun e' => ?_, fun s' c' h => GoesOn.get ?_⟩
      · rw [if_pos rfl]
        dsimp only
        by_cases he : e' = e
        · subst he
          rw [if_pos rfl]
          refine (Function.update_self _ _ _).trans ?_
          rw [hw]
        · rw [if_neg he]
          exact (Function.update_of_ne (by simpa using he) _ _).trans (hw e')
      · rw [hw e, hn, if_pos rfl]
        exact GoesOn.put h
    | false =>
      refine ⟨s, fun _ => rfl, by simpa using hw, fun s' c' h => GoesOn.get ?_⟩
      rw [hw e, hn]
      simpa using h

/-- What `fit` alone does: the estimators and the attributes of its object become those of `ucFit`, and the other objects are as they were. -/
theorem ucFitCode_goesOn {R : Type} [LinearOrder α] (ops : EstOps σ D α k) (enc : Bool → α) (i : ℕ) (X : List D) (y : List α) (pt : Option (Preds α k)) (w : World σ D α) (s : Store σ objs) (hw : ∀ e, s (.est e) = w.est e)
    (rest : Option Err → Code (Store σ objs) R) :
    ∃ s', GoesOn s (ucFitCode ops enc i X y pt rest) s' (rest (ucFit ops enc w (objs i) (s.quant i).state X y pt).2.2)
      ∧ (s'.quant i).state = (ucFit ops enc w (objs i) (s.quant i).state X y pt).2.1 ∧ (∀ e, s' (.est e) = (ucFit ops enc w (objs i) (s.quant i).state X y pt).1.est e) ∧ ∀ j, j ≠ i → s'.quant j = s.quant j := by
  unfold ucFitCode ucFit
  cases hpre : (objs i).cls.pre y with
  | some e => exact ⟨s, GoesOn.refl _ _, rfl, hw, fun _ _ => rfl⟩
  | none =>
    dsimp only
    set s1 : Store σ objs := Store.setBase i (fun b => { b with classes := some (npUnique y) }) s with hs1
    have q1 : (s1.quant i).state = ⟨{ (s.quant i).state.base with classes := some (npUnique y) }, (s.quant i).state.own⟩ := by rw [hs1, Store.setBase, Store.quant_setQuant]
    have e1 : ∀ e, s1 (.est e) = w.est e := fun e => (Store.est_setQuant s i _ e).trans (hw e)
    have o1 : ∀ j, j ≠ i → s1.quant j = s.quant j := fun j hj => Store.quant_setQuant_ne s _ hj
    have hcfgN : (objs i).cfg.needsTrain = (objs i).cls.needsTrain := rfl
    have hcfgE : (objs i).cfg.estTrain = (objs i).estTrain := rfl
    have hcfgT : (objs i).cfg.estTest = (objs i).estTest := rfl
    unfold usingFit
    simp only [hcfgN, hcfgE, hcfgT]
    by_cases h1 : ((objs i).cls.needsTrain && (objs i).estTrain.isNone && pt.isNone) = true
    · simp only [if_pos h1]
      exact ⟨s1, GoesOn.put (GoesOn.refl _ _), q1, e1, o1⟩
    · simp only [if_neg h1]
      set rest' := trainCode ops enc i (npUnique y) X y pt rest with hrest'
      obtain ⟨s2, q2, e2, r2⟩ := estCode_goesOn ops (objs i).estTrain X y w s1 e1 (estCode ops (objs i).estTest X y rest')
      obtain ⟨s3, q3, e3, r3⟩ := estCode_goesOn ops (objs i).estTest X y _ s2 e2 rest'
      set w2 := fitIfNeeded ops (fitIfNeeded ops w (objs i).estTrain X y) (objs i).estTest X y with hw2
      have hstart : ∀ s' c', GoesOn s3 rest' s' c' → GoesOn s (.put (Store.setBase i fun b => { b with classes := some (npUnique y) }) (estCode ops (objs i).estTrain X y (estCode ops (objs i).estTest X y rest'))) s' c' :=
        fun s' c' h => GoesOn.put (r2 _ _ (r3 _ _ h))
      have q3' : (s3.quant i).state = ⟨{ (s.quant i).state.base with classes := some (npUnique y) }, (s.quant i).state.own⟩ := by rw [q3, q2, q1]
      have o3 : ∀ j, j ≠ i → s3.quant j = s.quant j := fun j hj => by rw [q3, q2, o1 j hj]
      have learnErr : ∀ (s4 : Store σ objs) (b : QState α k) (x : Err), (s4.quant i).state = ⟨b, (s.quant i).state.own⟩ → (objs i).cls.learn (s.quant i).state.own y b = .error x → GoesOn s4 (learnCode i y rest) s4 (rest (some x)) := by
        intro s4 b x q4 hm
        refine GoesOn.get ?_
        rw [q4]
        dsimp only
        rw [hm]
        exact GoesOn.refl _ _
      have learnOk : ∀ (s4 : Store σ objs) (b : QState α k) (m : (objs i).cls.S), (s4.quant i).state = ⟨b, (s.quant i).state.own⟩ → (objs i).cls.learn (s.quant i).state.own y b = .ok m →
          ∃ s5, GoesOn s4 (learnCode i y rest) s5 (rest none) ∧ (s5.quant i).state = ⟨b, some m⟩ ∧ (∀ e, s5 (.est e) = s4 (.est e)) ∧ ∀ j, j ≠ i → s5.quant j = s4.quant j := by
        intro s4 b m q4 hm
        refine ⟨s4.setQuant i { s4.quant i with state := ⟨(s4.quant i).state.base, some m⟩ }, GoesOn.get ?_, ?_, fun e => Store.est_setQuant _ _ _ e, fun j hj => Store.quant_setQuant_ne _ _ hj⟩
        · dsimp only
          rw [q4]
          dsimp only
          rw [hm]
          exact GoesOn.put (by rw [q4]; exact GoesOn.refl _ _)
        · rw [Store.quant_setQuant, q4]
      by_cases h2 : (objs i).cls.needsTrain = true
      · simp only [if_pos h2]
        have htr : trainPreds ops enc (npUnique y) s3.world (objs i).cfg X pt = trainPreds ops enc (npUnique y) w2 (objs i).cfg X pt := trainPreds_world enc _ _ _ (fun e _ => e3 e) pt _
        cases hp : trainPreds ops enc (npUnique y) w2 (objs i).cfg X pt with
        | error e =>
          refine ⟨s3, hstart _ _ ?_, q3', e3, o3⟩
          rw [hrest']
          unfold trainCode
          rw [if_pos h2]
          refine GoesOn.get ?_
          rw [htr, hp]
          exact GoesOn.refl _ _
        | ok p =>
          dsimp only
          set s4 : Store σ objs := Store.setBase i (fun b => { b with predsTrain := some p }) s3 with hs4
          have q4 : (s4.quant i).state = ⟨{ (s.quant i).state.base with classes := some (npUnique y), predsTrain := some p }, (s.quant i).state.own⟩ := by rw [hs4, Store.setBase, Store.quant_setQuant, q3']
          have e4 : ∀ e, s4 (.est e) = w2.est e := fun e => (Store.est_setQuant s3 i _ e).trans (e3 e)
          have o4 : ∀ j, j ≠ i → s4.quant j = s.quant j := fun j hj => (Store.quant_setQuant_ne s3 _ hj).trans (o3 j hj)
          cases hx : extendLabels y p.len with
          | error e =>
            refine ⟨s4, hstart _ _ ?_, q4, e4, o4⟩
            rw [hrest']
            unfold trainCode
            rw [if_pos h2]
            refine GoesOn.get ?_
            rw [htr, hp]
            dsimp only
            rw [hx]
            exact GoesOn.put (GoesOn.refl _ _)
          | ok ye =>
            dsimp only
            have r5 : ∀ s' c', GoesOn (Store.setBase i (fun b => { b with yExt := some ye }) s4) (learnCode i y rest) s' c' → GoesOn s3 rest' s' c' := by
              intro s' c' h
              rw [hrest']
              unfold trainCode
              rw [if_pos h2]
              refine GoesOn.get ?_
              rw [htr, hp]
              dsimp only
              rw [hx]
              exact GoesOn.put (GoesOn.put h)
            have q5 : ((Store.setBase i (fun b => { b with yExt := some ye }) s4).quant i).state = ⟨⟨some (npUnique y), some p, some ye⟩, (s.quant i).state.own⟩ := by
              rw [Store.setBase, Store.quant_setQuant, q4]
            have e5 : ∀ e, (Store.setBase i (fun b => { b with yExt := some ye }) s4) (.est e) = w2.est e := fun e => (Store.est_setQuant s4 i _ e).trans (e4 e)
            have o5 : ∀ j, j ≠ i → (Store.setBase i (fun b => { b with yExt := some ye }) s4).quant j = s.quant j := fun j hj => (Store.quant_setQuant_ne s4 _ hj).trans (o4 j hj)
            cases hm : (objs i).cls.learn (s.quant i).state.own y ⟨some (npUnique y), some p, some ye⟩ with
            | error x => exact ⟨_, hstart _ _ (r5 _ _ (learnErr _ _ x q5 hm)), q5, e5, o5⟩
            | ok m =>
              obtain ⟨s6, r6, q6, e6, o6⟩ := learnOk _ _ m q5 hm
              exact ⟨s6, hstart _ _ (r5 _ _ r6), q6, fun e => (e6 e).trans (e5 e), fun j hj => (o6 j hj).trans (o5 j hj)⟩
      · simp only [if_neg h2]
        have r5 : ∀ s' c', GoesOn s3 (learnCode i y rest) s' c' → GoesOn s3 rest' s' c' := by
          intro s' c' h
          rw [hrest']
          unfold trainCode
          rw [if_neg h2]
          exact h
        cases hm : (objs i).cls.learn (s.quant i).state.own y ⟨some (npUnique y), (s.quant i).state.base.predsTrain, (s.quant i).state.base.yExt⟩ with
        | error x => exact ⟨_, hstart _ _ (r5 _ _ (learnErr _ _ x q3' hm)), q3', e3, o3⟩
        | ok m =>
          obtain ⟨s6, r6, q6, e6, o6⟩ := learnOk _ _ m q3' hm
          exact ⟨s6, hstart _ _ (r5 _ _ r6), q6, fun e => (e6 e).trans (e3 e), fun j hj => (o6 j hj).trans (o3 j hj)⟩

/-- **C167** (refuted for different training sets): whatever the classes of two quantifiers that share an untrained estimator `e`, there is a schedule for which the first one learns with the estimator that its thread trained, and is asked when the
estimator has been trained again by the other thread. -/
theorem C167_other_model_refuted [LinearOrder α] (ops : EstOps σ D α k) (enc : Bool → α) (s : Store σ objs) (i j e : ℕ) (hij : i ≠ j) (X X' : List D) (y y' : List α) (pt pt' : Option (Preds α k)) (Xt Xt' : List D) (ptt ptt' : Option (Preds α k))
    (hi : (ucFit ops enc s.world (objs i) (s.quant i).state X y pt).2.2 = none) (hj : (objs j).cls.pre y' = none) (hjt : (objs j).estTrain = some e) (hnf : ops.notFitted (s (.est e)) = true)
    (T : ℕ → Code (Store σ objs) (Except Err (Option (List Fl)))) (hT0 : T 0 = ucRunCode ops enc i X y pt Xt ptt) (hT1 : T 1 = ucRunCode ops enc j X' y' pt' Xt' ptt') :
    ∃ sch, (runThreads sch s T).2 0 = .ret (ucPredict ops enc
      ⟨Function.update (ucFit ops enc s.world (objs i) (s.quant i).state X y pt).1.est e (ops.fit ((ucFit ops enc s.world (objs i) (s.quant i).state X y pt).1.est e) X' y'), []⟩
      (objs i) (ucFit ops enc s.world (objs i) (s.quant i).state X y pt).2.1 Xt ptt).2 := by
  set s1 : Store σ objs := Store.setBase j (fun b => { b with classes := some (npUnique y') }) s with hs1
  have e1 : ∀ e, s1 (.est e) = (s.world : World σ D α).est e := fun e => Store.est_setQuant s j _ e
  have q1 : s1.quant i = s.quant i := Store.quant_setQuant_ne s _ hij
  obtain ⟨s2, ⟨n, hn⟩, q2, e2, -⟩ := ucFitCode_goesOn ops enc i X y pt s.world s1 e1 fun x =>
    match x with
    | some x => .ret (.error x)
    | none => ucCode ops enc i Xt ptt
  rw [q1] at hn q2 e2
  rw [hi] at hn
  dsimp only at hn
  set rest1 : Code (Store σ objs) (Except Err (Option (List Fl))) := estCode ops (objs j).estTest X' y' (trainCode ops enc j (npUnique y') X' y' pt' fun x =>
    match x with
    | some x => .ret (.error x)
    | none => ucCode ops enc j Xt' ptt') with hrest1
  have hT1' : T 1 = .put (Store.setBase j fun b => { b with classes := some (npUnique y') }) (estCode ops (some e) X' y' rest1) := by
    rw [hT1]
    unfold ucRunCode ucFitCode
    rw [hj]
    simp only [hjt, Option.isNone_some, Bool.and_false, Bool.false_and, Bool.false_eq_true, if_false]
    rfl
  have hstep2 : (estCode ops (some e) X' y' rest1).step s1 = (s1, .put (fun s' => Function.update s' (.est e) (ops.fit (s' (.est e)) X' y')) rest1) := by
    unfold estCode Code.step
    dsimp only
    rw [show s1 (.est e) = s (.est e) from e1 e, hnf, if_pos rfl]
  refine ⟨1 :: 1 :: (List.replicate n 0 ++ 1 :: List.replicate 4 0), ?_⟩
  rw [runThreads_step (s' := s1) (c := estCode ops (some e) X' y' rest1) (by rw [hT1']; rfl), runThreads_step (s' := s1) (by rw [Function.update_self]; exact hstep2), Function.update_idem, runThreads_append,
    hn _ 0 (by rw [Function.update_of_ne (by decide), hT0]; rfl)]
  dsimp only
  rw [runThreads_step (s' := Function.update s2 (.est e) (ops.fit (s2 (.est e)) X' y')) (c := rest1) (by rw [Function.update_of_ne (by decide), Function.update_self]; rfl)]
  obtain ⟨s3, h3, -, -⟩ := runThreads_block ops enc (Function.update s2 (.est e) (ops.fit (s2 (.est e)) X' y')) (Function.update (Function.update (Function.update T 1 (.put (fun s' => Function.update s' (.est e) (ops.fit (s' (.est e)) X' y')) rest1)) 0 (ucCode ops enc i Xt ptt)) 1 rest1)
    0 i Xt ptt (by rw [Function.update_of_ne (by decide), Function.update_self])
  rw [h3]
  dsimp only
  rw [Function.update_self]
  congr 3
  · unfold Store.world
    congr 1
    funext e'
    by_cases he : e' = e
    · subst he
      rw [Function.update_self]
      exact (Function.update_self _ _ _).trans (congrArg (fun z => ops.fit z X' y') (e2 e'))
    · rw [Function.update_of_ne he]
      exact (Function.update_of_ne (by simpa using he) _ _).trans (e2 e')

end

/-! ### A case -/

/-- An estimator for one feature and two labels: it learns whether the labels are as the feature or the opposite. -/
def dirOps : EstOps (Option Bool) Bool ℕ 2 :=
  ⟨fun s => s.isNone, fun _ _ y => some (decide (y = [1, 0])), fun s X => X.map fun x => if Bool.xor x (s.getD false) then 1 else 0, fun _ X => X.map fun _ _ => 0⟩

/-- Two objects of class `AC` with the same estimator. -/
noncomputable def acObjs (sol : Solvers) (dist : Dist) : ℕ → UcObj ℕ 2 := fun _ => ⟨acClass sol dist, some 0, some 0⟩

/-- New objects and an untrained estimator. -/
noncomputable def acStore (sol : Solvers) (dist : Dist) : Store (Option Bool) (acObjs sol dist)
  | .quant i => ⟨ucNew (acObjs sol dist i), none⟩
  | .est _ => none

theorem unique01 : npUnique [0, 1] = [0, 1] := by
  exact (show npUnique [0, 1] = labelsOf [0, 1] from rfl).trans (labelsOf_eq _ _ (by decide) (by decide))

/-- The confusion matrix of `AC` fitted to the examples `false`, `true` with labels 0, 1, when the estimator is right (`false`) or the opposite (`true`). -/
def dirCm (b : Bool) : Fin 2 → Fin 2 → ℕ := fun i j => if (i = j) = (b = false) then 1 else 0

theorem ac_learn (sol : Solvers) (dist : Dist) (b : Bool) :
    (acClass (α := ℕ) (k := 2) sol dist).learn none [0, 1] ⟨some [0, 1], some (.crisp (if b then [1, 0] else [0, 1])), some [0, 1]⟩ = .ok ⟨[0, 1], normalizeRows (dirCm b)⟩ := by
  have h : ∀ cs : List ℕ, cs = [0, 1] → ∀ l : List ℕ, l = (if b then [1, 0] else [0, 1]) → (confusionMatrix cs [0, 1] l >>= fun cm => pure (⟨cs, normalizeRows cm⟩ : ACFit ℕ)) = (.ok ⟨[0, 1], normalizeRows (dirCm b)⟩ : Except Err (ACFit ℕ)) := by
    rintro cs rfl l rfl
    unfold confusionMatrix
    rw [if_pos (by cases b <;> rfl)]
    show Except.ok _ = Except.ok _
    congr 3
    funext i j
    cases b <;> fin_cases i <;> fin_cases j <;> rfl
  exact h _ unique01 _ rfl

theorem ucFit_eq {σ D α : Type} {k : ℕ} [LinearOrder α] {ops : EstOps σ D α k} {enc : Bool → α} {w w1 : World σ D α} {o : UcObj α k} {s : UcState o} {X : List D} {y : List α} {pt : Option (Preds α k)} {b : QState α k} {m : o.cls.S}
    (hpre : o.cls.pre y = none) (hu : usingFit ops enc w o.cfg s.base X y pt = (w1, b, none)) (hl : o.cls.learn s.own y b = .ok m) : ucFit ops enc w o s X y pt = (w1, ⟨b, some m⟩, none) := by
  unfold ucFit
  rw [hpre]
  dsimp only
  rw [hu]
  dsimp only
  rw [hl]

theorem ac_fit (sol : Solvers) (dist : Dist) (enc : Bool → ℕ) (i : ℕ) (w : World (Option Bool) Bool ℕ) (b : Bool) (hb : (fitIfNeeded dirOps w (some 0) [false, true] [0, 1]).est 0 = some b) :
    (ucFit dirOps enc w (acObjs sol dist i) (ucNew (acObjs sol dist i)) [false, true] [0, 1] none).2 = (⟨⟨some [0, 1], some (.crisp (if b then [1, 0] else [0, 1])), some [0, 1]⟩, some ⟨[0, 1], normalizeRows (dirCm b)⟩⟩, none)
      ∧ (ucFit dirOps enc w (acObjs sol dist i) (ucNew (acObjs sol dist i)) [false, true] [0, 1] none).1.est 0 = some b := by
  set w1 := fitIfNeeded dirOps w (some 0) [false, true] [0, 1] with hw1
  have hw2 : fitIfNeeded dirOps w1 (some 0) [false, true] [0, 1] = w1 := by
    unfold fitIfNeeded
    dsimp only
    rw [hb]
    rfl
  have hfit : usingFit dirOps enc w (acObjs sol dist i).cfg ⟨none, none, none⟩ [false, true] [0, 1] none = (w1, ⟨some [0, 1], some (.crisp (if b then [1, 0] else [0, 1])), some [0, 1]⟩, none) := by
    unfold usingFit
    rw [if_neg (show ¬ ((acObjs sol dist i).cfg.needsTrain && (acObjs sol dist i).cfg.estTrain.isNone && (none : Option (Preds ℕ 2)).isNone) = true from fun h => absurd (show false = true from h) (by decide)), if_pos (show (acObjs sol dist i).cfg.needsTrain = true from rfl), unique01]
    have hp : trainPreds dirOps enc [0, 1] w1 (acObjs sol dist i).cfg [false, true] none = .ok (.crisp (if b then [1, 0] else [0, 1])) := by
      show Except.ok (Preds.crisp (dirOps.predict (w1.est 0) [false, true])) = _
      rw [hb]
      cases b <;> rfl
    have hw2' : fitIfNeeded dirOps (fitIfNeeded dirOps w (acObjs sol dist i).cfg.estTrain [false, true] [0, 1]) (acObjs sol dist i).cfg.estTest [false, true] [0, 1] = w1 := hw2
    simp only [hw2', hp]
    cases b <;> rfl
  have h := ucFit_eq (ops := dirOps) (enc := enc) (w := w) (o := acObjs sol dist i) (s := ucNew (acObjs sol dist i)) (pt := none) (m := (⟨[0, 1], normalizeRows (dirCm b)⟩ : ACFit ℕ)) (show (acObjs sol dist i).cls.pre [0, 1] = none from rfl) hfit (ac_learn sol dist b)
  rw [h]
  exact ⟨rfl, hb⟩

theorem ac_answer (sol : Solvers) (dist : Dist) (i : ℕ) (enc : Bool → ℕ) (w : World (Option Bool) Bool ℕ) (b b' : Bool) (hw : w.est 0 = some b') (base : QState ℕ 2) (hbase : base.classes = some [0, 1]) :
    (ucPredict dirOps enc w (acObjs sol dist i) ⟨base, some ⟨[0, 1], normalizeRows (dirCm b)⟩⟩ [true] none).2 = .ok (some (if b = b' then [Fl.fin 0, Fl.fin 1] else [Fl.fin 1, Fl.fin 0])) := by
  have hpred : (ucPredict dirOps enc w (acObjs sol dist i) ⟨base, some ⟨[0, 1], normalizeRows (dirCm b)⟩⟩ [true] none).2
      = ((acClass (α := ℕ) (k := 2) sol dist).answer ⟨[0, 1], normalizeRows (dirCm b)⟩ base (.crisp [if b' then 0 else 1])).2 := by
    have : usingPredict dirOps enc w (acObjs sol dist i).cfg (base.classes.getD []) [true] none = .ok (.crisp [if b' then 0 else 1]) := by
      show Except.ok (Preds.crisp (dirOps.predict (w.est 0) [true])) = _
      rw [hw]
      cases b' <;> rfl
    unfold ucPredict
    dsimp only
    rw [this]
    rfl
  have hans : ∀ cs : List ℕ, cs = [0, 1] → ∀ l : List ℕ, (if h : ([0, 1] : List ℕ).length = cs.length then (adjust sol dist (normalizeRows (dirCm b)) fun j => classFreqs cs l (Fin.cast h j)).map vecList else .error .valueError)
      = .ok (vecList (binaryAdjust (normalizeRows (dirCm b)) (classFreqs [0, 1] l))) := by
    rintro cs rfl l
    rw [dif_pos rfl]
    rfl
  rw [hpred]
  show (Except.map some (if h : ([0, 1] : List ℕ).length = (base.classes.getD []).length then (adjust sol dist (normalizeRows (dirCm b)) fun j => classFreqs (base.classes.getD []) [if b' then 0 else 1] (Fin.cast h j)).map vecList else .error .valueError)) = _
  rw [hans _ (by rw [hbase]; rfl)]
  have hcm : ∀ i j, normalizeRows (dirCm b) i j = Fl.fin ((dirCm b i j : ℕ) : ℝ) := by
    intro i j
    have : (∑ l, dirCm b i l : ℕ) = 1 := by cases b <;> fin_cases i <;> rfl
    unfold normalizeRows
    rw [this, Fl.fin_div _ (by norm_num)]
    norm_num
  have hq : classFreqs [0, 1] [if b' then 0 else 1] 1 = Fl.fin (if b' then 0 else 1) := by
    unfold classFreqs
    cases b'
    · show Fl.fin ((1 : ℕ) : ℝ) / Fl.fin ((1 : ℕ) : ℝ) = _
      rw [Fl.fin_div _ (by norm_num)]
      norm_num
    · show Fl.fin ((0 : ℕ) : ℝ) / Fl.fin ((1 : ℕ) : ℝ) = _
      rw [Fl.fin_div _ (by norm_num)]
      norm_num
  cases b <;> cases b'
  · rw [binaryAdjust_adjusted _ _ 1 0 1 ((hcm 1 1).trans (by simp [dirCm])) ((hcm 0 1).trans (by simp [dirCm])) (hq.trans (by simp)) (by norm_num)]
    simp [vecList, Except.map]
  · rw [binaryAdjust_adjusted _ _ 1 0 0 ((hcm 1 1).trans (by simp [dirCm])) ((hcm 0 1).trans (by simp [dirCm])) (hq.trans (by simp)) (by norm_num)]
    simp [vecList, Except.map]
  · rw [binaryAdjust_adjusted _ _ 0 1 1 ((hcm 1 1).trans (by simp [dirCm])) ((hcm 0 1).trans (by simp [dirCm])) (hq.trans (by simp)) (by norm_num)]
    simp [vecList, Except.map]
  · rw [binaryAdjust_adjusted _ _ 0 1 0 ((hcm 1 1).trans (by simp [dirCm])) ((hcm 0 1).trans (by simp [dirCm])) (hq.trans (by simp)) (by norm_num)]
    simp [vecList, Except.map]

theorem ac_run (sol : Solvers) (dist : Dist) (i : ℕ) (enc : Bool → ℕ) (w : World (Option Bool) Bool ℕ) : ucRun dirOps enc w (acObjs sol dist i) [false, true] [0, 1] none [true] none = .ok (some [Fl.fin 0, Fl.fin 1]) := by
  obtain ⟨b, hb⟩ : ∃ b, (fitIfNeeded dirOps w (some 0) [false, true] [0, 1]).est 0 = some b := by
    unfold fitIfNeeded
    dsimp only
    cases hw : w.est 0 with
    | none => exact ⟨false, rfl⟩
    | some b => exact ⟨b, hw⟩
  obtain ⟨h1, h2⟩ := ac_fit sol dist enc i w b hb
  unfold ucRun
  dsimp only
  rw [h1]
  dsimp only
  rw [ac_answer sol dist i enc _ b b h2 _ rfl, if_pos rfl]

/-- **C167** (refuted for different training sets): two objects of class `AC` with the same untrained estimator are fitted by two threads, to two training sets with opposite labels. Whatever the estimator is when `fit` is called, so for every order
of the calls, the answer of the first one for a bag of one example of its second class is right; for some schedule of the threads it is the opposite. -/
theorem C167_no_order_refuted (sol : Solvers) (dist : Dist) (enc : Bool → ℕ) :
    (∀ w, ucRun dirOps enc w (acObjs sol dist 0) [false, true] [0, 1] none [true] none = .ok (some [Fl.fin 0, Fl.fin 1]))
      ∧ ∃ sch, (runThreads sch (acStore sol dist) fun t => ucRunCode dirOps enc t [false, true] (if t = 0 then [0, 1] else [1, 0]) none [true] none).2 0 = .ret (.ok (some [Fl.fin 1, Fl.fin 0])) := by
  refine ⟨ac_run sol dist 0 enc, ?_⟩
  obtain ⟨h1, h2⟩ := ac_fit sol dist enc 0 (acStore sol dist).world false rfl
  obtain ⟨sch, hsch⟩ := C167_other_model_refuted dirOps enc (acStore sol dist) 0 1 0 (by decide) [false, true] [false, true] [0, 1] [1, 0] none none [true] [true] none none (by
    show (ucFit dirOps enc (acStore sol dist).world (acObjs sol dist 0) (ucNew (acObjs sol dist 0)) [false, true] [0, 1] none).2.2 = none
    rw [h1]) rfl rfl rfl (fun t => ucRunCode dirOps enc t [false, true] (if t = 0 then [0, 1] else [1, 0]) none [true] none) rfl rfl
  refine ⟨sch, hsch.trans ?_⟩
  show Code.ret (ucPredict dirOps enc _ (acObjs sol dist 0) (ucFit dirOps enc (acStore sol dist).world (acObjs sol dist 0) (ucNew (acObjs sol dist 0)) [false, true] [0, 1] none).2.1 [true] none).2 = _
  rw [h1]
  dsimp only
  rw [ac_answer sol dist 0 enc _ false true (by dsimp only; rw [Function.update_self]; rfl) _ rfl]
  rfl

/-- A case of `C167_same_data`: two objects of class `AC` that share an untrained estimator and are fitted at the same time to the same examples answer well, whatever the schedule. -/
example (sol : Solvers) (dist : Dist) (enc : Bool → ℕ) (sch : List ℕ) (t : ℕ) (ht : 14 ≤ sch.count t) :
    (runThreads sch (acStore sol dist) fun t => ucRunCode dirOps enc t [false, true] [0, 1] none [true] none).2 t = .ret (.ok (some [Fl.fin 0, Fl.fin 1])) :=
  (C167_same_data dirOps (fun _ _ _ => rfl) [false, true] [0, 1] (fun _ => rfl) enc (acStore sol dist) id Function.injective_id (fun _ => rfl) (fun _ => none) (fun _ => [true]) (fun _ => none) sch t ht).trans
    (by rw [show (acStore sol dist).world = (acStore sol dist).world from rfl, ac_run sol dist (id t) enc])

/-! ### A `FrankAndHallClassifier` as the shared estimator -/

section
variable {M D α : Type} [LinearOrder α]

/-- One thread alone does what `estStep` says. -/
theorem fhStep_alone (finite : List D → Bool) (b : FhRaising M D) (X : List D) (y : List α) : (fhStepCode finite b X y).run (fhNew : FhObj M α) = estStep finite (fhEst finite b) fhNew X y := by
  unfold fhStepCode estStep Code.run
  have hask : (fhEst finite b).ask (fhNew : FhObj M α) (X.take 1) = some .notFittedError := rfl
  rw [hask]
  show (if acceptsXy finite X y = false then Code.ret (some Err.valueError) else fhFitCode finite b X y).run fhNew = (if acceptsXy finite X y = false then _ else _)
  split
  · rfl
  · rename_i hacc
    show _ = fhObjFit finite b fhNew X y
    unfold fhFitCode fhObjFit
    split
    · rfl
    · cases fhTransform 0 1 (npUnique y) y with
      | error e => rfl
      | ok yBin =>
        dsimp only
        rw [Code.run, Code.run]
        cases (List.range ((npUnique y).length - 1)).mapM fun i => item yBin i >>= fhFitBinary b X i with
        | error e => rfl
        | ok ms => rfl

/-- **C167** (refuted for a `FrankAndHallClassifier` as the shared estimator): its `fit` assigns `classes_` first, and then it passes for trained. When one thread has trained the estimator as far as that, the `fit` of a quantifier in another thread, on the
same training set, raises TypeError, or AttributeError a bit later, although each of them alone works. -/
theorem C167_frank_hall_refuted (finite : List D → Bool) (b : FhRaising M D) (X : List D) (y : List α) (h : (estStep finite (fhEst finite b) (fhNew : FhObj M α) X y).2 = none) :
    (∃ sch, (runThreads sch (fhNew : FhObj M α) fun _ => fhStepCode finite b X y).2 1 = .ret (some .typeError))
      ∧ (2 ≤ (npUnique y).length → ∃ sch, (runThreads sch (fhNew : FhObj M α) fun _ => fhStepCode finite b X y).2 1 = .ret (some .attributeError)) := by
  rw [← fhStep_alone] at h
  have hstart : (fhStepCode finite b X y).step (fhNew : FhObj M α) = (fhNew, if acceptsXy finite X y = false then .ret (some .valueError) else fhFitCode finite b X y) := rfl
  have hrun : (fhStepCode finite b X y).run (fhNew : FhObj M α) = (if acceptsXy finite X y = false then Code.ret (some Err.valueError) else fhFitCode finite b X y).run fhNew := rfl
  rw [hrun] at h
  by_cases hacc : acceptsXy finite X y = false
  · rw [if_pos hacc] at h
    exact absurd h (by simp [Code.run])
  · rw [if_neg hacc] at h hstart
    by_cases hy : y = []
    · unfold fhFitCode at h
      rw [if_pos hy] at h
      exact absurd h (by simp [Code.run])
    · cases ht : fhTransform 0 1 (npUnique y) y with
      | error e =>
        unfold fhFitCode at h
        rw [if_neg hy, ht] at h
        exact absurd h (by simp [Code.run])
      | ok yBin =>
        set rest : Code (FhObj M α) (Option Err) := match (List.range ((npUnique y).length - 1)).mapM fun i => item yBin i >>= fhFitBinary b X i with
            | .error e => .ret (some e)
            | .ok ms => .put (fun o => { o with estimators := some (ms.map some) }) (.ret none) with hrest
        have hcode : fhFitCode finite b X y = .put (fun o => { o with classes := some (npUnique y) }) (.put (fun o => { o with estimators := some (List.replicate ((npUnique y).length - 1) none) }) rest) := by
          unfold fhFitCode
          rw [if_neg hy, ht]
          dsimp only
          rw [if_neg hacc]
          rfl
        rw [hcode] at hstart
        have hread : ∀ o : FhObj M α, o.classes = some (npUnique y) → (fhStepCode finite b X y).step o = (o, .get fun o => .ret (raised (fhObjPredict b.ops o (X.take 1)))) := by
          intro o ho
          unfold fhStepCode Code.step
          dsimp only
          rw [ho]
        refine ⟨⟨[0, 0, 1, 1], ?_⟩, fun h2 => ⟨[0, 0, 0, 1, 1], ?_⟩⟩
        · rw [runThreads_step hstart, runThreads_step (s' := ⟨some (npUnique y), none⟩) (c := .put (fun o => { o with estimators := some (List.replicate ((npUnique y).length - 1) none) }) rest) (by rw [Function.update_self]; rfl),
            runThreads_step (s' := ⟨some (npUnique y), none⟩) (c := .get fun o => .ret (raised (fhObjPredict b.ops o (X.take 1)))) (by rw [Function.update_of_ne (by decide), Function.update_of_ne (by decide)]; exact hread _ rfl), runThreads_step (s' := ⟨some (npUnique y), none⟩) (c := .ret (some .typeError)) (by rw [Function.update_self]; rfl)]
          rw [runThreads]
          dsimp only
          rw [Function.update_self]
        · have hm : (List.replicate ((npUnique y).length - 1) (none : Option M)).mapM id = none := by
            obtain ⟨m, hm⟩ : ∃ m, (npUnique y).length - 1 = m + 1 := ⟨(npUnique y).length - 2, by omega⟩
            rw [hm, List.replicate_succ]
            rfl
          rw [runThreads_step hstart, runThreads_step (s' := ⟨some (npUnique y), none⟩) (c := .put (fun o => { o with estimators := some (List.replicate ((npUnique y).length - 1) none) }) rest) (by rw [Function.update_self]; rfl),
            runThreads_step (s' := ⟨some (npUnique y), some (List.replicate ((npUnique y).length - 1) none)⟩) (c := rest) (by rw [Function.update_self]; rfl),
            runThreads_step (s' := ⟨some (npUnique y), some (List.replicate ((npUnique y).length - 1) none)⟩) (c := .get fun o => .ret (raised (fhObjPredict b.ops o (X.take 1))))
              (by rw [Function.update_of_ne (by decide), Function.update_of_ne (by decide), Function.update_of_ne (by decide)]; exact hread _ rfl),
            runThreads_step (s' := ⟨some (npUnique y), some (List.replicate ((npUnique y).length - 1) none)⟩) (c := .ret (some .attributeError)) (by
              rw [Function.update_self]
              unfold Code.step fhObjPredict fhObjRead
              dsimp only
              rw [hm]
              rfl)]
          rw [runThreads]
          dsimp only
          rw [Function.update_self]

/-- Three classes. -/
example : (∃ sch, (runThreads sch (fhNew : FhObj ℕ ℕ) fun _ => fhStepCode nonzero picky [10, 20, 30, 40] [0, 1, 2, 2]).2 1 = .ret (some .typeError))
    ∧ ∃ sch, (runThreads sch (fhNew : FhObj ℕ ℕ) fun _ => fhStepCode nonzero picky [10, 20, 30, 40] [0, 1, 2, 2]).2 1 = .ret (some .attributeError) := by
  have h := C167_frank_hall_refuted nonzero picky [10, 20, 30, 40] [0, 1, 2, 2] picky_fit
  refine ⟨h.1, h.2 ?_⟩
  rw [show npUnique [0, 1, 2, 2] = labelsOf [0, 1, 2, 2] from rfl, four_labels]
  decide

end

end Verif.Props
