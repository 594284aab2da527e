import Verif.Proof.Threads

/-!
# Threads that fit quantifiers with the same training set and shared estimators
-/

namespace Verif.Proof

open Verif.Model Verif.Props

section
variable {σ D α : Type} {k : ℕ} {objs : ℕ → UcObj α k} {ops : EstOps σ D α k} {X : List D} {y : List α} {w0 : World σ D α} {o : ℕ → ℕ} {t : ℕ}

/-- The changes of the estimators that the threads make: they may train them. -/
def Trains (ops : EstOps σ D α k) (X : List D) (y : List α) (w0 : World σ D α) (s s' : Store σ objs) : Prop := ∀ e, s' (.est e) = s (.est e) ∨ s' (.est e) = settledEst ops X y (w0.est e)

/-- Every estimator is as at the beginning or trained, and those in `A` are trained. -/
def Ready (ops : EstOps σ D α k) (X : List D) (y : List α) (w0 : World σ D α) (A : Set ℕ) (s : Store σ objs) : Prop :=
  (∀ e, s (.est e) = w0.est e ∨ s (.est e) = settledEst ops X y (w0.est e)) ∧ ∀ e ∈ A, s (.est e) = settledEst ops X y (w0.est e)

theorem trains_keeps : KeepsEst (objs := objs) (Trains ops X y w0) := fun _ _ h e => .inl (h e)

theorem ready_trains (A : Set ℕ) (s s' : Store σ objs) (h : Trains ops X y w0 s s') (hr : Ready ops X y w0 A s) : Ready ops X y w0 A s' := by
  refine ⟨fun e => ?_, fun e he => ?_⟩
  · rcases h e with h1 | h1
    · rw [h1]; exact hr.1 e
    · exact .inr h1
  · rcases h e with h1 | h1
    · rw [h1]; exact hr.2 e he
    · exact h1

theorem holds_ready_setQuant {A : Set ℕ} {s : Store σ objs} {i : ℕ} (h : Ready ops X y w0 A s) (c : UcCell (objs i)) : Holds (Ready ops X y w0 A) i c (s.setQuant i c) :=
  ⟨Store.quant_setQuant s i c, ready_trains A s _ (trains_keeps s _ fun e => Store.est_setQuant s i c e) h⟩

theorem estCode_sure {R : Type} (ho : Function.Injective o) (hfit : ∀ s X y, ops.notFitted (ops.fit s X y) = false) (hid : ∀ s, ops.fit (ops.fit s X y) X y = ops.fit s X y) (r : Option ℕ) (A : Set ℕ) (c : UcCell (objs (o t)))
    (rest : Code (Store σ objs) R) (v : R) (h : Sure (Guar (Trains ops X y w0) o) t (Holds (Ready ops X y w0 (A ∪ {e | r = some e})) (o t) c) rest v) :
    Sure (Guar (Trains ops X y w0) o) t (Holds (Ready ops X y w0 A) (o t) c) (estCode ops r X y rest) v := by
  cases r with
  | none => exact h.imp fun s hs => ⟨hs.1, hs.2.1, fun e he => hs.2.2 e (by simpa using he)⟩
  | some e =>
    unfold estCode
    dsimp only
    refine .get _ _ _ (fun s => if ops.notFitted (s (.est e)) then Holds (Ready ops X y w0 A) (o t) c else Holds (Ready ops X y w0 (A ∪ {e' | some e = some e'})) (o t) c) ?_ ?_ ?_
    · intro s _
      split
      · exact holds_stable ho (ready_trains A) c
      · exact holds_stable ho (ready_trains _) c
    · intro s hs
      split
      · exact hs
      · rename_i hn
        refine ⟨hs.1, hs.2.1, fun e' he' => ?_⟩
        rcases he' with he' | he'
        · exact hs.2.2 e' he'
        · obtain rfl : e = e' := Option.some.inj he'
          rcases hs.2.1 e with h1 | h1
          · rw [h1] at hn ⊢
            unfold settledEst
            rw [if_neg hn]
          · exact h1
    · intro s hs
      split
      · rename_i hn
        have hw : ops.notFitted (w0.est e) = true := by
          rcases hs.2.1 e with h1 | h1
          · rwa [h1] at hn
          · rw [h1, notFitted_settled hfit] at hn; exact absurd hn (by simp)
        have hset : settledEst ops X y (w0.est e) = ops.fit (w0.est e) X y := by unfold settledEst; rw [if_pos hw]
        have hnew : ∀ s : Store σ objs, Ready ops X y w0 A s → ops.fit (s (.est e)) X y = settledEst ops X y (w0.est e) := by
          intro s hs
          rcases hs.1 e with h1 | h1
          · rw [h1, hset]
          · rw [h1, hset, hid]
        refine .put _ (Holds (Ready ops X y w0 (A ∪ {e' | some e = some e'})) (o t) c) _ _ _ (holds_stable ho (ready_trains _) c) (fun s hs => ⟨fun j _ => Store.quant_setEst s e _ j, fun e' => ?_⟩) (fun s hs => ⟨?_, fun e' => ?_, fun e' he' => ?_⟩) h
        · by_cases he : e' = e
          · subst he
            exact .inr ((Function.update_self _ _ _).trans (hnew s hs.2))
          · exact .inl (Function.update_of_ne (by simpa using he) _ _)
        · exact (Store.quant_setEst s e _ _).trans hs.1
        · by_cases he : e' = e
          · subst he
            exact .inr ((Function.update_self _ _ _).trans (hnew s hs.2))
          · rw [show (Function.update s (Place.est e) (ops.fit (s (.est e)) X y)) (.est e') = s (.est e') from Function.update_of_ne (by simpa using he) _ _]
            exact hs.2.1 e'
        · by_cases he : e' = e
          · subst he
            exact (Function.update_self _ _ _).trans (hnew s hs.2)
          · rw [show (Function.update s (Place.est e) (ops.fit (s (.est e)) X y)) (.est e') = s (.est e') from Function.update_of_ne (by simpa using he) _ _]
            rcases he' with he' | he'
            · exact hs.2.2 e' he'
            · exact absurd (Option.some.inj he').symm he
      · exact h

/-- The attributes that `trainPreds` and `extendLabels` leave (as in `usingFit`), once the estimators are trained. -/
theorem trainPreds_world [LinearOrder α] (enc : Bool → α) (w w' : World σ D α) (q : QuantCfg) (h : ∀ e, q.estTrain = some e → w.est e = w'.est e) (pt : Option (Preds α k)) (classes : List α) :
    trainPreds ops enc classes w q X pt = trainPreds ops enc classes w' q X pt := by
  unfold trainPreds
  cases pt with
  | some p => rfl
  | none =>
    cases he : q.estTrain with
    | none => rfl
    | some e => simp only [h e he]

theorem learnCode_sure {R : Type} (ho : Function.Injective o) (A : Set ℕ) (c : UcCell (objs (o t))) (rest : Option Err → Code (Store σ objs) R) (v : R)
    (herr : ∀ P e, (objs (o t)).cls.learn c.state.own y c.state.base = .error e → Sure (Guar (Trains ops X y w0) o) t P (rest (some e)) v)
    (hok : ∀ m, (objs (o t)).cls.learn c.state.own y c.state.base = .ok m → Sure (Guar (Trains ops X y w0) o) t (Holds (Ready ops X y w0 A) (o t) ⟨⟨c.state.base, some m⟩, c.predsTest⟩) (rest none) v) :
    Sure (Guar (Trains ops X y w0) o) t (Holds (Ready ops X y w0 A) (o t) c) (learnCode (o t) y rest) v := by
  unfold learnCode
  refine Sure.getSame (holds_stable ho (ready_trains A) c) fun s hs => ?_
  rw [hs.1]
  cases hl : (objs (o t)).cls.learn c.state.own y c.state.base with
  | error e => exact herr _ e hl
  | ok m =>
    dsimp only
    refine .put _ _ _ _ _ (holds_stable ho (ready_trains A) _) (fun s _ => setQuant_guar trains_keeps s _) (fun s hs => ?_) (hok m hl)
    rw [hs.1]
    exact holds_ready_setQuant hs.2 _

theorem ucFitCode_sure {R : Type} [LinearOrder α] (ho : Function.Injective o) (hfit : ∀ s X y, ops.notFitted (ops.fit s X y) = false) (hid : ∀ s, ops.fit (ops.fit s X y) X y = ops.fit s X y) (enc : Bool → α) (pt : Option (Preds α k))
    (c : UcCell (objs (o t))) (rest : Option Err → Code (Store σ objs) R) (v : R)
    (herr : ∀ P e, (ucFit ops enc w0 (objs (o t)) c.state X y pt).2.2 = some e → Sure (Guar (Trains ops X y w0) o) t P (rest (some e)) v)
    (hok : (ucFit ops enc w0 (objs (o t)) c.state X y pt).2.2 = none →
      Sure (Guar (Trains ops X y w0) o) t (Holds (Ready ops X y w0 {e | (objs (o t)).estTest = some e}) (o t) ⟨(ucFit ops enc w0 (objs (o t)) c.state X y pt).2.1, c.predsTest⟩) (rest none) v) :
    Sure (Guar (Trains ops X y w0) o) t (Holds (Ready ops X y w0 ∅) (o t) c) (ucFitCode ops enc (o t) X y pt rest) v := by
  have hw0 : OnlyTrained ops X y w0 w0 := fun e => .inl rfl
  unfold ucFitCode
  unfold ucFit at herr hok
  cases hpre : (objs (o t)).cls.pre y with
  | some e =>
    rw [hpre] at herr
    exact herr _ e rfl
  | none =>
    rw [hpre] at herr hok
    dsimp only at herr hok ⊢
    refine .put _ (Holds (Ready ops X y w0 ∅) (o t) ⟨⟨{ c.state.base with classes := some (npUnique y) }, c.state.own⟩, c.predsTest⟩) _ _ _ (holds_stable ho (ready_trains _) _) (fun s _ => setQuant_guar trains_keeps s _) (fun s hs => ?_) ?_
    · unfold Store.setBase
      rw [hs.1]
      exact holds_ready_setQuant hs.2 _
    · have hcfgN : (objs (o t)).cfg.needsTrain = (objs (o t)).cls.needsTrain := rfl
      have hcfgE : (objs (o t)).cfg.estTrain = (objs (o t)).estTrain := rfl
      have hcfgT : (objs (o t)).cfg.estTest = (objs (o t)).estTest := rfl
      unfold usingFit at herr hok
      simp only [hcfgN, hcfgE, hcfgT] at herr hok
      split
      · rename_i h1
        rw [if_pos h1] at herr
        exact herr _ _ rfl
      · rename_i h1
        rw [if_neg h1] at herr hok
        refine estCode_sure ho hfit hid _ _ _ _ _ (estCode_sure ho hfit hid _ _ _ _ _ ?_)
        set A : Set ℕ := ∅ ∪ {e | (objs (o t)).estTrain = some e} ∪ {e | (objs (o t)).estTest = some e} with hA
        set w2 := fitIfNeeded ops (fitIfNeeded ops w0 (objs (o t)).estTrain X y) (objs (o t)).estTest X y with hw2
        have htr : ∀ s : Store σ objs, Ready ops X y w0 A s → trainPreds ops enc (npUnique y) s.world (objs (o t)).cfg X pt = trainPreds ops enc (npUnique y) w2 (objs (o t)).cfg X pt := by
          intro s hs
          refine trainPreds_world enc _ _ _ (fun e he => ?_) pt _
          rw [hw2, fitIfNeeded_keeps hfit (fitIfNeeded_only hfit hw0 _) _ _ (fitIfNeeded_settles hfit hw0 (objs (o t)).estTrain) e he]
          exact hs.2 e (by simp only [hA, Set.mem_union]; exact .inl (.inr he))
        have hsub : ∀ (c' : UcCell (objs (o t))) (s : Store σ objs), Holds (Ready ops X y w0 A) (o t) c' s → Holds (Ready ops X y w0 {e | (objs (o t)).estTest = some e}) (o t) c' s :=
          fun c' s hs => ⟨hs.1, hs.2.1, fun e he => hs.2.2 e (.inr he)⟩
        unfold trainCode
        split
        · rename_i h2
          rw [if_pos h2] at herr hok
          refine Sure.getSame (holds_stable ho (ready_trains A) _) fun s hs => ?_
          rw [htr s hs.2]
          cases hp : trainPreds ops enc (npUnique y) w2 (objs (o t)).cfg X pt with
          | error e =>
            rw [hp] at herr
            exact herr _ e rfl
          | ok p =>
            rw [hp] at herr hok
            dsimp only at herr hok ⊢
            refine .put _ (Holds (Ready ops X y w0 A) (o t) ⟨⟨{ c.state.base with classes := some (npUnique y), predsTrain := some p }, c.state.own⟩, c.predsTest⟩) _ _ _ (holds_stable ho (ready_trains _) _)
              (fun s _ => setQuant_guar trains_keeps s _) (fun s hs => ?_) ?_
            · unfold Store.setBase
              rw [hs.1]
              exact holds_ready_setQuant hs.2 _
            · cases hx : extendLabels y p.len with
              | error e =>
                rw [hx] at herr
                exact herr _ e rfl
              | ok ye =>
                rw [hx] at herr hok
                dsimp only at herr hok ⊢
                refine .put _ (Holds (Ready ops X y w0 A) (o t) ⟨⟨{ c.state.base with classes := some (npUnique y), predsTrain := some p, yExt := some ye }, c.state.own⟩, c.predsTest⟩) _ _ _ (holds_stable ho (ready_trains _) _)
                  (fun s _ => setQuant_guar trains_keeps s _) (fun s hs => ?_) (learnCode_sure ho A _ _ _ ?_ ?_)
                · unfold Store.setBase
                  rw [hs.1]
                  exact holds_ready_setQuant hs.2 _
                · intro P e hl
                  dsimp only at hl
                  rw [hl] at herr
                  exact herr P e rfl
                · intro m hl
                  dsimp only at hl
                  rw [hl] at hok
                  exact (hok rfl).imp (hsub _)
        · rename_i h2
          rw [if_neg h2] at herr hok
          refine learnCode_sure ho A _ _ _ ?_ ?_
          · intro P e hl
            dsimp only at hl herr
            rw [hl] at herr
            exact herr P e rfl
          · intro m hl
            dsimp only at hl hok
            rw [hl] at hok
            exact (hok rfl).imp (hsub _)

end

end Verif.Proof
