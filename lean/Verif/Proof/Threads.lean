import Verif.Model.Threads
import Verif.Props.Pipeline

/-!
# Threads under any schedule

Assertions that the other threads cannot break, step by step: a thread whose code is `Sure` to return `r` returns `r`, whatever the schedule.
-/

namespace Verif.Proof

open Verif.Model

section
variable {St R : Type}

/-- The assertion survives the changes that the other threads make. -/
def StableFor (G : ℕ → St → St → Prop) (t : ℕ) (P : St → Prop) : Prop := ∀ u, u ≠ t → ∀ s s', G u s s' → P s → P s'

/-- From a store with `P` the code of thread `t` returns `r`, whatever the other threads do within their guarantees. -/
inductive Sure (G : ℕ → St → St → Prop) (t : ℕ) : (St → Prop) → Code St R → R → Prop
  | ret (P : St → Prop) (r : R) : Sure G t P (.ret r) r
  | get (P : St → Prop) (k : St → Code St R) (r : R) (Q : St → St → Prop) (hst : ∀ s, P s → StableFor G t (Q s)) (hQ : ∀ s, P s → Q s s) (hk : ∀ s, P s → Sure G t (Q s) (k s) r) : Sure G t P (.get k) r
  | put (P Q : St → Prop) (f : St → St) (k : Code St R) (r : R) (hst : StableFor G t Q) (hG : ∀ s, P s → G t s (f s)) (hQ : ∀ s, P s → Q (f s)) (hk : Sure G t Q k r) : Sure G t P (.put f k) r

theorem Sure.imp {G : ℕ → St → St → Prop} {t : ℕ} {P P' : St → Prop} {c : Code St R} {r : R} (h : Sure G t P c r) (hP : ∀ s, P' s → P s) : Sure G t P' c r := by
  cases h with
  | ret => exact .ret _ _
  | get _ k _ Q h1 h2 h3 => exact .get _ _ _ Q (fun s hs => h1 s (hP s hs)) (fun s hs => h2 s (hP s hs)) (fun s hs => h3 s (hP s hs))
  | put _ Q f k _ h1 h2 h3 h4 => exact .put _ Q _ _ _ h1 (fun s hs => h2 s (hP s hs)) (fun s hs => h3 s (hP s hs)) h4

/-- A read that leaves the assertion as it is. -/
theorem Sure.getSame {G : ℕ → St → St → Prop} {t : ℕ} {P : St → Prop} {k : St → Code St R} {r : R} (hst : StableFor G t P) (hk : ∀ s, P s → Sure G t P (k s) r) : Sure G t P (.get k) r :=
  .get P k r (fun _ => P) (fun _ _ => hst) (fun _ h => h) hk

theorem sure_run {G : ℕ → St → St → Prop} (r : ℕ → R) (sch : List ℕ) : ∀ (s : St) (T : ℕ → Code St R), (∀ t, ∃ P, StableFor G t P ∧ P s ∧ Sure G t P (T t) (r t)) →
    ∀ t x, (runThreads sch s T).2 t = .ret x → x = r t := by
  induction sch with
  | nil =>
    intro s T h t x hx
    obtain ⟨P, -, -, hS⟩ := h t
    have hx' : T t = .ret x := hx
    rw [hx'] at hS
    cases hS
    rfl
  | cons i sch ih =>
    intro s T h
    refine ih _ _ fun t => ?_
    by_cases ht : t = i
    · subst ht
      obtain ⟨P, hst, hP, hS⟩ := h t
      rw [Function.update_self]
      cases hT : T t with
      | ret x =>
        rw [hT] at hS
        exact ⟨P, hst, hP, hS⟩
      | get k =>
        rw [hT] at hS
        cases hS with
        | get _ _ _ Q h1 h2 h3 => exact ⟨Q s, h1 s hP, h2 s hP, h3 s hP⟩
      | put f k =>
        rw [hT] at hS
        cases hS with
        | put _ Q _ _ _ h1 h2 h3 h4 => exact ⟨Q, h1, h3 s hP, h4⟩
    · obtain ⟨P, hst, hP, hS⟩ := h t
      rw [Function.update_of_ne ht]
      refine ⟨P, hst, ?_, hS⟩
      cases hT : T i with
      | ret x => exact hP
      | get k => exact hP
      | put f k =>
        obtain ⟨P', -, hP', hS'⟩ := h i
        rw [hT] at hS'
        cases hS' with
        | put _ Q _ _ _ h1 h2 h3 h4 => exact hst i (Ne.symm ht) s _ (h2 s hP') hP

end

section
variable {σ D α : Type} {k : ℕ} {objs : ℕ → UcObj α k}

@[simp] theorem Store.quant_setQuant (s : Store σ objs) (i : ℕ) (c : UcCell (objs i)) : (s.setQuant i c).quant i = c := by
  unfold Store.setQuant Store.quant
  exact Function.update_self _ _ _

theorem Store.quant_setQuant_ne (s : Store σ objs) {i j : ℕ} (c : UcCell (objs i)) (h : j ≠ i) : (s.setQuant i c).quant j = s.quant j := by
  unfold Store.setQuant Store.quant
  exact Function.update_of_ne (by simpa using h) _ _

@[simp] theorem Store.est_setQuant (s : Store σ objs) (i : ℕ) (c : UcCell (objs i)) (e : ℕ) : (s.setQuant i c) (.est e) = s (.est e) := by
  unfold Store.setQuant
  exact Function.update_of_ne (by simp) _ _

theorem Store.quant_setEst (s : Store σ objs) (e : ℕ) (v : σ) (j : ℕ) : Store.quant (Function.update s (.est e) v) j = s.quant j := by
  unfold Store.quant
  exact Function.update_of_ne (by simp) _ _

/-- What a thread that works with quantifier `o t` may change: that quantifier, and estimators as `ER` says. -/
def Guar (ER : Store σ objs → Store σ objs → Prop) (o : ℕ → ℕ) (t : ℕ) (s s' : Store σ objs) : Prop := (∀ j, j ≠ o t → s'.quant j = s.quant j) ∧ ER s s'

/-- `ER` allows the changes that touch no estimator. -/
def KeepsEst (ER : Store σ objs → Store σ objs → Prop) : Prop := ∀ s s' : Store σ objs, (∀ e, s' (.est e) = s (.est e)) → ER s s'

variable {ER : Store σ objs → Store σ objs → Prop} {o : ℕ → ℕ} {t : ℕ} {E : Store σ objs → Prop}

/-- The quantifier of the thread holds `c`, and the estimators are as `E` says. -/
def Holds (E : Store σ objs → Prop) (i : ℕ) (c : UcCell (objs i)) (s : Store σ objs) : Prop := s.quant i = c ∧ E s

theorem holds_stable (ho : Function.Injective o) (hE : ∀ s s', ER s s' → E s → E s') (c : UcCell (objs (o t))) : StableFor (Guar ER o) t (Holds E (o t) c) := by
  intro u hu s s' hG hP
  exact ⟨(hG.1 _ fun h => hu (ho h.symm)).trans hP.1, hE s s' hG.2 hP.2⟩

theorem setQuant_guar (hK : KeepsEst ER) (s : Store σ objs) (c : UcCell (objs (o t))) : Guar ER o t s (s.setQuant (o t) c) :=
  ⟨fun _ h => Store.quant_setQuant_ne s c h, hK _ _ fun e => Store.est_setQuant s _ c e⟩

theorem ucCode_sure (ops : EstOps σ D α k) (enc : Bool → α) (ho : Function.Injective o) (hK : KeepsEst ER) (hE : ∀ s s', ER s s' → E s → E s') (w : World σ D α) (X : List D) (pt : Option (Preds α k)) (c : UcCell (objs (o t)))
    (hw : ∀ s, E s → usingPredict ops enc s.world (objs (o t)).cfg (c.state.base.classes.getD []) X pt = usingPredict ops enc w (objs (o t)).cfg (c.state.base.classes.getD []) X pt) :
    Sure (Guar ER o) t (Holds E (o t) c) (ucCode ops enc (o t) X pt) (ucPredict ops enc w (objs (o t)) c.state X pt).2 := by
  have hKE : ∀ s s' : Store σ objs, (∀ e, s' (.est e) = s (.est e)) → E s → E s' := fun s s' h hs => hE s s' (hK s s' h) hs
  unfold ucCode
  refine Sure.getSame (holds_stable ho hE c) fun s hs => ?_
  rw [hs.1, hw s hs.2]
  unfold ucPredict
  cases hown : c.state.own with
  | none => exact .ret _ _
  | some m =>
    dsimp only
    cases hu : usingPredict ops enc w (objs (o t)).cfg (c.state.base.classes.getD []) X pt with
    | error e => exact .ret _ _
    | ok p =>
      dsimp only
      refine .put _ (Holds E (o t) ⟨c.state, some p⟩) _ _ _ (holds_stable ho hE _) (fun s _ => setQuant_guar hK s _) (fun s hs => ⟨?_, hKE _ _ (fun e => Store.est_setQuant s _ _ e) hs.2⟩) ?_
      · unfold Store.setPreds
        rw [Store.quant_setQuant, hs.1]
      · unfold ucRest
        refine Sure.getSame (holds_stable ho hE _) fun s hs => ?_
        rw [hs.1]
        dsimp only
        rw [hown]
        dsimp only
        refine .put _ (fun _ => True) _ _ _ (fun _ _ _ _ _ _ => trivial) (fun s _ => setQuant_guar hK s _) (fun _ _ => trivial) (.ret _ _)

end

end Verif.Proof
