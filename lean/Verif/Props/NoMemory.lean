import Verif.Props.FailedFit

/-!
# C127: an object remembers only its last fit
-/

namespace Verif.Props

open Verif.Model Verif.Spec Verif.Proof

section
variable {σ D α : Type} {k : ℕ} [LinearOrder α]

/-- The states in which an object can be after some calls of `fit` and `predict`, whether they returned or not; the estimators may be used by others in between. -/
inductive Used (ops : EstOps σ D α k) (enc : Bool → α) (o : UcObj α k) : UcState o → Prop
  | new : Used ops enc o (ucNew o)
  | fit {s : UcState o} (h : Used ops enc o s) (w : World σ D α) (X : List D) (y : List α) (pt : Option (Preds α k)) : Used ops enc o (ucFit ops enc w o s X y pt).2.1
  | predict {s : UcState o} (h : Used ops enc o s) (w : World σ D α) (X : List D) (pt : Option (Preds α k)) : Used ops enc o (ucPredict ops enc w o s X pt).1

/-- The states in which an object can be after some calls of `predict` made from the state `s1`. -/
inductive AfterPredicts (ops : EstOps σ D α k) (enc : Bool → α) (o : UcObj α k) (s1 : UcState o) : UcState o → Prop
  | none : AfterPredicts ops enc o s1 s1
  | predict {s : UcState o} (h : AfterPredicts ops enc o s1 s) (w : World σ D α) (X : List D) (pt : Option (Preds α k)) : AfterPredicts ops enc o s1 (ucPredict ops enc w o s X pt).1

/-- The property for a class, with the estimators as the last call of `fit` finds them: if an object that has been used for any calls is fitted by a call that returns, the same call on a new object returns too and does the same to the
estimators, and after any further calls of `predict` both answer the same to every bag. If predictions are given in both calls the estimators do not matter at all. -/
def OnlyLastFit (cls : UcClass α k) : Prop :=
  ∀ (σ D : Type) (ops : EstOps σ D α k) (enc : Bool → α) (e e' : Option ℕ) (s : UcState ⟨cls, e, e'⟩), Used ops enc ⟨cls, e, e'⟩ s →
    ∀ (w : World σ D α) (X : List D) (y : List α) (pt : Option (Preds α k)), (ucFit ops enc w ⟨cls, e, e'⟩ s X y pt).2.2 = none →
      (ucFit ops enc w ⟨cls, e, e'⟩ (ucNew ⟨cls, e, e'⟩) X y pt).2.2 = none
      ∧ (ucFit ops enc w ⟨cls, e, e'⟩ s X y pt).1 = (ucFit ops enc w ⟨cls, e, e'⟩ (ucNew ⟨cls, e, e'⟩) X y pt).1
      ∧ ∀ s2, AfterPredicts ops enc ⟨cls, e, e'⟩ (ucFit ops enc w ⟨cls, e, e'⟩ s X y pt).2.1 s2 → ∀ (w' : World σ D α) (Xt : List D) (ptt : Option (Preds α k)),
        (ucPredict ops enc w' ⟨cls, e, e'⟩ s2 Xt ptt).2 = (ucPredict ops enc w' ⟨cls, e, e'⟩ (ucFit ops enc w ⟨cls, e, e'⟩ (ucNew ⟨cls, e, e'⟩) X y pt).2.1 Xt ptt).2
        ∧ (pt.isSome → ptt.isSome → ∀ (w0 w0' : World σ D α) (X0 Xt0 : List D),
            (ucPredict ops enc w' ⟨cls, e, e'⟩ s2 Xt ptt).2 = (ucPredict ops enc w0' ⟨cls, e, e'⟩ (ucFit ops enc w0 ⟨cls, e, e'⟩ (ucNew ⟨cls, e, e'⟩) X0 y pt).2.1 Xt0 ptt).2)

/-- What is used of a class: `learn` does not look at the old attributes, and the attributes that `answer` changes do not change the answers. -/
structure Forgetful (cls : UcClass α k) : Prop where
  learn : ∀ m y s, cls.learn m y s = cls.learn none y s
  answer : ∀ y s m0, cls.learn none y s = .ok m0 → s.classes = some (npUnique y) → ∃ Inv : cls.S → Prop, Inv m0 ∧ ∀ m, Inv m → ∀ p, Inv (cls.answer m s p).1 ∧ (cls.answer m s p).2 = (cls.answer m0 s p).2

theorem usingFit_base_keeps (ops : EstOps σ D α k) (enc : Bool → α) (w : World σ D α) (q : QuantCfg) (s : QState α k) (X : List D) (y : List α) (pt : Option (Preds α k)) (hq : q.needsTrain = false) :
    (usingFit ops enc w q s X y pt).2.1 = { s with classes := some (npUnique y) } ∧ (usingFit ops enc w q s X y pt).2.2 = none := by
  simp [usingFit, hq]

/-- A class that makes no training predictions has none. -/
theorem used_noTrain (ops : EstOps σ D α k) (enc : Bool → α) (o : UcObj α k) (ho : o.cls.needsTrain = false) (s : UcState o) (h : Used ops enc o s) : s.base.predsTrain = none ∧ s.base.yExt = none := by
  induction h with
  | new => exact ⟨rfl, rfl⟩
  | @fit s _ w X y pt ih =>
    have := usingFit_base_keeps ops enc w o.cfg s.base X y pt ho
    unfold ucFit
    simp only
    split
    · exact ih
    · rw [this.2]
      simp only
      split <;> simp only [this.1] <;> exact ih
  | @predict s _ w X pt ih =>
    unfold ucPredict
    split
    · exact ih
    · split <;> exact ih

/-- `super().fit`, when it returns, leaves the inherited attributes as it leaves those of a new object; when predictions are given, whatever the estimators. -/
theorem usingFit_forgets (ops : EstOps σ D α k) (enc : Bool → α) (w : World σ D α) (q : QuantCfg) (s : QState α k) (X : List D) (y : List α) (pt : Option (Preds α k))
    (hs : q.needsTrain = false → s.predsTrain = none ∧ s.yExt = none) (h : (usingFit ops enc w q s X y pt).2.2 = none) :
    usingFit ops enc w q s X y pt = usingFit ops enc w q ⟨none, none, none⟩ X y pt
    ∧ (pt.isSome → ∀ (w0 : World σ D α) (X0 : List D), (usingFit ops enc w q s X y pt).2 = (usingFit ops enc w0 q ⟨none, none, none⟩ X0 y pt).2) := by
  obtain ⟨c, p, ye⟩ := s
  cases hq : q.needsTrain with
  | false =>
    obtain ⟨h1, h2⟩ := hs hq
    simp only at h1 h2
    subst h1 h2
    simp [usingFit, hq]
  | true =>
    unfold usingFit at h ⊢
    simp only [hq, Bool.true_and] at h ⊢
    split at h
    · cases h
    · rename_i hc
      rw [if_neg hc, if_neg hc]
      simp only [if_true] at h ⊢
      cases ht : trainPreds ops enc (npUnique y) (fitIfNeeded ops (fitIfNeeded ops w q.estTrain X y) q.estTest X y) q X pt with
      | error e => rw [ht] at h; cases h
      | ok pr =>
        rw [ht] at h
        simp only at h ⊢
        cases he : extendLabels y pr.len with
        | error e => rw [he] at h; cases h
        | ok ye' =>
          refine ⟨rfl, fun hpt w0 X0 => ?_⟩
          have hc' : ¬ (q.estTrain.isNone && pt.isNone) = true := by
            cases pt with
            | none => cases hpt
            | some _ => simp
          have ht' : trainPreds ops enc (npUnique y) (fitIfNeeded ops (fitIfNeeded ops w0 q.estTrain X0 y) q.estTest X0 y) q X0 pt = .ok pr := by
            rw [← ht]
            cases pt with
            | none => cases hpt
            | some _ => simp [trainPreds]
          rw [if_neg hc', ht']
          simp only [he]

theorem onlyLastFit_aux (ops : EstOps σ D α k) (enc : Bool → α) (o : UcObj α k) (hcls : Forgetful o.cls) (s : UcState o) (hbase : o.cls.needsTrain = false → s.base.predsTrain = none ∧ s.base.yExt = none) (w : World σ D α) (X : List D) (y : List α)
    (pt : Option (Preds α k)) (hfit : (ucFit ops enc w o s X y pt).2.2 = none) :
    (ucFit ops enc w o (ucNew o) X y pt).2.2 = none
    ∧ (ucFit ops enc w o s X y pt).1 = (ucFit ops enc w o (ucNew o) X y pt).1
    ∧ ∀ s2, AfterPredicts ops enc o (ucFit ops enc w o s X y pt).2.1 s2 → ∀ (w' : World σ D α) (Xt : List D) (ptt : Option (Preds α k)),
        (ucPredict ops enc w' o s2 Xt ptt).2 = (ucPredict ops enc w' o (ucFit ops enc w o (ucNew o) X y pt).2.1 Xt ptt).2
        ∧ (pt.isSome → ptt.isSome → ∀ (w0 w0' : World σ D α) (X0 Xt0 : List D),
            (ucPredict ops enc w' o s2 Xt ptt).2 = (ucPredict ops enc w0' o (ucFit ops enc w0 o (ucNew o) X0 y pt).2.1 Xt0 ptt).2) := by
  -- the two calls of fit
  have key : ∃ (m0 : o.cls.S) (b : QState α k), o.cls.learn none y b = .ok m0 ∧ b.classes = some (npUnique y) ∧ (ucFit ops enc w o s X y pt).2.1 = ⟨b, some m0⟩
      ∧ ucFit ops enc w o (ucNew o) X y pt = ((ucFit ops enc w o s X y pt).1, ⟨b, some m0⟩, none)
      ∧ (pt.isSome → ∀ (w0 : World σ D α) (X0 : List D), (ucFit ops enc w0 o (ucNew o) X0 y pt).2.1 = ⟨b, some m0⟩) := by
    unfold ucFit at hfit ⊢
    simp only at hfit ⊢
    cases hpre : o.cls.pre y with
    | some e => simp [hpre] at hfit
    | none =>
      simp only [hpre] at hfit ⊢
      cases hu : (usingFit ops enc w o.cfg s.base X y pt).2.2 with
      | some e => simp [hu] at hfit
      | none =>
        obtain ⟨f1, f2⟩ := usingFit_forgets ops enc w o.cfg s.base X y pt hbase hu
        simp only [hu] at hfit ⊢
        have hl := hcls.learn s.own y (usingFit ops enc w o.cfg s.base X y pt).2.1
        cases hL : o.cls.learn none y (usingFit ops enc w o.cfg s.base X y pt).2.1 with
        | error e =>
          have : o.cls.learn s.own y (usingFit ops enc w o.cfg s.base X y pt).2.1 = .error e := hl.trans hL
          simp [this] at hfit
        | ok m0 =>
          have h1 : o.cls.learn s.own y (usingFit ops enc w o.cfg s.base X y pt).2.1 = .ok m0 := hl.trans hL
          have h2 : o.cls.learn (ucNew o).own y (usingFit ops enc w o.cfg s.base X y pt).2.1 = .ok m0 := hL
          refine ⟨m0, (usingFit ops enc w o.cfg s.base X y pt).2.1, hL, ?_, ?_, ?_, ?_⟩
          · unfold usingFit
            simp only
            split
            · rfl
            · split
              · split
                · rfl
                · split <;> rfl
              · rfl
          · rw [h1]
          · have : (ucNew o).base = ⟨none, none, none⟩ := rfl
            rw [this, ← f1, hu]
            simp only
            rw [h1, h2]
          · intro hpt w0 X0
            have : (ucNew o).base = ⟨none, none, none⟩ := rfl
            rw [this, ← f2 hpt w0 X0, hu]
            simp only
            rw [h2]
  obtain ⟨m0, b, hL, hc, hs1, hnew, hgiven⟩ := key
  refine ⟨by rw [hnew], by rw [hnew], fun s2 h2 w' Xt ptt => ?_⟩
  obtain ⟨Inv, i0, istep⟩ := hcls.answer y b m0 hL hc
  have hs2 : ∃ m, s2 = ⟨b, some m⟩ ∧ Inv m := by
    rw [hs1] at h2
    induction h2 with
    | none => exact ⟨m0, rfl, i0⟩
    | predict _ w X pt ih =>
      obtain ⟨m, rfl, hm⟩ := ih
      unfold ucPredict
      simp only
      split
      · exact ⟨m, rfl, hm⟩
      · exact ⟨_, rfl, (istep m hm _).1⟩
  obtain ⟨m, rfl, hm⟩ := hs2
  have same : ∀ w', (ucPredict ops enc w' o ⟨b, some m⟩ Xt ptt).2 = (ucPredict ops enc w' o ⟨b, some m0⟩ Xt ptt).2 := by
    intro w'
    unfold ucPredict
    simp only
    split
    · rfl
    · exact (istep m hm _).2
  refine ⟨by rw [hnew, same], fun hpt hptt w0 w0' X0 Xt0 => ?_⟩
  rw [hgiven hpt, same]
  unfold ucPredict
  simp only
  have : usingPredict ops enc w' o.cfg (b.classes.getD []) Xt ptt = usingPredict ops enc w0' o.cfg (b.classes.getD []) Xt0 ptt := by
    cases ptt with
    | none => cases hptt
    | some p => cases h : o.cfg.estTest <;> simp [usingPredict, h]
  rw [this]

theorem onlyLastFit_of (cls : UcClass α k) (hcls : Forgetful cls) : OnlyLastFit cls :=
  fun _ _ ops enc e e' s hs w X y pt hfit => onlyLastFit_aux ops enc ⟨cls, e, e'⟩ hcls s (fun hn => used_noTrain ops enc _ hn s hs) w X y pt hfit

/-- A class that keeps nothing between predictions. -/
theorem forgetful_of_keep (cls : UcClass α k) (hl : ∀ m y s, cls.learn m y s = cls.learn none y s) (ha : ∀ m s p, (cls.answer m s p).1 = m) : Forgetful cls :=
  ⟨hl, fun _ s m0 _ _ => ⟨fun m => m = m0, rfl, fun m hm p => by subst hm; exact ⟨ha _ _ _, rfl⟩⟩⟩

/-- **C127** for CC. -/
theorem C127_cc_partial : OnlyLastFit (ccClass : UcClass α k) := onlyLastFit_of _ (forgetful_of_keep _ (fun _ _ _ => rfl) fun _ _ _ => rfl)

/-- **C127** for PCC. -/
theorem C127_pcc_partial : OnlyLastFit (pccClass : UcClass α k) := onlyLastFit_of _ (forgetful_of_keep _ (fun _ _ _ => rfl) fun _ _ _ => rfl)

/-- **C127** for AC. -/
theorem C127_ac_partial (sol : Solvers) (dist : Dist) : OnlyLastFit (acClass sol dist : UcClass α k) := onlyLastFit_of _ (forgetful_of_keep _ (fun _ _ _ => rfl) fun _ _ _ => rfl)

/-- **C127** for PAC. -/
theorem C127_pac_partial (sol : Solvers) (dist : Dist) : OnlyLastFit (pacClass sol dist : UcClass α k) := onlyLastFit_of _ (forgetful_of_keep _ (fun _ _ _ => rfl) fun _ _ _ => rfl)

/-- **C127** for EM. -/
theorem C127_em_partial (eps : ℝ) (maxIter : ℕ) : OnlyLastFit (emClass eps maxIter : UcClass α k) := onlyLastFit_of _ (forgetful_of_keep _ (fun _ _ _ => rfl) fun _ _ _ => rfl)

/-- **C127** for DeBias. -/
theorem C127_debias_partial : OnlyLastFit (deBiasClass : UcClass α 2) := onlyLastFit_of _ (forgetful_of_keep _ (fun _ _ _ => rfl) fun _ _ _ => rfl)

/-- **C127** for EDy. -/
theorem C127_edy_partial {n : ℕ} (qp : QPSolver) (la : LinAlg n) (fuel : ℕ) (d : (Fin (n + 1) → ℝ) → (Fin (n + 1) → ℝ) → ℝ) : OnlyLastFit (edyClass qp la fuel d : UcClass α (n + 1)) :=
  onlyLastFit_of _ (forgetful_of_keep _ (fun _ _ _ => rfl) fun _ _ _ => rfl)

/-- **C127** for CvMy. -/
theorem C127_cvmy_partial {n : ℕ} (qp : QPSolver) (la : LinAlg n) (fuel : ℕ) (d : (Fin (n + 1) → ℝ) → (Fin (n + 1) → ℝ) → ℝ) : OnlyLastFit (cvmyClass qp la fuel d : UcClass α (n + 1)) :=
  onlyLastFit_of _ (forgetful_of_keep _ (fun _ _ _ => rfl) fun _ _ _ => rfl)

/-- **C127** for SORDy. -/
theorem C127_sordy_partial (k : ℕ) (sort : List (ℝ × ℤ) → List (ℝ × ℤ)) (tol : ℝ) : OnlyLastFit (sordyClass k sort tol) := onlyLastFit_of _ (forgetful_of_keep _ (fun _ _ _ => rfl) fun _ _ _ => rfl)

/-! ## Solvers and searches that keep something -/

/-- A solver whose solution does not depend on the starting point. -/
def StartFree (sv : CvxSolver) : Prop := ∀ (loss : CvxLoss) {m n : ℕ} (T : Matrix (Fin m) (Fin n) ℝ) (q : Fin m → ℝ) (start : Option (Fin n → ℝ)), sv.solve loss T q start = sv.solve loss T q none

omit [LinearOrder α] in
theorem solveCvx_same (sv : CvxSolver) (hsv : StartFree sv) (loss : CvxLoss) (train : Train) (q : Vec) (pr : Option CvxProblem) (h : ∀ p, pr = some p → p.toTrain = train) :
    (∃ e, solveCvx sv loss train q pr = .error e ∧ solveCvx sv loss train q none = .error e)
    ∨ ∃ p x, p.toTrain = train ∧ solveCvx sv loss train q pr = .ok (p, x) ∧ solveCvx sv loss train q none = .ok (p, x) := by
  cases pr with
  | none =>
    cases hs : solveCvx sv loss train q none with
    | error e => exact .inl ⟨e, rfl, rfl⟩
    | ok r =>
      refine .inr ⟨r.1, r.2, ?_, rfl, rfl⟩
      unfold solveCvx at hs
      simp only at hs
      split at hs
      · cases hs
      · cases hs; rfl
  | some p =>
    obtain ⟨t, last⟩ := p
    have := h _ rfl
    simp only at this
    subst this
    unfold solveCvx
    simp only
    cases setParameter t.m q with
    | error e => exact .inl ⟨e, rfl, rfl⟩
    | ok q' => exact .inr ⟨⟨t, sv.solve loss t.T q' none⟩, ⟨t.n, sv.solve loss t.T q' none⟩, rfl, by simp only [hsv loss t.T _ (some last)], rfl⟩

omit [LinearOrder α] in
theorem globalSearch_same {M T : Type*} (dist : M → T → Fl) (mix : ℝ → M) (test : T) (tol : ℝ) (c : Option (ℕ → M)) (hc : ∀ g, c = some g → g = fun i : ℕ => mix ((i : ℝ) / 100)) :
    globalSearch dist mix test tol c true = globalSearch dist mix test tol none true
    ∧ ∀ c' p, globalSearch dist mix test tol none true = .ok (c', p) → c' = some fun i : ℕ => mix ((i : ℝ) / 100) := by
  constructor
  · cases c with
    | none => rfl
    | some g =>
      have := hc g rfl
      subst this
      rfl
  · intro c' p h
    unfold globalSearch at h
    simp only at h
    cases hg : globalCore (fun i => dist (mix ((i : ℝ) / 100)) test) (goldenSectionSearch (fun p => dist (mix p) test) tol) with
    | error e => rw [hg] at h; cases h
    | ok r => rw [hg] at h; cases h; rfl

omit [LinearOrder α] in
theorem matchAnswer_same (sv : CvxSolver) (hsv : StartFree sv) (qp : QPSolver) (tol : ℝ) {F : Type} {m nc : ℕ} (distance : DfDistance m) (s0 : MatchState F m nc) (hp : s0.problem = none) (hm : s0.mixtures = none) :
    ∃ Inv : MatchState F m nc → Prop, Inv s0 ∧ ∀ s, Inv s → s.fitted = s0.fitted ∧ ∀ q, Inv (matchAnswer sv qp tol distance s q).1 ∧ (matchAnswer sv qp tol distance s q).2 = (matchAnswer sv qp tol distance s0 q).2 := by
  obtain ⟨f0, T0, par0, pr0, mx0⟩ := s0
  simp only at hp hm
  subst hp hm
  refine ⟨fun s => s.fitted = f0 ∧ s.train = T0 ∧ s.par = par0 ∧ (∀ p, s.problem = some p → p.toTrain = ⟨m, nc, T0⟩)
    ∧ (∀ h : 1 < nc, ∀ g, s.mixtures = some g → g = fun i : ℕ => mixtureOfPdfs ((i : ℝ) / 100) (fun i => T0 i ⟨1, h⟩) (fun i => T0 i ⟨0, by omega⟩)), ⟨rfl, rfl, rfl, by simp, by simp⟩, ?_⟩
  rintro ⟨f, T, par, pr, mx⟩ ⟨h1, h2, h3, h4, h5⟩
  simp only at h1 h2 h3 h4 h5
  subst h1 h2 h3
  refine ⟨rfl, fun q => ?_⟩
  cases distance with
  | hd =>
    unfold matchAnswer
    simp only
    rcases solveCvx_same sv hsv .hd ⟨m, nc, T⟩ ⟨m, q⟩ pr h4 with ⟨e, e1, e2⟩ | ⟨p, x, hpt, e1, e2⟩
    · rw [e1, e2]
      exact ⟨⟨rfl, rfl, rfl, h4, h5⟩, rfl⟩
    · rw [e1, e2]
      exact ⟨⟨rfl, rfl, rfl, fun p' hp' => by cases hp'; exact hpt, h5⟩, rfl⟩
  | l1 =>
    unfold matchAnswer
    simp only
    rcases solveCvx_same sv hsv .l1 ⟨m, nc, T⟩ ⟨m, q⟩ pr h4 with ⟨e, e1, e2⟩ | ⟨p, x, hpt, e1, e2⟩
    · rw [e1, e2]
      exact ⟨⟨rfl, rfl, rfl, h4, h5⟩, rfl⟩
    · rw [e1, e2]
      exact ⟨⟨rfl, rfl, rfl, fun p' hp' => by cases hp'; exact hpt, h5⟩, rfl⟩
  | l2 =>
    unfold matchAnswer
    cases par with
    | none => exact ⟨⟨rfl, rfl, rfl, h4, h5⟩, rfl⟩
    | some par => exact ⟨⟨rfl, rfl, rfl, h4, h5⟩, rfl⟩
  | fn d =>
    unfold matchAnswer
    by_cases h : 1 < nc
    · simp only [dif_pos h]
      obtain ⟨g1, g2⟩ := globalSearch_same d (fun p => mixtureOfPdfs p (fun i => T i ⟨1, h⟩) (fun i => T i ⟨0, by omega⟩)) q tol mx (h5 h)
      rw [g1]
      cases hg : globalSearch d (fun p => mixtureOfPdfs p (fun i => T i ⟨1, h⟩) (fun i => T i ⟨0, by omega⟩)) q tol none true with
      | error e => exact ⟨⟨rfl, rfl, rfl, h4, h5⟩, rfl⟩
      | ok r =>
        obtain ⟨c, p⟩ := r
        refine ⟨⟨rfl, rfl, rfl, h4, fun _ g hg' => ?_⟩, rfl⟩
        have := g2 c p hg
        subst this
        cases hg'
        rfl
    · simp only [dif_neg h]
      exact ⟨⟨trivial, trivial, trivial, h4, h5⟩, trivial⟩

omit [LinearOrder α] in
theorem warmPredict_same {F B : Type*} (Q : WarmQuantifier F B) (sv : CvxSolver) (hsv : StartFree sv) (loss : CvxLoss) (f : F) (pr : Option CvxProblem) (h : ∀ p, pr = some p → p.toTrain = Q.train f) (b : B) :
    (warmPredict Q sv loss ⟨f, pr⟩ b).1.fitted = f ∧ (∀ p, (warmPredict Q sv loss ⟨f, pr⟩ b).1.problem = some p → p.toTrain = Q.train f)
    ∧ (warmPredict Q sv loss ⟨f, pr⟩ b).2 = (warmPredict Q sv loss ⟨f, none⟩ b).2 := by
  unfold warmPredict
  simp only
  split
  · exact ⟨rfl, h, rfl⟩
  · exact ⟨rfl, h, rfl⟩
  · rename_i q _
    rcases solveCvx_same sv hsv loss (Q.train f) q pr h with ⟨e, e1, e2⟩ | ⟨p, x, hpt, e1, e2⟩
    · rw [e1, e2]
      exact ⟨rfl, h, rfl⟩
    · rw [e1, e2]
      exact ⟨rfl, fun p' hp' => by cases hp'; exact hpt, rfl⟩

theorem forgetful_dfy (ppf : ℝ → EReal) (sv : CvxSolver) (hsv : StartFree sv) (qp : QPSolver) (la : LinAlg k) (fuel : ℕ) (tol : ℝ) (cfg : DfCfg) (distance : DfDistance (nDescriptors k * cfg.nBins)) : Forgetful (dfyClass ppf sv qp la fuel tol cfg distance : UcClass α k) := by
  refine ⟨fun _ _ _ => rfl, fun y s m0 hm0 _ => ?_⟩
  have h0 : m0.problem = none ∧ m0.mixtures = none := by
    simp only [dfyClass, bind, Except.bind] at hm0
    repeat' split at hm0
    all_goals first | cases hm0; done | (cases hm0; exact ⟨rfl, rfl⟩)
  obtain ⟨Inv, i0, istep⟩ := matchAnswer_same sv hsv qp tol distance m0 h0.1 h0.2
  refine ⟨Inv, i0, fun m hm p => ?_⟩
  obtain ⟨hf, ha⟩ := istep m hm
  simp only [dfyClass, hf]
  split
  · exact ⟨hm, rfl⟩
  · exact ha _

/-- **C127** for DFy, HDy and MMy, with a solver whose solution does not depend on the starting point. -/
theorem C127_dfy_partial (ppf : ℝ → EReal) (sv : CvxSolver) (hsv : StartFree sv) (qp : QPSolver) (la : LinAlg k) (fuel : ℕ) (tol : ℝ) (cfg : DfCfg) (distance : DfDistance (nDescriptors k * cfg.nBins)) :
    OnlyLastFit (dfyClass ppf sv qp la fuel tol cfg distance : UcClass α k) := onlyLastFit_of _ (forgetful_dfy ppf sv hsv qp la fuel tol cfg distance)

theorem forgetful_friedman (sv : CvxSolver) (hsv : StartFree sv) (qp : QPSolver) (la : LinAlg k) (fuel : ℕ) (tol : ℝ) (distance : DfDistance k) : Forgetful (friedmanClass sv qp la fuel tol distance : UcClass α k) := by
  refine ⟨fun _ _ _ => rfl, fun y s m0 hm0 _ => ?_⟩
  have h0 : m0.problem = none ∧ m0.mixtures = none := by
    simp only [friedmanClass, bind, Except.bind] at hm0
    repeat' split at hm0
    all_goals first | cases hm0; done | (cases hm0; exact ⟨rfl, rfl⟩)
  obtain ⟨Inv, i0, istep⟩ := matchAnswer_same sv hsv qp tol distance m0 h0.1 h0.2
  refine ⟨Inv, i0, fun m hm p => ?_⟩
  obtain ⟨hf, ha⟩ := istep m hm
  simp only [friedmanClass, hf]
  split
  · exact ⟨hm, rfl⟩
  · exact ha _

/-- **C127** for FriedmanME, with a solver whose solution does not depend on the starting point. -/
theorem C127_friedman_partial (sv : CvxSolver) (hsv : StartFree sv) (qp : QPSolver) (la : LinAlg k) (fuel : ℕ) (tol : ℝ) (distance : DfDistance k) :
    OnlyLastFit (friedmanClass sv qp la fuel tol distance : UcClass α k) := onlyLastFit_of _ (forgetful_friedman sv hsv qp la fuel tol distance)

theorem forgetful_aco (sv : CvxSolver) (hsv : StartFree sv) : Forgetful (acoClass sv : UcClass α k) := by
  refine ⟨fun _ _ _ => rfl, fun y s m0 hm0 _ => ?_⟩
  obtain ⟨f, hf⟩ : ∃ f, m0 = (⟨f, none⟩ : WarmState (AcoFit α)) := by
    simp only [acoClass, bind, Except.bind] at hm0
    repeat' split at hm0
    all_goals first | cases hm0; done | (cases hm0; exact ⟨_, rfl⟩)
  rw [hf]
  refine ⟨fun m => m.fitted = f ∧ ∀ p, m.problem = some p → p.toTrain = ⟨f.classes.length, f.classes.length, fun i j => flReal (f.train i j)⟩, ⟨rfl, by simp⟩, ?_⟩
  rintro ⟨f', pr⟩ ⟨h1, h2⟩ p
  simp only at h1 h2
  subst h1
  simp only [acoClass]
  split
  · exact ⟨⟨rfl, h2⟩, rfl⟩
  · split
    · exact ⟨⟨rfl, h2⟩, rfl⟩
    · simp only [acoSolve]
      have := fun Q hQ b => warmPredict_same (F := AcoFit α) (B := Unit) Q sv hsv .l1 f' pr hQ b
      exact ⟨⟨(this _ h2 ()).1, (this _ h2 ()).2.1⟩, by rw [(this _ h2 ()).2.2]⟩

/-- **C127** for ACOrdinal, with a solver whose solution does not depend on the starting point. -/
theorem C127_aco_partial (sv : CvxSolver) (hsv : StartFree sv) :
    OnlyLastFit (acoClass sv : UcClass α k) := onlyLastFit_of _ (forgetful_aco sv hsv)

theorem forgetful_pdfo (sv : CvxSolver) (hsv : StartFree sv) (qp : QPSolver) (la : LinAlg k) (fuel nBins : ℕ) (method : OrdMethod) (dist : OrdDist) : Forgetful (pdfoClass sv qp la fuel nBins method dist : UcClass α k) := by
  refine ⟨fun _ _ _ => rfl, fun y s m0 hm0 _ => ?_⟩
  obtain ⟨f, hf⟩ : ∃ f, m0 = (⟨f, none⟩ : WarmState (PdfoFit nBins k)) := by
    simp only [pdfoClass, bind, Except.bind] at hm0
    repeat' split at hm0
    all_goals first | cases hm0; done | (cases hm0; exact ⟨_, rfl⟩)
  rw [hf]
  refine ⟨fun m => m.fitted = f ∧ ∀ p, m.problem = some p → p.toTrain = (pdfoQ qp method dist).train f, ⟨rfl, by simp⟩, ?_⟩
  rintro ⟨f', pr⟩ ⟨h1, h2⟩ p
  simp only at h1 h2
  subst h1
  simp only [pdfoClass]
  split
  · exact ⟨⟨rfl, h2⟩, rfl⟩
  · rename_i rows _
    obtain ⟨w1, w2, w3⟩ := warmPredict_same (pdfoQ qp method dist) sv hsv (ordLoss dist) f' pr h2 rows
    cases dist with
    | other => exact ⟨⟨rfl, h2⟩, rfl⟩
    | _ => exact ⟨⟨w1, w2⟩, by simp only [pdfoPredict, w3]⟩

/-- **C127** for PDFOrdinaly, with a solver whose solution does not depend on the starting point. -/
theorem C127_pdfo_partial (sv : CvxSolver) (hsv : StartFree sv) (qp : QPSolver) (la : LinAlg k) (fuel nBins : ℕ) (method : OrdMethod) (dist : OrdDist) :
    OnlyLastFit (pdfoClass sv qp la fuel nBins method dist : UcClass α k) := onlyLastFit_of _ (forgetful_pdfo sv hsv qp la fuel nBins method dist)

theorem forgetful_quanty (k : ℕ) (sort : List (ℝ × α) → List (ℝ × α)) (n : ℕ) (dist : (Fin n → Fl) → (Fin n → Fl) → Fl) (tol : ℝ) (d : α) : Forgetful (quantyClass k sort n dist tol d) := by
  refine ⟨fun _ _ _ => rfl, fun y s m0 hm0 hc => ?_⟩
  obtain ⟨f, hf⟩ : ∃ f, m0 = (⟨f, none⟩ : MixState (QuantyFit α) (Fin n → Fl)) := by
    simp only [quantyClass, bind, Except.bind] at hm0
    repeat' split at hm0
    all_goals first | cases hm0; done | (cases hm0; exact ⟨_, rfl⟩)
  rw [hf]
  refine ⟨fun m => m.fitted.train = f.train ∧ ∀ g, m.mixtures = some g → g = fun i : ℕ => (quantyQ n dist tol d).mix { f with classes := s.classes.getD [] } ((i : ℝ) / 100), ⟨rfl, by simp⟩, ?_⟩
  rintro ⟨⟨c, tr⟩, mx⟩ ⟨h1, h2⟩ p
  simp only at h1 h2
  subst h1
  simp only [quantyClass]
  split
  · exact ⟨⟨rfl, h2⟩, rfl⟩
  · rename_i rows _
    simp only [quantyPredict, mixPredict]
    split
    · exact ⟨⟨rfl, h2⟩, rfl⟩
    · rename_i t _
      obtain ⟨g1, g2⟩ := globalSearch_same (quantyQ n dist tol d).dist ((quantyQ n dist tol d).mix ⟨s.classes.getD [], f.train⟩) t (quantyQ n dist tol d).tol mx h2
      rw [g1]
      cases hg : globalSearch (quantyQ n dist tol d).dist ((quantyQ n dist tol d).mix ⟨s.classes.getD [], f.train⟩) t (quantyQ n dist tol d).tol none true with
      | error e => exact ⟨⟨rfl, h2⟩, rfl⟩
      | ok r =>
        obtain ⟨c', p'⟩ := r
        refine ⟨⟨rfl, fun g hg' => ?_⟩, rfl⟩
        have := g2 c' p' hg
        subst this
        cases hg'
        rfl

/-- **C127** for QUANTy. -/
theorem C127_quanty_partial (k : ℕ) (sort : List (ℝ × α) → List (ℝ × α)) (n : ℕ) (dist : (Fin n → Fl) → (Fin n → Fl) → Fl) (tol : ℝ) (d : α) :
    OnlyLastFit (quantyClass k sort n dist tol d) := onlyLastFit_of _ (forgetful_quanty k sort n dist tol d)

/-- **C127, refuted** for the estimators, whatever the class: after a call of `fit` that returned, another one trains no estimator, so that `predict` asks classifiers trained with the first training set. -/
theorem C127_not_retrained_refuted (ops : EstOps σ D α k) (hfit : ∀ s X y, ops.notFitted (ops.fit s X y) = false) (enc : Bool → α) (o : UcObj α k) (w : World σ D α) (s : UcState o) (X1 X2 : List D) (y1 y2 : List α) (pt1 pt2 : Option (Preds α k))
    (h1 : (ucFit ops enc w o s X1 y1 pt1).2.2 = none) :
    (ucFit ops enc (ucFit ops enc w o s X1 y1 pt1).1 o (ucFit ops enc w o s X1 y1 pt1).2.1 X2 y2 pt2).1 = (ucFit ops enc w o s X1 y1 pt1).1 := by
  have htr := ucFit_trained ops hfit enc o w s X1 y1 pt1 h1
  set w1 := (ucFit ops enc w o s X1 y1 pt1).1
  have hu : ∀ s', (usingFit ops enc w1 o.cfg s' X2 y2 pt2).1 = w1 := by
    intro s'
    rw [usingFit_world]
    split
    · rfl
    · rw [fitIfNeeded_done ops w1 o.cfg.estTrain X2 y2 fun e he => htr e (.inl he), fitIfNeeded_done ops w1 o.cfg.estTest X2 y2 fun e he => htr e (.inr he)]
  unfold ucFit
  simp only
  split
  · rfl
  · split
    · exact hu _
    · split <;> exact hu _

end

/-- A classifier that always answers the last label it saw. -/
def lastLabel : EstOps (Option ℤ) Unit ℤ 2 where
  notFitted s := s.isNone
  fit _ _ y := y.getLast?
  predict s X := X.map fun _ => s.getD 0
  predictProba _ X := X.map fun _ => ![1, 0]

/-- **C127, refuted**: a CC fitted with one training set and then with another answers `[1, 0]` to a bag; a new one with a new classifier, fitted with the second training set, answers `[0, 1]`. -/
theorem C127_refit_refuted (enc : Bool → ℤ) :
    let o : UcObj ℤ 2 := ⟨ccClass, none, some 0⟩
    let w : World (Option ℤ) Unit ℤ := ⟨fun _ => none, []⟩
    let r1 := ucFit lastLabel enc w o (ucNew o) [(), ()] [2, 1] none
    let r2 := ucFit lastLabel enc r1.1 o r1.2.1 [(), ()] [1, 2] none
    r1.2.2 = none ∧ r2.2.2 = none ∧ (ucPredict lastLabel enc r2.1 o r2.2.1 [()] none).2 = .ok (some [Fl.fin 1, Fl.fin 0])
      ∧ ucRun lastLabel enc w o [(), ()] [1, 2] none [()] none = .ok (some [Fl.fin 0, Fl.fin 1]) := by
  have l1 : npUnique ([1, 2] : List ℤ) = [1, 2] := labelsOf_eq _ _ (by decide) (by decide)
  have e1 : ∀ l : List ℤ, l = [1, 2] → vecList (classFreqs l [1]) = [Fl.fin 1, Fl.fin 0] := by
    rintro _ rfl
    simp [vecList, classFreqs, Fl.fin_div_def]
  have e2 : ∀ l : List ℤ, l = [1, 2] → vecList (classFreqs l [2]) = [Fl.fin 0, Fl.fin 1] := by
    rintro _ rfl
    simp [vecList, classFreqs, Fl.fin_div_def]
  refine ⟨rfl, rfl, ?_, ?_⟩
  · change Except.ok (some (vecList (classFreqs (npUnique [1, 2]) [1]))) = _
    rw [e1 _ l1]
  · change Except.ok (some (vecList (classFreqs (npUnique [1, 2]) [2]))) = _
    rw [e2 _ l1]

/-- Non-vacuity of C127: a CC that has been fitted and has predicted is fitted again by a call that returns. -/
example (enc : Bool → ℤ) :
    let o : UcObj ℤ 2 := ⟨ccClass, none, some 0⟩
    let w : World (Option ℤ) Unit ℤ := ⟨fun _ => none, []⟩
    ∃ s : UcState o, Used lastLabel enc o s ∧ s.base.classes = some (npUnique [2, 1]) ∧ ∃ w1 : World (Option ℤ) Unit ℤ, (ucFit lastLabel enc w1 o s [(), ()] [3, 4] none).2.2 = none := by
  intro o w
  exact ⟨_, .predict (.fit .new w [(), ()] [2, 1] none) w [()] none, rfl, w, rfl⟩

/-- Non-vacuity of `StartFree`: a solver that answers the uniform prevalences. -/
example : StartFree ⟨fun _ {_ n} _ _ _ => fun _ => 1 / n⟩ := fun _ {_ _} _ _ _ => rfl

end Verif.Props
