import Verif.Props.BagOrder
import Verif.Props.EqualCount
import Verif.Proof.PriorShift

/-!
# C129: a training set counts only through the distribution of its examples, labels and predictions
-/

namespace Verif.Props

open Verif.Model Verif.Spec Verif.Proof

variable {σ D α : Type} {k : ℕ}

/-- Two lists of labels with predictions of the same kind, such that the pairs of label and prediction have the same relative frequencies. -/
inductive SamePairs : List α → Preds α k → List α → Preds α k → Prop
  | crisp {T T' : List (α × α)} (h : SameFrequencies T T') : SamePairs (T.map Prod.fst) (.crisp (T.map Prod.snd)) (T'.map Prod.fst) (.crisp (T'.map Prod.snd))
  | probs1 {T T' : List (α × ℝ)} (h : SameFrequencies T T') : SamePairs (T.map Prod.fst) (.probs1 (T.map Prod.snd)) (T'.map Prod.fst) (.probs1 (T'.map Prod.snd))
  | probs {T T' : List (α × (Fin k → ℝ))} (h : SameFrequencies T T') : SamePairs (T.map Prod.fst) (.probs (T.map Prod.snd)) (T'.map Prod.fst) (.probs (T'.map Prod.snd))

/-- An estimator that learns only from the distribution of the pairs of example and label. -/
def LearnsDistribution (ops : EstOps σ D α k) : Prop := ∀ (s : σ) (T T' : List (D × α)), SameFrequencies T T' → ops.fit s (T.map Prod.fst) (T.map Prod.snd) = ops.fit s (T'.map Prod.fst) (T'.map Prod.snd)

/-- The property for a class, when the sizes of the training sets are related by `R`: `fit` on training sets with the same distribution, followed by `predict`, gives the same answer (or the same exception), with the
predictions given by the user, whatever the estimators, or with those of estimators that learn from the distribution and predict every example by itself. -/
def DistributionDecides [LinearOrder α] (cls : UcClass α k) (R : ℕ → ℕ → Prop) : Prop :=
  ∀ (σ D : Type) (ops : EstOps σ D α k) (enc : Bool → α) (w : World σ D α) (e e' : Option ℕ),
    (∀ X X' y y' p p', SamePairs y p y' p' → R y.length y'.length → ∀ Xt q,
      ucRun ops enc w ⟨cls, e, e'⟩ X y (some p) Xt (some q) = ucRun ops enc w ⟨cls, e, e'⟩ X' y' (some p') Xt (some q))
    ∧ (RowWise ops → LearnsDistribution ops → ∀ T T' : List (D × α), SameFrequencies T T' → R T.length T'.length → ∀ Xt q,
      ucRun ops enc w ⟨cls, e, e'⟩ (T.map Prod.fst) (T.map Prod.snd) none Xt q = ucRun ops enc w ⟨cls, e, e'⟩ (T'.map Prod.fst) (T'.map Prod.snd) none Xt q)

/-- The bag has at least one example. -/
def SomeExample (Xt : List D) (q : Option (Preds α k)) : Prop := match q with
  | some p => p.len ≠ 0
  | none => Xt ≠ []

/-- The same for training sets whose labels meet `C`; when `ne` holds, for bags with at least one example. -/
def DistributionDecidesOn [LinearOrder α] (cls : UcClass α k) (R : ℕ → ℕ → Prop) (C : List α → Prop) (ne : Prop) : Prop :=
  ∀ (σ D : Type) (ops : EstOps σ D α k) (enc : Bool → α) (w : World σ D α) (e e' : Option ℕ),
    (∀ X X' y y' p p', SamePairs y p y' p' → R y.length y'.length → C y → ∀ Xt q, (ne → q.len ≠ 0) →
      ucRun ops enc w ⟨cls, e, e'⟩ X y (some p) Xt (some q) = ucRun ops enc w ⟨cls, e, e'⟩ X' y' (some p') Xt (some q))
    ∧ (RowWise ops → LearnsDistribution ops → ∀ T T' : List (D × α), SameFrequencies T T' → R T.length T'.length → C (T.map Prod.snd) → ∀ Xt q, (ne → SomeExample Xt q) →
      ucRun ops enc w ⟨cls, e, e'⟩ (T.map Prod.fst) (T.map Prod.snd) none Xt q = ucRun ops enc w ⟨cls, e, e'⟩ (T'.map Prod.fst) (T'.map Prod.snd) none Xt q)

/-! ## Samples of pairs -/

theorem SamePairs.labels {y y' : List α} {p p' : Preds α k} (h : SamePairs y p y' p') : SameFrequencies y y' := by
  cases h with
  | crisp h => exact h.map _
  | probs1 h => exact h.map _
  | probs h => exact h.map _

theorem SamePairs.len {y y' : List α} {p p' : Preds α k} (h : SamePairs y p y' p') : y.length = p.len ∧ y'.length = p'.len := by
  cases h <;> simp [Preds.len]

theorem npUnique_same [LinearOrder α] {y y' : List α} (h : SameFrequencies y y') : npUnique y = npUnique y' := by
  unfold npUnique
  congr 1
  ext a
  simpa using h.mem_iff a

theorem zip_fst_snd {β γ : Type*} (T : List (β × γ)) : (T.map Prod.fst).zip (T.map Prod.snd) = T := by
  induction T with
  | nil => rfl
  | cons a T ih => simp [ih]

theorem filter_flatten_replicate {β : Type*} (p : β → Bool) (r : ℕ) (l : List β) : ((List.replicate r l).flatten).filter p = (List.replicate r (l.filter p)).flatten := by
  induction r with
  | zero => rfl
  | succ r ih => rw [List.replicate_succ, List.flatten_cons, List.filter_append, ih, List.replicate_succ, List.flatten_cons]

theorem filter_same {β : Type*} (p : β → Bool) {l l' : List β} (h : SameFrequencies l l') : l.filter p = [] ∧ l'.filter p = [] ∨ SameFrequencies (l.filter p) (l'.filter p) := by
  by_cases h0 : l.filter p = []
  · refine Or.inl ⟨h0, ?_⟩
    rw [List.filter_eq_nil_iff] at h0 ⊢
    exact fun a ha => h0 a ((h.mem_iff a).2 ha)
  · right
    obtain ⟨-, -, r, r', hr, hr', hp⟩ := sameFrequencies_iff.1 h
    refine sameFrequencies_iff.2 ⟨h0, fun h1 => h0 ?_, r, r', hr, hr', ?_⟩
    · rw [List.filter_eq_nil_iff] at h1 ⊢
      exact fun a ha => h1 a ((h.mem_iff a).1 ha)
    · rw [← filter_flatten_replicate, ← filter_flatten_replicate]
      exact hp.filter p

theorem selectRows_same [DecidableEq α] {β : Type*} {T T' : List (α × β)} (h : SameFrequencies T T') (c : α) :
    selectRows (T.map Prod.fst) (T.map Prod.snd) c = [] ∧ selectRows (T'.map Prod.fst) (T'.map Prod.snd) c = []
      ∨ SameFrequencies (selectRows (T.map Prod.fst) (T.map Prod.snd) c) (selectRows (T'.map Prod.fst) (T'.map Prod.snd) c) := by
  unfold selectRows
  rw [zip_fst_snd, zip_fst_snd]
  rcases filter_same (fun t : α × β => decide (t.1 = c)) h with ⟨h1, h2⟩ | h1
  · exact Or.inl ⟨by rw [h1]; rfl, by rw [h2]; rfl⟩
  · exact Or.inr (h1.map _)

/-- Samples with the same distribution and the same size are permutations of each other. -/
theorem perm_of_same {β : Type*} {l l' : List β} (h : SameFrequencies l l') (hl : l.length = l'.length) : l.Perm l' := by
  classical
  rw [List.perm_iff_count]
  intro a
  have h1 := h.2.2 a
  unfold freq at h1
  have h0 : (l'.length : ℝ) ≠ 0 := by simpa using h.2.1
  rw [hl, div_left_inj' h0] at h1
  have h2 : (l.count a : ℝ) = l'.count a := by convert h1
  exact_mod_cast h2

/-! ## From the class to the calls -/

/-- What a `fit` of a new object leaves and what `predict` then answers, for two training sets. -/
def LearnsSame (cls : UcClass α k) (ne : Prop) (y y' : List α) (b b' : QState α k) : Prop :=
  (∃ x, cls.learn none y b = .error x ∧ cls.learn none y' b' = .error x)
  ∨ ∃ m m', cls.learn none y b = .ok m ∧ cls.learn none y' b' = .ok m' ∧ ∀ p, (ne → p.len ≠ 0) → (cls.answer m b p).2 = (cls.answer m' b' p).2

theorem mapM_ok_length {β γ : Type} (f : β → Except Err γ) (l : List β) (r : List γ) (h : l.mapM f = .ok r) : r.length = l.length := by
  induction l generalizing r with
  | nil => cases h; rfl
  | cons a l ih =>
    rw [List.mapM_cons] at h
    cases ha : f a with
    | error e => rw [ha] at h; cases h
    | ok b =>
      cases hl : l.mapM f with
      | error e => rw [ha, hl] at h; cases h
      | ok r' =>
        rw [ha, hl] at h
        cases h
        simp [ih r' hl]

/-- The predictions of a bag with examples are not empty. -/
theorem usingPredict_len (ops : EstOps σ D α k) (enc : Bool → α) (w : World σ D α) (o : UcObj α k) (cl : List α) (Xt : List D) (q : Option (Preds α k)) (p : Preds α k) (h : usingPredict ops enc w o.cfg cl Xt q = .ok p)
    (hne : SomeExample Xt q) (hrw : q = none → RowWise ops) : p.len ≠ 0 := by
  have conv : ∀ (q : Preds α k) r, probs2crisps enc cl q = .ok r → r.length = q.len := by
    intro q r hr
    cases q with
    | crisp l => simp only [probs2crisps, Except.ok.injEq] at hr; subst hr; rfl
    | probs1 l => simp only [probs2crisps, Except.ok.injEq] at hr; subst hr; simp [Preds.len]
    | probs l =>
      simp only [probs2crisps] at hr
      have h := mapM_ok_length _ l r hr
      simpa [Preds.len] using h
  cases q with
  | some q =>
    have h' : (if o.cfg.probabilistic then .ok q else (probs2crisps enc cl q).map Preds.crisp : Except Err (Preds α k)) = .ok p := by
      rw [← h]
      unfold usingPredict
      cases o.cfg.estTest <;> rfl
    split_ifs at h' with h1
    · cases h'; exact hne
    · cases hr : probs2crisps enc cl q with
      | error e => rw [hr] at h'; cases h'
      | ok r =>
        rw [hr] at h'
        cases h'
        show r.length ≠ 0
        rw [conv q r hr]
        exact hne
  | none =>
    have hX : Xt.length ≠ 0 := by simpa [SomeExample] using hne
    unfold usingPredict at h
    cases he : o.cfg.estTest with
    | none => rw [he] at h; cases h
    | some i =>
      rw [he] at h
      simp only at h
      obtain ⟨⟨g, hg⟩, f, hf⟩ := hrw rfl (w.est i)
      split_ifs at h
      · cases h
        simpa [Preds.len, hf] using hX
      · cases h
        simpa [Preds.len, hg] using hX

/-- `predict` after related fits. -/
theorem ucPredict_same (ne : Prop) (ops : EstOps σ D α k) (enc : Bool → α) (w w' : World σ D α) (o : UcObj α k) (b b' : QState α k) (m m' : o.cls.S) (hcl : b.classes = b'.classes)
    (hm : ∀ p, (ne → p.len ≠ 0) → (o.cls.answer m b p).2 = (o.cls.answer m' b' p).2) (Xt : List D) (q : Option (Preds α k)) (hq : q = none → w.est = w'.est)
    (hne : ne → SomeExample Xt q) (hrw : ne → q = none → RowWise ops) :
    (ucPredict ops enc w o ⟨b, some m⟩ Xt q).2 = (ucPredict ops enc w' o ⟨b', some m'⟩ Xt q).2 := by
  have hu : usingPredict ops enc w o.cfg (b.classes.getD []) Xt q = usingPredict ops enc w' o.cfg (b'.classes.getD []) Xt q := by
    rw [hcl]
    unfold usingPredict
    cases q with
    | some p => cases o.cfg.estTest <;> rfl
    | none => rw [hq rfl]
  unfold ucPredict
  simp only [hu]
  cases hp : usingPredict ops enc w' o.cfg (b'.classes.getD []) Xt q with
  | error x => rfl
  | ok p => exact hm p fun hn => usingPredict_len ops enc w' o _ Xt q p hp (hne hn) (hrw hn)

/-- What `super().fit` leaves for two training sets. -/
def FitsSame (cls : UcClass α k) (ne : Prop) (y y' : List α) (r r' : World σ D α × QState α k × Option Err) : Prop :=
  (∃ x, r.2.2 = some x ∧ r'.2.2 = some x)
  ∨ r.2.2 = none ∧ r'.2.2 = none ∧ r.2.1.classes = r'.2.1.classes ∧ LearnsSame cls ne y y' r.2.1 r'.2.1

theorem ucRun_same [LinearOrder α] (ne : Prop) (ops : EstOps σ D α k) (enc : Bool → α) (w : World σ D α) (o : UcObj α k) (X X' : List D) (y y' : List α) (pt pt' : Option (Preds α k))
    (hpre : o.cls.pre y = o.cls.pre y')
    (h : FitsSame o.cls ne y y' (usingFit ops enc w o.cfg (ucNew o).base X y pt) (usingFit ops enc w o.cfg (ucNew o).base X' y' pt')) (Xt : List D) (q : Option (Preds α k))
    (hq : q = none → (usingFit ops enc w o.cfg (ucNew o).base X y pt).1.est = (usingFit ops enc w o.cfg (ucNew o).base X' y' pt').1.est)
    (hne : ne → SomeExample Xt q) (hrw : ne → q = none → RowWise ops) :
    ucRun ops enc w o X y pt Xt q = ucRun ops enc w o X' y' pt' Xt q := by
  unfold ucRun ucFit
  rw [hpre]
  cases o.cls.pre y' with
  | some x => rfl
  | none =>
    simp only
    rcases h with ⟨x, h1, h2⟩ | ⟨h1, h2, h3, h4⟩
    · simp only [h1, h2]
    · simp only [h1, h2]
      rcases h4 with ⟨x, e1, e2⟩ | ⟨m, m', e1, e2, e3⟩
      · have e1' : o.cls.learn (ucNew o).own y (usingFit ops enc w o.cfg (ucNew o).base X y pt).2.1 = .error x := e1
        have e2' : o.cls.learn (ucNew o).own y' (usingFit ops enc w o.cfg (ucNew o).base X' y' pt').2.1 = .error x := e2
        simp only [e1', e2']
      · have e1' : o.cls.learn (ucNew o).own y (usingFit ops enc w o.cfg (ucNew o).base X y pt).2.1 = .ok m := e1
        have e2' : o.cls.learn (ucNew o).own y' (usingFit ops enc w o.cfg (ucNew o).base X' y' pt').2.1 = .ok m' := e2
        simp only [e1', e2']
        exact ucPredict_same ne ops enc _ _ o _ _ m m' h3 e3 Xt q hq hne hrw

/-- The conversion of probabilities into labels, as a function of one row, when no row fails. -/
theorem mapM_map {β γ : Type} (f : β → Except Err γ) (e0 : Err) (he : ∀ x e, f x = .error e → e = e0) [Inhabited γ] :
    ∃ g : β → γ, ∀ l : List β, (∀ x ∈ l, f x = .ok (g x)) ∧ l.mapM f = .ok (l.map g) ∨ (∃ x ∈ l, f x = .error e0) ∧ l.mapM f = .error e0 := by
  refine ⟨fun x => match f x with | .ok v => v | .error _ => default, fun l => ?_⟩
  rcases mapM_uniform f e0 he l with ⟨r, h1, h2⟩ | h
  · have hx : ∀ x ∈ l, f x = .ok (match f x with | .ok v => v | .error _ => default) := by
      intro x hx
      have : f x ∈ r.map Except.ok := h2 ▸ List.mem_map_of_mem hx
      obtain ⟨v, -, hv⟩ := List.mem_map.1 this
      simp [← hv]
    exact Or.inl ⟨hx, mapM_ok _ _ _ hx⟩
  · exact Or.inr h

/-- The two cases of `mapM` are the same for samples with the same distribution. -/
theorem mapM_map_same {β γ : Type} (f : β → Except Err γ) (e0 : Err) (he : ∀ x e, f x = .error e → e = e0) [Inhabited γ] :
    ∃ g : β → γ, ∀ l l' : List β, SameFrequencies l l' → l.mapM f = .ok (l.map g) ∧ l'.mapM f = .ok (l'.map g) ∨ l.mapM f = .error e0 ∧ l'.mapM f = .error e0 := by
  obtain ⟨g, hg⟩ := mapM_map f e0 he
  refine ⟨g, fun l l' h => ?_⟩
  rcases hg l with ⟨h0, h1⟩ | ⟨⟨x, hx, hxe⟩, h1⟩ <;> rcases hg l' with ⟨h0', h2⟩ | ⟨⟨x', hx', hxe'⟩, h2⟩
  · exact Or.inl ⟨h1, h2⟩
  · have := h0 x' ((h.mem_iff x').2 hx')
    rw [hxe'] at this
    cases this
  · have := h0' x ((h.mem_iff x).1 hx)
    rw [hxe] at this
    cases this
  · exact Or.inr ⟨h1, h2⟩

theorem probs2crisps_pairs (enc : Bool → α) (labels : List α) {y y' : List α} {p p' : Preds α k} (h : SamePairs y p y' p') :
    (∃ r r', probs2crisps enc labels p = .ok r ∧ probs2crisps enc labels p' = .ok r' ∧ SamePairs (k := k) y (.crisp r) y' (.crisp r')) ∨ ∃ e, probs2crisps enc labels p = .error e ∧ probs2crisps enc labels p' = .error e := by
  have lift : ∀ {β : Type} {T T' : List (α × β)} (g : β → α), SameFrequencies T T' →
      SamePairs (k := k) (T.map Prod.fst) (.crisp ((T.map Prod.snd).map g)) (T'.map Prod.fst) (.crisp ((T'.map Prod.snd).map g)) := by
    intro β T T' g h
    have := SamePairs.crisp (k := k) (h.map fun t => (t.1, g t.2))
    simpa [List.map_map, Function.comp_def] using this
  cases h with
  | crisp h => exact Or.inl ⟨_, _, rfl, rfl, .crisp h⟩
  | probs1 h => exact Or.inl ⟨_, _, rfl, rfl, lift _ h⟩
  | @probs T T' h =>
    haveI : Inhabited α := ⟨enc true⟩
    obtain ⟨g, hg⟩ := mapM_map_same (fun row : Fin k → ℝ => match npArgmax row with
      | some i => takeLabel labels i
      | none => .error .valueError) (if k = 0 then .valueError else .indexError) (by
        intro row e he
        cases ha : npArgmax row with
        | none =>
          have : k = 0 := by
            have h0 := List.argmax_eq_none.1 ha
            simpa using congrArg List.length h0
          rw [ha] at he
          simp only [this, if_true]
          injection he with he
          exact he.symm
        | some i =>
          have : k ≠ 0 := fun h => by subst h; exact i.elim0
          rw [ha] at he
          simp only [this, if_false]
          simp only [takeLabel] at he
          split at he
          · cases he
          · injection he with he
            exact he.symm)
    rcases hg _ _ (h.map Prod.snd) with ⟨h1, h2⟩ | ⟨h1, h2⟩
    · exact Or.inl ⟨_, _, h1, h2, lift g h⟩
    · exact Or.inr ⟨_, h1, h2⟩

/-- It is enough to look at what the class learns from `predictions_train_` and `y_ext_`. -/
theorem distributionDecidesOn_of [LinearOrder α] (cls : UcClass α k) (R : ℕ → ℕ → Prop) (C : List α → Prop) (ne : Prop) (hpre : ∀ y y', SameFrequencies y y' → cls.pre y = cls.pre y')
    (hno : cls.needsTrain = false → ∀ y y', SameFrequencies y y' → C y → LearnsSame cls ne y y' ⟨some (npUnique y), none, none⟩ ⟨some (npUnique y'), none, none⟩)
    (h : cls.needsTrain = true → ∀ y y' p p', SamePairs y p y' p' → R y.length y'.length → C y → Reaches cls.probabilistic p →
      LearnsSame cls ne y y' ⟨some (npUnique y), some p, some y⟩ ⟨some (npUnique y'), some p', some y'⟩) : DistributionDecidesOn cls R C ne := by
  intro σ D ops enc w e e'
  constructor
  · intro X X' y y' p p' hp hR hC Xt q hne
    refine ucRun_same ne ops enc w ⟨cls, e, e'⟩ X X' y y' _ _ (hpre y y' hp.labels) ?_ Xt _ (fun hc => by cases hc) hne (fun _ hc => by cases hc)
    have hcl := npUnique_same hp.labels
    cases hn : cls.needsTrain with
    | false =>
      refine Or.inr ⟨?_, ?_, ?_, ?_⟩
      · simp [usingFit, UcObj.cfg, hn]
      · simp [usingFit, UcObj.cfg, hn]
      · simp [usingFit, UcObj.cfg, hn, hcl]
      · have := hno hn y y' hp.labels hC
        simpa [usingFit, UcObj.cfg, hn, ucNew] using this
    | true =>
      have hx : ∀ (y : List α) (p : Preds α k), y.length = p.len → extendLabels y p.len = .ok y := fun y p hl => by simp [extendLabels, hl]
      cases hpr : cls.probabilistic with
      | true =>
        refine Or.inr ⟨?_, ?_, ?_, ?_⟩
        · simp [usingFit, UcObj.cfg, hn, hpr, trainPreds, hx _ _ hp.len.1]
        · simp [usingFit, UcObj.cfg, hn, hpr, trainPreds, hx _ _ hp.len.2]
        · simp [usingFit, UcObj.cfg, hn, hpr, trainPreds, hx _ _ hp.len.1, hx _ _ hp.len.2, hcl]
        · have := h hn y y' p p' hp hR hC (fun hc => by rw [hpr] at hc; cases hc)
          simpa [usingFit, UcObj.cfg, hn, hpr, trainPreds, hx _ _ hp.len.1, hx _ _ hp.len.2] using this
      | false =>
        rcases probs2crisps_pairs enc (npUnique y) hp with ⟨r, r', h1, h2, h3⟩ | ⟨x, h1, h2⟩
        · have h2' : probs2crisps enc (npUnique y') p' = .ok r' := hcl ▸ h2
          have e1 := hx _ _ h3.len.1
          have e2 := hx _ _ h3.len.2
          refine Or.inr ⟨?_, ?_, ?_, ?_⟩
          · simp [usingFit, UcObj.cfg, hn, hpr, trainPreds, h1, Except.map, e1]
          · simp [usingFit, UcObj.cfg, hn, hpr, trainPreds, h2', Except.map, e2]
          · simp only [usingFit, UcObj.cfg, hn, hpr, trainPreds, h1, h2', Except.map, e1, e2]
            simp [hcl, e1, e2]
          · have := h hn y y' _ _ h3 hR hC (fun _ => ⟨_, rfl⟩)
            simpa [usingFit, UcObj.cfg, hn, hpr, trainPreds, h1, h2', Except.map, e1, e2] using this
        · have h2' : probs2crisps enc (npUnique y') p' = .error x := hcl ▸ h2
          refine Or.inl ⟨x, ?_, ?_⟩
          · simp [usingFit, UcObj.cfg, hn, hpr, trainPreds, h1, Except.map]
          · simp [usingFit, UcObj.cfg, hn, hpr, trainPreds, h2', Except.map]
  · intro hrw hld T T' hT hR hC Xt q hne
    have hy : SameFrequencies (T.map Prod.snd) (T'.map Prod.snd) := hT.map _
    have hcl := npUnique_same hy
    have hw1 : ∀ (v v' : World σ D α) (r : Option ℕ), v.est = v'.est → (fitIfNeeded ops v r (T.map Prod.fst) (T.map Prod.snd)).est = (fitIfNeeded ops v' r (T'.map Prod.fst) (T'.map Prod.snd)).est := by
      intro v v' r hv
      unfold fitIfNeeded
      cases r with
      | none => exact hv
      | some i =>
        simp only [hv]
        split_ifs
        · simp only [hld _ _ _ hT]
        · exact hv
    have hw : (fitIfNeeded ops (fitIfNeeded ops w e (T.map Prod.fst) (T.map Prod.snd)) e' (T.map Prod.fst) (T.map Prod.snd)).est
        = (fitIfNeeded ops (fitIfNeeded ops w e (T'.map Prod.fst) (T'.map Prod.snd)) e' (T'.map Prod.fst) (T'.map Prod.snd)).est := hw1 _ _ _ (hw1 _ _ _ rfl)
    have hlen : ∀ {β : Type} (g : D → β) (S : List (D × α)), ((S.map Prod.fst).map g).length = (S.map Prod.snd).length := by simp
    cases hn : cls.needsTrain with
    | false =>
      refine ucRun_same ne ops enc w ⟨cls, e, e'⟩ _ _ _ _ _ _ (hpre _ _ hy) (Or.inr ⟨?_, ?_, ?_, ?_⟩) Xt _ (fun _ => ?_) hne fun _ _ => hrw
      · simp [usingFit, UcObj.cfg, hn]
      · simp [usingFit, UcObj.cfg, hn]
      · simp [usingFit, UcObj.cfg, hn, hcl]
      · have := hno hn _ _ hy hC
        simpa [usingFit, UcObj.cfg, hn, ucNew] using this
      · simpa [usingFit, UcObj.cfg, hn] using hw
    | true =>
      cases e with
      | none =>
        refine ucRun_same ne ops enc w ⟨cls, none, e'⟩ _ _ _ _ _ _ (hpre _ _ hy) (Or.inl ⟨.valueError, ?_, ?_⟩) Xt _ (fun _ => ?_) hne fun _ _ => hrw
        · simp [usingFit, UcObj.cfg, hn]
        · simp [usingFit, UcObj.cfg, hn]
        · simp [usingFit, UcObj.cfg, hn]
      | some i =>
        set v := fitIfNeeded ops (fitIfNeeded ops w (some i) (T.map Prod.fst) (T.map Prod.snd)) e' (T.map Prod.fst) (T.map Prod.snd)
        set v' := fitIfNeeded ops (fitIfNeeded ops w (some i) (T'.map Prod.fst) (T'.map Prod.snd)) e' (T'.map Prod.fst) (T'.map Prod.snd)
        obtain ⟨⟨g, hg⟩, f, hf⟩ := hrw (v.est i)
        have hfv' : ops.predictProba (v'.est i) = fun X => X.map f := by rw [← hw]; exact funext hf
        have hgv' : ops.predict (v'.est i) = fun X => X.map g := by rw [← hw]; exact funext hg
        have pair : ∀ {β : Type} (g : D → β), SameFrequencies (T.map fun t => (t.2, g t.1)) (T'.map fun t => (t.2, g t.1)) := fun g => hT.map _
        have hext : ∀ (S : List (D × α)), extendLabels (S.map Prod.snd) S.length = .ok (S.map Prod.snd) := fun S => by simp [extendLabels]
        have done : ∀ p p', SamePairs (T.map Prod.snd) p (T'.map Prod.snd) p' → Reaches cls.probabilistic p →
            usingFit ops enc w (UcObj.cfg ⟨cls, some i, e'⟩) (ucNew ⟨cls, some i, e'⟩).base (T.map Prod.fst) (T.map Prod.snd) none = (v, ⟨some (npUnique (T.map Prod.snd)), some p, some (T.map Prod.snd)⟩, none) →
            usingFit ops enc w (UcObj.cfg ⟨cls, some i, e'⟩) (ucNew ⟨cls, some i, e'⟩).base (T'.map Prod.fst) (T'.map Prod.snd) none = (v', ⟨some (npUnique (T'.map Prod.snd)), some p', some (T'.map Prod.snd)⟩, none) →
            ucRun ops enc w ⟨cls, some i, e'⟩ (T.map Prod.fst) (T.map Prod.snd) none Xt q = ucRun ops enc w ⟨cls, some i, e'⟩ (T'.map Prod.fst) (T'.map Prod.snd) none Xt q := by
          intro p p' hp hr e1 e2
          refine ucRun_same ne ops enc w ⟨cls, some i, e'⟩ _ _ _ _ _ _ (hpre _ _ hy) ?_ Xt _ (fun _ => ?_) hne fun _ _ => hrw
          · rw [e1, e2]
            exact Or.inr ⟨rfl, rfl, congrArg some hcl, h hn _ _ _ _ hp (by simpa using hR) hC hr⟩
          · rw [e1, e2]
            exact hw
        cases hpr : cls.probabilistic with
        | true =>
          have hp := SamePairs.probs (pair f)
          simp only [List.map_map, Function.comp_def] at hp
          refine done _ _ hp (fun hc => by rw [hpr] at hc; cases hc) ?_ ?_
          · simp [usingFit, UcObj.cfg, hn, hpr, trainPreds, hf, Preds.len, hext T, v, List.map_map, Function.comp_def]
          · have hfv := hfv'
            simp only [v'] at hfv
            simp [usingFit, UcObj.cfg, hn, hpr, trainPreds, hfv, Preds.len, hext T', v', List.map_map, Function.comp_def]
        | false =>
          have hp := SamePairs.crisp (k := k) (pair g)
          simp only [List.map_map, Function.comp_def] at hp
          refine done _ _ hp (fun _ => ⟨_, rfl⟩) ?_ ?_
          · simp [usingFit, UcObj.cfg, hn, hpr, trainPreds, hg, Preds.len, hext T, v, List.map_map, Function.comp_def]
          · have hgv := hgv'
            simp only [v'] at hgv
            simp [usingFit, UcObj.cfg, hn, hpr, trainPreds, hgv, Preds.len, hext T', v', List.map_map, Function.comp_def]

theorem distributionDecides_of [LinearOrder α] (cls : UcClass α k) (R : ℕ → ℕ → Prop) (hpre : ∀ y y', SameFrequencies y y' → cls.pre y = cls.pre y')
    (hno : cls.needsTrain = false → ∀ y y', SameFrequencies y y' → LearnsSame cls False y y' ⟨some (npUnique y), none, none⟩ ⟨some (npUnique y'), none, none⟩)
    (h : cls.needsTrain = true → ∀ y y' p p', SamePairs y p y' p' → R y.length y'.length → Reaches cls.probabilistic p →
      LearnsSame cls False y y' ⟨some (npUnique y), some p, some y⟩ ⟨some (npUnique y'), some p', some y'⟩) : DistributionDecides cls R := by
  intro σ D ops enc w e e'
  obtain ⟨h1, h2⟩ := distributionDecidesOn_of cls R (fun _ => True) False hpre (fun hn y y' hy _ => hno hn y y' hy) (fun hn y y' p p' hp hR _ hr => h hn y y' p p' hp hR hr) σ D ops enc w e e'
  exact ⟨fun X X' y y' p p' hp hR Xt q => h1 X X' y y' p p' hp hR trivial Xt q False.elim, fun a b T T' hT hR Xt q => h2 a b T T' hT hR trivial Xt q False.elim⟩

theorem learnsSame_eq [LinearOrder α] (cls : UcClass α k) (y y' : List α) (b b' : QState α k) (h1 : cls.learn none y b = cls.learn none y' b') (h2 : ∀ m p, (cls.answer m b p).2 = (cls.answer m b' p).2) : LearnsSame cls False y y' b b' := by
  cases h : cls.learn none y' b' with
  | error x => exact Or.inl ⟨x, h1.trans h, h⟩
  | ok m => exact Or.inr ⟨m, m, h1.trans h, h, fun p _ => h2 m p⟩

/-! ## The classes -/

theorem fin_scale {r : ℝ} (hr : 0 < r) (a b : ℝ) : Fl.fin (r * a) / Fl.fin (r * b) = Fl.fin a / Fl.fin b := by
  rw [Fl.fin_div_def, Fl.fin_div_def]
  by_cases hb : b = 0
  · subst hb
    simp [Fl.scaleInf, hr.ne', mul_pos_iff, hr, hr.not_gt]
  · rw [if_neg (mul_ne_zero hr.ne' hb), if_neg hb, mul_div_mul_left _ _ hr.ne']

/-- The normalised confusion matrix. -/
theorem confusion_same [LinearOrder α] (cl : List α) {T T' : List (α × α)} (h : SameFrequencies T T') :
    ((confusionMatrix cl (T.map Prod.fst) (T.map Prod.snd)).map fun cm => normalizeRows cm) = (confusionMatrix cl (T'.map Prod.fst) (T'.map Prod.snd)).map fun cm => normalizeRows cm := by
  refine h.ind (fun T => (confusionMatrix cl (T.map Prod.fst) (T.map Prod.snd)).map fun cm => normalizeRows cm) (fun m m' _ hp => ?_) fun m r hm hr => ?_
  · simp only [confusionMatrix, List.length_map, if_true, Except.map, zip_fst_snd]
    simp only [hp.count_eq]
  · simp only [confusionMatrix, List.length_map, if_true, Except.map, zip_fst_snd]
    congr 1
    funext i j
    unfold normalizeRows
    have hr0 : (0 : ℝ) < r := by exact_mod_cast Nat.pos_of_ne_zero hr
    have hc : ∀ a : α × α, List.count a (List.replicate r m).flatten = r * List.count a m := by
      intro a
      rw [List.count_flatten, List.map_replicate, List.sum_replicate, smul_eq_mul]
    simp only [hc]
    rw [← Finset.mul_sum]
    push_cast
    exact fin_scale hr0 _ _

section
variable [LinearOrder α]

/-- **C129** for CC. -/
theorem C129_cc : DistributionDecides (ccClass (α := α) (k := k)) fun _ _ => True := by
  refine distributionDecides_of _ _ (fun _ _ _ => rfl) (fun _ y y' h => ?_) fun h => by cases h
  refine learnsSame_eq _ _ _ _ _ rfl fun m p => ?_
  rw [npUnique_same h]

/-- **C129** for PCC. -/
theorem C129_pcc : DistributionDecides (pccClass (α := α) (k := k)) fun _ _ => True := by
  refine distributionDecides_of _ _ (fun _ _ _ => rfl) (fun _ y y' h => ?_) fun h => by cases h
  exact learnsSame_eq _ _ _ _ _ rfl fun m p => rfl

/-- **C129** for AC. -/
theorem C129_ac (sol : Solvers) (dist : Dist) : DistributionDecides (acClass (α := α) (k := k) sol dist) fun _ _ => True := by
  refine distributionDecides_of _ _ (fun _ _ _ => rfl) (fun h => by cases h) fun _ y y' p p' h _ hr => ?_
  have hcl := npUnique_same h.labels
  refine learnsSame_eq _ _ _ _ _ ?_ fun m p => by rw [hcl]; rfl
  obtain ⟨l, rfl⟩ := hr rfl
  cases h with
  | @crisp T T' h =>
    have := confusion_same (npUnique (T'.map Prod.fst)) h
    simp only [acClass, trainData, crispLabels, bind, Except.bind, pure, Except.pure]
    rw [hcl]
    simp only [confusionMatrix, List.length_map, if_true, Except.map] at this ⊢
    rw [Except.ok.inj this]

/-- **C129** for PAC. -/
theorem C129_pac (sol : Solvers) (dist : Dist) : DistributionDecides (pacClass (α := α) (k := k) sol dist) fun _ _ => True := by
  refine distributionDecides_of _ _ (fun _ _ _ => rfl) (fun h => by cases h) fun _ y y' p p' h _ hr => ?_
  have hcl := npUnique_same h.labels
  refine learnsSame_eq _ _ _ _ _ ?_ fun m p => rfl
  cases h with
  | crisp h => rfl
  | probs1 h => rfl
  | @probs T T' h =>
    have : ∀ c, colMeans (rowsOf (T.map Prod.fst) (T.map Prod.snd) c) = colMeans (rowsOf (T'.map Prod.fst) (T'.map Prod.snd) c) := by
      intro c
      change colMeans (selectRows (T.map Prod.fst) (T.map Prod.snd) c) = colMeans (selectRows (T'.map Prod.fst) (T'.map Prod.snd) c)
      rcases selectRows_same h c with ⟨h1, h2⟩ | h1
      · rw [h1, h2]
      · exact colMeans_same h1
    let F : List α → Except Err (ACFit α) := fun cl => if h : k = cl.length then .ok ⟨cl, fun i j => colMeans (rowsOf (T'.map Prod.fst) (T'.map Prod.snd) cl[i]) (Fin.cast h.symm j)⟩ else .error .valueError
    have e1 : (pacClass sol dist).learn none (T.map Prod.fst) ⟨some (npUnique (T.map Prod.fst)), some (.probs (T.map Prod.snd)), some (T.map Prod.fst)⟩ = F (npUnique (T.map Prod.fst)) := by
      simp only [pacClass, trainData, probRows, bind, Except.bind, pure, Except.pure, List.length_map, if_true, this]
      rfl
    have e2 : (pacClass sol dist).learn none (T'.map Prod.fst) ⟨some (npUnique (T'.map Prod.fst)), some (.probs (T'.map Prod.snd)), some (T'.map Prod.fst)⟩ = F (npUnique (T'.map Prod.fst)) := by
      simp only [pacClass, trainData, probRows, bind, Except.bind, pure, Except.pure, List.length_map, if_true]
      rfl
    rw [e1, e2, hcl]

/-- **C129** for EM. -/
theorem C129_em (eps : ℝ) (maxIter : ℕ) : DistributionDecides (emClass (α := α) (k := k) eps maxIter) fun _ _ => True := by
  refine distributionDecides_of _ _ (fun _ _ _ => rfl) (fun h => by cases h) fun _ y y' p p' h _ hr => ?_
  refine learnsSame_eq _ _ _ _ _ ?_ fun m p => rfl
  simp only [emClass, emFit]
  rw [npUnique_same h.labels, classFreqs_same _ h.labels]

/-- **C129** for DeBias. -/
theorem C129_debias : DistributionDecides (deBiasClass (α := α)) fun _ _ => True := by
  refine distributionDecides_of _ _ (fun y y' h => ?_) (fun h => by cases h) fun _ y y' p p' h _ hr => ?_
  · simp only [deBiasClass, npUnique_same h]
  have hcl := npUnique_same h.labels
  refine learnsSame_eq _ _ _ _ _ ?_ fun m p => rfl
  cases h with
  | crisp h => rfl
  | probs1 h => rfl
  | @probs T T' h =>
    have e1 : ∀ (cl : List α) i, classShare cl (T.map Prod.fst) i = classShare cl (T'.map Prod.fst) i := by
      intro cl i
      unfold classShare
      cases cl[i]? with
      | none => rfl
      | some c => exact congrFun (classFreqs_same [c] (h.map Prod.fst)) ⟨0, by simp⟩
    have e2 : ∀ t : Fl, ((T.map Prod.snd).map fun row => (Fl.fin (row 1) - t).sq).sum / Fl.fin ((T.map Prod.snd).length : ℝ) = ((T'.map Prod.snd).map fun row => (Fl.fin (row 1) - t).sq).sum / Fl.fin ((T'.map Prod.snd).length : ℝ) :=
      fun t => (h.map Prod.snd).average_fl _
    simp only [deBiasClass, trainData, probRows, bind, Except.bind, deBiasFit, e1, hcl, e2]

/-! ### Histograms -/

theorem npMean_same {l l' : List ℝ} (h : SameFrequencies l l') : npMean l = npMean l' := by
  have := h.average id
  simpa [npMean] using this

theorem npStd_same {l l' : List ℝ} (h : SameFrequencies l l') : npStd l = npStd l' := by
  unfold npStd
  rw [npMean_same h, npMean_same (h.map _)]

theorem histBlocks_class {X : Type*} {nd nb : ℕ} (att : Fin nd → X → ℝ) (cuts : Fin nd → Fin (nb + 1) → EReal) {T T' : List (α × X)} (h : SameFrequencies T T') (c : α) :
    histBlocks att cuts (selectRows (T.map Prod.fst) (T.map Prod.snd) c) = histBlocks att cuts (selectRows (T'.map Prod.fst) (T'.map Prod.snd) c) := by
  rcases selectRows_same h c with ⟨h1, h2⟩ | h1
  · rw [h1, h2]
  · exact histBlocks_same att cuts h1

theorem selectRows_col {X : Type*} (T : List (α × X)) (g : X → ℝ) (c : α) : selectRows (T.map Prod.fst) ((T.map Prod.snd).map g) c = (selectRows (T.map Prod.fst) (T.map Prod.snd) c).map g := by
  unfold selectRows
  rw [List.zip_map_right, List.filter_map, List.map_map, List.map_map]
  rfl

theorem normalParams_same (cl : List α) {T T' : List (α × ℝ)} (h : SameFrequencies T T') : normalParams (T.map Prod.snd) (T.map Prod.fst) cl = normalParams (T'.map Prod.snd) (T'.map Prod.fst) cl := by
  let W : List (α × ℝ) → α → ℝ := fun T c => if c ∈ cl then (T.length : ℝ) / ((T.map Prod.fst).count c : ℝ) else 1
  have hz : ∀ (T : List (α × ℝ)) (g : ℝ → ℝ), ((T.map Prod.snd).map g).zip ((T.map Prod.fst).map fun c => if c ∈ cl then ((T.map Prod.snd).length : ℝ) / ((T.map Prod.fst).count c : ℝ) else 1)
      = T.map fun t => (g t.2, W T t.1) := by
    intro T g
    simp only [List.length_map, W]
    rw [List.map_map, List.map_map, List.zip_map']
    rfl
  have hW : ∀ c, W T c = W T' c := by
    intro c
    simp only [W]
    split_ifs
    · have := (h.map Prod.fst).2.2 c
      unfold freq at this
      rw [← one_div_div, ← one_div_div (T'.map Prod.fst |>.count c : ℝ)]
      congr 1
      simp only [List.length_map] at this
      convert this
    · rfl
  have hav : ∀ g : ℝ → ℝ, npAverage (T.map fun t => (g t.2, W T t.1)) = npAverage (T'.map fun t => (g t.2, W T' t.1)) := by
    intro g
    simp only [hW]
    unfold npAverage
    simp only [List.map_map, Function.comp_def]
    have e1 := h.average fun t => g t.2 * W T' t.1
    have e2 := h.average fun t => W T' t.1
    have l1 : (T.length : ℝ) ≠ 0 := by simpa using h.1
    have l2 : (T'.length : ℝ) ≠ 0 := by simpa using h.2.1
    rw [← div_div_div_cancel_right₀ l1, e1, e2, div_div_div_cancel_right₀ l2]
  have h1 : (normalParams (T.map Prod.snd) (T.map Prod.fst) cl).1 = (normalParams (T'.map Prod.snd) (T'.map Prod.fst) cl).1 := by
    have := hav id
    rw [← hz, ← hz, List.map_id, List.map_id] at this
    exact this
  have h2 : (normalParams (T.map Prod.snd) (T.map Prod.fst) cl).2 = (normalParams (T'.map Prod.snd) (T'.map Prod.fst) cl).2 := by
    have := hav fun v => (v - (normalParams (T'.map Prod.snd) (T'.map Prod.fst) cl).1) ^ 2
    rw [← hz T fun v => (v - (normalParams (T'.map Prod.snd) (T'.map Prod.fst) cl).1) ^ 2, ← hz T' fun v => (v - (normalParams (T'.map Prod.snd) (T'.map Prod.fst) cl).1) ^ 2] at this
    conv at this => lhs; rw [← h1]
    exact congrArg Real.sqrt this
  exact Prod.ext h1 h2

theorem mergeSort_perm_eq {l l' : List ℝ} (h : l.Perm l') : l.mergeSort (fun a b => decide (a ≤ b)) = l'.mergeSort (fun a b => decide (a ≤ b)) := by
  refine List.Perm.eq_of_pairwise (le := fun a b => a ≤ b) (fun a b _ _ h1 h2 => le_antisymm h1 h2) ?_ ?_ ((List.mergeSort_perm _ _).trans (h.trans (List.mergeSort_perm _ _).symm))
  all_goals
    have := List.pairwise_mergeSort (le := fun a b : ℝ => decide (a ≤ b)) (fun a b c => by simpa using le_trans) (fun a b => by simpa using le_total a b)
    simpa using this _

/-- The bins: with every strategy for training sets of the same size, and with all but 'equal_count' whatever the sizes. -/
theorem computeBincuts_same (ppf : ℝ → EReal) (cl : List α) (n : ℕ) (st : BinStrategy) (range : Option (ℝ × ℝ)) {T T' : List (α × ℝ)} (h : SameFrequencies T T') (hR : st = .equalCount → T.length = T'.length) :
    computeBincuts ppf (T.map Prod.snd) (T.map Prod.fst) cl n st range = computeBincuts ppf (T'.map Prod.snd) (T'.map Prod.fst) cl n st range := by
  cases st with
  | equalWidth =>
    have hx := h.map Prod.snd
    have : binRange (T.map Prod.snd) range = binRange (T'.map Prod.snd) range := by
      unfold binRange
      cases range with
      | some r => rfl
      | none =>
        have h1 : (T.map Prod.snd).min? = (T'.map Prod.snd).min? := by
          cases hm : (T'.map Prod.snd).min? with
          | none => exact absurd (List.min?_eq_none_iff.1 hm) hx.2.1
          | some a =>
            rw [List.min?_eq_some_iff] at hm ⊢
            exact ⟨(hx.mem_iff a).2 hm.1, fun b hb => hm.2 b ((hx.mem_iff b).1 hb)⟩
        have h2 : (T.map Prod.snd).max? = (T'.map Prod.snd).max? := by
          cases hm : (T'.map Prod.snd).max? with
          | none => exact absurd (List.max?_eq_none_iff.1 hm) hx.2.1
          | some a =>
            rw [List.max?_eq_some_iff] at hm ⊢
            exact ⟨(hx.mem_iff a).2 hm.1, fun b hb => hm.2 b ((hx.mem_iff b).1 hb)⟩
        rw [h1, h2]
    simp only [computeBincuts, this]
  | equalCount =>
    have hp := (perm_of_same h (hR rfl)).map Prod.snd
    have hs : (T.map Prod.snd).mergeSort (fun a b => decide (a ≤ b)) = (T'.map Prod.snd).mergeSort (fun a b => decide (a ≤ b)) := mergeSort_perm_eq hp
    simp only [computeBincuts, hs, hp.length_eq]
  | binormal =>
    have hb : binormalParams (T.map Prod.snd) (T.map Prod.fst) cl = binormalParams (T'.map Prod.snd) (T'.map Prod.fst) cl := by
      unfold binormalParams
      have e : ∀ c, npMean (selectRows (T.map Prod.fst) (T.map Prod.snd) c) = npMean (selectRows (T'.map Prod.fst) (T'.map Prod.snd) c)
          ∧ npStd (selectRows (T.map Prod.fst) (T.map Prod.snd) c) = npStd (selectRows (T'.map Prod.fst) (T'.map Prod.snd) c) := by
        intro c
        rcases selectRows_same h c with ⟨h1, h2⟩ | h1
        · rw [h1, h2]; exact ⟨rfl, rfl⟩
        · exact ⟨npMean_same h1, npStd_same h1⟩
      simp only [(e _).1, (e _).2]
    simp only [computeBincuts, List.length_map, hb, ne_eq, not_true_eq_false, if_false]
  | normal =>
    simp only [computeBincuts, List.length_map, normalParams_same cl h]
    simp [h.1, h.2.1]
  | other => rfl

theorem dfFit_same (ppf : ℝ → EReal) {X : Type*} {nd : ℕ} (kind : CumKind) (cfg : DfCfg) (range : Option (ℝ × ℝ)) (att : Fin nd → X → ℝ) (cl : List α) {T T' : List (α × X)} (h : SameFrequencies T T')
    (hR : cfg.strategy = .equalCount → T.length = T'.length) :
    dfFit ppf kind cfg range att cl (T.map Prod.fst) (T.map Prod.fst) (T.map Prod.snd) = dfFit ppf kind cfg range att cl (T'.map Prod.fst) (T'.map Prod.fst) (T'.map Prod.snd) := by
  have e1 : ∀ d, computeBincuts ppf ((T.map Prod.snd).map (att d)) (T.map Prod.fst) cl cfg.nBins cfg.strategy range = computeBincuts ppf ((T'.map Prod.snd).map (att d)) (T'.map Prod.fst) cl cfg.nBins cfg.strategy range := by
    intro d
    have := computeBincuts_same ppf cl cfg.nBins cfg.strategy range (h.map fun t => (t.1, att d t.2)) (by simpa using hR)
    simpa [List.map_map, Function.comp_def] using this
  unfold dfFit
  simp only [e1, histBlocks_class att _ h, List.length_map, ne_eq, not_true_eq_false, if_false]

/-- **C129** for DFy and its wrappers HDy and MMy, with every distance: when the bins are made by 'equal_count', for training sets of the same size; for the other strategies, of any size. -/
theorem C129_dfy (ppf : ℝ → EReal) (sv : CvxSolver) (qp : QPSolver) (la : LinAlg k) (fuel : ℕ) (tol : ℝ) (cfg : DfCfg) (distance : DfDistance (nDescriptors k * cfg.nBins)) :
    DistributionDecides (dfyClass (α := α) ppf sv qp la fuel tol cfg distance) fun n n' => cfg.strategy = .equalCount → n = n' := by
  refine distributionDecides_of _ _ (fun _ _ _ => rfl) (fun hc => by cases hc) fun _ y y' p p' hp hR _ => learnsSame_eq _ _ _ _ _ ?_ fun m p => rfl
  have hcl := npUnique_same hp.labels
  cases hp with
  | crisp h => rfl
  | probs1 h => rfl
  | @probs T T' h =>
    let F : List α → List (α × (Fin k → ℝ)) → Except Err (MatchState (DfFit (nDescriptors k) cfg.nBins k) (nDescriptors k * cfg.nBins) k) := fun cl T => do
      let ⟨h⟩ ← columnsAre cl k
      let f ← dfFit ppf .whole cfg (some (0, 1)) (dfyAtt k) cl (T.map Prod.fst) (T.map Prod.fst) (T.map Prod.snd)
      let f : DfFit (nDescriptors k) cfg.nBins k := ⟨f.cuts, fun i c => f.train i (Fin.cast h.symm c)⟩
      let par ← matchParams la fuel distance f.train
      pure ⟨f, f.train, par, none, none⟩
    change F (npUnique (T.map Prod.fst)) T = F (npUnique (T'.map Prod.fst)) T'
    rw [hcl]
    simp only [F, dfFit_same ppf .whole cfg _ _ _ h (by simpa using hR)]

/-- **C129** for FriedmanME, with every distance. -/
theorem C129_friedman (sv : CvxSolver) (qp : QPSolver) (la : LinAlg k) (fuel : ℕ) (tol : ℝ) (distance : DfDistance k) :
    DistributionDecides (friedmanClass (α := α) sv qp la fuel tol distance) fun _ _ => True := by
  refine distributionDecides_of _ _ (fun _ _ _ => rfl) (fun hc => by cases hc) fun _ y y' p p' hp hR _ => learnsSame_eq _ _ _ _ _ ?_ fun m p => rfl
  have hcl := npUnique_same hp.labels
  cases hp with
  | crisp h => rfl
  | probs1 h => rfl
  | @probs T T' h =>
    let F : List α → List (α × (Fin k → ℝ)) → Except Err (MatchState (FriedmanFit k) k k) := fun cl T => do
      let ⟨h⟩ ← columnsAre cl k
      let f ← friedmanFit cl (T.map Prod.fst) (T.map Prod.fst) ((T.map Prod.snd).map fun r j => r (Fin.cast h j))
      let f : FriedmanFit k := ⟨fun j => f.prevs (Fin.cast h.symm j), fun i c => f.train (Fin.cast h.symm i) (Fin.cast h.symm c)⟩
      let par ← matchParams la fuel distance f.train
      pure ⟨f, f.train, par, none, none⟩
    change F (npUnique (T.map Prod.fst)) T = F (npUnique (T'.map Prod.fst)) T'
    rw [hcl]
    have key : ∀ (cl : List α) (g : (Fin k → ℝ) → (Fin cl.length → ℝ)), friedmanFit cl (T.map Prod.fst) (T.map Prod.fst) ((T.map Prod.snd).map g) = friedmanFit cl (T'.map Prod.fst) (T'.map Prod.fst) ((T'.map Prod.snd).map g) := by
      intro cl g
      unfold friedmanFit
      simp only [List.length_map, ne_eq, not_true_eq_false, if_false]
      have e1 : ∀ c, ((T.map Prod.fst).count c : ℝ) / T.length = ((T'.map Prod.fst).count c : ℝ) / T'.length := by
        intro c
        have := (h.map Prod.fst).2.2 c
        unfold freq at this
        simp only [List.length_map] at this
        convert this
      have e2 : ∀ (pr : Fin cl.length → ℝ) c, meanRows ((selectRows (T.map Prod.fst) ((T.map Prod.snd).map g) c).map (friedmanRow pr)) = meanRows ((selectRows (T'.map Prod.fst) ((T'.map Prod.snd).map g) c).map (friedmanRow pr)) := by
        intro pr c
        have h' := h.map fun t => (t.1, g t.2)
        have := selectRows_same h' c
        simp only [List.map_map, Function.comp_def] at this ⊢
        rcases this with ⟨h1, h2⟩ | h1
        · rw [h1, h2]
        · funext j
          have := (h1.map (friedmanRow pr)).average fun r => r j
          simpa [meanRows] using this
      simp only [e1, e2]
    simp only [F, key]

/-- The mean distance between the examples of two groups. -/
theorem meanDist_same {P : Type} (d : P → P → ℝ) {A A' B B' : List P} (hA : A = [] ∧ A' = [] ∨ SameFrequencies A A') (hB : B = [] ∧ B' = [] ∨ SameFrequencies B B') :
    sumDist d A B / ((A.length : ℝ) * B.length) = sumDist d A' B' / ((A'.length : ℝ) * B'.length) := by
  rcases hA with ⟨h1, h2⟩ | hA
  · rw [h1, h2]; simp
  rcases hB with ⟨h1, h2⟩ | hB
  · rw [h1, h2]; simp
  have e : ∀ A B : List P, sumDist d A B / ((A.length : ℝ) * B.length) = (A.map fun x => (B.map fun y => d x y).sum / B.length).sum / A.length := by
    intro A B
    unfold sumDist
    rw [mul_comm, ← div_div]
    congr 1
    induction A with
    | nil => simp
    | cons a A ih => rw [List.map_cons, List.sum_cons, add_div, ih, List.map_cons, List.sum_cons]
  rw [e, e]
  simp only [fun x => hB.average (d x)]
  exact hA.average _

theorem edPredict_train {n : ℕ} {P : Type} (la : LinAlg n) (fuel : ℕ) (qp : QPSolver) (d : P → P → ℝ) (cl : Fin (n + 1) → α) {T T' : List (α × P)} (h : SameFrequencies T T') :
    (edFit la fuel d cl (T.map Prod.fst) (T.map Prod.snd) = none ∧ edFit la fuel d cl (T'.map Prod.fst) (T'.map Prod.snd) = none)
    ∨ ∃ f f', edFit la fuel d cl (T.map Prod.fst) (T.map Prod.snd) = some f ∧ edFit la fuel d cl (T'.map Prod.fst) (T'.map Prod.snd) = some f' ∧ ∀ test, edPredict qp d f test = edPredict qp d f' test := by
  have hs := fun c => selectRows_same h c
  have hK : edK d (fun i => selectRows (T.map Prod.fst) (T.map Prod.snd) (cl i)) = edK d (fun i => selectRows (T'.map Prod.fst) (T'.map Prod.snd) (cl i)) := by
    funext i j
    unfold edK
    split_ifs
    · exact meanDist_same d (hs _) (hs _)
    · rw [mul_comm, meanDist_same d (hs _) (hs _), mul_comm]
  unfold edFit
  simp only [hK]
  cases computeEdParamTrain la fuel (edK d fun i => selectRows (T'.map Prod.fst) (T'.map Prod.snd) (cl i)) with
  | none => exact Or.inl ⟨rfl, rfl⟩
  | some par =>
    refine Or.inr ⟨_, _, rfl, rfl, fun test => ?_⟩
    unfold edPredict
    congr 2
    funext i
    by_cases ht : test = []
    · subst ht; simp [edKt]
    · exact meanDist_same d (hs _) (Or.inr ⟨ht, ht, fun _ => rfl⟩)

/-- **C129** for EDy, with every distance between predictions. -/
theorem C129_edy {n : ℕ} (qp : QPSolver) (la : LinAlg n) (fuel : ℕ) (d : (Fin (n + 1) → ℝ) → (Fin (n + 1) → ℝ) → ℝ) : DistributionDecides (edyClass (α := α) qp la fuel d) fun _ _ => True := by
  refine distributionDecides_of _ _ (fun _ _ _ => rfl) (fun hc => by cases hc) fun _ y y' p p' hp hR _ => ?_
  have hcl := npUnique_same hp.labels
  cases hp with
  | crisp h => exact Or.inl ⟨_, rfl, rfl⟩
  | probs1 h => exact Or.inl ⟨_, rfl, rfl⟩
  | @probs T T' h =>
    let F : List α → List (α × (Fin (n + 1) → ℝ)) → Except Err (EDFit (Fin (n + 1) → ℝ) n) := fun cl T =>
      if h : cl.length = n + 1 then
        match edFit la fuel d (fun i => cl[Fin.cast h.symm i]) (T.map Prod.fst) (T.map Prod.snd) with
        | none => .error .linAlgError
        | some f => .ok f
      else .error .indexError
    have hF : ∀ T : List (α × (Fin (n + 1) → ℝ)), (edyClass (α := α) qp la fuel d).learn none (T.map Prod.fst) ⟨some (npUnique (T.map Prod.fst)), some (.probs (T.map Prod.snd)), some (T.map Prod.fst)⟩ = F (npUnique (T.map Prod.fst)) T := by
      intro T
      simp only [edyClass, trainData, probRows, bind, Except.bind, columnsAre, F]
      by_cases hk : (npUnique (T.map Prod.fst)).length = n + 1
      · simp only [hk, dif_pos, List.length_map, ne_eq, not_true_eq_false, if_false]
        rfl
      · simp only [hk, dif_neg, not_false_eq_true]
    unfold LearnsSame
    rw [hF, hF, hcl]
    simp only [F]
    split_ifs with hk
    · rcases edPredict_train la fuel qp d (fun i => (npUnique (T'.map Prod.fst))[Fin.cast hk.symm i]) h with ⟨h1, h2⟩ | ⟨f, f', h1, h2, h3⟩
      · exact Or.inl ⟨.linAlgError, by simp only [h1]; rfl, by simp only [h2]; rfl⟩
      · refine Or.inr ⟨f, f', by simp only [h1]; rfl, by simp only [h2]; rfl, fun p _ => ?_⟩
        simp only [edyClass, keep]
        cases p <;> simp [probRows, bind, Except.bind, h3]
    · exact Or.inl ⟨_, rfl, rfl⟩

/-- **C129** for ACOrdinal. -/
theorem C129_aco (sv : CvxSolver) : DistributionDecides (acoClass (α := α) (k := k) sv) fun _ _ => True := by
  refine distributionDecides_of _ _ (fun _ _ _ => rfl) (fun hc => by cases hc) fun _ y y' p p' hp hR _ => ?_
  have hcl := npUnique_same hp.labels
  refine learnsSame_eq _ _ _ _ _ ?_ fun m p => by simp only [acoClass, hcl]
  cases hp with
  | probs h => rfl
  | probs1 h => rfl
  | @crisp T T' h =>
    let G : (cl : List α) → (Fin cl.length → Fin cl.length → Fl) → Except Err (WarmState (AcoFit α)) := fun cl M => .ok ⟨⟨cl, M, fun i j => accumArr (fun l => M j l) i⟩, none⟩
    let F : List α → List (α × α) → Except Err (WarmState (AcoFit α)) := fun cl T =>
      ((confusionMatrix cl (T.map Prod.fst) (T.map Prod.snd)).map fun cm => normalizeRows cm) >>= G cl
    have hF : ∀ T : List (α × α), (acoClass (α := α) (k := k) sv).learn none (T.map Prod.fst) ⟨some (npUnique (T.map Prod.fst)), some (.crisp (T.map Prod.snd)), some (T.map Prod.fst)⟩ = F (npUnique (T.map Prod.fst)) T := by
      intro T
      simp only [acoClass, trainData, crispLabels, bind, Except.bind, F, pure, Except.pure]
      cases confusionMatrix (npUnique (T.map Prod.fst)) (T.map Prod.fst) (T.map Prod.snd) <;> rfl
    rw [hF, hF, hcl]
    simp only [F, confusion_same _ h]
    rfl

theorem ordHistogram_frac (nBins nc : ℕ) {l l' : List ℝ} (h : l = [] ∧ l' = [] ∨ SameFrequencies l l') :
    ((ordHistogram nBins nc l).map fun v b => v b / (l.length : ℝ)) = (ordHistogram nBins nc l').map fun v b => v b / (l'.length : ℝ) := by
  rcases h with ⟨h1, h2⟩ | h
  · rw [h1, h2]
  unfold ordHistogram
  cases binEdges (effBins nBins nc) 1 nc with
  | error e => rfl
  | ok edge => exact npHistogram_same _ h _ _ rfl rfl

theorem seqFin_map {β γ : Type*} {n : ℕ} (f : Fin n → Except Err β) (g : Fin n → β → γ) : (seqFin fun i => (f i).map (g i)) = (seqFin f).map fun v i => g i (v i) := by
  induction n with
  | zero => simp only [seqFin, Except.map]; congr 1; funext i; exact i.elim0
  | succ n ih =>
    simp only [seqFin]
    cases h0 : f 0 with
    | error e => rfl
    | ok a =>
      simp only [Except.map]
      have := ih (fun i => f i.succ) fun i => g i.succ
      simp only [Except.map] at this
      rw [this]
      cases seqFin fun i => f i.succ with
      | error e => rfl
      | ok r =>
        simp only
        congr 1
        funext i
        refine Fin.cases ?_ (fun i => ?_) i <;> simp

/-- **C129** for PDFOrdinaly, with every distance and both ways of scoring. -/
theorem C129_pdfo (sv : CvxSolver) (qp : QPSolver) (la : LinAlg k) (fuel nBins : ℕ) (method : OrdMethod) (dist : OrdDist) :
    DistributionDecides (pdfoClass (α := α) sv qp la fuel nBins method dist) fun _ _ => True := by
  refine distributionDecides_of _ _ (fun _ _ _ => rfl) (fun hc => by cases hc) fun _ y y' p p' hp hR _ => learnsSame_eq _ _ _ _ _ ?_ fun m p => rfl
  have hcl := npUnique_same hp.labels
  cases hp with
  | crisp h => rfl
  | probs1 h => rfl
  | @probs T T' h =>
    let F : List α → List (α × (Fin k → ℝ)) → Except Err (WarmState (PdfoFit nBins k)) := fun cl T => do
      let ⟨h⟩ ← columnsAre cl k
      let f ← pdfoFit la fuel nBins method dist (fun i => cl[Fin.cast h.symm i]) (T.map Prod.fst) (T.map Prod.snd)
      pure ⟨f, none⟩
    change F (npUnique (T.map Prod.fst)) T = F (npUnique (T'.map Prod.fst)) T'
    rw [hcl]
    have hs : (∃ g : (Fin k → ℝ) → ℝ, ordScores method (T.map Prod.snd) = .ok ((T.map Prod.snd).map g) ∧ ordScores method (T'.map Prod.snd) = .ok ((T'.map Prod.snd).map g))
        ∨ ∃ e, ordScores method (T.map Prod.snd) = .error e ∧ ordScores method (T'.map Prod.snd) = .error e := by
      cases method with
      | fullProbabilistic => exact Or.inl ⟨_, rfl, rfl⟩
      | winnerNode =>
        obtain ⟨g, hg⟩ := mapM_map_same (winnerScore (nc := k)) .indexError (by
          intro row e he
          unfold winnerScore at he
          simp only at he
          split_ifs at he
          all_goals
            injection he with he
            exact he.symm)
        rcases hg _ _ (h.map Prod.snd) with h | h
        · exact Or.inl ⟨g, h⟩
        · exact Or.inr ⟨_, h⟩
      | other => exact Or.inr ⟨_, rfl, rfl⟩
    have key : ∀ cl : Fin k → α, pdfoFit la fuel nBins method dist cl (T.map Prod.fst) (T.map Prod.snd) = pdfoFit la fuel nBins method dist cl (T'.map Prod.fst) (T'.map Prod.snd) := by
      intro cl
      unfold pdfoFit
      split_ifs with hk
      · rfl
      rcases hs with ⟨g, h1, h2⟩ | ⟨e, h1, h2⟩
      · simp only [h1, h2, List.length_map, ne_eq, not_true_eq_false, if_false]
        have hsel : ∀ c, ((ordHistogram nBins k (selectRows (T.map Prod.fst) ((T.map Prod.snd).map g) c)).map fun v b => v b / ((T.map Prod.fst).count c : ℝ))
            = (ordHistogram nBins k (selectRows (T'.map Prod.fst) ((T'.map Prod.snd).map g) c)).map fun v b => v b / ((T'.map Prod.fst).count c : ℝ) := by
          intro c
          rw [← selectRows_length (T.map Prod.fst) ((T.map Prod.snd).map g) (by simp) c, ← selectRows_length (T'.map Prod.fst) ((T'.map Prod.snd).map g) (by simp) c]
          refine ordHistogram_frac nBins k ?_
          have := selectRows_same (h.map fun t => (t.1, g t.2)) c
          simpa only [List.map_map, Function.comp_def] using this
        have hall := seqFin_map (fun c : Fin k => ordHistogram nBins k (selectRows (T.map Prod.fst) ((T.map Prod.snd).map g) (cl c))) fun c v b => v b / ((T.map Prod.fst).count (cl c) : ℝ)
        have hall' := seqFin_map (fun c : Fin k => ordHistogram nBins k (selectRows (T'.map Prod.fst) ((T'.map Prod.snd).map g) (cl c))) fun c v b => v b / ((T'.map Prod.fst).count (cl c) : ℝ)
        simp only [hsel] at hall
        rw [hall'] at hall
        cases hv : seqFin fun c : Fin k => ordHistogram nBins k (selectRows (T.map Prod.fst) ((T.map Prod.snd).map g) (cl c)) with
        | error e =>
          cases hv' : seqFin fun c : Fin k => ordHistogram nBins k (selectRows (T'.map Prod.fst) ((T'.map Prod.snd).map g) (cl c)) with
          | error e' =>
            rw [hv, hv'] at hall
            injection hall with hall
            simp only [hall]
          | ok v' => rw [hv, hv'] at hall; cases hall
        | ok v =>
          cases hv' : seqFin fun c : Fin k => ordHistogram nBins k (selectRows (T'.map Prod.fst) ((T'.map Prod.snd).map g) (cl c)) with
          | error e' => rw [hv, hv'] at hall; cases hall
          | ok v' =>
            rw [hv, hv'] at hall
            injection hall with hall
            have e : ∀ c b, v c b / ((T.map Prod.fst).count (cl c) : ℝ) = v' c b / ((T'.map Prod.fst).count (cl c) : ℝ) := fun c b => (congrFun (congrFun hall c) b).symm
            simp only [e]
      · simp only [h1, h2]
    simp only [F, key]

/-- **C129, partial**, for CvMy: for training sets of the same size. Missing: training sets of different sizes; see `C129_cvmy_size_refuted`. -/
theorem C129_cvmy_partial {n : ℕ} (qp : QPSolver) (la : LinAlg n) (fuel : ℕ) (d : (Fin (n + 1) → ℝ) → (Fin (n + 1) → ℝ) → ℝ) : DistributionDecides (cvmyClass (α := α) qp la fuel d) fun m m' => m = m' := by
  refine distributionDecides_of _ _ (fun _ _ _ => rfl) (fun hc => by cases hc) fun _ y y' p p' hp hR _ => ?_
  have hcl := npUnique_same hp.labels
  refine learnsSame_eq _ _ _ _ _ rfl fun m q => ?_
  cases q with
  | crisp l => rfl
  | probs1 l => rfl
  | probs rows =>
    cases hp with
    | crisp h => rfl
    | probs1 h => rfl
    | @probs T T' h =>
      have hT := perm_of_same h (by simpa using hR)
      have hr : rankRow (T.map Prod.snd ++ rows) = rankRow (T'.map Prod.snd ++ rows) := by
        funext row i
        unfold rankRow rankdata
        have hp := ((hT.map Prod.snd).append_right rows).map fun r : Fin (n + 1) → ℝ => r i
        rw [hp.countP_eq, hp.countP_eq]
      have hc : ∀ cl : Fin (n + 1) → α, cvmPredict la fuel qp d cl (T.map Prod.fst) (T.map Prod.snd) rows = cvmPredict la fuel qp d cl (T'.map Prod.fst) (T'.map Prod.snd) rows := by
        intro cl
        have h' : SameFrequencies (T.map fun t => (t.1, rankRow (T'.map Prod.snd ++ rows) t.2)) (T'.map fun t => (t.1, rankRow (T'.map Prod.snd ++ rows) t.2)) := h.map _
        have := edPredict_train la fuel qp d cl h'
        simp only [List.map_map, Function.comp_def] at this
        unfold cvmPredict
        simp only [hr, List.map_map, Function.comp_def]
        rcases this with ⟨h1, h2⟩ | ⟨f, f', h1, h2, h3⟩
        · rw [h1, h2]
        · rw [h1, h2]
          exact congrArg some (h3 _)
      let F : List α → List (α × (Fin (n + 1) → ℝ)) → Except Err (Option (List Fl)) := fun cl T => do
        let ⟨h⟩ ← columnsAre cl (n + 1)
        match cvmPredict la fuel qp d (fun i => cl[Fin.cast h.symm i]) (T.map Prod.fst) (T.map Prod.snd) rows with
          | none => .error .linAlgError
          | some r => (r.map realList).map some
      have hF : ∀ T : List (α × (Fin (n + 1) → ℝ)), ((cvmyClass (α := α) qp la fuel d).answer m ⟨some (npUnique (T.map Prod.fst)), some (.probs (T.map Prod.snd)), some (T.map Prod.fst)⟩ (.probs rows)).2 = F (npUnique (T.map Prod.fst)) T := by
        intro T
        simp only [cvmyClass, keep, trainData, probRows, bind, Except.bind, Option.getD_some, F, columnsAre]
        by_cases hk : (npUnique (T.map Prod.fst)).length = n + 1
        · simp only [hk, dif_pos, List.length_map, ne_eq, not_true_eq_false, if_false]
          cases cvmPredict la fuel qp d (fun i => (npUnique (T.map Prod.fst))[Fin.cast hk.symm i]) (T.map Prod.fst) (T.map Prod.snd) rows <;> rfl
        · simp only [hk, dif_neg, not_false_eq_true]
          rfl
      rw [hF, hF, hcl]
      simp only [F, hc]

end

theorem mem_sorted_unique {L : Type*} {l l' : List (ℝ × L)} (hp : l.Perm l') (h : l.Pairwise fun a b => a.1 ≤ b.1) (h' : l'.Pairwise fun a b => a.1 ≤ b.1) (hn : (l.map Prod.fst).Nodup) : l = l' := by
  have hlt : ∀ {m : List (ℝ × L)}, m.Pairwise (fun a b => a.1 ≤ b.1) → (m.map Prod.fst).Nodup → m.Pairwise fun a b => a.1 < b.1 := by
    intro m h1 h2
    rw [List.Nodup, List.pairwise_map] at h2
    exact (h1.and h2).imp fun h => lt_of_le_of_ne h.1 h.2
  refine List.Perm.eq_of_pairwise (le := fun a b => a.1 < b.1) (fun a b _ _ h1 h2 => absurd h1 h2.not_gt) (hlt h hn) (hlt h' ?_) hp
  exact (hp.map Prod.fst).nodup_iff.1 hn

/-- **C129, partial**, for QUANTy: the order of the training examples does not matter, when no two of them have the same probability of the positive class. Missing: equal probabilities, and training sets of different sizes. -/
theorem C129_quanty_partial [LinearOrder α] (k : ℕ) (sort : List (ℝ × α) → List (ℝ × α)) (hsort : ∀ l, (sort l).Perm l ∧ (sort l).Pairwise fun a b => a.1 ≤ b.1) (n : ℕ) (dist : (Fin n → Fl) → (Fin n → Fl) → Fl) (tol : ℝ) (d : α)
    (ops : EstOps σ D α (k + 2)) (enc : Bool → α) (w : World σ D α) (e e' : Option ℕ) (X X' : List D) (T T' : List (α × (Fin (k + 2) → ℝ))) (hT : T.Perm T') (hne : T ≠ []) (hn : (T.map fun t => t.2 1).Nodup) (Xt : List D) (q : Preds α (k + 2)) :
    ucRun ops enc w ⟨quantyClass k sort n dist tol d, e, e'⟩ X (T.map Prod.fst) (some (.probs (T.map Prod.snd))) Xt (some q)
      = ucRun ops enc w ⟨quantyClass k sort n dist tol d, e, e'⟩ X' (T'.map Prod.fst) (some (.probs (T'.map Prod.snd))) Xt (some q) := by
  have hf : SameFrequencies T T' := SameFrequencies.of_perm hT hne
  have hcl := npUnique_same (hf.map Prod.fst)
  have hz : ∀ T : List (α × (Fin (k + 2) → ℝ)), ((T.map Prod.snd).map fun r => r 1).zip (T.map Prod.fst) = T.map fun t => (t.2 1, t.1) := by
    intro T
    rw [List.map_map, List.zip_map']
    rfl
  have hs : sort (T.map fun t => (t.2 1, t.1)) = sort (T'.map fun t => (t.2 1, t.1)) := by
    have h1 := hsort (T.map fun t => (t.2 1, t.1))
    have h2 := hsort (T'.map fun t => (t.2 1, t.1))
    refine mem_sorted_unique (h1.1.trans ((hT.map _).trans h2.1.symm)) h1.2 h2.2 ((h1.1.map Prod.fst).nodup_iff.2 ?_)
    simpa [List.map_map, Function.comp_def] using hn
  have hlen : ∀ T : List (α × (Fin (k + 2) → ℝ)), extendLabels (T.map Prod.fst) (Preds.probs (α := α) (T.map Prod.snd)).len = .ok (T.map Prod.fst) := fun T => by simp [extendLabels, Preds.len]
  have hL : LearnsSame (quantyClass k sort n dist tol d) False (T.map Prod.fst) (T'.map Prod.fst) ⟨some (npUnique (T.map Prod.fst)), some (.probs (T.map Prod.snd)), some (T.map Prod.fst)⟩
      ⟨some (npUnique (T'.map Prod.fst)), some (.probs (T'.map Prod.snd)), some (T'.map Prod.fst)⟩ := by
    refine learnsSame_eq _ _ _ _ _ ?_ fun m p => ?_
    · simp only [quantyClass, trainData, probRows, bind, Except.bind, hz, hs, hcl, List.length_map]
    · simp [quantyClass, hcl]
  refine ucRun_same False ops enc w ⟨quantyClass k sort n dist tol d, e, e'⟩ X X' (T.map Prod.fst) (T'.map Prod.fst) _ _ rfl (Or.inr ⟨?_, ?_, ?_, ?_⟩) Xt (some q) (fun hc => by cases hc) False.elim fun hc => hc.elim
  · simp [usingFit, UcObj.cfg, quantyClass, trainPreds, hlen]
  · simp [usingFit, UcObj.cfg, quantyClass, trainPreds, hlen]
  · simp [usingFit, UcObj.cfg, quantyClass, trainPreds, hlen, hcl]
  · simpa [usingFit, UcObj.cfg, quantyClass, trainPreds, hlen] using hL

/-- **C129** for SORDy, on data with two classes and bags with at least one example. -/
theorem C129_sordy {k : ℕ} (sort : List (ℝ × ℤ) → List (ℝ × ℤ)) (hsort : IsSort sort) (tol : ℝ) :
    DistributionDecidesOn (sordyClass k sort tol) (fun _ _ => True) (fun y => (labelsOf y).length = 2) True := by
  refine distributionDecidesOn_of _ _ _ _ (fun _ _ _ => rfl) (fun hc => by cases hc) fun _ y y' p p' hp hR hC _ => ?_
  have hcl := npUnique_same hp.labels
  obtain ⟨c0, c1, hc⟩ := List.length_eq_two.1 hC
  have h2 : ¬ (npUnique y).length > 2 := by have : (npUnique y).length = 2 := hC; omega
  have h2' : ¬ (npUnique y').length > 2 := by rw [← hcl]; exact h2
  cases hp with
  | crisp h => exact Or.inl ⟨.typeError, by simp only [sordyClass, h2, if_false, trainData, probRows, bind, Except.bind], by simp only [sordyClass, h2', if_false, trainData, probRows, bind, Except.bind]⟩
  | probs1 h => exact Or.inl ⟨.typeError, by simp only [sordyClass, h2, if_false, trainData, probRows, bind, Except.bind], by simp only [sordyClass, h2', if_false, trainData, probRows, bind, Except.bind]⟩
  | @probs T T' h =>
    refine Or.inr ⟨⟨npUnique (T.map Prod.fst), sort (((T.map Prod.snd).map fun r => r 1).zip (T.map Prod.fst))⟩, ⟨npUnique (T'.map Prod.fst), sort (((T'.map Prod.snd).map fun r => r 1).zip (T'.map Prod.fst))⟩, ?_, ?_, fun q hq => ?_⟩
    · simp only [sordyClass, h2, if_false, trainData, probRows, bind, Except.bind, List.length_map, if_true]
      rfl
    · simp only [sordyClass, h2', if_false, trainData, probRows, bind, Except.bind, List.length_map, if_true]
      rfl
    · cases q with
      | crisp l => rfl
      | probs1 l => rfl
      | probs rows =>
        have hz : ∀ T : List (ℤ × (Fin (k + 2) → ℝ)), ((T.map Prod.snd).map fun r => r 1).zip (T.map Prod.fst) = T.map fun t => (t.2 1, t.1) := by
          intro T
          rw [List.map_map, List.zip_map']
          rfl
        have hrows : (rows.map fun r => r 1) ≠ [] := by simpa [Preds.len] using hq trivial
        have key : ∀ (T : List (ℤ × (Fin (k + 2) → ℝ))), labelsOf (T.map Prod.fst) = [c0, c1] →
            sordyUnion sort ⟨[c0, c1], sort (((T.map Prod.snd).map fun r => r 1).zip (T.map Prod.fst))⟩ (rows.map fun r => r 1) ≠ [] ∧ ∀ p, sordyLoss [c0, c1] (sordyUnion sort ⟨[c0, c1], sort (((T.map Prod.snd).map fun r => r 1).zip (T.map Prod.fst))⟩ (rows.map fun r => r 1)) p
              = Fl.fin (∫ x, |(1 - p) * ecdf (scoresOf (((T.map Prod.snd).map fun r => r 1).zip (T.map Prod.fst)) c0) x + p * ecdf (scoresOf (((T.map Prod.snd).map fun r => r 1).zip (T.map Prod.fst)) c1) x - ecdf (rows.map fun r => r 1) x|) := by
          intro T hT
          obtain ⟨hU, u0, u1, u2⟩ := sordy_union sort hsort (T.map Prod.fst) ((T.map Prod.snd).map fun r => r 1) (by simp) c0 c1 hT (rows.map fun r => r 1) hrows
          refine ⟨fun he => hU.neg (by rw [he]; rfl), fun p => ?_⟩
          obtain ⟨_, v, h1, h2, _⟩ := C36_sord_is_wasserstein _ c0 c1 (c1 + 1) hU (hsort _).2 p
          unfold sordyLoss
          rw [h1, h2]
          simp only [u0, u1, u2]
        have hec : ∀ c x, ecdf (scoresOf (((T.map Prod.snd).map fun r => r 1).zip (T.map Prod.fst)) c) x = ecdf (scoresOf (((T'.map Prod.snd).map fun r => r 1).zip (T'.map Prod.fst)) c) x := by
          intro c x
          rw [hz, hz]
          unfold scoresOf
          rcases filter_same (fun ul : ℝ × ℤ => decide (ul.2 = c)) (h.map fun t => (t.2 1, t.1)) with ⟨h1, h2⟩ | h1
          · rw [h1, h2]
          · exact ecdf_same (h1.map _) x
        have hc' : npUnique (T.map Prod.fst) = [c0, c1] := hc
        have hc'' : npUnique (T'.map Prod.fst) = [c0, c1] := hcl.symm.trans hc
        obtain ⟨a1, a2⟩ := key T hc
        obtain ⟨b1, b2⟩ := key T' hc''
        simp only [sordyClass, keep, probRows, bind, Except.bind, Option.getD_some, hc', hc'']
        unfold sordyPredict
        simp only [if_neg a1, if_neg b1]
        have : sordyLoss [c0, c1] (sordyUnion sort ⟨[c0, c1], sort (((T.map Prod.snd).map fun r => r 1).zip (T.map Prod.fst))⟩ (rows.map fun r => r 1)) = sordyLoss [c0, c1] (sordyUnion sort ⟨[c0, c1], sort (((T'.map Prod.snd).map fun r => r 1).zip (T'.map Prod.fst))⟩ (rows.map fun r => r 1)) := by
          funext p
          rw [a2, b2]
          simp only [hec]
        rw [this]

/-! ### Quantifiers without classifiers -/

section
variable [LinearOrder α]

/-- **C129** for DFX and its wrapper HDX, as a function of the pairs of label and example: what `fit` learns, and so every later answer. With 'equal_count', for training sets of the same size. -/
theorem C129_dfx (ppf : ℝ → EReal) {nf : ℕ} (cfg : DfCfg) {T T' : List (α × (Fin nf → ℝ))} (h : SameFrequencies T T') (hR : cfg.strategy = .equalCount → T.length = T'.length) :
    labelsOf (T.map Prod.fst) = labelsOf (T'.map Prod.fst) ∧ ∀ cl, dfxFit ppf cfg cl (T.map Prod.fst) (T.map Prod.snd) = dfxFit ppf cfg cl (T'.map Prod.fst) (T'.map Prod.snd) :=
  ⟨npUnique_same (h.map _), fun cl => dfFit_same ppf .perBlock cfg none _ cl h hR⟩

/-- **C129** for EDX, with every distance between examples. -/
theorem C129_edx {n : ℕ} {P : Type} (la : LinAlg n) (fuel : ℕ) (qp : QPSolver) (d : P → P → ℝ) {T T' : List (α × P)} (h : SameFrequencies T T') (test : List P) :
    labelsOf (T.map Prod.fst) = labelsOf (T'.map Prod.fst)
    ∧ ∀ cl, (edFit la fuel d cl (T.map Prod.fst) (T.map Prod.snd)).map (fun f => edPredict qp d f test) = (edFit la fuel d cl (T'.map Prod.fst) (T'.map Prod.snd)).map fun f => edPredict qp d f test := by
  refine ⟨npUnique_same (h.map _), fun cl => ?_⟩
  rcases edPredict_train la fuel qp d cl h with ⟨h1, h2⟩ | ⟨f, f', h1, h2, h3⟩
  · rw [h1, h2]
  · rw [h1, h2]
    exact congrArg some (h3 test)

/-- **C129** is false of DFX with 'equal_count' for training sets of different sizes: with more than twice as many bins as examples `fit` raises an IndexError, and with the same training set repeated often enough it returns. -/
theorem C129_equal_count_refuted (ppf : ℝ → EReal) {nf : ℕ} (hnf : 0 < nf) (cfg : DfCfg) (hs : cfg.strategy = .equalCount) (T : List (α × (Fin nf → ℝ))) (hT : T ≠ []) (hb : 2 ≤ cfg.nBins) (hsmall : 2 * T.length < cfg.nBins) (r : ℕ)
    (hr : cfg.nBins < 2 * (r * T.length)) (cl : List α) :
    SameFrequencies T (List.replicate r T).flatten ∧ dfxFit ppf cfg cl (T.map Prod.fst) (T.map Prod.snd) = .error .indexError
      ∧ ∃ fit, dfxFit ppf cfg cl ((List.replicate r T).flatten.map Prod.fst) ((List.replicate r T).flatten.map Prod.snd) = .ok fit := by
  have hr0 : r ≠ 0 := by rintro rfl; simp at hr
  refine ⟨(SameFrequencies.replicate hT hr0).symm, C125_dfx_refuted ppf hnf cfg hs hb cl _ _ (by simpa using hsmall), ?_⟩
  have hl : ((List.replicate r T).flatten.map Prod.snd).length = r * T.length := by rw [List.length_map, length_flatten_replicate]
  have := fun d : Fin nf => C125_equal_count_partial ppf (((List.replicate r T).flatten.map Prod.snd).map fun x => x d) ((List.replicate r T).flatten.map Prod.fst) cl cfg.nBins (by omega) (by rw [List.length_map, hl]; exact hr) none
  choose cuts h1 h2 h3 h4 using this
  exact ⟨_, dfFit_eq ppf .perBlock cfg none _ cl _ _ _ (by simp) cuts (fun d => by rw [hs]; exact h1 d) fun d i j hij => h4 d i j hij⟩

end

/-- **C129** is false of CvMy for training sets of different sizes: the ranks are computed on the training and testing predictions together, so a training set given twice weighs more against the bag. Here CvMy, with the default distance and
exact solvers, answers [7/10, 3/10] for a bag, and [5/7, 2/7] when the training set is repeated. -/
theorem C129_cvmy_size_refuted (qp : QPSolver) (hqp : ExactQP qp) (la : LinAlg 1) (fuel : ℕ) (ops : EstOps σ D ℤ 2) (enc : Bool → ℤ) (w : World σ D ℤ) (e e' : Option ℕ) (X X' Xt Xt' : List D) :
    SamePairs [(0 : ℤ), 1] (.probs cvTrain) [0, 1, 0, 1] (.probs (cvTrain ++ cvTrain))
    ∧ ucRun ops enc w ⟨cvmyClass qp la fuel manhattan, e, e'⟩ X [0, 1] (some (.probs cvTrain)) Xt (some (.probs cvBag)) = .ok (some [Fl.fin (7/10), Fl.fin (3/10)])
    ∧ ucRun ops enc w ⟨cvmyClass qp la fuel manhattan, e, e'⟩ X' [0, 1, 0, 1] (some (.probs (cvTrain ++ cvTrain))) Xt' (some (.probs cvBag)) = .ok (some [Fl.fin (5/7), Fl.fin (2/7)]) := by
  refine ⟨?_, (C126_cvmy_repetition_refuted qp hqp la fuel ops enc w e e' X Xt Xt').2.1, ?_⟩
  · have h := SameFrequencies.replicate (l := [((0 : ℤ), ![(1 : ℝ), 0]), (1, ![0, 1])]) (by simp) two_ne_zero
    exact SamePairs.probs h.symm
  · have h2 : ∀ (l : List (Fin 2 → ℝ)) (a b : ℝ), rankRow l ![a, b] = ![rankdata (l.map fun r => r 0) a, rankdata (l.map fun r => r 1) b] := by
      intro l a b
      funext i
      fin_cases i <;> rfl
    have k1 : (cvTrain ++ cvTrain).map (rankRow (cvTrain ++ cvTrain ++ cvBag)) = [![5, 2], ![3/2, 11/2], ![5, 2], ![3/2, 11/2]] := by
      simp only [cvTrain, cvBag, List.cons_append, List.nil_append, List.map_cons, List.map_nil, h2, rankdata, List.countP_cons, List.countP_nil, Matrix.cons_val_zero, Matrix.cons_val_one]
      norm_num
    have k2 : cvBag.map (rankRow (cvTrain ++ cvTrain ++ cvBag)) = [![5, 2], ![3, 4]] := by
      simp only [cvTrain, cvBag, List.cons_append, List.nil_append, List.map_cons, List.map_nil, h2, rankdata, List.countP_cons, List.countP_nil, Matrix.cons_val_zero, Matrix.cons_val_one]
      norm_num
    set r0 : Fin 2 → ℝ := ![5, 2] with hr0
    set r1 : Fin 2 → ℝ := ![3/2, 11/2] with hr1
    set train : Fin (1 + 1) → List (Fin 2 → ℝ) := fun i => classRows [0, 1, 0, 1] [r0, r1, r0, r1] (![(0 : ℤ), 1] i) with htrain
    have t0 : train 0 = [r0, r0] := by simp [htrain, classRows]
    have t1 : train 1 = [r1, r1] := by simp [htrain, classRows]
    have h00 : avgDist manhattan (train 0) (train 0) = 0 := by simp [t0, avgDist, manhattan]
    have h11 : avgDist manhattan (train 1) (train 1) = 0 := by simp [t1, avgDist, manhattan]
    have h01 : avgDist manhattan (train 0) (train 1) = 7 := by rw [t0, t1]; simp [avgDist, manhattan, Fin.sum_univ_two, hr0, hr1]; norm_num
    have h10 : avgDist manhattan (train 1) (train 0) = 7 := by rw [t0, t1]; simp [avgDist, manhattan, Fin.sum_univ_two, hr0, hr1]; norm_num
    have hsep : Separated manhattan train := by
      intro c hc h0
      have hc' : c 0 + c 1 = 0 := by simpa [Fin.sum_univ_two] using hc
      rw [Fin.sum_univ_two, Fin.sum_univ_two, Fin.sum_univ_two, h00, h11, h01, h10]
      have e1 : c 1 = -c 0 := by linarith
      have e0 : c 0 ≠ 0 := fun h => h0 (by funext i; fin_cases i <;> simp [h, e1])
      have := pow_pos (abs_pos.2 e0) 2
      rw [sq_abs] at this
      rw [e1]
      nlinarith
    obtain ⟨par, p, g1, g2, g3, g4⟩ := C28_energy (n := 1) one_pos qp hqp la manhattan manhattan_comm train [![5, 2], ![3, 4]] (by intro i; fin_cases i <;> simp [t0, t1]) (by simp) fuel hsep
    have hp := energy_two manhattan train [![5, 2], ![3, 4]] 7 2 5 (by norm_num) h00 h11 h01 h10 (by rw [t0]; simp [avgDist, manhattan, Fin.sum_univ_two, hr0]; norm_num) (by rw [t1]; simp [avgDist, manhattan, Fin.sum_univ_two, hr1]; norm_num)
      p g3 (2/7) (by norm_num) (by norm_num) (by norm_num) g4
    rw [hp] at g2
    have hcv : cvmPredict la fuel qp manhattan ![(0 : ℤ), 1] [0, 1, 0, 1] (cvTrain ++ cvTrain) cvBag = some (.ok ![1 - 2/7, 2/7]) := by
      unfold cvmPredict edFit
      simp only [k1, k2]
      show Option.map _ (Option.map _ (computeEdParamTrain la fuel (edK manhattan train))) = _
      rw [g1]
      simp only [Option.map_some]
      exact congrArg some g2
    have hlab : labelsOf [(0 : ℤ), 1, 0, 1] = [0, 1] := labelsOf_eq _ _ (by decide) (by decide)
    rw [ucRun_given_probs ops enc w X' Xt' [0, 1, 0, 1] _ rfl rfl e e' (by simp) 1 (cvTrain ++ cvTrain) cvBag (by simp [cvTrain])]
    have hst : stacked [(0 : ℤ), 1, 0, 1] 1 = [0, 1, 0, 1] := by simp [stacked]
    have hcl : ∀ hk : 1 + 1 = (labelsOf [(0 : ℤ), 1, 0, 1]).length, (fun i : Fin (1 + 1) => (labelsOf [(0 : ℤ), 1, 0, 1])[Fin.cast hk i]) = ![(0 : ℤ), 1] := by
      intro hk
      have : ∀ (l : List ℤ) (hl : l = [0, 1]) (hk : 1 + 1 = l.length), (fun i : Fin (1 + 1) => l[Fin.cast hk i]) = ![(0 : ℤ), 1] := by
        rintro l rfl hk
        funext i
        fin_cases i <;> rfl
      exact this _ hlab hk
    have hk : (labelsOf [(0 : ℤ), 1, 0, 1]).length = 1 + 1 := by rw [hlab]; rfl
    simp only [answerOn, learnAnswer, fittedState, cvmyClass, trainData, probRows, columnsAre, if_true, bind, Except.bind, keep, hst, Option.getD_some]
    rw [dif_pos hk]
    simp only [hcl, hcv, show [(0 : ℤ), 1, 0, 1].length = (cvTrain ++ cvTrain).length from rfl, ne_eq, not_true_eq_false, if_false, Except.map]
    simp only [realList]
    norm_num [List.ofFn_succ]

/-! ### Examples -/

/-- Two training sets with the same distribution: the second is the first given twice, in another order. -/
example : SamePairs (k := 2) [(0 : ℤ), 1, 1] (.crisp [0, 1, 0]) [1, 0, 1, 1, 0, 1] (.crisp [1, 0, 0, 0, 0, 1]) := by
  refine SamePairs.crisp (T := [((0 : ℤ), (0 : ℤ)), (1, 1), (1, 0)]) (T' := [(1, 1), (0, 0), (1, 0), (1, 0), (0, 0), (1, 1)]) (sameFrequencies_iff.2 ⟨by simp, by simp, 2, 1, two_ne_zero, one_ne_zero, ?_⟩)
  decide

/-- An estimator that learns only from the distribution of the examples: it compares them with their mean. -/
example : ∃ ops : EstOps ℝ ℝ ℤ 2, RowWise ops ∧ LearnsDistribution ops ∧ ops.fit 0 [1, 3] [0, 1] = 2 := by
  classical
  refine ⟨⟨fun _ => false, fun _ X _ => X.sum / X.length, fun s X => X.map fun x : ℝ => if x ≤ s then 0 else 1, fun s X => X.map fun x : ℝ => if x ≤ s then ![1, 0] else ![0, 1]⟩, fun s => ⟨⟨_, fun _ => rfl⟩, _, fun _ => rfl⟩, ?_, ?_⟩
  · intro s T T' h
    have := h.average Prod.fst
    simpa using this
  · norm_num

/-- A training set that is too small for the bins. -/
example : ∃ (T : List (ℤ × (Fin 1 → ℝ))) (r nBins : ℕ), T ≠ [] ∧ 2 ≤ nBins ∧ 2 * T.length < nBins ∧ nBins < 2 * (r * T.length) := ⟨[(0, ![1]), (1, ![2])], 3, 8, by simp, by norm_num, by norm_num, by norm_num⟩

end Verif.Props
