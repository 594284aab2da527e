import Verif.Model.CC
import Verif.Props.Baselines

/-!
# C04-C07: the base class of quantifiers that use classifiers
-/

namespace Verif.Props

open Verif.Model Verif.Spec

variable {σ D α : Type*} {k : ℕ}

/-! ## C04 -/

theorem mapM_takeLabel_ne_value (labels : List α) (hk : 0 < k) (l : List (Fin k → ℝ)) :
    (l.mapM fun row => match npArgmax row with
      | some i => takeLabel labels i
      | none => .error .valueError) ≠ .error Err.valueError := by
  induction l with
  | nil => simp [pure, Except.pure]
  | cons row l ih =>
    rw [List.mapM_cons]
    have hrow : npArgmax row ≠ none := by
      unfold npArgmax
      rw [Ne, List.argmax_eq_none]
      intro h
      have := congrArg List.length h
      simp at this
      omega
    cases h1 : npArgmax row with
    | none => exact absurd h1 hrow
    | some i =>
      simp only [takeLabel]
      cases h2 : labels[i.1]? with
      | none => simp [bind, Except.bind]
      | some c =>
        simp only [bind, Except.bind]
        split
        · rename_i e he
          intro hc
          injection hc with hc
          rw [hc] at he
          exact ih he
        · simp [pure, Except.pure]

theorem probs2crisps_ne_value (enc : Bool → α) (labels : List α) (hk : 0 < k) (p : Preds α k) :
    probs2crisps enc labels p ≠ .error .valueError := by
  cases p with
  | crisp l => simp [probs2crisps]
  | probs1 l => simp [probs2crisps]
  | probs l => exact mapM_takeLabel_ne_value labels hk l

/-- **C04** (fit): `fit` raises `ValueError` exactly when training predictions are needed and
neither an estimator nor predictions are available. -/
theorem C04_fit_valueError_iff [LinearOrder α] (ops : EstOps σ D α k) (hk : 0 < k) (enc : Bool → α)
    (w : World σ D α) (q : QuantCfg) (s : QState α k) (X : List D) (y : List α)
    (pt : Option (Preds α k)) :
    (usingFit ops enc w q s X y pt).2.2 = some .valueError
      ↔ q.needsTrain = true ∧ q.estTrain = none ∧ pt = none := by
  unfold usingFit
  simp only [Bool.and_eq_true, Option.isNone_iff_eq_none]
  split
  · rename_i h
    simp [h.1.1, h.1.2, h.2]
  · rename_i h
    constructor
    · intro h2
      exfalso
      split at h2
      · split at h2
        · rename_i e he
          simp only [Option.some.injEq] at h2
          subst h2
          unfold trainPreds at he
          split at he
          · rename_i _ p
            split at he
            · cases he
            · cases hp : probs2crisps enc (npUnique y) p with
              | ok v => rw [hp] at he; cases he
              | error e =>
                rw [hp] at he
                simp only [Except.map, Except.error.injEq] at he
                rw [he] at hp
                exact probs2crisps_ne_value enc _ hk p hp
          · split at he
            · cases he
            · split at he <;> cases he
        · split at h2
          · rename_i e he
            simp only [Option.some.injEq] at h2
            subst h2
            unfold extendLabels at he
            split at he
            · cases he
            · split at he <;> cases he
          · cases h2
      · cases h2
    · rintro ⟨h1, h2, h3⟩
      exact absurd ⟨⟨h1, h2⟩, h3⟩ h

/-- **C04** (predict): `predict` raises `ValueError` exactly when it has neither an estimator
nor predictions. -/
theorem C04_predict_valueError_iff (ops : EstOps σ D α k) (hk : 0 < k) (enc : Bool → α)
    (w : World σ D α) (q : QuantCfg) (classes : List α) (X : List D) (pt : Option (Preds α k)) :
    usingPredict ops enc w q classes X pt = .error .valueError
      ↔ q.estTest = none ∧ pt = none := by
  cases hq : q.estTest with
  | none =>
    cases pt with
    | none => simp [usingPredict, hq]
    | some p =>
      simp only [usingPredict, hq, reduceCtorEq, and_false, iff_false]
      split
      · simp
      · intro h
        cases hp : probs2crisps enc classes p with
        | ok v => rw [hp] at h; cases h
        | error e =>
          rw [hp] at h
          simp only [Except.map, Except.error.injEq] at h
          rw [h] at hp
          exact probs2crisps_ne_value enc _ hk p hp
  | some e =>
    cases pt with
    | none =>
      simp only [usingPredict, hq]
      split <;> simp
    | some p =>
      simp only [usingPredict, hq, reduceCtorEq, and_false, iff_false]
      split
      · simp
      · intro h
        cases hp : probs2crisps enc classes p with
        | ok v => rw [hp] at h; cases h
        | error e =>
          rw [hp] at h
          simp only [Except.map, Except.error.injEq] at h
          rw [h] at hp
          exact probs2crisps_ne_value enc _ hk p hp

/-- **C04** (priority, predict): supplied test predictions decide the result, whatever the
estimators are and whatever they would answer. -/
theorem C04_predict_supplied_wins {σ' D' : Type*} (ops : EstOps σ D α k) (ops' : EstOps σ' D' α k)
    (enc : Bool → α) (w : World σ D α) (w' : World σ' D' α) (q : QuantCfg) (et' : Option ℕ)
    (classes : List α) (X : List D) (X' : List D') (p : Preds α k) :
    usingPredict ops enc w q classes X (some p)
      = usingPredict ops' enc w' { q with estTest := et' } classes X' (some p) := by
  cases h : q.estTest <;> cases et' <;> simp [usingPredict, h]

/-- **C04** (CC and PCC need no training predictions): `fit` raises nothing and keeps no training predictions, whatever the
estimator; it only learns the classes, and fits an unfitted testing estimator once, with the training set. -/
theorem C04_cc_pcc_fit [LinearOrder α] (ops : EstOps σ D α k) (enc : Bool → α) (w : World σ D α) (et : Option ℕ)
    (s : QState α k) (X : List D) (y : List α) :
    (ccFit ops enc w et s X y).2 = ({ s with classes := some (labelsOf y) }, none)
    ∧ (pccFit ops enc w et s X y).2 = ({ s with classes := some (labelsOf y) }, none)
    ∧ (ccFit ops enc w et s X y).1 = (pccFit ops enc w et s X y).1
    ∧ (pccFit ops enc w et s X y).1.log = w.log ++ (match et with
        | some e => if ops.notFitted (w.est e) then [(e, X, y)] else []
        | none => [])
    ∧ (∀ e, et = some e → (pccFit ops enc w et s X y).1.est e
        = if ops.notFitted (w.est e) then ops.fit (w.est e) X y else w.est e) := by
  refine ⟨by simp [ccFit, usingFit, ccCfg, npUnique_eq_labelsOf], by simp [pccFit, usingFit, pccCfg, npUnique_eq_labelsOf],
    by simp [ccFit, pccFit, usingFit, ccCfg, pccCfg], ?_, ?_⟩
  · cases et with
    | none => simp [pccFit, usingFit, pccCfg, fitIfNeeded]
    | some e => cases h : ops.notFitted (w.est e) <;> simp [pccFit, usingFit, pccCfg, fitIfNeeded, h]
  · rintro e rfl
    cases h : ops.notFitted (w.est e) <;> simp [pccFit, usingFit, pccCfg, fitIfNeeded, h]

/-- **C04** (priority, fit): the training predictions and labels stored after `fit` with
supplied predictions do not depend on the estimators. -/
theorem C04_fit_supplied_wins [LinearOrder α] {σ' D' : Type*} (ops : EstOps σ D α k)
    (ops' : EstOps σ' D' α k) (enc : Bool → α) (w : World σ D α) (w' : World σ' D' α)
    (q : QuantCfg) (et et' : Option ℕ) (s : QState α k) (X : List D) (X' : List D') (y : List α)
    (p : Preds α k) :
    (usingFit ops enc w q s X y (some p)).2
      = (usingFit ops' enc w' { q with estTrain := et, estTest := et' } s X' y (some p)).2 := by
  simp only [usingFit, Option.isNone_some, Bool.and_false, Bool.false_eq_true, if_false, trainPreds]
  split
  · split
    · rename_i h; simp only [h]
    · rename_i h; simp only [h]; split <;> rfl
  · rfl

/-- Supplied probabilistic predictions are stored unchanged. -/
theorem C04_fit_stores_supplied [LinearOrder α] (ops : EstOps σ D α k) (enc : Bool → α)
    (w : World σ D α) (q : QuantCfg) (hq : q.needsTrain = true) (hp : q.probabilistic = true)
    (s : QState α k) (X : List D) (y : List α) (p : Preds α k) :
    (usingFit ops enc w q s X y (some p)).2.1.predsTrain = some p := by
  simp only [usingFit, Option.isNone_some, Bool.and_false, Bool.false_eq_true, if_false, trainPreds,
    hq, hp, if_true]
  split <;> rfl

/-- **C04** (estimator predictions): fitting without predictions is the same as fitting with
the predictions that the (now fitted) training estimator makes on the training set. -/
theorem C04_fit_estimator_eq_supplied [LinearOrder α] (ops : EstOps σ D α k) (enc : Bool → α)
    (w : World σ D α) (q : QuantCfg) (e : ℕ) (he : q.estTrain = some e) (s : QState α k)
    (X : List D) (y : List α) :
    usingFit ops enc w q s X y none
      = usingFit ops enc w q s X y (some
          (if q.probabilistic
            then .probs (ops.predictProba ((usingFit ops enc w q s X y none).1.est e) X)
            else .crisp (ops.predict ((usingFit ops enc w q s X y none).1.est e) X))) := by
  have hw : ∀ pt, (usingFit ops enc w q s X y pt).1
      = fitIfNeeded ops (fitIfNeeded ops w q.estTrain X y) q.estTest X y := by
    intro pt
    simp only [usingFit, he, Option.isNone_some, Bool.and_false, Bool.false_and, Bool.false_eq_true,
      if_false]
    split
    · split
      · rfl
      · split <;> rfl
    · rfl
  rw [hw none]
  simp only [usingFit, he, Option.isNone_some, Bool.and_false, Bool.false_and, Bool.false_eq_true,
    if_false, trainPreds]
  by_cases hp : q.probabilistic = true
  · simp [hp]
  · simp [hp, probs2crisps, Except.map]

/-- **C04** (estimator predictions, predict): the same for the testing estimator. -/
theorem C04_predict_estimator_eq_supplied (ops : EstOps σ D α k) (enc : Bool → α)
    (w : World σ D α) (q : QuantCfg) (e : ℕ) (he : q.estTest = some e) (classes : List α)
    (X : List D) :
    usingPredict ops enc w q classes X none
      = usingPredict ops enc w q classes X (some
          (if q.probabilistic then .probs (ops.predictProba (w.est e) X)
            else .crisp (ops.predict (w.est e) X))) := by
  by_cases hp : q.probabilistic = true
  · simp [usingPredict, he, hp]
  · simp [usingPredict, he, hp, probs2crisps, Except.map]

example : ∃ q : QuantCfg, q.needsTrain = true ∧ q.estTrain = none ∧ q.probabilistic = true :=
  ⟨⟨none, none, true, true⟩, rfl, rfl, rfl⟩

/-! ## C05 -/

theorem extendLabels_tile (y : List α) (hy : y ≠ []) (r : ℕ) :
    extendLabels y (r * y.length) = .ok (npTile y r) := by
  have hy0 : y.length ≠ 0 := by simpa using hy
  have hpos : 0 < y.length := Nat.pos_of_ne_zero hy0
  unfold extendLabels
  split
  · rename_i h
    have : r = 1 := by
      have h' : 1 * y.length = r * y.length := by omega
      exact (Nat.eq_of_mul_eq_mul_right hpos h').symm
    subst this
    simp [npTile]
  · rw [Nat.mul_div_cancel _ hpos]

/-- **C05**: when `fit` receives `r ≥ 1` stacked predictions per training example, it succeeds
and the extended labels have the length of the predictions, repeat `y` in order, and have the
class frequencies of `y`. -/
theorem C05_labels_aligned [LinearOrder α] (ops : EstOps σ D α k) (enc : Bool → α)
    (w : World σ D α) (q : QuantCfg) (hq : q.needsTrain = true) (hp : q.probabilistic = true)
    (s : QState α k) (X : List D) (y : List α) (hy : y ≠ []) (r : ℕ) (hr : 0 < r) (p : Preds α k)
    (hlen : p.len = r * y.length) :
    ∃ ye, (usingFit ops enc w q s X y (some p)).2.1.yExt = some ye
      ∧ (usingFit ops enc w q s X y (some p)).2.2 = none
      ∧ ye.length = p.len
      ∧ (∀ j < r, ∀ i < y.length, ye[j * y.length + i]? = y[i]?)
      ∧ ∀ c, freq ye c = freq y c := by
  have hy0 : y.length ≠ 0 := by simpa using hy
  have hpos : 0 < y.length := Nat.pos_of_ne_zero hy0
  have htile : extendLabels y p.len = .ok (npTile y r) := by
    rw [hlen, extendLabels_tile y hy]
  refine ⟨npTile y r, ?_, ?_, ?_, ?_, ?_⟩
  · simp [usingFit, trainPreds, hq, hp, htile]
  · simp [usingFit, trainPreds, hq, hp, htile]
  · simp [npTile, hlen]
  · intro j hj i hi
    clear htile hlen hr hp hq
    unfold npTile
    induction r generalizing j with
    | zero => omega
    | succ r ih =>
      rw [List.replicate_succ, List.flatten_cons]
      cases j with
      | zero =>
        rw [List.getElem?_append_left (by omega)]
        simp
      | succ j =>
        rw [List.getElem?_append_right (by rw [Nat.succ_mul]; omega)]
        rw [← ih j (by omega)]
        congr 1
        rw [Nat.succ_mul]
        omega
  · intro c
    unfold freq
    have hcount : (npTile y r).count c = r * y.count c := by
      unfold npTile
      clear htile hlen hr
      induction r with
      | zero => simp
      | succ r ih =>
        rw [List.replicate_succ, List.flatten_cons, List.count_append, ih, Nat.succ_mul]
        omega
    have hl : (npTile y r).length = r * y.length := by simp [npTile]
    rw [hcount, hl]
    have : (r : ℝ) ≠ 0 := by positivity
    have : (y.length : ℝ) ≠ 0 := by exact_mod_cast hy0
    push_cast
    field_simp

/-- **C05**, for every quantifier that keeps training predictions, crisp or probabilistic, with given predictions or those of an estimator: after every `fit` that does not raise, if there are
`r ≥ 1` predictions per training example, labels and predictions are aligned. -/
theorem C05_labels_aligned_any [LinearOrder α] (ops : EstOps σ D α k) (enc : Bool → α)
    (w : World σ D α) (q : QuantCfg) (hq : q.needsTrain = true) (s : QState α k) (X : List D) (y : List α) (hy : y ≠ []) (pt : Option (Preds α k))
    (hok : (usingFit ops enc w q s X y pt).2.2 = none) :
    ∃ p ye, (usingFit ops enc w q s X y pt).2.1.predsTrain = some p ∧ (usingFit ops enc w q s X y pt).2.1.yExt = some ye
      ∧ ∀ r, 0 < r → p.len = r * y.length → ye.length = p.len ∧ (∀ j < r, ∀ i < y.length, ye[j * y.length + i]? = y[i]?) ∧ ∀ c, freq ye c = freq y c := by
  obtain ⟨p, ye, h1, h2, h3⟩ : ∃ p ye, (usingFit ops enc w q s X y pt).2.1.predsTrain = some p ∧ (usingFit ops enc w q s X y pt).2.1.yExt = some ye ∧ extendLabels y p.len = .ok ye := by
    unfold usingFit at hok ⊢
    simp only [hq, Bool.true_and, if_true] at hok ⊢
    split_ifs at hok ⊢ with h0
    cases hp : trainPreds ops enc (npUnique y) (fitIfNeeded ops (fitIfNeeded ops w q.estTrain X y) q.estTest X y) q X pt with
    | error e => rw [hp] at hok; simp at hok
    | ok p =>
      rw [hp] at hok
      cases hl : extendLabels y p.len with
      | error e => simp only [hl] at hok; simp at hok
      | ok ye => exact ⟨p, ye, by simp only [hl], by simp only [hl], hl⟩
  refine ⟨p, ye, h1, h2, fun r hr hlen => ?_⟩
  -- the same labels as those of a probabilistic quantifier with these predictions
  obtain ⟨ye', e1, -, e3, e4, e5⟩ := C05_labels_aligned ops enc w ⟨none, none, true, true⟩ rfl rfl s X y hy r hr p hlen
  have : ye' = ye := by
    simp [usingFit, trainPreds, h3] at e1
    exact e1.symm
  subst this
  exact ⟨e3, e4, e5⟩

/-- **C05**, such a `fit` does not raise for crisp predictions given to a crisp quantifier. -/
theorem C05_crisp [LinearOrder α] (ops : EstOps σ D α k) (enc : Bool → α) (w : World σ D α) (q : QuantCfg) (hq : q.needsTrain = true) (hp : q.probabilistic = false) (s : QState α k)
    (X : List D) (y : List α) (hy : y ≠ []) (r : ℕ) (preds : List α) (hlen : preds.length = r * y.length) :
    (usingFit ops enc w q s X y (some (.crisp preds))).2.2 = none
    ∧ (usingFit ops enc w q s X y (some (.crisp preds))).2.1.predsTrain = some (.crisp preds) := by
  have htile : extendLabels y (Preds.crisp preds : Preds α k).len = .ok (npTile y r) := by
    rw [show (Preds.crisp preds : Preds α k).len = preds.length from rfl, hlen, extendLabels_tile y hy]
  constructor <;> simp [usingFit, trainPreds, hq, hp, probs2crisps, Except.map, htile]

/-- **C05**, nor for the predictions of an estimator, of either kind. -/
theorem C05_estimator [LinearOrder α] (ops : EstOps σ D α k) (enc : Bool → α) (w : World σ D α) (q : QuantCfg) (hq : q.needsTrain = true) (e : ℕ) (he : q.estTrain = some e) (s : QState α k)
    (X : List D) (y : List α) (hy : y ≠ []) (r : ℕ)
    (hlen : ∀ σ, (ops.predict σ X).length = r * y.length ∧ (ops.predictProba σ X).length = r * y.length) :
    (usingFit ops enc w q s X y none).2.2 = none := by
  have htile := extendLabels_tile y hy r
  have h1 : ∀ σ, extendLabels y (Preds.probs (ops.predictProba σ X) : Preds α k).len = .ok (npTile y r) := fun σ => by
    rw [show (Preds.probs (ops.predictProba σ X) : Preds α k).len = (ops.predictProba σ X).length from rfl, (hlen σ).2, htile]
  have h2 : ∀ σ, extendLabels y (Preds.crisp (ops.predict σ X) : Preds α k).len = .ok (npTile y r) := fun σ => by
    rw [show (Preds.crisp (ops.predict σ X) : Preds α k).len = (ops.predict σ X).length from rfl, (hlen σ).1, htile]
  cases hp : q.probabilistic <;> simp [usingFit, trainPreds, hq, he, hp, h1, h2]

example : (Preds.probs1 [0.1, 0.2, 0.3, 0.4] : Preds ℕ 1).len = 2 * ([1, 2] : List ℕ).length := rfl

/-! ## C06 -/

/-- One `fit` call made somewhere in the program on a quantifier with configuration `q`. -/
structure FitCall (D α : Type*) (k : ℕ) where
  cfg : QuantCfg
  state : QState α k
  X : List D
  y : List α
  preds : Option (Preds α k)

/-- The heap of estimators after a history of `fit` calls (on any quantifiers). -/
noncomputable def runFits [LinearOrder α] (ops : EstOps σ D α k) (enc : Bool → α) (w : World σ D α) :
    List (FitCall D α k) → World σ D α
  | [] => w
  | c :: cs => runFits ops enc (usingFit ops enc w c.cfg c.state c.X c.y c.preds).1 cs

/-- What "trained at most once" means for estimator `e` between worlds `w` and `w'`: either its
`fit` was never called and its state is unchanged, or it was unfitted, its `fit` was called
exactly once, and its state is the result of that call. -/
def TrainedAtMostOnce [DecidableEq α] (ops : EstOps σ D α k) (e : ℕ) (w w' : World σ D α) : Prop :=
  ∃ new, w'.log = w.log ++ new ∧
    ((new.filter (fun t => t.1 == e) = [] ∧ w'.est e = w.est e)
    ∨ (ops.notFitted (w.est e) = true ∧ ∃ X y, new.filter (fun t => t.1 == e) = [(e, X, y)]
        ∧ w'.est e = ops.fit (w.est e) X y))

theorem TrainedAtMostOnce.refl [DecidableEq α] (ops : EstOps σ D α k) (e : ℕ) (w : World σ D α) :
    TrainedAtMostOnce ops e w w := ⟨[], by simp⟩

theorem TrainedAtMostOnce.trans [DecidableEq α] {ops : EstOps σ D α k} {e : ℕ} {w₁ w₂ w₃ : World σ D α}
    (hfit : ∀ s X y, ops.notFitted (ops.fit s X y) = false)
    (h₁ : TrainedAtMostOnce ops e w₁ w₂) (h₂ : TrainedAtMostOnce ops e w₂ w₃) :
    TrainedAtMostOnce ops e w₁ w₃ := by
  obtain ⟨n₁, hl₁, h₁⟩ := h₁
  obtain ⟨n₂, hl₂, h₂⟩ := h₂
  refine ⟨n₁ ++ n₂, by rw [hl₂, hl₁, List.append_assoc], ?_⟩
  rcases h₁ with ⟨f₁, s₁⟩ | ⟨u₁, X, y, f₁, s₁⟩
  · rcases h₂ with ⟨f₂, s₂⟩ | ⟨u₂, X', y', f₂, s₂⟩
    · exact .inl ⟨by rw [List.filter_append, f₁, f₂]; rfl, by rw [s₂, s₁]⟩
    · exact .inr ⟨by rw [← s₁]; exact u₂, X', y', by rw [List.filter_append, f₁, f₂]; rfl,
        by rw [s₂, s₁]⟩
  · rcases h₂ with ⟨f₂, s₂⟩ | ⟨u₂, X', y', f₂, s₂⟩
    · exact .inr ⟨u₁, X, y, by rw [List.filter_append, f₁, f₂]; rfl, by rw [s₂, s₁]⟩
    · rw [s₁, hfit] at u₂
      cases u₂

theorem fitIfNeeded_once [DecidableEq α] (ops : EstOps σ D α k) (w : World σ D α) (r : Option ℕ)
    (X : List D) (y : List α) (e : ℕ) : TrainedAtMostOnce ops e w (fitIfNeeded ops w r X y) := by
  unfold fitIfNeeded
  cases r with
  | none => exact .refl ops e w
  | some e' =>
    simp only
    split
    · rename_i h
      refine ⟨[(e', X, y)], rfl, ?_⟩
      by_cases he : e' = e
      · subst he
        exact .inr ⟨h, X, y, by simp, by simp⟩
      · exact .inl ⟨by simp [he], by simp [Ne.symm he]⟩
    · exact .refl ops e w

/-- **C06**: over any history of `fit` calls (successful or not, on any quantifiers, with any
data), an estimator's `fit` method runs at most once, only if it was unfitted, and its final
state is what that single call produced. The hypothesis is the estimator's own contract:
after `fit`, `predict` does not raise `NotFittedError`. -/
theorem C06_trained_at_most_once [LinearOrder α] (ops : EstOps σ D α k)
    (hfit : ∀ s X y, ops.notFitted (ops.fit s X y) = false) (enc : Bool → α)
    (calls : List (FitCall D α k)) (w : World σ D α) (e : ℕ) :
    TrainedAtMostOnce ops e w (runFits ops enc w calls) := by
  induction calls generalizing w with
  | nil => exact .refl ops e w
  | cons c cs ih =>
    refine TrainedAtMostOnce.trans hfit ?_ (ih _)
    have two : TrainedAtMostOnce ops e w
        (fitIfNeeded ops (fitIfNeeded ops w c.cfg.estTrain c.X c.y) c.cfg.estTest c.X c.y) :=
      .trans hfit (fitIfNeeded_once ops w _ _ _ e) (fitIfNeeded_once ops _ _ _ _ e)
    unfold usingFit
    simp only
    split
    · exact .refl ops e w
    · split
      · split
        · exact two
        · split <;> exact two
      · exact two

/-- **C06** (first data wins): if the first call on an unfitted shared training estimator
reaches it, the estimator ends up trained on that call's data, whatever happens later. -/
theorem C06_first_fit_wins [LinearOrder α] (ops : EstOps σ D α k)
    (hfit : ∀ s X y, ops.notFitted (ops.fit s X y) = false) (enc : Bool → α)
    (c : FitCall D α k) (calls : List (FitCall D α k)) (w : World σ D α) (e : ℕ)
    (hc : c.cfg.estTrain = some e) (hu : ops.notFitted (w.est e) = true) :
    (runFits ops enc w (c :: calls)).est e = ops.fit (w.est e) c.X c.y := by
  have h1 : (usingFit ops enc w c.cfg c.state c.X c.y c.preds).1.est e
      = ops.fit (w.est e) c.X c.y := by
    have base : ∀ r, (fitIfNeeded ops (fitIfNeeded ops w c.cfg.estTrain c.X c.y) r c.X c.y).est e
        = ops.fit (w.est e) c.X c.y := by
      intro r
      have h0 : (fitIfNeeded ops w c.cfg.estTrain c.X c.y).est e = ops.fit (w.est e) c.X c.y := by
        simp [fitIfNeeded, hc, hu]
      rcases fitIfNeeded_once ops (fitIfNeeded ops w c.cfg.estTrain c.X c.y) r c.X c.y e with
        ⟨_, _, ⟨_, h⟩ | ⟨hn, _⟩⟩
      · rw [h, h0]
      · rw [h0, hfit] at hn
        cases hn
    unfold usingFit
    simp only [hc, Option.isNone_some, Bool.and_false, Bool.false_and, Bool.false_eq_true, if_false]
    rw [← hc]
    split
    · split
      · exact base _
      · split <;> exact base _
    · exact base _
  rcases C06_trained_at_most_once ops hfit enc calls
    (usingFit ops enc w c.cfg c.state c.X c.y c.preds).1 e with ⟨_, _, ⟨_, h⟩ | ⟨hn, _⟩⟩
  · show (runFits ops enc (usingFit ops enc w c.cfg c.state c.X c.y c.preds).1 calls).est e = _
    rw [h, h1]
  · rw [h1, hfit] at hn
    cases hn

/-- Non-vacuity of C06: an estimator that remembers its training labels meets the contract, and
two quantifiers sharing it train it once. -/
example : ∃ (ops : EstOps (Option (List ℕ)) ℕ ℕ 2),
    (∀ s X y, ops.notFitted (ops.fit s X y) = false) ∧ ops.notFitted none = true :=
  ⟨⟨fun s => s.isNone, fun _ _ y => some y, fun _ X => X, fun _ X => X.map fun _ _ => 1/2⟩,
    fun _ _ _ => rfl, rfl⟩

/-! ## C07 -/

/-- **C07** (one column per class): with as many columns as classes, every row becomes the
label of the first class of maximal probability. -/
theorem C07_matrix_argmax (enc : Bool → α) (labels : List α) (hl : labels ≠ [])
    (rows : List (Fin labels.length → ℝ)) :
    ∃ out : List α, probs2crisps enc labels (.probs rows) = .ok out
      ∧ List.Forall₂ (fun row c => ∃ i : Fin labels.length, c = labels[i]
          ∧ (∀ j, row j ≤ row i) ∧ ∀ j, j < i → row j < row i) rows out := by
  induction rows with
  | nil => exact ⟨[], rfl, .nil⟩
  | cons row rows ih =>
    obtain ⟨out, ho, hf⟩ := ih
    cases h : npArgmax row with
    | none =>
      exfalso
      unfold npArgmax at h
      rw [List.argmax_eq_none] at h
      have := congrArg List.length h
      simp at this
      exact hl this
    | some i =>
      refine ⟨labels[i] :: out, ?_, .cons ⟨i, rfl, ?_, ?_⟩ hf⟩
      · simp only [probs2crisps] at ho ⊢
        rw [List.mapM_cons, ho]
        simp [h, takeLabel, bind, Except.bind, pure, Except.pure]
      · intro j
        exact List.le_of_mem_argmax (List.mem_finRange j) h
      · intro j hj
        have hle : row j ≤ row i := List.le_of_mem_argmax (List.mem_finRange j) h
        refine lt_of_le_of_ne hle fun heq => ?_
        have hidx := List.index_of_argmax (f := row) (l := List.finRange labels.length) (m := i) h
          (List.mem_finRange j) heq.ge
        simp at hidx
        omega

/-- **C07** (at `fit`): a quantifier that needs crisp training predictions and is given a matrix of
probabilities works with the labels of the largest probabilities. -/
theorem C07_fit_converts [LinearOrder α] (y : List α) (hy : npUnique y ≠ [])
    (ops : EstOps σ D α (npUnique y).length) (enc : Bool → α) (w : World σ D α) (q : QuantCfg)
    (hq : q.needsTrain = true) (hp : q.probabilistic = false) (s : QState α (npUnique y).length)
    (X : List D) (rows : List (Fin (npUnique y).length → ℝ)) :
    ∃ out : List α, (usingFit ops enc w q s X y (some (.probs rows))).2.1.predsTrain = some (.crisp out)
      ∧ List.Forall₂ (fun row c => ∃ i : Fin (npUnique y).length, c = (npUnique y)[i]
          ∧ (∀ j, row j ≤ row i) ∧ ∀ j, j < i → row j < row i) rows out := by
  obtain ⟨out, ho, hf⟩ := C07_matrix_argmax enc (npUnique y) hy rows
  refine ⟨out, ?_, hf⟩
  simp only [usingFit, Option.isNone_some, Bool.and_false, Bool.false_eq_true, if_false, trainPreds,
    hq, hp, if_true, ho, Except.map]
  split <;> rfl

/-- **C07** (at `predict`): the same for the test predictions. -/
theorem C07_predict_converts (labels : List α) (hl : labels ≠ [])
    (ops : EstOps σ D α labels.length) (enc : Bool → α) (w : World σ D α) (q : QuantCfg)
    (hp : q.probabilistic = false) (X : List D) (rows : List (Fin labels.length → ℝ)) :
    ∃ out : List α, usingPredict ops enc w q labels X (some (.probs rows)) = .ok (.crisp out)
      ∧ List.Forall₂ (fun row c => ∃ i : Fin labels.length, c = labels[i]
          ∧ (∀ j, row j ≤ row i) ∧ ∀ j, j < i → row j < row i) rows out := by
  obtain ⟨out, ho, hf⟩ := C07_matrix_argmax enc labels hl rows
  refine ⟨out, ?_, hf⟩
  simp [usingPredict, hp, ho, Except.map]

/-- **C07** (always a known label): the crisp labels obtained from a probability matrix are
known labels. -/
theorem C07_matrix_known (enc : Bool → α) (labels : List α) (hl : labels ≠ [])
    (rows : List (Fin labels.length → ℝ)) (out : List α)
    (h : probs2crisps enc labels (.probs rows) = .ok out) : ∀ c ∈ out, c ∈ labels := by
  obtain ⟨out', ho, hf⟩ := C07_matrix_argmax enc labels hl rows
  rw [ho] at h
  injection h with h
  subst h
  clear ho
  induction hf with
  | nil => simp
  | cons hr _ ih =>
    obtain ⟨i, rfl, _⟩ := hr
    intro c hc
    rcases List.mem_cons.mp hc with rfl | hc
    · exact List.getElem_mem i.2
    · exact ih c hc

/-- The integers 0/1 as integer labels. -/
def intEnc (b : Bool) : ℤ := if b then 1 else 0

/-- What the documentation promises for binary probabilities in a single column: label number 1
of `[l₀, l₁]` when the probability is at least 1/2, else label number 0. -/
noncomputable def binarySpec (l₀ l₁ : ℤ) (ps : List ℝ) : List ℤ :=
  ps.map fun p => @ite _ (p ≥ 1/2) (Classical.dec _) l₁ l₀

/-- **C07** (binary column, partial): the promise holds when the labels are 0 and 1. Missing:
other label sets, see `C07_binary_column_refuted`. -/
theorem C07_binary_column_partial (ps : List ℝ) :
    probs2crisps (k := k) intEnc [0, 1] (.probs1 ps) = .ok (binarySpec 0 1 ps) := by
  simp [probs2crisps, binarySpec, intEnc]

/-- **C07** (binary column, refuted): with labels 1 and 2 the conversion yields 0/1, so the
promise fails ... -/
theorem C07_binary_column_refuted :
    ¬ ∀ (l₀ l₁ : ℤ) (_ : l₀ < l₁) (ps : List ℝ),
      probs2crisps (k := k) intEnc [l₀, l₁] (.probs1 ps) = .ok (binarySpec l₀ l₁ ps) := by
  intro h
  have := h 1 2 (by norm_num) [1/4]
  have h0 : ¬ (1/4 : ℝ) ≥ 1/2 := by norm_num
  simp [probs2crisps, binarySpec, intEnc] at this
  norm_num at this

/-- ... and CC on labels 1 and 2 with positive probabilities 0.9, 0.1 returns prevalences that
do not add up to 1. -/
theorem C07_binary_column_breaks_cc (ops : EstOps σ D ℤ k) (w : World σ D ℤ) (et : Option ℕ)
    (X : List D) : ∃ v : Fin ([1, 2] : List ℤ).length → ℝ,
    ccPredict ops intEnc w et [1, 2] X (some (.probs1 [9/10, 1/10]))
      = .ok (fun i => Fl.fin (v i)) ∧ ∑ i, v i = 1/2 ∧ ¬ IsPrev v := by
  have h1 : (9/10 : ℝ) ≥ 1/2 := by norm_num
  have h2 : ¬ (1/10 : ℝ) ≥ 1/2 := by norm_num
  refine ⟨freqs [1, 2] [1, 0], ?_, ?_, ?_⟩
  · rw [← classFreqs_eq _ _ (by decide)]
    simp only [ccPredict, usingPredict, ccCfg, probs2crisps, Except.map, List.map_cons, List.map_nil,
      if_pos h1, if_neg h2, intEnc]
    rfl
  · show ∑ i : Fin 2, _ = _
    simp [Fin.sum_univ_two, freqs, freq]
  · intro h
    have hs := h.2
    have : ∑ i : Fin 2, freqs ([1, 2] : List ℤ) [1, 0] i = 1 := hs
    simp [Fin.sum_univ_two, freqs, freq] at this

end Verif.Props
