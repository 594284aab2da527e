import Verif.Model.Ensemble
import Verif.Model.CC

/-!
# Model of the estimators of `quantificationlib/ensembles/eoq.py`

`EoQ` with quantifiers that use classifiers, from the estimators (eoq.py:264-330, 437-450) on. Estimators are objects in a heap, as in `Verif/Model/Base.lean`: of the class `EnsembleOfClassifiers`
(`Verif/Model/Ensemble.lean`) or of any other class. The label of an example given by the classifiers of an ensemble is an array with a row per example and a column per classifier, which `EoQ` and the base quantifiers
take for a matrix of probabilities: its columns are not classes.

Simplifications: labels are integers (an array of labels with one column is not taken for probabilities, base.py:339); a call to `fit` of an `EnsembleOfClassifiers` that raises leaves it as it was; the classes of
an `EnsembleOfClassifiers` that is already fitted are as many as those of the training set of `EoQ`.
-/

namespace Verif.Model

variable {σ M D α G Q : Type} {nc : ℕ}

/-- An estimator: an object of the class `EnsembleOfClassifiers`, or of another class. -/
inductive EoqEst (σ M α : Type) where
  | plain (s : σ)
  | ens (s : EnsState M α)

/-- Methods of the estimators: those of other classes; and, for ensembles, how joblib runs the tasks, and the base estimator. -/
structure EoqEstOps (σ M D α : Type) (nc : ℕ) where
  plain : EstOps σ D α nc
  sch : Schedule
  cv : CvOps M D α
  label : M → D → α

/-- Constructor arguments (eoq.py:155-183). -/
structure EoqEstCfg where
  base : EoqCfg
  estTrain : Option ℕ
  estTest : Option ℕ
  probabilistic : Bool

/-- Generators of bags, estimators and the calls made to the method `fit` of the estimators, with the bags in the case of ensembles. -/
structure EoqEstWorld (G σ M D α : Type) where
  bags : EoqWorld G
  est : ℕ → EoqEst σ M α
  log : List (ℕ × List D × List α × Option (List (List ℕ)))

/-- The arrays of predictions: as in `EoqPreds`, or the labels given by an ensemble (2-D, a column per classifier). -/
inductive EoqArr (α : Type) (nc : ℕ) where
  | known (p : EoqPreds α nc)
  | votes (rows : List (List α))

/-- What a member gets: predictions, or a matrix of labels. -/
inductive MemberInput (α : Type) (nc : ℕ) where
  | preds (p : Preds α nc)
  | votes (rows : List (List α))

/-! ## Fitting the estimators -/

/-- `estimator.predict(X[0:1, :])` (eoq.py:278, 310): whether the estimator is fitted, or an exception other than NotFittedError. -/
def eoqFitted (ops : EoqEstOps σ M D α nc) (s : EoqEst σ M α) (X : List D) : Except Err Bool :=
  match s with
  | .plain s => .ok (!ops.plain.notFitted s)
  | .ens s =>
    match ensPredict ops.label s (X.take 1) with
    | .ok _ => .ok true
    | .error .notFittedError => .ok false
    | .error e => .error e

/-- Fitting an estimator that is not fitted (eoq.py:277-294, 309-326): with the bags if it is an ensemble. `check_X_y` rejects an empty set and different lengths; `indexes.shape` of None is an AttributeError. -/
def eoqFitEst [LinearOrder α] (ops : EoqEstOps σ M D α nc) (w : EoqEstWorld G σ M D α) (e : ℕ) (X : List D) (y : List α) (idx : Option (List (List ℕ))) : EoqEstWorld G σ M D α × Except Err Unit :=
  match eoqFitted ops (w.est e) X with
  | .error err => (w, .error err)
  | .ok true => (w, .ok ())
  | .ok false =>
    if X.length ≠ y.length ∨ X = [] then (w, .error .valueError)
    else
      match w.est e with
      | .plain s => ({ w with est := Function.update w.est e (.plain (ops.plain.fit s X y)), log := w.log ++ [(e, X, y, none)] }, .ok ())
      | .ens s =>
        match idx with
        | none => (w, .error .attributeError)
        | some bags =>
          match ensFit ops.sch ops.cv s X y bags with
          | .error err => ({ w with log := w.log ++ [(e, X, y, some bags)] }, .error err)
          | .ok s' => ({ w with est := Function.update w.est e (.ens s'), log := w.log ++ [(e, X, y, some bags)] }, .ok ())

/-- `predict_proba` or `predict` of an estimator (eoq.py:297-300, 440-443). -/
def eoqEstPreds (ops : EoqEstOps σ M D α nc) (prob : Bool) (s : EoqEst σ M α) (X : List D) : Except Err (EoqArr α nc) :=
  match s with
  | .plain s => if prob then .ok (.known (.probs (ops.plain.predictProba s X))) else .ok (.known (.crisp (ops.plain.predict s X)))
  | .ens s => if prob then (ensPredictProba nc ops.cv s X).map fun l => .known (.ens l) else (ensPredict ops.label s X).map .votes

/-- `predictions_train` (eoq.py:266-300): the array given by the user, or the predictions of `ensemble_estimator_train`. -/
def eoqTrainPreds [LinearOrder α] (ops : EoqEstOps σ M D α nc) (w : EoqEstWorld G σ M D α) (c : EoqEstCfg) (X : List D) (y : List α) (idx : Option (List (List ℕ))) (given : Option (EoqArr α nc)) :
    EoqEstWorld G σ M D α × Except Err (EoqArr α nc) :=
  match given, c.estTrain with
  | some p, _ => (w, .ok p)
  | none, none => (w, .error .valueError)
  | none, some e =>
    match eoqFitEst ops w e X y idx with
    | (w, .error err) => (w, .error err)
    | (w, .ok ()) => (w, eoqEstPreds ops c.probabilistic (w.est e) X)

/-- Fitting `ensemble_estimator_test` (eoq.py:302-326). -/
def eoqFitTest [LinearOrder α] (ops : EoqEstOps σ M D α nc) (w : EoqEstWorld G σ M D α) (c : EoqEstCfg) (X : List D) (y : List α) (idx : Option (List (List ℕ))) : EoqEstWorld G σ M D α × Except Err Unit :=
  match c.estTest with
  | none => (w, .ok ())
  | some e => eoqFitEst ops w e X y idx

/-! ## The members -/

/-- The base quantifier with predictions. -/
def knownOps (ops : EoqOps Q (MemberInput α nc) α) : EoqOps Q (Preds α nc) α := ⟨fun p => ops.fit (.preds p), fun q p => ops.predict q (.preds p)⟩

/-- Training the member of a bag with a matrix of labels (eoq.py:345-357, `ndim == 2`): it gets the columns of all the classifiers. -/
def eoqvMember (ops : EoqOps Q (MemberInput α nc) α) (votes : List (List α)) (yExt : List α) (bag : List ℕ) : Except Err Q := do
  let ys ← bag.mapM (item yExt)
  let rows ← bag.mapM (item votes)
  ops.fit (.votes rows) ys

/-- `predictions[:, descr]` for every `descr` (eoq.py:368, 382, 487), by rows: an IndexError when there are fewer columns. `num` is the number that a label is. -/
def votesRows (nc : ℕ) (num : α → ℝ) (votes : List (List α)) : Except Err (List (Fin (nDescriptors nc) → ℝ)) := votes.mapM fun row => seqFin fun d : Fin (nDescriptors nc) => (item row d).map num

/-- `fit` with a matrix of labels, after the bags and the estimators (eoq.py:330-391). -/
noncomputable def eoqvLearn [LinearOrder α] (ppf : ℝ → EReal) (num : α → ℝ) (cfg : EoqCfg) (ops : EoqOps Q (MemberInput α nc) α) (votes : List (List α)) (y : List α) (idx : Option (List (List ℕ))) :
    Except Err (EoqFit Q (nDescriptors nc) cfg.nBins) := do
  let ext ← eoqExtend y votes.length cfg.nQuant idx
  let members ← (List.range cfg.nQuant).mapM fun i => bagAt ext.2 i >>= eoqvMember ops votes ext.1
  let rows ← votesRows nc num votes
  let cuts ← seqFin fun d => computeBincuts ppf (rows.map fun row => row d) ext.1 (npUnique y) cfg.nBins cfg.binStrategy none
  let dists ← (List.range cfg.nQuant).mapM fun _ => eoqDistribution cfg.f (fun d row => row d) cuts rows
  pure ⟨members, cuts, dists⟩

/-- `fit` after the estimators (eoq.py:330-391). -/
noncomputable def eoqArrLearn [LinearOrder α] (ppf : ℝ → EReal) (num : α → ℝ) (cfg : EoqCfg) (ops : EoqOps Q (MemberInput α nc) α) (arr : EoqArr α nc) (y : List α) (idx : Option (List (List ℕ))) :
    Except Err (EoqFit Q (nDescriptors nc) cfg.nBins) :=
  match arr with
  | .known p => eoqyLearn ppf cfg (knownOps ops) p y idx
  | .votes v => eoqvLearn ppf num cfg ops v y idx

/-- `EoQ.fit` (eoq.py:185-400) with quantifiers that use classifiers. -/
noncomputable def eoqEstFit [LinearOrder α] (ppf : ℝ → EReal) (rng : Rng G) (fuel : ℕ) (num : α → ℝ) (eops : EoqEstOps σ M D α nc) (w : EoqEstWorld G σ M D α) (c : EoqEstCfg) (ops : EoqOps Q (MemberInput α nc) α)
    (X : List D) (y : List α) (given : Option (EoqArr α nc)) (prevs : Option (List (List Fl))) (idx : Option (List (List ℕ))) : Option (EoqEstWorld G σ M D α × Except Err (EoqFit Q (nDescriptors nc) c.base.nBins)) :=
  (eoqBags rng fuel w.bags c.base y X.length prevs idx).map fun r =>
    match r.2 with
    | .error e => ({ w with bags := r.1 }, .error e)
    | .ok bags =>
      match eoqTrainPreds eops { w with bags := r.1 } c X y bags given with
      | (w, .error e) => (w, .error e)
      | (w, .ok arr) =>
        match eoqFitTest eops w c X y bags with
        | (w, .error e) => (w, .error e)
        | (w, .ok ()) => (w, eoqArrLearn ppf num c.base ops arr y bags)

/-! ## Predict -/

/-- The predictions of the members with a matrix of labels (eoq.py:445-447): all of them get the whole matrix. -/
def eoqvRows {nb : ℕ} (cfg : EoqCfg) (ops : EoqOps Q (MemberInput α nc) α) (fit : EoqFit Q (nDescriptors nc) nb) (votes : List (List α)) : Except Err (List (Fin nc → ℝ)) :=
  (List.range cfg.nQuant).mapM fun i => item fit.members i >>= fun q => ops.predict q (.votes votes) >>= storeRow nc

/-- `EoQ.predict` (eoq.py:402-533) with the array of predictions. -/
noncomputable def eoqArrPredict (argsort : List Fl → List ℕ) (num : α → ℝ) (cfg : EoqCfg) (ops : EoqOps Q (MemberInput α nc) α) (fit : EoqFit Q (nDescriptors nc) cfg.nBins) (arr : EoqArr α nc) :
    Except Err (EoqAnswer nc) :=
  match arr with
  | .known p => eoqyPredict argsort cfg (knownOps ops) fit p
  | .votes v => eoqvRows cfg ops fit v >>= fun rows =>
      eoqCombine argsort cfg rows ((votesRows nc num v >>= eoqDistribution cfg.f (fun d row => row d) fit.cuts).map (eoqDistances cfg fit))

/-- `EoQ.predict` (eoq.py:402-533): with the predictions given by the user or those of `ensemble_estimator_test`. -/
noncomputable def eoqEstPredict (argsort : List Fl → List ℕ) (num : α → ℝ) (eops : EoqEstOps σ M D α nc) (w : EoqEstWorld G σ M D α) (c : EoqEstCfg) (ops : EoqOps Q (MemberInput α nc) α)
    (fit : EoqFit Q (nDescriptors nc) c.base.nBins) (X : List D) (given : Option (EoqArr α nc)) : Except Err (EoqAnswer nc) :=
  match given, c.estTest with
  | some p, _ => eoqArrPredict argsort num c.base ops fit p
  | none, none => .error .valueError
  | none, some e => eoqEstPreds eops c.probabilistic (w.est e) X >>= eoqArrPredict argsort num c.base ops fit

/-! ## CC as base quantifier -/

/-- `row.argmax()` (base.py:347) for a row of labels: the first position of the largest one; `none` models the `ValueError` for an empty row. -/
def labelArgmax [LinearOrder α] (row : List α) : Option ℕ := ((List.finRange row.length).argmax row.get).map Fin.val

/-- `UsingClassifiers.__probs2crisps` (base.py:317-347) for a matrix of labels: one column is taken for labels; with more columns, the position of the largest label is taken for the position of the class. -/
def votes2crisps [LinearOrder α] (classes : List α) (rows : List (List α)) : Except Err (List α) :=
  rows.mapM fun row =>
    match row with
    | [c] => .ok c
    | row => match labelArgmax row with
      | some i => takeLabel classes i
      | none => .error .valueError

/-- `predictions_test_` of a quantifier with crisp predictions (base.py:300-304). -/
noncomputable def memberCrisp [LinearOrder α] (enc : Bool → α) (classes : List α) : MemberInput α nc → Except Err (List α)
  | .preds p => probs2crisps enc classes p
  | .votes rows => votes2crisps classes rows

/-- `CC` as member of an ensemble: `fit` keeps the classes of the bag (cc.py:81-98) and `predict` counts labels (cc.py:130-145). The testing bag is assumed not to be empty (NaN otherwise). -/
noncomputable def ccMember [LinearOrder α] (enc : Bool → α) : EoqOps (List α) (MemberInput α nc) α where
  fit _ ys := .ok (npUnique ys)
  predict classes p := (memberCrisp enc classes p).map fun l => classes.map fun c => (l.count c : ℝ) / (l.length : ℝ)

end Verif.Model
