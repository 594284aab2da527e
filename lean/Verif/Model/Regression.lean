import Verif.Model.Df
import Verif.Model.Decomp

/-!
# Model of `quantificationlib/multiclass/regression.py`

`REG`, `REGX` and `REGy`, from the point where predictions are known; how they are obtained is `UsingClassifiers`, modelled in `Verif.Model.Base`.

Objects that several quantifiers may share are in a heap: bag generators (the default `bag_generator=PriorShift_BagGenerator()` is evaluated once, when the class is
defined, so that all the objects built with the default hold the same generator) and the regressors given as `regression_estimator`. Regressors are arbitrary
objects. Not modelled: verbose printing, one-dimensional `X` (the code then fails at `X[:, att]`), regressors that raise.
-/

namespace Verif.Model

variable {α D G ρ : Type}

/-- A regressor: its state after `fit(dataX, dataY)`, and the number it predicts for a bag. `glm` is the fitted `sm.GLM(endog, exog, Binomial())`. -/
structure RegOps (ρ : Type) (m : ℕ) where
  fit : ρ → List ((Fin m → ℝ) × Fl) → ρ
  predict : ρ → (Fin m → ℝ) → Fl
  glm : List ((Fin m → ℝ) × Fl) → ρ

/-- The objects that quantifiers share, and the global random generator. -/
structure RegWorld (G ρ : Type) where
  gens : ℕ → PriorGen G
  regs : ℕ → ρ
  glob : G

/-- Constructor arguments of `REG` (regression.py:108-121), with addresses of the shared objects. -/
structure RegCfg where
  gen : ℕ
  nBins : ℕ
  strategy : BinStrategy
  reg : Option ℕ

/-- `estimators_` and `models_` after `fit_regressor`: the object given by the user itself, a GLM, or one model per class. -/
inductive RegModel (ρ : Type) where
  | shared (a : ℕ)
  | single (r : ρ)
  | perClass (l : List ρ)

/-- What `fit` leaves in `n_classes_`, `bincuts_`, `dataX_`, `dataY_` (before its second column is selected) and `estimators_`. -/
structure RegFit (ρ : Type) (nd nb : ℕ) where
  nClasses : ℕ
  cuts : Fin nd → Fin (nb + 1) → EReal
  dataX : List (Fin (nd * nb) → ℝ)
  dataY : List (List Fl)
  model : RegModel ρ

/-- A row of `dataX_` (regression.py:164-167): the histograms of a bag divided by `n_examples`, the number of rows of `X`. -/
noncomputable def bagRow {nd nb : ℕ} (att : Fin nd → D → ℝ) (cuts : Fin nd → Fin (nb + 1) → EReal) (X : List D) (idx : List ℕ) : Except Err (Fin (nd * nb) → ℝ) := do
  let rows ← idx.mapM (item X)
  let v ← seqFin fun d => (npHistogram (rows.map (att d)) (cuts d)).map fun h b => h b / (X.length : ℝ)
  pure (stackBlocks v)

/-- `dataX_` (regression.py:161-167). -/
noncomputable def regRows {nd nb : ℕ} (att : Fin nd → D → ℝ) (cuts : Fin nd → Fin (nb + 1) → EReal) (X : List D) (nBags : ℕ) (b : Bags) : Except Err (List (Fin (nd * nb) → ℝ)) :=
  (List.range nBags).mapM fun k => (item b.idx k) >>= bagRow att cuts X

/-- Fitting the regressor of class `c` (regression.py:175-179, 183-193): the examples it is given. -/
def regExamples {m : ℕ} (dataX : List (Fin m → ℝ)) (dataY : List (List Fl)) (c : ℕ) : Except Err (List ((Fin m → ℝ) × Fl)) :=
  (dataY.mapM fun r => item r c) >>= fun col => if col.length = dataX.length then .ok (dataX.zip col) else .error .valueError

/-- The model of one class (regression.py:182-193): a fitted copy of the user's regressor, or a GLM. -/
def regClassModel {m : ℕ} (ops : RegOps ρ m) (regs : ℕ → ρ) (reg : Option ℕ) (ex : List ((Fin m → ℝ) × Fl)) : ρ :=
  match reg with
  | some a => ops.fit (regs a) ex
  | none => ops.glm ex

/-- The binary case of `fit_regressor` (regression.py:173-179): the user's regressor itself is fitted. -/
def regBinaryModel {m : ℕ} (ops : RegOps ρ m) (regs : ℕ → ρ) (reg : Option ℕ) (ex : List ((Fin m → ℝ) × Fl)) : (ℕ → ρ) × RegModel ρ :=
  match reg with
  | some a => (Function.update regs a (ops.fit (regs a) ex), .shared a)
  | none => (regs, .single (ops.glm ex))

/-- `fit_regressor` (regression.py:169-195): the regressors of the heap, and `estimators_`. -/
def regFitRegressor {m : ℕ} (ops : RegOps ρ m) (regs : ℕ → ρ) (reg : Option ℕ) (nClasses : ℕ) (dataX : List (Fin m → ℝ)) (dataY : List (List Fl)) :
    Except Err ((ℕ → ρ) × RegModel ρ) :=
  if nClasses = 2 then (regExamples dataX dataY 1).map (regBinaryModel ops regs reg)
  else ((List.range nClasses).mapM fun c => (regExamples dataX dataY c).map (regClassModel ops regs reg)).map fun l => (regs, .perClass l)

/-- What follows the generation of the bags in `create_training_set_of_distributions` and `fit` (regression.py:161-195). -/
noncomputable def regLearn {nd nb : ℕ} (ops : RegOps ρ (nd * nb)) (regs : ℕ → ρ) (reg : Option ℕ) (att : Fin nd → D → ℝ) (cuts : Fin nd → Fin (nb + 1) → EReal) (X : List D) (nClasses nBags : ℕ)
    (b : Bags) : Except Err ((ℕ → ρ) × RegFit ρ nd nb) := do
  let dataX ← regRows att cuts X nBags b
  let m ← regFitRegressor ops regs reg nClasses dataX b.prevs
  pure (m.1, ⟨nClasses, cuts, dataX, b.prevs, m.2⟩)

/-- The world after the regressors have been fitted, and the object or the exception. -/
def regFinish {nd nb : ℕ} (w : RegWorld G ρ) : Except Err ((ℕ → ρ) × RegFit ρ nd nb) → RegWorld G ρ × Except Err (RegFit ρ nd nb)
  | .error e => (w, .error e)
  | .ok r => ({ w with regs := r.1 }, .ok r.2)

/-- The generation of the bags (regression.py:159) and what follows. -/
noncomputable def regAfterBags {nd nb : ℕ} (ops : RegOps ρ (nd * nb)) (w : RegWorld G ρ) (cfg : RegCfg) (att : Fin nd → D → ℝ) (cuts : Fin nd → Fin (nb + 1) → EReal) (X : List D) (nClasses : ℕ)
    (g : PriorGen G × G × Except Err Bags) : RegWorld G ρ × Except Err (RegFit ρ nd nb) :=
  let w' : RegWorld G ρ := { w with gens := Function.update w.gens cfg.gen g.1, glob := g.2.1 }
  match g.2.2 with
  | .error e => (w', .error e)
  | .ok b => regFinish w' (regLearn ops w.regs cfg.reg att cuts X nClasses g.1.nBags b)

/-- `create_training_set_of_distributions` and `fit_regressor` (regression.py:123-195): `att` are the features of an example. `none` when the generation of the
bags does not end within `fuel` iterations. -/
noncomputable def regFit [LinearOrder α] (ppf : ℝ → EReal) (rng : Rng G) (fuel : ℕ) {nd : ℕ} (w : RegWorld G ρ) (cfg : RegCfg) (ops : RegOps ρ (nd * cfg.nBins)) (range : Option (ℝ × ℝ))
    (att : Fin nd → D → ℝ) (X : List D) (y : List α) : Option (RegWorld G ρ × Except Err (RegFit ρ nd cfg.nBins)) :=
  let classes := npUnique y
  match seqFin fun d => computeBincuts ppf (X.map (att d)) y classes cfg.nBins cfg.strategy range with
  | .error e => some (w, .error e)
  | .ok cuts => (priorGenerate rng fuel (w.gens cfg.gen) w.glob ⟨y, some X.length⟩).map (regAfterBags ops w cfg att cuts X classes.length)

open Classical in
/-- The binary case of `predict_bag` (regression.py:210-224), for the number `p` predicted by the regressor. -/
noncomputable def regBinaryAnswer (p : Fl) : Except Err (List Fl) :=
  let v := [(1 - p).clip01, p.clip01]
  if 0 < v.sum then .ok (v.map (· / v.sum)) else .error .valueError

/-- The other case of `predict_bag` (regression.py:226-237). -/
noncomputable def regMultiAnswer (ps : List Fl) : List Fl :=
  let v := ps.map Fl.clip01
  v.map (· / v.sum)

/-- `predict_bag` (regression.py:197-237). -/
noncomputable def regPredictBag {nd nb : ℕ} (ops : RegOps ρ (nd * nb)) (regs : ℕ → ρ) (fit : RegFit ρ nd nb) (bagX : Fin (nd * nb) → ℝ) : Except Err (List Fl) :=
  match fit.model with
  | .shared a => regBinaryAnswer (ops.predict (regs a) bagX)
  | .single r => regBinaryAnswer (ops.predict r bagX)
  | .perClass l => .ok (regMultiAnswer (l.map fun r => ops.predict r bagX))

/-- The descriptor of a testing bag (regression.py:384-395, 609-621): divided by its own size. -/
noncomputable def regTestRow {nd nb : ℕ} (att : Fin nd → D → ℝ) (cuts : Fin nd → Fin (nb + 1) → EReal) (X : List D) : Except Err (Fin (nd * nb) → ℝ) :=
  (histBlocks att cuts X).map stackBlocks

/-- `REGX.predict` and `REGy.predict` (regression.py:366-397, 574-623). -/
noncomputable def regPredict {nd nb : ℕ} (ops : RegOps ρ (nd * nb)) (w : RegWorld G ρ) (fit : RegFit ρ nd nb) (att : Fin nd → D → ℝ) (X : List D) : Except Err (List Fl) :=
  regTestRow att fit.cuts X >>= regPredictBag ops w.regs fit

/-- `REGX.fit` (regression.py:335-364): the features of the examples. -/
noncomputable def regxFit [LinearOrder α] (ppf : ℝ → EReal) (rng : Rng G) (fuel : ℕ) {nf : ℕ} (w : RegWorld G ρ) (cfg : RegCfg) (ops : RegOps ρ (nf * cfg.nBins)) (X : List (Fin nf → ℝ)) (y : List α) :
    Option (RegWorld G ρ × Except Err (RegFit ρ nf cfg.nBins)) :=
  regFit ppf rng fuel w cfg ops none (fun d row => row d) X y

/-- `REGy.fit` (regression.py:529-572) after `super().fit`: the posteriors, only the first one for two classes; `y` are the labels `y_ext_`. -/
noncomputable def regyFit [LinearOrder α] (ppf : ℝ → EReal) (rng : Rng G) (fuel : ℕ) {nc : ℕ} (w : RegWorld G ρ) (cfg : RegCfg) (ops : RegOps ρ (nDescriptors nc * cfg.nBins)) (preds : List (Fin nc → ℝ))
    (y : List α) : Option (RegWorld G ρ × Except Err (RegFit ρ (nDescriptors nc) cfg.nBins)) :=
  regFit ppf rng fuel w cfg ops (some (0, 1)) (dfyAtt nc) preds y

/-- The default generator, `PriorShift_BagGenerator()` (bag_generator.py:94-105). -/
def defaultGen : PriorGen G := ⟨1000, none, .uniform, .none, .none, .seed 2032, none⟩

end Verif.Model
