import Verif.Model.AC
import Verif.Model.EM
import Verif.Model.DeBias
import Verif.Model.Sordy
import Verif.Model.Df

/-!
# The methods on predictions that may not be numbers

The other modules take the predictions as real numbers. Here they are NumPy floats, so that NaN and the infinities are possible, and the same lines of the
code are modelled again on them; `Verif/Proof/NanPreds.lean` shows that nothing changes when all the predictions are numbers. How the predictions are obtained
is `UsingClassifiers`, modelled in `Verif.Model.Base`; given predictions are stored as they are (base.py:247-249, 300-302).
-/

namespace Verif.Model

variable {α : Type*} {k : ℕ}

/-! ## PCC and PAC -/

/-- `np.mean(rows, axis=0)` (cc.py:261, ac.py:418, 482). -/
noncomputable def colMeansF (rows : List (Fin k → Fl)) : Fin k → Fl :=
  fun j => (rows.map fun r => r j).sum / Fl.fin (rows.length : ℝ)

/-- `PCC.predict` (cc.py:228-266) after `super().predict`. -/
noncomputable def pccF (rows : List (Fin k → Fl)) : Fin k → Fl := colMeansF rows

/-- `cm_` after `PAC.fit` (ac.py:385-428): the mean of the predictions of the examples of every class. A mask of the wrong length is an IndexError. -/
noncomputable def pacFitF [DecidableEq α] (classes : Fin k → α) (y : List α) (rows : List (Fin k → Fl)) : Except Err (Fin k → Fin k → Fl) :=
  if y.length = rows.length then .ok fun i j => colMeansF (selectRows y rows (classes i)) j else .error .indexError

/-- `PAC.predict` (ac.py:430-524) after `super().predict`. -/
noncomputable def pacPredictF (sol : Solvers) (dist : Dist) (cm : Fin k → Fin k → Fl) (rows : List (Fin k → Fl)) : Except Err (Fin k → Fl) :=
  adjust sol dist cm (colMeansF rows)

/-! ## EM -/

/-- The posteriors of one example (em.py:197-199). -/
noncomputable def emPosteriorF (ptr p : Fin k → Fl) (row : Fin k → Fl) : Fin k → Fl :=
  let nonorm : Fin k → Fl := fun c => row c * (p c / ptr c)
  fun c => nonorm c / ∑ j, nonorm j

/-- One iteration (em.py:197-202). -/
noncomputable def emStepF (ptr : Fin k → Fl) (rows : List (Fin k → Fl)) (p : Fin k → Fl) : Fin k → Fl :=
  fun c => (rows.map fun r => emPosteriorF ptr p r c).sum / Fl.fin (rows.length : ℝ)

open Classical in
/-- The loop (em.py:194-204). -/
noncomputable def emLoopF (ptr : Fin k → Fl) (rows : List (Fin k → Fl)) (eps : ℝ) : ℕ → EMState k → Except Err (EMState k)
  | 0, s => .ok s
  | n + 1, s =>
    match emChange s.prevalences s.previous with
    | .error e => .error e
    | .ok change =>
      if Fl.fin eps < change ∨ s.iterations < 10 then
        emLoopF ptr rows eps n ⟨emStepF ptr rows s.prevalences, s.prevalences, s.iterations + 1⟩
      else .ok s

/-- `EM.predict` (em.py:145-212) after `super().predict`: the prevalences that are returned. -/
noncomputable def emPredictF (ptr : Fin k → Fl) (rows : List (Fin k → Fl)) (eps : ℝ) (maxIter : ℕ) : Except Err (Fin k → Fl) :=
  (emLoopF ptr rows eps maxIter ⟨ptr, fun _ => 1, 0⟩).map EMState.prevalences

/-! ## DeBias -/

/-- `DeBias.fit` (debias.py:105-149) after `super().fit`. -/
noncomputable def deBiasFitF [LinearOrder α] (y : List α) (preds : List (Fin 2 → Fl)) : Except Err (DeBiasFit α) :=
  if (npUnique y).length ≠ 2 then .error .attributeError
  else
    let tp : Fin 2 → Fl := fun i => classShare (npUnique y) y i
    let at_ := (preds.map fun row => (row 1 - tp 1).sq).sum / Fl.fin (preds.length : ℝ)
    .ok ⟨npUnique y, tp, at_ / (tp 1 * tp 0)⟩

/-- `DeBias.predict` (debias.py:151-195) after `super().predict`. -/
noncomputable def deBiasPredictF (f : DeBiasFit α) (preds : List (Fin 2 → Fl)) : Fin 2 → Fl :=
  let m := (preds.map fun row => row 1).sum / Fl.fin (preds.length : ℝ)
  deBiasClip (f.trainPrevs 1 + (m - f.trainPrevs 1) / f.vt)

/-! ## CC -/

open Classical in
/-- The loop of NumPy's `argmax` for floats: stop at a NaN, move to a value that is not less than or equal to the best one. -/
noncomputable def argmaxLoopF (row : Fin k → Fl) : Fin k → List (Fin k) → Fin k
  | best, [] => best
  | best, i :: l => if row best = Fl.nan then best else if row i ≤ row best then argmaxLoopF row best l else argmaxLoopF row i l

/-- `row.argmax()` (base.py:347) for a row of floats; `none` models the ValueError for an empty row. -/
noncomputable def npArgmaxF (row : Fin k → Fl) : Option (Fin k) :=
  match List.finRange k with
  | [] => none
  | i :: l => some (argmaxLoopF row i l)

/-- The last line of `UsingClassifiers.__probs2crisps` (base.py:347), for a matrix of at least two columns. -/
noncomputable def crispsF (labels : List α) (rows : List (Fin k → Fl)) : Except Err (List α) :=
  rows.mapM fun row =>
    match npArgmaxF row with
    | some j => takeLabel labels j
    | none => .error .valueError

/-- `CC.predict` (cc.py:100-145) for given probabilities. -/
noncomputable def ccPredictF [DecidableEq α] (classes : List α) (rows : List (Fin k → Fl)) : Except Err (Fin classes.length → Fl) :=
  (crispsF classes rows).map fun l => classFreqs classes l

/-! ## SORDy -/

/-- The loop of `sord` (search.py:379-382). -/
noncomputable def sordLoopF (cost : Fl) (cum : ℝ) (prev : Fl) : List (Fl × ℝ) → Fl
  | [] => cost
  | (u, w) :: r => sordLoopF (cost + ((u - prev) * Fl.fin cum).abs) (cum + w) u r

/-- `sord` (search.py:348-383): IndexError when the list is empty. -/
noncomputable def sordF : List (Fl × ℝ) → Except Err Fl
  | [] => .error .indexError
  | (u, w) :: r => .ok (sordLoopF (Fl.fin 0) w u r)

/-- `train_distrib_`, `train_labels_` and `classes_` of SORDy (emd.py:144-153). -/
structure SordyFitF where
  classes : List ℤ
  train : List (Fl × ℤ)

/-- `SORDy.fit` (emd.py:119-158) after `super().fit`. -/
def sordyFitF (sort : List (Fl × ℤ) → List (Fl × ℤ)) (y : List ℤ) (probs : List Fl) : Except Err SordyFitF :=
  if (npUnique y).length > 2 then .error .typeError
  else .ok ⟨npUnique y, sort (probs.zip y)⟩

/-- `union_distrib_` and `union_labels_` (emd.py:202-209). -/
def sordyUnionF (sort : List (Fl × ℤ) → List (Fl × ℤ)) (f : SordyFitF) (test : List Fl) : List (Fl × ℤ) :=
  sort (f.train ++ test.map fun u => (u, f.classes.max?.getD 0 + 1))

/-- The distance minimised by SORDy (emd.py:214-217). Not a number also stands for the exception of an empty union. -/
noncomputable def sordyLossF (classes : List ℤ) (union : List (Fl × ℤ)) (p : ℝ) : Fl :=
  match sordF (union.map fun ul => (ul.1, sordWeight p classes (union.map Prod.snd) ul.2)) with
  | .ok v => v
  | .error _ => Fl.nan

/-- `SORDy.predict` (emd.py:160-221) after `super().predict`. -/
noncomputable def sordyPredictF (sort : List (Fl × ℤ) → List (Fl × ℤ)) (tol : ℝ) (f : SordyFitF) (test : List Fl) : Except Err (Fin 2 → ℝ) :=
  let union := sordyUnionF sort f test
  if union = [] then .error .valueError
  else (goldenSectionSearch (sordyLossF f.classes union) tol 0 1).map fun r => ![1 - r.2, r.2]

/-! ## DFy and FriedmanME -/

/-- `v < e` as `np.searchsorted` uses it: NaN comes after every number and after the infinities. -/
def Fl.before : Fl → EReal → Prop
  | .fin v, e => (v : EReal) < e
  | .pinf, e => ⊤ < e
  | .ninf, e => ⊥ < e
  | .nan, _ => False

/-- `v <= e` as `np.searchsorted` uses it. -/
def Fl.upto : Fl → EReal → Prop
  | .fin v, e => (v : EReal) ≤ e
  | .pinf, e => ⊤ ≤ e
  | .ninf, e => ⊥ ≤ e
  | .nan, _ => False

open Classical in
/-- The cumulative counts used by `np.histogram`. -/
noncomputable def histCumF (x : List Fl) {n : ℕ} (edges : Fin (n + 1) → EReal) (i : Fin (n + 1)) : ℝ :=
  if i = Fin.last n then (x.countP fun v => decide (Fl.upto v (edges i)) : ℕ)
  else (x.countP fun v => decide (Fl.before v (edges i)) : ℕ)

open Classical in
/-- `np.histogram(x, bins=edges)[0]` (df.py:327). -/
noncomputable def npHistogramF (x : List Fl) {n : ℕ} (edges : Fin (n + 1) → EReal) : Except Err (Fin n → ℝ) :=
  if ∀ i : Fin n, edges i.castSucc ≤ edges i.succ then .ok fun i => histCumF x edges i.succ - histCumF x edges i.castSucc
  else .error .valueError

/-- The testing distribution of `DFy.predict` (df.py:317-333). -/
noncomputable def dfyTestF {nc : ℕ} (cfg : DfCfg) (fit : DfFit (nDescriptors nc) cfg.nBins nc) (preds : List (Fin nc → Fl)) :
    Except Err (Fin (nDescriptors nc * cfg.nBins) → ℝ) :=
  (seqFin fun d => (npHistogramF (preds.map fun row => row (Fin.castLE (nDescriptors_le nc) d)) (fit.cuts d)).map fun h b => (h b / (preds.length : ℝ) : ℝ)).map
    fun v => accumulate .whole cfg.f v

open Classical in
/-- One row of `Up` (friedman.py:247-249): `predictions_test_ >= train_prevs_`, which is False for NaN. -/
noncomputable def friedmanRowF {nc : ℕ} (prevs : Fin nc → ℝ) (row : Fin nc → Fl) : Fin nc → ℝ :=
  fun j => if Fl.fin (prevs j) ≤ row j then 1 else 0

/-- The testing distribution of `FriedmanME.predict` (friedman.py:206-271). -/
noncomputable def friedmanTestF {nc : ℕ} (fit : FriedmanFit nc) (preds : List (Fin nc → Fl)) : Fin nc → ℝ :=
  meanRows (preds.map (friedmanRowF fit.prevs))

end Verif.Model
