import Verif.Model.AC
import Verif.Model.EM
import Verif.Model.DeBias
import Verif.Model.Df
import Verif.Model.Ordinal
import Verif.Model.Quanty
import Verif.Model.Sordy

/-!
# Quantifiers that use classifiers, from the constructor to the answer

The classes derived from `UsingClassifiers` have the same shape: `fit` calls `super().fit` (modelled in `Verif.Model.Base`) and then learns from `classes_`, `predictions_train_` and `y_ext_`; `predict` calls
`super().predict` and then computes the answer from what was learned and `predictions_test_`. Here that shape is a structure, with one instance for each class, and programs are lists of calls on objects that may
share estimators.

Simplifications: `predict` before any `fit` that returned is an error, whichever (`typeError`); a loop of `nearest_pd` that has not ended within `fuel` iterations is counted as an error (C75 shows that it ends). Classes whose `fit` or
`predict` use other shared objects (`REGy` and its bag generator) are not of this shape. A `fit` that raises leaves `classes_` changed (base.py:194); `predict` then reads the new labels. When their number is not the one of the fit that
returned, `AC` and `ACOrdinal` are modelled as an error (`valueError`), and in `PAC`, `EM`, `DFy`, `FriedmanME`, `PDFOrdinaly` (which read only the number of classes) and `EDy` (which uses the labels as keys) this is not modelled: they are
as if `classes_` had not changed.
-/

namespace Verif.Model

/-! ## The common shape -/

/-- A class derived from `UsingClassifiers`: `S` are its own attributes, `pre` the check made before `super().fit` is called, `learn` the part of `fit` after it (given the old attributes, the labels and the inherited attributes),
`answer` the part of `predict` after `super().predict`. `none` as an answer is a value that is not a vector. -/
structure UcClass (α : Type) (k : ℕ) where
  S : Type
  needsTrain : Bool
  probabilistic : Bool
  pre : List α → Option Err
  learn : Option S → List α → QState α k → Except Err S
  answer : S → QState α k → Preds α k → S × Except Err (Option (List Fl))

/-- An object: its class, and the estimators given to the constructor (base.py:151-152). -/
structure UcObj (α : Type) (k : ℕ) where
  cls : UcClass α k
  estTrain : Option ℕ
  estTest : Option ℕ

/-- The constructor arguments handed to `UsingClassifiers.__init__`. -/
def UcObj.cfg {α : Type} {k : ℕ} (o : UcObj α k) : QuantCfg := ⟨o.estTrain, o.estTest, o.cls.needsTrain, o.cls.probabilistic⟩

/-- The attributes of an object: the inherited ones and its own. -/
structure UcState {α : Type} {k : ℕ} (o : UcObj α k) where
  base : QState α k
  own : Option o.cls.S

/-- A new object (base.py:156-160). -/
def ucNew {α : Type} {k : ℕ} (o : UcObj α k) : UcState o := ⟨⟨none, none, none⟩, none⟩

section
variable {σ D α : Type} {k : ℕ}

/-- `fit`: the estimators, the attributes, and the exception, if any. -/
noncomputable def ucFit [LinearOrder α] (ops : EstOps σ D α k) (enc : Bool → α) (w : World σ D α) (o : UcObj α k) (s : UcState o) (X : List D) (y : List α) (pt : Option (Preds α k)) :
    World σ D α × UcState o × Option Err :=
  match o.cls.pre y with
  | some e => (w, s, some e)
  | none =>
    let r := usingFit ops enc w o.cfg s.base X y pt
    match r.2.2 with
    | some e => (r.1, ⟨r.2.1, s.own⟩, some e)
    | none =>
      match o.cls.learn s.own y r.2.1 with
      | .error e => (r.1, ⟨r.2.1, s.own⟩, some e)
      | .ok m => (r.1, ⟨r.2.1, some m⟩, none)

/-- `predict`: the attributes and the answer. -/
noncomputable def ucPredict (ops : EstOps σ D α k) (enc : Bool → α) (w : World σ D α) (o : UcObj α k) (s : UcState o) (X : List D) (pt : Option (Preds α k)) :
    UcState o × Except Err (Option (List Fl)) :=
  match s.own with
  | none => (s, .error .typeError)
  | some m =>
    match usingPredict ops enc w o.cfg (s.base.classes.getD []) X pt with
    | .error e => (s, .error e)
    | .ok p =>
      let r := o.cls.answer m s.base p
      (⟨s.base, some r.1⟩, r.2)

/-- A call made by a program on one of its objects. -/
inductive UcCall (D α : Type) (k : ℕ) where
  | fit (i : ℕ) (X : List D) (y : List α) (pt : Option (Preds α k))
  | predict (i : ℕ) (X : List D) (pt : Option (Preds α k))

/-- The object on which a call is made. -/
def UcCall.target : UcCall D α k → ℕ
  | .fit i _ _ _ => i
  | .predict i _ _ => i

/-- What a call gives back: `fit` nothing or an exception, `predict` an answer or an exception. -/
inductive UcResult where
  | fit (e : Option Err)
  | predict (r : Except Err (Option (List Fl)))

/-- One call: the estimators and the objects after it, and its result. -/
noncomputable def ucStep [LinearOrder α] (ops : EstOps σ D α k) (enc : Bool → α) (objs : ℕ → UcObj α k) (w : World σ D α) (st : (i : ℕ) → UcState (objs i)) :
    UcCall D α k → World σ D α × ((i : ℕ) → UcState (objs i)) × UcResult
  | .fit i X y pt => let r := ucFit ops enc w (objs i) (st i) X y pt; (r.1, Function.update st i r.2.1, .fit r.2.2)
  | .predict i X pt => let r := ucPredict ops enc w (objs i) (st i) X pt; (w, Function.update st i r.1, .predict r.2)

/-- The results of the calls of a program, each with the object on which the call was made. -/
noncomputable def ucTrace [LinearOrder α] (ops : EstOps σ D α k) (enc : Bool → α) (objs : ℕ → UcObj α k) (w : World σ D α) (st : (i : ℕ) → UcState (objs i)) : List (UcCall D α k) → List (ℕ × UcResult)
  | [] => []
  | c :: cs => let r := ucStep ops enc objs w st c; (c.target, r.2.2) :: ucTrace ops enc objs r.1 r.2.1 cs

/-- `fit(X, y)` on a new object followed by `predict(Xt)`. -/
noncomputable def ucRun [LinearOrder α] (ops : EstOps σ D α k) (enc : Bool → α) (w : World σ D α) (o : UcObj α k) (X : List D) (y : List α) (pt : Option (Preds α k)) (Xt : List D) (ptt : Option (Preds α k)) :
    Except Err (Option (List Fl)) :=
  let r := ucFit ops enc w o (ucNew o) X y pt
  match r.2.2 with
  | some e => .error e
  | none => (ucPredict ops enc r.1 o r.2.1 Xt ptt).2

end

/-! ## The classes -/

section
variable {α : Type} [LinearOrder α] {k : ℕ}

/-- A vector of prevalences, as a list. -/
def vecList {n : ℕ} (v : Fin n → Fl) : List Fl := List.ofFn v

/-- A vector of finite prevalences, as a list. -/
def realList {n : ℕ} (v : Fin n → ℝ) : List Fl := List.ofFn fun i => Fl.fin (v i)

/-- The answer of a method that leaves its attributes unchanged. -/
def keep {S R : Type} (m : S) (r : Except Err R) : S × Except Err (Option R) := (m, r.map some)

/-- Probabilistic predictions; other arrays are not modelled (`typeError`). -/
def probRows (p : Preds α k) : Except Err (List (Fin k → ℝ)) :=
  match p with
  | .probs rows => .ok rows
  | _ => .error .typeError

/-- Crisp predictions; other arrays do not reach the classes that use them (`typeError`). -/
def crispLabels (p : Preds α k) : Except Err (List α) :=
  match p with
  | .crisp l => .ok l
  | _ => .error .typeError

/-- `predictions_train_` and `y_ext_` after a `super().fit` that returned. -/
def trainData (s : QState α k) : Except Err (Preds α k × List α) :=
  match s.predsTrain, s.yExt with
  | some p, some ye => .ok (p, ye)
  | _, _ => .error .typeError

/-- `CC` (cc.py:77-145). -/
noncomputable def ccClass : UcClass α k where
  S := Unit
  needsTrain := false
  probabilistic := false
  pre _ := none
  learn _ _ _ := .ok ()
  answer m s p := keep m ((crispLabels p).map fun l => vecList (classFreqs (s.classes.getD []) l))

/-- `PCC` (cc.py:206-266). -/
noncomputable def pccClass : UcClass α k where
  S := Unit
  needsTrain := false
  probabilistic := true
  pre _ := none
  learn _ _ _ := .ok ()
  answer m _ p := keep m ((probRows p).map fun rows => vecList (colMeans rows))

/-- `AC` (ac.py:119-273). -/
noncomputable def acClass (sol : Solvers) (dist : Dist) : UcClass α k where
  S := ACFit α
  needsTrain := true
  probabilistic := false
  pre _ := none
  learn _ y s := do
    let t ← trainData s
    let p ← crispLabels t.1
    let cm ← confusionMatrix (npUnique y) t.2 p
    pure ⟨npUnique y, normalizeRows cm⟩
  answer m s p := keep m ((crispLabels p) >>= fun l =>
    if h : m.classes.length = (s.classes.getD []).length then (adjust sol dist m.cm fun j => classFreqs (s.classes.getD []) l (Fin.cast h j)).map vecList
    else .error .valueError)

/-- `PAC` (ac.py:373-524). -/
noncomputable def pacClass (sol : Solvers) (dist : Dist) : UcClass α k where
  S := ACFit α
  needsTrain := true
  probabilistic := true
  pre _ := none
  learn _ y s := do
    let t ← trainData s
    let p ← probRows t.1
    if t.2.length = p.length then
      if h : k = (npUnique y).length then pure ⟨npUnique y, fun i j => colMeans (rowsOf t.2 p (npUnique y)[i]) (Fin.cast h.symm j)⟩
      else .error .valueError
    else .error .indexError
  answer m _ p := keep m ((probRows p) >>= fun rows =>
    if h : k = m.classes.length then (adjust sol dist m.cm fun j => colMeans rows (Fin.cast h.symm j)).map vecList else .error .valueError)

/-- `EM` (em.py:103-212): the prevalences of the training set; predictions with another number of columns than classes do not broadcast. -/
noncomputable def emClass (eps : ℝ) (maxIter : ℕ) : UcClass α k where
  S := Σ n : ℕ, (Fin n → Fl)
  needsTrain := true
  probabilistic := true
  pre _ := none
  learn _ y _ := .ok ⟨(npUnique y).length, emFit (npUnique y) y⟩
  answer m _ p := keep m ((probRows p) >>= fun rows =>
    if h : m.1 = k then (emPredict (fun j => m.2 (Fin.cast h.symm j)) rows eps maxIter).map fun r => vecList r.prevalences else .error .valueError)

end

section
variable {α : Type} [LinearOrder α]

/-- `DeBias` (debias.py:97-195): the number of classes is checked before `super().fit`. -/
noncomputable def deBiasClass : UcClass α 2 where
  S := DeBiasFit α
  needsTrain := true
  probabilistic := true
  pre y := if (npUnique y).length ≠ 2 then some .attributeError else none
  learn _ y s := do
    let t ← trainData s
    let p ← probRows t.1
    deBiasFit y p
  answer m _ p := keep m ((probRows p).map fun rows => vecList (deBiasPredict m rows))

/-- `SORDy` (emd.py:108-221). -/
noncomputable def sordyClass (k : ℕ) (sort : List (ℝ × ℤ) → List (ℝ × ℤ)) (tol : ℝ) : UcClass ℤ (k + 2) where
  S := SordyFit
  needsTrain := true
  probabilistic := true
  pre _ := none
  learn _ y s :=
    if (npUnique y).length > 2 then .error .typeError
    else do
      let t ← trainData s
      let p ← probRows t.1
      if t.2.length = p.length then pure ⟨npUnique y, sort ((p.map fun r => r 1).zip t.2)⟩ else .error .indexError
  answer m s p := keep m ((probRows p) >>= fun rows => (sordyPredict sort tol ⟨s.classes.getD [], m.train⟩ (rows.map fun r => r 1)).map realList)

/-- `QUANTy` (quantiles.py:129-240): it keeps the mixtures of `global_search`. -/
noncomputable def quantyClass (k : ℕ) (sort : List (ℝ × α) → List (ℝ × α)) (n : ℕ) (dist : (Fin n → Fl) → (Fin n → Fl) → Fl) (tol : ℝ) (d : α) : UcClass α (k + 2) where
  S := MixState (QuantyFit α) (Fin n → Fl)
  needsTrain := true
  probabilistic := true
  pre _ := none
  learn _ y s :=
    if (npUnique y).length > 2 then .error .typeError
    else do
      let t ← trainData s
      let p ← probRows t.1
      if t.2.length = p.length then pure ⟨⟨npUnique y, sort ((p.map fun r => r 1).zip t.2)⟩, none⟩ else .error .indexError
  answer m s p :=
    match probRows p with
    | .error e => (m, .error e)
    | .ok rows =>
      let r := quantyPredict n dist tol d ⟨{ m.fitted with classes := s.classes.getD [] }, m.mixtures⟩ (rows.map fun r => r 1)
      (r.1, r.2.map fun v => v.map realList)

variable {k : ℕ}

/-- What the matching quantifiers keep: the training distribution, the parameters of 'L2', the problem of the solver and the mixtures. -/
structure MatchState (F : Type) (m : ℕ) (nc : ℕ) where
  fitted : F
  train : Matrix (Fin m) (Fin nc) ℝ
  par : Option (QPParams nc (nc + 1))
  problem : Option CvxProblem
  mixtures : Option (ℕ → (Fin m → ℝ))

/-- The end of `predict` (df.py:338-352, friedman.py:253-267) for the testing distribution `q`. -/
noncomputable def matchAnswer (sv : CvxSolver) (qp : QPSolver) (tol : ℝ) {F : Type} {m nc : ℕ} (distance : DfDistance m) (s : MatchState F m nc) (q : Fin m → ℝ) :
    MatchState F m nc × Except Err (Option (List Fl)) :=
  match distance with
  | .hd =>
    match solveCvx sv .hd ⟨m, nc, s.train⟩ ⟨m, q⟩ s.problem with
    | .error e => (s, .error e)
    | .ok (pr, x) => ({ s with problem := some pr }, .ok (some (realList x.2)))
  | .l1 =>
    match solveCvx sv .l1 ⟨m, nc, s.train⟩ ⟨m, q⟩ s.problem with
    | .error e => (s, .error e)
    | .ok (pr, x) => ({ s with problem := some pr }, .ok (some (realList x.2)))
  | .l2 =>
    match s.par with
    | none => (s, .error .typeError)
    | some par => (s, (solveL2 qp s.train q par).map fun x => some (realList x))
  | .fn d =>
    if h : 1 < nc then
      match globalSearch d (fun p => mixtureOfPdfs p (fun i => s.train i ⟨1, h⟩) (fun i => s.train i ⟨0, by omega⟩)) q tol s.mixtures true with
      | .error e => (s, .error e)
      | .ok (c, p) => ({ s with mixtures := c }, .ok (p.map fun p => realList ![1 - p, p]))
    else (s, .error .indexError)

/-- The parameters of 'L2' computed at the end of `fit` (df.py:268-269, friedman.py:195-196). -/
noncomputable def matchParams {m nc : ℕ} (la : LinAlg nc) (fuel : ℕ) (distance : DfDistance m) (T : Matrix (Fin m) (Fin nc) ℝ) : Except Err (Option (QPParams nc (nc + 1))) :=
  match distance with
  | .l2 =>
    match computeL2ParamTrain la fuel T with
    | none => .error .linAlgError
    | some par => .ok (some par)
  | _ => .ok none

/-- The number of classes seen by `fit` must be the number of columns of the predictions; otherwise the code fails or uses the first columns, which is not modelled (`indexError`). -/
def columnsAre (classes : List α) (k : ℕ) : Except Err (PLift (classes.length = k)) := if h : classes.length = k then .ok ⟨h⟩ else .error .indexError

/-- `DFy` (df.py:193-357) with its wrappers `HDy` (df.py:360-373) and `MMy` (df.py:376-390). -/
noncomputable def dfyClass (ppf : ℝ → EReal) (sv : CvxSolver) (qp : QPSolver) (la : LinAlg k) (fuel : ℕ) (tol : ℝ) (cfg : DfCfg) (distance : DfDistance (nDescriptors k * cfg.nBins)) : UcClass α k where
  S := MatchState (DfFit (nDescriptors k) cfg.nBins k) (nDescriptors k * cfg.nBins) k
  needsTrain := true
  probabilistic := true
  pre _ := none
  learn _ y s := do
    let t ← trainData s
    let p ← probRows t.1
    let ⟨h⟩ ← columnsAre (npUnique y) k
    let f ← dfFit ppf .whole cfg (some (0, 1)) (dfyAtt k) (npUnique y) y t.2 p
    let f : DfFit (nDescriptors k) cfg.nBins k := ⟨f.cuts, fun i c => f.train i (Fin.cast h.symm c)⟩
    let par ← matchParams la fuel distance f.train
    pure ⟨f, f.train, par, none, none⟩
  answer m _ p :=
    match probRows p >>= dfyTest cfg m.fitted with
    | .error e => (m, .error e)
    | .ok q => matchAnswer sv qp tol distance m q

/-- `FriedmanME` (friedman.py:132-271). -/
noncomputable def friedmanClass (sv : CvxSolver) (qp : QPSolver) (la : LinAlg k) (fuel : ℕ) (tol : ℝ) (distance : DfDistance k) : UcClass α k where
  S := MatchState (FriedmanFit k) k k
  needsTrain := true
  probabilistic := true
  pre _ := none
  learn _ y s := do
    let t ← trainData s
    let p ← probRows t.1
    let ⟨h⟩ ← columnsAre (npUnique y) k
    let f ← friedmanFit (npUnique y) y t.2 (p.map fun r j => r (Fin.cast h j))
    let f : FriedmanFit k := ⟨fun j => f.prevs (Fin.cast h.symm j), fun i c => f.train (Fin.cast h.symm i) (Fin.cast h.symm c)⟩
    let par ← matchParams la fuel distance f.train
    pure ⟨f, f.train, par, none, none⟩
  answer m _ p :=
    match probRows p with
    | .error e => (m, .error e)
    | .ok rows => matchAnswer sv qp tol distance m (friedmanTest m.fitted rows)

/-- `EDy` (energy.py:122-225). -/
noncomputable def edyClass {n : ℕ} (qp : QPSolver) (la : LinAlg n) (fuel : ℕ) (d : (Fin (n + 1) → ℝ) → (Fin (n + 1) → ℝ) → ℝ) : UcClass α (n + 1) where
  S := EDFit (Fin (n + 1) → ℝ) n
  needsTrain := true
  probabilistic := true
  pre _ := none
  learn _ y s := do
    let t ← trainData s
    let p ← probRows t.1
    let ⟨h⟩ ← columnsAre (npUnique y) (n + 1)
    if t.2.length ≠ p.length then .error .indexError
    else
      match edFit la fuel d (fun i => (npUnique y)[Fin.cast h.symm i]) t.2 p with
      | none => .error .linAlgError
      | some f => .ok f
  answer m _ p := keep m ((probRows p) >>= fun rows => (edPredict qp d m rows).map realList)

/-- `CvMy` (energy.py:334-445): `fit` learns nothing of its own; `predict` uses `predictions_train_` and `y_ext_`. -/
noncomputable def cvmyClass {n : ℕ} (qp : QPSolver) (la : LinAlg n) (fuel : ℕ) (d : (Fin (n + 1) → ℝ) → (Fin (n + 1) → ℝ) → ℝ) : UcClass α (n + 1) where
  S := Unit
  needsTrain := true
  probabilistic := true
  pre _ := none
  learn _ _ _ := .ok ()
  answer m s p := keep m (do
    let rows ← probRows p
    let t ← trainData s
    let tr ← probRows t.1
    let ⟨h⟩ ← columnsAre (s.classes.getD []) (n + 1)
    if t.2.length ≠ tr.length then .error .indexError
    else
      match cvmPredict la fuel qp d (fun i => (s.classes.getD [])[Fin.cast h.symm i]) t.2 tr rows with
      | none => .error .linAlgError
      | some r => r.map realList)

/-- The end of `ACOrdinal.predict` (ac_ordinal.py:219-220) for the cumulative frequencies `test` of the bag. -/
noncomputable def acoSolve (sv : CvxSolver) (m : WarmState (AcoFit α)) (test : Fin m.fitted.classes.length → Fl) : WarmState (AcoFit α) × Except Err (Option (List Fl)) :=
  let Q : WarmQuantifier (AcoFit α) Unit :=
    { train := fun f => ⟨f.classes.length, f.classes.length, fun i j => flReal (f.train i j)⟩
      prep := fun f _ => open Classical in
        if (∀ i j, flFinite (f.train i j)) ∧ ∀ i, flFinite (test i) then .ok (.inl ⟨m.fitted.classes.length, fun i => flReal (test i)⟩) else .error .valueError
      post := fun _ x => x }
  let r := warmPredict Q sv .l1 m ()
  (r.1, r.2.map fun x => some (realList x.2))

/-- `ACOrdinal` (ac_ordinal.py:112-225): it keeps the problem of `solve_l1`. -/
noncomputable def acoClass (sv : CvxSolver) : UcClass α k where
  S := WarmState (AcoFit α)
  needsTrain := true
  probabilistic := false
  pre _ := none
  learn _ y s := do
    let t ← trainData s
    let p ← crispLabels t.1
    let cm ← confusionMatrix (npUnique y) t.2 p
    pure ⟨⟨npUnique y, normalizeRows cm, fun i j => accumArr (fun l => normalizeRows cm j l) i⟩, none⟩
  answer m s p :=
    match crispLabels p with
    | .error e => (m, .error e)
    | .ok l =>
      if h : m.fitted.classes.length ≠ (s.classes.getD []).length then (m, .error .valueError) else
      acoSolve sv m (accumArr fun j => classFreqs (s.classes.getD []) l (Fin.cast (not_ne_iff.1 h) j))

/-- `PDFOrdinaly` (pdf.py:135-287): it keeps the problem of the solver. -/
noncomputable def pdfoClass (sv : CvxSolver) (qp : QPSolver) (la : LinAlg k) (fuel nBins : ℕ) (method : OrdMethod) (dist : OrdDist) : UcClass α k where
  S := WarmState (PdfoFit nBins k)
  needsTrain := true
  probabilistic := true
  pre _ := none
  learn _ y s := do
    let t ← trainData s
    let p ← probRows t.1
    let ⟨h⟩ ← columnsAre (npUnique y) k
    let f ← pdfoFit la fuel nBins method dist (fun i => (npUnique y)[Fin.cast h.symm i]) t.2 p
    pure ⟨f, none⟩
  answer m _ p :=
    match probRows p with
    | .error e => (m, .error e)
    | .ok rows =>
      let r := pdfoPredict sv qp method dist m rows
      (r.1, r.2.map fun v => v.map fun x => realList x.2)

end

end Verif.Model
