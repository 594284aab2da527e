import Verif.Model.Lifecycle
import Verif.Model.Pipeline

/-!
# Threads that call the methods of shared objects

Python runs one thread at a time and may change to another one between any two operations. A call is a `Code`: a sequence of reads of the attributes of objects, computations on local variables and assignments to attributes. `runThreads`
executes one operation of the thread that the schedule says.

Simplifications: an assignment such as `self.predictions_test_ = ...` is one operation, after the operation that reads what its right-hand side needs; the calls to the methods of estimators are one operation each. In `ucCode` the part of
`predict` after `super().predict` reads the attributes in one operation and writes them in another one; `ccCode` has each of the reads of `CC.predict`.
-/

namespace Verif.Model

/-- The code of a thread over a store: it returns, reads the store, or changes it. -/
inductive Code (St R : Type) where
  | ret (r : R)
  | get (k : St → Code St R)
  | put (f : St → St) (k : Code St R)

/-- One operation of a thread. -/
def Code.step {St R : Type} (s : St) : Code St R → St × Code St R
  | .ret r => (s, .ret r)
  | .get k => (s, k s)
  | .put f k => (f s, k)

/-- A call without other threads: the store after it and its result. -/
def Code.run {St R : Type} (s : St) : Code St R → St × R
  | .ret r => (s, r)
  | .get k => (k s).run s
  | .put f k => k.run (f s)

/-- The threads under a schedule, which says whose turn it is: the store and what remains of each of them. -/
def runThreads {St R : Type} : List ℕ → St → (ℕ → Code St R) → St × (ℕ → Code St R)
  | [], s, T => (s, T)
  | i :: sch, s, T => runThreads sch ((T i).step s).1 (Function.update T i ((T i).step s).2)

section
variable {σ D α : Type} {k : ℕ}

/-- Places of the store: quantifiers and estimators. -/
inductive Place where
  | quant (i : ℕ)
  | est (e : ℕ)
  deriving DecidableEq

/-- The attributes of a quantifier, with `predictions_test_` (base.py:157). -/
structure UcCell (o : UcObj α k) where
  state : UcState o
  predsTest : Option (Preds α k)

/-- What there is in a place. -/
def CellOf (σ : Type) (objs : ℕ → UcObj α k) : Place → Type
  | .quant i => UcCell (objs i)
  | .est _ => σ

/-- The store of a program. -/
abbrev Store (σ : Type) (objs : ℕ → UcObj α k) := (p : Place) → CellOf σ objs p

variable {objs : ℕ → UcObj α k}

/-- A quantifier of the store. -/
def Store.quant (s : Store σ objs) (i : ℕ) : UcCell (objs i) := s (.quant i)

/-- The estimators of the store. -/
def Store.world (s : Store σ objs) : World σ D α := ⟨fun e => s (.est e), []⟩

/-- Assignment to the attributes of a quantifier. -/
def Store.setQuant (s : Store σ objs) (i : ℕ) (c : UcCell (objs i)) : Store σ objs := Function.update s (.quant i) c

/-- `self.predictions_test_ = p` (base.py:302-311). -/
def Store.setPreds (i : ℕ) (p : Preds α k) (s : Store σ objs) : Store σ objs := s.setQuant i { s.quant i with predsTest := some p }

/-- The part of `predict` after `super().predict`: it reads `self.predictions_test_` and its other attributes, and writes its own ones. -/
noncomputable def ucRest (i : ℕ) : Code (Store σ objs) (Except Err (Option (List Fl))) :=
  .get fun s =>
    match (s.quant i).state.own, (s.quant i).predsTest with
    | some m, some p =>
      .put (fun s' => s'.setQuant i { s'.quant i with state := ⟨(s'.quant i).state.base, some ((objs i).cls.answer m (s.quant i).state.base p).1⟩ }) (.ret ((objs i).cls.answer m (s.quant i).state.base p).2)
    | _, _ => .ret (.error .typeError)

/-- `predict` of quantifier `i`, as in `ucPredict`: `UsingClassifiers.predict` (base.py:267-315) computes the predictions and assigns them to `self.predictions_test_`, and then the part of each class. -/
noncomputable def ucCode (ops : EstOps σ D α k) (enc : Bool → α) (i : ℕ) (X : List D) (pt : Option (Preds α k)) : Code (Store σ objs) (Except Err (Option (List Fl))) :=
  .get fun s =>
    match (s.quant i).state.own with
    | none => .ret (.error .typeError)
    | some _ =>
      match usingPredict ops enc s.world (objs i).cfg ((s.quant i).state.base.classes.getD []) X pt with
      | .error e => .ret (.error e)
      | .ok p => .put (Store.setPreds i p) (ucRest i)

/-- The loop `for n_cls, cls in enumerate(self.classes_)` of `CC.predict` (cc.py:136-138), which reads `self.predictions_test_` every time; `done` are the counts so far. -/
noncomputable def ccLoop [DecidableEq α] (i : ℕ) (done : List ℕ) : List α → Code (Store σ objs) (Except Err (Option (List Fl)))
  | [] => .get fun s =>
    match (s.quant i).predsTest with
    | some (.crisp l) => .ret (.ok (some (done.map fun n : ℕ => Fl.fin (n : ℝ) / Fl.fin (l.length : ℝ))))
    | _ => .ret (.error .typeError)
  | c :: cs => .get fun s =>
    match (s.quant i).predsTest with
    | some (.crisp l) => ccLoop i (done ++ [l.count c]) cs
    | _ => .ret (.error .typeError)

/-- `CC.predict` (cc.py:100-145), with each of its reads of `self.predictions_test_`: one for each class and one for `len` (cc.py:140). The array `self.classes_` is read once (`predict` does not assign it). -/
noncomputable def ccCode [DecidableEq α] (ops : EstOps σ D α k) (enc : Bool → α) (i : ℕ) (X : List D) (pt : Option (Preds α k)) : Code (Store σ objs) (Except Err (Option (List Fl))) :=
  .get fun s =>
    match (s.quant i).state.own with
    | none => .ret (.error .typeError)
    | some _ =>
      match usingPredict ops enc s.world (objs i).cfg ((s.quant i).state.base.classes.getD []) X pt with
      | .error e => .ret (.error e)
      | .ok p => .put (Store.setPreds i p) (.get fun s => ccLoop i [] ((s.quant i).state.base.classes.getD []))

/-- The check of an estimator (base.py:201-218 and 220-238): `predict` raises NotFittedError or not, and then `fit` is called if it did. -/
def estCode {R : Type} (ops : EstOps σ D α k) (r : Option ℕ) (X : List D) (y : List α) (rest : Code (Store σ objs) R) : Code (Store σ objs) R :=
  match r with
  | none => rest
  | some e => .get fun s => if ops.notFitted (s (.est e)) then .put (fun s' => Function.update s' (.est e) (ops.fit (s' (.est e)) X y)) rest else rest

/-- Assignment to the inherited attributes of a quantifier. -/
def Store.setBase (i : ℕ) (f : QState α k → QState α k) (s : Store σ objs) : Store σ objs := s.setQuant i { s.quant i with state := ⟨f (s.quant i).state.base, (s.quant i).state.own⟩ }

/-- The part of `fit` after `super().fit`, as in `ucFit`. -/
def learnCode {R : Type} (i : ℕ) (y : List α) (rest : Option Err → Code (Store σ objs) R) : Code (Store σ objs) R :=
  .get fun s =>
    match (objs i).cls.learn (s.quant i).state.own y (s.quant i).state.base with
    | .error e => rest (some e)
    | .ok m => .put (fun s' => s'.setQuant i { s'.quant i with state := ⟨(s'.quant i).state.base, some m⟩ }) (rest none)

/-- The end of `UsingClassifiers.fit` (base.py:240-260): `predictions_train_` and `y_ext_`. -/
noncomputable def trainCode {R : Type} (ops : EstOps σ D α k) (enc : Bool → α) (i : ℕ) (classes : List α) (X : List D) (y : List α) (pt : Option (Preds α k)) (rest : Option Err → Code (Store σ objs) R) :
    Code (Store σ objs) R :=
  if (objs i).cls.needsTrain then
    .get fun s =>
      match trainPreds ops enc classes s.world (objs i).cfg X pt with
      | .error e => rest (some e)
      | .ok p => .put (Store.setBase i fun b => { b with predsTrain := some p })
        (match extendLabels y p.len with
          | .error e => rest (some e)
          | .ok ye => .put (Store.setBase i fun b => { b with yExt := some ye }) (learnCode i y rest))
  else learnCode i y rest

/-- `fit` of quantifier `i`, as in `ucFit`: the operations of `UsingClassifiers.fit` (base.py:162-265) and of the class; `rest` is what the thread does afterwards, given the exception, if any. -/
noncomputable def ucFitCode {R : Type} [LinearOrder α] (ops : EstOps σ D α k) (enc : Bool → α) (i : ℕ) (X : List D) (y : List α) (pt : Option (Preds α k)) (rest : Option Err → Code (Store σ objs) R) :
    Code (Store σ objs) R :=
  match (objs i).cls.pre y with
  | some e => rest (some e)
  | none =>
    .put (Store.setBase i fun b => { b with classes := some (npUnique y) })
      (if (objs i).cls.needsTrain && (objs i).estTrain.isNone && pt.isNone then rest (some .valueError)
       else estCode ops (objs i).estTrain X y (estCode ops (objs i).estTest X y (trainCode ops enc i (npUnique y) X y pt rest)))

/-- A thread that calls `fit(X, y)` and, if it returns, `predict(Xt)`. -/
noncomputable def ucRunCode [LinearOrder α] (ops : EstOps σ D α k) (enc : Bool → α) (i : ℕ) (X : List D) (y : List α) (pt : Option (Preds α k)) (Xt : List D) (ptt : Option (Preds α k)) :
    Code (Store σ objs) (Except Err (Option (List Fl))) :=
  ucFitCode ops enc i X y pt fun e =>
    match e with
    | some e => .ret (.error e)
    | none => ucCode ops enc i Xt ptt

end

/-- `EDX.predict` (energy.py:535-564) of object `i`: it reads what `fit` left for the linear term and for the quadratic program, and assigns nothing. -/
noncomputable def edxCode {P : Type} {n : ℕ} (qp : QPSolver) (d : P → P → ℝ) (i : ℕ) (test : List P) : Code (ℕ → EDFit P n) (Except Err (Fin (n + 1) → ℝ)) :=
  .get fun s => .get fun s' => .ret (solveEd qp (s' i).par (edA (s i).K (edKt d (s i).train test)))

/-! ## A `FrankAndHallClassifier` as the estimator, whose `fit` is not one operation -/

section
variable {M D α : Type}

/-- `FrankAndHallClassifier.fit` (frank_and_hall.py:121-164), as in `fhObjFit`, with each of its assignments: `classes_` (line 152), the array of None (line 158) and the trained models (line 162). -/
def fhFitCode [LinearOrder α] (finite : List D → Bool) (b : FhRaising M D) (X : List D) (y : List α) : Code (FhObj M α) (Option Err) :=
  if y = [] then .ret (some .valueError)
  else
    match fhTransform 0 1 (npUnique y) y with
    | .error e => .ret (some e)
    | .ok yBin =>
      .put (fun o => { o with classes := some (npUnique y) })
        (if acceptsXy finite X y = false then .ret (some .valueError)
         else .put (fun o => { o with estimators := some (List.replicate ((npUnique y).length - 1) none) })
          (match (List.range ((npUnique y).length - 1)).mapM fun i => item yBin i >>= fhFitBinary b X i with
            | .error e => .ret (some e)
            | .ok ms => .put (fun o => { o with estimators := some (ms.map some) }) (.ret none)))

/-- What `fit` of a quantifier does with such an estimator (base.py:201-218, 220-238), as in `estStep`: `predict` checks `classes_` (frank_and_hall.py:186) and then reads the models (lines 237-281); NotFittedError leads to `fit`. -/
noncomputable def fhStepCode [LinearOrder α] (finite : List D → Bool) (b : FhRaising M D) (X : List D) (y : List α) : Code (FhObj M α) (Option Err) :=
  .get fun o =>
    match o.classes with
    | none => if acceptsXy finite X y = false then .ret (some .valueError) else fhFitCode finite b X y
    | some _ => .get fun o => .ret (raised (fhObjPredict b.ops o (X.take 1)))

end

end Verif.Model
