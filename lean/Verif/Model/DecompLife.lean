import Verif.Model.Decomp

/-!
# The decompositions as objects: attributes and exceptions

`Verif.Model.Decomp` models a `fit` that returns and the `predict` after it. Here `fit` is a step on the attributes `classes_` and `quantifiers_` of the object, which it also changes when it raises.
-/

namespace Verif.Model

/-- The two decompositions. -/
inductive DecKind where
  /-- `OneVsRestQuantifier`. -/
  | ovr
  /-- `FrankAndHallQuantifier`. -/
  | fh
  deriving DecidableEq

/-- The number of binary problems for `n` classes (multiclass.py:137 and 155, ordinal.py:140 and 158). -/
def DecKind.count : DecKind → ℕ → ℕ
  | .ovr, n => n
  | .fh, n => n - 1

/-- What is in a position of `quantifiers_` (`np.zeros(..., dtype=object)`): the number 0, a copy of the base quantifier whose `fit` raised, or a fitted copy. -/
inductive Slot (σ : Type) where
  | zero
  | raw
  | fitted (s : σ)

/-- `classes_` and `quantifiers_`. -/
structure DecObj (α σ : Type) where
  classes : Option (List α)
  quants : Option (List (Slot σ))

/-- A new object (base.py:157, multiclass.py:93, ordinal.py:96). -/
def decNew (α σ : Type) : DecObj α σ := ⟨none, none⟩

section
variable {α D ε σ : Type}

/-- The loop over the binary problems `i, ..., i + k - 1`; `f` fits a copy. An exception ends it: the copy is already in its position and the next ones hold 0. -/
def fitSlots (f : ℕ → Except Err σ) : ℕ → ℕ → List (Slot σ) × Option Err
  | _, 0 => ([], none)
  | i, k + 1 =>
    match f i with
    | .error e => (.raw :: List.replicate k .zero, some e)
    | .ok s => let r := fitSlots f (i + 1) k; (.fitted s :: r.1, r.2)

/-- Binarising the labels (multiclass.py:124-126, ordinal.py:126-130): `LabelBinarizer.fit` raises ValueError for no labels. -/
def decBinarize [LinearOrder α] (kind : DecKind) (y : List α) : Except Err (List (List ℤ)) :=
  if y = [] then .error .valueError
  else
    match kind with
    | .ovr => .ok (lbTransform 0 1 (npUnique y) y)
    | .fh => fhTransform 0 1 (npUnique y) y

/-- The positions of `quantifiers_` that the loop does not fill: `FrankAndHallQuantifier` without classifiers makes room for `n` (ordinal.py:138). -/
def decSpare (kind : DecKind) (uses : Bool) : List (Slot σ) :=
  match kind, uses with
  | .fh, false => [.zero]
  | _, _ => []

/-- `fit` (multiclass.py:96-169, ordinal.py:98-175): the attributes after it and the exception, if any. `sup` is the exception that `super().fit` raises besides the ValueError for missing predictions, if any (base.py:162-265; it
assigns `classes_` first). -/
noncomputable def decFit [LinearOrder α] (kind : DecKind) (Q : BinQuant D ε σ) (estTrain estTest : Option (List ε)) (sup : List α → Option (List (List ℝ)) → Option Err) (st : DecObj α σ) (X : List D) (y : List α)
    (preds : Option (List (List ℝ))) : DecObj α σ × Option Err :=
  match decBinarize kind y with
  | .error e => (st, some e)
  | .ok yBin =>
    let classes := npUnique y
    let rejected : Option Err := if Q.usesClassifiers then (if Q.needsTrain && estTrain.isNone && preds.isNone then some .valueError else sup y preds) else none
    match rejected with
    | some e => (⟨some classes, st.quants⟩, some e)
    | none =>
      let r := fitSlots (fun i => fitCopy Q estTrain estTest X yBin preds i) 0 (kind.count classes.length)
      (⟨some classes, some (r.1 ++ decSpare kind Q.usesClassifiers)⟩, r.2)

/-- `quantifiers_[i].predict(X, ...)[1]`; `raw` is `predict` of a copy that is not fitted. -/
noncomputable def askSlot (Q : BinQuant D ε σ) (raw : List D → Option (List (List ℝ)) → Except Err (List Fl)) (quants : Option (List (Slot σ))) (X : List D) (preds : Option (List (List ℝ))) (i : ℕ) : Except Err Fl := do
  let p ← askPreds Q preds i
  let l ← match quants with
    | none => .error .typeError
    | some qs =>
      match qs[i]? with
      | none => .error .indexError
      | some .zero => .error .attributeError
      | some .raw => raw X p
      | some (.fitted s) => Q.predict s X p
  item l 1

/-- From the answers of the copies to the answer (multiclass.py:200-203, ordinal.py:247-264). -/
noncomputable def decFinish : DecKind → List Fl → Except Err (List Fl)
  | .ovr, l => .ok (ovrNormalize l)
  | .fh, l => fhqClasses (correctAsc l)

/-- `predict` (multiclass.py:171-203, ordinal.py:177-264): `len(None)` is a TypeError. -/
noncomputable def decPredict (kind : DecKind) (Q : BinQuant D ε σ) (raw : List D → Option (List (List ℝ)) → Except Err (List Fl)) (st : DecObj α σ) (X : List D) (preds : Option (List (List ℝ))) : Except Err (List Fl) :=
  match st.classes with
  | none => .error .typeError
  | some classes => do
    let l ← (List.range (kind.count classes.length)).mapM fun i => askSlot Q raw st.quants X preds i
    decFinish kind l

/-- The arguments of a call of `fit`. -/
structure DecCall (α D : Type) where
  X : List D
  y : List α
  preds : Option (List (List ℝ))

/-- A history of calls of `fit`, from the first to the last (`predict` changes no attribute). -/
noncomputable def decHistory [LinearOrder α] (kind : DecKind) (Q : BinQuant D ε σ) (estTrain estTest : Option (List ε)) (sup : List α → Option (List (List ℝ)) → Option Err) (st : DecObj α σ) (calls : List (DecCall α D)) : DecObj α σ :=
  calls.foldl (fun st c => (decFit kind Q estTrain estTest sup st c.X c.y c.preds).1) st

end

end Verif.Model
