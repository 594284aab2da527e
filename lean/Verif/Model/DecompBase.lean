import Verif.Model.Decomp
import Verif.Model.Pipeline

/-!
# The quantifiers of the library as base quantifiers of a decomposition

`OneVsRestQuantifier` and `FrankAndHallQuantifier` (`decomposition/multiclass.py`, `decomposition/ordinal.py`) take copies of a binary quantifier. Here the quantifiers that use classifiers, modelled in `Verif.Model.Pipeline`, are given
the form of a base quantifier.

Simplification: every copy starts with the same heap of estimators. The decompositions train the estimators before the copies are fitted (multiclass.py:141-153, ordinal.py:144-157), so fitting the copies does not change them.
-/

namespace Verif.Model

variable {τ D : Type}

/-- The rows of a matrix with two columns (`np.array([1 - preds[:, i], preds[:, i]]).T`: multiclass.py:162-163 and 194-195, ordinal.py:167-168 and 241-242). -/
noncomputable def rowsOfTwo (m : List (List ℝ)) : List (Fin 2 → ℝ) := (List.range (m.headD []).length).map fun r j => (m.getD j []).getD r 0

/-- A copy after `fit`: the heap, its estimators, and its attributes. -/
structure UcCopy (τ D : Type) (cls : UcClass ℤ 2) where
  world : World τ D ℤ
  estTrain : Option ℕ
  estTest : Option ℕ
  state : UcState ⟨cls, estTrain, estTest⟩

/-- A quantifier that uses classifiers as base quantifier: `estimator_train` and `estimator_test` of the copy are the binary estimators of the decomposition, which are references. An answer that is not a vector has no position 1. -/
noncomputable def ucBase (ops : EstOps τ D ℤ 2) (enc : Bool → ℤ) (w : World τ D ℤ) (cls : UcClass ℤ 2) : BinQuant D ℕ (UcCopy τ D cls) where
  usesClassifiers := true
  needsTrain := cls.needsTrain
  fit e1 e2 X y p :=
    let o : UcObj ℤ 2 := ⟨cls, e1, e2⟩
    let r := ucFit ops enc w o (ucNew o) X y (p.map fun m => .probs (rowsOfTwo m))
    match r.2.2 with
    | some e => .error e
    | none => .ok ⟨r.1, e1, e2, r.2.1⟩
  predict s X p :=
    match (ucPredict ops enc s.world ⟨cls, s.estTrain, s.estTest⟩ s.state X (p.map fun m => .probs (rowsOfTwo m))).2 with
    | .error e => .error e
    | .ok none => .error .indexError
    | .ok (some l) => .ok l

end Verif.Model
