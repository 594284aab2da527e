import Verif.Model.AC

/-!
# Renaming the classes

`g` renames the labels. Two estimators are the same up to the renaming when, trained on the same examples with renamed labels, they predict the renamed labels and the same probabilities.
-/

namespace Verif.Spec

open Verif.Model

variable {σ σ' D α β : Type*} {k : ℕ}

/-- Predictions handed to `fit` or `predict`, with the labels renamed; probabilities have no labels. -/
def renamePreds (g : α → β) : Preds α k → Preds β k
  | .crisp l => .crisp (l.map g)
  | .probs1 l => .probs1 l
  | .probs l => .probs l

/-- `R` relates the states of two kinds of estimators that agree up to the renaming `g`. -/
structure SameUpTo (g : α → β) (ops : EstOps σ D α k) (ops' : EstOps σ' D β k) (R : σ → σ' → Prop) : Prop where
  notFitted : ∀ s s', R s s' → ops'.notFitted s' = ops.notFitted s
  fit : ∀ s s' X y, R s s' → R (ops.fit s X y) (ops'.fit s' X (y.map g))
  predict : ∀ s s' X, R s s' → ops'.predict s' X = (ops.predict s X).map g
  proba : ∀ s s' X, R s s' → ops'.predictProba s' X = ops.predictProba s X

/-- Predictions that are labels or a matrix of probabilities, not a single column of probabilities. -/
def NotSingleColumn : Option (Preds α k) → Prop
  | some (.probs1 _) => False
  | _ => True

end Verif.Spec
