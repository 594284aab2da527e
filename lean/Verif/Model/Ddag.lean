import Verif.Model.FrankHall

/-!
# Model of `quantificationlib/estimators/ordinal_ddag.py`

`DDAGClassifier` derives from `OneVsOneClassifier` of scikit-learn, whose `fit` trains a binary estimator for each pair of classes, in lexicographic order, with the examples of the two classes; the first one has
label 0 and the second one label 1. `FhOps` (`Verif/Model/FrankHall.lean`) gives the base estimator.

Simplifications: the predictions of the binary estimators are one row per example and a new array in every call (they are modified in place); labels have a type that scikit-learn accepts.
-/

namespace Verif.Model

section
variable {M D α : Type} {n : ℕ}

/-- The pairs of `n` classes in the order of `OneVsOneClassifier`. -/
def ovoPairs (n : ℕ) : List (ℕ × ℕ) := (List.range n).flatMap fun i => (List.range' (i + 1) (n - i - 1)).map fun j => (i, j)

/-- `_fit_ovo_binary` of scikit-learn for the classes `a` and `b`: examples and labels. -/
def ovoData [DecidableEq α] (X : List D) (y : List α) (a b : α) : List D × List ℤ :=
  let sel := (X.zip y).filter fun e => decide (e.2 = a) || decide (e.2 = b)
  (sel.map fun e => e.1, sel.map fun e => if e.2 = b then 1 else 0)

/-- `OneVsOneClassifier.fit` of scikit-learn. -/
def ddagFit [LinearOrder α] (ops : FhOps M D) (X : List D) (y : List α) : Except Err (FhFit M α) :=
  if X.length ≠ y.length then .error .valueError
  else if (npUnique y).length ≤ 1 then .error .valueError
  else do
    let ests ← (ovoPairs (npUnique y).length).mapM fun p => do
      let a ← item (npUnique y) p.1
      let b ← item (npUnique y) p.2
      pure (ops.fit 0 (ovoData X y a b).1 (ovoData X y a b).2)
    pure ⟨npUnique y, ests⟩

/-- `sum(list(range(n_classes - left_class, n_classes))) + (right_class - left_class - 1)` (ordinal_ddag.py:308). -/
def ddagPos (n left right : ℕ) : ℕ := (List.range' (n - left) left).sum + (right - left - 1)

open Classical in
/-- `predictions_left` after binarizing (ordinal_ddag.py:319-320). -/
noncomputable def binLeft (v : ℝ) : ℝ := if v < 1 / 2 then 0 else 1

open Classical in
/-- `predictions_right` after binarizing (ordinal_ddag.py:321-322). -/
noncomputable def binRight (v : ℝ) : ℝ := if v ≤ 1 / 2 then 0 else 1

/-- `__compute_probabilities` (ordinal_ddag.py:274-337) for an example; the right class is `left + d`. -/
noncomputable def ddagCompute (n : ℕ) (winner : Bool) (ops : FhOps M D) (ests : List M) (x : D) : ℕ → ℕ → (Fin n → ℝ) → (Fin n → ℝ) → Except Err (Fin n → ℝ)
  | 0, _, accum, samples => .ok fun c => samples c + accum c
  | d + 1, left, accum, samples => do
    let m ← item ests (ddagPos n left (left + (d + 1)))
    let l ← item (ops.proba m x) 0
    let r ← item (ops.proba m x) 1
    let pl := if winner && decide (d + 1 ≠ 1) then binLeft l else l
    let pr := if winner && decide (d + 1 ≠ 1) then binRight r else r
    let s1 ← ddagCompute n winner ops ests x d left (fun c => if left ≤ (c : ℕ) ∧ (c : ℕ) < left + (d + 1) then accum c * pl else 0) samples
    ddagCompute n winner ops ests x d (left + 1) (fun c => if left + 1 ≤ (c : ℕ) ∧ (c : ℕ) < left + (d + 1) + 1 then accum c * pr else 0) s1

/-- `DDAGClassifier.predict_proba` (ordinal_ddag.py:233-272). -/
noncomputable def ddagPredictProba (n : ℕ) (winner : Bool) (ops : FhOps M D) (f : FhFit M α) (X : List D) : Except Err (List (Fin n → ℝ)) :=
  X.mapM fun x => ddagCompute n winner ops f.estimators x (n - 1) 0 (fun _ => 1) (fun _ => 0)

/-- `DDAGClassifier.predict` (ordinal_ddag.py:209-231). -/
noncomputable def ddagPredict (winner : Bool) (ops : FhOps M D) (f : FhFit M α) (X : List D) : Except Err (List α) :=
  ddagPredictProba f.classes.length winner ops f X >>= fun rows => rows.mapM (fhLabel f.classes)

end

end Verif.Model
