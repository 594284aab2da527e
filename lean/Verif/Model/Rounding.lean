import Verif.Spec.Rounding
import Verif.Model.AC
import Verif.Model.Decomp

/-!
# Models with rounding

The computations of `CC`, `PCC`, `AC`, `PAC`, `EM`, `DeBias`, `OneVsRestQuantifier` and `FrankAndHallQuantifier`, once the predictions are known, operation by operation, in an arithmetic `A` that rounds
(`Verif.Spec.Rounding`). Counts are integers and are exact. The arrays hold finite numbers: the models do not have NaN nor infinities, and a division by zero, which the theorems exclude, has no meaning.
-/

namespace Verif.Model

open Verif.Spec

variable {α : Type*} {k n : ℕ} (A : Arith)

/-- `CC.predict` (cc.py:134-145), and the observed prevalences of `AC.predict` (ac.py:227-231): counts divided by the number of predictions. -/
noncomputable def ccA [DecidableEq α] (classes : List α) (preds : List α) : Fin classes.length → ℝ :=
  fun i => A.rnd ((preds.count classes[i] : ℝ) / (preds.length : ℝ))

/-- `np.mean(rows, axis=0)`: `PCC.predict` (cc.py:261), the observed prevalences of `PAC.predict` (ac.py:482). -/
noncomputable def meansA (rows : List (Fin k → ℝ)) : Fin k → ℝ := fun j => A.rnd (A.sum (rows.map fun r => r j) / (rows.length : ℝ))

/-- The rates of `AC.fit` (ac.py:162-163): counts divided by the counts of the rows. -/
noncomputable def acRatesA [DecidableEq α] (classes : List α) (y preds : List α) : Fin classes.length → Fin classes.length → ℝ :=
  fun i j => A.rnd (((y.zip preds).count (classes[i], classes[j]) : ℝ) / ((∑ l : Fin classes.length, (y.zip preds).count (classes[i], classes[l]) : ℕ) : ℝ))

/-- The mean predictions of `PAC.fit` (ac.py:416-418). -/
noncomputable def pacRatesA [DecidableEq α] (classes : List α) (y : List α) (rows : List (Fin k → ℝ)) : Fin classes.length → Fin k → ℝ :=
  fun i => meansA A (rowsOf y rows classes[i])

/-- `if np.sum(p) > 0: p = p / float(np.sum(p))` (ac.py:243-244, 495-496, debias.py:189-190, decomposition/multiclass.py:200-201). -/
noncomputable def normalizeA (v : Fin n → ℝ) : Fin n → ℝ := if 0 < A.sum (List.ofFn v) then fun i => A.rnd (v i / A.sum (List.ofFn v)) else v

/-- The two-class branch of `AC.predict` and `PAC.predict` (ac.py:233-246, 484-498). -/
noncomputable def binaryAdjustA (cm : Fin 2 → Fin 2 → ℝ) (p0 : Fin 2 → ℝ) : Fin 2 → ℝ :=
  let d := A.rnd (cm 1 1 - cm 0 1)
  let prev : Fin 2 → ℝ :=
    if A.rnd (1/1000) < |d| then
      let p := A.rnd (A.rnd (p0 1 - cm 0 1) / d)
      ![A.rnd (1 - p), p]
    else p0
  normalizeA A fun i => max 0 (min (prev i) 1)

/-- The other branch (ac.py:248-254, 500-505) for the matrix `inv` that `linalg.inv` returned. The products of the matrix product are rounded one by one. -/
noncomputable def multiAdjustA (inv : Fin n → Fin n → ℝ) (p0 : Fin n → ℝ) : Fin n → ℝ :=
  let prev : Fin n → ℝ := fun i => A.sum (List.ofFn fun j => A.rnd (inv i j * p0 j))
  let pos : Fin n → ℝ := fun i => if prev i < 0 then 0 else prev i
  fun i => A.rnd (pos i / A.sum (List.ofFn pos))

/-- The posteriors of one example in `EM.predict` (em.py:197-199). -/
noncomputable def emPosteriorA (ptr p : Fin k → ℝ) (row : Fin k → ℝ) : Fin k → ℝ :=
  let nonorm : Fin k → ℝ := fun c => A.rnd (row c * A.rnd (p c / ptr c))
  fun c => A.rnd (nonorm c / A.sum (List.ofFn nonorm))

/-- One iteration of `EM.predict` (em.py:197-202). -/
noncomputable def emStepA (ptr : Fin k → ℝ) (rows : List (Fin k → ℝ)) (p : Fin k → ℝ) : Fin k → ℝ := meansA A (rows.map (emPosteriorA A ptr p))

/-- `mean_absolute_error` (em.py:194, metrics/multiclass.py:86-107). -/
noncomputable def maeA (p q : Fin k → ℝ) : ℝ := A.rnd (A.sum (List.ofFn fun j => |A.rnd (q j - p j)|) / (k : ℝ))

open Classical in
/-- The loop of `EM.predict` (em.py:194-204) from the current and the previous prevalences, after `t` iterations and with `m` more allowed; the prevalences returned. -/
noncomputable def emLoopA (ptr : Fin k → ℝ) (rows : List (Fin k → ℝ)) (eps : ℝ) : ℕ → (Fin k → ℝ) → (Fin k → ℝ) → ℕ → Fin k → ℝ
  | 0, p, _, _ => p
  | m + 1, p, q, t => if eps < maeA A p q ∨ t < 10 then emLoopA ptr rows eps m (emStepA A ptr rows p) p (t + 1) else p

/-- `EM.fit` and `EM.predict` (em.py:110-212) for the training labels `y`. -/
noncomputable def emA [DecidableEq α] (classes : List α) (y : List α) (rows : List (Fin classes.length → ℝ)) (eps : ℝ) (maxIter : ℕ) : Fin classes.length → ℝ :=
  emLoopA A (ccA A classes y) rows eps maxIter (ccA A classes y) (fun _ => 1) 0

/-- The relative variance of `DeBias.fit` (debias.py:143-144) from the training prevalences `tp`: squares are rounded one by one. -/
noncomputable def deBiasVarA (tp : Fin 2 → ℝ) (preds : List (Fin 2 → ℝ)) : ℝ :=
  A.rnd (A.rnd (A.sum (preds.map fun row => A.rnd (A.rnd (row 1 - tp 1) ^ 2)) / (preds.length : ℝ)) / A.rnd (tp 1 * tp 0))

/-- `DeBias.predict` (debias.py:184-190). -/
noncomputable def deBiasA (tp : Fin 2 → ℝ) (vt : ℝ) (preds : List (Fin 2 → ℝ)) : Fin 2 → ℝ :=
  let m := A.rnd (A.sum (preds.map fun row => row 1) / (preds.length : ℝ))
  let p := A.rnd (tp 1 + A.rnd (A.rnd (m - tp 1) / vt))
  normalizeA A ![max 0 (min (A.rnd (1 - p)) 1), max 0 (min p 1)]

/-- The loop over the classes of `FrankAndHallQuantifier.predict` (ordinal.py:256-261). -/
noncomputable def fhqLoopA (done : List ℝ) : List ℝ → List ℝ
  | [] => done
  | pLeft :: rest => fhqLoopA (done ++ [max 0 (min (A.rnd (pLeft - A.sum done)) 1)]) rest

open Classical in
/-- `FrankAndHallQuantifier.check_and_correct_prevalences_asc` (ordinal.py:267-323). -/
noncomputable def correctAscA (l : List ℝ) : List ℝ :=
  if isAsc l then l else List.zipWith (fun a b => A.rnd (A.rnd (a + b) / 2)) (raiseAll l) (lowerAll l)

/-- From corrected left-group prevalences to class prevalences (ordinal.py:252-264). -/
noncomputable def fhqClassesA : List ℝ → List ℝ
  | [] => []
  | l0 :: rest => let p := fhqLoopA A [l0] rest; p ++ [A.rnd (1 - A.sum p)]

/-- `FrankAndHallQuantifier.predict` (ordinal.py:248-264) from the prevalences of the left groups. -/
noncomputable def fhqA (l : List ℝ) : List ℝ := fhqClassesA A (correctAscA A l)

end Verif.Model
