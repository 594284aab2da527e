import Verif.Model.AC
import Verif.Model.Df

/-!
# Model of `quantificationlib/ordinal/ac_ordinal.py` and `quantificationlib/ordinal/pdf.py`

`ACOrdinal` from the constructor arguments on; `PDFOrdinaly` from the point where predictions are known (how they are
obtained is `UsingClassifiers`, modelled in `Verif.Model.Base`). Both keep the problem of the solver between calls, so their `predict`
is an instance of `warmPredict` (`Verif.Model.Solve`). Not modelled: verbose printing, a single class (`np.squeeze` then
drops the only dimension), predictions with a number of columns other than the number of classes. Dividing by the size of an empty
sample gives NaN in NumPy and 0 here for `PDFOrdinaly`: the theorems assume nonempty bags.
-/

namespace Verif.Model

open Matrix

/-! ## Accumulation in place -/

/-- `for i in range(1, n): v[i] = v[i - 1] + v[i]` (ac_ordinal.py:158-159, 216-217, pdf.py:203-204, 271-272). -/
def accumLoop {β : Type*} [Add β] (n : ℕ) (v : ℕ → β) : ℕ → β :=
  (List.range' 1 (n - 1)).foldl (fun v i => Function.update v i (v (i - 1) + v i)) v

/-- The same loop on an array of length `m`. -/
def accumArr {β : Type*} [Add β] [Inhabited β] {m : ℕ} (v : Fin m → β) : Fin m → β :=
  fun i => accumLoop m (fun j => if h : j < m then v ⟨j, h⟩ else default) i

/-! ## ACOrdinal -/

section
variable {σ D α : Type*} {k : ℕ}

/-- What `ACOrdinal.fit` leaves in `classes_`, `cm_` and `train_distrib_`. -/
structure AcoFit (α : Type*) where
  classes : List α
  cm : Fin classes.length → Fin classes.length → Fl
  train : Fin classes.length → Fin classes.length → Fl

/-- `ACOrdinal.fit` (ac_ordinal.py:121-166): the confusion matrix is computed as in `AC.fit`; `train_distrib_` starts as its
transpose. -/
noncomputable def acoFit [LinearOrder α] (ops : EstOps σ D α k) (enc : Bool → α) (w : World σ D α) (etrain etest : Option ℕ) (s : QState α k)
    (X : List D) (y : List α) (pt : Option (Preds α k)) : Except Err (AcoFit α) :=
  (acFit ops enc w etrain etest s X y pt).map fun f => ⟨f.classes, f.cm, fun i j => accumArr (fun l => f.cm j l) i⟩

/-- The value of a finite number. -/
noncomputable def flReal : Fl → ℝ
  | .fin x => x
  | _ => 0

/-- The number is finite. -/
def flFinite : Fl → Prop
  | .fin _ => True
  | _ => False

open Classical in
/-- `ACOrdinal.predict` (ac_ordinal.py:168-225) as an object that keeps the problem of `solve_l1`. A bag is given by its
examples and the optional predictions. Data with NaN or infinity is rejected by cvxpy (ValueError). -/
noncomputable def acoQ [DecidableEq α] (ops : EstOps σ D α k) (enc : Bool → α) (w : World σ D α) (etrain etest : Option ℕ) :
    WarmQuantifier (AcoFit α) (List D × Option (Preds α k)) where
  train f := ⟨f.classes.length, f.classes.length, fun i j => flReal (f.train i j)⟩
  prep f b :=
    match usingPredict ops enc w ⟨etrain, etest, true, false⟩ f.classes b.1 b.2 with
    | .error e => .error e
    | .ok (.crisp l) =>
      let test := accumArr (classFreqs f.classes l)
      if (∀ i j, flFinite (f.train i j)) ∧ ∀ i, flFinite (test i) then .ok (.inl ⟨f.classes.length, fun i => flReal (test i)⟩)
      else .error .valueError
    | .ok _ => .error .typeError  -- unreachable: the predictions are crisp
  post _ x := x

/-- `ACOrdinal.predict`. -/
noncomputable def acoPredict [DecidableEq α] (ops : EstOps σ D α k) (enc : Bool → α) (w : World σ D α) (etrain etest : Option ℕ) (sv : CvxSolver)
    (s : WarmState (AcoFit α)) (b : List D × Option (Preds α k)) : WarmState (AcoFit α) × Except Err Vec :=
  warmPredict (acoQ ops enc w etrain etest) sv .l1 s b

end

/-! ## PDFOrdinaly -/

/-- The values of `method`. -/
inductive OrdMethod where
  | fullProbabilistic | winnerNode | other
  deriving DecidableEq

/-- The values of `distance` that `PDFOrdinaly` tells apart. -/
inductive OrdDist where
  | hd | l2 | emd | other
  deriving DecidableEq

/-- `predictions.dot(np.array(range(1, n_classes + 1)))` for a row (pdf.py:186, 254). -/
def fullScore {nc : ℕ} (row : Fin nc → ℝ) : ℝ := ∑ c : Fin nc, row c * ((c : ℕ) + 1 : ℕ)

open Classical in
/-- `__leafprobs2scores` for a row (pdf.py:289-297): `np.argmax` of booleans is the position of the first True, 0 if there is
none. -/
noncomputable def winnerScore {nc : ℕ} (row : Fin nc → ℝ) : Except Err ℝ :=
  let first := (((List.finRange nc).find? fun c => decide (0 < row c)).map Fin.val).getD 0
  let col := (if first = nc - 1 then nc - 2 else first) + 1
  if h : col < nc then .ok ((col : ℝ) + row ⟨col, h⟩) else .error .indexError

/-- The scores of the examples (pdf.py:185-190, 253-258). -/
noncomputable def ordScores (method : OrdMethod) {nc : ℕ} (rows : List (Fin nc → ℝ)) : Except Err (List ℝ) :=
  match method with
  | .fullProbabilistic => .ok (rows.map fullScore)
  | .winnerNode => rows.mapM winnerScore
  | .other => .error .valueError

/-- `effective_n_bins` (pdf.py:192, 260). -/
def effBins (nBins nc : ℕ) : ℕ := nBins * (nc - 1)

/-- `np.histogram(scores, bins=effective_n_bins, range=(1., float(n_classes)))[0]` (pdf.py:196, 261). -/
noncomputable def ordHistogram (nBins nc : ℕ) (scores : List ℝ) : Except Err (Fin (effBins nBins nc) → ℝ) :=
  match binEdges (effBins nBins nc) 1 nc with
  | .error e => .error e
  | .ok edge => npHistogram scores fun i => (edge i : EReal)

/-- What `PDFOrdinaly.fit` leaves in `train_distrib_` and `G_, C_, b_`. -/
structure PdfoFit (nBins nc : ℕ) where
  train : Matrix (Fin (effBins nBins nc)) (Fin nc) ℝ
  par : Option (QPParams nc (nc + 1))

/-- `PDFOrdinaly.fit` (pdf.py:153-211) after `super().fit`; `yExt` are the labels of the rows. -/
noncomputable def pdfoFit {α : Type*} [DecidableEq α] {nc : ℕ} (la : LinAlg nc) (fuel : ℕ) (nBins : ℕ) (method : OrdMethod) (dist : OrdDist)
    (classes : Fin nc → α) (yExt : List α) (preds : List (Fin nc → ℝ)) : Except Err (PdfoFit nBins nc) :=
  if nc ≤ 2 then .error .typeError
  else
    match ordScores method preds with
    | .error e => .error e
    | .ok scores =>
      if yExt.length ≠ scores.length then .error .indexError
      else
        match seqFin fun c : Fin nc => ordHistogram nBins nc (selectRows yExt scores (classes c)) with
        | .error e => .error e
        | .ok h =>
          let pdf : Matrix (Fin (effBins nBins nc)) (Fin nc) ℝ := fun b c => h c b / (yExt.count (classes c) : ℝ)
          match dist with
          | .l2 => .ok ⟨pdf, computeL2ParamTrain la fuel pdf⟩
          | .emd => .ok ⟨fun b c => accumArr (fun b => pdf b c) b, none⟩
          | _ => .ok ⟨pdf, none⟩

/-- `v[0:n - 1]` of an array of length `n`. -/
def dropLastRow {β : Type*} {n : ℕ} (v : Fin n → β) : Fin (n - 1) → β := fun i => v (Fin.castLE (by omega) i)

/-- Clipping to [0, 1] and division by the sum when it is positive (pdf.py:276-280). -/
noncomputable def clipNormalise (x : Vec) : Vec :=
  let c : Fin x.1 → ℝ := fun i => min (max (x.2 i) 0) 1
  ⟨x.1, if 0 < ∑ i, c i then fun i => c i / ∑ i, c i else c⟩

/-- `PDFOrdinaly.predict` (pdf.py:213-287) after `super().predict`, for the distances other than unknown names: 'HD' and 'EMD' keep the
problem of the solver, 'L2' does not use it. -/
noncomputable def pdfoQ (qp : QPSolver) {nBins nc : ℕ} (method : OrdMethod) (dist : OrdDist) : WarmQuantifier (PdfoFit nBins nc) (List (Fin nc → ℝ)) where
  train f :=
    match dist with
    | .emd => ⟨effBins nBins nc - 1, nc, dropLastRow f.train⟩
    | _ => ⟨effBins nBins nc, nc, f.train⟩
  prep f rows :=
    match ordScores method rows with
    | .error e => .error e
    | .ok scores =>
      match ordHistogram nBins nc scores with
      | .error e => .error e
      | .ok h =>
        let test : Fin (effBins nBins nc) → ℝ := fun b => h b / (rows.length : ℝ)
        match dist, f.par with
        | .l2, some par =>
          match solveL2 qp f.train test par with
          | .error e => .error e
          | .ok x => .ok (.inr ⟨nc, x⟩)
        | .l2, none => .error .typeError
        | .emd, _ => .ok (.inl ⟨effBins nBins nc - 1, dropLastRow (accumArr test)⟩)
        | _, _ => .ok (.inl ⟨effBins nBins nc, test⟩)
  post _ x := match dist with
    | .emd => clipNormalise x
    | _ => x

/-- The solver used for a distance. -/
def ordLoss : OrdDist → CvxLoss
  | .emd => .l1
  | _ => .hd

/-- `PDFOrdinaly.predict` (pdf.py:213-287); `none` is `None`, the answer for an unknown distance. -/
noncomputable def pdfoPredict (sv : CvxSolver) (qp : QPSolver) {nBins nc : ℕ} (method : OrdMethod) (dist : OrdDist) (s : WarmState (PdfoFit nBins nc))
    (rows : List (Fin nc → ℝ)) : WarmState (PdfoFit nBins nc) × Except Err (Option Vec) :=
  match dist with
  | .other =>
    (s, match ordScores method rows with
      | .error e => .error e
      | .ok scores => (ordHistogram nBins nc scores).map fun _ => none)
  | _ =>
    let r := warmPredict (pdfoQ qp method dist) sv (ordLoss dist) s rows
    (r.1, r.2.map some)

end Verif.Model
