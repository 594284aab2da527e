import Verif.Model.Pipeline

/-!
# `DFX` from `fit` to the answers

Composition of the functions of `Verif.Model.Df`: `DFX.fit` and then `DFX.predict` for several bags, with what the object keeps between
calls. Not modelled: verbose printing and `check_array`. An empty bag gives NaN in NumPy and zeros here.
-/

namespace Verif.Model

variable {α : Type}

/-- The answers of `DFX.predict` (df.py:568-623) for bags given one after the other. A call that fails leaves the object as it was. -/
noncomputable def dfxAnswers (sv : CvxSolver) (qp : QPSolver) (tol : ℝ) {nf nc : ℕ} (cfg : DfCfg) (distance : DfDistance (nf * cfg.nBins)) (fit : DfFit nf cfg.nBins nc) :
    MatchState Unit (nf * cfg.nBins) nc → List (List (Fin nf → ℝ)) → List (Except Err (Option (List Fl)))
  | _, [] => []
  | s, bag :: bags =>
    match dfxTest cfg fit bag with
    | .error e => .error e :: dfxAnswers sv qp tol cfg distance fit s bags
    | .ok q =>
      let r := matchAnswer sv qp tol distance s q
      r.2 :: dfxAnswers sv qp tol cfg distance fit r.1 bags

/-- `DFX(...).fit(X, y)` (df.py:518-566) and then `predict` for every bag. `classes` are the classes found by `super().fit`. -/
noncomputable def dfxRun [DecidableEq α] (ppf : ℝ → EReal) (sv : CvxSolver) (qp : QPSolver) (tol : ℝ) {nf : ℕ} (cfg : DfCfg) (distance : DfDistance (nf * cfg.nBins)) (classes : List α) (la : LinAlg classes.length)
    (fuel : ℕ) (y : List α) (X : List (Fin nf → ℝ)) (bags : List (List (Fin nf → ℝ))) : Except Err (List (Except Err (Option (List Fl)))) :=
  match dfxFit ppf cfg classes y X with
  | .error e => .error e
  | .ok fit =>
    match matchParams la fuel distance fit.train with
    | .error e => .error e
    | .ok par => .ok (dfxAnswers sv qp tol cfg distance fit ⟨(), fit.train, par, none, none⟩ bags)

end Verif.Model
