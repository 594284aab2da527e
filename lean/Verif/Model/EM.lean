import Verif.Model.MetricsMulti
import Verif.Model.CC

/-!
# Model of `quantificationlib/multiclass/em.py`

`EM` from the point where predictions are known (how they are obtained is `UsingClassifiers`, modelled in `Verif.Model.Base`).
-/

namespace Verif.Model

variable {α : Type*} {k : ℕ}

/-- `EM.fit` (em.py:110-143): `prevalences_train_`. -/
noncomputable def emFit [DecidableEq α] (classes : List α) (y : List α) : Fin classes.length → Fl := classFreqs classes y

/-- The posteriors of one example (em.py:197-199): the predictions times `prevalences / prevalences_train_`, normalised. -/
noncomputable def emPosterior (ptr p : Fin k → Fl) (row : Fin k → ℝ) : Fin k → Fl :=
  let nonorm : Fin k → Fl := fun c => Fl.fin (row c) * (p c / ptr c)
  fun c => nonorm c / ∑ j, nonorm j

/-- One iteration (em.py:197-202): the mean of the posteriors. -/
noncomputable def emStep (ptr : Fin k → Fl) (rows : List (Fin k → ℝ)) (p : Fin k → Fl) : Fin k → Fl :=
  fun c => (rows.map fun r => emPosterior ptr p r c).sum / Fl.fin (rows.length : ℝ)

open Classical in
/-- `mean_absolute_error(prevalences, prevalences_prev)` (em.py:194, metrics/multiclass.py:86-107) on arrays that may hold special values: `check_array` (metrics/multiclass.py:40-41)
raises a ValueError for NaN or infinities. -/
noncomputable def emChange (p q : Fin k → Fl) : Except Err Fl :=
  if (∃ p' : Fin k → ℝ, p = fun j => Fl.fin (p' j)) ∧ ∃ q' : Fin k → ℝ, q = fun j => Fl.fin (q' j) then .ok ((∑ j, (q j - p j).abs) / Fl.fin (k : ℝ))
  else .error .valueError

/-- The variables of the loop. -/
structure EMState (k : ℕ) where
  prevalences : Fin k → Fl
  previous : Fin k → Fl
  iterations : ℕ

open Classical in
/-- The loop (em.py:194-204); `n` is `max_iter_ - iterations`. The change is computed, and may raise, whenever `iterations < max_iter_`. -/
noncomputable def emLoop (ptr : Fin k → Fl) (rows : List (Fin k → ℝ)) (eps : ℝ) : ℕ → EMState k → Except Err (EMState k)
  | 0, s => .ok s
  | n + 1, s =>
    match emChange s.prevalences s.previous with
    | .error e => .error e
    | .ok change =>
      if Fl.fin eps < change ∨ s.iterations < 10 then
        emLoop ptr rows eps n ⟨emStep ptr rows s.prevalences, s.prevalences, s.iterations + 1⟩
      else .ok s

/-- `EM.predict` (em.py:145-212) after `super().predict`: the state in which the loop ends, whose `prevalences` are returned, or the exception. (A negative `max_iter`
is the same as 0.) -/
noncomputable def emPredict (ptr : Fin k → Fl) (rows : List (Fin k → ℝ)) (eps : ℝ) (maxIter : ℕ) : Except Err (EMState k) :=
  emLoop ptr rows eps maxIter ⟨ptr, fun _ => 1, 0⟩

end Verif.Model
