import Verif.Model.Quanty

/-!
# QUANTy on predictions that may not be numbers

As in `Verif.Model.NanPreds`, the lines modelled in `Verif.Model.Search` and `Verif.Model.Quanty` on NumPy floats. The weights of the examples are numbers; the distance may raise an exception.
-/

namespace Verif.Model

variable {L : Type*}

open Classical in
/-- The while loop of `compute_quantiles` (search.py:295-299). -/
noncomputable def spillF (cut : ℕ → ℝ) (n : ℕ) (x : Fl) (j : ℕ) (rest : ℝ) (q : ℕ → Fl) : ℕ × (ℕ → Fl) :=
  if rest > 1 / 10000 ∧ j < n - 1 then
    let assign := min rest (cut (j + 1) - cut j)
    spillF cut n x (j + 1) (rest - assign) (Function.update q (j + 1) (q (j + 1) + x * Fl.fin assign))
  else (j, q)
termination_by n - 1 - j
decreasing_by rename_i h; omega

/-- The variables of the main loop (search.py:282-284). -/
structure QuantLoopF where
  q : ℕ → Fl
  cum : ℝ
  j : ℕ

open Classical in
/-- One iteration (search.py:286-299). -/
noncomputable def quantStepF (cut : ℕ → ℝ) (n : ℕ) (s : QuantLoopF) (x : Fl) (w : ℝ) : QuantLoopF :=
  let cum := s.cum + w
  if cum ≤ cut s.j then ⟨Function.update s.q s.j (s.q s.j + x * Fl.fin w), cum, s.j⟩
  else
    let q := Function.update s.q s.j (s.q s.j + x * Fl.fin (w - (cum - cut s.j)))
    let r := spillF cut n x s.j (cum - cut s.j) q
    ⟨r.2, cum, r.1⟩

/-- The main loop (search.py:282-299) after the first `k` examples. -/
noncomputable def quantLoopF (cut : ℕ → ℝ) (n : ℕ) (x : ℕ → Fl) (w : ℕ → ℝ) : ℕ → QuantLoopF
  | 0 => ⟨fun _ => Fl.fin 0, 0, 0⟩
  | k + 1 => quantStepF cut n (quantLoopF cut n x w k) (x k) (w k)

/-- `compute_quantiles` (search.py:237-302). -/
noncomputable def computeQuantilesF [DecidableEq L] (prevalence : Option ℝ) (N : ℕ) (x : ℕ → Fl) (n : ℕ) (y : ℕ → L) (c0 c1 : L) : Except Err (Fin n → Fl) :=
  if n = 0 then .error .indexError
  else .ok fun j => (quantLoopF (cutpoint n N) n x (quantileWeight prevalence N y c0 c1) N).q j / Fl.fin (cutpoint n N 0)

/-- `global_search(..., mixtures=None, return_mixtures=True, ...)` (search.py:71-111) for a loss that may raise: the prevalence (`none` is the number 2). -/
noncomputable def globalSearchE (loss : ℝ → Except Err Fl) (tol : ℝ) : Except Err (Option ℝ) := do
  let losses ← (List.range 101).mapM fun i : ℕ => loss ((i : ℝ) / 100)
  globalCore (fun i => losses.getD i 0) (goldenSectionSearchX loss tol)

/-- `QUANTy.predict` (quantiles.py:185-240) after `super().predict`, for an object that has not been asked since `fit`. `classes`, `train` are what `fit` stored (quantiles.py:142-183), `sort` is
`np.sort` of the bag; `none` is the number 2. -/
noncomputable def quantyPredictF [DecidableEq L] (n : ℕ) (dist : (Fin n → Fl) → (Fin n → Fl) → Except Err Fl) (tol : ℝ) (d : L) (sort : List Fl → List Fl) (classes : List L) (train : List (Fl × L)) (bag : List Fl) : Except Err (Option (Fin 2 → ℝ)) := do
  let test ← computeQuantilesF none (sort bag).length (fun i => (sort bag).getD i 0) n (fun _ => d) d d
  if classes.length < 2 then .error .indexError
  else do
    let p ← globalSearchE (fun p => do
      let mix ← computeQuantilesF (some p) train.length (fun i => (train.map Prod.fst).getD i 0) n (fun i => (train.map Prod.snd).getD i (classes.getD 0 d)) (classes.getD 0 d) (classes.getD 1 d)
      dist mix test) tol
    pure (p.map fun p => ![1 - p, p])

open Classical in
/-- The metric `l2` (multiclass.py:158-179) on vectors of quantiles: `check_array` raises ValueError unless all the entries are finite (multiclass.py:39-40). -/
noncomputable def l2Checked {n : ℕ} (a b : Fin n → Fl) : Except Err Fl :=
  if ∀ j, (∃ x, a j = Fl.fin x) ∧ ∃ x, b j = Fl.fin x then .ok (l2Quantiles a b) else .error .valueError

end Verif.Model
