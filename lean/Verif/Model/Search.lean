import Verif.Model.Base
import Mathlib.Analysis.SpecialFunctions.Log.Base

/-!
# Model of `quantificationlib/search.py`

Golden section search, global search and the functions that build mixtures. `goldenSectionSearch` is
for distances that do not raise; `goldenSectionSearchX` has the bare `except` around the distance inside
the loop (lines 183-189, 197-203).
-/

namespace Verif.Model

open Classical

/-! ## Golden section search -/

/-- `invphi` (search.py:159). -/
noncomputable def invphi : ℝ := (Real.sqrt 5 - 1) / 2

/-- `invphi2` (search.py:160). -/
noncomputable def invphi2 : ℝ := (3 - Real.sqrt 5) / 2

/-- The variables of the loop (search.py:162-203); `evals` records the prevalences at which the
distance has been evaluated, in order. -/
structure Golden where
  a : ℝ
  b : ℝ
  c : ℝ
  d : ℝ
  h : ℝ
  fc : Fl
  fd : Fl
  evals : List ℝ

/-- Before the loop (search.py:162-173). `f p` is the distance between the mixture with
prevalence `p` and the test distribution. -/
noncomputable def goldenInit (f : ℝ → Fl) (a b : ℝ) : Golden :=
  let h := b - a
  let c := a + invphi2 * h
  let d := a + invphi * h
  ⟨a, b, c, d, h, f c, f d, [c, d]⟩

/-- One iteration (search.py:176-203). -/
noncomputable def goldenStep (f : ℝ → Fl) (s : Golden) : Golden :=
  if s.fc < s.fd then
    let h := invphi * s.h
    let c := s.a + invphi2 * h
    { a := s.a, b := s.d, c := c, d := s.c, h := h, fc := f c, fd := s.fc, evals := s.evals ++ [c] }
  else
    let h := invphi * s.h
    let d := s.c + invphi * h
    { a := s.c, b := s.b, c := s.d, d := d, h := h, fc := s.fd, fd := f d, evals := s.evals ++ [d] }

/-- `n` (search.py:165). -/
noncomputable def goldenSteps (tol h : ℝ) : ℤ := ⌈Real.log (tol / h) / Real.log invphi⌉

/-- The state when the loop ends (search.py:175). -/
noncomputable def goldenFinal (f : ℝ → Fl) (tol a b : ℝ) : Golden :=
  (goldenStep f)^[(goldenSteps tol (b - a) - 1).toNat] (goldenInit f a b)

/-- The result (search.py:205-208): the loss and the prevalence of the positive class (the returned
array is `[1 - p, p]`). -/
noncomputable def goldenResult (s : Golden) : Fl × ℝ :=
  if s.fc < s.fd then (s.fc, (s.a + s.d) / 2) else (s.fd, (s.c + s.b) / 2)

/-- `golden_section_search` (search.py:117-208): `tol / h` raises ZeroDivisionError when `h = 0`,
`math.log` raises ValueError when its argument is not positive. -/
noncomputable def goldenSectionSearch (f : ℝ → Fl) (tol a b : ℝ) : Except Err (Fl × ℝ) :=
  if b - a = 0 then .error .zeroDivisionError
  else if tol / (b - a) ≤ 0 then .error .valueError
  else .ok (goldenResult (goldenFinal f tol a b))

/-! ## Golden section search with a distance that can raise -/

/-- A loss computed inside `try` (search.py:183-189, 197-203): after an exception, which is only printed, the
variable keeps its value. -/
def tried (r : Except Err Fl) (old : Fl) : Fl :=
  match r with
  | .ok v => v
  | .error _ => old

/-- `goldenInit` for a distance that can raise: the first two evaluations are not inside `try` (search.py:170-173). -/
noncomputable def goldenInitX (f : ℝ → Except Err Fl) (a b : ℝ) : Except Err Golden :=
  let h := b - a
  let c := a + invphi2 * h
  let d := a + invphi * h
  match f c with
  | .error e => .error e
  | .ok fc =>
    match f d with
    | .error e => .error e
    | .ok fd => .ok ⟨a, b, c, d, h, fc, fd, [c, d]⟩

/-- `goldenStep` for a distance that can raise (search.py:176-203). -/
noncomputable def goldenStepX (f : ℝ → Except Err Fl) (s : Golden) : Golden :=
  if s.fc < s.fd then
    let h := invphi * s.h
    let c := s.a + invphi2 * h
    { a := s.a, b := s.d, c := c, d := s.c, h := h, fc := tried (f c) s.fc, fd := s.fc, evals := s.evals ++ [c] }
  else
    let h := invphi * s.h
    let d := s.c + invphi * h
    { a := s.c, b := s.b, c := s.d, d := d, h := h, fc := s.fd, fd := tried (f d) s.fd, evals := s.evals ++ [d] }

/-- The prevalences at which the distance is evaluated by a search that returns. -/
noncomputable def goldenFinalX (f : ℝ → Except Err Fl) (tol a b : ℝ) : Except Err Golden :=
  (goldenInitX f a b).map (goldenStepX f)^[(goldenSteps tol (b - a) - 1).toNat]

/-- `golden_section_search` (search.py:117-208) for a distance that can raise. -/
noncomputable def goldenSectionSearchX (f : ℝ → Except Err Fl) (tol a b : ℝ) : Except Err (Fl × ℝ) :=
  if b - a = 0 then .error .zeroDivisionError
  else if tol / (b - a) ≤ 0 then .error .valueError
  else (goldenFinalX f tol a b).map goldenResult

/-! ## Global search -/

/-- The loop over the interior grid points (search.py:88-98): keeps the number of increasing points,
the best loss and the best prevalence (`none` stands for the initial value `2`). -/
noncomputable def globalScan (losses : ℕ → Fl) (search : ℝ → ℝ → Except Err (Fl × ℝ)) :
    List ℕ → ℕ × Fl × Option ℝ → Except Err (ℕ × Fl × Option ℝ)
  | [], st => .ok st
  | i :: is, (nMins, best, p) =>
    if losses (i - 1) < losses i ∧ losses i < losses (i + 1) then
      match search ((max ((i : ℤ) - 2) 0 : ℤ) / 100) ((min (i + 2) 100 : ℕ) / 100) with
      | .error e => .error e
      | .ok (loss, q) =>
        if loss < best then globalScan losses search is (nMins + 1, loss, some q)
        else globalScan losses search is (nMins + 1, best, p)
    else globalScan losses search is (nMins, best, p)

/-- `global_search` (search.py:23-111) once the 101 losses are known: `none` is the integer `2` that
is returned when no search improved on an infinite loss. -/
noncomputable def globalCore (losses : ℕ → Fl) (search : ℝ → ℝ → Except Err (Fl × ℝ)) : Except Err (Option ℝ) :=
  match globalScan losses search ((List.range 99).map (· + 1)) (0, Fl.pinf, none) with
  | .error e => .error e
  | .ok (nMins, _, p) =>
    if nMins = 0 then
      if Fl.eq (losses 0) (losses 100) then .error .valueError
      else if losses 0 < losses 100 then (search 0 (2/100)).map fun r => some r.2
      else (search (98/100) 1).map fun r => some r.2
    else .ok p

/-- `global_search` (search.py:23-111). `mix` is the mixture function with its keyword arguments,
`cache` the argument `mixtures`; the first component of the result is the returned cache. -/
noncomputable def globalSearch {M T : Type*} (dist : M → T → Fl) (mix : ℝ → M) (test : T) (tol : ℝ)
    (cache : Option (ℕ → M)) (returnMixtures : Bool) : Except Err (Option (ℕ → M) × Option ℝ) :=
  let search := goldenSectionSearch (fun p => dist (mix p) test) tol
  let grid : ℕ → M := fun i => mix ((i : ℝ) / 100)
  match cache, returnMixtures with
  | none, true => (globalCore (fun i => dist (grid i) test) search).map fun p => (some grid, p)
  | some m, r => (globalCore (fun i => dist (m i) test) search).map fun p => (if r then some m else none, p)
  | none, false => (globalCore (fun i => dist (grid i) test) search).map fun p => (none, p)

/-! ## Mixtures -/

/-- `mixture_of_pdfs` (search.py:214-234). -/
def mixtureOfPdfs {m : ℕ} (prevalence : ℝ) (pos neg : Fin m → ℝ) : Fin m → ℝ :=
  fun i => pos i * prevalence + neg i * (1 - prevalence)

/-! ## Quantiles -/

/-- `p_weight` (search.py:271-278) for the example `i`; `N` examples with labels `y`. `none` is the
testing set. An absent class makes NumPy divide by zero, but the quotient is then stored nowhere. -/
noncomputable def quantileWeight {L : Type*} [DecidableEq L] (prevalence : Option ℝ) (N : ℕ) (y : ℕ → L) (c0 c1 : L)
    (i : ℕ) : ℝ :=
  match prevalence with
  | none => 1
  | some p =>
    if y i = c1 then p * N / ((Finset.range N).filter fun k => y k = c1).card
    else if y i = c0 then (1 - p) * N / ((Finset.range N).filter fun k => y k = c0).card
    else 1

/-- `cutpoints[j]` (search.py:280). -/
noncomputable def cutpoint (n N j : ℕ) : ℝ := ((j + 1 : ℕ) : ℝ) / n * N

/-- The while loop (search.py:295-299): the index and the array after it. `cut` are the cut points, `n`
the number of quantiles, `x` the probability of the example whose weight is being distributed. -/
noncomputable def spill (cut : ℕ → ℝ) (n : ℕ) (x : ℝ) (j : ℕ) (rest : ℝ) (q : ℕ → ℝ) : ℕ × (ℕ → ℝ) :=
  if rest > 1 / 10000 ∧ j < n - 1 then
    let assign := min rest (cut (j + 1) - cut j)
    spill cut n x (j + 1) (rest - assign) (Function.update q (j + 1) (q (j + 1) + x * assign))
  else (j, q)
termination_by n - 1 - j
decreasing_by rename_i h; omega

/-- The variables of the main loop (search.py:282-284). -/
structure QuantLoop where
  q : ℕ → ℝ
  cum : ℝ
  j : ℕ

/-- One iteration (search.py:286-299) for an example with probability `x` and weight `w`. -/
noncomputable def quantStep (cut : ℕ → ℝ) (n : ℕ) (s : QuantLoop) (x w : ℝ) : QuantLoop :=
  let cum := s.cum + w
  if cum ≤ cut s.j then ⟨Function.update s.q s.j (s.q s.j + x * w), cum, s.j⟩
  else
    let q := Function.update s.q s.j (s.q s.j + x * (w - (cum - cut s.j)))
    let r := spill cut n x s.j (cum - cut s.j) q
    ⟨r.2, cum, r.1⟩

/-- The main loop (search.py:282-299) after the first `k` examples. -/
noncomputable def quantLoop (cut : ℕ → ℝ) (n : ℕ) (x w : ℕ → ℝ) : ℕ → QuantLoop
  | 0 => ⟨fun _ => 0, 0, 0⟩
  | k + 1 => quantStep cut n (quantLoop cut n x w k) (x k) (w k)

/-- `compute_quantiles` (search.py:237-302): `N` examples with probabilities `x`, `n` quantiles. Without
quantiles `cutpoints[0]` is an IndexError. -/
noncomputable def computeQuantiles {L : Type*} [DecidableEq L] (prevalence : Option ℝ) (N : ℕ) (x : ℕ → ℝ) (n : ℕ)
    (y : ℕ → L) (c0 c1 : L) : Except Err (Fin n → Fl) :=
  if n = 0 then .error .indexError
  else .ok fun j => Fl.fin ((quantLoop (cutpoint n N) n x (quantileWeight prevalence N y c0 c1) N).q j) / Fl.fin (cutpoint n N 0)

/-! ## SORD -/

/-- The weight `compute_sord_weights` (search.py:338-344) gives to the examples with label `l`; `labels`
are the labels of the union. The assignments for the classes are made in order, the one for the largest
label last. -/
noncomputable def sordWeight (prevalence : ℝ) (classes labels : List ℤ) (l : ℤ) : ℝ :=
  let w := classes.zipIdx.foldl (fun acc ci =>
    if l = ci.1 then (if ci.2 = 0 then (1 - prevalence) / labels.count ci.1 else prevalence / labels.count ci.1) else acc) 0
  if labels.max? = some l then -1 / labels.count l else w

/-- The loop of `sord` (search.py:379-382). `prev` is the previous score, the list holds the remaining
scores and weights. -/
def sordLoop (cost cum prev : ℝ) : List (ℝ × ℝ) → ℝ
  | [] => cost
  | (u, w) :: r => sordLoop (cost + |(u - prev) * cum|) (cum + w) u r

/-- `sord` (search.py:348-383) on the list of scores and weights: IndexError when it is empty. -/
def sord : List (ℝ × ℝ) → Except Err ℝ
  | [] => .error .indexError
  | (u, w) :: r => .ok (sordLoop 0 w u r)

end Verif.Model
