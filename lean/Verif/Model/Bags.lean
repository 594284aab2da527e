import Verif.Model.Base
import Mathlib.Algebra.Order.Floor.Ring
import Mathlib.Data.List.Sort

/-!
# Model of `quantificationlib/bag_generator.py`

Random numbers come from a parameter, so that theorems hold for every stream. The arrays `prevalences_` and
`indexes_` are lists of columns, one per bag. Not modelled: the width of `np.uint32` (data sets have fewer than
2^32 examples), verbose printing, the content checks of `check_X_y`.
-/

namespace Verif.Model

open Classical

/-- Rounding to the nearest integer, ties to even: Python's `round` and `np.round`
(bag_generator.py:216, 221, 225, 230, 301). -/
noncomputable def roundHalfEven (x : ℝ) : ℤ :=
  if x - ⌊x⌋ < 1/2 then ⌊x⌋ else if 1/2 < x - ⌊x⌋ then ⌊x⌋ + 1 else if Even ⌊x⌋ then ⌊x⌋ else ⌊x⌋ + 1

/-- `np.random.RandomState` with hidden state `G`; every method may raise (an invalid argument, or an
interruption of the program). -/
structure Rng (G : Type*) where
  /-- `RandomState(seed)`. -/
  ofSeed : ℤ → G
  /-- `randint(low, high, size)`. -/
  randint : G → ℤ → ℤ → ℕ → Except Err (List ℤ × G)
  /-- `choice(pool, size, replace=True)`. -/
  choice : G → List ℕ → ℤ → Except Err (List ℕ × G)
  /-- `choice(range(len(p)), size, p=p)`. -/
  choiceP : G → List ℝ → ℕ → Except Err (List ℕ × G)
  /-- `dirichlet(alphas, size)`, one list per bag. -/
  dirichlet : G → List ℝ → ℕ → Except Err (List (List ℝ) × G)

/-- The values accepted by `random_state` (bag_generator.py:140-143). -/
inductive RandState (G : Type*) where
  | seed (n : ℤ)
  | obj (g : G)
  | invalid

/-- The values accepted by `min_prevalence`. -/
inductive MinPrev where
  | none
  | scalar (x : ℝ)
  | vec (l : List ℝ)

/-- The values accepted by `alphas`. -/
inductive Alphas where
  | none
  | scalar (x : ℝ)
  | vec (l : List ℝ)

/-- The values accepted by `method`. -/
inductive BagMethod where
  | uniform
  | dirichlet
  | other
  deriving DecidableEq

/-- The arrays `prevalences_` and `indexes_`, by columns. -/
structure Bags where
  prevs : List (List Fl)
  idx : List (List ℕ)

/-- The attributes of a `PriorShift_BagGenerator` (bag_generator.py:94-105). -/
structure PriorGen (G : Type*) where
  nBags : ℕ
  bagSize : Option ℕ
  method : BagMethod
  alphas : Alphas
  minPrev : MinPrev
  rs : RandState G
  bags : Option Bags

/-- The data handed to `generate_bags`: the labels, and the number of rows of `X` unless `X` is `None`. -/
structure BagData (α : Type*) where
  y : List α
  lenX : Option ℕ

/-- `check_X_y(X, y)` (bag_generator.py:196-197, 276-277, 405): equal, nonzero lengths. -/
def checkXy {α : Type*} (d : BagData α) : Option Err :=
  match d.lenX with
  | none => none
  | some n => if n = d.y.length ∧ n ≠ 0 then none else some .valueError

/-- `np.where(y == cls)[0]` (bag_generator.py:250, 308). -/
def whereEq {α : Type*} [DecidableEq α] (y : List α) (c : α) : List ℕ :=
  (List.range y.length).filter fun i => y[i]? = some c

/-- `col[position:position+len(xs)] = xs` (bag_generator.py:251, 309) when the slice fits. -/
def fillSlice (col : List ℕ) (position : ℕ) (xs : List ℕ) : List ℕ :=
  col.take position ++ xs ++ col.drop (position + xs.length)

section
variable {G α : Type*} [LinearOrder α]

/-- The checks of `min_prevalence` (bag_generator.py:184-194). -/
noncomputable def checkMinPrev : MinPrev → Option Err
  | .none => none
  | .scalar x => if 1 < x ∨ x < 0 then some .valueError else none
  | .vec l => if 1 < l.sum then some .valueError else if ∃ x ∈ l, x < 0 then some .valueError else none

/-- `min_nexamples`, `low` and `high` (bag_generator.py:207-232). `int(...)` truncates a nonnegative number. -/
noncomputable def uniformBounds (mp : MinPrev) (nClasses bs : ℕ) : Except Err (Option (List ℤ) × ℤ × ℤ) :=
  match mp with
  | .none => .ok (none, 0, bs)
  | .scalar x =>
    if nClasses = 2 then .ok (none, roundHalfEven (bs * x), ⌊(bs : ℝ) * (1 - x)⌋)
    else
      let m := roundHalfEven (x * bs)
      .ok (some (List.replicate nClasses m), m, bs - m)
  | .vec l =>
    if nClasses = 2 then
      match l[0]?, l[1]? with
      | some x0, some x1 => .ok (none, roundHalfEven (bs * x0), ⌊(bs : ℝ) * (1 - x1)⌋)
      | _, _ => .error .indexError
    else
      let ms := l.map fun x => roundHalfEven (x * bs)
      match ms.head?, ms.getLast? with
      | some a, some b => .ok (some ms, a, bs - b)
      | _, _ => .error .indexError

/-- `np.diff(np.sort(np.append(ps, [0, bag_size])))` (bag_generator.py:240-241). -/
def kraemer (draws : List ℤ) (bs : ℕ) : List ℤ :=
  let s := (draws ++ [0, (bs : ℤ)]).mergeSort (· ≤ ·)
  List.zipWith (fun a b => b - a) s s.tail

/-- The test of the classes in the middle (bag_generator.py:245). An array of the wrong length is compared as far
as it goes (NumPy would fail). -/
def middleOk (ps : List ℤ) : Option (List ℤ) → Bool
  | none => true
  | some ms => ((ps.drop 1).dropLast.zip (ms.drop 1).dropLast).all fun t => decide (t.2 ≤ t.1)

/-- The loop over the classes of a bag (bag_generator.py:247-252, 307-310): the column, and the generator when it
ends or fails. -/
def fillClasses (rng : Rng G) (y : List α) : List (α × ℤ) → G → List ℕ → ℕ → List ℕ × G × Option Err
  | [], g, col, _ => (col, g, none)
  | (c, n) :: cs, g, col, pos =>
    if n ≠ 0 then
      match rng.choice g (whereEq y c) n with
      | .error e => (col, g, some e)
      | .ok (xs, g) => fillClasses rng y cs g (fillSlice col pos xs) (pos + xs.length)
    else fillClasses rng y cs g col pos

/-- The while loop of `_generate_uniform` (bag_generator.py:236-254) with at most `fuel` iterations: the arrays, the
generator and the exception, if any, when it ends; `none` when it has not ended by then. -/
noncomputable def uniformLoop (rng : Rng G) (y : List α) (classes : List α) (bs nBags : ℕ) (mins : Option (List ℤ)) (low high : ℤ) :
    ℕ → ℕ → G → Bags → Option (Bags × G × Option Err)
  | fuel, nBag, g, b =>
    if nBag < nBags then
      match fuel with
      | 0 => none
      | fuel + 1 =>
        match rng.randint g low high (classes.length - 1) with
        | .error e => some (b, g, some e)
        | .ok (draws, g) =>
          let ps := kraemer draws bs
          if middleOk ps mins then
            let prevs := b.prevs.set nBag (ps.map fun n : ℤ => Fl.fin (n : ℝ) / Fl.fin (bs : ℝ))
            match fillClasses rng y (classes.zip ps) g (b.idx.getD nBag []) 0 with
            | (col, g, some e) => some (⟨prevs, b.idx.set nBag col⟩, g, some e)
            | (col, g, none) => uniformLoop rng y classes bs nBags mins low high fuel (nBag + 1) g ⟨prevs, b.idx.set nBag col⟩
          else uniformLoop rng y classes bs nBags mins low high fuel nBag g b
    else some (b, g, none)

/-- The arrays of zeros (bag_generator.py:234-235, 293, 411-412). -/
def zeroBags (nClasses bs nBags : ℕ) : Bags :=
  ⟨List.replicate nBags (List.replicate nClasses (Fl.fin 0)), List.replicate nBags (List.replicate bs 0)⟩

/-- `_generate_uniform` (bag_generator.py:155-255) of an object whose `random_state` is the generator `g`. The
object after the call and the exception; `none` when the loop has not ended. -/
noncomputable def generateUniform (rng : Rng G) (fuel : ℕ) (s : PriorGen G) (bs : ℕ) (g : G) (d : BagData α) :
    Option (PriorGen G × Option Err) :=
  match checkMinPrev s.minPrev with
  | some e => some (s, some e)
  | none =>
    match checkXy d with
    | some e => some (s, some e)
    | none =>
      let classes := npUnique d.y
      match uniformBounds s.minPrev classes.length bs with
      | .error e => some (s, some e)
      | .ok (mins, low, high) =>
        (uniformLoop rng d.y classes bs s.nBags mins low high fuel 0 g (zeroBags classes.length bs s.nBags)).map fun r =>
          ({ s with bags := some r.1, rs := .obj r.2.1 }, r.2.2)

/-- The numbers of examples of a Dirichlet bag (bag_generator.py:299-303): rounded, but never more than what is
left, and all that is left for the last class. -/
noncomputable def dirichletCounts (bs : ℕ) : List ℝ → ℕ → List ℤ
  | [], _ => []
  | [_], pos => [(bs : ℤ) - pos]
  | p :: ps, pos =>
    let n := min ((bs : ℤ) - pos) (roundHalfEven (p * bs))
    n :: dirichletCounts bs ps (pos + n.toNat)

/-- The loop of `_generate_dirichlet` (bag_generator.py:295-310). The prevalences of a bag are overwritten class by
class; after a failure the columns not yet visited still hold the draws (the model keeps the draws of the
whole column, a simplification for the crash point only). -/
noncomputable def dirichletLoop (rng : Rng G) (y : List α) (classes : List α) (bs : ℕ) :
    List (List ℝ) → ℕ → G → Bags → Bags × G × Option Err
  | [], _, g, b => (b, g, none)
  | draw :: draws, nBag, g, b =>
    let ns := dirichletCounts bs draw 0
    match fillClasses rng y (classes.zip ns) g (b.idx.getD nBag []) 0 with
    | (col, g, some e) => (⟨b.prevs, b.idx.set nBag col⟩, g, some e)
    | (col, g, none) =>
      dirichletLoop rng y classes bs draws (nBag + 1) g
        ⟨b.prevs.set nBag (ns.map fun n : ℤ => Fl.fin (n : ℝ) / Fl.fin (bs : ℝ)), b.idx.set nBag col⟩

/-- `_generate_dirichlet` (bag_generator.py:257-312). The prevalences come from the *global* generator, whose state
is `glob`; the examples from the object's own. The object and the global state after the call, and the exception.
`alphas = None` makes `np.random.dirichlet` raise a TypeError. -/
noncomputable def generateDirichlet (rng : Rng G) (s : PriorGen G) (bs : ℕ) (g glob : G) (d : BagData α) :
    PriorGen G × G × Option Err :=
  match checkXy d with
  | some e => (s, glob, some e)
  | none =>
    let classes := npUnique d.y
    let alphas : Except Err (List ℝ) :=
      match s.alphas with
      | .none => .error .typeError
      | .scalar x => .ok (List.replicate classes.length x)
      | .vec l => if l.length = classes.length then .ok l else .error .valueError
    match alphas with
    | .error e => (s, glob, some e)
    | .ok al =>
      let s := { s with alphas := .vec al }
      match rng.dirichlet glob al s.nBags with
      | .error e => (s, glob, some e)
      | .ok (draws, glob) =>
        let b : Bags := ⟨draws.map fun r => r.map Fl.fin, List.replicate s.nBags (List.replicate bs 0)⟩
        let r := dirichletLoop rng d.y classes bs draws 0 g b
        ({ s with bags := some r.1, rs := .obj r.2.1 }, glob, r.2.2)

/-- `PriorShift_BagGenerator.generate_bags` (bag_generator.py:107-153): the object and the global generator after
the call, and the arrays returned or the exception. `none` when the loop has not ended within `fuel` iterations. -/
noncomputable def priorGenerate (rng : Rng G) (fuel : ℕ) (s : PriorGen G) (glob : G) (d : BagData α) :
    Option (PriorGen G × G × Except Err Bags) :=
  match s.bags with
  | some b => some (s, glob, .ok b)
  | none =>
    let g? : Option G := match s.rs with
      | .seed n => some (rng.ofSeed n)
      | .obj g => some g
      | .invalid => none
    match g? with
    | none => some (s, glob, .error .valueError)
    | some g =>
      let bs := s.bagSize.getD d.y.length
      let s := { s with rs := .obj g, bagSize := some bs }
      match s.method with
      | .uniform =>
        (generateUniform rng fuel s bs g d).map fun r =>
          (r.1, glob, match r.2, r.1.bags with
            | some e, _ => .error e
            | none, some b => .ok b
            | none, none => .error .typeError)  -- unreachable
      | .dirichlet =>
        let r := generateDirichlet rng s bs g glob d
        some (r.1, r.2.1, match r.2.2, r.1.bags with
            | some e, _ => .error e
            | none, some b => .ok b
            | none, none => .error .typeError)  -- unreachable
      | .other => some (s, glob, .error .valueError)

/-! ## Covariate shift -/

/-- The attributes of a `CovariateShift_BagGenerator` (bag_generator.py:361-367). -/
structure CovGen (G : Type*) where
  nBags : ℕ
  bagSize : Option ℕ
  rs : RandState G
  bags : Option Bags

/-- The prevalences of the indexed examples (bag_generator.py:424-425). -/
noncomputable def prevsOf (y : List α) (classes : List α) (bs : ℕ) (col : List ℕ) : List Fl :=
  classes.map fun c => Fl.fin ((col.countP fun i => y[i]? = some c : ℕ) : ℝ) / Fl.fin bs

/-- The loop of `CovariateShift_BagGenerator.generate_bags` (bag_generator.py:417-425); `sim i` is the row of
similarities to example `i`. -/
noncomputable def covLoop (rng : Rng G) (y : List α) (classes : List α) (bs : ℕ) (sim : ℕ → List ℝ) :
    List ℤ → ℕ → G → Bags → Bags × G × Option Err
  | [], _, g, b => (b, g, none)
  | c :: cs, nBag, g, b =>
    let probs := (sim c.toNat).map (· / (sim c.toNat).sum)
    match rng.choiceP g probs bs with
    | .error e => (b, g, some e)
    | .ok (col, g) =>
      covLoop rng y classes bs sim cs (nBag + 1) g ⟨b.prevs.set nBag (prevsOf y classes bs col), b.idx.set nBag col⟩

/-- `CovariateShift_BagGenerator.generate_bags` (bag_generator.py:369-427). -/
noncomputable def covGenerate (rng : Rng G) (s : CovGen G) (d : BagData α) (sim : ℕ → List ℝ) : CovGen G × Except Err Bags :=
  match s.bags with
  | some b => (s, .ok b)
  | none =>
    let g? : Option G := match s.rs with
      | .seed n => some (rng.ofSeed n)
      | .obj g => some g
      | .invalid => none
    match g? with
    | none => (s, .error .valueError)
    | some g =>
      let s := { s with rs := .obj g }
      match d.lenX with
      | none => (s, .error .valueError)  -- `check_X_y(None, y)`
      | some n =>
        if n = d.y.length ∧ n ≠ 0 then
          let classes := npUnique d.y
          let bs := s.bagSize.getD n
          let z := zeroBags classes.length bs s.nBags
          let s := { s with bagSize := some bs, bags := some z }
          match rng.randint g 0 n s.nBags with
          | .error e => (s, .error e)
          | .ok (centers, g) =>
            let r := covLoop rng d.y classes bs sim centers 0 g z
            ({ s with bags := some r.1, rs := .obj r.2.1 }, match r.2.2 with
              | some e => .error e
              | none => .ok r.1)
        else (s, .error .valueError)

/-! ## Both -/

/-- The attributes of a `PriorAndCovariateShift_BagGenerator` (bag_generator.py:489-503). -/
structure MixGen (G : Type*) where
  nBags : ℕ
  bagSize : Option ℕ
  method : BagMethod
  alphas : Alphas
  minPrev : MinPrev
  rs : RandState G
  bags : Option Bags

/-- `PriorAndCovariateShift_BagGenerator.generate_bags` (bag_generator.py:505-552): two generators are built from the
same `random_state`; an integer is a seed for both of them, a RandomState object is used by one after the other. With
`bag_size=None` (the default) allocating `indexes_` raises a TypeError. -/
noncomputable def mixGenerate (rng : Rng G) (fuel : ℕ) (s : MixGen G) (glob : G) (d : BagData α) (sim : ℕ → List ℝ) :
    Option (MixGen G × G × Except Err Bags) :=
  match s.bags with
  | some b => some (s, glob, .ok b)
  | none =>
    match s.bagSize with
    | none => some (s, glob, .error .typeError)
    | some bs =>
      let nPrior := s.nBags / 2
      let z := zeroBags (npUnique d.y).length bs s.nBags
      (priorGenerate rng fuel ⟨nPrior, some bs, s.method, s.alphas, s.minPrev, s.rs, none⟩ glob d).map fun r =>
        let rs : RandState G := match s.rs with
          | .seed n => .seed n
          | .invalid => .invalid
          | .obj _ => r.1.rs
        match r.2.2 with
        | .error e => ({ s with bags := some z, rs := rs }, r.2.1, .error e)
        | .ok b1 =>
          let b := ⟨b1.prevs ++ z.prevs.drop nPrior, b1.idx ++ z.idx.drop nPrior⟩
          let c := covGenerate rng ⟨s.nBags - nPrior, some bs, rs, none⟩ d sim
          let rs : RandState G := match s.rs with
            | .seed n => .seed n
            | .invalid => .invalid
            | .obj _ => c.1.rs
          match c.2 with
          | .error e => ({ s with bags := some b, rs := rs }, r.2.1, .error e)
          | .ok b2 =>
            let b := ⟨b1.prevs ++ b2.prevs, b1.idx ++ b2.idx⟩
            ({ s with bags := some b, rs := rs }, r.2.1, .ok b)

end

end Verif.Model
