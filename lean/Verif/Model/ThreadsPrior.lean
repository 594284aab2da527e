import Verif.Model.ThreadsBags

/-!
# Threads that call `generate_bags` of `PriorShift_BagGenerator`s

As in `Verif.Model.ThreadsBags`, with the generator of the `np.random` module, which the Dirichlet method uses, in the store too. A result `none` is a call that has not ended within the given number of iterations of the while loop of
the uniform method.

Simplifications: `min_prevalence` and `alphas` are arrays from the beginning when they are lists; a slice that does not fit (only possible when threads share a generator) is written as far as lists go.
-/

namespace Verif.Model

open Classical

/-- The attributes of a `PriorShift_BagGenerator` (bag_generator.py:94-105). -/
structure PriorCell where
  nBags : ℕ
  bagSize : Option ℕ
  method : BagMethod
  alphas : Alphas
  minPrev : MinPrev
  rs : RsRef
  prevs : Option (List (List Fl))
  idx : Option (List (List ℕ))

/-- The generators and the `RandomState` objects of a program, and the one of the `np.random` module. -/
structure PriorStore (G : Type) where
  gens : ℕ → PriorCell
  rngs : RngPlace → G
  glob : G

/-- The code of a thread that generates bags. -/
abbrev PriorCode (G : Type) := AtomicCode (PriorStore G) (Option (Except Err Bags))

section
variable {G α : Type} [LinearOrder α]

/-- Assignment to attributes of generator `i`. -/
def PriorStore.setGen (i : ℕ) (f : PriorCell → PriorCell) (s : PriorStore G) : PriorStore G := { s with gens := Function.update s.gens i (f (s.gens i)) }

/-- The `RandomState` object in `p` has another state. -/
def PriorStore.setRng (p : RngPlace) (g : G) (s : PriorStore G) : PriorStore G := { s with rngs := Function.update s.rngs p g }

/-- A method of `self.random_state`: the attribute is read, and then the call is one operation. -/
def drawPrior {A : Type} (i : ℕ) (draw : G → Except Err (A × G)) (k : A → PriorCode G) : PriorCode G :=
  .get fun s => match (s.gens i).rs with
    | .obj p =>
      .op (fun s => match draw (s.rngs p) with
          | .error _ => s
          | .ok r => s.setRng p r.2)
        fun s => match draw (s.rngs p) with
          | .error e => .ret (some (.error e))
          | .ok r => k r.1
    | _ => .ret (some (.error .attributeError))

/-- A function of the `np.random` module: one operation. -/
def drawGlobal {A : Type} (draw : G → Except Err (A × G)) (k : A → PriorCode G) : PriorCode G :=
  .op (fun s => match draw s.glob with
      | .error _ => s
      | .ok r => { s with glob := r.2 })
    fun s => match draw s.glob with
      | .error e => .ret (some (.error e))
      | .ok r => k r.1

/-- `return self.prevalences_, self.indexes_` (bag_generator.py:136-137, 255, 312). -/
def returnPrior (i : ℕ) : PriorCode G :=
  .get fun s => match (s.gens i).prevs, (s.gens i).idx with
    | some p, some x => .ret (some (.ok ⟨p, x⟩))
    | _, _ => .ret (some (.error .typeError))

/-- The examples of a class (bag_generator.py:249-252, 307-310): drawn, and then written in the column of the bag. -/
def examplesCode (rng : Rng G) (i : ℕ) (y : List α) (nBag : ℕ) (c : α) (n : ℤ) (pos : ℕ) (k : ℕ → PriorCode G) : PriorCode G :=
  if n ≠ 0 then
    drawPrior i (fun g => rng.choice g (whereEq y c) n) fun xs =>
      .put (PriorStore.setGen i fun a => { a with idx := a.idx.map fun x => x.set nBag (fillSlice (x.getD nBag []) pos xs) }) (k (pos + xs.length))
  else k pos

/-- The loop over the classes of a bag of the uniform method (bag_generator.py:247-252). -/
def fillPrior (rng : Rng G) (i : ℕ) (y : List α) (nBag : ℕ) (rest : PriorCode G) : List (α × ℤ) → ℕ → PriorCode G
  | [], _ => rest
  | (c, n) :: cs, pos => examplesCode rng i y nBag c n pos fun pos => fillPrior rng i y nBag rest cs pos

/-- The while loop of the uniform method (bag_generator.py:236-254) with at most `fuel` iterations. -/
noncomputable def uniformCode (rng : Rng G) (i : ℕ) (y : List α) (mins : Option (List ℤ)) (low high : ℤ) : ℕ → ℕ → PriorCode G
  | 0, nBag => .get fun s => if nBag < (s.gens i).nBags then .ret none else returnPrior i
  | fuel + 1, nBag =>
    .get fun s => if nBag < (s.gens i).nBags then
      drawPrior i (fun g => rng.randint g low high ((npUnique y).length - 1)) fun draws =>
        .get fun s =>
          if middleOk (kraemer draws ((s.gens i).bagSize.getD 0)) mins then
            .get fun s' => .put (PriorStore.setGen i fun a => { a with
                prevs := a.prevs.map fun p => p.set nBag ((kraemer draws ((s.gens i).bagSize.getD 0)).map fun n : ℤ => Fl.fin (n : ℝ) / Fl.fin (((s'.gens i).bagSize.getD 0 : ℕ) : ℝ)) })
              (fillPrior rng i y nBag (uniformCode rng i y mins low high fuel (nBag + 1)) ((npUnique y).zip (kraemer draws ((s.gens i).bagSize.getD 0))) 0)
          else uniformCode rng i y mins low high fuel nBag
      else returnPrior i

/-- `_generate_uniform` (bag_generator.py:155-255). -/
noncomputable def generateUniformCode (rng : Rng G) (fuel i : ℕ) (d : BagData α) : PriorCode G :=
  .get fun s => match checkMinPrev (s.gens i).minPrev with
    | some e => .ret (some (.error e))
    | none => match checkXy d with
      | some e => .ret (some (.error e))
      | none => .get fun s => match uniformBounds (s.gens i).minPrev (npUnique d.y).length ((s.gens i).bagSize.getD 0) with
        | .error e => .ret (some (.error e))
        | .ok (mins, low, high) =>
          .put (PriorStore.setGen i fun a => { a with prevs := some (List.replicate a.nBags (List.replicate (npUnique d.y).length (Fl.fin 0))) })
            (.get fun s => .put (PriorStore.setGen i fun a => { a with idx := some (List.replicate a.nBags (List.replicate ((s.gens i).bagSize.getD 0) 0)) })
              (uniformCode rng i d.y mins low high fuel 0))

/-- The number of examples of class number `j` of a bag of the Dirichlet method (bag_generator.py:299-303), from the prevalence that the array holds now; `none` when that is not a number (NumPy raises ValueError). -/
noncomputable def dirichletCount (a : PriorCell) (nBag j pos : ℕ) (last : Bool) : Option ℤ :=
  if last then some (((a.bagSize.getD 0 : ℕ) : ℤ) - pos)
  else match ((a.prevs.getD []).getD nBag []).getD j (Fl.fin 0) with
    | .fin p => some (min (((a.bagSize.getD 0 : ℕ) : ℤ) - pos) (roundHalfEven (p * ((a.bagSize.getD 0 : ℕ) : ℝ))))
    | _ => none

/-- The loop over the classes of a bag of the Dirichlet method (bag_generator.py:297-310); `j` is the number of the first class of the list. -/
noncomputable def dirichletBagCode (rng : Rng G) (i : ℕ) (y : List α) (nBag : ℕ) (rest : PriorCode G) : List α → ℕ → ℕ → PriorCode G
  | [], _, _ => rest
  | c :: cs, j, pos =>
    .get fun s => match dirichletCount (s.gens i) nBag j pos cs.isEmpty with
      | none => .ret (some (.error .valueError))
      | some n =>
        .get fun s => .put (PriorStore.setGen i fun a => { a with
            prevs := a.prevs.map fun p => p.set nBag ((p.getD nBag []).set j (Fl.fin (n : ℝ) / Fl.fin (((s.gens i).bagSize.getD 0 : ℕ) : ℝ))) })
          (examplesCode rng i y nBag c n pos fun pos => dirichletBagCode rng i y nBag rest cs (j + 1) pos)

/-- The loop over the bags of the Dirichlet method (bag_generator.py:295-310): `m` bags remain. -/
noncomputable def dirichletCode (rng : Rng G) (i : ℕ) (y : List α) : ℕ → ℕ → PriorCode G
  | 0, _ => returnPrior i
  | m + 1, nBag => dirichletBagCode rng i y nBag (dirichletCode rng i y m (nBag + 1)) (npUnique y) 0 0

/-- From the call of `np.random.dirichlet` to the end (bag_generator.py:292-312). -/
noncomputable def dirichletDrawCode (rng : Rng G) (i : ℕ) (y : List α) : PriorCode G :=
  .get fun s => match (s.gens i).alphas with
    | .vec al => drawGlobal (fun g => rng.dirichlet g al (s.gens i).nBags) fun draws =>
      .put (PriorStore.setGen i fun a => { a with prevs := some (draws.map fun r => r.map Fl.fin) })
        (.get fun s => .put (PriorStore.setGen i fun a => { a with idx := some (List.replicate a.nBags (List.replicate ((s.gens i).bagSize.getD 0) 0)) })
          (.get fun s => dirichletCode rng i y (s.gens i).nBags 0))
    | _ => .ret (some (.error .typeError))

/-- `_generate_dirichlet` (bag_generator.py:257-312). -/
noncomputable def generateDirichletCode (rng : Rng G) (i : ℕ) (d : BagData α) : PriorCode G :=
  match checkXy d with
  | some e => .ret (some (.error e))
  | none => .get fun s => match (s.gens i).alphas with
    | .none => dirichletDrawCode rng i d.y
    | .scalar x => .put (PriorStore.setGen i fun a => { a with alphas := .vec (List.replicate (npUnique d.y).length x) }) (dirichletDrawCode rng i d.y)
    | .vec l => if l.length = (npUnique d.y).length then dirichletDrawCode rng i d.y else .ret (some (.error .valueError))

/-- The method (bag_generator.py:148-153). -/
noncomputable def methodCode (rng : Rng G) (fuel i : ℕ) (d : BagData α) : PriorCode G :=
  .get fun s => match (s.gens i).method with
    | .uniform => generateUniformCode rng fuel i d
    | .dirichlet => generateDirichletCode rng i d
    | .other => .ret (some (.error .valueError))

/-- From the check of the generator object to the end (bag_generator.py:142-153). -/
noncomputable def checkedPrior (rng : Rng G) (fuel i : ℕ) (d : BagData α) : PriorCode G :=
  .get fun s => match (s.gens i).rs with
    | .obj _ => .get fun s => match (s.gens i).bagSize with
      | none => .put (PriorStore.setGen i fun a => { a with bagSize := some d.y.length }) (methodCode rng fuel i d)
      | some _ => methodCode rng fuel i d
    | _ => .ret (some (.error .valueError))

/-- `PriorShift_BagGenerator.generate_bags` (bag_generator.py:107-153) of generator `i`. As in `covCode`, the seed is read again to make the `RandomState`. -/
noncomputable def priorCode (rng : Rng G) (fuel i : ℕ) (d : BagData α) : PriorCode G :=
  .get fun s =>
    if (s.gens i).prevs.isSome && (s.gens i).idx.isSome then returnPrior i
    else .get fun s => match (s.gens i).rs with
      | .seed _ => .get fun s => match (s.gens i).rs with
        | .seed n => .put (fun s => (s.setGen i fun a => { a with rs := .obj (.own i) }).setRng (.own i) (rng.ofSeed n)) (checkedPrior rng fuel i d)
        | _ => .ret (some (.error .typeError))
      | _ => checkedPrior rng fuel i d

end

end Verif.Model
