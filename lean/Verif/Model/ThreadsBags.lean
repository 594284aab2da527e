import Verif.Model.Bags

/-!
# Threads that call `generate_bags`

As in `Verif.Model.Threads`: a call is a sequence of operations on a store, and a schedule says whose turn it is. Here an operation may read the store and change it at once, which is what a call of a method of a `RandomState`
does (it holds a lock meanwhile).

The generators are `CovariateShift_BagGenerator`s. Simplifications: an operation reads the attributes that an expression needs; the arrays that `generate_bags` returns are the ones of the object, and the result in the model is what
they hold when it returns.
-/

namespace Verif.Model

open Classical

/-- The code of a thread: it returns, or does an operation, which changes the store with `f`, and goes on with what it read before that change. -/
inductive AtomicCode (St R : Type) where
  | ret (r : R)
  | op (f : St → St) (k : St → AtomicCode St R)

/-- A read. -/
def AtomicCode.get {St R : Type} (k : St → AtomicCode St R) : AtomicCode St R := .op id k

/-- An assignment. -/
def AtomicCode.put {St R : Type} (f : St → St) (k : AtomicCode St R) : AtomicCode St R := .op f fun _ => k

/-- One operation of a thread. -/
def AtomicCode.step {St R : Type} (s : St) : AtomicCode St R → St × AtomicCode St R
  | .ret r => (s, .ret r)
  | .op f k => (f s, k s)

/-- The threads under a schedule: the store and what remains of each of them. -/
def runAtomic {St R : Type} : List ℕ → St → (ℕ → AtomicCode St R) → St × (ℕ → AtomicCode St R)
  | [], s, T => (s, T)
  | i :: sch, s, T => runAtomic sch ((T i).step s).1 (Function.update T i ((T i).step s).2)

/-- The `RandomState` objects: those that the program makes, and the one that generator `i` makes from its seed. -/
inductive RngPlace where
  | shared (r : ℕ)
  | own (i : ℕ)
  deriving DecidableEq

/-- The values of `random_state`. -/
inductive RsRef where
  | seed (n : ℤ)
  | obj (p : RngPlace)
  | invalid

/-- The attributes of a `CovariateShift_BagGenerator` (bag_generator.py:361-367). -/
structure CovCell where
  nBags : ℕ
  bagSize : Option ℕ
  rs : RsRef
  prevs : Option (List (List Fl))
  idx : Option (List (List ℕ))

/-- The generators and the `RandomState` objects of a program. -/
structure BagStore (G : Type) where
  gens : ℕ → CovCell
  rngs : RngPlace → G

section
variable {G α : Type} [LinearOrder α]

/-- Assignment to attributes of generator `i`. -/
def BagStore.setGen (i : ℕ) (f : CovCell → CovCell) (s : BagStore G) : BagStore G := { s with gens := Function.update s.gens i (f (s.gens i)) }

/-- The `RandomState` object in `p` has another state. -/
def BagStore.setRng (p : RngPlace) (g : G) (s : BagStore G) : BagStore G := { s with rngs := Function.update s.rngs p g }

/-- A call of a method of the `RandomState` object in `p`: one operation. -/
def drawCode {A : Type} (p : RngPlace) (draw : G → Except Err (A × G)) (k : A → AtomicCode (BagStore G) (Except Err Bags)) : AtomicCode (BagStore G) (Except Err Bags) :=
  .op (fun s => match draw (s.rngs p) with
      | .error _ => s
      | .ok r => s.setRng p r.2)
    fun s => match draw (s.rngs p) with
      | .error e => .ret (.error e)
      | .ok r => k r.1

/-- `self.random_state`, to call one of its methods. -/
def rngCode {G : Type} (i : ℕ) (k : RngPlace → AtomicCode (BagStore G) (Except Err Bags)) : AtomicCode (BagStore G) (Except Err Bags) :=
  .get fun s => match (s.gens i).rs with
    | .obj p => k p
    | _ => .ret (.error .attributeError)

/-- `return self.prevalences_, self.indexes_` (bag_generator.py:397, 427). -/
def returnCode (i : ℕ) : AtomicCode (BagStore G) (Except Err Bags) :=
  .get fun s => match (s.gens i).prevs, (s.gens i).idx with
    | some p, some x => .ret (.ok ⟨p, x⟩)
    | _, _ => .ret (.error .typeError)

/-- `np.sum(y[self.indexes_[:, n_bag]] == cls) / self.bag_size` (bag_generator.py:425). -/
noncomputable def shareIn (y : List α) (bs : ℕ) (col : List ℕ) (c : α) : Fl := Fl.fin ((col.countP fun i => y[i]? = some c : ℕ) : ℝ) / Fl.fin bs

/-- The loop over the classes of a bag (bag_generator.py:424-425): the share is computed, and then assigned. `j` is the number of the first class of the list. -/
noncomputable def classesCode (i : ℕ) (y : List α) (nBag : ℕ) (rest : AtomicCode (BagStore G) (Except Err Bags)) : List α → ℕ → AtomicCode (BagStore G) (Except Err Bags)
  | [], _ => rest
  | c :: cs, j =>
    .get fun s => .put (BagStore.setGen i fun a => { a with
        prevs := a.prevs.map fun p => p.set nBag ((p.getD nBag []).set j (shareIn y ((s.gens i).bagSize.getD 0) (((s.gens i).idx.getD []).getD nBag []) c)) })
      (classesCode i y nBag rest cs (j + 1))

/-- The loop over the bags (bag_generator.py:417-425). -/
noncomputable def bagsCode (rng : Rng G) (i : ℕ) (y classes : List α) (sim : ℕ → List ℝ) : List ℤ → ℕ → AtomicCode (BagStore G) (Except Err Bags)
  | [], _ => returnCode i
  | c :: cs, nBag =>
    .get fun s => rngCode i fun p => drawCode p (fun g => rng.choiceP g ((sim c.toNat).map (· / (sim c.toNat).sum)) ((s.gens i).bagSize.getD 0)) fun col =>
      .put (BagStore.setGen i fun a => { a with idx := a.idx.map fun x => x.set nBag col })
        (classesCode i y nBag (bagsCode rng i y classes sim cs (nBag + 1)) classes 0)

/-- From the arrays of zeros to the end (bag_generator.py:411-427); `n` is the number of examples. -/
noncomputable def fillCode (rng : Rng G) (i : ℕ) (y : List α) (n : ℕ) (sim : ℕ → List ℝ) : AtomicCode (BagStore G) (Except Err Bags) :=
  .put (BagStore.setGen i fun a => { a with prevs := some (List.replicate a.nBags (List.replicate (npUnique y).length (Fl.fin 0))) })
    (.get fun s => .put (BagStore.setGen i fun a => { a with idx := some (List.replicate a.nBags (List.replicate ((s.gens i).bagSize.getD 0) 0)) })
      (.get fun s => rngCode i fun p => drawCode p (fun g => rng.randint g 0 n (s.gens i).nBags) fun centers => bagsCode rng i y (npUnique y) sim centers 0))

/-- From the check of the generator object to the end (bag_generator.py:402-427): `check_X_y` and the default of `bag_size`. -/
noncomputable def checkedCode (rng : Rng G) (i : ℕ) (d : BagData α) (sim : ℕ → List ℝ) : AtomicCode (BagStore G) (Except Err Bags) :=
  .get fun s => match (s.gens i).rs with
    | .obj _ =>
      match d.lenX with
      | none => .ret (.error .valueError)
      | some n =>
        if n = d.y.length ∧ n ≠ 0 then
          .get fun s => match (s.gens i).bagSize with
            | none => .put (BagStore.setGen i fun a => { a with bagSize := some n }) (fillCode rng i d.y n sim)
            | some _ => fillCode rng i d.y n sim
        else .ret (.error .valueError)
    | _ => .ret (.error .valueError)

/-- `CovariateShift_BagGenerator.generate_bags` (bag_generator.py:369-427) of generator `i`. The seed is read again to make the `RandomState` (line 401), which raises TypeError when another thread has put an object there since the check of line 400. -/
noncomputable def covCode (rng : Rng G) (i : ℕ) (d : BagData α) (sim : ℕ → List ℝ) : AtomicCode (BagStore G) (Except Err Bags) :=
  .get fun s =>
    if (s.gens i).prevs.isSome && (s.gens i).idx.isSome then returnCode i
    else .get fun s => match (s.gens i).rs with
      | .seed _ => .get fun s => match (s.gens i).rs with
        | .seed n => .put (fun s => (s.setGen i fun a => { a with rs := .obj (.own i) }).setRng (.own i) (rng.ofSeed n)) (checkedCode rng i d sim)
        | _ => .ret (.error .typeError)
      | _ => checkedCode rng i d sim

end

end Verif.Model
