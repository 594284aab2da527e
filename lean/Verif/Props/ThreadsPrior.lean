import Verif.Proof.ThreadsPriorShared
import Verif.Props.ThreadsBags

/-!
# C174: threads that generate bags with prior probability shift
-/

namespace Verif.Props

open Verif.Model Verif.Spec Verif.Proof

variable {G α : Type} [LinearOrder α]

/-- **C174** (a generator with a seed for each thread): whatever the schedule, a call of `generate_bags` that returns does what it does when there are no other threads and the generator of the `np.random` module is in some state; and it returns
after a number of its own operations that does not depend on the other threads. -/
theorem C174_own_generators (rng : Rng G) (hr : RngOk rng) (s : PriorStore G) (o : ℕ → ℕ) (ho : Function.Injective o) (seed : ℕ → ℤ) (hs : ∀ t, (s.gens (o t)).rs = .seed (seed t) ∧ (s.gens (o t)).prevs = none)
    (fuel : ℕ → ℕ) (d : ℕ → BagData α) (sch : List ℕ) (t : ℕ) :
    (∀ r, (runAtomic sch s fun t => priorCode rng (fuel t) (o t) (d t)).2 t = .ret r → ∃ glob,
      r = (priorGenerate rng (fuel t) ⟨(s.gens (o t)).nBags, (s.gens (o t)).bagSize, (s.gens (o t)).method, (s.gens (o t)).alphas, (s.gens (o t)).minPrev, .seed (seed t), none⟩ glob (d t)).map fun x => x.2.2)
    ∧ (priorOps (npUnique (d t).y).length (s.gens (o t)).nBags (fuel t) ≤ sch.count t → ∃ r, (runAtomic sch s fun t => priorCode rng (fuel t) (o t) (d t)).2 t = .ret r) :=
  safe_run (G := OwnPrior o) (fun t r => ∃ glob, r = (priorGenerate rng (fuel t) (aloneGen (s.gens (o t)) (.seed (seed t))) glob (d t)).map fun x => x.2.2) sch s (fun t => priorCode rng (fuel t) (o t) (d t))
    (fun t => priorOps (npUnique (d t).y).length (s.gens (o t)).nBags (fuel t)) (fun t => ⟨PriorIs (o t) (fun _ => True) (s.gens (o t)), priorIs_undisturbed ho _ _, ⟨rfl, trivial⟩,
      priorCode_safe hr ho (fuel t) (d t) _ (hs t).2 (seed t) (hs t).1 s.glob⟩) t

/-- **C174** (the uniform method, a generator with a seed for each thread): whatever the schedule and the methods of the other threads, the thread gets what it gets when there are no other threads. -/
theorem C174_uniform (rng : Rng G) (hr : RngOk rng) (s : PriorStore G) (o : ℕ → ℕ) (ho : Function.Injective o) (seed : ℕ → ℤ) (hs : ∀ t, (s.gens (o t)).rs = .seed (seed t) ∧ (s.gens (o t)).prevs = none)
    (fuel : ℕ → ℕ) (d : ℕ → BagData α) (sch : List ℕ) (t : ℕ) (hm : (s.gens (o t)).method = .uniform) (ht : priorOps (npUnique (d t).y).length (s.gens (o t)).nBags (fuel t) ≤ sch.count t) (glob : G) :
    (runAtomic sch s fun t => priorCode rng (fuel t) (o t) (d t)).2 t =
      .ret ((priorGenerate rng (fuel t) ⟨(s.gens (o t)).nBags, (s.gens (o t)).bagSize, .uniform, (s.gens (o t)).alphas, (s.gens (o t)).minPrev, .seed (seed t), none⟩ glob (d t)).map fun x => x.2.2) := by
  have h := C174_own_generators rng hr s o ho seed hs fuel d sch t
  obtain ⟨r, hr'⟩ := h.2 ht
  obtain ⟨glob', hg⟩ := h.1 r hr'
  rw [hr', hg, hm]
  exact congrArg _ (C41_uniform_reproducible_partial rng (fuel t) _ _ rfl rfl (seed t) rfl rfl glob' glob (d t))

/-- **C174** (both methods, a generator with a seed for each thread): whatever the schedule, every call that returns bags returns positions of examples of its data set and the prevalences of those examples. -/
theorem C174_bags (rng : Rng G) (hr : RngOk rng) (s : PriorStore G) (o : ℕ → ℕ) (ho : Function.Injective o) (seed : ℕ → ℤ) (hs : ∀ t, (s.gens (o t)).rs = .seed (seed t) ∧ (s.gens (o t)).prevs = none)
    (fuel : ℕ → ℕ) (d : ℕ → BagData α) (sch : List ℕ) (t : ℕ) (hy : (d t).y ≠ []) (hbs : 0 < (s.gens (o t)).bagSize.getD (d t).y.length) (b : Bags)
    (h : (runAtomic sch s fun t => priorCode rng (fuel t) (o t) (d t)).2 t = .ret (some (.ok b))) : AreBags (d t).y ((s.gens (o t)).bagSize.getD (d t).y.length) (s.gens (o t)).nBags b := by
  obtain ⟨glob, hg⟩ := (C174_own_generators rng hr s o ho seed hs fuel d sch t).1 _ h
  cases hx : priorGenerate rng (fuel t) ⟨(s.gens (o t)).nBags, (s.gens (o t)).bagSize, (s.gens (o t)).method, (s.gens (o t)).alphas, (s.gens (o t)).minPrev, .seed (seed t), none⟩ glob (d t) with
  | none => rw [hx] at hg; cases hg
  | some x =>
    obtain ⟨s', glob', e⟩ := x
    rw [hx] at hg
    simp only [Option.map_some, Option.some.injEq] at hg
    subst hg
    exact (C37_prior_shift_bags rng hr _ _ rfl glob (d t) hy hbs s' glob' b hx).1

/-- **C174** (generators that may share `RandomState` objects): each thread has its own new generator, with a seed or with a `RandomState` object that others may use too. Whatever the schedule and the method, every call that returns bags returns
positions of examples of its data set and the prevalences of those examples; and it returns after a number of its own operations that does not depend on the other threads. -/
theorem C174_shared_random_state (rng : Rng G) (hr : RngOk rng) (s : PriorStore G) (o : ℕ → ℕ) (ho : Function.Injective o) (hs : ∀ t, (s.gens (o t)).prevs = none ∧ ∀ j, (s.gens (o t)).rs = .obj (.own j) → j = o t)
    (fuel : ℕ → ℕ) (d : ℕ → BagData α) (hy : ∀ t, (d t).y ≠ []) (hbs : ∀ t, 0 < (s.gens (o t)).bagSize.getD (d t).y.length) (sch : List ℕ) (t : ℕ) :
    (∀ b, (runAtomic sch s fun t => priorCode rng (fuel t) (o t) (d t)).2 t = .ret (some (.ok b)) → AreBags (d t).y ((s.gens (o t)).bagSize.getD (d t).y.length) (s.gens (o t)).nBags b)
    ∧ (priorOps (npUnique (d t).y).length (s.gens (o t)).nBags (fuel t) ≤ sch.count t → ∃ r, (runAtomic sch s fun t => priorCode rng (fuel t) (o t) (d t)).2 t = .ret r) := by
  have h := safe_run (G := OwnPrior o) (fun t r => ∀ b, r = some (.ok b) → AreBags (d t).y ((s.gens (o t)).bagSize.getD (d t).y.length) (s.gens (o t)).nBags b) sch s (fun t => priorCode rng (fuel t) (o t) (d t))
    (fun t => priorOps (npUnique (d t).y).length (s.gens (o t)).nBags (fuel t)) (fun t => ⟨PriorIs (o t) (fun _ => True) (s.gens (o t)), priorIs_undisturbed ho _ _, ⟨rfl, trivial⟩,
      priorCode_safe_any hr ho (fuel t) (d t) _ (hs t).1 (hs t).2 (fun e b hb => by cases hb) fun gs glob b hb => ?_⟩) t
  · exact ⟨fun b hb => h.1 _ hb b rfl, h.2⟩
  · cases hx : priorGenerate (scripted rng) (fuel t) (aloneGen (s.gens (o t)) (.obj gs)) glob (d t) with
    | none => rw [hx] at hb; cases hb
    | some x =>
      obtain ⟨s', glob', e⟩ := x
      rw [hx] at hb
      simp only [Option.map_some, Option.some.injEq] at hb
      subst hb
      exact (C37_prior_shift_bags (scripted rng) (scripted_ok hr) _ _ rfl glob (d t) (hy t) (hbs t) s' glob' b hx).1

/-- A store whose generators are new, with a seed. -/
def newPriors (g : G) (nBags bs : ℕ) (method : BagMethod) (al : Alphas) (m : ℤ) : PriorStore G := ⟨fun _ => ⟨nBags, some bs, method, al, .none, .seed m, none, none⟩, fun _ => g, g⟩

/-- **C174** (refuted for a shared generator): whatever the data, with the uniform method the second thread can get, without any exception, the arrays of zeros that the first one has not yet filled. -/
theorem C174_zeros_refuted (rng : Rng G) (g : G) (nBags bs : ℕ) (al : Alphas) (m : ℤ) (fuel : ℕ) (d : ℕ → BagData α) (hd : checkXy (d 0) = none) :
    ∃ sch, (runAtomic sch (newPriors g nBags bs .uniform al m) fun t => priorCode rng fuel 0 (d t)).2 1 =
      .ret (some (.ok ⟨List.replicate nBags (List.replicate (labelsOf (d 0).y).length (Fl.fin 0)), List.replicate nBags (List.replicate bs 0)⟩)) := by
  refine ⟨List.replicate 12 0 ++ [1, 1], ?_⟩
  simp [List.replicate, runAtomic, AtomicCode.step, priorCode, AtomicCode.get, AtomicCode.put, newPriors, checkedPrior, methodCode, generateUniformCode, checkMinPrev, uniformBounds, hd, PriorStore.setGen, PriorStore.setRng, returnPrior, npUnique_eq]

/-- **C174** (refuted for a shared generator): with the Dirichlet method the second thread can get the numbers that `np.random.dirichlet` has just drawn, which are not the prevalences of any bag, and bags that are the first example repeated. -/
theorem C174_drawn_refuted (rng : Rng G) (g : G) (nBags bs : ℕ) (x : ℝ) (m : ℤ) (fuel : ℕ) (d : ℕ → BagData α) (hd : checkXy (d 0) = none) (draws : List (List ℝ)) (g' : G)
    (hdr : rng.dirichlet g (List.replicate (labelsOf (d 0).y).length x) nBags = .ok (draws, g')) :
    ∃ sch, (runAtomic sch (newPriors g nBags bs .dirichlet (.scalar x) m) fun t => priorCode rng fuel 0 (d t)).2 1 =
      .ret (some (.ok ⟨draws.map fun r => r.map Fl.fin, List.replicate nBags (List.replicate bs 0)⟩)) := by
  refine ⟨List.replicate 14 0 ++ [1, 1], ?_⟩
  simp [List.replicate, runAtomic, AtomicCode.step, priorCode, AtomicCode.get, AtomicCode.put, newPriors, checkedPrior, methodCode, generateDirichletCode, dirichletDrawCode, drawGlobal, hdr, hd, PriorStore.setGen, PriorStore.setRng, returnPrior,
    npUnique_eq]

/-- **C174** (refuted for a shared generator): the second thread can raise TypeError, since it makes a `RandomState` from what it read as a seed before. -/
theorem C174_type_error_refuted (rng : Rng G) (g : G) (nBags bs : ℕ) (method : BagMethod) (al : Alphas) (m : ℤ) (fuel : ℕ) (d : ℕ → BagData α) :
    ∃ sch, (runAtomic sch (newPriors g nBags bs method al m) fun t => priorCode rng fuel 0 (d t)).2 1 = .ret (some (.error .typeError)) := by
  refine ⟨[1, 1, 0, 0, 0, 0, 1], ?_⟩
  simp [runAtomic, AtomicCode.step, priorCode, AtomicCode.get, AtomicCode.put, newPriors, PriorStore.setGen, PriorStore.setRng]

/-- A generator of random numbers that counts its calls of `dirichlet`, which alternate between all the mass on the first class and all of it on the last. -/
noncomputable def turnRng : Rng ℕ where
  ofSeed _ := 0
  randint g lo hi n := (lazyRng.randint true lo hi n).map fun r => (r.1, g)
  choice g pool n := (lazyRng.choice true pool n).map fun r => (r.1, g)
  choiceP g p n := (lazyRng.choiceP true p n).map fun r => (r.1, g)
  dirichlet g a n := (lazyRng.dirichlet (g % 2 == 0) a n).map fun r => (r.1, g + 1)

theorem map_ok {A B : Type} {e : Except Err (A × Bool)} {c b : B} {a : A} (h : (e.map fun r => (r.1, c)) = .ok (a, b)) : ∃ b', e = .ok (a, b') := by
  cases e with
  | error e => cases h
  | ok r =>
    refine ⟨r.2, ?_⟩
    have h' : r.1 = a ∧ c = b := by simpa [Except.map] using h
    rw [← h'.1]

theorem turnRng_ok : RngOk turnRng where
  randint g lo hi n l g' h := by
    obtain ⟨b, hb⟩ := map_ok h
    exact lazyRng_ok.randint _ _ _ _ _ _ hb
  choice g pool n l g' h := by
    obtain ⟨b, hb⟩ := map_ok h
    exact lazyRng_ok.choice _ _ _ _ _ hb
  choiceP g p n l g' h := by
    obtain ⟨b, hb⟩ := map_ok h
    exact lazyRng_ok.choiceP _ _ _ _ _ hb
  dirichlet g a n l g' h := by
    obtain ⟨b, hb⟩ := map_ok h
    exact lazyRng_ok.dirichlet _ _ _ _ _ hb

/-- **C174** (refuted for the Dirichlet method): though each thread has its own generator with its own seed, the bags that a thread gets depend on the schedule, because the prevalences come from the generator of the `np.random` module. -/
theorem C174_dirichlet_refuted : RngOk turnRng ∧ ∃ sch sch' b b', b.prevs ≠ b'.prevs ∧
    (runAtomic sch (newPriors 0 1 1 .dirichlet (.scalar 1) 2032) fun t => priorCode turnRng 0 t (⟨[0, 1], some 2⟩ : BagData ℕ)).2 0 = .ret (some (.ok b))
    ∧ (runAtomic sch' (newPriors 0 1 1 .dirichlet (.scalar 1) 2032) fun t => priorCode turnRng 0 t (⟨[0, 1], some 2⟩ : BagData ℕ)).2 0 = .ret (some (.ok b')) := by
  have hl : labelsOf ([0, 1] : List ℕ) = [0, 1] := labelsOf_eq [0, 1] [0, 1] (by decide) (by decide)
  have hr1 : roundHalfEven 1 = 1 := by
    unfold roundHalfEven
    norm_num
  have hr0 : roundHalfEven 0 = 0 := by
    unfold roundHalfEven
    norm_num
  have h1 : Fl.fin (1 : ℝ) / Fl.fin 1 = Fl.fin 1 := by rw [Fl.fin_div _ one_ne_zero, div_one]
  have h0 : Fl.fin (0 : ℝ) / Fl.fin 1 = Fl.fin 0 := by rw [Fl.fin_div _ one_ne_zero, zero_div]
  refine ⟨turnRng_ok, List.replicate 25 0, List.replicate 25 1 ++ List.replicate 25 0, ⟨[[Fl.fin 1, Fl.fin 0]], [[0]]⟩, ⟨[[Fl.fin 0, Fl.fin 1]], [[1]]⟩, by simp, ?_, ?_⟩
  all_goals
    simp [List.replicate, runAtomic, AtomicCode.step, priorCode, AtomicCode.get, AtomicCode.put, newPriors, checkedPrior, methodCode, generateDirichletCode, checkXy, dirichletDrawCode, drawGlobal, drawPrior, dirichletCode, dirichletBagCode,
      dirichletCount, examplesCode, whereEq, fillSlice, List.range_succ, turnRng, lazyRng, Except.map, PriorStore.setGen, PriorStore.setRng, returnPrior, npUnique_eq, hl, hr1, hr0, h1, h0]

/-- A thread that finds the arrays in the generator. -/
theorem filledPrior_safe {rng : Rng G} {fuel i : ℕ} {p : List (List Fl)} {x : List (List ℕ)} {t : ℕ} (d : BagData α) :
    Safe (fun _ (s s' : PriorStore G) => s' = s) t (· = some (.ok ⟨p, x⟩)) 2 (fun s => (s.gens i).prevs = some p ∧ (s.gens i).idx = some x) (priorCode rng fuel i d) := by
  have hu : Undisturbed (fun _ (s s' : PriorStore G) => s' = s) t (fun s => (s.gens i).prevs = some p ∧ (s.gens i).idx = some x) := fun u _ s s' h hs => by rw [h]; exact hs
  unfold priorCode
  refine Safe.getSame (fun _ => rfl) hu fun s hs => ?_
  rw [hs.1, hs.2]
  refine Safe.getSame (fun _ => rfl) hu fun s hs => ?_
  rw [hs.1, hs.2]
  exact .ret _ _ _ fun _ _ => rfl

/-- **C174** (a shared generator whose bags have been generated before): any number of threads get those bags, whatever the schedule. -/
theorem C174_filled_partial (rng : Rng G) (s : PriorStore G) (i : ℕ) (b : Bags) (hp : (s.gens i).prevs = some b.prevs) (hx : (s.gens i).idx = some b.idx) (fuel : ℕ → ℕ) (d : ℕ → BagData α) (sch : List ℕ) (t : ℕ) (ht : 2 ≤ sch.count t) :
    (runAtomic sch s fun t => priorCode rng (fuel t) i (d t)).2 t = .ret (some (.ok b)) := by
  have h := safe_run (G := fun _ (s s' : PriorStore G) => s' = s) (fun _ r => r = some (.ok b)) sch s (fun t => priorCode rng (fuel t) i (d t)) (fun _ => 2)
    (fun t => ⟨_, fun u _ s s' h hs => by rw [h]; exact hs, ⟨hp, hx⟩, filledPrior_safe (d t)⟩) t
  obtain ⟨r, hr⟩ := h.2 ht
  rw [hr, h.1 r hr]

/-- C174: three threads, each with its own generator with the seed by default, five bags of four examples with the uniform method: the third one gets five bags. -/
example (sch : List ℕ) (h : priorOps 2 5 5 ≤ sch.count 2) : ∃ b, (runAtomic sch (newPriors true 5 4 .uniform .none 2032) fun t => priorCode lazyRng 5 t (⟨[0, 1, 1], some 3⟩ : BagData ℕ)).2 2 = .ret (some (.ok b)) ∧ AreBags [0, 1, 1] 4 5 b := by
  have hl : npUnique ([0, 1, 1] : List ℕ) = [0, 1] := (show npUnique [0, 1, 1] = labelsOf [0, 1, 1] from rfl).trans (labelsOf_eq _ _ (by decide) (by decide))
  obtain ⟨s', b, hb⟩ := C82_uniform_returns_partial lazyRng lazyRng_ok lazyRng_total 5 ⟨5, some 4, .uniform, .none, .none, .seed 2032, none⟩ rfl rfl rfl (by simp)
    le_rfl true (⟨[0, 1, 1], some 3⟩ : BagData ℕ) (by simp) (Or.inr rfl) (by simp)
  have h1 := C174_uniform lazyRng lazyRng_ok (newPriors true 5 4 .uniform .none 2032) id Function.injective_id (fun _ => 2032) (fun _ => ⟨rfl, rfl⟩) (fun _ => 5) (fun _ => (⟨[0, 1, 1], some 3⟩ : BagData ℕ)) sch 2 rfl (by rw [hl]; exact h) true
  have h2 : (runAtomic sch (newPriors true 5 4 .uniform .none 2032) fun t => priorCode lazyRng 5 t (⟨[0, 1, 1], some 3⟩ : BagData ℕ)).2 2 = .ret (some (.ok b)) := by
    refine h1.trans ?_
    dsimp only [newPriors, id]
    rw [hb]
    rfl
  exact ⟨b, h2, C174_bags lazyRng lazyRng_ok (newPriors true 5 4 .uniform .none 2032) id Function.injective_id (fun _ => 2032) (fun _ => ⟨rfl, rfl⟩) (fun _ => 5) (fun _ => ⟨[0, 1, 1], some 3⟩) sch 2 (by simp) (by simp [newPriors]) b h2⟩

/-- C174: the generators of two threads share a `RandomState` object: after the draws of the second thread the first one gets a bag. -/
example : ∃ b, (runAtomic (List.replicate 30 1 ++ List.replicate 30 0) (⟨fun _ => ⟨1, some 1, .dirichlet, .scalar 1, .none, .obj (.shared 0), none, none⟩, fun _ => 0, 0⟩ : PriorStore ℕ) fun t => priorCode turnRng 0 t (⟨[0, 1], some 2⟩ : BagData ℕ)).2 0
    = .ret (some (.ok b)) ∧ AreBags [0, 1] 1 1 b := by
  have hl : labelsOf ([0, 1] : List ℕ) = [0, 1] := labelsOf_eq [0, 1] [0, 1] (by decide) (by decide)
  have hr1 : roundHalfEven 1 = 1 := by
    unfold roundHalfEven
    norm_num
  have hr0 : roundHalfEven 0 = 0 := by
    unfold roundHalfEven
    norm_num
  have h1 : Fl.fin (1 : ℝ) / Fl.fin 1 = Fl.fin 1 := by rw [Fl.fin_div _ one_ne_zero, div_one]
  have h0 : Fl.fin (0 : ℝ) / Fl.fin 1 = Fl.fin 0 := by rw [Fl.fin_div _ one_ne_zero, zero_div]
  have h : (runAtomic (List.replicate 30 1 ++ List.replicate 30 0) (⟨fun _ => ⟨1, some 1, .dirichlet, .scalar 1, .none, .obj (.shared 0), none, none⟩, fun _ => 0, 0⟩ : PriorStore ℕ) fun t => priorCode turnRng 0 t (⟨[0, 1], some 2⟩ : BagData ℕ)).2 0
      = .ret (some (.ok ⟨[[Fl.fin 0, Fl.fin 1]], [[1]]⟩)) := by
    simp [List.replicate, runAtomic, AtomicCode.step, priorCode, AtomicCode.get, AtomicCode.put, checkedPrior, methodCode, generateDirichletCode, checkXy, dirichletDrawCode, drawGlobal, drawPrior, dirichletCode, dirichletBagCode,
      dirichletCount, examplesCode, whereEq, fillSlice, List.range_succ, turnRng, lazyRng, Except.map, PriorStore.setGen, PriorStore.setRng, returnPrior, npUnique_eq, hl, hr1, hr0, h1, h0]
  exact ⟨_, h, (C174_shared_random_state turnRng turnRng_ok _ id Function.injective_id (fun _ => ⟨rfl, fun j hj => by cases hj⟩) (fun _ => 0) (fun _ => ⟨[0, 1], some 2⟩) (by simp) (by simp) _ 0).1 _ h⟩

/-- C174: `np.random.dirichlet` draws, and a thread that shares the generator gets the draws. -/
example : ∃ sch, (runAtomic sch (newPriors 0 1 3 .dirichlet (.scalar 1) 2032) fun _ => priorCode turnRng 0 0 (⟨[0, 1], some 2⟩ : BagData ℕ)).2 1 = .ret (some (.ok ⟨[[Fl.fin 1, Fl.fin 0]], [[0, 0, 0]]⟩)) := by
  have hl : labelsOf ([0, 1] : List ℕ) = [0, 1] := labelsOf_eq [0, 1] [0, 1] (by decide) (by decide)
  simpa [List.replicate] using C174_drawn_refuted turnRng 0 1 3 1 2032 0 (fun _ => (⟨[0, 1], some 2⟩ : BagData ℕ)) (by simp [checkXy]) [[1, 0]] 1 (by simp [hl, turnRng, lazyRng, Except.map, List.replicate])

end Verif.Props
