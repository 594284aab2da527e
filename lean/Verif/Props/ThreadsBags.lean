import Verif.Proof.ThreadsBags

/-!
# C168: threads that generate bags
-/

namespace Verif.Props

open Verif.Model Verif.Spec Verif.Proof

variable {G α : Type} [LinearOrder α]

/-- **C168** (a generator with a seed for each thread): threads that call `generate_bags` at the same time, each one on its own new generator, all get, whatever the schedule, what they get when there are no other threads. -/
theorem C168_own_generators (rng : Rng G) (hr : RngOk rng) (s : BagStore G) (o : ℕ → ℕ) (ho : Function.Injective o) (seed : ℕ → ℤ) (hs : ∀ t, (s.gens (o t)).rs = .seed (seed t) ∧ (s.gens (o t)).prevs = none ∧ (s.gens (o t)).idx = none)
    (d : ℕ → BagData α) (sim : ℕ → ℕ → List ℝ) (sch : List ℕ) (t : ℕ) (ht : covOps (npUnique (d t).y).length (s.gens (o t)).nBags ≤ sch.count t) :
    (runAtomic sch s fun t => covCode rng (o t) (d t) (sim t)).2 t = .ret (covGenerate rng ⟨(s.gens (o t)).nBags, (s.gens (o t)).bagSize, .seed (seed t), none⟩ (d t) (sim t)).2 := by
  have h := safe_run (G := OwnGen o) (fun t r => r = (covGenerate rng ⟨(s.gens (o t)).nBags, (s.gens (o t)).bagSize, .seed (seed t), none⟩ (d t) (sim t)).2) sch s (fun t => covCode rng (o t) (d t) (sim t))
    (fun t => covOps (npUnique (d t).y).length (s.gens (o t)).nBags) (fun t => ⟨GenIs (o t) (fun _ => True) (s.gens (o t)), genIs_undisturbed ho _ _, ⟨rfl, trivial⟩,
      covCode_safe_own rng (fun g lo hi n l g' h => (hr.randint g lo hi n l g' h).1) ho (d t) (sim t) _ ⟨(hs t).2.1, (hs t).2.2, fun j hj => by rw [(hs t).1] at hj; cases hj⟩ _ (hs t).1⟩) t
  obtain ⟨r, hr'⟩ := h.2 ht
  rw [hr', h.1 r hr']

/-- **C168** (a generator for each thread, with shared `RandomState` objects): whatever the schedule, every call that returns returns bags: the positions are of examples of its data set and the prevalences are the ones of those examples. -/
theorem C168_shared_random_state (rng : Rng G) (hr : RngOk rng) (s : BagStore G) (o : ℕ → ℕ) (ho : Function.Injective o) (hs : ∀ t, FreshGen (s.gens (o t))) (d : ℕ → BagData α) (sim : ℕ → ℕ → List ℝ)
    (hsim : ∀ t, ∀ i < (d t).y.length, (sim t i).length = (d t).y.length) (hbs : ∀ t, 0 < (s.gens (o t)).bagSize.getD (d t).y.length) (sch : List ℕ) (t : ℕ) :
    (∀ b, (runAtomic sch s fun t => covCode rng (o t) (d t) (sim t)).2 t = .ret (.ok b) → AreBags (d t).y ((s.gens (o t)).bagSize.getD (d t).y.length) (s.gens (o t)).nBags b)
      ∧ (covOps (npUnique (d t).y).length (s.gens (o t)).nBags ≤ sch.count t → ∃ r, (runAtomic sch s fun t => covCode rng (o t) (d t) (sim t)).2 t = .ret r) := by
  have h := safe_run (G := OwnGen o) (fun t r => ∀ b, r = .ok b → AreBags (d t).y ((s.gens (o t)).bagSize.getD (d t).y.length) (s.gens (o t)).nBags b) sch s (fun t => covCode rng (o t) (d t) (sim t))
    (fun t => covOps (npUnique (d t).y).length (s.gens (o t)).nBags) (fun t => ⟨GenIs (o t) (fun _ => True) (s.gens (o t)), genIs_undisturbed ho _ _, ⟨rfl, trivial⟩, covCode_safe_any hr ho (d t) (sim t) (hsim t) _ (hs t) (hbs t)⟩) t
  exact ⟨fun b hb => h.1 _ hb b rfl, h.2⟩

/-- A store whose generators are new, with a seed, for `nBags` bags of `bs` examples. -/
def newGens (g : G) (nBags bs : ℕ) (m : ℤ) : BagStore G := ⟨fun _ => ⟨nBags, some bs, .seed m, none, none⟩, fun _ => g⟩

/-- **C168** (refuted for a shared generator): whatever the data, the second thread can get, without any exception, the arrays of zeros that the first one has not yet filled. -/
theorem C168_zeros_refuted (rng : Rng G) (g : G) (nBags bs : ℕ) (m : ℤ) (d : ℕ → BagData α) (hd : (d 0).lenX = some (d 0).y.length) (hy : (d 0).y ≠ []) (sim : ℕ → ℕ → List ℝ) :
    ∃ sch, (runAtomic sch (newGens g nBags bs m) fun t => covCode rng 0 (d t) (sim t)).2 1 =
      .ret (.ok ⟨List.replicate nBags (List.replicate (labelsOf (d 0).y).length (Fl.fin 0)), List.replicate nBags (List.replicate bs 0)⟩) := by
  refine ⟨[0, 0, 0, 0, 0, 0, 0, 0, 0, 1, 1], ?_⟩
  simp [runAtomic, AtomicCode.step, covCode, AtomicCode.get, AtomicCode.put, newGens, checkedCode, hd, hy, fillCode, BagStore.setGen, BagStore.setRng, returnCode, npUnique_eq]

/-- **C168** (refuted for a shared generator): the second thread can raise TypeError, since it makes a `RandomState` from what it read as a seed before. -/
theorem C168_type_error_refuted (rng : Rng G) (g : G) (nBags bs : ℕ) (m : ℤ) (d : ℕ → BagData α) (sim : ℕ → ℕ → List ℝ) :
    ∃ sch, (runAtomic sch (newGens g nBags bs m) fun t => covCode rng 0 (d t) (sim t)).2 1 = .ret (.error .typeError) := by
  refine ⟨[1, 1, 0, 0, 0, 0, 1], ?_⟩
  simp [runAtomic, AtomicCode.step, covCode, AtomicCode.get, AtomicCode.put, newGens, BagStore.setGen, BagStore.setRng]

/-- A generator of random numbers that counts its calls of `choice`, and whose draws depend on that number. -/
noncomputable def countRng : Rng ℕ where
  ofSeed _ := 0
  randint g lo hi n := if lo < hi then .ok (List.replicate n lo, g) else .error .valueError
  choice g pool n := match pool with
    | [] => .error .valueError
    | a :: _ => if 0 ≤ n then .ok (List.replicate n.toNat a, g + 1) else .error .valueError
  choiceP g p n := if p.length = 0 then .error .valueError else .ok (List.replicate n (g % p.length), g + 1)
  dirichlet _ _ _ := .error .valueError

theorem countRng_ok : RngOk countRng where
  randint g lo hi n l g' h := by
    simp only [countRng] at h
    split_ifs at h with hlt
    simp only [Except.ok.injEq, Prod.mk.injEq] at h
    obtain ⟨rfl, -⟩ := h
    refine ⟨by simp, fun x hx => ?_⟩
    obtain rfl := List.eq_of_mem_replicate hx
    exact ⟨le_rfl, hlt⟩
  choice g pool n l g' h := by
    simp only [countRng] at h
    cases pool with
    | nil => simp at h
    | cons a r =>
      dsimp only at h
      split_ifs at h with hn
      simp only [Except.ok.injEq, Prod.mk.injEq] at h
      obtain ⟨rfl, -⟩ := h
      refine ⟨by rw [List.length_replicate]; omega, fun i hi => ?_⟩
      obtain rfl := List.eq_of_mem_replicate hi
      simp
  choiceP g p n l g' h := by
    simp only [countRng] at h
    split_ifs at h with hp
    simp only [Except.ok.injEq, Prod.mk.injEq] at h
    obtain ⟨rfl, -⟩ := h
    refine ⟨by simp, fun x hx => ?_⟩
    obtain rfl := List.eq_of_mem_replicate hx
    exact Nat.mod_lt _ (Nat.pos_of_ne_zero hp)
  dirichlet g a n l g' h := by
    simp [countRng] at h

/-- **C168** (refuted for a shared generator): the prevalences that both threads get when they have finished can sum two, and not be the ones of the examples of the bag. -/
theorem C168_not_prevalences_refuted : RngOk countRng ∧ ∃ sch, ∀ t < 2, (runAtomic sch (newGens 0 1 1 2032) fun _ => covCode countRng 0 (⟨[0, 1], some 2⟩ : BagData ℕ) fun _ => [1, 1]).2 t =
    .ret (.ok ⟨[[Fl.fin 1, Fl.fin 1]], [[1]]⟩) := by
  have hu : npUnique [0, 1] = [0, 1] := (show npUnique [0, 1] = labelsOf [0, 1] from rfl).trans (labelsOf_eq _ _ (by decide) (by decide))
  have h1 : Fl.fin (1 : ℝ) / Fl.fin 1 = Fl.fin 1 := by rw [Fl.fin_div _ one_ne_zero, div_one]
  refine ⟨countRng_ok, [0, 1, 0, 0, 0, 0, 0, 0, 0, 0, 0, 0, 0, 1, 1, 1, 1, 1, 1, 1, 1, 1, 0, 0, 0, 0, 0, 1, 1, 1, 1, 1, 1, 0, 0, 0, 0, 1, 1, 1], fun t ht => ?_⟩
  obtain rfl | rfl : t = 0 ∨ t = 1 := by omega
  all_goals
  simp [runAtomic, AtomicCode.step, covCode, AtomicCode.get, AtomicCode.put, newGens, checkedCode, fillCode, BagStore.setGen, BagStore.setRng, returnCode, hu, countRng, drawCode, rngCode, bagsCode, classesCode, shareIn, h1]

/-- **C168** (refuted for shared `RandomState` objects): with a generator for each thread that share a `RandomState` object, the bags that a thread gets depend on the schedule. -/
theorem C168_not_reproducible_refuted : ∃ sch sch' b b', b ≠ b' ∧
    (runAtomic sch ⟨fun _ => ⟨1, some 1, .obj (.shared 0), none, none⟩, fun _ => 0⟩ fun t => covCode countRng t (⟨[0, 1], some 2⟩ : BagData ℕ) fun _ => [1, 1]).2 0 = .ret (.ok b)
    ∧ (runAtomic sch' ⟨fun _ => ⟨1, some 1, .obj (.shared 0), none, none⟩, fun _ => 0⟩ fun t => covCode countRng t (⟨[0, 1], some 2⟩ : BagData ℕ) fun _ => [1, 1]).2 0 = .ret (.ok b') := by
  have hu : npUnique [0, 1] = [0, 1] := (show npUnique [0, 1] = labelsOf [0, 1] from rfl).trans (labelsOf_eq _ _ (by decide) (by decide))
  have h1 : Fl.fin (1 : ℝ) / Fl.fin 1 = Fl.fin 1 := by rw [Fl.fin_div _ one_ne_zero, div_one]
  have h0 : Fl.fin (0 : ℝ) / Fl.fin 1 = Fl.fin 0 := by rw [Fl.fin_div _ one_ne_zero, zero_div]
  refine ⟨List.replicate 20 0, List.replicate 20 1 ++ List.replicate 20 0, ⟨[[Fl.fin 1, Fl.fin 0]], [[0]]⟩, ⟨[[Fl.fin 0, Fl.fin 1]], [[1]]⟩, by simp, ?_, ?_⟩
  all_goals
    simp [List.replicate, runAtomic, AtomicCode.step, covCode, AtomicCode.get, AtomicCode.put, checkedCode, fillCode, BagStore.setGen, BagStore.setRng, returnCode, hu, countRng, drawCode, rngCode, bagsCode, classesCode, shareIn, h1, h0]

/-- A thread that finds the arrays in the generator. -/
theorem filled_safe {rng : Rng G} {i : ℕ} {p : List (List Fl)} {x : List (List ℕ)} {t : ℕ} (d : BagData α) (sim : ℕ → List ℝ) :
    Safe (fun _ (s s' : BagStore G) => s' = s) t (· = .ok ⟨p, x⟩) 2 (fun s => (s.gens i).prevs = some p ∧ (s.gens i).idx = some x) (covCode rng i d sim) := by
  have hu : Undisturbed (fun _ (s s' : BagStore G) => s' = s) t (fun s => (s.gens i).prevs = some p ∧ (s.gens i).idx = some x) := fun u _ s s' h hs => by rw [h]; exact hs
  unfold covCode
  refine Safe.getSame (fun _ => rfl) hu fun s hs => ?_
  rw [hs.1, hs.2]
  refine Safe.getSame (fun _ => rfl) hu fun s hs => ?_
  rw [hs.1, hs.2]
  exact .ret _ _ _ fun _ _ => rfl

/-- **C168** (a shared generator whose bags have been generated before): any number of threads get those bags, whatever the schedule. -/
theorem C168_filled_partial (rng : Rng G) (s : BagStore G) (i : ℕ) (b : Bags) (hp : (s.gens i).prevs = some b.prevs) (hx : (s.gens i).idx = some b.idx) (d : ℕ → BagData α) (sim : ℕ → ℕ → List ℝ) (sch : List ℕ) (t : ℕ) (ht : 2 ≤ sch.count t) :
    (runAtomic sch s fun t => covCode rng i (d t) (sim t)).2 t = .ret (.ok b) := by
  have h := safe_run (G := fun _ (s s' : BagStore G) => s' = s) (fun _ r => r = .ok b) sch s (fun t => covCode rng i (d t) (sim t)) (fun _ => 2)
    (fun t => ⟨_, fun u _ s s' h hs => by rw [h]; exact hs, ⟨hp, hx⟩, filled_safe (d t) (sim t)⟩) t
  obtain ⟨r, hr⟩ := h.2 ht
  rw [hr, h.1 r hr]

/-- C168: three threads, each with its own generator with the seed by default, four bags of three examples. -/
example (sch : List ℕ) (h : covOps 2 4 ≤ sch.count 2) : (runAtomic sch (newGens 0 4 3 2032) fun t => covCode countRng t (⟨[0, 1], some 2⟩ : BagData ℕ) fun _ => [1, 1]).2 2 =
    .ret (covGenerate countRng ⟨4, some 3, .seed 2032, none⟩ (⟨[0, 1], some 2⟩ : BagData ℕ) fun _ => [1, 1]).2 := by
  have hu : npUnique [0, 1] = [0, 1] := (show npUnique [0, 1] = labelsOf [0, 1] from rfl).trans (labelsOf_eq _ _ (by decide) (by decide))
  exact C168_own_generators countRng countRng_ok (newGens 0 4 3 2032) id Function.injective_id (fun _ => 2032) (fun _ => ⟨rfl, rfl, rfl⟩) (fun _ => ⟨[0, 1], some 2⟩) (fun _ _ => [1, 1]) sch 2 (by rw [hu]; exact h)

/-- C168: generators that share a `RandomState` object, and a call that returns. -/
example : ∃ b, (runAtomic (List.replicate 20 0) ⟨fun _ => ⟨1, some 1, .obj (.shared 0), none, none⟩, fun _ => 0⟩ fun t => covCode countRng t (⟨[0, 1], some 2⟩ : BagData ℕ) fun _ => [1, 1]).2 0 = .ret (.ok b) ∧ AreBags [0, 1] 1 1 b := by
  have hu : npUnique [0, 1] = [0, 1] := (show npUnique [0, 1] = labelsOf [0, 1] from rfl).trans (labelsOf_eq _ _ (by decide) (by decide))
  have h : (runAtomic (List.replicate 20 0) ⟨fun _ => ⟨1, some 1, .obj (.shared 0), none, none⟩, fun _ => 0⟩ fun t => covCode countRng t (⟨[0, 1], some 2⟩ : BagData ℕ) fun _ => [1, 1]).2 0 =
      .ret (.ok ⟨[[Fl.fin 1 / Fl.fin 1, Fl.fin 0 / Fl.fin 1]], [[0]]⟩) := by
    simp [List.replicate, runAtomic, AtomicCode.step, covCode, AtomicCode.get, AtomicCode.put, checkedCode, fillCode, BagStore.setGen, BagStore.setRng, returnCode, hu, countRng, drawCode, rngCode, bagsCode, classesCode, shareIn]
  exact ⟨_, h, (C168_shared_random_state countRng countRng_ok _ id Function.injective_id (fun _ => ⟨rfl, rfl, fun j hj => by cases hj⟩) (fun _ => ⟨[0, 1], some 2⟩) (fun _ _ => [1, 1]) (by simp) (by simp) _ 0).1 _ h⟩

end Verif.Props
