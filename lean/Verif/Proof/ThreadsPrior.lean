import Verif.Model.ThreadsPrior
import Verif.Proof.ThreadsBags

/-!
# Threads that generate bags with prior probability shift, under any schedule
-/

namespace Verif.Proof

open Verif.Model Verif.Spec Verif.Props

section
variable {G α : Type} [LinearOrder α] {o : ℕ → ℕ} {t : ℕ} {Φ : Option (Except Err Bags) → Prop} {n : ℕ}

/-- What the thread with generator `o t` may change: that generator, the `RandomState` that it made from its seed, the ones that the program made and the one of the module. -/
def OwnPrior (o : ℕ → ℕ) (t : ℕ) (s s' : PriorStore G) : Prop := (∀ j, j ≠ o t → s'.gens j = s.gens j) ∧ ∀ j, j ≠ o t → s'.rngs (.own j) = s.rngs (.own j)

/-- The generator of the thread is `c`, and the state of its own `RandomState` is as `E` says. -/
def PriorIs (i : ℕ) (E : G → Prop) (c : PriorCell) (s : PriorStore G) : Prop := s.gens i = c ∧ E (s.rngs (.own i))

theorem priorIs_undisturbed (ho : Function.Injective o) (E : G → Prop) (c : PriorCell) : Undisturbed (OwnPrior o) t (PriorIs (o t) E c) := by
  intro u hu s s' hG hP
  have hne : o t ≠ o u := fun h => hu (ho h.symm)
  exact ⟨(hG.1 _ hne).trans hP.1, by rw [hG.2 _ hne]; exact hP.2⟩

theorem ownPrior_refl (s : PriorStore G) : OwnPrior o t s s := ⟨fun _ _ => rfl, fun _ _ => rfl⟩

theorem prior_get {E : G → Prop} {c : PriorCell} {k : PriorStore G → PriorCode G} (ho : Function.Injective o) (hk : ∀ s, PriorIs (o t) E c s → Safe (OwnPrior o) t Φ n (PriorIs (o t) E c) (k s)) :
    Safe (OwnPrior o) t Φ (n + 1) (PriorIs (o t) E c) (.get k) :=
  Safe.getSame ownPrior_refl (priorIs_undisturbed ho E c) hk

theorem prior_setGen {E : G → Prop} {c : PriorCell} {f : PriorCell → PriorCell} {k : PriorCode G} (ho : Function.Injective o) (hk : Safe (OwnPrior o) t Φ n (PriorIs (o t) E (f c)) k) :
    Safe (OwnPrior o) t Φ (n + 1) (PriorIs (o t) E c) (.put (PriorStore.setGen (o t) f) k) := by
  refine .op n _ _ _ (fun _ => PriorIs (o t) E (f c)) (fun _ _ => priorIs_undisturbed ho _ _) (fun s _ => ⟨fun j hj => ?_, fun _ _ => rfl⟩) (fun s hs => ⟨?_, hs.2⟩) fun _ _ => hk
  · exact Function.update_of_ne hj _ _
  · change Function.update s.gens (o t) (f (s.gens (o t))) (o t) = f c
    rw [Function.update_self, hs.1]

/-- A draw of the `RandomState` of the generator, whose state is known. -/
theorem prior_draw {c : PriorCell} {A : Type} {g : G} {draw : G → Except Err (A × G)} {k : A → PriorCode G} (ho : Function.Injective o) (hc : c.rs = .obj (.own (o t)))
    (herr : ∀ e, draw g = .error e → Φ (some (.error e))) (hk : ∀ a g', draw g = .ok (a, g') → Safe (OwnPrior o) t Φ n (PriorIs (o t) (· = g') c) (k a)) :
    Safe (OwnPrior o) t Φ (n + 1 + 1) (PriorIs (o t) (· = g) c) (drawPrior (o t) draw k) := by
  refine prior_get ho fun s hs => ?_
  rw [hs.1, hc]
  refine .op n _ _ _ (fun _ => PriorIs (o t) (· = match draw g with | .error _ => g | .ok r => r.2) c) (fun _ _ => priorIs_undisturbed ho _ _) (fun s hs => ?_) (fun s hs => ?_) fun s hs => ?_
  · cases hd : draw (s.rngs (.own (o t))) with
    | error e => exact ownPrior_refl s
    | ok r => exact ⟨fun _ _ => rfl, fun j hj => Function.update_of_ne (fun h => hj (by injection h)) _ _⟩
  · have h2 : s.rngs (.own (o t)) = g := hs.2
    rw [h2]
    cases hd : draw g with
    | error e => exact hs
    | ok r => exact ⟨hs.1, Function.update_self _ _ _⟩
  · have h2 : s.rngs (.own (o t)) = g := hs.2
    rw [h2]
    cases hd : draw g with
    | error e => exact .ret _ _ _ fun _ _ => herr e hd
    | ok r => exact hk r.1 r.2 hd

/-- A draw of the generator of the module, whose state may be any. -/
theorem prior_global {c : PriorCell} {A : Type} {E : G → Prop} {draw : G → Except Err (A × G)} {k : A → PriorCode G} (ho : Function.Injective o)
    (herr : ∀ g e, draw g = .error e → Φ (some (.error e))) (hk : ∀ g a g', draw g = .ok (a, g') → Safe (OwnPrior o) t Φ n (PriorIs (o t) E c) (k a)) :
    Safe (OwnPrior o) t Φ (n + 1) (PriorIs (o t) E c) (drawGlobal draw k) := by
  refine .op n _ _ _ (fun _ => PriorIs (o t) E c) (fun _ _ => priorIs_undisturbed ho _ _) (fun s hs => ?_) (fun s hs => ?_) fun s hs => ?_
  · cases hd : draw s.glob with
    | error e => exact ownPrior_refl s
    | ok r => exact ⟨fun _ _ => rfl, fun _ _ => rfl⟩
  · cases hd : draw s.glob with
    | error e => exact hs
    | ok r => exact hs
  · cases hd : draw s.glob with
    | error e => exact .ret _ _ _ fun _ _ => herr _ e hd
    | ok r => exact hk _ r.1 r.2 hd

theorem prior_seed {E : G → Prop} {c : PriorCell} {g : G} {k : PriorCode G} (ho : Function.Injective o)
    (hk : Safe (OwnPrior o) t Φ n (PriorIs (o t) (· = g) { c with rs := .obj (.own (o t)) }) k) :
    Safe (OwnPrior o) t Φ (n + 1) (PriorIs (o t) E c) (.put (fun s => (s.setGen (o t) fun a => { a with rs := .obj (.own (o t)) }).setRng (.own (o t)) g) k) := by
  refine .op n _ _ _ (fun _ => PriorIs (o t) (· = g) { c with rs := .obj (.own (o t)) }) (fun _ _ => priorIs_undisturbed ho _ _) (fun s _ => ⟨fun j hj => ?_, fun j hj => ?_⟩) (fun s hs => ⟨?_, ?_⟩) fun _ _ => hk
  · exact Function.update_of_ne hj _ _
  · exact Function.update_of_ne (fun h => hj (by injection h)) _ _
  · change Function.update s.gens (o t) _ (o t) = _
    rw [Function.update_self, hs.1]
  · exact Function.update_self _ _ _

/-- The generator with its arrays. -/
def priorArrays (c : PriorCell) (p : List (List Fl)) (x : List (List ℕ)) : PriorCell := { c with prevs := some p, idx := some x }

theorem returnPrior_safe {E : G → Prop} (ho : Function.Injective o) (c : PriorCell) (p : List (List Fl)) (x : List (List ℕ)) (h : Φ (some (.ok ⟨p, x⟩))) :
    Safe (OwnPrior o) t Φ 1 (PriorIs (o t) E (priorArrays c p x)) (returnPrior (o t)) := by
  refine prior_get ho fun s hs => ?_
  rw [hs.1]
  exact .ret _ _ _ fun _ _ => h

theorem set_getD_self {β : Type} (l : List β) (k : ℕ) (d : β) : l.set k (l.getD k d) = l := by
  apply List.ext_getElem (by simp)
  intro i h1 h2
  rw [List.getElem_set]
  split
  · subst_vars
    rw [List.getD_eq_getElem _ _ h2]
  · rfl

/-- The examples of a class, with what the sequential code does. -/
theorem examples_safe (rng : Rng G) (ho : Function.Injective o) (y : List α) (nBag : ℕ) (c : PriorCell) (hc : c.rs = .obj (.own (o t))) (p : List (List Fl)) (x : List (List ℕ)) (g : G) (a : α) (m : ℤ) (pos : ℕ) (k : ℕ → PriorCode G)
    (herr : ∀ e, m ≠ 0 → rng.choice g (whereEq y a) m = .error e → Φ (some (.error e)))
    (hok : ∀ xs g', m ≠ 0 → rng.choice g (whereEq y a) m = .ok (xs, g') → Safe (OwnPrior o) t Φ n (PriorIs (o t) (· = g') (priorArrays c p (x.set nBag (fillSlice (x.getD nBag []) pos xs)))) (k (pos + xs.length)))
    (h0 : m = 0 → Safe (OwnPrior o) t Φ n (PriorIs (o t) (· = g) (priorArrays c p x)) (k pos)) :
    Safe (OwnPrior o) t Φ (n + 3) (PriorIs (o t) (· = g) (priorArrays c p x)) (examplesCode rng (o t) y nBag a m pos k) := by
  unfold examplesCode
  split_ifs with hm
  · exact prior_draw (n := n + 1) ho hc (fun e he => herr e hm he) fun xs g' hd => prior_setGen ho (hok xs g' hm hd)
  · exact Safe.mono (h0 (not_not.1 hm)) (by omega)

theorem fillPrior_safe (rng : Rng G) (ho : Function.Injective o) (y : List α) (nBag : ℕ) (c : PriorCell) (hc : c.rs = .obj (.own (o t))) (p : List (List Fl)) (rest : PriorCode G) (cs : List (α × ℤ)) :
    ∀ (pos : ℕ) (g : G) (x : List (List ℕ)), nBag < x.length → (∀ e, (fillClasses rng y cs g (x.getD nBag []) pos).2.2 = some e → Φ (some (.error e))) →
    ((fillClasses rng y cs g (x.getD nBag []) pos).2.2 = none →
      Safe (OwnPrior o) t Φ n (PriorIs (o t) (· = (fillClasses rng y cs g (x.getD nBag []) pos).2.1) (priorArrays c p (x.set nBag (fillClasses rng y cs g (x.getD nBag []) pos).1))) rest) →
    Safe (OwnPrior o) t Φ (3 * cs.length + n) (PriorIs (o t) (· = g) (priorArrays c p x)) (fillPrior rng (o t) y nBag rest cs pos) := by
  induction cs with
  | nil =>
    intro pos g x _ _ hok
    have := hok rfl
    simp only [fillClasses, set_getD_self] at this
    simpa [fillPrior] using this
  | cons am cs ih =>
    obtain ⟨a, m⟩ := am
    intro pos g x hx herr hok
    unfold fillPrior
    rw [show 3 * ((a, m) :: cs).length + n = (3 * cs.length + n) + 3 by rw [List.length_cons]; ring]
    refine examples_safe rng ho y nBag c hc p x g a m pos _ (fun e hm he => ?_) (fun xs g' hm hd => ?_) fun hm => ?_
    · refine herr e ?_
      rw [fillClasses, if_pos hm, he]
    · have e : fillClasses rng y ((a, m) :: cs) g (x.getD nBag []) pos = fillClasses rng y cs g' (fillSlice (x.getD nBag []) pos xs) (pos + xs.length) := by
        rw [fillClasses, if_pos hm, hd]
      rw [e] at herr hok
      have := ih (pos + xs.length) g' (x.set nBag (fillSlice (x.getD nBag []) pos xs)) (by simpa using hx)
      rw [getD_set_eq _ _ _ _ hx, List.set_set] at this
      exact this herr hok
    · have e : fillClasses rng y ((a, m) :: cs) g (x.getD nBag []) pos = fillClasses rng y cs g (x.getD nBag []) pos := by
        rw [fillClasses, if_neg (not_not.2 hm)]
      rw [e] at herr hok
      exact ih pos g x hx herr hok

/-- What the call returns, from what the while loop leaves. -/
def uniformAnswer (r : Option (Bags × G × Option Err)) : Option (Except Err Bags) :=
  r.map loopAnswer

theorem kraemer_length (draws : List ℤ) (bs : ℕ) : (kraemer draws bs).length = draws.length + 1 := by
  unfold kraemer
  simp

/-- The operations of the while loop. -/
def uniformOps (nClasses fuel : ℕ) : ℕ := fuel * (3 * nClasses + 7) + 2

theorem uniformCode_safe (rng : Rng G) (ho : Function.Injective o) (y : List α) (mins : Option (List ℤ)) (low high : ℤ) (bs : ℕ) (c : PriorCell) (hbs : c.bagSize = some bs) (hc : c.rs = .obj (.own (o t))) (fuel : ℕ) :
    ∀ (nBag : ℕ) (g : G) (p : List (List Fl)) (x : List (List ℕ)), x.length = c.nBags →
    Safe (OwnPrior o) t (· = uniformAnswer (uniformLoop rng y (npUnique y) bs c.nBags mins low high fuel nBag g ⟨p, x⟩)) (uniformOps (npUnique y).length fuel) (PriorIs (o t) (· = g) (priorArrays c p x))
      (uniformCode rng (o t) y mins low high fuel nBag) := by
  induction fuel with
  | zero =>
    intro nBag g p x hx
    unfold uniformCode
    have e : uniformOps (npUnique y).length 0 = 1 + 1 := by simp [uniformOps]
    rw [e]
    refine prior_get ho fun s hs => ?_
    have h1 : (s.gens (o t)).nBags = c.nBags := by rw [hs.1]; rfl
    rw [h1, uniformLoop]
    split_ifs with hlt
    · exact .ret _ _ _ fun _ _ => rfl
    · exact returnPrior_safe ho c p x rfl
  | succ fuel ih =>
    intro nBag g p x hx
    unfold uniformCode
    have e : uniformOps (npUnique y).length (fuel + 1) = (3 * (npUnique y).length + uniformOps (npUnique y).length fuel + 1 + 1 + 1 + 1 + 1 + 1) + 1 := by
      simp only [uniformOps]; ring
    rw [e]
    refine prior_get ho fun s hs => ?_
    have h1 : (s.gens (o t)).nBags = c.nBags := by rw [hs.1]; rfl
    rw [h1, uniformLoop]
    split_ifs with hlt
    · refine prior_draw (n := 3 * (npUnique y).length + uniformOps (npUnique y).length fuel + 1 + 1 + 1 + 1) ho hc (fun e he => ?_) fun draws g' hd => ?_
      · dsimp only
        rw [he]
        rfl
      · dsimp only
        rw [hd]
        dsimp only
        refine prior_get ho fun s hs => ?_
        have h2 : (s.gens (o t)).bagSize.getD 0 = bs := by rw [hs.1]; simp [priorArrays, hbs]
        rw [h2]
        split_ifs with hm
        · refine Safe.mono (n := 3 * (npUnique y).length + uniformOps (npUnique y).length fuel + 1 + 1) ?_ (by omega)
          refine prior_get ho fun s' hs' => prior_setGen ho ?_
          have h3 : (s'.gens (o t)).bagSize.getD 0 = bs := by rw [hs'.1]; simp [priorArrays, hbs]
          rw [h3]
          have h4 : ({ priorArrays c p x with prevs := (priorArrays c p x).prevs.map fun p => p.set nBag ((kraemer draws bs).map fun n : ℤ => Fl.fin (n : ℝ) / Fl.fin (bs : ℝ)) } : PriorCell)
              = priorArrays c (p.set nBag ((kraemer draws bs).map fun n : ℤ => Fl.fin (n : ℝ) / Fl.fin (bs : ℝ))) x := rfl
          rw [h4]
          have hle : 3 * ((npUnique y).zip (kraemer draws bs)).length + uniformOps (npUnique y).length fuel ≤ 3 * (npUnique y).length + uniformOps (npUnique y).length fuel := by
            rw [List.length_zip]
            have := min_le_left (npUnique y).length (kraemer draws bs).length
            omega
          refine Safe.mono ?_ hle
          refine fillPrior_safe rng ho y nBag c hc _ _ _ 0 g' x (by omega) (fun e he => ?_) fun hn => ?_
          · generalize fillClasses rng y ((npUnique y).zip (kraemer draws bs)) g' (x.getD nBag []) 0 = r at he
            obtain ⟨col, g2, er⟩ := r
            dsimp only at he
            subst he
            rfl
          · generalize fillClasses rng y ((npUnique y).zip (kraemer draws bs)) g' (x.getD nBag []) 0 = r at hn ⊢
            obtain ⟨col, g2, er⟩ := r
            dsimp only at hn
            subst hn
            exact ih (nBag + 1) g2 _ _ (by simpa using hx)
        · exact Safe.mono (ih nBag g' p x hx) (by omega)
    · exact Safe.mono (returnPrior_safe ho c p x rfl) (by omega)

theorem dirichletCounts_cons (bs : ℕ) (q : ℝ) (ds : List ℝ) (pos : ℕ) (m : ℤ) (hm : m = if ds.isEmpty then (bs : ℤ) - pos else min ((bs : ℤ) - pos) (roundHalfEven (q * bs))) :
    dirichletCounts bs (q :: ds) pos = m :: dirichletCounts bs ds (pos + m.toNat) := by
  subst hm
  cases ds with
  | nil => simp [dirichletCounts]
  | cons q' ds => simp [dirichletCounts]

theorem dirichletCounts_length (bs : ℕ) (ds : List ℝ) : ∀ pos, (dirichletCounts bs ds pos).length = ds.length := by
  induction ds with
  | nil => intro pos; rfl
  | cons q ds ih =>
    intro pos
    rw [dirichletCounts_cons bs q ds pos _ rfl, List.length_cons, ih, List.length_cons]

theorem dirichletBag_safe {rng : Rng G} (hr : RngOk rng) (ho : Function.Injective o) (y : List α) (nBag : ℕ) (bs : ℕ) (c : PriorCell) (hbs : c.bagSize = some bs) (hc : c.rs = .obj (.own (o t))) (rest : PriorCode G) (cs : List α) :
    ∀ (ds : List ℝ) (done : List Fl) (pos : ℕ) (g : G) (p : List (List Fl)) (x : List (List ℕ)), ds.length = cs.length → nBag < p.length → nBag < x.length → p.getD nBag [] = done ++ ds.map Fl.fin →
    (∀ e, (fillClasses rng y (cs.zip (dirichletCounts bs ds pos)) g (x.getD nBag []) pos).2.2 = some e → Φ (some (.error e))) →
    ((fillClasses rng y (cs.zip (dirichletCounts bs ds pos)) g (x.getD nBag []) pos).2.2 = none →
      Safe (OwnPrior o) t Φ n (PriorIs (o t) (· = (fillClasses rng y (cs.zip (dirichletCounts bs ds pos)) g (x.getD nBag []) pos).2.1)
        (priorArrays c (p.set nBag (done ++ (dirichletCounts bs ds pos).map fun n : ℤ => Fl.fin (n : ℝ) / Fl.fin (bs : ℝ))) (x.set nBag (fillClasses rng y (cs.zip (dirichletCounts bs ds pos)) g (x.getD nBag []) pos).1))) rest) →
    Safe (OwnPrior o) t Φ (6 * cs.length + n) (PriorIs (o t) (· = g) (priorArrays c p x)) (dirichletBagCode rng (o t) y nBag rest cs done.length pos) := by
  induction cs with
  | nil =>
    intro ds done pos g p x hd _ _ hp _ hok
    obtain rfl : ds = [] := by simpa using hd
    have := hok rfl
    simp only [fillClasses, dirichletCounts, List.zip_nil_left, set_getD_self, List.map_nil] at this hp
    rw [← hp, set_getD_self] at this
    simpa [dirichletBagCode] using this
  | cons a cs ih =>
    intro ds done pos g p x hd hpl hxl hp herr hok
    cases ds with
    | nil => simp at hd
    | cons q ds =>
      have hd' : ds.length = cs.length := by simpa using hd
      have hem : cs.isEmpty = ds.isEmpty := by
        cases cs <;> cases ds <;> simp_all
      obtain ⟨m, hm⟩ : ∃ m, m = if ds.isEmpty then (bs : ℤ) - pos else min ((bs : ℤ) - pos) (roundHalfEven (q * bs)) := ⟨_, rfl⟩
      have hcons := dirichletCounts_cons bs q ds pos m hm
      rw [hcons] at herr hok
      unfold dirichletBagCode
      rw [show 6 * (a :: cs).length + n = (6 * cs.length + n) + 3 + 1 + 1 + 1 by rw [List.length_cons]; ring]
      refine prior_get ho fun s hs => ?_
      have hcount : dirichletCount (s.gens (o t)) nBag done.length pos cs.isEmpty = some m := by
        unfold dirichletCount
        rw [hs.1, hem]
        have h1 : ((priorArrays c p x).prevs.getD []).getD nBag [] = done ++ (q :: ds).map Fl.fin := hp
        have h2 : (priorArrays c p x).bagSize.getD 0 = bs := by simp [priorArrays, hbs]
        rw [h1, h2, hm]
        split_ifs with h
        · rfl
        · simp [List.getD]
      rw [hcount]
      refine prior_get ho fun s hs => prior_setGen ho ?_
      have h2 : (s.gens (o t)).bagSize.getD 0 = bs := by rw [hs.1]; simp [priorArrays, hbs]
      rw [h2]
      have h3 : ({ priorArrays c p x with prevs := (priorArrays c p x).prevs.map fun p => p.set nBag ((p.getD nBag []).set done.length (Fl.fin (m : ℝ) / Fl.fin (bs : ℝ))) } : PriorCell)
          = priorArrays c (p.set nBag (done ++ [Fl.fin (m : ℝ) / Fl.fin (bs : ℝ)] ++ ds.map Fl.fin)) x := by
        simp only [priorArrays, Option.map_some, hp]
        congr 3
        simp
      rw [h3]
      have hlen : done.length + 1 = (done ++ [Fl.fin (m : ℝ) / Fl.fin (bs : ℝ)]).length := by simp
      rw [hlen]
      refine examples_safe rng ho y nBag c hc _ x g a m pos _ (fun e hm0 he => ?_) (fun xs g' hm0 hdr => ?_) fun hm0 => ?_
      · refine herr e ?_
        rw [List.zip_cons_cons, fillClasses, if_pos hm0, he]
      · have hxs : pos + xs.length = pos + m.toNat := by
          have := (hr.choice _ _ _ _ _ hdr).1
          omega
        have e : fillClasses rng y ((a :: cs).zip (m :: dirichletCounts bs ds (pos + m.toNat))) g (x.getD nBag []) pos
            = fillClasses rng y (cs.zip (dirichletCounts bs ds (pos + m.toNat))) g' (fillSlice (x.getD nBag []) pos xs) (pos + m.toNat) := by
          rw [List.zip_cons_cons, fillClasses, if_pos hm0, hdr]
          dsimp only
          rw [hxs]
        rw [e] at herr hok
        rw [hxs]
        have := ih ds (done ++ [Fl.fin (m : ℝ) / Fl.fin (bs : ℝ)]) (pos + m.toNat) g' (p.set nBag (done ++ [Fl.fin (m : ℝ) / Fl.fin (bs : ℝ)] ++ ds.map Fl.fin)) (x.set nBag (fillSlice (x.getD nBag []) pos xs)) hd' (by simpa using hpl)
          (by simpa using hxl) (getD_set_eq _ _ _ _ hpl)
        rw [getD_set_eq _ _ _ _ hxl, List.set_set, List.set_set] at this
        refine this herr fun h => ?_
        have := hok h
        simpa using this
      · have e : fillClasses rng y ((a :: cs).zip (m :: dirichletCounts bs ds (pos + m.toNat))) g (x.getD nBag []) pos
            = fillClasses rng y (cs.zip (dirichletCounts bs ds pos)) g (x.getD nBag []) pos := by
          rw [List.zip_cons_cons, fillClasses, if_neg (not_not.2 hm0), hm0]
          rfl
        rw [e] at herr hok
        have e2 : pos + m.toNat = pos := by rw [hm0]; rfl
        have := ih ds (done ++ [Fl.fin (m : ℝ) / Fl.fin (bs : ℝ)]) pos g (p.set nBag (done ++ [Fl.fin (m : ℝ) / Fl.fin (bs : ℝ)] ++ ds.map Fl.fin)) x hd' (by simpa using hpl)
          hxl (getD_set_eq _ _ _ _ hpl)
        rw [List.set_set] at this
        refine this herr fun h => ?_
        have := hok h
        rw [e2] at this
        simpa using this

/-- The operations of the loop over the bags. -/
def dirichletOps (nClasses nBags : ℕ) : ℕ := nBags * (6 * nClasses) + 1

theorem dirichletCode_safe {rng : Rng G} (hr : RngOk rng) (ho : Function.Injective o) (y : List α) (bs nBags : ℕ) (c : PriorCell) (hbs : c.bagSize = some bs) (hc : c.rs = .obj (.own (o t))) (draws : List (List ℝ)) :
    ∀ (nBag : ℕ) (g : G) (p : List (List Fl)) (x : List (List ℕ)), nBag + draws.length = nBags → p.length = nBags → x.length = nBags → (∀ r ∈ draws, r.length = (npUnique y).length) →
    p.drop nBag = draws.map (fun r => r.map Fl.fin) →
    (∀ r, r = some (loopAnswer (dirichletLoop rng y (npUnique y) bs draws nBag g ⟨p, x⟩)) → Φ r) →
    Safe (OwnPrior o) t Φ (dirichletOps (npUnique y).length draws.length) (PriorIs (o t) (· = g) (priorArrays c p x)) (dirichletCode rng (o t) y draws.length nBag) := by
  induction draws with
  | nil =>
    intro nBag g p x _ _ _ _ _ hΦ
    have e : dirichletOps (npUnique y).length ([] : List (List ℝ)).length = 1 := by simp [dirichletOps]
    rw [e]
    exact returnPrior_safe ho c p x (hΦ _ rfl)
  | cons dr draws ih =>
    intro nBag g p x hn hp hx hl hdrop hΦ
    have hlt : nBag < nBags := by simp at hn; omega
    have hpn : p.getD nBag [] = [] ++ dr.map Fl.fin := by
      have h := congrArg List.head? hdrop
      rw [List.head?_drop] at h
      simp only [List.map_cons, List.head?_cons] at h
      simp [List.getD, h]
    have e : dirichletOps (npUnique y).length (dr :: draws).length = 6 * (npUnique y).length + dirichletOps (npUnique y).length draws.length := by
      simp only [dirichletOps, List.length_cons]; ring
    rw [e, List.length_cons]
    unfold dirichletCode
    refine dirichletBag_safe hr ho y nBag bs c hbs hc _ (npUnique y) dr [] 0 g p x (hl dr (by simp)) (by omega) (by omega) hpn (fun e he => ?_) fun hno => ?_
    · refine hΦ _ ?_
      rw [dirichletLoop]
      generalize fillClasses rng y ((npUnique y).zip (dirichletCounts bs dr 0)) g (x.getD nBag []) 0 = r at he ⊢
      obtain ⟨col, g2, er⟩ := r
      dsimp only at he
      subst he
      rfl
    · rw [dirichletLoop] at hΦ
      dsimp only at hΦ
      generalize fillClasses rng y ((npUnique y).zip (dirichletCounts bs dr 0)) g (x.getD nBag []) 0 = r at hno hΦ ⊢
      obtain ⟨col, g2, er⟩ := r
      dsimp only at hno
      subst hno
      refine ih (nBag + 1) g2 _ _ (by simp at hn; omega) (by simpa using hp) (by simpa using hx) (fun r hr => hl r (List.mem_cons_of_mem _ hr)) ?_ hΦ
      rw [List.drop_set_of_lt (by omega)]
      rw [← List.tail_drop, hdrop]
      rfl

/-- The operations of a call. -/
def priorOps (nClasses nBags fuel : ℕ) : ℕ := uniformOps nClasses fuel + dirichletOps nClasses nBags + 16

/-- The object that the thread has, as the code that runs alone sees it. -/
def aloneGen (c : PriorCell) (rs : RandState G) : PriorGen G := ⟨c.nBags, c.bagSize, c.method, c.alphas, c.minPrev, rs, none⟩

theorem uniformAnswer_eq (r : Option (Bags × G × Option Err)) (s : PriorGen G) :
    uniformAnswer r = (r.map fun r => (({ s with bags := some r.1, rs := .obj r.2.1 } : PriorGen G), r.2.2)).map fun r => match r.2, r.1.bags with
      | some e, _ => .error e
      | none, some b => .ok b
      | none, none => .error .typeError := by
  cases r with
  | none => rfl
  | some r =>
    obtain ⟨b, g2, er⟩ := r
    cases er <;> rfl

theorem generateUniformCode_safe (rng : Rng G) (ho : Function.Injective o) (fuel : ℕ) (d : BagData α) (bs : ℕ) (c : PriorCell) (hbs : c.bagSize = some bs) (hc : c.rs = .obj (.own (o t))) (g : G) :
    Safe (OwnPrior o) t (· = (generateUniform rng fuel (aloneGen c (.obj g)) bs g d).map fun r => match r.2, r.1.bags with
            | some e, _ => .error e
            | none, some b => .ok b
            | none, none => .error .typeError) (uniformOps (npUnique d.y).length fuel + 5) (PriorIs (o t) (· = g) c) (generateUniformCode rng fuel (o t) d) := by
  unfold generateUniformCode generateUniform
  refine prior_get ho fun s hs => ?_
  rw [hs.1]
  change Safe _ _ (· = Option.map _ (match checkMinPrev c.minPrev with | some e => _ | none => _)) _ _ _
  cases checkMinPrev c.minPrev with
  | some e => exact .ret _ _ _ fun _ _ => rfl
  | none =>
    dsimp only
    cases checkXy d with
    | some e => exact .ret _ _ _ fun _ _ => rfl
    | none =>
      dsimp only
      refine prior_get ho fun s hs => ?_
      have h2 : (s.gens (o t)).bagSize.getD 0 = bs := by rw [hs.1]; simp [hbs]
      rw [h2, hs.1]
      change Safe _ _ (· = Option.map _ (match uniformBounds c.minPrev _ bs with | .error e => _ | .ok (mins, low, high) => _)) _ _ _
      cases uniformBounds c.minPrev (npUnique d.y).length bs with
      | error e => exact .ret _ _ _ fun _ _ => rfl
      | ok b =>
        obtain ⟨mins, low, high⟩ := b
        dsimp only
        refine prior_setGen ho (prior_get ho fun s hs => prior_setGen ho ?_)
        have h3 : (s.gens (o t)).bagSize.getD 0 = bs := by rw [hs.1]; simp [hbs]
        rw [h3]
        have := uniformCode_safe (t := t) rng ho d.y mins low high bs c hbs hc fuel 0 g (List.replicate c.nBags (List.replicate (npUnique d.y).length (Fl.fin 0))) (List.replicate c.nBags (List.replicate bs 0)) (by simp)
        have h4 : uniformAnswer (uniformLoop rng d.y (npUnique d.y) bs c.nBags mins low high fuel 0 g ⟨List.replicate c.nBags (List.replicate (npUnique d.y).length (Fl.fin 0)), List.replicate c.nBags (List.replicate bs 0)⟩)
            = ((uniformLoop rng d.y (npUnique d.y) bs (aloneGen c (.obj g)).nBags mins low high fuel 0 g (zeroBags (npUnique d.y).length bs (aloneGen c (.obj g)).nBags)).map fun r =>
              (({ aloneGen c (.obj g) with bags := some r.1, rs := .obj r.2.1 } : PriorGen G), r.2.2)).map fun r => match r.2, r.1.bags with
              | some e, _ => .error e
              | none, some b => .ok b
              | none, none => .error .typeError := by
          exact uniformAnswer_eq _ _
        rw [h4] at this
        exact this

/-- What a call of the Dirichlet method returns, from what it leaves. -/
def dirichletAnswer (r : PriorGen G × G × Option Err) : Except Err Bags :=
  match r.2.2, r.1.bags with
  | some e, _ => .error e
  | none, some b => .ok b
  | none, none => .error .typeError

theorem dirichletDrawCode_safe {rng : Rng G} (hr : RngOk rng) (ho : Function.Injective o) (y : List α) (bs : ℕ) (c : PriorCell) (hbs : c.bagSize = some bs) (hc : c.rs = .obj (.own (o t))) (g : G) (al : List ℝ) (hal : c.alphas = .vec al)
    (hl : al.length = (npUnique y).length)
    (herr : ∀ glob e, rng.dirichlet glob al c.nBags = .error e → Φ (some (.error e)))
    (hok : ∀ glob draws glob', rng.dirichlet glob al c.nBags = .ok (draws, glob') →
      Φ (some (loopAnswer (dirichletLoop rng y (npUnique y) bs draws 0 g ⟨draws.map fun r => r.map Fl.fin, List.replicate c.nBags (List.replicate bs 0)⟩)))) :
    Safe (OwnPrior o) t Φ (dirichletOps (npUnique y).length c.nBags + 6) (PriorIs (o t) (· = g) c) (dirichletDrawCode rng (o t) y) := by
  unfold dirichletDrawCode
  refine prior_get ho fun s hs => ?_
  rw [hs.1, hal]
  refine prior_global ho herr fun glob draws glob' hd => ?_
  refine prior_setGen ho (prior_get ho fun s hs => prior_setGen ho (prior_get ho fun s' hs' => ?_))
  have h3 : (s.gens (o t)).bagSize.getD 0 = bs := by rw [hs.1]; simp [hbs]
  have h4 : (s'.gens (o t)).nBags = c.nBags := by rw [hs'.1]
  obtain ⟨h5, h6⟩ := hr.dirichlet _ _ _ _ _ hd
  rw [h3, h4]
  have := dirichletCode_safe (t := t) (Φ := Φ) hr ho y bs c.nBags c hbs hc draws 0 g (draws.map fun r => r.map Fl.fin) (List.replicate c.nBags (List.replicate bs 0)) (by omega) (by simpa using h5) (by simp)
    (fun r hr => ((h6 r hr).1).trans hl) rfl (by rintro r rfl; exact hok glob draws glob' hd)
  rw [h5] at this
  exact this

theorem generateDirichletCode_safe {rng : Rng G} (hr : RngOk rng) (ho : Function.Injective o) (d : BagData α) (bs : ℕ) (c : PriorCell) (hbs : c.bagSize = some bs) (hc : c.rs = .obj (.own (o t))) (g g0 : G) :
    Safe (OwnPrior o) t (fun r => ∃ glob, r = some (dirichletAnswer (generateDirichlet rng (aloneGen c (.obj g)) bs g glob d))) (dirichletOps (npUnique d.y).length c.nBags + 8) (PriorIs (o t) (· = g) c)
      (generateDirichletCode rng (o t) d) := by
  unfold generateDirichletCode generateDirichlet
  cases checkXy d with
  | some e => exact .ret _ _ _ fun _ _ => ⟨g0, rfl⟩
  | none =>
    dsimp only
    refine prior_get ho fun s hs => ?_
    rw [hs.1]
    have key : ∀ (c' : PriorCell) (al : List ℝ), c'.nBags = c.nBags → c'.bagSize = some bs → c'.rs = .obj (.own (o t)) → c'.alphas = .vec al → al.length = (npUnique d.y).length → ∀ F : G → Option (Except Err Bags),
        (∀ glob, F glob = some (dirichletAnswer (match rng.dirichlet glob al c.nBags with
          | .error e => (({ aloneGen c (.obj g) with alphas := .vec al } : PriorGen G), glob, some e)
          | .ok (draws, glob) => (({ aloneGen c (.obj g) with
                alphas := .vec al, bags := some (dirichletLoop rng d.y (npUnique d.y) bs draws 0 g ⟨draws.map fun r => r.map Fl.fin, List.replicate c.nBags (List.replicate bs 0)⟩).1,
                rs := .obj (dirichletLoop rng d.y (npUnique d.y) bs draws 0 g ⟨draws.map fun r => r.map Fl.fin, List.replicate c.nBags (List.replicate bs 0)⟩).2.1 } : PriorGen G), glob,
              (dirichletLoop rng d.y (npUnique d.y) bs draws 0 g ⟨draws.map fun r => r.map Fl.fin, List.replicate c.nBags (List.replicate bs 0)⟩).2.2)))) →
        Safe (OwnPrior o) t (fun r => ∃ glob, r = F glob) (dirichletOps (npUnique d.y).length c.nBags + 6) (PriorIs (o t) (· = g) c') (dirichletDrawCode rng (o t) d.y) := by
      intro c' al h1 h2 h3 h4 h5 F hF
      rw [← h1]
      refine dirichletDrawCode_safe hr ho d.y bs c' h2 h3 g al h4 h5 (fun glob e he => ⟨glob, ?_⟩) fun glob draws glob' hd => ⟨glob, ?_⟩
      · rw [h1] at he
        rw [hF, he]
        rfl
      · rw [h1] at hd ⊢
        rw [hF, hd]
        dsimp only
        generalize dirichletLoop rng d.y (npUnique d.y) bs draws 0 g ⟨draws.map fun r => r.map Fl.fin, List.replicate c.nBags (List.replicate bs 0)⟩ = r
        obtain ⟨b, g2, er⟩ := r
        cases er <;> rfl
    cases hal : c.alphas with
    | none =>
      refine Safe.mono (n := dirichletOps (npUnique d.y).length c.nBags + 6) ?_ (by omega)
      unfold dirichletDrawCode
      refine prior_get ho fun s hs => ?_
      rw [hs.1, hal]
      refine .ret _ _ _ fun _ _ => ⟨g0, ?_⟩
      simp only [aloneGen, hal]
      rfl
    | scalar v =>
      refine prior_setGen ho ?_
      refine key { c with alphas := .vec (List.replicate (npUnique d.y).length v) } (List.replicate (npUnique d.y).length v) rfl hbs hc rfl (by simp) _ fun glob => ?_
      simp only [aloneGen, hal]
      rfl
    | vec l =>
      dsimp only
      split_ifs with hl
      · refine Safe.mono (n := dirichletOps (npUnique d.y).length c.nBags + 6) ?_ (by omega)
        refine key c l rfl hbs hc hal hl _ fun glob => ?_
        simp only [aloneGen, hal, if_pos hl]
        rfl
      · refine .ret _ _ _ fun _ _ => ⟨g0, ?_⟩
        simp only [aloneGen, hal, if_neg hl]
        rfl

theorem methodCode_safe {rng : Rng G} (hr : RngOk rng) (ho : Function.Injective o) (fuel : ℕ) (d : BagData α) (bs : ℕ) (c : PriorCell) (hbs : c.bagSize = some bs) (hc : c.rs = .obj (.own (o t))) (g g0 : G) :
    Safe (OwnPrior o) t (fun r => ∃ glob, r = (priorGenerate rng fuel (aloneGen c (.obj g)) glob d).map (·.2.2)) (uniformOps (npUnique d.y).length fuel + dirichletOps (npUnique d.y).length c.nBags + 9) (PriorIs (o t) (· = g) c)
      (methodCode rng fuel (o t) d) := by
  unfold methodCode
  refine prior_get ho fun s hs => ?_
  rw [hs.1]
  have hgen : (aloneGen c (.obj g) : PriorGen G).bagSize.getD d.y.length = bs := by simp [aloneGen, hbs]
  have hself : ({ aloneGen c (.obj g) with rs := .obj g, bagSize := some bs } : PriorGen G) = aloneGen c (.obj g) := by simp [aloneGen, hbs]
  cases hm : c.method with
  | uniform =>
    dsimp only
    refine Safe.mono (n := uniformOps (npUnique d.y).length fuel + 5) ?_ (by omega)
    have := generateUniformCode_safe (t := t) rng ho fuel d bs c hbs hc g
    have e : ∀ glob, (priorGenerate rng fuel (aloneGen c (.obj g)) glob d).map (·.2.2) = (generateUniform rng fuel (aloneGen c (.obj g)) bs g d).map fun r => match r.2, r.1.bags with
            | some e, _ => .error e
            | none, some b => .ok b
            | none, none => .error .typeError := by
      intro glob
      have hm' : (aloneGen c (.obj g) : PriorGen G).method = .uniform := hm
      unfold priorGenerate
      simp only [aloneGen, hbs, hm, Option.getD_some, Option.map_map, Function.comp_def]
      rfl
    simp only [e]
    convert this using 2
    exact ⟨fun ⟨_, h⟩ => h, fun h => ⟨g0, h⟩⟩
  | dirichlet =>
    dsimp only
    refine Safe.mono (n := dirichletOps (npUnique d.y).length c.nBags + 8) ?_ (by omega)
    have := generateDirichletCode_safe (t := t) hr ho d bs c hbs hc g g0
    have e : ∀ glob, (priorGenerate rng fuel (aloneGen c (.obj g)) glob d).map (·.2.2) = some (dirichletAnswer (generateDirichlet rng (aloneGen c (.obj g)) bs g glob d)) := by
      intro glob
      unfold priorGenerate
      simp only [aloneGen, hbs, hm, Option.getD_some, Option.map_some]
      rfl
    simp only [e]
    exact this
  | other =>
    refine .ret _ _ _ fun _ _ => ⟨g0, ?_⟩
    unfold priorGenerate
    simp [aloneGen, hm]

theorem priorCode_safe {rng : Rng G} (hr : RngOk rng) (ho : Function.Injective o) (fuel : ℕ) (d : BagData α) (c : PriorCell) (hp : c.prevs = none) (m : ℤ) (hm : c.rs = .seed m) (g0 : G) :
    Safe (OwnPrior o) t (fun r => ∃ glob, r = (priorGenerate rng fuel (aloneGen c (.seed m)) glob d).map (·.2.2)) (priorOps (npUnique d.y).length c.nBags fuel) (PriorIs (o t) (fun _ => True) c) (priorCode rng fuel (o t) d) := by
  have e1 : ∀ glob, (priorGenerate rng fuel (aloneGen c (.seed m)) glob d).map (·.2.2) = (priorGenerate rng fuel (aloneGen { c with rs := .obj (.own (o t)), bagSize := some (c.bagSize.getD d.y.length) } (.obj (rng.ofSeed m))) glob d).map (·.2.2) := by
    intro glob
    unfold priorGenerate
    simp only [aloneGen, Option.getD_some]
  unfold priorCode
  rw [show priorOps (npUnique d.y).length c.nBags fuel = (uniformOps (npUnique d.y).length fuel + dirichletOps (npUnique d.y).length c.nBags + 9) + 1 + 1 + 1 + 1 + 1 + 1 + 1 by unfold priorOps; ring]
  refine prior_get ho fun s hs => ?_
  rw [hs.1, hp]
  refine prior_get ho fun s hs => ?_
  rw [hs.1, hm]
  refine prior_get ho fun s hs => ?_
  rw [hs.1, hm]
  refine prior_seed ho ?_
  unfold checkedPrior
  refine prior_get ho fun s hs => ?_
  rw [hs.1]
  refine prior_get ho fun s hs => ?_
  rw [hs.1]
  simp only [e1]
  cases hb : c.bagSize with
  | none =>
    dsimp only
    exact prior_setGen ho (methodCode_safe hr ho fuel d d.y.length _ rfl rfl (rng.ofSeed m) g0)
  | some bs =>
    dsimp only
    refine Safe.mono (n := uniformOps (npUnique d.y).length fuel + dirichletOps (npUnique d.y).length c.nBags + 9) ?_ (by omega)
    have := methodCode_safe (t := t) hr ho fuel d bs { c with rs := .obj (.own (o t)) } hb rfl (rng.ofSeed m) g0
    have e2 : ({ c with rs := .obj (.own (o t)), bagSize := some bs } : PriorCell) = { c with rs := .obj (.own (o t)) } := by rw [← hb]
    simp only [Option.getD_some, e2]
    exact this

end

end Verif.Proof
