import Verif.Model.ThreadsBags
import Verif.Props.Bags2

/-!
# Threads that generate bags, under any schedule

As `Verif.Proof.Threads`, for code whose operations may read and write at once, and for any condition on the result.
-/

namespace Verif.Proof

open Verif.Model Verif.Spec Verif.Props

section
variable {St R : Type}

/-- The assertion survives the changes that the other threads make. -/
def Undisturbed (G : ℕ → St → St → Prop) (t : ℕ) (P : St → Prop) : Prop := ∀ u, u ≠ t → ∀ s s', G u s s' → P s → P s'

/-- From a store with `P` the code of thread `t` returns, after at most `n` operations, something with `Φ`, whatever the other threads do within their guarantees. -/
inductive Safe (G : ℕ → St → St → Prop) (t : ℕ) (Φ : R → Prop) : ℕ → (St → Prop) → AtomicCode St R → Prop
  | ret (n : ℕ) (P : St → Prop) (r : R) (h : ∀ s, P s → Φ r) : Safe G t Φ n P (.ret r)
  | op (n : ℕ) (P : St → Prop) (f : St → St) (k : St → AtomicCode St R) (Q : St → St → Prop) (hst : ∀ s, P s → Undisturbed G t (Q s)) (hG : ∀ s, P s → G t s (f s)) (hQ : ∀ s, P s → Q s (f s))
    (hk : ∀ s, P s → Safe G t Φ n (Q s) (k s)) : Safe G t Φ (n + 1) P (.op f k)

theorem safe_run {G : ℕ → St → St → Prop} (Φ : ℕ → R → Prop) (sch : List ℕ) : ∀ (s : St) (T : ℕ → AtomicCode St R) (n : ℕ → ℕ), (∀ t, ∃ P, Undisturbed G t P ∧ P s ∧ Safe G t (Φ t) (n t) P (T t)) →
    ∀ t, (∀ r, (runAtomic sch s T).2 t = .ret r → Φ t r) ∧ (n t ≤ sch.count t → ∃ r, (runAtomic sch s T).2 t = .ret r) := by
  induction sch with
  | nil =>
    intro s T n h t
    obtain ⟨P, -, hP, hS⟩ := h t
    refine ⟨fun r hr => ?_, fun hn => ?_⟩
    · have hr' : T t = .ret r := hr
      rw [hr'] at hS
      generalize n t = m at hS
      cases hS with
      | ret _ _ _ h => exact h s hP
    · have h0 : n t = 0 := by simpa using hn
      rw [h0] at hS
      change ∃ r, T t = .ret r
      cases hT : T t with
      | ret r => exact ⟨r, rfl⟩
      | op f k => rw [hT] at hS; cases hS
  | cons i sch ih =>
    intro s T n h t
    have key := ih ((T i).step s).1 (Function.update T i ((T i).step s).2) (Function.update n i (n i - 1)) (fun t => by
      obtain ⟨P, hst, hP, hS⟩ := h t
      by_cases ht : t = i
      · subst ht
        rw [Function.update_self, Function.update_self]
        cases hT : T t with
        | ret x =>
          rw [hT] at hS
          generalize n t = m at hS ⊢
          cases hS with
          | ret _ _ _ h => exact ⟨P, hst, hP, .ret _ _ _ h⟩
        | op f k =>
          rw [hT] at hS
          generalize hm : n t = m at hS
          cases hS with
          | op n' _ _ _ Q h1 h2 h3 h4 => exact ⟨Q s, h1 s hP, h3 s hP, h4 s hP⟩
      · rw [Function.update_of_ne ht, Function.update_of_ne ht]
        refine ⟨P, hst, ?_, hS⟩
        obtain ⟨P', -, hP', hS'⟩ := h i
        cases hT : T i with
        | ret x => exact hP
        | op f k =>
          rw [hT] at hS'
          generalize hm : n i = m at hS'
          cases hS' with
          | op n' _ _ _ Q h1 h2 h3 h4 => exact hst i (Ne.symm ht) s _ (h2 s hP') hP) t
    refine ⟨key.1, fun hn => key.2 ?_⟩
    by_cases ht : t = i
    · subst ht
      rw [Function.update_self]
      rw [List.count_cons_self] at hn
      omega
    · rw [Function.update_of_ne ht]
      rwa [List.count_cons_of_ne (Ne.symm ht)] at hn

theorem Safe.getSame {G : ℕ → St → St → Prop} {t n : ℕ} {Φ : R → Prop} {P : St → Prop} {k : St → AtomicCode St R} (hrefl : ∀ s, G t s s) (hst : Undisturbed G t P) (hk : ∀ s, P s → Safe G t Φ n P (k s)) : Safe G t Φ (n + 1) P (.get k) :=
  .op n P id k (fun _ => P) (fun _ _ => hst) (fun s _ => hrefl s) (fun _ h => h) hk

end

section
variable {G α : Type} [LinearOrder α] {o : ℕ → ℕ} {t : ℕ}

/-- What the thread with generator `o t` may change: that generator, the `RandomState` that it made from its seed and the ones that the program made. -/
def OwnGen (o : ℕ → ℕ) (t : ℕ) (s s' : BagStore G) : Prop := (∀ j, j ≠ o t → s'.gens j = s.gens j) ∧ ∀ j, j ≠ o t → s'.rngs (.own j) = s.rngs (.own j)

/-- The generator of the thread is `c`, and the state of its own `RandomState` is as `E` says. -/
def GenIs (i : ℕ) (E : G → Prop) (c : CovCell) (s : BagStore G) : Prop := s.gens i = c ∧ E (s.rngs (.own i))

theorem genIs_undisturbed (ho : Function.Injective o) (E : G → Prop) (c : CovCell) : Undisturbed (OwnGen o) t (GenIs (o t) E c) := by
  intro u hu s s' hG hP
  have hne : o t ≠ o u := fun h => hu (ho h.symm)
  exact ⟨(hG.1 _ hne).trans hP.1, by rw [hG.2 _ hne]; exact hP.2⟩

theorem ownGen_refl (s : BagStore G) : OwnGen o t s s := ⟨fun _ _ => rfl, fun _ _ => rfl⟩

theorem safe_get {Φ : Except Err Bags → Prop} {n : ℕ} {E : G → Prop} {c : CovCell} {k : BagStore G → AtomicCode (BagStore G) (Except Err Bags)} (ho : Function.Injective o)
    (hk : ∀ s, GenIs (o t) E c s → Safe (OwnGen o) t Φ n (GenIs (o t) E c) (k s)) : Safe (OwnGen o) t Φ (n + 1) (GenIs (o t) E c) (.get k) :=
  Safe.getSame ownGen_refl (genIs_undisturbed ho E c) hk

theorem safe_setGen {Φ : Except Err Bags → Prop} {n : ℕ} {E : G → Prop} {c : CovCell} {f : CovCell → CovCell} {k : AtomicCode (BagStore G) (Except Err Bags)} (ho : Function.Injective o)
    (hk : Safe (OwnGen o) t Φ n (GenIs (o t) E (f c)) k) : Safe (OwnGen o) t Φ (n + 1) (GenIs (o t) E c) (.put (BagStore.setGen (o t) f) k) := by
  refine .op n _ _ _ (fun _ => GenIs (o t) E (f c)) (fun _ _ => genIs_undisturbed ho _ _) (fun s _ => ⟨fun j hj => ?_, fun _ _ => rfl⟩) (fun s hs => ⟨?_, hs.2⟩) fun _ _ => hk
  · exact Function.update_of_ne hj _ _
  · change Function.update s.gens (o t) (f (s.gens (o t))) (o t) = f c
    rw [Function.update_self, hs.1]

/-- A draw of a `RandomState` that may be shared. -/
theorem safe_draw_any {Φ : Except Err Bags → Prop} {n : ℕ} {c : CovCell} {A : Type} {p : RngPlace} (hp : ∀ j, p = .own j → j = o t) {draw : G → Except Err (A × G)} {k : A → AtomicCode (BagStore G) (Except Err Bags)} (ho : Function.Injective o)
    (herr : ∀ e, Φ (.error e)) (hk : ∀ g a g', draw g = .ok (a, g') → Safe (OwnGen o) t Φ n (GenIs (o t) (fun _ => True) c) (k a)) :
    Safe (OwnGen o) t Φ (n + 1) (GenIs (o t) (fun _ => True) c) (drawCode p draw k) := by
  refine .op n _ _ _ (fun _ => GenIs (o t) (fun _ => True) c) (fun _ _ => genIs_undisturbed ho _ _) (fun s hs => ?_) (fun s hs => ?_) fun s hs => ?_
  · cases hd : draw (s.rngs p) with
    | error e => exact ownGen_refl s
    | ok r => exact ⟨fun _ _ => rfl, fun j hj => Function.update_of_ne (fun h => hj (hp j h.symm)) _ _⟩
  · cases hd : draw (s.rngs p) with
    | error e => exact hs
    | ok r => exact ⟨hs.1, trivial⟩
  · cases hd : draw (s.rngs p) with
    | error e => exact .ret _ _ _ fun _ _ => herr e
    | ok r => exact hk _ r.1 r.2 hd

/-- A draw of the `RandomState` of the generator, whose state is known. -/
theorem safe_draw_own {Φ : Except Err Bags → Prop} {n : ℕ} {c : CovCell} {A : Type} {g : G} {draw : G → Except Err (A × G)} {k : A → AtomicCode (BagStore G) (Except Err Bags)} (ho : Function.Injective o)
    (herr : ∀ e, draw g = .error e → Φ (.error e)) (hk : ∀ a g', draw g = .ok (a, g') → Safe (OwnGen o) t Φ n (GenIs (o t) (· = g') c) (k a)) :
    Safe (OwnGen o) t Φ (n + 1) (GenIs (o t) (· = g) c) (drawCode (.own (o t)) draw k) := by
  refine .op n _ _ _ (fun _ => GenIs (o t) (· = match draw g with | .error _ => g | .ok r => r.2) c) (fun _ _ => genIs_undisturbed ho _ _) (fun s hs => ?_) (fun s hs => ?_) fun s hs => ?_
  · cases hd : draw (s.rngs (.own (o t))) with
    | error e => exact ownGen_refl s
    | ok r => exact ⟨fun _ _ => rfl, fun j hj => Function.update_of_ne (fun h => hj (by injection h)) _ _⟩
  · have h2 : s.rngs (.own (o t)) = g := hs.2
    rw [h2]
    cases hd : draw g with
    | error e => exact hs
    | ok r => exact ⟨hs.1, Function.update_self _ _ _⟩
  · have h2 : s.rngs (.own (o t)) = g := hs.2
    rw [h2]
    cases hd : draw g with
    | error e => exact .ret _ _ _ fun _ _ => herr e hd
    | ok r => exact hk r.1 r.2 hd

theorem Safe.mono {St R : Type} {Gr : ℕ → St → St → Prop} {t : ℕ} {Φ : R → Prop} {n m : ℕ} {P : St → Prop} {c : AtomicCode St R} (h : Safe Gr t Φ n P c) (hnm : n ≤ m) : Safe Gr t Φ m P c := by
  induction h generalizing m with
  | ret n P r h => exact .ret _ _ _ h
  | op n P f k Q h1 h2 h3 h4 ih =>
    obtain ⟨m, rfl⟩ : ∃ m', m = m' + 1 := ⟨m - 1, by omega⟩
    exact .op m P f k Q h1 h2 h3 fun s hs => ih s hs (by omega)

/-- The generator with its arrays. -/
def withArrays (c : CovCell) (p : List (List Fl)) (x : List (List ℕ)) : CovCell := { c with prevs := some p, idx := some x }

theorem prevsOf_eq (y classes : List α) (bs : ℕ) (col : List ℕ) : prevsOf y classes bs col = classes.map (shareIn y bs col) := rfl

theorem classesCode_safe {Φ : Except Err Bags → Prop} {n : ℕ} {E : G → Prop} (ho : Function.Injective o) (y : List α) (bs nBag : ℕ) (c : CovCell) (hbs : c.bagSize = some bs) (x : List (List ℕ)) (col : List ℕ)
    (hcol : x.getD nBag [] = col) (rest : AtomicCode (BagStore G) (Except Err Bags)) (cs : List α) : ∀ (done : List Fl) (tail : List Fl) (p : List (List Fl)), tail.length = cs.length → nBag < p.length →
    p.getD nBag [] = done ++ tail →
    Safe (OwnGen o) t Φ n (GenIs (o t) E (withArrays c (p.set nBag (done ++ cs.map (shareIn y bs col))) x)) rest →
    Safe (OwnGen o) t Φ (2 * cs.length + n) (GenIs (o t) E (withArrays c p x)) (classesCode (o t) y nBag rest cs done.length) := by
  induction cs with
  | nil =>
    intro done tail p ht hp hpn hr
    obtain rfl : tail = [] := by simpa using ht
    have : p.set nBag (done ++ ([] : List α).map (shareIn y bs col)) = p := by
      rw [List.map_nil, ← hpn]
      apply List.ext_getElem (by simp)
      intro k h1 h2
      rw [List.getElem_set]
      split
      · subst_vars
        rw [List.getD_eq_getElem _ _ h2]
      · rfl
    rw [this] at hr
    simpa [classesCode] using hr
  | cons a cs ih =>
    intro done tail p ht hp hpn hr
    cases tail with
    | nil => simp at ht
    | cons b tail =>
      unfold classesCode
      have e : 2 * (a :: cs).length + n = (2 * cs.length + n) + 1 + 1 := by rw [List.length_cons]; ring
      rw [e]
      refine safe_get ho fun s hs => safe_setGen ho ?_
      have h1 : (s.gens (o t)).bagSize.getD 0 = bs := by rw [hs.1]; simp [withArrays, hbs]
      have h2 : ((s.gens (o t)).idx.getD []).getD nBag [] = col := by rw [hs.1]; simpa [withArrays] using hcol
      rw [h1, h2]
      have h3 : ({ withArrays c p x with prevs := (withArrays c p x).prevs.map fun p => p.set nBag ((p.getD nBag []).set done.length (shareIn y bs col a)) } : CovCell)
          = withArrays c (p.set nBag (done ++ [shareIn y bs col a] ++ tail)) x := by
        simp only [withArrays, Option.map_some, hpn]
        congr 3
        simp
      rw [h3]
      have h4 := ih (done ++ [shareIn y bs col a]) tail (p.set nBag (done ++ [shareIn y bs col a] ++ tail)) (by simpa using ht) (by simpa using hp)
        (by rw [getD_set_eq _ _ _ _ hp]) (by rw [List.set_set]; simpa using hr)
      simpa using h4

theorem returnCode_safe {Φ : Except Err Bags → Prop} {E : G → Prop} (ho : Function.Injective o) (c : CovCell) (p : List (List Fl)) (x : List (List ℕ)) (h : Φ (.ok ⟨p, x⟩)) :
    Safe (OwnGen o) t Φ 1 (GenIs (o t) E (withArrays c p x)) (returnCode (o t)) := by
  refine safe_get ho fun s hs => ?_
  rw [hs.1]
  exact .ret _ _ _ fun _ _ => h

theorem rngCode_safe {Φ : Except Err Bags → Prop} {n : ℕ} {E : G → Prop} (ho : Function.Injective o) (c : CovCell) (pl : RngPlace) (hc : c.rs = .obj pl) (k : RngPlace → AtomicCode (BagStore G) (Except Err Bags))
    (hk : Safe (OwnGen o) t Φ n (GenIs (o t) E c) (k pl)) : Safe (OwnGen o) t Φ (n + 1) (GenIs (o t) E c) (rngCode (o t) k) := by
  refine safe_get ho fun s hs => ?_
  rw [hs.1, hc]
  exact hk

/-- The operations of the loop over the bags. -/
def bagOps (nClasses nBags : ℕ) : ℕ := nBags * (2 * nClasses + 4) + 1

theorem bagsCode_safe_any {rng : Rng G} (hr : RngOk rng) (ho : Function.Injective o) (y : List α) (sim : ℕ → List ℝ) (hsim : ∀ i < y.length, (sim i).length = y.length) (bs : ℕ) (hbs0 : 0 < bs) (nBags : ℕ) (c : CovCell)
    (hbs : c.bagSize = some bs) (pl : RngPlace) (hpl : ∀ j, pl = .own j → j = o t) (hrs : c.rs = .obj pl) (centers : List ℤ) : ∀ (nBag : ℕ) (p : List (List Fl)) (x : List (List ℕ)),
    (∀ z ∈ centers, 0 ≤ z ∧ z < y.length) → nBag + centers.length = nBags → p.length = nBags → x.length = nBags → (∀ k, nBag ≤ k → k < nBags → (p.getD k []).length = (npUnique y).length) →
    (∀ k < nBag, IsBag y bs (p.getD k []) (x.getD k [])) →
    Safe (OwnGen o) t (fun r => ∀ b, r = .ok b → AreBags y bs nBags b) (bagOps (npUnique y).length centers.length) (GenIs (o t) (fun _ => True) (withArrays c p x)) (bagsCode rng (o t) y (npUnique y) sim centers nBag) := by
  induction centers with
  | nil =>
    intro nBag p x _ hn hp hx _ hdone
    unfold bagsCode
    have e : bagOps (npUnique y).length ([] : List ℤ).length = 1 := by simp [bagOps]
    rw [e]
    refine returnCode_safe ho c p x fun b hb => ?_
    obtain rfl : (⟨p, x⟩ : Bags) = b := by simpa using hb
    exact ⟨hp, hx, fun k hk => hdone k (by simp at hn; omega)⟩
  | cons z cs ih =>
    intro nBag p x hz hn hp hx htail hdone
    have hlt : nBag < nBags := by simp at hn; omega
    unfold bagsCode
    have e : bagOps (npUnique y).length (z :: cs).length = (2 * (npUnique y).length + bagOps (npUnique y).length cs.length) + 1 + 1 + 1 + 1 := by
      simp only [bagOps, List.length_cons]; ring
    rw [e]
    refine safe_get ho fun s hs => rngCode_safe ho (withArrays c p x) pl hrs _ (safe_draw_any hpl ho (fun e b hb => nomatch hb) fun g col g' hd => safe_setGen ho ?_)
    have hb : (s.gens (o t)).bagSize.getD 0 = bs := by rw [hs.1]; simp [withArrays, hbs]
    rw [hb] at hd
    have hz0 := hz z (by simp)
    obtain ⟨h1, h2⟩ := hr.choiceP _ _ _ _ _ hd
    have hbag : IsBag y bs (prevsOf y (npUnique y) bs col) col := isBag_of_prevsOf y _ hbs0 col h1 fun i hi => by
      have := h2 i hi
      rw [List.length_map, hsim _ (by omega)] at this
      exact this
    have h3 : ({ withArrays c p x with idx := (withArrays c p x).idx.map fun x => x.set nBag col } : CovCell) = withArrays c p (x.set nBag col) := rfl
    rw [h3]
    refine classesCode_safe ho y bs nBag c hbs (x.set nBag col) col (getD_set_eq _ _ _ _ (by omega)) _ (npUnique y) [] (p.getD nBag []) p (htail _ le_rfl hlt) (by omega) rfl ?_
    rw [List.nil_append, ← prevsOf_eq]
    refine ih (nBag + 1) _ _ (fun w hw => hz w (List.mem_cons_of_mem _ hw)) (by simp at hn; omega) (by simpa using hp) (by simpa using hx) (fun k hk1 hk2 => ?_) fun k hk => ?_
    · rw [getD_set_ne _ _ _ _ _ (by omega)]
      exact htail k (by omega) hk2
    · by_cases hkn : k = nBag
      · subst hkn
        rw [getD_set_eq _ _ _ _ (by omega), getD_set_eq _ _ _ _ (by omega)]
        exact hbag
      · rw [getD_set_ne _ _ _ _ _ (Ne.symm hkn), getD_set_ne _ _ _ _ _ (Ne.symm hkn)]
        exact hdone k (by omega)

/-- What `generate_bags` returns after the loop. -/
def loopAnswer (r : Bags × G × Option Err) : Except Err Bags :=
  match r.2.2 with
  | some e => .error e
  | none => .ok r.1

theorem bagsCode_safe_own (rng : Rng G) (ho : Function.Injective o) (y : List α) (sim : ℕ → List ℝ) (bs nBags : ℕ) (c : CovCell) (hbs : c.bagSize = some bs) (hrs : c.rs = .obj (.own (o t))) (centers : List ℤ) :
    ∀ (nBag : ℕ) (p : List (List Fl)) (x : List (List ℕ)) (g : G), nBag + centers.length = nBags → p.length = nBags → x.length = nBags → (∀ k, nBag ≤ k → k < nBags → (p.getD k []).length = (npUnique y).length) →
    Safe (OwnGen o) t (· = loopAnswer (covLoop rng y (npUnique y) bs sim centers nBag g ⟨p, x⟩)) (bagOps (npUnique y).length centers.length) (GenIs (o t) (· = g) (withArrays c p x)) (bagsCode rng (o t) y (npUnique y) sim centers nBag) := by
  induction centers with
  | nil =>
    intro nBag p x g hn hp hx _
    unfold bagsCode
    have e : bagOps (npUnique y).length ([] : List ℤ).length = 1 := by simp [bagOps]
    rw [e]
    exact returnCode_safe ho c p x rfl
  | cons z cs ih =>
    intro nBag p x g hn hp hx htail
    have hlt : nBag < nBags := by simp at hn; omega
    unfold bagsCode
    have e : bagOps (npUnique y).length (z :: cs).length = (2 * (npUnique y).length + bagOps (npUnique y).length cs.length) + 1 + 1 + 1 + 1 := by
      simp only [bagOps, List.length_cons]; ring
    rw [e]
    refine safe_get ho fun s hs => rngCode_safe ho (withArrays c p x) (.own (o t)) hrs _ (safe_draw_own ho (fun e he => ?_) fun col g' hd => safe_setGen ho ?_)
    · have hb : (s.gens (o t)).bagSize.getD 0 = bs := by rw [hs.1]; simp [withArrays, hbs]
      rw [hb] at he
      rw [covLoop, he]
      rfl
    have hb : (s.gens (o t)).bagSize.getD 0 = bs := by rw [hs.1]; simp [withArrays, hbs]
    rw [hb] at hd
    have h3 : ({ withArrays c p x with idx := (withArrays c p x).idx.map fun x => x.set nBag col } : CovCell) = withArrays c p (x.set nBag col) := rfl
    rw [h3]
    refine classesCode_safe ho y bs nBag c hbs (x.set nBag col) col (getD_set_eq _ _ _ _ (by omega)) _ (npUnique y) [] (p.getD nBag []) p (htail _ le_rfl hlt) (by omega) rfl ?_
    rw [List.nil_append, ← prevsOf_eq]
    have h4 : covLoop rng y (npUnique y) bs sim (z :: cs) nBag g ⟨p, x⟩ = covLoop rng y (npUnique y) bs sim cs (nBag + 1) g' ⟨p.set nBag (prevsOf y (npUnique y) bs col), x.set nBag col⟩ := by
      rw [covLoop, hd]
    rw [h4]
    refine ih (nBag + 1) _ _ g' (by simp at hn; omega) (by simpa using hp) (by simpa using hx) fun k hk1 hk2 => ?_
    rw [getD_set_ne _ _ _ _ _ (by omega)]
    exact htail k (by omega) hk2

/-- The operations of a call. -/
def covOps (nClasses nBags : ℕ) : ℕ := bagOps nClasses nBags + 13

theorem fillCode_safe_any {rng : Rng G} (hr : RngOk rng) (ho : Function.Injective o) (y : List α) (sim : ℕ → List ℝ) (hsim : ∀ i < y.length, (sim i).length = y.length) (bs : ℕ) (hbs0 : 0 < bs) (c : CovCell)
    (hbs : c.bagSize = some bs) (pl : RngPlace) (hpl : ∀ j, pl = .own j → j = o t) (hrs : c.rs = .obj pl) :
    Safe (OwnGen o) t (fun r => ∀ b, r = .ok b → AreBags y bs c.nBags b) (bagOps (npUnique y).length c.nBags + 6) (GenIs (o t) (fun _ => True) c) (fillCode rng (o t) y y.length sim) := by
  unfold fillCode
  refine safe_setGen ho (safe_get ho fun s hs => safe_setGen ho (safe_get ho fun s' hs' => ?_))
  refine rngCode_safe ho _ pl ?_ _ (safe_draw_any hpl ho (fun e b hb => nomatch hb) fun g centers g' hd => ?_)
  · exact hrs
  have h1 : (s.gens (o t)).bagSize.getD 0 = bs := by rw [hs.1]; simp [hbs]
  have h2 : (s'.gens (o t)).nBags = c.nBags := by rw [hs'.1]
  rw [h2] at hd
  rw [h1]
  obtain ⟨h3, h4⟩ := hr.randint _ _ _ _ _ _ hd
  rw [show bagOps (npUnique y).length c.nBags = bagOps (npUnique y).length centers.length by rw [h3]]
  refine bagsCode_safe_any hr ho y sim hsim bs hbs0 c.nBags c hbs pl hpl hrs centers 0 _ _ h4 (by omega) (by simp) (by simp) (fun k _ hk => ?_) fun k hk => absurd hk (by omega)
  rw [List.getD_eq_getElem _ _ (by simpa using hk)]
  simp

theorem fillCode_safe_own (rng : Rng G) (hl : ∀ g lo hi n l g', rng.randint g lo hi n = .ok (l, g') → l.length = n) (ho : Function.Injective o) (y : List α) (sim : ℕ → List ℝ) (bs : ℕ) (c : CovCell) (hbs : c.bagSize = some bs)
    (hrs : c.rs = .obj (.own (o t))) (g : G) :
    Safe (OwnGen o) t (· = match rng.randint g 0 y.length c.nBags with
        | .error e => .error e
        | .ok r => loopAnswer (covLoop rng y (npUnique y) bs sim r.1 0 r.2 (zeroBags (npUnique y).length bs c.nBags))) (bagOps (npUnique y).length c.nBags + 6) (GenIs (o t) (· = g) c) (fillCode rng (o t) y y.length sim) := by
  unfold fillCode
  refine safe_setGen ho (safe_get ho fun s hs => safe_setGen ho (safe_get ho fun s' hs' => ?_))
  refine rngCode_safe ho _ (.own (o t)) ?_ _ (safe_draw_own ho (fun e he => ?_) fun centers g' hd => ?_)
  · exact hrs
  · have h2 : (s'.gens (o t)).nBags = c.nBags := by rw [hs'.1]
    rw [h2] at he
    rw [he]
  · have h1 : (s.gens (o t)).bagSize.getD 0 = bs := by rw [hs.1]; simp [hbs]
    have h2 : (s'.gens (o t)).nBags = c.nBags := by rw [hs'.1]
    rw [h2] at hd
    rw [h1, hd]
    have h3 := hl _ _ _ _ _ _ hd
    rw [show bagOps (npUnique y).length c.nBags = bagOps (npUnique y).length centers.length by rw [h3]]
    refine bagsCode_safe_own rng ho y sim bs c.nBags c hbs hrs centers 0 _ _ g' (by omega) (by simp) (by simp) (fun k _ hk => ?_)
    rw [List.getD_eq_getElem _ _ (by simpa using hk)]
    simp

/-- A generator as the program made it. -/
structure FreshGen (c : CovCell) : Prop where
  prevs : c.prevs = none
  idx : c.idx = none
  rs : ∀ j, c.rs ≠ .obj (.own j)

theorem checkedCode_safe_any {rng : Rng G} (hr : RngOk rng) (ho : Function.Injective o) (d : BagData α) (sim : ℕ → List ℝ) (hsim : ∀ i < d.y.length, (sim i).length = d.y.length) (c : CovCell)
    (hbs0 : 0 < c.bagSize.getD d.y.length) (hpl : ∀ j, c.rs = .obj (.own j) → j = o t) :
    Safe (OwnGen o) t (fun r => ∀ b, r = .ok b → AreBags d.y (c.bagSize.getD d.y.length) c.nBags b) (bagOps (npUnique d.y).length c.nBags + 9) (GenIs (o t) (fun _ => True) c) (checkedCode rng (o t) d sim) := by
  unfold checkedCode
  refine safe_get ho fun s hs => ?_
  rw [hs.1]
  cases hrs : c.rs with
  | seed n => exact .ret _ _ _ fun _ _ b hb => nomatch hb
  | invalid => exact .ret _ _ _ fun _ _ b hb => nomatch hb
  | obj pl =>
    dsimp only
    cases hX : d.lenX with
    | none => exact .ret _ _ _ fun _ _ b hb => nomatch hb
    | some n =>
      dsimp only
      split_ifs with hn
      · obtain ⟨rfl, -⟩ := hn
        refine safe_get ho fun s hs => ?_
        rw [hs.1]
        cases hb : c.bagSize with
        | none =>
          rw [hb] at hbs0
          exact safe_setGen ho (fillCode_safe_any hr ho d.y sim hsim d.y.length hbs0 { c with bagSize := some d.y.length } rfl pl (fun j hj => hpl j (by rw [hrs, hj])) hrs)
        | some bs =>
          rw [hb] at hbs0
          exact Safe.mono (fillCode_safe_any hr ho d.y sim hsim bs hbs0 c hb pl (fun j hj => hpl j (by rw [hrs, hj])) hrs) (by omega)
      · exact .ret _ _ _ fun _ _ b hb => nomatch hb

theorem checkedCode_safe_own (rng : Rng G) (hl : ∀ g lo hi n l g', rng.randint g lo hi n = .ok (l, g') → l.length = n) (ho : Function.Injective o) (d : BagData α) (sim : ℕ → List ℝ) (c : CovCell) (hrs : c.rs = .obj (.own (o t))) (g : G) :
    Safe (OwnGen o) t (· = (covGenerate rng ⟨c.nBags, c.bagSize, .obj g, none⟩ d sim).2) (bagOps (npUnique d.y).length c.nBags + 9) (GenIs (o t) (· = g) c) (checkedCode rng (o t) d sim) := by
  unfold checkedCode
  refine safe_get ho fun s hs => ?_
  rw [hs.1, hrs]
  dsimp only
  cases hX : d.lenX with
  | none =>
    refine .ret _ _ _ fun _ _ => ?_
    unfold covGenerate
    dsimp only
    rw [hX]
  | some n =>
    dsimp only
    split_ifs with hn
    · have hd := hn
      obtain ⟨rfl, -⟩ := hn
      have key : ∀ bs, c.bagSize.getD d.y.length = bs → (covGenerate rng ⟨c.nBags, c.bagSize, .obj g, none⟩ d sim).2 = match rng.randint g 0 d.y.length c.nBags with
          | .error e => .error e
          | .ok r => loopAnswer (covLoop rng d.y (npUnique d.y) bs sim r.1 0 r.2 (zeroBags (npUnique d.y).length bs c.nBags)) := by
        rintro bs rfl
        unfold covGenerate
        dsimp only
        rw [hX]
        dsimp only
        rw [if_pos hd]
        cases rng.randint g 0 d.y.length c.nBags <;> rfl
      refine safe_get ho fun s hs => ?_
      rw [hs.1]
      cases hb : c.bagSize with
      | none =>
        have := fillCode_safe_own (t := t) rng hl ho d.y sim d.y.length { c with bagSize := some d.y.length } rfl hrs g
        rw [← key d.y.length (by rw [hb]; rfl), hb] at this
        exact safe_setGen ho this
      | some bs =>
        have := fillCode_safe_own (t := t) rng hl ho d.y sim bs c hb hrs g
        rw [← key bs (by rw [hb]; rfl), hb] at this
        exact Safe.mono this (by omega)
    · refine .ret _ _ _ fun _ _ => ?_
      unfold covGenerate
      dsimp only
      rw [hX]
      dsimp only
      rw [if_neg hn]

theorem safe_seed {Φ : Except Err Bags → Prop} {n : ℕ} {E : G → Prop} {c : CovCell} {g : G} {k : AtomicCode (BagStore G) (Except Err Bags)} (ho : Function.Injective o) {E' : G → Prop} (hE : E' g)
    (hk : Safe (OwnGen o) t Φ n (GenIs (o t) E' { c with rs := .obj (.own (o t)) }) k) :
    Safe (OwnGen o) t Φ (n + 1) (GenIs (o t) E c) (.put (fun s => (s.setGen (o t) fun a => { a with rs := .obj (.own (o t)) }).setRng (.own (o t)) g) k) := by
  refine .op n _ _ _ (fun _ => GenIs (o t) E' { c with rs := .obj (.own (o t)) }) (fun _ _ => genIs_undisturbed ho _ _) (fun s _ => ⟨fun j hj => ?_, fun j hj => ?_⟩) (fun s hs => ⟨?_, ?_⟩) fun _ _ => hk
  · exact Function.update_of_ne hj _ _
  · exact Function.update_of_ne (fun h => hj (by injection h)) _ _
  · change Function.update s.gens (o t) _ (o t) = _
    rw [Function.update_self, hs.1]
  · change E' (Function.update s.rngs (.own (o t)) g (.own (o t)))
    rw [Function.update_self]
    exact hE

theorem covCode_safe_any {rng : Rng G} (hr : RngOk rng) (ho : Function.Injective o) (d : BagData α) (sim : ℕ → List ℝ) (hsim : ∀ i < d.y.length, (sim i).length = d.y.length) (c : CovCell) (hc : FreshGen c)
    (hbs0 : 0 < c.bagSize.getD d.y.length) :
    Safe (OwnGen o) t (fun r => ∀ b, r = .ok b → AreBags d.y (c.bagSize.getD d.y.length) c.nBags b) (covOps (npUnique d.y).length c.nBags) (GenIs (o t) (fun _ => True) c) (covCode rng (o t) d sim) := by
  unfold covCode
  refine safe_get ho fun s hs => ?_
  rw [hs.1, hc.prevs]
  refine safe_get ho fun s hs => ?_
  rw [hs.1]
  cases hrs : c.rs with
  | seed n =>
    refine safe_get ho fun s hs => ?_
    rw [hs.1, hrs]
    exact safe_seed ho trivial (checkedCode_safe_any hr ho d sim hsim { c with rs := .obj (.own (o t)) } hbs0 fun j hj => by injection hj with h; injection h with h; exact h.symm)
  | invalid => exact Safe.mono (checkedCode_safe_any hr ho d sim hsim c hbs0 fun j hj => absurd hj (hc.rs j)) (by omega)
  | obj p => exact Safe.mono (checkedCode_safe_any hr ho d sim hsim c hbs0 fun j hj => absurd hj (hc.rs j)) (by omega)

theorem covCode_safe_own (rng : Rng G) (hl : ∀ g lo hi n l g', rng.randint g lo hi n = .ok (l, g') → l.length = n) (ho : Function.Injective o) (d : BagData α) (sim : ℕ → List ℝ) (c : CovCell) (hc : FreshGen c) (m : ℤ) (hm : c.rs = .seed m) :
    Safe (OwnGen o) t (· = (covGenerate rng ⟨c.nBags, c.bagSize, .seed m, none⟩ d sim).2) (covOps (npUnique d.y).length c.nBags) (GenIs (o t) (fun _ => True) c) (covCode rng (o t) d sim) := by
  unfold covCode
  refine safe_get ho fun s hs => ?_
  rw [hs.1, hc.prevs]
  refine safe_get ho fun s hs => ?_
  rw [hs.1, hm]
  refine safe_get ho fun s hs => ?_
  rw [hs.1, hm]
  have := checkedCode_safe_own (t := t) rng hl ho d sim { c with rs := .obj (.own (o t)) } rfl (rng.ofSeed m)
  exact safe_seed (E' := (· = rng.ofSeed m)) ho rfl this

end

end Verif.Proof
