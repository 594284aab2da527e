import Verif.Proof.ThreadsPrior

/-!
# Threads that generate bags with prior probability shift and share `RandomState` objects

Between two draws of a thread the others may leave a shared `RandomState` in any state. A call does what it does alone with a `RandomState` that goes through those states: `scripted`.
-/

namespace Verif.Proof

open Verif.Model Verif.Spec Verif.Props

section
variable {G α : Type} [LinearOrder α] {o : ℕ → ℕ} {t : ℕ} {Φ : Option (Except Err Bags) → Prop} {n : ℕ}

/-- A draw from the first state of the script. -/
def scriptedDraw {A : Type} (draw : G → Except Err (A × G)) : List G → Except Err (A × List G)
  | [] => .error .attributeError
  | g :: gs => (draw g).map fun r => (r.1, gs)

/-- Random numbers whose states are given in advance. -/
def scripted (rng : Rng G) : Rng (List G) where
  ofSeed m := [rng.ofSeed m]
  randint gs lo hi n := scriptedDraw (fun g => rng.randint g lo hi n) gs
  choice gs pool n := scriptedDraw (fun g => rng.choice g pool n) gs
  choiceP gs p n := scriptedDraw (fun g => rng.choiceP g p n) gs
  dirichlet gs a n := scriptedDraw (fun g => rng.dirichlet g a n) gs

theorem scriptedDraw_inv {A : Type} {draw : G → Except Err (A × G)} {gs gs' : List G} {a : A} (h : scriptedDraw draw gs = .ok (a, gs')) : ∃ g g', draw g = .ok (a, g') := by
  cases gs with
  | nil => cases h
  | cons g gs =>
    change (draw g).map (fun r => (r.1, gs)) = _ at h
    cases hd : draw g with
    | error e => rw [hd] at h; cases h
    | ok r =>
      rw [hd] at h
      have : r.1 = a := by
        simp only [Except.map, Except.ok.injEq, Prod.mk.injEq] at h
        exact h.1
      exact ⟨g, r.2, by rw [← this, hd]⟩

theorem scripted_ok {rng : Rng G} (hr : RngOk rng) : RngOk (scripted rng) where
  randint g lo hi n l g' h := by
    obtain ⟨g, g', h⟩ := scriptedDraw_inv h
    exact hr.randint _ _ _ _ _ _ h
  choice g pool n l g' h := by
    obtain ⟨g, g', h⟩ := scriptedDraw_inv h
    exact hr.choice _ _ _ _ _ h
  choiceP g p n l g' h := by
    obtain ⟨g, g', h⟩ := scriptedDraw_inv h
    exact hr.choiceP _ _ _ _ _ h
  dirichlet g a n l g' h := by
    obtain ⟨g, g', h⟩ := scriptedDraw_inv h
    exact hr.dirichlet _ _ _ _ _ h

theorem scriptedDraw_ok {A : Type} {draw : G → Except Err (A × G)} {g g' : G} {a : A} (h : draw g = .ok (a, g')) (gs : List G) : scriptedDraw draw (g :: gs) = .ok (a, gs) := by
  change (draw g).map (fun r => (r.1, gs)) = _
  rw [h]
  rfl

theorem scriptedDraw_error {A : Type} {draw : G → Except Err (A × G)} {g : G} {e : Err} (h : draw g = .error e) (gs : List G) : scriptedDraw draw (g :: gs) = .error e := by
  change (draw g).map (fun r => (r.1, gs)) = _
  rw [h]
  rfl

/-- A `RandomState` object that is not the own one of another generator. -/
def NotOthers (o : ℕ → ℕ) (t : ℕ) (c : PriorCell) : Prop := ∀ j, c.rs = .obj (.own j) → j = o t

/-- A draw of a `RandomState` in any state. -/
theorem prior_draw_any {c : PriorCell} {A : Type} {draw : G → Except Err (A × G)} {k : A → PriorCode G} (ho : Function.Injective o) (hc : NotOthers o t c) (h0 : Φ (some (.error .attributeError)))
    (herr : ∀ g e, draw g = .error e → Φ (some (.error e))) (hk : ∀ g a g', draw g = .ok (a, g') → Safe (OwnPrior o) t Φ n (PriorIs (o t) (fun _ => True) c) (k a)) :
    Safe (OwnPrior o) t Φ (n + 1 + 1) (PriorIs (o t) (fun _ => True) c) (drawPrior (o t) draw k) := by
  refine prior_get ho fun s hs => ?_
  rw [hs.1]
  cases hrs : c.rs with
  | seed m => exact .ret _ _ _ fun _ _ => h0
  | invalid => exact .ret _ _ _ fun _ _ => h0
  | obj p =>
    refine .op n _ _ _ (fun _ => PriorIs (o t) (fun _ => True) c) (fun _ _ => priorIs_undisturbed ho _ _) (fun s hs => ?_) (fun s hs => ?_) fun s hs => ?_
    · cases hd : draw (s.rngs p) with
      | error e => exact ownPrior_refl s
      | ok r => exact ⟨fun _ _ => rfl, fun j hj => Function.update_of_ne (fun h => hj (hc j (by rw [hrs, h]))) _ _⟩
    · cases hd : draw (s.rngs p) with
      | error e => exact hs
      | ok r => exact ⟨hs.1, trivial⟩
    · cases hd : draw (s.rngs p) with
      | error e => exact .ret _ _ _ fun _ _ => herr _ e hd
      | ok r => exact hk _ r.1 r.2 hd

theorem prior_seed_any {c : PriorCell} {g : G} {k : PriorCode G} (ho : Function.Injective o)
    (hk : Safe (OwnPrior o) t Φ n (PriorIs (o t) (fun _ => True) { c with rs := .obj (.own (o t)) }) k) :
    Safe (OwnPrior o) t Φ (n + 1) (PriorIs (o t) (fun _ => True) c) (.put (fun s => (s.setGen (o t) fun a => { a with rs := .obj (.own (o t)) }).setRng (.own (o t)) g) k) := by
  refine .op n _ _ _ (fun _ => PriorIs (o t) (fun _ => True) { c with rs := .obj (.own (o t)) }) (fun _ _ => priorIs_undisturbed ho _ _) (fun s _ => ⟨fun j hj => ?_, fun j hj => ?_⟩) (fun s hs => ⟨?_, trivial⟩) fun _ _ => hk
  · exact Function.update_of_ne hj _ _
  · exact Function.update_of_ne (fun h => hj (by injection h)) _ _
  · change Function.update s.gens (o t) _ (o t) = _
    rw [Function.update_self, hs.1]

/-- What follows the loop over the classes of a bag: an error, or `F` of the column and the rest of the script. -/
def AfterFill (Φ : Option (Except Err Bags) → Prop) (F : List ℕ → List G → Prop) (r : List ℕ × List G × Option Err) : Prop :=
  match r.2.2 with
  | some e => Φ (some (.error e))
  | none => F r.1 r.2.1

theorem fillPrior_safe_any (rng : Rng G) (ho : Function.Injective o) (y : List α) (nBag : ℕ) (c : PriorCell) (hc : NotOthers o t c) (h0 : Φ (some (.error .attributeError))) (p : List (List Fl)) (rest : PriorCode G)
    (F : List ℕ → List G → Prop) (cs : List (α × ℤ)) : ∀ (pos : ℕ) (x : List (List ℕ)), nBag < x.length →
    (∀ col, (∀ gs, F col gs) → Safe (OwnPrior o) t Φ n (PriorIs (o t) (fun _ => True) (priorArrays c p (x.set nBag col))) rest) →
    (∀ gs, AfterFill Φ F (fillClasses (scripted rng) y cs gs (x.getD nBag []) pos)) →
    Safe (OwnPrior o) t Φ (3 * cs.length + n) (PriorIs (o t) (fun _ => True) (priorArrays c p x)) (fillPrior rng (o t) y nBag rest cs pos) := by
  induction cs with
  | nil =>
    intro pos x _ hrest hF
    have := hrest (x.getD nBag []) fun gs => hF gs
    rw [set_getD_self] at this
    simpa [fillPrior] using this
  | cons am cs ih =>
    obtain ⟨a, m⟩ := am
    intro pos x hx hrest hF
    unfold fillPrior examplesCode
    rw [show 3 * ((a, m) :: cs).length + n = (3 * cs.length + n) + 1 + 1 + 1 by rw [List.length_cons]; ring]
    split_ifs with hm
    · refine prior_draw_any ho hc h0 (fun g e he => ?_) fun g xs g' hd => prior_setGen ho ?_
      · have := hF [g]
        rw [fillClasses, if_pos hm, show (scripted rng).choice [g] (whereEq y a) m = .error e from scriptedDraw_error (draw := fun g => rng.choice g (whereEq y a) m) he []] at this
        exact this
      · have h3 : ({ priorArrays c p x with idx := (priorArrays c p x).idx.map fun x => x.set nBag (fillSlice (x.getD nBag []) pos xs) } : PriorCell) = priorArrays c p (x.set nBag (fillSlice (x.getD nBag []) pos xs)) := rfl
        rw [h3]
        refine ih (pos + xs.length) _ (by simpa using hx) (fun col hcol => ?_) fun gs => ?_
        · rw [List.set_set]
          exact hrest col hcol
        · have := hF (g :: gs)
          rw [fillClasses, if_pos hm, show (scripted rng).choice (g :: gs) (whereEq y a) m = .ok (xs, gs) from scriptedDraw_ok (draw := fun g => rng.choice g (whereEq y a) m) hd gs] at this
          rw [getD_set_eq _ _ _ _ hx]
          exact this
    · refine Safe.mono (ih pos x hx hrest fun gs => ?_) (by omega)
      have := hF gs
      rw [fillClasses, if_neg hm] at this
      exact this

theorem uniformCode_safe_any (rng : Rng G) (ho : Function.Injective o) (y : List α) (mins : Option (List ℤ)) (low high : ℤ) (bs : ℕ) (c : PriorCell) (hbs : c.bagSize = some bs) (hc : NotOthers o t c)
    (h0 : Φ (some (.error .attributeError))) (fuel : ℕ) : ∀ (nBag : ℕ) (p : List (List Fl)) (x : List (List ℕ)), x.length = c.nBags →
    (∀ gs, Φ (uniformAnswer (uniformLoop (scripted rng) y (npUnique y) bs c.nBags mins low high fuel nBag gs ⟨p, x⟩))) →
    Safe (OwnPrior o) t Φ (uniformOps (npUnique y).length fuel) (PriorIs (o t) (fun _ => True) (priorArrays c p x)) (uniformCode rng (o t) y mins low high fuel nBag) := by
  induction fuel with
  | zero =>
    intro nBag p x hx hΦ
    have hΦ' := hΦ []
    unfold uniformCode
    have e : uniformOps (npUnique y).length 0 = 1 + 1 := by simp [uniformOps]
    rw [e]
    refine prior_get ho fun s hs => ?_
    have h1 : (s.gens (o t)).nBags = c.nBags := by rw [hs.1]; rfl
    rw [uniformLoop] at hΦ'
    rw [h1]
    split_ifs with hlt
    · rw [if_pos hlt] at hΦ'
      exact .ret _ _ _ fun _ _ => hΦ'
    · rw [if_neg hlt] at hΦ'
      exact returnPrior_safe ho c p x hΦ'
  | succ fuel ih =>
    intro nBag p x hx hΦ
    unfold uniformCode
    have e : uniformOps (npUnique y).length (fuel + 1) = (3 * (npUnique y).length + uniformOps (npUnique y).length fuel + 1 + 1 + 1 + 1 + 1 + 1) + 1 := by
      simp only [uniformOps]; ring
    rw [e]
    refine prior_get ho fun s hs => ?_
    have h1 : (s.gens (o t)).nBags = c.nBags := by rw [hs.1]; rfl
    rw [h1]
    split_ifs with hlt
    · refine prior_draw_any (n := 3 * (npUnique y).length + uniformOps (npUnique y).length fuel + 1 + 1 + 1 + 1) ho hc h0 (fun g e he => ?_) fun g draws g' hd => ?_
      · have := hΦ [g]
        rw [uniformLoop, if_pos hlt] at this
        dsimp only at this
        rw [show (scripted rng).randint [g] low high ((npUnique y).length - 1) = .error e from scriptedDraw_error (draw := fun g => rng.randint g low high ((npUnique y).length - 1)) he []] at this
        exact this
      · have hstep : ∀ gs, (scripted rng).randint (g :: gs) low high ((npUnique y).length - 1) = .ok (draws, gs) := fun gs => scriptedDraw_ok (draw := fun g => rng.randint g low high ((npUnique y).length - 1)) hd gs
        refine prior_get ho fun s hs => ?_
        have h2 : (s.gens (o t)).bagSize.getD 0 = bs := by rw [hs.1]; simp [priorArrays, hbs]
        rw [h2]
        split_ifs with hm
        · refine Safe.mono (n := 3 * (npUnique y).length + uniformOps (npUnique y).length fuel + 1 + 1) ?_ (by omega)
          refine prior_get ho fun s' hs' => prior_setGen ho ?_
          have h3 : (s'.gens (o t)).bagSize.getD 0 = bs := by rw [hs'.1]; simp [priorArrays, hbs]
          rw [h3]
          have h4 : ({ priorArrays c p x with prevs := (priorArrays c p x).prevs.map fun p => p.set nBag ((kraemer draws bs).map fun n : ℤ => Fl.fin (n : ℝ) / Fl.fin (bs : ℝ)) } : PriorCell)
              = priorArrays c (p.set nBag ((kraemer draws bs).map fun n : ℤ => Fl.fin (n : ℝ) / Fl.fin (bs : ℝ))) x := rfl
          rw [h4]
          have hle : 3 * ((npUnique y).zip (kraemer draws bs)).length + uniformOps (npUnique y).length fuel ≤ 3 * (npUnique y).length + uniformOps (npUnique y).length fuel := by
            rw [List.length_zip]
            have := min_le_left (npUnique y).length (kraemer draws bs).length
            omega
          refine Safe.mono ?_ hle
          refine fillPrior_safe_any rng ho y nBag c hc h0 _ _
            (fun col gs => Φ (uniformAnswer (uniformLoop (scripted rng) y (npUnique y) bs c.nBags mins low high fuel (nBag + 1) gs ⟨p.set nBag ((kraemer draws bs).map fun n : ℤ => Fl.fin (n : ℝ) / Fl.fin (bs : ℝ)), x.set nBag col⟩)))
            _ 0 x (by omega) (fun col hcol => ih (nBag + 1) _ _ (by simpa using hx) hcol) fun gs => ?_
          have := hΦ (g :: gs)
          rw [uniformLoop, if_pos hlt] at this
          dsimp only at this
          rw [hstep gs] at this
          dsimp only at this
          rw [if_pos hm] at this
          revert this
          generalize fillClasses (scripted rng) y ((npUnique y).zip (kraemer draws bs)) gs (x.getD nBag []) 0 = r
          obtain ⟨col, g2, er⟩ := r
          cases er <;> exact id
        · refine Safe.mono (ih nBag p x hx fun gs => ?_) (by omega)
          have := hΦ (g :: gs)
          rw [uniformLoop, if_pos hlt] at this
          dsimp only at this
          rw [hstep gs] at this
          dsimp only at this
          rw [if_neg hm] at this
          exact this
    · have := hΦ []
      rw [uniformLoop, if_neg hlt] at this
      exact Safe.mono (returnPrior_safe ho c p x this) (by omega)

theorem dirichletBag_safe_any {rng : Rng G} (hr : RngOk rng) (ho : Function.Injective o) (y : List α) (nBag : ℕ) (bs : ℕ) (c : PriorCell) (hbs : c.bagSize = some bs) (hc : NotOthers o t c) (h0 : Φ (some (.error .attributeError)))
    (rest : PriorCode G) (F : List ℕ → List G → Prop) (cs : List α) :
    ∀ (ds : List ℝ) (done : List Fl) (pos : ℕ) (p : List (List Fl)) (x : List (List ℕ)), ds.length = cs.length → nBag < p.length → nBag < x.length → p.getD nBag [] = done ++ ds.map Fl.fin →
    (∀ col, (∀ gs, F col gs) → Safe (OwnPrior o) t Φ n (PriorIs (o t) (fun _ => True)
      (priorArrays c (p.set nBag (done ++ (dirichletCounts bs ds pos).map fun n : ℤ => Fl.fin (n : ℝ) / Fl.fin (bs : ℝ))) (x.set nBag col))) rest) →
    (∀ gs, AfterFill Φ F (fillClasses (scripted rng) y (cs.zip (dirichletCounts bs ds pos)) gs (x.getD nBag []) pos)) →
    Safe (OwnPrior o) t Φ (6 * cs.length + n) (PriorIs (o t) (fun _ => True) (priorArrays c p x)) (dirichletBagCode rng (o t) y nBag rest cs done.length pos) := by
  induction cs with
  | nil =>
    intro ds done pos p x hd _ _ hp hrest hF
    obtain rfl : ds = [] := by simpa using hd
    have := hrest (x.getD nBag []) fun gs => hF gs
    simp only [dirichletCounts, List.map_nil] at this hp
    rw [← hp, set_getD_self, set_getD_self] at this
    simpa [dirichletBagCode] using this
  | cons a cs ih =>
    intro ds done pos p x hd hpl hxl hp hrest hF
    cases ds with
    | nil => simp at hd
    | cons q ds =>
      have hd' : ds.length = cs.length := by simpa using hd
      have hem : cs.isEmpty = ds.isEmpty := by
        cases cs <;> cases ds <;> simp_all
      obtain ⟨m, hm⟩ : ∃ m, m = if ds.isEmpty then (bs : ℤ) - pos else min ((bs : ℤ) - pos) (roundHalfEven (q * bs)) := ⟨_, rfl⟩
      have hcons := dirichletCounts_cons bs q ds pos m hm
      rw [hcons] at hrest hF
      unfold dirichletBagCode
      rw [show 6 * (a :: cs).length + n = (6 * cs.length + n) + 1 + 1 + 1 + 1 + 1 + 1 by rw [List.length_cons]; ring]
      refine prior_get ho fun s hs => ?_
      have hcount : dirichletCount (s.gens (o t)) nBag done.length pos cs.isEmpty = some m := by
        unfold dirichletCount
        rw [hs.1, hem]
        have h1 : ((priorArrays c p x).prevs.getD []).getD nBag [] = done ++ (q :: ds).map Fl.fin := hp
        have h2 : (priorArrays c p x).bagSize.getD 0 = bs := by simp [priorArrays, hbs]
        rw [h1, h2, hm]
        split_ifs with h
        · rfl
        · simp [List.getD]
      rw [hcount]
      refine prior_get ho fun s hs => prior_setGen ho ?_
      have h2 : (s.gens (o t)).bagSize.getD 0 = bs := by rw [hs.1]; simp [priorArrays, hbs]
      rw [h2]
      have h3 : ({ priorArrays c p x with prevs := (priorArrays c p x).prevs.map fun p => p.set nBag ((p.getD nBag []).set done.length (Fl.fin (m : ℝ) / Fl.fin (bs : ℝ))) } : PriorCell)
          = priorArrays c (p.set nBag (done ++ [Fl.fin (m : ℝ) / Fl.fin (bs : ℝ)] ++ ds.map Fl.fin)) x := by
        simp only [priorArrays, Option.map_some, hp]
        congr 3
        simp
      rw [h3]
      have hlen : done.length + 1 = (done ++ [Fl.fin (m : ℝ) / Fl.fin (bs : ℝ)]).length := by simp
      rw [hlen]
      unfold examplesCode
      split_ifs with hm0
      · refine prior_draw_any ho hc h0 (fun g e he => ?_) fun g xs g' hdr => prior_setGen ho ?_
        · have := hF [g]
          rw [List.zip_cons_cons, fillClasses, if_pos hm0, show (scripted rng).choice [g] (whereEq y a) m = .error e from scriptedDraw_error (draw := fun g => rng.choice g (whereEq y a) m) he []] at this
          exact this
        · have hxs : pos + xs.length = pos + m.toNat := by
            have := (hr.choice _ _ _ _ _ hdr).1
            omega
          rw [hxs]
          refine ih ds (done ++ [Fl.fin (m : ℝ) / Fl.fin (bs : ℝ)]) (pos + m.toNat) (p.set nBag (done ++ [Fl.fin (m : ℝ) / Fl.fin (bs : ℝ)] ++ ds.map Fl.fin)) (x.set nBag (fillSlice (x.getD nBag []) pos xs)) hd' (by simpa using hpl)
            (by simpa using hxl) (getD_set_eq _ _ _ _ hpl) (fun col hcol => ?_) fun gs => ?_
          · rw [List.set_set, List.set_set]
            have := hrest col hcol
            simpa using this
          · have := hF (g :: gs)
            rw [List.zip_cons_cons, fillClasses, if_pos hm0, show (scripted rng).choice (g :: gs) (whereEq y a) m = .ok (xs, gs) from scriptedDraw_ok (draw := fun g => rng.choice g (whereEq y a) m) hdr gs] at this
            dsimp only at this
            rw [hxs] at this
            rw [getD_set_eq _ _ _ _ hxl]
            exact this
      · have e2 : pos + m.toNat = pos := by rw [not_not.1 hm0]; rfl
        refine Safe.mono (ih ds (done ++ [Fl.fin (m : ℝ) / Fl.fin (bs : ℝ)]) pos (p.set nBag (done ++ [Fl.fin (m : ℝ) / Fl.fin (bs : ℝ)] ++ ds.map Fl.fin)) x hd' (by simpa using hpl)
            hxl (getD_set_eq _ _ _ _ hpl) (fun col hcol => ?_) fun gs => ?_) (by omega)
        · rw [List.set_set]
          have := hrest col hcol
          rw [e2] at this
          simpa using this
        · have := hF gs
          rw [List.zip_cons_cons, fillClasses, if_neg hm0, e2] at this
          exact this

theorem dirichletCode_safe_any {rng : Rng G} (hr : RngOk rng) (ho : Function.Injective o) (y : List α) (bs nBags : ℕ) (c : PriorCell) (hbs : c.bagSize = some bs) (hc : NotOthers o t c) (h0 : Φ (some (.error .attributeError)))
    (draws : List (List ℝ)) : ∀ (nBag : ℕ) (p : List (List Fl)) (x : List (List ℕ)), nBag + draws.length = nBags → p.length = nBags → x.length = nBags → (∀ r ∈ draws, r.length = (npUnique y).length) →
    p.drop nBag = draws.map (fun r => r.map Fl.fin) →
    (∀ gs, Φ (some (loopAnswer (dirichletLoop (scripted rng) y (npUnique y) bs draws nBag gs ⟨p, x⟩)))) →
    Safe (OwnPrior o) t Φ (dirichletOps (npUnique y).length draws.length) (PriorIs (o t) (fun _ => True) (priorArrays c p x)) (dirichletCode rng (o t) y draws.length nBag) := by
  induction draws with
  | nil =>
    intro nBag p x _ _ _ _ _ hΦ
    have e : dirichletOps (npUnique y).length ([] : List (List ℝ)).length = 1 := by simp [dirichletOps]
    rw [e]
    exact returnPrior_safe ho c p x (hΦ [])
  | cons dr draws ih =>
    intro nBag p x hn hp hx hl hdrop hΦ
    have hlt : nBag < nBags := by simp at hn; omega
    have hpn : p.getD nBag [] = [] ++ dr.map Fl.fin := by
      have h := congrArg List.head? hdrop
      rw [List.head?_drop] at h
      simp only [List.map_cons, List.head?_cons] at h
      simp [List.getD, h]
    have e : dirichletOps (npUnique y).length (dr :: draws).length = 6 * (npUnique y).length + dirichletOps (npUnique y).length draws.length := by
      simp only [dirichletOps, List.length_cons]; ring
    rw [e, List.length_cons]
    unfold dirichletCode
    refine dirichletBag_safe_any hr ho y nBag bs c hbs hc h0 _
      (fun col gs => Φ (some (loopAnswer (dirichletLoop (scripted rng) y (npUnique y) bs draws (nBag + 1) gs ⟨p.set nBag ((dirichletCounts bs dr 0).map fun n : ℤ => Fl.fin (n : ℝ) / Fl.fin (bs : ℝ)), x.set nBag col⟩))))
      (npUnique y) dr [] 0 p x (hl dr (by simp)) (by omega) (by omega) hpn (fun col hcol => ?_) fun gs => ?_
    · refine ih (nBag + 1) _ _ (by simp at hn; omega) (by simpa using hp) (by simpa using hx) (fun r hr => hl r (List.mem_cons_of_mem _ hr)) ?_ hcol
      rw [List.drop_set_of_lt (by omega)]
      rw [← List.tail_drop, hdrop]
      rfl
    · have := hΦ gs
      rw [dirichletLoop] at this
      dsimp only at this
      revert this
      generalize fillClasses (scripted rng) y ((npUnique y).zip (dirichletCounts bs dr 0)) gs (x.getD nBag []) 0 = r
      obtain ⟨col, g2, er⟩ := r
      cases er <;> exact id

theorem generateUniformCode_safe_any (rng : Rng G) (ho : Function.Injective o) (fuel : ℕ) (d : BagData α) (bs : ℕ) (c : PriorCell) (hbs : c.bagSize = some bs) (hc : NotOthers o t c) (h0 : Φ (some (.error .attributeError)))
    (hm : c.method = .uniform) (hΦ : ∀ gs glob, Φ ((priorGenerate (scripted rng) fuel (aloneGen c (.obj gs)) glob d).map (·.2.2))) :
    Safe (OwnPrior o) t Φ (uniformOps (npUnique d.y).length fuel + 5) (PriorIs (o t) (fun _ => True) c) (generateUniformCode rng fuel (o t) d) := by
  have hΦ' : ∀ gs, Φ ((generateUniform (scripted rng) fuel (aloneGen c (.obj gs)) bs gs d).map fun r => match r.2, r.1.bags with
            | some e, _ => .error e
            | none, some b => .ok b
            | none, none => .error .typeError) := by
    intro gs
    have := hΦ gs []
    unfold priorGenerate at this
    simp only [aloneGen, hbs, hm, Option.getD_some, Option.map_map, Function.comp_def] at this
    simp only [aloneGen, hbs, hm]
    exact this
  clear hΦ
  unfold generateUniformCode
  unfold generateUniform at hΦ'
  refine prior_get ho fun s hs => ?_
  rw [hs.1]
  replace hΦ' : ∀ gs, Φ (Option.map (fun r : PriorGen (List G) × Option Err => match r.2, r.1.bags with
            | some e, _ => .error e
            | none, some b => .ok b
            | none, none => .error .typeError) (match checkMinPrev c.minPrev with
      | some e => some (aloneGen c (.obj gs), some e)
      | none =>
        match checkXy d with
        | some e => some (aloneGen c (.obj gs), some e)
        | none =>
          match uniformBounds c.minPrev (npUnique d.y).length bs with
          | .error e => some (aloneGen c (.obj gs), some e)
          | .ok (mins, low, high) =>
            (uniformLoop (scripted rng) d.y (npUnique d.y) bs c.nBags mins low high fuel 0 gs (zeroBags (npUnique d.y).length bs c.nBags)).map fun r =>
              ({ aloneGen c (.obj gs) with bags := some r.1, rs := .obj r.2.1 }, r.2.2))) := hΦ'
  cases hcm : checkMinPrev c.minPrev with
  | some e =>
    rw [hcm] at hΦ'
    exact .ret _ _ _ fun _ _ => hΦ' []
  | none =>
    rw [hcm] at hΦ'
    dsimp only at hΦ' ⊢
    cases hxy : checkXy d with
    | some e =>
      rw [hxy] at hΦ'
      exact .ret _ _ _ fun _ _ => hΦ' []
    | none =>
      rw [hxy] at hΦ'
      dsimp only at hΦ' ⊢
      refine prior_get ho fun s hs => ?_
      have h2 : (s.gens (o t)).bagSize.getD 0 = bs := by rw [hs.1]; simp [hbs]
      rw [h2, hs.1]
      cases hub : uniformBounds c.minPrev (npUnique d.y).length bs with
      | error e =>
        rw [hub] at hΦ'
        exact .ret _ _ _ fun _ _ => hΦ' []
      | ok b =>
        obtain ⟨mins, low, high⟩ := b
        rw [hub] at hΦ'
        dsimp only at hΦ' ⊢
        refine prior_setGen ho (prior_get ho fun s hs => prior_setGen ho ?_)
        have h3 : (s.gens (o t)).bagSize.getD 0 = bs := by rw [hs.1]; simp [hbs]
        rw [h3]
        refine uniformCode_safe_any rng ho d.y mins low high bs c hbs hc h0 fuel 0 (List.replicate c.nBags (List.replicate (npUnique d.y).length (Fl.fin 0))) (List.replicate c.nBags (List.replicate bs 0)) (by simp) fun gs => ?_
        rw [uniformAnswer_eq _ (aloneGen c (.obj gs))]
        exact hΦ' gs

theorem generateDirichletCode_safe_any {rng : Rng G} (hr : RngOk rng) (ho : Function.Injective o) (fuel : ℕ) (d : BagData α) (bs : ℕ) (c : PriorCell) (hbs : c.bagSize = some bs) (hc : NotOthers o t c) (h0 : Φ (some (.error .attributeError)))
    (hm : c.method = .dirichlet) (hΦ : ∀ gs glob, Φ ((priorGenerate (scripted rng) fuel (aloneGen c (.obj gs)) glob d).map (·.2.2))) :
    Safe (OwnPrior o) t Φ (dirichletOps (npUnique d.y).length c.nBags + 8) (PriorIs (o t) (fun _ => True) c) (generateDirichletCode rng (o t) d) := by
  have hΦ' : ∀ gs glob, Φ (some (dirichletAnswer (generateDirichlet (scripted rng) (aloneGen c (.obj gs)) bs gs glob d))) := by
    intro gs glob
    have := hΦ gs glob
    unfold priorGenerate at this
    simp only [aloneGen, hbs, hm, Option.getD_some, Option.map_some] at this
    simp only [aloneGen, hbs, hm]
    exact this
  clear hΦ
  unfold generateDirichletCode
  unfold generateDirichlet at hΦ'
  cases hxy : checkXy d with
  | some e =>
    rw [hxy] at hΦ'
    exact .ret _ _ _ fun _ _ => hΦ' [] []
  | none =>
    rw [hxy] at hΦ'
    dsimp only at hΦ' ⊢
    refine prior_get ho fun s hs => ?_
    rw [hs.1]
    have key : ∀ (c' : PriorCell) (al : List ℝ), c'.nBags = c.nBags → c'.bagSize = some bs → c'.rs = c.rs → c'.alphas = .vec al → al.length = (npUnique d.y).length →
        (∀ gs glob, Φ (some (dirichletAnswer (match (scripted rng).dirichlet glob al c.nBags with
          | .error e => (({ aloneGen c (.obj gs) with alphas := .vec al } : PriorGen (List G)), glob, some e)
          | .ok (draws, glob) => (({ aloneGen c (.obj gs) with
                alphas := .vec al, bags := some (dirichletLoop (scripted rng) d.y (npUnique d.y) bs draws 0 gs ⟨draws.map fun r => r.map Fl.fin, List.replicate c.nBags (List.replicate bs 0)⟩).1,
                rs := .obj (dirichletLoop (scripted rng) d.y (npUnique d.y) bs draws 0 gs ⟨draws.map fun r => r.map Fl.fin, List.replicate c.nBags (List.replicate bs 0)⟩).2.1 } : PriorGen (List G)), glob,
              (dirichletLoop (scripted rng) d.y (npUnique d.y) bs draws 0 gs ⟨draws.map fun r => r.map Fl.fin, List.replicate c.nBags (List.replicate bs 0)⟩).2.2))))) →
        Safe (OwnPrior o) t Φ (dirichletOps (npUnique d.y).length c.nBags + 6) (PriorIs (o t) (fun _ => True) c') (dirichletDrawCode rng (o t) d.y) := by
      intro c' al h1 h2 h3 h4 h5 hF
      unfold dirichletDrawCode
      refine prior_get ho fun s hs => ?_
      rw [hs.1, h4, h1]
      refine prior_global ho (fun g e he => ?_) fun g draws g' hd => ?_
      · have := hF [] [g]
        rw [show (scripted rng).dirichlet [g] al c.nBags = .error e from scriptedDraw_error (draw := fun g => rng.dirichlet g al c.nBags) he []] at this
        exact this
      refine prior_setGen ho (prior_get ho fun s hs => prior_setGen ho (prior_get ho fun s' hs' => ?_))
      have h6 : (s.gens (o t)).bagSize.getD 0 = bs := by rw [hs.1]; simp [h2]
      have h7 : (s'.gens (o t)).nBags = c.nBags := by rw [hs'.1]; exact h1
      obtain ⟨h8, h9⟩ := hr.dirichlet _ _ _ _ _ hd
      rw [h6, h7]
      have := dirichletCode_safe_any (t := t) (Φ := Φ) hr ho d.y bs c.nBags c' h2 (fun j hj => hc j (by rw [← h3, hj])) h0 draws 0 (draws.map fun r => r.map Fl.fin) (List.replicate c.nBags (List.replicate bs 0)) (by omega) (by simpa using h8)
        (by simp) (fun r hr => ((h9 r hr).1).trans h5) rfl fun gs => by
          have := hF gs [g]
          rw [show (scripted rng).dirichlet [g] al c.nBags = .ok (draws, []) from scriptedDraw_ok (draw := fun g => rng.dirichlet g al c.nBags) hd []] at this
          dsimp only at this
          revert this
          generalize dirichletLoop (scripted rng) d.y (npUnique d.y) bs draws 0 gs ⟨draws.map fun r => r.map Fl.fin, List.replicate c.nBags (List.replicate bs 0)⟩ = r
          obtain ⟨b, g2, er⟩ := r
          cases er <;> exact id
      rw [h8, ← h1] at this
      rw [← h1]
      exact this
    cases hal : c.alphas with
    | none =>
      refine Safe.mono (n := dirichletOps (npUnique d.y).length c.nBags + 6) ?_ (by omega)
      unfold dirichletDrawCode
      refine prior_get ho fun s hs => ?_
      rw [hs.1, hal]
      refine .ret _ _ _ fun _ _ => ?_
      have := hΦ' [] []
      simp only [aloneGen, hal] at this
      exact this
    | scalar v =>
      refine prior_setGen ho ?_
      refine key { c with alphas := .vec (List.replicate (npUnique d.y).length v) } (List.replicate (npUnique d.y).length v) rfl hbs rfl rfl (by simp) fun gs glob => ?_
      have := hΦ' gs glob
      simp only [aloneGen, hal] at this
      revert this
      generalize (scripted rng).dirichlet glob (List.replicate (npUnique d.y).length v) c.nBags = q
      rcases q with e | ⟨draws, g2⟩ <;> exact id
    | vec l =>
      dsimp only
      split_ifs with hl
      · refine Safe.mono (n := dirichletOps (npUnique d.y).length c.nBags + 6) ?_ (by omega)
        refine key c l rfl hbs rfl hal hl fun gs glob => ?_
        have := hΦ' gs glob
        simp only [aloneGen, hal, if_pos hl] at this
        revert this
        generalize (scripted rng).dirichlet glob l c.nBags = q
        rcases q with e | ⟨draws, g2⟩ <;> exact id
      · refine .ret _ _ _ fun _ _ => ?_
        have := hΦ' [] []
        simp only [aloneGen, hal, if_neg hl] at this
        exact this

theorem priorCode_safe_any {rng : Rng G} (hr : RngOk rng) (ho : Function.Injective o) (fuel : ℕ) (d : BagData α) (c : PriorCell) (hp : c.prevs = none) (hc : NotOthers o t c) (herr : ∀ e, Φ (some (.error e)))
    (hΦ : ∀ gs glob, Φ ((priorGenerate (scripted rng) fuel (aloneGen c (.obj gs)) glob d).map (·.2.2))) :
    Safe (OwnPrior o) t Φ (priorOps (npUnique d.y).length c.nBags fuel) (PriorIs (o t) (fun _ => True) c) (priorCode rng fuel (o t) d) := by
  have method : ∀ (c' : PriorCell) (bs : ℕ), c'.bagSize = some bs → NotOthers o t c' → c'.nBags = c.nBags → (∀ gs glob, Φ ((priorGenerate (scripted rng) fuel (aloneGen c' (.obj gs)) glob d).map (·.2.2))) →
      Safe (OwnPrior o) t Φ (uniformOps (npUnique d.y).length fuel + dirichletOps (npUnique d.y).length c.nBags + 9) (PriorIs (o t) (fun _ => True) c') (methodCode rng fuel (o t) d) := by
    intro c' bs h1 h2 h3 h4
    unfold methodCode
    refine prior_get ho fun s hs => ?_
    rw [hs.1]
    cases hm : c'.method with
    | uniform => exact Safe.mono (generateUniformCode_safe_any rng ho fuel d bs c' h1 h2 (herr _) hm h4) (by omega)
    | dirichlet => exact Safe.mono (generateDirichletCode_safe_any hr ho fuel d bs c' h1 h2 (herr _) hm h4) (by rw [h3]; omega)
    | other => exact .ret _ _ _ fun _ _ => herr _
  have checked : ∀ c' : PriorCell, NotOthers o t c' → c'.nBags = c.nBags → c'.bagSize = c.bagSize → (∀ gs glob, Φ ((priorGenerate (scripted rng) fuel (aloneGen c' (.obj gs)) glob d).map (·.2.2))) →
      Safe (OwnPrior o) t Φ (uniformOps (npUnique d.y).length fuel + dirichletOps (npUnique d.y).length c.nBags + 12) (PriorIs (o t) (fun _ => True) c') (checkedPrior rng fuel (o t) d) := by
    intro c' h2 h3 hb' h4
    unfold checkedPrior
    refine prior_get ho fun s hs => ?_
    rw [hs.1]
    cases hrs : c'.rs with
    | seed m => exact .ret _ _ _ fun _ _ => herr _
    | invalid => exact .ret _ _ _ fun _ _ => herr _
    | obj pl =>
      dsimp only
      refine prior_get ho fun s hs => ?_
      rw [hs.1]
      cases hb : c'.bagSize with
      | none =>
        refine prior_setGen ho (method { c' with bagSize := some d.y.length } d.y.length rfl h2 h3 fun gs glob => ?_)
        have := h4 gs glob
        unfold priorGenerate at this ⊢
        simp only [aloneGen, hb, Option.getD_none, Option.getD_some] at this ⊢
        exact this
      | some bs => exact Safe.mono (method c' bs hb h2 h3 h4) (by omega)
  unfold priorCode
  rw [show priorOps (npUnique d.y).length c.nBags fuel = (uniformOps (npUnique d.y).length fuel + dirichletOps (npUnique d.y).length c.nBags + 12) + 1 + 1 + 1 + 1 by unfold priorOps; ring]
  refine prior_get ho fun s hs => ?_
  rw [hs.1, hp]
  refine prior_get ho fun s hs => ?_
  rw [hs.1]
  cases hrs : c.rs with
  | seed m =>
    dsimp only
    refine prior_get ho fun s hs => ?_
    rw [hs.1, hrs]
    have h := checked { c with rs := .obj (.own (o t)) } (fun j hj => by injection hj with h; injection h with h; exact h.symm) rfl rfl hΦ
    exact prior_seed_any ho h
  | invalid => exact Safe.mono (checked c hc rfl rfl hΦ) (by omega)
  | obj pl => exact Safe.mono (checked c hc rfl rfl hΦ) (by omega)

end

end Verif.Proof
