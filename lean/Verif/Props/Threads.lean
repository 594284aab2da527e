import Verif.Proof.ThreadsFit
import Verif.Model.Energy

/-!
# C166: asking fitted quantifiers about several bags at the same time

Each call of `predict` runs in its own thread, and `sch` says whose turn it is.
-/

namespace Verif.Props

open Verif.Model Verif.Spec Verif.Proof

section
variable {St R : Type}

/-- The code returns in at most so many operations, whatever it reads. -/
def Within : ℕ → Code St R → Prop
  | _, .ret _ => True
  | 0, _ => False
  | n + 1, .get k => ∀ s, Within n (k s)
  | n + 1, .put _ k => Within n k

theorem Within.mono {n m : ℕ} {c : Code St R} (h : Within n c) (hnm : n ≤ m) : Within m c := by
  induction c generalizing n m with
  | ret r => cases m <;> trivial
  | get k ih =>
    cases n with
    | zero => exact h.elim
    | succ n =>
      cases m with
      | zero => omega
      | succ m => exact fun s => ih s (h s) (by omega)
  | put f k ih =>
    cases n with
    | zero => exact h.elim
    | succ n =>
      cases m with
      | zero => omega
      | succ m => exact ih h (by omega)

theorem within_returns (sch : List ℕ) : ∀ (s : St) (T : ℕ → Code St R) (t n : ℕ), Within n (T t) → n ≤ sch.count t → ∃ r, (runThreads sch s T).2 t = .ret r := by
  induction sch with
  | nil =>
    intro s T t n h hn
    obtain rfl : n = 0 := by simpa using hn
    have hT : (runThreads [] s T).2 t = T t := rfl
    rw [hT]
    cases hc : T t with
    | ret r => exact ⟨r, rfl⟩
    | get k => rw [hc] at h; exact h.elim
    | put f k => rw [hc] at h; exact h.elim
  | cons i sch ih =>
    intro s T t n h hn
    rw [runThreads]
    by_cases hi : i = t
    · subst hi
      rw [List.count_cons_self] at hn
      refine ih _ _ _ (n - 1) ?_ (by omega)
      rw [Function.update_self]
      cases hc : T i with
      | ret r => cases n - 1 <;> trivial
      | get k =>
        rw [hc] at h
        cases n with
        | zero => exact h.elim
        | succ n => exact h s
      | put f k =>
        rw [hc] at h
        cases n with
        | zero => exact h.elim
        | succ n => exact h
    · rw [List.count_cons_of_ne hi] at hn
      refine ih _ _ _ n ?_ hn
      rw [Function.update_of_ne (Ne.symm hi)]
      exact h

theorem sure_returns {G : ℕ → St → St → Prop} (r : ℕ → R) (sch : List ℕ) (s : St) (T : ℕ → Code St R) (h : ∀ t, ∃ P, StableFor G t P ∧ P s ∧ Sure G t P (T t) (r t)) (t n : ℕ) (hw : Within n (T t))
    (hn : n ≤ sch.count t) : (runThreads sch s T).2 t = .ret (r t) := by
  obtain ⟨x, hx⟩ := within_returns sch s T t n hw hn
  rw [hx, sure_run r sch s T h t x hx]

theorem runThreads_append (a b : List ℕ) : ∀ (s : St) (T : ℕ → Code St R), runThreads (a ++ b) s T = runThreads b (runThreads a s T).1 (runThreads a s T).2 := by
  induction a with
  | nil => intro s T; rfl
  | cons i a ih => intro s T; exact ih _ _

theorem runThreads_step {i : ℕ} {sch : List ℕ} {s s' : St} {T : ℕ → Code St R} {c : Code St R} (h : (T i).step s = (s', c)) : runThreads (i :: sch) s T = runThreads sch s' (Function.update T i c) := by
  rw [runThreads, h]

/-- A thread that has returned stays so. -/
theorem runThreads_done (sch : List ℕ) : ∀ (s : St) (T : ℕ → Code St R) (t : ℕ) (r : R), T t = .ret r → (runThreads sch s T).2 t = .ret r := by
  induction sch with
  | nil => intro s T t r h; exact h
  | cons i sch ih =>
    intro s T t r h
    refine ih _ _ t r ?_
    by_cases hi : t = i
    · subst hi
      rw [Function.update_self, h]
      rfl
    · rw [Function.update_of_ne hi, h]

theorem runThreads_idle (i : ℕ) (m : ℕ) (r : R) : ∀ (s : St) (T : ℕ → Code St R), T i = .ret r → runThreads (List.replicate m i) s T = (s, T) := by
  induction m with
  | zero => intro s T _; rfl
  | succ m ih =>
    intro s T h
    rw [List.replicate_succ, runThreads, h]
    have : Function.update T i ((Code.ret r : Code St R).step s).2 = T := by
      rw [show ((Code.ret r : Code St R).step s).2 = T i from h.symm]
      exact Function.update_eq_self i T
    rw [this]
    exact ih s T h

end

section
variable {σ D α : Type} {k : ℕ} {objs : ℕ → UcObj α k}

theorem ucRest_within (i : ℕ) : Within 2 (ucRest (σ := σ) (objs := objs) i) := by
  intro s
  dsimp only
  split <;> trivial

theorem ucCode_within (ops : EstOps σ D α k) (enc : Bool → α) (i : ℕ) (X : List D) (pt : Option (Preds α k)) : Within 4 (ucCode (objs := objs) ops enc i X pt) := by
  intro s
  dsimp only
  split
  · trivial
  · split
    · trivial
    · exact ucRest_within i

/-- **C166** (an object for each thread): threads that call `predict` at the same time, each on its own quantifier (of any of the classes that use classifiers), possibly with shared estimators, all get, whatever the schedule, what they get when
there are no other threads. A thread has returned after four turns. -/
theorem C166_own_objects (ops : EstOps σ D α k) (enc : Bool → α) (s : Store σ objs) (o : ℕ → ℕ) (ho : Function.Injective o) (X : ℕ → List D) (pt : ℕ → Option (Preds α k)) (sch : List ℕ) (t : ℕ) (ht : 4 ≤ sch.count t) :
    (runThreads sch s fun t => ucCode ops enc (o t) (X t) (pt t)).2 t = .ret (ucPredict ops enc s.world (objs (o t)) (s.quant (o t)).state (X t) (pt t)).2 := by
  have hE : ∀ s1 s2 : Store σ objs, (∀ e, s2 (.est e) = s1 (.est e)) → (∀ e, s1 (.est e) = s (.est e)) → ∀ e, s2 (.est e) = s (.est e) := fun s1 s2 h h1 e => (h e).trans (h1 e)
  refine sure_returns (G := Guar (fun s1 s2 => ∀ e, s2 (.est e) = s1 (.est e)) o) (fun t => (ucPredict ops enc s.world (objs (o t)) (s.quant (o t)).state (X t) (pt t)).2) sch s (fun t => ucCode ops enc (o t) (X t) (pt t))
    (fun t => ⟨Holds (fun s1 => ∀ e, s1 (.est e) = s (.est e)) (o t) (s.quant (o t)), holds_stable ho hE _, ⟨rfl, fun _ => rfl⟩, ?_⟩) t 4 (ucCode_within ops enc _ _ _) ht
  refine ucCode_sure ops enc ho (fun _ _ h => h) hE s.world _ _ _ fun s1 h1 => ?_
  have : (s1.world : World σ D α) = s.world := by
    unfold Store.world
    congr 1
    funext e
    exact h1 e
  rw [this]

/-- **C166** (refuted for a shared object): whatever the class of the quantifier, two threads that ask the same fitted object about two bags, and a schedule for which the first one gets the answer of the bag of the second one. -/
theorem C166_other_bag_refuted (ops : EstOps σ D α k) (enc : Bool → α) (s : Store σ objs) (i : ℕ) (m : (objs i).cls.S) (hown : (s.quant i).state.own = some m) (X : ℕ → List D) (pt : ℕ → Option (Preds α k)) (a b : Preds α k)
    (ha : usingPredict ops enc s.world (objs i).cfg ((s.quant i).state.base.classes.getD []) (X 0) (pt 0) = .ok a)
    (hb : usingPredict ops enc s.world (objs i).cfg ((s.quant i).state.base.classes.getD []) (X 1) (pt 1) = .ok b) :
    ∃ sch, (runThreads sch s fun t => ucCode ops enc i (X t) (pt t)).2 0 = .ret (ucPredict ops enc s.world (objs i) (s.quant i).state (X 1) (pt 1)).2
      ∧ ∃ r, (runThreads sch s fun t => ucCode ops enc i (X t) (pt t)).2 1 = .ret r := by
  have hr : (ucPredict ops enc s.world (objs i) (s.quant i).state (X 1) (pt 1)).2 = ((objs i).cls.answer m (s.quant i).state.base b).2 := by
    unfold ucPredict
    rw [hown]
    dsimp only
    rw [hb]
  refine ⟨[0, 0, 1, 1, 0, 0] ++ [1, 1], ?_, within_returns _ _ _ 1 4 (ucCode_within ops enc _ _ _) (by decide)⟩
  have h0 : ∀ s' : Store σ objs, ∀ t p, (s'.quant i).state = (s.quant i).state → (∀ e, s' (.est e) = s (.est e)) → usingPredict ops enc s.world (objs i).cfg ((s.quant i).state.base.classes.getD []) (X t) (pt t) = .ok p →
      ((ucCode ops enc i (X t) (pt t)).step s') = (s', .put (Store.setPreds i p) (ucRest i)) := by
    intro s' t p hs he hp
    have hw : (s'.world : World σ D α) = s.world := by
      unfold Store.world
      congr 1
      funext e
      exact he e
    unfold ucCode Code.step
    dsimp only
    rw [hs, hown]
    dsimp only
    rw [hw, hp]
  set T : ℕ → Code (Store σ objs) (Except Err (Option (List Fl))) := fun t => ucCode ops enc i (X t) (pt t) with hT
  set s1 := Store.setPreds i a s with hs1
  set s2 := Store.setPreds i b s1 with hs2
  have q1 : s1.quant i = ⟨(s.quant i).state, some a⟩ := by rw [hs1]; exact Store.quant_setQuant _ _ _
  have q2 : s2.quant i = ⟨(s.quant i).state, some b⟩ := by
    rw [hs2]
    refine (Store.quant_setQuant _ _ _).trans ?_
    rw [q1]
  have hrest : ∃ f, (ucRest (objs := objs) i).step s2 = (s2, .put f (.ret ((objs i).cls.answer m (s.quant i).state.base b).2)) := by
    simp only [ucRest, Code.step, q2, hown]
    exact ⟨_, rfl⟩
  obtain ⟨f, hf⟩ := hrest
  rw [runThreads_append, hr]
  refine runThreads_done [1, 1] _ _ 0 _ ?_
  rw [runThreads_step (h0 s 0 a rfl (fun _ => rfl) ha), runThreads_step (s' := s1) (c := ucRest i) (by rw [Function.update_self]; rfl),
    runThreads_step (s' := s1) (c := .put (Store.setPreds i b) (ucRest i)) (by
      rw [Function.update_of_ne (by decide), Function.update_of_ne (by decide)]
      exact h0 s1 1 b (by rw [q1]) (fun e => Store.est_setQuant _ _ _ e) hb),
    runThreads_step (s' := s2) (c := ucRest i) (by rw [Function.update_self]; rfl),
    runThreads_step (s' := s2) (c := .put f (.ret ((objs i).cls.answer m (s.quant i).state.base b).2)) (by
      rw [Function.update_of_ne (by decide), Function.update_of_ne (by decide), Function.update_self]
      exact hf),
    runThreads_step (s' := f s2) (c := .ret ((objs i).cls.answer m (s.quant i).state.base b).2) (by rw [Function.update_self]; rfl)]
  rw [runThreads]
  dsimp only
  rw [Function.update_self]

/-! ### `CC.predict`, with each of its reads -/

/-- Objects of class `CC`. -/
noncomputable def ccObjs [LinearOrder α] (est : ℕ → Option ℕ) : ℕ → UcObj α k := fun i => ⟨ccClass, none, est i⟩

/-- A fitted `CC` whose labels are `classes`. -/
noncomputable def ccCell [LinearOrder α] (est : ℕ → Option ℕ) (i : ℕ) (classes : List α) : UcCell (ccObjs (α := α) (k := k) est i) := ⟨⟨⟨some classes, none, none⟩, some ()⟩, none⟩

theorem ccLoop_sure [LinearOrder α] {est : ℕ → Option ℕ} {ER : Store σ (ccObjs (α := α) (k := k) est) → Store σ (ccObjs (α := α) (k := k) est) → Prop} {o : ℕ → ℕ} {t : ℕ} {E : Store σ (ccObjs (α := α) (k := k) est) → Prop} (ho : Function.Injective o)
    (hE : ∀ s s', ER s s' → E s → E s') (c : UcCell (ccObjs (α := α) (k := k) est (o t))) (l : List α) (hc : c.predsTest = some (.crisp l)) (cs : List α) : ∀ done : List ℕ,
    Sure (Guar ER o) t (Holds E (o t) c) (ccLoop (o t) done cs) (.ok (some ((done ++ cs.map fun c => l.count c).map fun n : ℕ => Fl.fin (n : ℝ) / Fl.fin (l.length : ℝ)))) := by
  induction cs with
  | nil =>
    intro done
    unfold ccLoop
    refine Sure.getSame (holds_stable ho hE c) fun s hs => ?_
    rw [hs.1, hc]
    dsimp only
    rw [List.map_nil, List.append_nil]
    exact .ret _ _
  | cons x cs ih =>
    intro done
    unfold ccLoop
    refine Sure.getSame (holds_stable ho hE c) fun s hs => ?_
    rw [hs.1, hc]
    dsimp only
    have := ih (done ++ [l.count x])
    rwa [List.append_assoc] at this

theorem ccLoop_within [LinearOrder α] {est : ℕ → Option ℕ} (i : ℕ) (cs : List α) : ∀ done, Within (cs.length + 1) (ccLoop (σ := σ) (objs := ccObjs (α := α) (k := k) est) i done cs) := by
  induction cs with
  | nil =>
    intro done s
    dsimp only
    split <;> trivial
  | cons x cs ih =>
    intro done s
    dsimp only
    split
    · exact ih _
    · trivial

/-- **C166** (an object for each thread, with each of the reads of `CC.predict`): the answer is the one without other threads. -/
theorem C166_cc_own_objects [LinearOrder α] (ops : EstOps σ D α k) (enc : Bool → α) (est : ℕ → Option ℕ) (s : Store σ (ccObjs (α := α) (k := k) est)) (o : ℕ → ℕ) (ho : Function.Injective o) (X : ℕ → List D) (pt : ℕ → Option (Preds α k)) (sch : List ℕ)
    (t : ℕ) (r : Except Err (Option (List Fl))) (ht : (runThreads sch s fun t => ccCode ops enc (o t) (X t) (pt t)).2 t = .ret r) :
    r = (ucPredict ops enc s.world (ccObjs (α := α) (k := k) est (o t)) (s.quant (o t)).state (X t) (pt t)).2 := by
  have hE : ∀ s1 s2 : Store σ (ccObjs (α := α) (k := k) est), (∀ e, s2 (.est e) = s1 (.est e)) → (∀ e, s1 (.est e) = s (.est e)) → ∀ e, s2 (.est e) = s (.est e) := fun s1 s2 h h1 e => (h e).trans (h1 e)
  refine sure_run (G := Guar (fun s1 s2 => ∀ e, s2 (.est e) = s1 (.est e)) o) (fun t => (ucPredict ops enc s.world (ccObjs (α := α) (k := k) est (o t)) (s.quant (o t)).state (X t) (pt t)).2) sch s (fun t => ccCode ops enc (o t) (X t) (pt t))
    (fun t => ⟨Holds (fun s1 => ∀ e, s1 (.est e) = s (.est e)) (o t) (s.quant (o t)), holds_stable ho hE _, ⟨rfl, fun _ => rfl⟩, ?_⟩) t r ht
  have hw : ∀ s1 : Store σ (ccObjs (α := α) (k := k) est), (∀ e, s1 (.est e) = s (.est e)) → (s1.world : World σ D α) = s.world := by
    intro s1 h1
    unfold Store.world
    congr 1
    funext e
    exact h1 e
  unfold ccCode
  refine Sure.getSame (holds_stable ho hE _) fun s1 hs => ?_
  rw [hs.1, hw s1 hs.2]
  unfold ucPredict
  cases hown : (s.quant (o t)).state.own with
  | none => exact .ret _ _
  | some m =>
    dsimp only
    cases hu : usingPredict ops enc s.world (ccObjs (α := α) (k := k) est (o t)).cfg ((s.quant (o t)).state.base.classes.getD []) (X t) (pt t) with
    | error e => exact .ret _ _
    | ok p =>
      obtain ⟨l, rfl⟩ : ∃ l, p = .crisp l := by
        have hc : (ccObjs (α := α) (k := k) est (o t)).cfg.probabilistic = false := rfl
        unfold usingPredict at hu
        rw [hc] at hu
        split at hu
        · simp at hu
        · simp only [Bool.false_eq_true, if_false] at hu
          cases hx : probs2crisps enc ((s.quant (o t)).state.base.classes.getD []) _ with
          | error e => rw [hx] at hu; simp [Except.map] at hu
          | ok l => rw [hx] at hu; exact ⟨l, (Except.ok.inj hu).symm⟩
        · simp only [Bool.false_eq_true, if_false] at hu
          exact ⟨_, (Except.ok.inj hu).symm⟩
      dsimp only
      refine .put _ (Holds (fun s1 => ∀ e, s1 (.est e) = s (.est e)) (o t) ⟨(s.quant (o t)).state, some (.crisp l)⟩) _ _ _ (holds_stable ho hE _) (fun s _ => setQuant_guar (fun _ _ h => h) s _)
        (fun s1 hs => ⟨?_, fun e => (Store.est_setQuant s1 _ _ e).trans (hs.2 e)⟩) ?_
      · unfold Store.setPreds
        rw [Store.quant_setQuant, hs.1]
      · refine Sure.getSame (holds_stable ho hE _) fun s1 hs => ?_
        rw [hs.1]
        dsimp only
        have := ccLoop_sure (ER := fun s1 s2 => ∀ e, s2 (.est e) = s1 (.est e)) (E := fun s1 => ∀ e, s1 (.est e) = s (.est e)) ho hE ⟨(s.quant (o t)).state, some (.crisp l)⟩ l rfl ((s.quant (o t)).state.base.classes.getD []) []
        have hres : ((ccObjs (α := α) (k := k) est (o t)).cls.answer m (s.quant (o t)).state.base (Preds.crisp l)).2
            = .ok (some (([] ++ ((s.quant (o t)).state.base.classes.getD []).map fun c => l.count c).map fun n : ℕ => Fl.fin (n : ℝ) / Fl.fin (l.length : ℝ))) := by
          show Except.ok (some (vecList (classFreqs ((s.quant (o t)).state.base.classes.getD []) l))) = _
          congr 2
          unfold vecList classFreqs
          rw [List.nil_append, List.map_map]
          refine List.ext_getElem (by simp) fun j h1 h2 => ?_
          simp
        rw [hres]
        exact this

end

/-! ### A case -/

/-- An estimator that knows nothing: the predictions are given to `predict`. -/
def exOps : EstOps Unit Unit ℕ 2 := ⟨fun _ => false, fun s _ _ => s, fun _ X => X.map fun _ => 0, fun _ X => X.map fun _ _ => 0⟩

/-- Two bags: an example with label 0, and an example with label 1. -/
def exBags : ℕ → Option (Preds ℕ 2) := fun t => some (.crisp [t])

/-- A fitted `CC` with labels 0 and 1. -/
noncomputable def exStore : Store Unit (ccObjs (α := ℕ) (k := 2) fun _ => none)
  | .quant i => ccCell (fun _ => none) i [0, 1]
  | .est _ => ()

/-- **C166** (refuted for a shared object): the answer need not be the one for any bag, nor prevalences: asked about a bag of the first class and a bag of the second one, a fitted `CC` can answer 1 for both classes, because it reads
`predictions_test_` once for each class. -/
theorem C166_cc_not_prevalences_refuted : ∃ sch, (runThreads sch exStore fun t => ccCode exOps (fun b => if b then 1 else 0) 0 [] (exBags t)).2 0 = .ret (.ok (some [Fl.fin 1, Fl.fin 1])) := by
  refine ⟨[0, 0, 0, 0, 1, 1, 0, 0], ?_⟩
  have h : (runThreads [0, 0, 0, 0, 1, 1, 0, 0] exStore fun t => ccCode exOps (fun b => if b then 1 else 0) 0 [] (exBags t)).2 0
      = .ret (.ok (some [Fl.fin ((1 : ℕ) : ℝ) / Fl.fin ((1 : ℕ) : ℝ), Fl.fin ((1 : ℕ) : ℝ) / Fl.fin ((1 : ℕ) : ℝ)])) := rfl
  rw [h, Fl.fin_div _ (by norm_num)]
  norm_num

/-- A case of `C166_own_objects`: two objects of class `CC`, one for each bag; after eight turns in any order that gives four to each, the first thread has the prevalences of its bag. -/
example (sch : List ℕ) (h : 4 ≤ sch.count 0) :
    (runThreads sch exStore fun t => ucCode exOps (fun b => if b then 1 else 0) t [] (exBags t)).2 0 = .ret (.ok (some [Fl.fin 1, Fl.fin 0])) := by
  rw [C166_own_objects exOps _ exStore (fun t => t) Function.injective_id (fun _ => []) exBags sch 0 h]
  have h : (ucPredict exOps (fun b => if b then 1 else 0) exStore.world (ccObjs (α := ℕ) (k := 2) (fun _ => none) 0) (exStore.quant 0).state ([] : List Unit) (exBags 0)).2
      = .ok (some [Fl.fin ((1 : ℕ) : ℝ) / Fl.fin ((1 : ℕ) : ℝ), Fl.fin ((0 : ℕ) : ℝ) / Fl.fin ((1 : ℕ) : ℝ)]) := rfl
  rw [h, Fl.fin_div _ (by norm_num), Fl.fin_div _ (by norm_num)]
  norm_num

/-- A case of `C166_other_bag_refuted`: the thread that asks about the bag of the first class is told that everything is of the second one. -/
example : ∃ sch, (runThreads sch exStore fun t => ucCode exOps (fun b => if b then 1 else 0) 0 [] (exBags t)).2 0 = .ret (.ok (some [Fl.fin 0, Fl.fin 1])) := by
  obtain ⟨sch, h, -⟩ := C166_other_bag_refuted exOps (fun b => if b then 1 else 0) exStore 0 () rfl (fun _ => []) exBags (.crisp [0]) (.crisp [1]) rfl rfl
  refine ⟨sch, h.trans ?_⟩
  have h : (ucPredict exOps (fun b => if b then 1 else 0) exStore.world (ccObjs (α := ℕ) (k := 2) (fun _ => none) 0) (exStore.quant 0).state ([] : List Unit) (exBags 1)).2
      = .ok (some [Fl.fin ((0 : ℕ) : ℝ) / Fl.fin ((1 : ℕ) : ℝ), Fl.fin ((1 : ℕ) : ℝ) / Fl.fin ((1 : ℕ) : ℝ)]) := rfl
  rw [h, Fl.fin_div _ (by norm_num), Fl.fin_div _ (by norm_num)]
  norm_num

/-! ### One call after another -/

section
variable {σ D α : Type} {k : ℕ} {objs : ℕ → UcObj α k}

theorem runThreads_block (ops : EstOps σ D α k) (enc : Bool → α) (s : Store σ objs) (T : ℕ → Code (Store σ objs) (Except Err (Option (List Fl)))) (t i : ℕ) (X : List D) (pt : Option (Preds α k)) (hT : T t = ucCode ops enc i X pt) :
    ∃ s', runThreads (List.replicate 4 t) s T = (s', Function.update T t (.ret (ucPredict ops enc s.world (objs i) (s.quant i).state X pt).2))
      ∧ (fun j => (s'.quant j).state) = Function.update (fun j => (s.quant j).state) i (ucPredict ops enc s.world (objs i) (s.quant i).state X pt).1 ∧ ∀ e, s' (.est e) = s (.est e) := by
  have same : ∀ st : UcState (objs i), st = (s.quant i).state → (fun j => (s.quant j).state) = Function.update (fun j => (s.quant j).state) i st := by
    rintro st rfl
    exact (Function.update_eq_self i _).symm
  have hrep : List.replicate 4 t = t :: List.replicate 3 t := rfl
  cases hown : (s.quant i).state.own with
  | none =>
    have hu : ucPredict ops enc s.world (objs i) (s.quant i).state X pt = ((s.quant i).state, .error .typeError) := by
      unfold ucPredict
      rw [hown]
    have h1 : (T t).step s = (s, .ret (.error .typeError)) := by
      rw [hT]
      unfold ucCode Code.step
      dsimp only
      rw [hown]
    rw [hu]
    exact ⟨s, by rw [hrep, runThreads_step h1, runThreads_idle t 3 _ _ _ (Function.update_self _ _ _)], same _ rfl, fun _ => rfl⟩
  | some m =>
    cases hp : usingPredict ops enc s.world (objs i).cfg ((s.quant i).state.base.classes.getD []) X pt with
    | error e =>
      have hu : ucPredict ops enc s.world (objs i) (s.quant i).state X pt = ((s.quant i).state, .error e) := by
        unfold ucPredict
        rw [hown]
        dsimp only
        rw [hp]
      have h1 : (T t).step s = (s, .ret (.error e)) := by
        rw [hT]
        unfold ucCode Code.step
        dsimp only
        rw [hown]
        dsimp only
        rw [hp]
      rw [hu]
      exact ⟨s, by rw [hrep, runThreads_step h1, runThreads_idle t 3 _ _ _ (Function.update_self _ _ _)], same _ rfl, fun _ => rfl⟩
    | ok p =>
      have hu : ucPredict ops enc s.world (objs i) (s.quant i).state X pt = (⟨(s.quant i).state.base, some ((objs i).cls.answer m (s.quant i).state.base p).1⟩, ((objs i).cls.answer m (s.quant i).state.base p).2) := by
        unfold ucPredict
        rw [hown]
        dsimp only
        rw [hp]
      have h1 : (T t).step s = (s, .put (Store.setPreds i p) (ucRest i)) := by
        rw [hT]
        unfold ucCode Code.step
        dsimp only
        rw [hown]
        dsimp only
        rw [hp]
      set s1 := Store.setPreds i p s with hs1
      have q1 : s1.quant i = ⟨(s.quant i).state, some p⟩ := by rw [hs1]; exact Store.quant_setQuant _ _ _
      set f : Store σ objs → Store σ objs := fun s' => s'.setQuant i { s'.quant i with state := ⟨(s'.quant i).state.base, some ((objs i).cls.answer m (s.quant i).state.base p).1⟩ } with hf
      have h3 : (ucRest (objs := objs) i).step s1 = (s1, .put f (.ret ((objs i).cls.answer m (s.quant i).state.base p).2)) := by
        simp only [ucRest, Code.step, q1, hown, hf]
      refine ⟨f s1, ?_, ?_, fun e => ?_⟩
      · rw [hrep, show List.replicate 3 t = [t, t, t] from rfl, runThreads_step h1, runThreads_step (s' := s1) (c := ucRest i) (by rw [Function.update_self]; rfl),
          runThreads_step (s' := s1) (c := .put f (.ret ((objs i).cls.answer m (s.quant i).state.base p).2)) (by rw [Function.update_self]; exact h3),
          runThreads_step (s' := f s1) (c := .ret ((objs i).cls.answer m (s.quant i).state.base p).2) (by rw [Function.update_self]; rfl), runThreads, hu]
        simp only [Function.update_idem]
      · funext j
        rw [hu]
        by_cases hj : j = i
        · subst hj
          rw [Function.update_self, hf]
          dsimp only
          rw [Store.quant_setQuant, q1]
        · rw [Function.update_of_ne hj, hf]
          dsimp only
          rw [Store.quant_setQuant_ne _ _ hj, hs1, Store.setPreds, Store.quant_setQuant_ne _ _ hj]
      · rw [hf]
        dsimp only
        rw [Store.est_setQuant, hs1, Store.setPreds, Store.est_setQuant]

/-- A schedule without overlaps: the threads `a`, `a + 1`, ... have their four turns one after another. -/
def oneAtATime (a n : ℕ) : List ℕ := (List.range' a n).flatMap fun t => List.replicate 4 t

theorem one_at_a_time [LinearOrder α] (ops : EstOps σ D α k) (enc : Bool → α) (calls : List (ℕ × List D × Option (Preds α k))) : ∀ (s : Store σ objs) (T : ℕ → Code (Store σ objs) (Except Err (Option (List Fl)))) (a : ℕ)
    (_ : ∀ j c, calls[j]? = some c → T (a + j) = ucCode ops enc c.1 c.2.1 c.2.2) (j : ℕ) (c : ℕ × List D × Option (Preds α k)) (_ : calls[j]? = some c),
    ∃ r, (runThreads (oneAtATime a calls.length) s T).2 (a + j) = .ret r
      ∧ (ucTrace ops enc objs s.world (fun i => (s.quant i).state) (calls.map fun c => .predict c.1 c.2.1 c.2.2))[j]? = some (c.1, .predict r) := by
  induction calls with
  | nil => intro s T a _ j c hc; simp at hc
  | cons d calls ih =>
    intro s T a hT j c hc
    obtain ⟨s', hrun, hst, hest⟩ := runThreads_block ops enc s T a d.1 d.2.1 d.2.2 (hT 0 d rfl)
    have hw : (s'.world : World σ D α) = s.world := by
      unfold Store.world
      congr 1
      funext e
      exact hest e
    have hsch : oneAtATime a (d :: calls).length = List.replicate 4 a ++ oneAtATime (a + 1) calls.length := by
      unfold oneAtATime
      rw [List.length_cons, List.range'_succ, List.flatMap_cons]
    rw [hsch, runThreads_append, hrun]
    cases j with
    | zero =>
      obtain rfl : d = c := by simpa using hc
      exact ⟨_, runThreads_done _ _ _ _ _ (Function.update_self _ _ _), rfl⟩
    | succ j =>
      have hc' : calls[j]? = some c := by simpa using hc
      obtain ⟨r, h1, h2⟩ := ih s' (Function.update T a (.ret (ucPredict ops enc s.world (objs d.1) (s.quant d.1).state d.2.1 d.2.2).2)) (a + 1) (fun l e he => by
        rw [Function.update_of_ne (by omega), show a + 1 + l = a + (l + 1) by omega]
        exact hT (l + 1) e (by simpa using he)) j c hc'
      refine ⟨r, ?_, ?_⟩
      · rw [show a + (j + 1) = a + 1 + j by omega]
        exact h1
      · rw [hw, hst] at h2
        exact h2

/-- **C166** (partial: calls that do not overlap): when the threads are kept apart, with a lock for example, the answers are those of the program that makes the calls one after another, also on the same object. -/
theorem C166_one_at_a_time_partial [LinearOrder α] (ops : EstOps σ D α k) (enc : Bool → α) (s : Store σ objs) (calls : List (ℕ × List D × Option (Preds α k))) (T : ℕ → Code (Store σ objs) (Except Err (Option (List Fl))))
    (hT : ∀ t c, calls[t]? = some c → T t = ucCode ops enc c.1 c.2.1 c.2.2) (t : ℕ) (c : ℕ × List D × Option (Preds α k)) (hc : calls[t]? = some c) :
    ∃ r, (runThreads (oneAtATime 0 calls.length) s T).2 t = .ret r
      ∧ (ucTrace ops enc objs s.world (fun i => (s.quant i).state) (calls.map fun c => .predict c.1 c.2.1 c.2.2))[t]? = some (c.1, .predict r) := by
  have := one_at_a_time ops enc calls s T 0 (fun j c h => by rw [Nat.zero_add]; exact hT j c h) t c hc
  rwa [Nat.zero_add] at this

end


/-! ### `EDX`, whose `predict` assigns nothing -/

/-- **C166** (`EDX`): the same fitted object may be asked about several bags at the same time: whatever the schedule, each thread gets the answer for its bag. -/
theorem C166_edx {P : Type} {n : ℕ} (qp : QPSolver) (d : P → P → ℝ) (s : ℕ → EDFit P n) (o : ℕ → ℕ) (test : ℕ → List P) (sch : List ℕ) (t : ℕ) (ht : 2 ≤ sch.count t) :
    (runThreads sch s fun t => edxCode qp d (o t) (test t)).2 t = .ret (edPredict qp d (s (o t)) (test t)) := by
  refine sure_returns (G := fun _ s1 s2 => s2 = s1) (fun t => edPredict qp d (s (o t)) (test t)) sch s (fun t => edxCode qp d (o t) (test t)) (fun t => ⟨fun s1 => s1 = s, fun _ _ _ _ h h1 => h.trans h1, rfl, ?_⟩) t 2
    (fun _ _ => trivial) ht
  have hst : StableFor (fun _ (s1 s2 : ℕ → EDFit P n) => s2 = s1) t fun s1 => s1 = s := fun _ _ _ _ h h1 => h.trans h1
  refine Sure.getSame hst fun s1 hs => Sure.getSame hst fun s2 hs' => ?_
  subst hs
  rw [hs']
  exact .ret _ _

end Verif.Props
