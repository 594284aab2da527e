import Verif.Props.Lifecycle

/-!
# C123, C124: the classifier with a tree and the ensemble of classifiers
-/

namespace Verif.Props

open Verif.Model Verif.Spec Verif.Proof

variable {M D α S σ : Type} {k : ℕ}

section
variable [LinearOrder α] {perf : ℝ → ℝ → Fl} {finite : List D → Bool} {b : FhRaising M D}

theorem fhObjFit_indep (o o' : FhObj M α) (X : List D) (y : List α) : (fhObjFit finite b o X y).2 = (fhObjFit finite b o' X y).2 := by
  unfold fhObjFit
  by_cases hy : y = []
  · simp [if_pos hy]
  simp only [if_neg hy]
  cases fhTransform 0 1 (npUnique y) y with
  | error e => rfl
  | ok yBin =>
    simp only
    split_ifs
    · rfl
    · cases (List.range ((npUnique y).length - 1)).mapM fun i => item yBin i >>= fhFitBinary b X i with
      | error e => rfl
      | ok ms => rfl

/-- A call to `fit` of a `FrankAndHallTreeClassifier` that returns. -/
theorem fhtObjFit_returned {o : FhtObj M α} {X : List D} {y : List α} (h : (fhtObjFit perf finite b o X y).2 = none) :
    ∃ f t, fhtFit perf b.ops X y = .ok (f, t) ∧ fhtObjFit perf finite b o X y = (⟨⟨some f.classes, some (f.estimators.map some)⟩, some t⟩, none) := by
  rcases hb : fhObjFit finite b o.base X y with ⟨base, r⟩
  cases r with
  | some e =>
    unfold fhtObjFit at h
    rw [hb] at h
    cases h
  | none =>
    obtain ⟨f, h1, -, h3⟩ := fhObjFit_returned (o := o.base) (X := X) (y := y) (finite := finite) (b := b) (by rw [hb])
    rw [hb] at h3
    obtain rfl := congrArg Prod.fst h3
    unfold fhtObjFit at h ⊢
    rw [hb] at h ⊢
    simp only [fhObjRead_fitted] at h ⊢
    cases ht : fhtGenerate perf b.ops f X y with
    | error e => rw [show ((Except.ok f : Except Err (FhFit M α)) >>= fun f => fhtGenerate perf b.ops f X y) = .error e from ht] at h; cases h
    | ok t =>
      rw [show ((Except.ok f : Except Err (FhFit M α)) >>= fun f => fhtGenerate perf b.ops f X y) = .ok t from ht]
      refine ⟨f, t, ?_, rfl⟩
      unfold fhtFit
      rw [h1]
      exact (bind_ok ht _)

/-- **C124** for the classifier with a tree: a call to `fit` that returns makes the object what it makes of a new one, whatever happened before; and `predict_proba` uses the models and the tree of that call. -/
theorem C124_tree_fresh_partial (before : List (List D × List α)) (X : List D) (y : List α) (h : (fhtObjFit perf finite b (fitCalls (fhtObjFit perf finite b) fhtNew before).1 X y).2 = none) :
    fhtObjFit perf finite b (fitCalls (fhtObjFit perf finite b) fhtNew before).1 X y = fhtObjFit perf finite b fhtNew X y
    ∧ ∃ f, fhtFit perf b.ops X y = .ok f ∧ ∀ Xt : List D, fhtObjProba b.ops (fhtObjFit perf finite b (fitCalls (fhtObjFit perf finite b) fhtNew before).1 X y).1 Xt = fhtPredictProba b.ops f Xt := by
  generalize (fitCalls (fhtObjFit perf finite b) fhtNew before).1 = o at h ⊢
  obtain ⟨f, t, h1, h2⟩ := fhtObjFit_returned h
  have h0 : (fhtObjFit perf finite b fhtNew X y).2 = none := by
    rcases hb : fhObjFit finite b o.base X y with ⟨base, r⟩
    have hi := fhObjFit_indep (finite := finite) (b := b) o.base (fhtNew : FhtObj M α).base X y
    rw [hb] at hi
    cases r with
    | some e =>
      unfold fhtObjFit at h
      rw [hb] at h
      cases h
    | none =>
      obtain ⟨g, g1, -, g3⟩ := fhObjFit_returned hi.symm
      unfold fhtFit at h1
      obtain ⟨g', g1', h1⟩ := bind_inv h1
      rw [g1] at g1'
      obtain rfl := Except.ok.inj g1'
      obtain ⟨t', ht, -⟩ := bind_inv h1
      unfold fhtObjFit
      rw [g3]
      simp only [fhObjRead_fitted]
      rw [show ((Except.ok g : Except Err (FhFit M α)) >>= fun f => fhtGenerate perf b.ops f X y) = .ok t' from ht]
  obtain ⟨f', t', h1', h2'⟩ := fhtObjFit_returned h0
  rw [h1] at h1'
  obtain ⟨rfl, rfl⟩ := Prod.mk.inj (Except.ok.inj h1')
  refine ⟨by rw [h2, h2'], (f, t), h1, fun Xt => ?_⟩
  rw [h2]
  unfold fhtObjProba
  simp only [fhObjRead_fitted]
  rfl

/-- **C124** for the classifier with a tree: a call to `fit` that is rejected by `check_X_y`, with the same labels as the previous one, raises and leaves the tree as it was: `predict_proba` gives the same answers as before. -/
theorem C124_tree_rejected_partial (o : FhtObj M α) (X X' : List D) (y y' : List α) (hfit : (fhtObjFit perf finite b o X y).2 = none) (h3 : 3 ≤ (labelsOf y').length) (hl : labelsOf y' = labelsOf y)
    (hrej : acceptsXy finite X' y' = false) (Xt : List D) :
    (fhtObjFit perf finite b (fhtObjFit perf finite b o X y).1 X' y').2 = some .valueError
    ∧ fhtObjProba b.ops (fhtObjFit perf finite b (fhtObjFit perf finite b o X y).1 X' y').1 Xt = fhtObjProba b.ops (fhtObjFit perf finite b o X y).1 Xt := by
  obtain ⟨f, t, h1, h2⟩ := fhtObjFit_returned hfit
  have hcl : f.classes = labelsOf y := by
    rcases hb : fhObjFit finite b o.base X y with ⟨base, r⟩
    cases r with
    | some e =>
      unfold fhtObjFit at hfit
      rw [hb] at hfit
      cases hfit
    | none =>
      obtain ⟨g, g1, g2, -⟩ := fhObjFit_returned (o := o.base) (X := X) (y := y) (finite := finite) (b := b) (by rw [hb])
      unfold fhtFit at h1
      obtain ⟨g', g1', h1⟩ := bind_inv h1
      rw [g1] at g1'
      obtain rfl := Except.ok.inj g1'
      obtain ⟨t', -, ht⟩ := bind_inv h1
      rw [← (Prod.mk.inj (Except.ok.inj ht)).1]
      exact g2
  have hr := fhObjFit_rejected (b := b) (fhtObjFit perf finite b o X y).1.base X' y' h3 hrej
  have key : fhtObjFit perf finite b (fhtObjFit perf finite b o X y).1 X' y' = ((fhtObjFit perf finite b o X y).1, some .valueError) := by
    generalize fhtObjFit perf finite b o X y = r at hr h2 ⊢
    subst h2
    unfold fhtObjFit
    rw [hr]
    simp only [hl, hcl]
  rw [key]
  exact ⟨rfl, rfl⟩

theorem Fitted.fhtMul (classes : List α) (p : ℝ) (sub : List α) (probs : List ℝ) : Fitted (fhtMul classes p sub probs) := by
  induction sub generalizing probs with
  | nil => exact Fitted.ok _
  | cons cl group ih =>
    unfold Verif.Model.fhtMul
    split
    · exact ih _
    · intro h; cases h

theorem Fitted.fhtCompute (ops : FhOps M D) (f : FhFit M α) (x : D) (t : QTree) (sub : List α) (probs : List ℝ) : Fitted (fhtCompute ops f x t sub probs) := by
  induction t generalizing sub probs with
  | leaf => exact Fitted.ok _
  | node pos l r ihl ihr =>
    unfold Verif.Model.fhtCompute
    exact (Fitted.item _ _).bind fun m => (Fitted.item _ _).bind fun _ => (Fitted.item _ _).bind fun _ => (Fitted.fhtMul _ _ _ _).bind fun _ => (Fitted.fhtMul _ _ _ _).bind fun _ => (ihl _ _).bind fun _ => ihr _ _

/-- **C123** for the classifier with a tree: once a call to `fit` has returned, `predict_proba` does not raise NotFittedError, whatever calls of `fit` were before and after it, and there is a tree. -/
theorem C123_tree_fitted_partial (o : FhtObj M α) (before after : List (List D × List α)) (c : List D × List α) (h : (fhtObjFit perf finite b (fitCalls (fhtObjFit perf finite b) o before).1 c.1 c.2).2 = none) (X : List D) :
    Fitted (fhtObjProba b.ops (fitCalls (fhtObjFit perf finite b) o (before ++ c :: after)).1 X) ∧ (fitCalls (fhtObjFit perf finite b) o (before ++ c :: after)).1.tree ≠ none := by
  have bstep : ∀ (o : FhObj M α) X y, o.classes ≠ none → (fhObjFit finite b o X y).1.classes ≠ none := by
    intro o X y ho
    rcases fhObjFit_cases (finite := finite) (b := b) o X y with ⟨h', -⟩ | ⟨h', -⟩ | ⟨h', -⟩ | ⟨f, -, -, h'⟩ <;> rw [h'] <;> simp [ho]
  have step : ∀ (o : FhtObj M α) X y, o.base.classes ≠ none ∧ o.tree ≠ none → (fhtObjFit perf finite b o X y).1.base.classes ≠ none ∧ (fhtObjFit perf finite b o X y).1.tree ≠ none := by
    intro o X y ho
    have hb := bstep o.base X y ho.1
    unfold fhtObjFit
    split
    · rename_i base e he
      rw [he] at hb
      exact ⟨hb, ho.2⟩
    · rename_i base he
      rw [he] at hb
      split
      · exact ⟨hb, ho.2⟩
      · exact ⟨hb, by simp⟩
  have key : ∀ (o : FhtObj M α), o.base.classes ≠ none ∧ o.tree ≠ none → (fitCalls (fhtObjFit perf finite b) o after).1.base.classes ≠ none ∧ (fitCalls (fhtObjFit perf finite b) o after).1.tree ≠ none := by
    clear h
    induction after with
    | nil => intro o ho; exact ho
    | cons d ds ih => intro o ho; exact ih _ (step _ _ _ ho)
  have hne := key (fhtObjFit perf finite b (fitCalls (fhtObjFit perf finite b) o before).1 c.1 c.2).1 (by
    obtain ⟨f, t, -, hf⟩ := fhtObjFit_returned h
    rw [hf]; simp)
  rw [fitCalls_append]
  refine ⟨?_, hne.2⟩
  have gen : ∀ o : FhtObj M α, o.base.classes ≠ none → Fitted (fhtObjProba b.ops o X) := by
    intro o ho
    unfold fhtObjProba fhObjRead
    cases hc : o.base.classes with
    | none => exact absurd hc ho
    | some cs =>
      simp only
      cases o.tree with
      | none => intro h; cases h
      | some t =>
        simp only
        cases o.base.estimators with
        | none => intro h; cases h
        | some es =>
          simp only
          cases es.mapM id with
          | none => intro h; cases h
          | some ms => exact Fitted.mapM _ fun x => Fitted.fhtCompute _ _ _ _ _ _
  exact gen _ hne.1

end

/-! ## EnsembleOfClassifiers -/

section
variable [LinearOrder α] {finite : List D → Bool} {raises : List D → List α → List (List ℕ) → Option Err}

/-- Calls to `fit` of an `EnsembleOfClassifiers`, one after another, each one with a training set and the bags of its examples: the object after them and the exception that each one raised, if any. -/
def ensCalls (finite : List D → Bool) (raises : List D → List α → List (List ℕ) → Option Err) (sch : Schedule) (ops : CvOps M D α) : EnsObj M α → List ((List D × List α) × List (List ℕ)) → EnsObj M α × List (Option Err)
  | o, [] => (o, [])
  | o, c :: cs =>
    ((ensCalls finite raises sch ops (ensObjFit finite raises sch ops o c.1.1 c.1.2 c.2).1 cs).1,
      (ensObjFit finite raises sch ops o c.1.1 c.1.2 c.2).2 :: (ensCalls finite raises sch ops (ensObjFit finite raises sch ops o c.1.1 c.1.2 c.2).1 cs).2)

theorem ensObjFit_raised {sch : Schedule} {ops : CvOps M D α} {o : EnsObj M α} {X : List D} {y : List α} {bags : List (List ℕ)} (h : (ensObjFit finite raises sch ops o X y bags).2 ≠ none) :
    (ensObjFit finite raises sch ops o X y bags).1.state = o.state := by
  unfold ensObjFit at h ⊢
  split_ifs at h ⊢ with h1 h2
  · rfl
  · cases hr : raises X y bags with
    | some e => rfl
    | none =>
      simp only [hr] at h ⊢
      cases he : ensFit sch ops o.state X y bags with
      | error e => rfl
      | ok s => simp [he] at h
  · exact absurd rfl h

/-- **C123** for `EnsembleOfClassifiers`: as long as no call to `fit` has returned, whatever the calls that raised, `predict` and `predict_proba` raise NotFittedError. -/
theorem C123_ens_unfitted_partial (sch : Schedule) (ops : CvOps M D α) (label : M → D → α) (calls : List ((List D × List α) × List (List ℕ))) (h : ∀ e ∈ (ensCalls finite raises sch ops ensObjNew calls).2, e ≠ none) (n : ℕ)
    (X : List D) :
    ensObjPredict label (ensCalls finite raises sch ops ensObjNew calls).1 X = .error .notFittedError
    ∧ ensObjProba n ops (ensCalls finite raises sch ops ensObjNew calls).1 X = .error .notFittedError := by
  have key : ∀ (o : EnsObj M α), o.state.classes = none → (∀ e ∈ (ensCalls finite raises sch ops o calls).2, e ≠ none) → (ensCalls finite raises sch ops o calls).1.state.classes = none := by
    clear h
    induction calls with
    | nil => intro o ho _; exact ho
    | cons c cs ih =>
      intro o ho hr
      simp only [ensCalls, List.mem_cons, forall_eq_or_imp] at hr ⊢
      refine ih _ ?_ hr.2
      rw [ensObjFit_raised hr.1]
      exact ho
  have h0 := key ensObjNew rfl h
  unfold ensObjPredict ensObjProba ensObjRead
  rw [h0]
  exact ⟨rfl, rfl⟩

/-- **C124** for `EnsembleOfClassifiers`: calls to `fit` whose training sets are rejected by `check_X_y` leave no trace; the first training set that is accepted makes of the object what it makes of a new one, and once a call has returned, `predict` gives the
labels of the classifiers of that training set. -/
theorem C124_ens_rejected_partial (sch : Schedule) (ops : CvOps M D α) (label : M → D → α) (calls : List ((List D × List α) × List (List ℕ))) (hrej : ∀ c ∈ calls, acceptsXy finite c.1.1 c.1.2 = false) (X : List D) (y : List α)
    (bags : List (List ℕ)) :
    (ensCalls finite raises sch ops ensObjNew calls).2 = calls.map (fun _ => some .valueError)
    ∧ ensObjFit finite raises sch ops (ensCalls finite raises sch ops ensObjNew calls).1 X y bags = ensObjFit finite raises sch ops ensObjNew X y bags
    ∧ ((ensObjFit finite raises sch ops (ensCalls finite raises sch ops ensObjNew calls).1 X y bags).2 = none → ∃ s, ensFit sch ops ensNew X y bags = .ok s ∧ ∀ Xt,
        ensObjPredict label (ensObjFit finite raises sch ops (ensCalls finite raises sch ops ensObjNew calls).1 X y bags).1 Xt = ensPredict label s Xt
        ∧ ∀ n, ensObjProba n ops (ensObjFit finite raises sch ops (ensCalls finite raises sch ops ensObjNew calls).1 X y bags).1 Xt = ensPredictProba n ops s Xt) := by
  have key : ensCalls finite raises sch ops (ensObjNew : EnsObj M α) calls = (ensObjNew, calls.map fun _ => some .valueError) := by
    induction calls with
    | nil => rfl
    | cons c cs ih =>
      have h1 : ensObjFit finite raises sch ops (ensObjNew : EnsObj M α) c.1.1 c.1.2 c.2 = (ensObjNew, some .valueError) := by
        unfold ensObjFit
        rw [if_pos (by rfl), if_pos (hrej c (by simp))]
      simp only [ensCalls, h1, ih fun c hc => hrej c (by simp [hc]), List.map_cons]
  rw [key]
  refine ⟨rfl, rfl, fun h => ?_⟩
  show ∃ s, _ ∧ ∀ Xt, ensObjPredict label (ensObjFit finite raises sch ops (ensObjNew : EnsObj M α) X y bags).1 Xt = _ ∧ ∀ n, ensObjProba n ops (ensObjFit finite raises sch ops (ensObjNew : EnsObj M α) X y bags).1 Xt = _
  replace h : (ensObjFit finite raises sch ops (ensObjNew : EnsObj M α) X y bags).2 = none := h
  unfold ensObjFit at h ⊢
  rw [if_pos (by rfl)] at h ⊢
  by_cases ha : acceptsXy finite X y = false
  · rw [if_pos ha] at h; cases h
  rw [if_neg ha] at h ⊢
  cases hr : raises X y bags with
  | some e => rw [hr] at h; cases h
  | none =>
    simp only [hr] at h ⊢
    cases hs : ensFit sch ops (ensObjNew : EnsObj M α).state X y bags with
    | error e => rw [hs] at h; cases h
    | ok s =>
      refine ⟨s, hs, fun Xt => ?_⟩
      have hc : s.classes = some (npUnique y) := by
        unfold ensFit at hs
        rw [if_pos (by rfl)] at hs
        split_ifs at hs
        obtain ⟨models, -, hs⟩ := bind_inv hs
        rw [← Except.ok.inj hs]
      unfold ensObjPredict ensObjProba ensObjRead
      simp only [hc]
      exact ⟨rfl, fun _ => rfl⟩

end

/-! ## Concrete cases -/

/-- A classifier with a tree that is trained, and then called with data that are rejected. -/
example : ∃ (b : FhRaising ℕ ℕ) (o : FhtObj ℕ ℕ), (fhtObjFit (fun p q => Fl.fin |p - q|) (fun X => decide (0 ∉ X)) b o [10, 20, 30, 40] [0, 1, 2, 2]).2 = none
    ∧ acceptsXy (fun X => decide (0 ∉ X)) [10, 0, 30] [0, 1, 2] = false := by
  refine ⟨⟨tableOps fun _ => 1/2, fun _ _ _ => none⟩, fhtNew, ?_, by decide⟩
  have hq : ∀ _ : ℕ, (0:ℝ) ≤ 1/2 ∧ (1/2 : ℝ) ≤ 1 := fun _ => by norm_num
  obtain ⟨f, hf⟩ := table_tree (fun _ => 1/2) hq fun p q => Fl.fin |p - q|
  unfold fhtFit at hf
  obtain ⟨g, hg, hf⟩ := bind_inv hf
  obtain ⟨t, ht, -⟩ := bind_inv hf
  have h0 : (fhObjFit (fun X => decide (0 ∉ X)) ⟨tableOps fun _ => 1/2, fun _ _ _ => none⟩ (fhNew : FhObj ℕ ℕ) [10, 20, 30, 40] [0, 1, 2, 2]) = (⟨some g.classes, some (g.estimators.map some)⟩, none) := by
    unfold fhObjFit
    unfold fhFit at hg
    rw [if_neg (by simp)] at hg ⊢
    obtain ⟨yBin, hy, hg⟩ := bind_inv hg
    rw [hy]
    simp only
    rw [if_neg (by decide)]
    split_ifs at hg with hx
    obtain ⟨ms, hm, hg⟩ := bind_inv hg
    obtain rfl := Except.ok.inj hg
    have : ((List.range ((npUnique [0, 1, 2, 2]).length - 1)).mapM fun i => item yBin i >>= fhFitBinary ⟨tableOps fun _ => 1/2, fun _ _ _ => none⟩ [10, 20, 30, 40] i) = .ok ms := by
      rw [mapM_iff] at hm ⊢
      refine hm.imp fun i m h => ?_
      cases hi : item yBin i with
      | error e => rw [hi] at h; cases h
      | ok c => rw [hi] at h; exact h
    rw [this]
  unfold fhtObjFit
  rw [show (fhtNew : FhtObj ℕ ℕ).base = fhNew from rfl, h0]
  simp only [fhObjRead_fitted]
  rw [show ((Except.ok g : Except Err (FhFit ℕ ℕ)) >>= fun f => fhtGenerate (fun p q => Fl.fin |p - q|) (tableOps fun _ => 1/2) f [10, 20, 30, 40] [0, 1, 2, 2]) = .ok t from ht]

/-- An ensemble of classifiers whose first call is rejected and whose second one returns. -/
example : ∃ (ops : CvOps ℕ ℕ ℕ), (ensObjFit (fun X => decide (0 ∉ X)) (fun _ _ _ => none) .processes ops (ensCalls (fun X => decide (0 ∉ X)) (fun _ _ _ => none) .processes ops ensObjNew [(([10, 0], [0, 1]), [[0, 1]])]).1 [10, 20] [0, 1] [[0, 1], [1, 1]]).2 = none :=
  ⟨⟨fun X _ => X.length, fun _ _ => [1/2, 1/2]⟩, by
    simp only [ensCalls]
    rfl⟩

end Verif.Props
