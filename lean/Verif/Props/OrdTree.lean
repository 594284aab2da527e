import Verif.Model.OrdTree
import Verif.Props.FrankHall
import Verif.Props.AC

/-!
# C106, C107: OrdinalQuantificationTree
-/

namespace Verif.Props

open Verif.Model Verif.Spec Verif.Proof

section
variable {M D α : Type}

theorem oqtFit_new [LinearOrder α] (perf : ℝ → ℝ → Fl) (ops : FhOps M D) (X : List D) (y : List α) (hXy : X.length = y.length) (h3 : 3 ≤ (labelsOf y).length)
    (hp : ∀ m x, IsPrevList 2 (ops.proba m x)) :
    ∃ f, fhtFit perf ops X y = .ok f ∧ oqtFit perf ops oqtNew X y = (⟨labelsOf y, some (f.1, some f.2)⟩, none) := by
  have hX : X ≠ [] := by
    rintro rfl
    have : y = [] := List.length_eq_zero_iff.1 hXy.symm
    subst this
    simp [labelsOf] at h3
  have hg := fhFit_eq ops X y hXy h3
  obtain ⟨s, ht, -⟩ := fhtGenerate_ok perf ops X y hXy h3 _ hg fun m _ x _ => hp m x
  generalize qtBuild s 0 ((labelsOf y).length - 1) = t at ht
  generalize (⟨labelsOf y, _⟩ : FhFit M α) = f at hg ht
  refine ⟨(f, t), ?_, ?_⟩
  · unfold fhtFit
    rw [bind_ok hg, bind_ok ht]
    rfl
  · unfold oqtFit
    simp only [oqtNew]
    rw [if_neg (by push Not; exact ⟨hX, hXy⟩), hg]
    simp only
    rw [ht]
    rfl

theorem sum_getD_columns (n : ℕ) (rows : List (List ℝ)) (h : ∀ r ∈ rows, r.length = n) : ((List.range n).map fun c => (rows.map fun r => r.getD c 0).sum).sum = (rows.map List.sum).sum := by
  induction rows with
  | nil => simp
  | cons r rows ih =>
    simp only [List.map_cons, List.sum_cons]
    rw [← ih fun r hr => h r (List.mem_cons_of_mem _ hr), List.sum_map_add]
    congr 2
    apply List.ext_getElem
    · simp [h r List.mem_cons_self]
    · intro i h1 h2
      simp at h1 h2 ⊢
      simp [h2]

/-- **C106**: for every training set with three or more classes, every base estimator that gives probabilities and every performance measure, a new OrdinalQuantificationTree is fitted without error, and for every
nonempty bag `predict` returns valid prevalences: for each class the mean over the bag of its probability in the tree. -/
theorem C106_tree_prevalences [LinearOrder α] (perf : ℝ → ℝ → Fl) (ops : FhOps M D) (X : List D) (y : List α) (hXy : X.length = y.length) (h3 : 3 ≤ (labelsOf y).length)
    (hp : ∀ m x, IsPrevList 2 (ops.proba m x)) (bag : List D) (hb : bag ≠ []) :
    ∃ s, oqtFit perf ops oqtNew X y = (s, none) ∧ s.classes = labelsOf y ∧ ∃ out tree, oqtPredict ops s bag = .ok out ∧ IsPrevList (labelsOf y).length out
      ∧ inorder tree = List.range ((labelsOf y).length - 1)
      ∧ ∀ c, c < (labelsOf y).length → out[c]? = some ((bag.map fun x => pathProb (fun i => leftProb ops X y i x) (fun i => rightProb ops X y i x) tree c).sum / bag.length) := by
  obtain ⟨f, hf, hfit⟩ := oqtFit_new perf ops X y hXy h3 hp
  refine ⟨_, hfit, rfl, ?_⟩
  obtain ⟨hin, rows, hrows, hF⟩ := C64_tree_probabilities perf ops X y hXy h3 f hf (fun m _ x _ => hp m x) bag fun m _ x _ => hp m x
  have hcl : f.1.classes = labelsOf y := by
    unfold fhtFit at hf
    rw [bind_ok (fhFit_eq ops X y hXy h3)] at hf
    obtain ⟨t, -, hf⟩ := bind_inv hf
    cases hf
    rfl
  have hlen : rows.length = bag.length := hF.length_eq.symm
  have hl0 : (bag.length : ℝ) ≠ 0 := by exact_mod_cast (List.length_pos_of_ne_nil hb).ne'
  have hprev : ∀ r ∈ rows, IsPrevList (labelsOf y).length r := fun r hr => by
    obtain ⟨i, hi, rfl⟩ := List.getElem_of_mem hr
    exact (List.forall₂_iff_get.1 hF).2 i (by omega) hi |>.1
  refine ⟨(List.range (labelsOf y).length).map fun c => (rows.map fun r => r.getD c 0).sum / rows.length, f.2, ?_, ⟨by simp, ?_, ?_⟩, hin, ?_⟩
  · unfold oqtPredict
    rw [if_neg hb]
    simp only
    rw [hrows, hcl]
    rfl
  · intro v hv
    obtain ⟨c, -, rfl⟩ := List.mem_map.1 hv
    refine div_nonneg (List.sum_nonneg fun w hw => ?_) (Nat.cast_nonneg _)
    obtain ⟨r, hr, rfl⟩ := List.mem_map.1 hw
    rcases lt_or_ge c r.length with h | h
    · rw [List.getD_eq_getElem _ _ h]; exact (hprev r hr).2.1 _ (List.getElem_mem _)
    · rw [List.getD_eq_default _ _ h]
  · have e : ((List.range (labelsOf y).length).map fun c => (rows.map fun r => r.getD c 0).sum / (rows.length : ℝ)).sum = ((List.range (labelsOf y).length).map fun c => (rows.map fun r => r.getD c 0).sum).sum / rows.length := by
      simp only [div_eq_mul_inv, List.sum_map_mul_right]
    rw [e, sum_getD_columns _ rows fun r hr => (hprev r hr).1]
    have : rows.map List.sum = List.replicate rows.length 1 := List.eq_replicate_iff.2 ⟨by simp, fun v hv => by obtain ⟨r, hr, rfl⟩ := List.mem_map.1 hv; exact (hprev r hr).2.2⟩
    rw [this, List.sum_replicate, hlen]
    simp [hl0]
  · intro c hc
    rw [List.getElem?_map, List.getElem?_range hc]
    simp only [Option.map_some, hlen]
    congr 3
    apply List.ext_getElem
    · simp [hlen]
    · intro i h1 h2
      simp only [List.length_map] at h1 h2
      simp only [List.getElem_map]
      have := ((List.forall₂_iff_get.1 hF).2 i h2 h1).2 c hc
      simp only [List.get_eq_getElem] at this
      rw [List.getD_eq_getElem?_getD, this]
      rfl

/-- **C106**, predictions given by the caller: whatever the object and `X` are, `predict` returns for each class the mean of its column; valid prevalences when the rows are. -/
theorem C106_given_predictions [LinearOrder α] (ops : FhOps M D) (s : OqtState M α) (X : List D) {n : ℕ} (rows : List (Fin n → ℝ)) (hr : rows ≠ []) :
    ∃ out, oqtPredictWith ops s X (some rows) = .ok out ∧ out.length = n ∧ (∀ c : Fin n, out[c]? = some ((rows.map fun r => r c).sum / rows.length)) ∧ ((∀ r ∈ rows, IsPrev r) → IsPrevList n out) := by
  have e : oqtMean n (rows.map List.ofFn) = List.ofFn fun c => (rows.map fun r => r c).sum / rows.length := by
    refine List.ext_getElem (by simp [oqtMean]) fun i h1 h2 => ?_
    have hi : i < n := by simpa using h2
    simp [oqtMean, hi, Function.comp_def]
  have hl : (rows.length : ℝ) ≠ 0 := by exact_mod_cast (List.length_pos_of_ne_nil hr).ne'
  refine ⟨_, rfl, by simp [oqtMean], fun c => ?_, fun h => ?_⟩
  · rw [e]
    simp
  · rw [e]
    have hm := meanOf_isPrev rows hr h
    refine ⟨by simp, fun v hv => ?_, ?_⟩
    · obtain ⟨c, rfl⟩ := List.mem_ofFn.1 hv
      exact hm.1 c
    · rw [List.sum_ofFn]
      exact hm.2

/-- **C107 is false**: a second `fit`, with any data, only replaces `classes_`: the predictions for every bag are those of the first training set. -/
theorem C107_refit_refuted [LinearOrder α] (perf : ℝ → ℝ → Fl) (ops : FhOps M D) (X X' : List D) (y y' : List α) (hXy : X.length = y.length) (h3 : 3 ≤ (labelsOf y).length)
    (hp : ∀ m x, IsPrevList 2 (ops.proba m x)) :
    ∃ s s', oqtFit perf ops oqtNew X y = (s, none) ∧ oqtFit perf ops s X' y' = (s', none) ∧ s'.classes = labelsOf y' ∧ ∀ bag, oqtPredict ops s' bag = oqtPredict ops s bag := by
  obtain ⟨f, hf, hfit⟩ := oqtFit_new perf ops X y hXy h3 hp
  have hcl : f.1.classes = labelsOf y := by
    unfold fhtFit at hf
    rw [bind_ok (fhFit_eq ops X y hXy h3)] at hf
    obtain ⟨t, -, hf⟩ := bind_inv hf
    cases hf
    rfl
  obtain ⟨-, rows, hrows, hF⟩ := C64_tree_probabilities perf ops X y hXy h3 f hf (fun m _ x _ => hp m x) (X'.take 1) fun m _ x _ => hp m x
  have hlab : ∃ out, fhtPredict ops f (X'.take 1) = .ok out := by
    unfold fhtPredict
    rw [bind_ok hrows]
    have : ∀ r ∈ rows, ∃ c, fhLabel f.1.classes (fun i : Fin r.length => r[i]) = .ok c := fun r hr => by
      obtain ⟨i, hi, rfl⟩ := List.getElem_of_mem hr
      have hr := ((List.forall₂_iff_get.1 hF).2 i (by rw [hF.length_eq]; exact hi) hi).1.1
      simp only [List.get_eq_getElem] at hr
      obtain ⟨out, ho, -⟩ := cvLabels_ok f.1.classes (by rw [hcl]; exact hr.symm) (by rw [hr]; omega) [fun j : Fin (rows[i]'hi).length => (rows[i]'hi)[j]]
      rw [List.mapM_cons] at ho
      obtain ⟨c, hc, -⟩ := bind_inv ho
      exact ⟨c, hc⟩
    classical
    choose g hg using this
    rcases isEmpty_or_nonempty α with he | ⟨⟨a⟩⟩
    · exact ⟨[], by
        rcases rows with _ | ⟨r, rows⟩
        · rfl
        · exact he.elim (g r List.mem_cons_self)⟩
    · exact ⟨_, mapM_ok _ _ (fun r => if hr : r ∈ rows then g r hr else a) fun r hr => by rw [dif_pos hr]; exact hg r hr⟩
  obtain ⟨out, hout⟩ := hlab
  refine ⟨_, ⟨labelsOf y', some (f.1, some f.2)⟩, hfit, ?_, rfl, fun bag => ?_⟩
  · unfold oqtFit
    simp only
    rw [hout]
    rfl
  · unfold oqtPredict
    rfl

/-- **C107 is false** after an exception: when the first `fit` stops while the tree is built, every later `fit` raises a ValueError, however many times it is tried and whatever the data. -/
theorem C107_interrupted_refuted [LinearOrder α] (perf : ℝ → ℝ → Fl) (ops : FhOps M D) (X : List D) (y : List α) (f : FhFit M α) (hX : X ≠ []) (hXy : X.length = y.length) (hf : fhFit ops X y = .ok f) (e : Err)
    (ht : fhtGenerate perf ops f X y = .error e) :
    ∃ s, oqtFit perf ops oqtNew X y = (s, some e)
      ∧ ∀ (tries : List (List D × List α)) X' y', ∃ s', oqtFit perf ops (tries.foldl (fun s t => (oqtFit perf ops s t.1 t.2).1) s) X' y' = (s', some .valueError) := by
  refine ⟨⟨npUnique y, some (f, none)⟩, ?_, fun tries X' y' => ?_⟩
  · unfold oqtFit
    simp only [oqtNew]
    rw [if_neg (by push Not; exact ⟨hX, hXy⟩), hf]
    simp only
    rw [ht]
  · have key : ∀ (tries : List (List D × List α)) (c : List α), ∃ c', tries.foldl (fun s t => (oqtFit perf ops s t.1 t.2).1) ⟨c, some (f, none)⟩ = (⟨c', some (f, none)⟩ : OqtState M α) := by
      intro tries
      induction tries with
      | nil => exact fun c => ⟨c, rfl⟩
      | cons t l ih => exact fun c => ih (npUnique t.2)
    obtain ⟨c', hc⟩ := key tries (npUnique y)
    rw [hc]
    exact ⟨_, rfl⟩

end

/-! ## Non-vacuity -/

example := C106_given_predictions (tableOps decreasing) (oqtNew : OqtState _ ℕ) [] [![(0 : ℝ), 1, 0], ![1 / 2, 0, 1 / 2]] (by simp)

example := C106_tree_prevalences (fun p q => Fl.fin |p - q|) (tableOps decreasing) [10, 20, 30, 40] [0, 1, 2, 2] rfl (by rw [four_labels]; decide) (fun m x => table_prev _ decreasing_bounds m x) [50, 60] (by simp)

example := C107_refit_refuted (fun p q => Fl.fin |p - q|) (tableOps decreasing) [10, 20, 30, 40] [1] [0, 1, 2, 2] [7] rfl (by rw [four_labels]; decide) (fun m x => table_prev _ decreasing_bounds m x)

/-- A base estimator whose `predict_proba` gives one column. -/
example : ∃ (ops : FhOps ℕ ℕ) (f : FhFit ℕ ℕ), fhFit ops [10, 20, 30, 40] [0, 1, 2, 2] = .ok f ∧ ∃ e, fhtGenerate (fun p q => Fl.fin |p - q|) ops f [10, 20, 30, 40] [0, 1, 2, 2] = .error e := by
  refine ⟨⟨fun i _ _ => i, fun _ _ => [1]⟩, _, fhFit_eq _ [10, 20, 30, 40] [0, 1, 2, 2] rfl (by rw [four_labels]; decide), .indexError, ?_⟩
  rw [four_labels]
  rfl

end Verif.Props
