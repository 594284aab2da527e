import Verif.Proof.FrankHall
import Verif.Props.CvEstimator
import Verif.Props.Decomp
import Verif.Model.MetricsBinary

/-!
# C62 - C65, C99, C100: the Frank and Hall classifiers
-/

namespace Verif.Props

open Verif.Model Verif.Spec Verif.Proof

variable {M D α : Type} {n : ℕ}

/-! ## Descending the tree -/

theorem mem_take_iff {l : List α} (hl : l.Nodup) {i m : ℕ} {c : α} (h : l[i]? = some c) : c ∈ l.take m ↔ i < m := by
  constructor
  · intro hc
    obtain ⟨j, hj⟩ := List.getElem?_of_mem hc
    rw [List.getElem?_take] at hj
    split_ifs at hj with hjm
    have hi := (List.getElem?_eq_some_iff.1 h).1
    have : i = j := (List.getElem?_inj hi hl).1 (by rw [h, hj])
    omega
  · intro him
    exact List.mem_of_getElem? (by rw [List.getElem?_take, if_pos him]; exact h)

theorem mem_drop_iff {l : List α} (hl : l.Nodup) {i m : ℕ} {c : α} (h : l[i]? = some c) : c ∈ l.drop m ↔ m ≤ i := by
  constructor
  · intro hc
    obtain ⟨j, hj⟩ := List.getElem?_of_mem hc
    rw [List.getElem?_drop] at hj
    have hi := (List.getElem?_eq_some_iff.1 h).1
    have : i = m + j := (List.getElem?_inj hi hl).1 (by rw [h, hj])
    omega
  · intro him
    refine List.mem_of_getElem? (i := i - m) ?_
    rw [List.getElem?_drop, show m + (i - m) = i by omega]
    exact h

/-- Multiplying the entries of a group of classes. -/
theorem fhtMul_spec [DecidableEq α] (classes : List α) (hc : classes.Nodup) (v : ℝ) (group : List α) (hg : group.Nodup) (hsub : ∀ c ∈ group, c ∈ classes) (probs : List ℝ) :
    ∃ out, fhtMul classes v group probs = .ok out ∧ out.length = probs.length ∧ ∀ (i : ℕ) (c : α) (p : ℝ), classes[i]? = some c → probs[i]? = some p → out[i]? = some (if c ∈ group then p * v else p) := by
  induction group generalizing probs with
  | nil => exact ⟨probs, rfl, rfl, fun i c p _ h => by simpa using h⟩
  | cons g group ih =>
    rw [List.nodup_cons] at hg
    obtain ⟨out, h1, h2, h3⟩ := ih hg.2 (fun c h => hsub c (List.mem_cons_of_mem _ h)) (probs.modify (classes.idxOf g) (· * v))
    refine ⟨out, ?_, by rw [h2, List.length_modify], fun i c p hi hp => ?_⟩
    · unfold fhtMul
      rw [if_pos (hsub g (by simp)), h1]
    · have hidx : classes.idxOf g = i ↔ c = g := by
        have hg' : classes[classes.idxOf g]? = some g := List.getElem?_idxOf (hsub g (by simp))
        constructor
        · intro h
          rw [h, hi] at hg'
          exact Option.some.inj hg'
        · rintro rfl
          have := (List.getElem?_eq_some_iff.1 hi).1
          exact ((List.getElem?_inj this hc).1 (by rw [hi, hg'])).symm
      have hm : (probs.modify (classes.idxOf g) (· * v))[i]? = some (if c = g then p * v else p) := by
        rw [List.getElem?_modify, hp]
        simp only [hidx]
        split_ifs <;> rfl
      rw [h3 i c _ hi hm]
      by_cases h : c = g
      · subst h
        rw [if_neg hg.1, if_pos rfl, if_pos (by simp)]
      · rw [if_neg h]
        simp [List.mem_cons, h]

/-- `sub` is the list of the classes of positions `first, ..., first + count`. -/
structure SubRange (classes sub : List α) (first count : ℕ) : Prop where
  nodup : sub.Nodup
  inside : ∀ c ∈ sub, c ∈ classes
  range : ∀ (i : ℕ) (c : α), classes[i]? = some c → (c ∈ sub ↔ first ≤ i ∧ i ≤ first + count)

theorem npSetdiff_mem [LinearOrder α] (a b : List α) (c : α) : c ∈ npSetdiff a b ↔ c ∈ a ∧ c ∉ b := by
  unfold npSetdiff
  rw [List.mem_filter, npUnique_eq_labelsOf, mem_labelsOf']
  simp

theorem npSetdiff_nodup [LinearOrder α] (a b : List α) : (npSetdiff a b).Nodup := by
  unfold npSetdiff
  rw [npUnique_eq_labelsOf]
  exact (labelsOf_nodup' a).filter _

theorem fhtCompute_spec [LinearOrder α] (ops : FhOps M D) (f : FhFit M α) (x : D) (hc : f.classes.Nodup) (left right : ℕ → ℝ) (t : QTree) (first count : ℕ) (hlen : first + count < f.classes.length)
    (ht : inorder t = List.range' first count)
    (hest : ∀ p ∈ inorder t, ∃ m, f.estimators[p]? = some m ∧ (ops.proba m x)[1]? = some (left p) ∧ (ops.proba m x)[0]? = some (right p))
    (sub : List α) (hsub : (sub = [] ∧ first = 0 ∧ count + 1 = f.classes.length) ∨ SubRange f.classes sub first count) (probs : List ℝ) :
    ∃ out, fhtCompute ops f x t sub probs = .ok out ∧ out.length = probs.length
      ∧ ∀ (i : ℕ) (p : ℝ), i < f.classes.length → probs[i]? = some p → out[i]? = some (if first ≤ i ∧ i ≤ first + count then p * pathProb left right t i else p) := by
  induction t generalizing first count sub probs with
  | leaf => exact ⟨probs, rfl, rfl, fun i p _ h => by simpa [pathProb] using h⟩
  | node pos l r ihl ihr =>
    obtain ⟨h1, h2, h3, h4⟩ := inorder_node ht
    obtain ⟨m, e1, e2, e3⟩ := hest pos (by simp [inorder])
    set subL := if sub.length = 0 then f.classes.take (pos + 1) else npSetdiff sub (f.classes.drop (pos + 1)) with hL
    set subR := if sub.length = 0 then f.classes.drop (pos + 1) else npSetdiff sub (f.classes.take (pos + 1)) with hR
    have hSL : SubRange f.classes subL first (pos - first) := by
      rcases hsub with ⟨rfl, rfl, hcnt⟩ | hs
      · have hL' : subL = f.classes.take (pos + 1) := by rw [hL, List.length_nil, if_pos rfl]
        rw [hL']
        refine ⟨hc.sublist (List.take_sublist _ _), fun c h => List.mem_of_mem_take h, fun i c hi => ?_⟩
        rw [mem_take_iff hc hi]
        omega
      · have hne : sub.length ≠ 0 := by
          intro h0
          have := (hs.range first _ (List.getElem?_eq_getElem (by omega))).2 ⟨le_rfl, by omega⟩
          rw [List.length_eq_zero_iff.1 h0] at this
          simp at this
        have hL' : subL = npSetdiff sub (f.classes.drop (pos + 1)) := by rw [hL, if_neg hne]
        rw [hL']
        refine ⟨npSetdiff_nodup _ _, fun c h => hs.inside c ((npSetdiff_mem _ _ _).1 h).1, fun i c hi => ?_⟩
        rw [npSetdiff_mem, hs.range i c hi, mem_drop_iff hc hi]
        omega
    have hSR : SubRange f.classes subR (pos + 1) (first + count - pos - 1) := by
      rcases hsub with ⟨rfl, rfl, hcnt⟩ | hs
      · have hR' : subR = f.classes.drop (pos + 1) := by rw [hR, List.length_nil, if_pos rfl]
        rw [hR']
        refine ⟨hc.sublist (List.drop_sublist _ _), fun c h => List.mem_of_mem_drop h, fun i c hi => ?_⟩
        have := (List.getElem?_eq_some_iff.1 hi).1
        rw [mem_drop_iff hc hi]
        omega
      · have hne : sub.length ≠ 0 := by
          intro h0
          have := (hs.range first _ (List.getElem?_eq_getElem (by omega))).2 ⟨le_rfl, by omega⟩
          rw [List.length_eq_zero_iff.1 h0] at this
          simp at this
        have hR' : subR = npSetdiff sub (f.classes.take (pos + 1)) := by rw [hR, if_neg hne]
        rw [hR']
        refine ⟨npSetdiff_nodup _ _, fun c h => hs.inside c ((npSetdiff_mem _ _ _).1 h).1, fun i c hi => ?_⟩
        rw [npSetdiff_mem, hs.range i c hi, mem_take_iff hc hi]
        omega
    obtain ⟨p1, a1, b1, c1⟩ := fhtMul_spec f.classes hc (left pos) subL hSL.nodup hSL.inside probs
    obtain ⟨p2, a2, b2, c2⟩ := fhtMul_spec f.classes hc (right pos) subR hSR.nodup hSR.inside p1
    obtain ⟨p3, a3, b3, c3⟩ := ihl first (pos - first) (by omega) h3 (fun q hq => hest q (by simp [inorder, hq])) subL (Or.inr hSL) p2
    obtain ⟨p4, a4, b4, c4⟩ := ihr (pos + 1) (first + count - pos - 1) (by omega) h4 (fun q hq => hest q (by simp [inorder, hq])) subR (Or.inr hSR) p3
    refine ⟨p4, ?_, by rw [b4, b3, b2, b1], fun i p hi hp => ?_⟩
    · unfold fhtCompute
      refine (bind_ok (item_ok.2 e1) _).trans ((bind_ok (item_ok.2 e2) _).trans ((bind_ok (item_ok.2 e3) _).trans ?_))
      exact (bind_ok a1 _).trans ((bind_ok a2 _).trans ((bind_ok a3 _).trans a4))
    · obtain ⟨c, hic⟩ : ∃ c, f.classes[i]? = some c := ⟨_, List.getElem?_eq_getElem hi⟩
      have d1 := c1 i c p hic hp
      have d2 := c2 i c _ hic d1
      have d3 := c3 i _ hi d2
      have d4 := c4 i _ hi d3
      rw [d4]
      have hl : c ∈ subL ↔ first ≤ i ∧ i ≤ pos := by rw [hSL.range i c hic]; omega
      have hr : c ∈ subR ↔ pos + 1 ≤ i ∧ i ≤ first + count := by rw [hSR.range i c hic]; omega
      simp only [hl, hr]
      congr 1
      have hnode : pathProb left right (.node pos l r) i = if i ≤ pos then left pos * pathProb left right l i else right pos * pathProb left right r i := rfl
      rw [hnode]
      by_cases hin : first ≤ i ∧ i ≤ first + count
      · by_cases hip : i ≤ pos
        · simp only [if_pos hin, if_pos hip, if_pos (show first ≤ i ∧ i ≤ pos by omega), if_pos (show first ≤ i ∧ i ≤ first + (pos - first) by omega),
            if_neg (show ¬(pos + 1 ≤ i ∧ i ≤ first + count) by omega), if_neg (show ¬(pos + 1 ≤ i ∧ i ≤ pos + 1 + (first + count - pos - 1)) by omega)]
          ring
        · simp only [if_pos hin, if_neg hip, if_neg (show ¬(first ≤ i ∧ i ≤ pos) by omega), if_neg (show ¬(first ≤ i ∧ i ≤ first + (pos - first)) by omega),
            if_pos (show (pos + 1 ≤ i ∧ i ≤ first + count) by omega), if_pos (show (pos + 1 ≤ i ∧ i ≤ pos + 1 + (first + count - pos - 1)) by omega)]
          ring
      · simp only [if_neg hin, if_neg (show ¬(first ≤ i ∧ i ≤ pos) by omega), if_neg (show ¬(first ≤ i ∧ i ≤ first + (pos - first)) by omega),
          if_neg (show ¬(pos + 1 ≤ i ∧ i ≤ first + count) by omega), if_neg (show ¬(pos + 1 ≤ i ∧ i ≤ pos + 1 + (first + count - pos - 1)) by omega)]

theorem mapM_forall2 {β γ : Type} (l : List β) (f : β → Except Err γ) (P : β → γ → Prop) (h : ∀ x ∈ l, ∃ r, f x = .ok r ∧ P x r) : ∃ out, l.mapM f = .ok out ∧ List.Forall₂ P l out := by
  obtain ⟨out, ho, hl⟩ := mapM_exists l f fun x hx => by
    obtain ⟨r, hr, -⟩ := h x hx
    exact ⟨r, hr⟩
  refine ⟨out, ho, List.forall₂_iff_get.2 ⟨hl.symm, fun i h1 h2 => ?_⟩⟩
  obtain ⟨r, hr, hp⟩ := h l[i] (List.getElem_mem _)
  have := (List.forall₂_iff_get.1 ((mapM_iff _ _ _).1 ho)).2 i h1 h2
  simp only [List.get_eq_getElem] at this ⊢
  rw [hr] at this
  rw [← Except.ok.inj this]
  exact hp

/-! ## C100: what the binary models learn -/

theorem fhFit_eq [LinearOrder α] (ops : FhOps M D) (X : List D) (y : List α) (hXy : X.length = y.length) (h3 : 3 ≤ (labelsOf y).length) :
    fhFit ops X y = .ok ⟨labelsOf y, (List.range ((labelsOf y).length - 1)).map fun i => ops.fit i X (groupVsRest ((labelsOf y).take (i + 1)) y)⟩ := by
  obtain ⟨m, h1, h2, h4⟩ := C69_fh_binarizer y y h3
  have hy : y ≠ [] := by
    rintro rfl
    simp [labelsOf] at h3
  unfold fhFit
  rw [if_neg hy]
  simp only [npUnique_eq_labelsOf]
  refine (bind_ok h1 _).trans ?_
  rw [if_neg (by simpa using hXy)]
  refine (bind_ok (mapM_ok _ _ (fun i => ops.fit i X (groupVsRest ((labelsOf y).take (i + 1)) y)) fun i hi => ?_) _).trans rfl
  rw [List.mem_range] at hi
  rw [item_ok.2 (h4 i (by omega))]
  rfl

/-- **C100, partial**: with three or more classes `fit` succeeds, the classes are those of the training set and model `i` is trained, on all the examples, to tell the first `i + 1` classes (label 1) from the
rest (label 0); there is a model for every class but the last one. -/
theorem C100_models_partial [LinearOrder α] (ops : FhOps M D) (X : List D) (y : List α) (hXy : X.length = y.length) (h3 : 3 ≤ (labelsOf y).length) :
    ∃ f, fhFit ops X y = .ok f ∧ f.classes = labelsOf y ∧ f.estimators.length = (labelsOf y).length - 1
      ∧ ∀ i, i + 1 < (labelsOf y).length → f.estimators[i]? = some (ops.fit i X (groupVsRest ((labelsOf y).take (i + 1)) y)) := by
  refine ⟨_, fhFit_eq ops X y hXy h3, rfl, by simp, fun i hi => ?_⟩
  simp [List.getElem?_map, List.getElem?_range (show i < (labelsOf y).length - 1 by omega)]

/-- **C100 is false** with two classes: `fit` raises an error, although there is a binary problem to learn. -/
theorem C100_two_classes_refuted [LinearOrder α] (ops : FhOps M D) (X : List D) (y : List α) (h2 : (labelsOf y).length = 2) : fhFit ops X y = .error .indexError := by
  have hy : y ≠ [] := by
    rintro rfl
    simp [labelsOf] at h2
  have : fhTransform 0 1 (labelsOf y) y = .error .indexError := by
    unfold fhTransform lbTransform
    rw [if_neg (by omega), if_pos h2, h2]
    rfl
  unfold fhFit
  rw [if_neg hy]
  simp only [npUnique_eq_labelsOf, this]
  rfl

/-- The rows of left-group probabilities. -/
theorem fhBinary_ok [LinearOrder α] (ops : FhOps M D) (X : List D) (y : List α) (hXy : X.length = y.length) (h3 : 3 ≤ (labelsOf y).length) (f : FhFit M α) (hf : fhFit ops X y = .ok f) (Xt : List D)
    (hp : ∀ m ∈ f.estimators, ∀ x ∈ Xt, IsPrevList 2 (ops.proba m x)) :
    f.classes = labelsOf y ∧ fhBinary ops f Xt = .ok (Xt.map fun x => (List.range ((labelsOf y).length - 1)).map fun i => leftProb ops X y i x)
    ∧ ∀ x ∈ Xt, ∀ i, i + 1 < (labelsOf y).length → ∃ m, f.estimators[i]? = some m ∧ (ops.proba m x)[1]? = some (leftProb ops X y i x) ∧ (ops.proba m x)[0]? = some (rightProb ops X y i x)
      ∧ 0 ≤ leftProb ops X y i x ∧ 0 ≤ rightProb ops X y i x ∧ leftProb ops X y i x + rightProb ops X y i x = 1 := by
  rw [fhFit_eq ops X y hXy h3] at hf
  cases hf
  have key : ∀ x ∈ Xt, ∀ i, i + 1 < (labelsOf y).length → ∃ m, ((List.range ((labelsOf y).length - 1)).map fun i => ops.fit i X (groupVsRest ((labelsOf y).take (i + 1)) y))[i]? = some m
      ∧ (ops.proba m x)[1]? = some (leftProb ops X y i x) ∧ (ops.proba m x)[0]? = some (rightProb ops X y i x)
      ∧ 0 ≤ leftProb ops X y i x ∧ 0 ≤ rightProb ops X y i x ∧ leftProb ops X y i x + rightProb ops X y i x = 1 := by
    intro x hx i hi
    refine ⟨ops.fit i X (groupVsRest ((labelsOf y).take (i + 1)) y), ?_, ?_⟩
    · simp [List.getElem?_map, List.getElem?_range (show i < (labelsOf y).length - 1 by omega)]
    · have hrow := hp (ops.fit i X (groupVsRest ((labelsOf y).take (i + 1)) y)) (List.mem_map.2 ⟨i, by simp; omega, rfl⟩) x hx
      unfold leftProb rightProb
      generalize ops.proba (ops.fit i X (groupVsRest ((labelsOf y).take (i + 1)) y)) x = v at hrow
      obtain ⟨h1, h2, h4⟩ := hrow
      match v, h1 with
      | [a, b], _ =>
        simp only [List.sum_cons, List.sum_nil] at h4
        refine ⟨rfl, rfl, h2 b (by simp), h2 a (by simp), ?_⟩
        show b + a = 1
        linarith
  refine ⟨rfl, ?_, key⟩
  unfold fhBinary
  rw [if_neg (by simp; omega)]
  refine mapM_ok _ _ _ fun x hx => mapM_ok _ _ _ fun i hi => ?_
  rw [List.mem_range] at hi
  obtain ⟨m, e1, e2, -⟩ := key x hx i (by dsimp only at hi; omega)
  exact (bind_ok (item_ok.2 e1) _).trans (item_ok.2 e2)

/-! ## C62, C99: the rule of Frank and Hall -/

theorem fhPredictProba_ok [LinearOrder α] (ops : FhOps M D) (X : List D) (y : List α) (hXy : X.length = y.length) (h3 : 3 ≤ (labelsOf y).length) (f : FhFit M α) (hf : fhFit ops X y = .ok f) (Xt : List D)
    (hp : ∀ m ∈ f.estimators, ∀ x ∈ Xt, IsPrevList 2 (ops.proba m x)) :
    fhPredictProba (labelsOf y).length ops f Xt = .ok (Xt.map fun x => fhRow (labelsOf y).length fun i => leftProb ops X y i x) := by
  obtain ⟨-, h1, -⟩ := fhBinary_ok ops X y hXy h3 f hf Xt hp
  unfold fhPredictProba
  rw [h1]
  simp only [Except.map, Except.ok.injEq, List.map_map]
  apply List.map_congr_left
  intro x _
  simp only [Function.comp]
  funext c
  have hget : ∀ i, i < (labelsOf y).length - 1 → ((List.range ((labelsOf y).length - 1)).map fun i => leftProb ops X y i x).getD i 0 = leftProb ops X y i x := by
    intro i hi
    rw [List.getD_eq_getElem _ _ (by simpa using hi)]
    simp
  unfold fhRow
  have := c.2
  split_ifs with a b
  · beta_reduce
    rw [hget ((labelsOf y).length - 1 - 1) (by omega)]
  · beta_reduce
    rw [hget 0 (by omega)]
  · beta_reduce
    rw [hget (c - 1) (by omega), hget c (by omega)]

/-- **C62, partial**: `predict_proba` returns a row for every example, with values in [0, 1]; the ones of the first and the last class are those of the rule of Frank and Hall. -/
theorem C62_ends_partial [LinearOrder α] (ops : FhOps M D) (X : List D) (y : List α) (hXy : X.length = y.length) (h3 : 3 ≤ (labelsOf y).length) (f : FhFit M α) (hf : fhFit ops X y = .ok f) (Xt : List D)
    (hp : ∀ m ∈ f.estimators, ∀ x ∈ Xt, IsPrevList 2 (ops.proba m x)) :
    ∃ out, fhPredictProba (labelsOf y).length ops f Xt = .ok out ∧ List.Forall₂ (fun x row => (∀ c, 0 ≤ row c ∧ row c ≤ 1)
      ∧ ∀ c : Fin (labelsOf y).length, (c : ℕ) = 0 ∨ (c : ℕ) + 1 = (labelsOf y).length → row c = frankHall (labelsOf y).length (fun i => leftProb ops X y i x) c) Xt out := by
  refine ⟨_, fhPredictProba_ok ops X y hXy h3 f hf Xt hp, ?_⟩
  obtain ⟨-, -, hk⟩ := fhBinary_ok ops X y hXy h3 f hf Xt hp
  rw [List.forall₂_map_right_iff, List.forall₂_same]
  intro x hx
  have hb : ∀ i, i + 1 < (labelsOf y).length → 0 ≤ leftProb ops X y i x ∧ leftProb ops X y i x ≤ 1 := by
    intro i hi
    obtain ⟨m, -, -, -, a, b, c⟩ := hk x hx i hi
    exact ⟨a, by linarith⟩
  constructor
  · intro c
    have := c.2
    unfold fhRow
    split_ifs with a b
    · obtain ⟨h1, h2⟩ := hb ((labelsOf y).length - 1 - 1) (by omega)
      constructor <;> linarith
    · exact hb 0 (by omega)
    · obtain ⟨h1, h2⟩ := hb (c - 1) (by omega)
      obtain ⟨h3, h4⟩ := hb c (by omega)
      constructor
      · nlinarith [mul_nonneg h1 h3, mul_le_one₀ h2 h3 h4]
      · nlinarith [mul_nonneg h1 h3]
  · intro c hc
    unfold fhRow frankHall
    rcases hc with hc | hc
    · rw [if_neg (by omega), if_pos hc, if_pos hc]
    · rw [if_pos (by omega), if_neg (by omega), if_pos hc]
      congr 2
      omega

/-- **C62 is false** for the classes in the middle: the value returned is `1 - Pr(y ≤ c - 1) · Pr(y ≤ c)`, which is the documented `Pr(y > c - 1) · Pr(y ≤ c)` only when `Pr(y ≤ c) = 1`. -/
theorem C62_middle_refuted [LinearOrder α] (ops : FhOps M D) (X : List D) (y : List α) (hXy : X.length = y.length) (h3 : 3 ≤ (labelsOf y).length) (f : FhFit M α) (hf : fhFit ops X y = .ok f) (Xt : List D)
    (hp : ∀ m ∈ f.estimators, ∀ x ∈ Xt, IsPrevList 2 (ops.proba m x)) :
    ∃ out, fhPredictProba (labelsOf y).length ops f Xt = .ok out ∧ List.Forall₂ (fun x row => ∀ c : Fin (labelsOf y).length, 0 < (c : ℕ) → (c : ℕ) + 1 < (labelsOf y).length →
      row c = 1 - leftProb ops X y (c - 1) x * leftProb ops X y c x
      ∧ (row c = frankHall (labelsOf y).length (fun i => leftProb ops X y i x) c ↔ leftProb ops X y c x = 1)) Xt out := by
  refine ⟨_, fhPredictProba_ok ops X y hXy h3 f hf Xt hp, ?_⟩
  rw [List.forall₂_map_right_iff, List.forall₂_same]
  intro x hx c hc0 hc1
  have hrow : fhRow (labelsOf y).length (fun i => leftProb ops X y i x) c = 1 - leftProb ops X y (c - 1) x * leftProb ops X y c x := by
    unfold fhRow
    rw [if_neg (by omega), if_neg (by omega)]
  refine ⟨hrow, ?_⟩
  rw [hrow]
  unfold frankHall
  rw [if_neg (by omega), if_neg (by omega)]
  beta_reduce
  constructor
  · intro h
    linarith
  · intro h
    rw [h]
    ring

/-- **C99 is false**: with three or more classes `predict` never returns the last class, whatever the binary models predict. -/
theorem C99_last_class_refuted [LinearOrder α] (ops : FhOps M D) (X : List D) (y : List α) (hXy : X.length = y.length) (h3 : 3 ≤ (labelsOf y).length) (f : FhFit M α) (hf : fhFit ops X y = .ok f) (Xt : List D)
    (hp : ∀ m ∈ f.estimators, ∀ x ∈ Xt, IsPrevList 2 (ops.proba m x)) :
    ∃ out, fhPredict ops f Xt = .ok out ∧ out.length = Xt.length ∧ ∀ c ∈ out, some c ≠ (labelsOf y).getLast? := by
  have hpp := fhPredictProba_ok ops X y hXy h3 f hf Xt hp
  obtain ⟨hcl, -, hk⟩ := fhBinary_ok ops X y hXy h3 f hf Xt hp
  obtain ⟨out, ho, hF⟩ := cvLabels_ok (labelsOf y) rfl (by omega) (Xt.map fun x => fhRow (labelsOf y).length fun i => leftProb ops X y i x)
  refine ⟨out, ?_, by rw [← hF.length_eq, List.length_map], fun c hc hlast => ?_⟩
  · unfold fhPredict
    rw [hcl]
    exact (bind_ok hpp _).trans ho
  · obtain ⟨j, hj⟩ := List.getElem?_of_mem hc
    have hjl : j < Xt.length := by
      have := (List.getElem?_eq_some_iff.1 hj).1
      rw [← hF.length_eq, List.length_map] at this
      exact this
    obtain ⟨c', hc', i, hi, hic⟩ := forall2_get hF j (fhRow (labelsOf y).length fun i => leftProb ops X y i Xt[j]) (by simp [hjl])
    rw [hj] at hc'
    cases hc'
    rw [hlast, List.getLast?_eq_getElem?] at hic
    have hin : (i : ℕ) = (labelsOf y).length - 1 := (List.getElem?_inj i.2 (labelsOf_nodup' y)).1 hic
    set n := (labelsOf y).length
    have hlt := hi.2 ⟨n - 2, by omega⟩ (by rw [Fin.lt_def]; simp only; omega)
    unfold fhRow at hlt
    simp only at hlt
    rw [if_neg (by omega), if_neg (by omega), if_pos hin] at hlt
    obtain ⟨m, -, -, -, a1, a2, a3⟩ := hk Xt[j] (List.getElem_mem _) (n - 2) (by omega)
    obtain ⟨m', -, -, -, b1, b2, b3⟩ := hk Xt[j] (List.getElem_mem _) (n - 2 - 1) (by omega)
    rw [show n - 1 - 1 = n - 2 by omega] at hlt
    nlinarith

/-! ## C63: the monotone classifier -/

theorem fhmPredictProba_ok [LinearOrder α] (ops : FhOps M D) (X : List D) (y : List α) (hXy : X.length = y.length) (h3 : 3 ≤ (labelsOf y).length) (f : FhFit M α) (hf : fhFit ops X y = .ok f) (Xt : List D)
    (hp : ∀ m ∈ f.estimators, ∀ x ∈ Xt, IsPrevList 2 (ops.proba m x)) :
    fhmPredictProba ops f Xt = .ok (Xt.map fun x => fhmRow ((List.range ((labelsOf y).length - 1)).map fun i => leftProb ops X y i x)) := by
  obtain ⟨-, h1, -⟩ := fhBinary_ok ops X y hXy h3 f hf Xt hp
  unfold fhmPredictProba
  rw [h1]
  simp only [Except.map, fhmCorrect, fhmToCorrect, List.length_nil, if_true, List.map_map]
  rfl

theorem left_bounds [LinearOrder α] (ops : FhOps M D) (X : List D) (y : List α) (hXy : X.length = y.length) (h3 : 3 ≤ (labelsOf y).length) (f : FhFit M α) (hf : fhFit ops X y = .ok f) (Xt : List D)
    (hp : ∀ m ∈ f.estimators, ∀ x ∈ Xt, IsPrevList 2 (ops.proba m x)) (x : D) (hx : x ∈ Xt) : ∀ v ∈ (List.range ((labelsOf y).length - 1)).map fun i => leftProb ops X y i x, 0 ≤ v ∧ v ≤ 1 := by
  obtain ⟨-, -, hk⟩ := fhBinary_ok ops X y hXy h3 f hf Xt hp
  intro v hv
  obtain ⟨i, hi, rfl⟩ := List.mem_map.1 hv
  rw [List.mem_range] at hi
  obtain ⟨m, -, -, -, a, b, c⟩ := hk x hx i (by omega)
  exact ⟨a, by linarith⟩

/-- **C63, partial**: every row is a probability distribution; the probability that it gives to the first `i + 1` classes is the greatest of the probabilities that the models give to the groups of up to
`i + 1` classes. When the probabilities of the models are nondecreasing, that is the probability given by the model of the group, which is the average of the envelopes. -/
theorem C63_monotone_partial [LinearOrder α] (ops : FhOps M D) (X : List D) (y : List α) (hXy : X.length = y.length) (h3 : 3 ≤ (labelsOf y).length) (f : FhFit M α) (hf : fhFit ops X y = .ok f) (Xt : List D)
    (hp : ∀ m ∈ f.estimators, ∀ x ∈ Xt, IsPrevList 2 (ops.proba m x)) :
    ∃ out, fhmPredictProba ops f Xt = .ok out ∧ List.Forall₂ (fun x row => IsPrevList (labelsOf y).length row
      ∧ (∀ i, i + 1 < (labelsOf y).length → IsGreatest {a | ∃ j ≤ i, leftProb ops X y j x = a} (row.take (i + 1)).sum)
      ∧ ((∀ i j, i ≤ j → j + 1 < (labelsOf y).length → leftProb ops X y i x ≤ leftProb ops X y j x) → ∀ i, i + 1 < (labelsOf y).length →
          (row.take (i + 1)).sum = leftProb ops X y i x ∧ EnvelopeMean ((List.range ((labelsOf y).length - 1)).map fun i => leftProb ops X y i x) i (row.take (i + 1)).sum)) Xt out := by
  refine ⟨_, fhmPredictProba_ok ops X y hXy h3 f hf Xt hp, ?_⟩
  rw [List.forall₂_map_right_iff, List.forall₂_same]
  intro x hx
  have hb := left_bounds ops X y hXy h3 f hf Xt hp x hx
  have hlen : ((List.range ((labelsOf y).length - 1)).map fun i => leftProb ops X y i x).length = (labelsOf y).length - 1 := by simp
  have hget : ∀ (j : ℕ) (a : ℝ), ((List.range ((labelsOf y).length - 1)).map fun i => leftProb ops X y i x)[j]? = some a ↔ j + 1 < (labelsOf y).length ∧ leftProb ops X y j x = a := by
    intro j a
    rw [List.getElem?_map, Option.map_eq_some_iff]
    constructor
    · rintro ⟨k, hk, rfl⟩
      obtain ⟨h1, h2⟩ := List.getElem?_eq_some_iff.1 hk
      rw [List.getElem_range] at h2
      subst h2
      exact ⟨by simp at h1; omega, rfl⟩
    · rintro ⟨h1, rfl⟩
      exact ⟨j, List.getElem?_range (by omega), rfl⟩
  have hcum : ∀ i, i + 1 < (labelsOf y).length → IsGreatest {a | ∃ j ≤ i, leftProb ops X y j x = a} ((fhmRow ((List.range ((labelsOf y).length - 1)).map fun i => leftProb ops X y i x)).take (i + 1)).sum := by
    intro i hi
    have := fhmRow_cum _ (fun v hv => (hb v hv).1) (fun v hv => (hb v hv).2) i (by rw [hlen]; omega)
    refine ⟨?_, fun a ha => ?_⟩
    · obtain ⟨j, hj, h⟩ := this.1
      exact ⟨j, hj, ((hget j _).1 h).2⟩
    · obtain ⟨j, hj, rfl⟩ := ha
      exact this.2 ⟨j, hj, (hget j _).2 ⟨by omega, rfl⟩⟩
  refine ⟨?_, hcum, fun hasc i hi => ?_⟩
  · have := fhmRow_prev _ (by intro h; have := congrArg List.length h; simp at this; omega) (fun v hv => (hb v hv).1) (fun v hv => (hb v hv).2)
    rw [hlen, show (labelsOf y).length - 1 + 1 = (labelsOf y).length by omega] at this
    exact this
  · have he : ((fhmRow ((List.range ((labelsOf y).length - 1)).map fun i => leftProb ops X y i x)).take (i + 1)).sum = leftProb ops X y i x := by
      refine (hcum i hi).unique ⟨⟨i, le_rfl, rfl⟩, fun a ha => ?_⟩
      obtain ⟨j, hj, rfl⟩ := ha
      exact hasc j i hj hi
    refine ⟨he, ?_⟩
    rw [he]
    refine ⟨leftProb ops X y i x, leftProb ops X y i x, ⟨⟨i, le_rfl, (hget i _).2 ⟨hi, rfl⟩⟩, ?_⟩, ⟨⟨i, le_rfl, (hget i _).2 ⟨hi, rfl⟩⟩, ?_⟩, by ring⟩
    · rintro a ⟨j, hj, h⟩
      obtain ⟨h1, rfl⟩ := (hget j a).1 h
      exact hasc j i hj hi
    · rintro a ⟨j, hj, h⟩
      obtain ⟨h1, rfl⟩ := (hget j a).1 h
      exact hasc i j hj h1

/-! ## C64, C65: the tree -/

theorem fhtGenerate_ok [LinearOrder α] (perf : ℝ → ℝ → Fl) (ops : FhOps M D) (X : List D) (y : List α) (hXy : X.length = y.length) (h3 : 3 ≤ (labelsOf y).length) (f : FhFit M α) (hf : fhFit ops X y = .ok f)
    (hp : ∀ m ∈ f.estimators, ∀ x ∈ X, IsPrevList 2 (ops.proba m x)) :
    ∃ s : ℕ → Fl, fhtGenerate perf ops f X y = .ok (qtBuild s 0 ((labelsOf y).length - 1))
      ∧ ∀ i, i + 1 < (labelsOf y).length → s i = perf (1 - groupShare ((labelsOf y).take (i + 1)) y) ((X.map fun x => leftProb ops X y i x).sum / X.length) := by
  obtain ⟨hcl, hb, -⟩ := fhBinary_ok ops X y hXy h3 f hf X hp
  obtain ⟨m, h1, h2, h4⟩ := C69_fh_binarizer y y h3
  have hy : (y.length : ℝ) ≠ 0 := by
    intro h
    have : y = [] := List.length_eq_zero_iff.1 (by exact_mod_cast h)
    subst this
    simp [labelsOf] at h3
  set g : ℕ → Fl := fun i => perf (1 - groupShare ((labelsOf y).take (i + 1)) y) ((X.map fun x => leftProb ops X y i x).sum / X.length) with hg
  refine ⟨fun i => ((List.range ((labelsOf y).length - 1)).map g).getD i 0, ?_, fun i hi => ?_⟩
  · unfold fhtGenerate
    refine (bind_ok hb _).trans ?_
    rw [hcl]
    refine (bind_ok (mapM_ok _ _ g fun i hi => ?_) _).trans rfl
    rw [List.mem_range] at hi
    refine (bind_ok h1 _).trans ((bind_ok (item_ok.2 (h4 i (by omega))) _).trans ?_)
    have e1 : (((groupVsRest ((labelsOf y).take (i + 1)) y).countP fun v => decide (v = 0) : ℕ) : ℝ) / (y.length : ℝ) = 1 - groupShare ((labelsOf y).take (i + 1)) y := by
      unfold groupShare groupVsRest
      rw [List.countP_map, eq_sub_iff_add_eq, ← add_div, div_eq_one_iff_eq hy]
      have := List.length_eq_countP_add_countP (fun a => decide (a ∈ (labelsOf y).take (i + 1))) (l := y)
      rw [add_comm]
      norm_cast
      rw [this]
      congr 1
      apply List.countP_congr
      intro a _
      by_cases ha : a ∈ (labelsOf y).take (i + 1) <;> simp [ha]
    have e2 : fhMeanLeft (X.map fun x => (List.range ((labelsOf y).length - 1)).map fun i => leftProb ops X y i x) i = (X.map fun x => leftProb ops X y i x).sum / X.length := by
      unfold fhMeanLeft
      rw [List.length_map, List.map_map]
      congr 2
      apply List.map_congr_left
      intro x _
      simp only [Function.comp]
      rw [List.getD_eq_getElem _ _ (by simpa using hi)]
      simp
    rw [e1, e2]
    rfl
  · simp only
    rw [List.getD_eq_getElem _ _ (by simp; omega)]
    simp [hg]

/-- **C64**: for every performance measure, the tree has every model once and the probability of a class is the product of the probabilities along its path from the root; every row is a probability
distribution. -/
theorem C64_tree_probabilities [LinearOrder α] (perf : ℝ → ℝ → Fl) (ops : FhOps M D) (X : List D) (y : List α) (hXy : X.length = y.length) (h3 : 3 ≤ (labelsOf y).length)
    (f : FhFit M α × QTree) (hf : fhtFit perf ops X y = .ok f) (hpX : ∀ m ∈ f.1.estimators, ∀ x ∈ X, IsPrevList 2 (ops.proba m x)) (Xt : List D) (hp : ∀ m ∈ f.1.estimators, ∀ x ∈ Xt, IsPrevList 2 (ops.proba m x)) :
    inorder f.2 = List.range ((labelsOf y).length - 1)
    ∧ ∃ out, fhtPredictProba ops f Xt = .ok out ∧ List.Forall₂ (fun x row => IsPrevList (labelsOf y).length row
      ∧ ∀ c, c < (labelsOf y).length → row[c]? = some (pathProb (fun i => leftProb ops X y i x) (fun i => rightProb ops X y i x) f.2 c)) Xt out := by
  unfold fhtFit at hf
  obtain ⟨g, hg, hf⟩ := bind_inv hf
  obtain ⟨t, ht, hf⟩ := bind_inv hf
  cases hf
  simp only at hpX hp ⊢
  obtain ⟨s, hs, -⟩ := fhtGenerate_ok perf ops X y hXy h3 g hg hpX
  rw [hs] at ht
  cases ht
  have hin := qtBuild_inorder s ((labelsOf y).length - 1) 0
  refine ⟨by rw [hin, List.range_eq_range'], ?_⟩
  obtain ⟨hcl, -, hk⟩ := fhBinary_ok ops X y hXy h3 g hg Xt hp
  have key : ∀ x ∈ Xt, ∃ row, fhtCompute ops g x (qtBuild s 0 ((labelsOf y).length - 1)) [] (List.replicate g.classes.length 1) = .ok row ∧ IsPrevList (labelsOf y).length row
      ∧ ∀ c, c < (labelsOf y).length → row[c]? = some (pathProb (fun i => leftProb ops X y i x) (fun i => rightProb ops X y i x) (qtBuild s 0 ((labelsOf y).length - 1)) c) := by
    intro x hx
    have hmem : ∀ p ∈ inorder (qtBuild s 0 ((labelsOf y).length - 1)), p + 1 < (labelsOf y).length := by
      intro p hp
      rw [hin, List.mem_range'_1] at hp
      omega
    obtain ⟨row, r1, r2, r3⟩ := fhtCompute_spec ops g x (by rw [hcl]; exact labelsOf_nodup' y) (fun i => leftProb ops X y i x) (fun i => rightProb ops X y i x) (qtBuild s 0 ((labelsOf y).length - 1)) 0
      ((labelsOf y).length - 1) (by rw [hcl]; omega) hin (fun p hp => by
        obtain ⟨m, e1, e2, e3, -⟩ := hk x hx p (hmem p hp)
        exact ⟨m, e1, e2, e3⟩) [] (Or.inl ⟨rfl, rfl, by rw [hcl]; omega⟩) (List.replicate g.classes.length 1)
    rw [List.length_replicate, hcl] at r2
    have hrow : ∀ c, c < (labelsOf y).length → row[c]? = some (pathProb (fun i => leftProb ops X y i x) (fun i => rightProb ops X y i x) (qtBuild s 0 ((labelsOf y).length - 1)) c) := by
      intro c hc
      rw [r3 c 1 (by rw [hcl]; exact hc) (by rw [hcl]; simp [List.getElem?_replicate, hc]), if_pos (by omega), one_mul]
    have heq : row = (List.range' 0 ((labelsOf y).length - 1 + 1)).map (pathProb (fun i => leftProb ops X y i x) (fun i => rightProb ops X y i x) (qtBuild s 0 ((labelsOf y).length - 1))) := by
      apply List.ext_getElem?
      intro i
      by_cases hi : i < (labelsOf y).length
      · rw [hrow i hi, List.getElem?_map, List.getElem?_range' (by omega)]
        simp
      · rw [List.getElem?_eq_none (by omega), List.getElem?_eq_none (by simp; omega)]
    refine ⟨row, r1, ⟨r2, ?_, ?_⟩, hrow⟩
    · intro v hv
      rw [heq] at hv
      obtain ⟨c, -, rfl⟩ := List.mem_map.1 hv
      refine pathProb_nonneg _ _ _ (fun p hp => ?_) c
      obtain ⟨m, -, -, -, a, b, -⟩ := hk x hx p (hmem p hp)
      exact ⟨a, b⟩
    · rw [heq]
      refine pathProb_sum _ _ _ _ _ hin fun p hp => ?_
      obtain ⟨m, -, -, -, -, -, c⟩ := hk x hx p (hmem p hp)
      exact c
  exact mapM_forall2 _ _ _ key

/-- **C65, partial**: when the performance measure gives finite values, every node has the first model with the smallest loss among the models of its subtree, and every model is in the tree exactly once. The
loss of model `i` compares the prevalence that it estimates for its left group with the prevalence of its right group. -/
theorem C65_tree_order_partial [LinearOrder α] (perf : ℝ → ℝ → ℝ) (ops : FhOps M D) (X : List D) (y : List α) (hXy : X.length = y.length) (h3 : 3 ≤ (labelsOf y).length)
    (f : FhFit M α × QTree) (hf : fhtFit (fun p q => Fl.fin (perf p q)) ops X y = .ok f) (hpX : ∀ m ∈ f.1.estimators, ∀ x ∈ X, IsPrevList 2 (ops.proba m x)) :
    inorder f.2 = List.range ((labelsOf y).length - 1)
    ∧ BestTree (fun i => perf (1 - groupShare ((labelsOf y).take (i + 1)) y) ((X.map fun x => leftProb ops X y i x).sum / X.length)) f.2 0 ((labelsOf y).length - 1) := by
  unfold fhtFit at hf
  obtain ⟨g, hg, hf⟩ := bind_inv hf
  obtain ⟨t, ht, hf⟩ := bind_inv hf
  cases hf
  simp only at hpX ⊢
  obtain ⟨s, hs, hsc⟩ := fhtGenerate_ok (fun p q => Fl.fin (perf p q)) ops X y hXy h3 g hg hpX
  rw [hs] at ht
  cases ht
  refine ⟨by rw [qtBuild_inorder, List.range_eq_range'], ?_⟩
  rw [qtBuild_congr s (fun i => Fl.fin (perf (1 - groupShare ((labelsOf y).take (i + 1)) y) ((X.map fun x => leftProb ops X y i x).sum / X.length))) _ _ fun i _ hi => hsc i (by omega)]
  exact qtBuild_best _ _ _

/-! ## Non-vacuity and refutations -/

/-- Models that give probability `q i` to the left group of model `i`, for every example. -/
noncomputable def tableOps (q : ℕ → ℝ) : FhOps ℕ ℕ := ⟨fun i _ _ => i, fun m _ => [1 - q m, q m]⟩

theorem table_prev (q : ℕ → ℝ) (hq : ∀ i, 0 ≤ q i ∧ q i ≤ 1) (m x : ℕ) : IsPrevList 2 ((tableOps q).proba m x) := by
  refine ⟨rfl, ?_, by simp [tableOps]⟩
  intro v hv
  have : v = 1 - q m ∨ v = q m := by simpa [tableOps] using hv
  rcases this with rfl | rfl
  · linarith [(hq m).2]
  · exact (hq m).1

theorem table_left (q : ℕ → ℝ) (X : List ℕ) (y : List ℕ) (i x : ℕ) : leftProb (tableOps q) X y i x = q i := rfl

theorem four_labels : labelsOf [0, 1, 2, 2] = [0, 1, 2] := labelsOf_eq _ _ (by decide) (by decide)

/-- Left-group probabilities that decrease, as in the documentation. -/
noncomputable def decreasing : ℕ → ℝ := fun i => if i = 0 then 3 / 10 else 2 / 10

theorem decreasing_bounds (i : ℕ) : 0 ≤ decreasing i ∧ decreasing i ≤ 1 := by
  unfold decreasing
  split_ifs <;> norm_num

theorem table_fit (q : ℕ → ℝ) : ∃ f, fhFit (tableOps q) [10, 20, 30, 40] [0, 1, 2, 2] = .ok f :=
  ⟨_, fhFit_eq (tableOps q) [10, 20, 30, 40] [0, 1, 2, 2] rfl (by rw [four_labels]; decide)⟩

/-- The hypotheses of C62, C63, C99 and C100 hold for these models. -/
example := C100_models_partial (tableOps decreasing) [10, 20, 30, 40] [0, 1, 2, 2] rfl (by rw [four_labels]; decide)

example : ∃ f, ∃ out, fhPredict (tableOps decreasing) f [50, 60] = .ok out ∧ out.length = 2 ∧ ∀ c ∈ out, c ≠ 2 := by
  obtain ⟨f, hf⟩ := table_fit decreasing
  obtain ⟨out, h1, h2, h3⟩ := C99_last_class_refuted (tableOps decreasing) _ _ rfl (by rw [four_labels]; decide) f hf [50, 60] fun m _ x _ => table_prev _ decreasing_bounds m x
  refine ⟨f, out, h1, h2, fun c hc h => h3 c hc ?_⟩
  rw [four_labels, h]
  rfl

example := C62_ends_partial (tableOps decreasing) [10, 20, 30, 40] [0, 1, 2, 2] rfl (by rw [four_labels]; decide) (table_fit decreasing).choose (table_fit decreasing).choose_spec [50]
  fun m _ x _ => table_prev _ decreasing_bounds m x

example := C62_middle_refuted (tableOps decreasing) [10, 20, 30, 40] [0, 1, 2, 2] rfl (by rw [four_labels]; decide) (table_fit decreasing).choose (table_fit decreasing).choose_spec [50]
  fun m _ x _ => table_prev _ decreasing_bounds m x

example := C63_monotone_partial (tableOps decreasing) [10, 20, 30, 40] [0, 1, 2, 2] rfl (by rw [four_labels]; decide) (table_fit decreasing).choose (table_fit decreasing).choose_spec [50]
  fun m _ x _ => table_prev _ decreasing_bounds m x

example := C100_two_classes_refuted (tableOps decreasing) [10, 20] [0, 1] (by rw [labelsOf_eq [0, 1] [0, 1] (by decide) (by decide)]; rfl)

/-- **C63 is false**: the probabilities of the binary models are never corrected. With left-group probabilities 0.3 and 0.2 the first class gets 0.3, and not the average of the envelopes, 0.25. -/
theorem C63_envelopes_refuted : ∃ f, fhFit (tableOps decreasing) [10, 20, 30, 40] [0, 1, 2, 2] = .ok f
    ∧ ∃ row, fhmPredictProba (tableOps decreasing) f [50] = .ok [row] ∧ (row.take 1).sum = 3 / 10 ∧ ∀ v, EnvelopeMean [decreasing 0, decreasing 1] 0 v → v = 25 / 100 := by
  obtain ⟨f, hf⟩ := table_fit decreasing
  refine ⟨f, hf, _, fhmPredictProba_ok (tableOps decreasing) _ _ rfl (by rw [four_labels]; decide) f hf [50] fun m _ x _ => table_prev _ decreasing_bounds m x, ?_, ?_⟩
  · rw [four_labels]
    simp [List.range_succ, table_left, fhmRow, fhmLoop, decreasing]
  · rintro v ⟨u, l, hu, hl, rfl⟩
    have e1 : u = 3 / 10 := by
      obtain ⟨j, hj, h⟩ := hu.1
      have : j = 0 := by omega
      subst this
      cases h
      simp [decreasing]
    have e2 : l = 2 / 10 := by
      apply le_antisymm
      · exact hl.2 ⟨1, by omega, by simp [decreasing]⟩
      · obtain ⟨j, -, h⟩ := hl.1
        have := List.mem_of_getElem? h
        simp only [List.mem_cons, List.not_mem_nil, or_false] at this
        rcases this with rfl | rfl
        · norm_num [decreasing]
        · norm_num [decreasing]
    rw [e1, e2]
    norm_num

/-- Model 0 estimates exactly the prevalence of its left group, 1/4; model 1 estimates 4/10 instead of 1/2. -/
noncomputable def firstExact : ℕ → ℝ := fun i => if i = 0 then 1 / 4 else 4 / 10

theorem firstExact_bounds (i : ℕ) : 0 ≤ firstExact i ∧ firstExact i ≤ 1 := by
  unfold firstExact
  split_ifs <;> norm_num

theorem table_tree (q : ℕ → ℝ) (hq : ∀ i, 0 ≤ q i ∧ q i ≤ 1) (perf : ℝ → ℝ → Fl) : ∃ f, fhtFit perf (tableOps q) [10, 20, 30, 40] [0, 1, 2, 2] = .ok f := by
  obtain ⟨g, hg⟩ := table_fit q
  obtain ⟨s, hs, -⟩ := fhtGenerate_ok perf (tableOps q) _ _ rfl (by rw [four_labels]; decide) g hg fun m _ x _ => table_prev _ hq m x
  exact ⟨_, (bind_ok hg _).trans ((bind_ok hs _).trans rfl)⟩

/-- **C65 is false**: the labels of the left group are 1, but the prevalence of label 0 is used as that of the left group. Here model 0 has no error in the prevalence of its left group, but model 1, with a
greater error, is the root. -/
theorem C65_wrong_group_refuted : ∃ f, fhtFit (fun p q => Fl.fin |p - q|) (tableOps firstExact) [10, 20, 30, 40] [0, 1, 2, 2] = .ok f
    ∧ ¬BestTree (fun i => |groupShare ((labelsOf [0, 1, 2, 2]).take (i + 1)) [0, 1, 2, 2] - (([10, 20, 30, 40] : List ℕ).map fun x => leftProb (tableOps firstExact) [10, 20, 30, 40] [0, 1, 2, 2] i x).sum / 4|) f.2 0 2 := by
  obtain ⟨f, hf⟩ := table_tree firstExact firstExact_bounds fun p q => Fl.fin |p - q|
  refine ⟨f, hf, fun h => ?_⟩
  obtain ⟨-, hb⟩ := C65_tree_order_partial (fun p q => |p - q|) (tableOps firstExact) _ _ rfl (by rw [four_labels]; decide) f hf fun m _ x _ => table_prev _ firstExact_bounds m x
  rw [four_labels] at hb h
  generalize f.2 = t at hb h
  match t with
  | .leaf => simp [BestTree] at h
  | .node p l r =>
    obtain ⟨-, hp, h1, -⟩ := h
    obtain ⟨-, -, h2, -⟩ := hb
    have a := h1 0 le_rfl (by norm_num)
    have b := h2 1 (by norm_num) (by norm_num)
    have : p = 0 ∨ p = 1 := by omega
    rcases this with rfl | rfl
    · norm_num [groupShare, table_left, firstExact, abs_of_nonneg] at b
    · norm_num [groupShare, table_left, firstExact, abs_of_nonneg] at a

example := C64_tree_probabilities (fun p q => binaryKld p q (1 / 1000)) (tableOps firstExact) [10, 20, 30, 40] [0, 1, 2, 2] rfl (by rw [four_labels]; decide)
  (table_tree firstExact firstExact_bounds _).choose (table_tree firstExact firstExact_bounds _).choose_spec (fun m _ x _ => table_prev _ firstExact_bounds m x) [50] fun m _ x _ => table_prev _ firstExact_bounds m x

end Verif.Props
