import Verif.Proof.Decomp
import Verif.Props.Baselines

/-!
# C51 - C53, C69, C88: the decompositions into binary problems
-/

namespace Verif.Props

open Verif.Model Verif.Spec Verif.Proof

variable {α D ε σ : Type}

/-! ## C69, C88: binarised labels -/

theorem sum_indicator [DecidableEq α] (neg pos : ℤ) (a : α) (l : List α) (hl : l.Nodup) :
    (l.map fun c => if a = c then pos else neg).sum = if a ∈ l then pos + ((l.length : ℤ) - 1) * neg else (l.length : ℤ) * neg := by
  induction l with
  | nil => simp
  | cons c l ih =>
    rw [List.nodup_cons] at hl
    rw [List.map_cons, List.sum_cons, ih hl.2]
    by_cases h : a = c
    · subst h
      simp only [if_pos, if_neg hl.1, List.mem_cons, true_or, List.length_cons]
      push_cast
      ring
    · by_cases h' : a ∈ l
      · simp only [if_neg h, if_pos h', List.mem_cons, h', or_true, if_true, List.length_cons]
        push_cast
        ring
      · simp only [if_neg h, if_neg h', List.mem_cons, h, h', or_self, if_false, List.length_cons]
        push_cast
        ring

theorem sumFirst_eq [DecidableEq α] (neg pos : ℤ) (classes : List α) (hc : classes.Nodup) (y : List α) (i : ℕ) :
    sumFirst y.length (classes.map fun c => y.map fun a => if a = c then pos else neg) i
      = y.map fun a => if a ∈ classes.take (i + 1) then pos + (((classes.take (i + 1)).length : ℤ) - 1) * neg else ((classes.take (i + 1)).length : ℤ) * neg := by
  unfold sumFirst
  apply List.ext_getElem
  · simp
  · intro r h1 h2
    rw [List.getElem_map, List.getElem_range, List.getElem_map, ← sum_indicator neg pos _ _ (hc.sublist (List.take_sublist _ _)), ← List.map_take, List.map_map]
    simp only [List.length_map] at h2
    congr 1
    apply List.map_congr_left
    intro c _
    simp [List.getD_eq_getElem?_getD, h2]

theorem fhTransform_eq [DecidableEq α] (neg pos : ℤ) (classes : List α) (hc : classes.Nodup) (h3 : 3 ≤ classes.length) (y : List α) :
    fhTransform neg pos classes y = .ok ((List.range classes.length).map fun i =>
      y.map fun a => if a ∈ classes.take (i + 1) then pos + (i : ℤ) * neg else ((i : ℤ) + 1) * neg) := by
  unfold fhTransform
  have hlb : lbTransform neg pos classes y = classes.map fun c => y.map fun a => if a = c then pos else neg := by
    unfold lbTransform
    rw [if_neg (by omega), if_neg (by omega)]
  simp only [hlb]
  apply mapM_ok
  intro i hi
  have hi' := List.mem_range.1 hi
  rw [if_pos (by rw [List.length_map]; exact hi'), sumFirst_eq neg pos classes hc]
  have hl : (classes.take (i + 1)).length = i + 1 := by rw [List.length_take]; omega
  rw [hl]
  congr 1
  apply List.map_congr_left
  intro a _
  push_cast
  ring_nf

/-- **C69**: with the default labels and three or more classes, `transform` succeeds and column `i` marks with 1 exactly the examples whose class is one of the first `i + 1` classes. -/
theorem C69_fh_binarizer [LinearOrder α] (yTrain y : List α) (h3 : 3 ≤ (labelsOf yTrain).length) :
    ∃ m, fhTransform 0 1 (labelsOf yTrain) y = .ok m ∧ m.length = (labelsOf yTrain).length
      ∧ ∀ i, i < (labelsOf yTrain).length → m[i]? = some (groupVsRest ((labelsOf yTrain).take (i + 1)) y) := by
  refine ⟨_, fhTransform_eq 0 1 _ (labelsOf_nodup yTrain) h3 y, by simp, fun i hi => ?_⟩
  rw [List.getElem?_map, List.getElem?_range hi]
  simp [groupVsRest]

/-- **C69**: along a row the entries are nondecreasing, and the last column is all ones when the labels are known. -/
theorem C69_fh_binarizer_rows [LinearOrder α] (yTrain y : List α) (h3 : 3 ≤ (labelsOf yTrain).length) (m : List (List ℤ)) (hm : fhTransform 0 1 (labelsOf yTrain) y = .ok m) :
    (∀ (i j : ℕ) (ci cj : List ℤ) (r : ℕ) (a b : ℤ), i ≤ j → m[i]? = some ci → m[j]? = some cj → ci[r]? = some a → cj[r]? = some b → a ≤ b)
    ∧ ((∀ a ∈ y, a ∈ yTrain) → m.getLast? = some (y.map fun _ => 1)) := by
  obtain ⟨m', e, hl, hcol⟩ := C69_fh_binarizer yTrain y h3
  obtain rfl : m' = m := by rw [e] at hm; exact Except.ok.inj hm
  refine ⟨fun i j ci cj r a b hij hi hj ha hb => ?_, fun hk => ?_⟩
  · have hi' : i < (labelsOf yTrain).length := by rw [← hl]; exact (List.getElem?_eq_some_iff.1 hi).1
    have hj' : j < (labelsOf yTrain).length := by rw [← hl]; exact (List.getElem?_eq_some_iff.1 hj).1
    rw [hcol i hi', Option.some.injEq] at hi
    rw [hcol j hj', Option.some.injEq] at hj
    subst hi hj
    unfold groupVsRest at ha hb
    rw [List.getElem?_map, Option.map_eq_some_iff] at ha hb
    obtain ⟨x, hx, rfl⟩ := ha
    obtain ⟨x', hx', rfl⟩ := hb
    rw [hx] at hx'
    obtain rfl := Option.some.inj hx'
    have hsub : x ∈ (labelsOf yTrain).take (i + 1) → x ∈ (labelsOf yTrain).take (j + 1) := fun h => List.take_subset_take_left _ (by omega) h
    split_ifs <;> first | decide | (exfalso; tauto)
  · rw [List.getLast?_eq_getElem?, hl, hcol _ (by omega)]
    congr 1
    unfold groupVsRest
    apply List.map_congr_left
    intro a ha
    rw [if_pos]
    rw [List.take_of_length_le (by omega)]
    exact (mem_labelsOf yTrain a).2 (hk a ha)

/-- With two classes `transform` raises IndexError. -/
theorem C69_two_classes_error [LinearOrder α] (yTrain y : List α) (h2 : (labelsOf yTrain).length = 2) : fhTransform 0 1 (labelsOf yTrain) y = .error .indexError := by
  unfold fhTransform
  have hlb : (lbTransform 0 1 (labelsOf yTrain) y).length = 1 := by
    unfold lbTransform
    rw [if_neg (by omega), if_pos h2]
    rfl
  simp only [h2, hlb]
  rfl

/-- **C88** is false: whatever `neg_label ≠ 0` and `pos_label`, the examples of the first class get in the second column a value that is not `pos_label`. -/
theorem C88_other_labels_refuted [LinearOrder α] (neg pos : ℤ) (hneg : neg ≠ 0) (yTrain y : List α) (h3 : 3 ≤ (labelsOf yTrain).length) (r : ℕ)
    (hr : y[r]? = some ((labelsOf yTrain)[0]'(by omega))) :
    ∃ m c v, fhTransform neg pos (labelsOf yTrain) y = .ok m ∧ m[1]? = some c ∧ c[r]? = some v ∧ v ≠ pos := by
  refine ⟨_, _, pos + neg, fhTransform_eq neg pos _ (labelsOf_nodup yTrain) h3 y, by rw [List.getElem?_map, List.getElem?_range (by omega)]; rfl, ?_, by omega⟩
  rw [List.getElem?_map, hr]
  have : (labelsOf yTrain)[0]'(by omega) ∈ (labelsOf yTrain).take (1 + 1) := by
    rw [List.mem_take_iff_getElem]
    exact ⟨0, by omega, rfl⟩
  simp only [Option.map_some, if_pos this]
  norm_num

/-- **C88** holds when `neg_label` is 0, for every `pos_label`. -/
theorem C88_zero_neg_label_partial [LinearOrder α] (pos : ℤ) (yTrain y : List α) (h3 : 3 ≤ (labelsOf yTrain).length) :
    fhTransform 0 pos (labelsOf yTrain) y = .ok ((List.range (labelsOf yTrain).length).map fun i => y.map fun a => if a ∈ (labelsOf yTrain).take (i + 1) then pos else 0) := by
  rw [fhTransform_eq 0 pos _ (labelsOf_nodup yTrain) h3 y]
  simp

/-- Three classes. -/
example : 3 ≤ (labelsOf ([3, 1, 2, 1] : List ℕ)).length := by
  rw [labelsOf_eq _ [1, 2, 3] (by decide) (by decide)]
  decide

/-! ## The copies of the base quantifier -/

/-- What the `i`-th copy of the base quantifier is fitted on: the `i`-th binary estimators, the given binary labels and the two columns made from the `i`-th column of the predictions. -/
noncomputable def copyFit (Q : BinQuant D ε σ) (estTrain estTest : Option (List ε)) (X : List D) (preds : Option (List (List ℝ))) (i : ℕ) (yi : List ℤ) : Except Err σ :=
  if Q.usesClassifiers then Q.fit (estTrain.bind (·[i]?)) (estTest.bind (·[i]?)) X yi (preds.map fun m => twoColumns (m.getD i []))
  else Q.fit none none X yi none

/-- What the `i`-th copy is asked. -/
noncomputable def copyPredict (Q : BinQuant D ε σ) (s : σ) (X : List D) (preds : Option (List (List ℝ))) (i : ℕ) : Except Err (List Fl) :=
  if Q.usesClassifiers then Q.predict s X (preds.map fun m => twoColumns (m.getD i [])) else Q.predict s X none

/-- There is something for each of the `k` binary problems. -/
def Enough {β : Type} (k : ℕ) (o : Option (List β)) : Prop := ∀ l, o = some l → k ≤ l.length

theorem estAt_eq (ests : Option (List ε)) (k i : ℕ) (h : Enough k ests) (hi : i < k) : estAt ests i = .ok (ests.bind (·[i]?)) := by
  unfold estAt
  cases ests with
  | none => rfl
  | some l =>
    have := h l rfl
    simp only [item, List.getElem?_eq_getElem (show i < l.length by omega), Except.map, Option.bind_some]

theorem binPreds_eq (preds : Option (List (List ℝ))) (k i : ℕ) (h : Enough k preds) (hi : i < k) :
    binPreds preds i = .ok (preds.map fun m => twoColumns (m.getD i [])) := by
  unfold binPreds
  cases preds with
  | none => rfl
  | some l =>
    have := h l rfl
    simp only [item, List.getElem?_eq_getElem (show i < l.length by omega), Except.map, Option.map_some, List.getD_eq_getElem?_getD, Option.getD_some, twoColumns]

theorem fitCopy_eq (Q : BinQuant D ε σ) (estTrain estTest : Option (List ε)) (X : List D) (yBin : List (List ℤ)) (preds : Option (List (List ℝ))) (k i : ℕ) (hi : i < k)
    (h1 : Enough k estTrain) (h2 : Enough k estTest) (h3 : Enough k preds) (yi : List ℤ) (hy : yBin[i]? = some yi) :
    fitCopy Q estTrain estTest X yBin preds i = copyFit Q estTrain estTest X preds i yi := by
  have hc : item yBin i = .ok yi := by unfold item; rw [hy]
  unfold fitCopy copyFit
  split_ifs
  · rw [estAt_eq estTrain k i h1 hi, estAt_eq estTest k i h2 hi, binPreds_eq preds k i h3 hi, hc]
    rfl
  · rw [hc]
    rfl

theorem askCopy_eq (Q : BinQuant D ε σ) (qs : List σ) (X : List D) (preds : Option (List (List ℝ))) (k i : ℕ) (hi : i < k) (h : Enough k preds) (s : σ) (hs : qs[i]? = some s)
    (a b : Fl) (hp : copyPredict Q s X preds i = .ok [a, b]) : askCopy Q qs X preds i = .ok b := by
  have h1 : item qs i = .ok s := by unfold item; rw [hs]
  have h2 : ∃ p, askPreds Q preds i = .ok p ∧ Q.predict s X p = .ok [a, b] := by
    unfold copyPredict at hp
    unfold askPreds
    split_ifs at hp ⊢
    · exact ⟨_, binPreds_eq preds k i h hi, hp⟩
    · exact ⟨_, rfl, hp⟩
  obtain ⟨p, h2, h3⟩ := h2
  unfold askCopy
  rw [h2]
  show (item qs i >>= _) = _
  rw [h1]
  show (Q.predict s X p >>= _) = _
  rw [h3]
  rfl

/-! ## C51 -/

/-- **C51**: with three or more classes, if the `i`-th copy is fitted on the labels "class `i` against the rest" and answers `[_, q i]` with `q i ≥ 0`, and some `q i` is positive, the answer is
`q / sum q`, which is a valid prevalence vector. -/
theorem C51_ovr_partial [LinearOrder α] (Q : BinQuant D ε σ) (estTrain estTest : Option (List ε)) (X X' : List D) (y : List α) (preds preds' : Option (List (List ℝ)))
    (h3 : 3 ≤ (labelsOf y).length) (hgiven : Q.usesClassifiers = true → Q.needsTrain = true → estTrain.isSome ∨ preds.isSome) (h1 : Enough (labelsOf y).length estTrain)
    (h2 : Enough (labelsOf y).length estTest) (hp : Enough (labelsOf y).length preds) (hp' : Enough (labelsOf y).length preds')
    (s : Fin (labelsOf y).length → σ) (hs : ∀ i : Fin (labelsOf y).length, copyFit Q estTrain estTest X preds i (oneVsRest (labelsOf y)[i] y) = .ok (s i))
    (r : Fin (labelsOf y).length → Fl) (q : Fin (labelsOf y).length → ℝ) (hq : ∀ i, copyPredict Q (s i) X' preds' i = .ok [r i, Fl.fin (q i)])
    (h0 : ∀ i, 0 ≤ q i) (hpos : ∃ i, 0 < q i) :
    ∃ f, ovrFit Q estTrain estTest X y preds = .ok f ∧ f.1 = labelsOf y
      ∧ ovrPredict Q f X' preds' = .ok (List.ofFn fun i => Fl.fin (q i / ∑ j, q j)) ∧ IsPrev (fun i => q i / ∑ j, q j) := by
  have hlb : lbTransform 0 1 (labelsOf y) y = (labelsOf y).map fun c => oneVsRest c y := by
    unfold lbTransform oneVsRest
    rw [if_neg (by omega), if_neg (by omega)]
  have hfit : ovrFit Q estTrain estTest X y preds = .ok (labelsOf y, List.ofFn s) := by
    unfold ovrFit
    simp only [npUnique_eq_labelsOf]
    rw [if_neg]
    · rw [mapM_range_ok _ _ s]
      · rfl
      · intro i
        rw [fitCopy_eq Q estTrain estTest X _ preds (labelsOf y).length i i.2 h1 h2 hp (oneVsRest (labelsOf y)[i] y)]
        · exact hs i
        · rw [hlb, List.getElem?_map, List.getElem?_eq_getElem i.2]
          rfl
    · simp only [Bool.and_eq_true, Option.isNone_iff_eq_none, not_and]
      rintro ⟨⟨ha, hb⟩, hc⟩ hd
      rcases hgiven ha hb with h | h
      · rw [hc] at h; cases h
      · rw [hd] at h; cases h
  have hsum : 0 < ∑ j, q j := by
    obtain ⟨i, hi⟩ := hpos
    exact Finset.sum_pos' (fun j _ => h0 j) ⟨i, Finset.mem_univ i, hi⟩
  refine ⟨_, hfit, rfl, ?_, fun i => div_nonneg (h0 i) hsum.le, by rw [← Finset.sum_div, div_self hsum.ne']⟩
  unfold ovrPredict
  have hask : ∀ i : Fin (labelsOf y).length, askCopy Q (List.ofFn s) X' preds' i = .ok (Fl.fin (q i)) := by
    intro i
    refine askCopy_eq Q _ X' preds' (labelsOf y).length i i.2 hp' (s i) ?_ (r i) _ (hq i)
    rw [List.getElem?_ofFn, dif_pos i.2]
  simp only
  rw [mapM_range_ok _ _ _ hask]
  show Except.ok (ovrNormalize _) = _
  unfold ovrNormalize
  have hl : (List.ofFn fun i => Fl.fin (q i)).sum = Fl.fin (∑ j, q j) := by rw [List.sum_ofFn, Fl.sum_fin]
  rw [hl, Fl.zero_def, if_pos ((Fl.fin_lt_fin _ _).2 hsum), List.map_ofFn]
  congr 2
  funext i
  exact Fl.fin_div _ hsum.ne'

/-- **C51**: binary answers that already sum to 1 are returned unchanged. -/
theorem C51_ovr_faithful [LinearOrder α] (Q : BinQuant D ε σ) (estTrain estTest : Option (List ε)) (X X' : List D) (y : List α) (preds preds' : Option (List (List ℝ)))
    (h3 : 3 ≤ (labelsOf y).length) (hgiven : Q.usesClassifiers = true → Q.needsTrain = true → estTrain.isSome ∨ preds.isSome) (h1 : Enough (labelsOf y).length estTrain)
    (h2 : Enough (labelsOf y).length estTest) (hp : Enough (labelsOf y).length preds) (hp' : Enough (labelsOf y).length preds')
    (s : Fin (labelsOf y).length → σ) (hs : ∀ i : Fin (labelsOf y).length, copyFit Q estTrain estTest X preds i (oneVsRest (labelsOf y)[i] y) = .ok (s i))
    (r : Fin (labelsOf y).length → Fl) (q : Fin (labelsOf y).length → ℝ) (hq : ∀ i, copyPredict Q (s i) X' preds' i = .ok [r i, Fl.fin (q i)]) (hprev : IsPrev q) :
    ∃ f, ovrFit Q estTrain estTest X y preds = .ok f ∧ ovrPredict Q f X' preds' = .ok (List.ofFn fun i => Fl.fin (q i)) := by
  have hpos : ∃ i, 0 < q i := by
    by_contra hcon
    push Not at hcon
    have : ∑ i, q i ≤ 0 := Finset.sum_nonpos fun i _ => hcon i
    rw [hprev.2] at this
    linarith
  obtain ⟨f, e1, -, e3, -⟩ := C51_ovr_partial Q estTrain estTest X X' y preds preds' h3 hgiven h1 h2 hp hp' s hs r q hq hprev.1 hpos
  refine ⟨f, e1, ?_⟩
  rw [e3, hprev.2]
  simp

/-- **C51** fails for two classes: whatever the base quantifier and the data, `fit` does not succeed. -/
theorem C51_two_classes_refuted [LinearOrder α] (Q : BinQuant D ε σ) (estTrain estTest : Option (List ε)) (X : List D) (y : List α) (preds : Option (List (List ℝ)))
    (h2 : (labelsOf y).length = 2) (f : List α × List σ) : ovrFit Q estTrain estTest X y preds ≠ .ok f := by
  intro h
  unfold ovrFit at h
  simp only [npUnique_eq_labelsOf] at h
  split_ifs at h
  have hm : ∃ r, (List.range (labelsOf y).length).mapM (fun i => fitCopy Q estTrain estTest X (lbTransform 0 1 (labelsOf y) y) preds i) = .ok r := by
    cases hm : (List.range (labelsOf y).length).mapM (fun i => fitCopy Q estTrain estTest X (lbTransform 0 1 (labelsOf y) y) preds i) with
    | error e => rw [hm] at h; cases h
    | ok r => exact ⟨r, rfl⟩
  obtain ⟨r, hm⟩ := hm
  obtain ⟨b, hb⟩ := mapM_inv _ _ r hm 1 (by rw [h2]; simp)
  have hc : item (lbTransform 0 1 (labelsOf y) y) 1 = .error .indexError := by
    unfold lbTransform
    rw [if_neg (by omega), if_pos h2]
    rfl
  unfold fitCopy at hb
  rw [hc] at hb
  split_ifs at hb
  · cases h1 : estAt estTrain 1 with
    | error e => rw [h1] at hb; cases hb
    | ok e1 =>
      rw [h1] at hb
      cases h2 : estAt estTest 1 with
      | error e => rw [h2] at hb; cases hb
      | ok e2 =>
        rw [h2] at hb
        cases h3 : binPreds preds 1 with
        | error e => rw [h3] at hb; cases hb
        | ok p => rw [h3] at hb; cases hb
  · cases hb

/-- A base quantifier that returns the frequency of the positive label it was fitted on. -/
noncomputable def toyQuant : BinQuant Unit Unit ℝ where
  usesClassifiers := false
  needsTrain := false
  fit _ _ _ y _ := .ok ((y.count 1 : ℝ) / y.length)
  predict s _ _ := .ok [Fl.fin (1 - s), Fl.fin s]

/-- The hypotheses of C51 are met, with answers 1/2, 1/4, 1/4. -/
example : ∃ (s : Fin 3 → ℝ), ∀ i : Fin 3, copyFit toyQuant none none [] none i (oneVsRest ([1, 2, 3] : List ℕ)[i] [3, 1, 2, 1]) = .ok (s i)
    ∧ copyPredict toyQuant (s i) [] none i = .ok [Fl.fin (1 - s i), Fl.fin (s i)] ∧ 0 < s i := by
  refine ⟨![2/4, 1/4, 1/4], fun i => ?_⟩
  fin_cases i <;> refine ⟨?_, rfl, ?_⟩ <;> norm_num [copyFit, toyQuant, oneVsRest, copyPredict]

/-! ## C53 -/

/-- **C53**: the corrected prevalence of each group is the mean of the greatest value up to it and the smallest value from it on. -/
theorem C53_correction (x : List ℝ) : ∃ c : List ℝ, correctAsc (x.map Fl.fin) = c.map Fl.fin ∧ c.length = x.length ∧ ∀ i v, c[i]? = some v → EnvelopeMean x i v :=
  correctAsc_fin x

/-- **C53**: the corrected prevalences are nondecreasing, lie between the bounds of the input, are the input if it was already nondecreasing, and a second correction changes nothing. -/
theorem C53_correction_monotone (x : List ℝ) : ∃ c : List ℝ, correctAsc (x.map Fl.fin) = c.map Fl.fin
    ∧ c.Pairwise (· ≤ ·) ∧ (∀ a b, (∀ t ∈ x, a ≤ t) → (∀ t ∈ x, t ≤ b) → ∀ v ∈ c, a ≤ v ∧ v ≤ b)
    ∧ (x.Pairwise (· ≤ ·) → c = x) ∧ correctAsc (c.map Fl.fin) = c.map Fl.fin := by
  obtain ⟨c, e, hl, h⟩ := correctAsc_fin x
  have hasc : isAsc c := (isAsc_iff c).2 fun i j a b hij ha hb => envelope_mono hij (h i a ha) (h j b hb)
  refine ⟨c, e, ?_, ?_, ?_, ?_⟩
  · rw [List.pairwise_iff_getElem]
    intro i j hi hj hij
    exact (isAsc_iff c).1 hasc i j _ _ hij.le (List.getElem?_eq_getElem hi) (List.getElem?_eq_getElem hj)
  · intro a b ha hb v hv
    obtain ⟨i, hi⟩ := List.getElem?_of_mem hv
    exact envelope_bounds (h i v hi) ha hb
  · intro hx
    have hx' : isAsc x := by
      rw [isAsc_iff]
      intro i j a b hij ha hb
      rcases hij.eq_or_lt with rfl | hlt
      · rw [ha] at hb; exact (Option.some.inj hb).le
      · obtain ⟨hi, rfl⟩ := List.getElem?_eq_some_iff.1 ha
        obtain ⟨hj, rfl⟩ := List.getElem?_eq_some_iff.1 hb
        exact List.pairwise_iff_getElem.1 hx i j hi hj hlt
    unfold correctAsc at e
    rw [if_pos ((isAsc_fin x).2 hx')] at e
    exact (List.map_injective_iff.2 (fun a b hab => (Fl.fin_inj a b).1 hab) e).symm
  · unfold correctAsc
    rw [if_pos ((isAsc_fin c).2 hasc)]

/-- The example in the documentation: 0.3, 0.2, 0.6 becomes 0.25, 0.25, 0.6. -/
example : EnvelopeMean [3/10, 2/10, 6/10] 1 (1/4) := by
  refine ⟨3/10, 2/10, ⟨⟨0, by omega, rfl⟩, ?_⟩, ⟨⟨1, le_rfl, rfl⟩, ?_⟩, by norm_num⟩
  · rintro a ⟨j, hj, ha⟩
    rcases j with _ | _ | j
    · simp at ha; rw [← ha]
    · simp at ha; rw [← ha]; norm_num
    · omega
  · rintro a ⟨j, hj, ha⟩
    rcases j with _ | _ | _ | j
    · omega
    · simp at ha; rw [← ha]
    · simp at ha; rw [← ha]; norm_num
    · simp at ha

/-! ## C52 -/

/-- **C52**: with three or more classes, if the `i`-th copy is fitted on the labels "one of the first `i + 1` classes against the rest" and answers `[_, q i]` with `q i` in [0,1], the answer is a
valid prevalence vector and its `i`-th cumulative sum is the corrected prevalence of the `i`-th group. -/
theorem C52_fh_partial [LinearOrder α] (Q : BinQuant D ε σ) (estTrain estTest : Option (List ε)) (X X' : List D) (y : List α) (preds preds' : Option (List (List ℝ)))
    (h3 : 3 ≤ (labelsOf y).length) (hgiven : Q.usesClassifiers = true → Q.needsTrain = true → estTrain.isSome ∨ preds.isSome) (h1 : Enough ((labelsOf y).length - 1) estTrain)
    (h2 : Enough ((labelsOf y).length - 1) estTest) (hp : Enough ((labelsOf y).length - 1) preds) (hp' : Enough ((labelsOf y).length - 1) preds')
    (s : Fin ((labelsOf y).length - 1) → σ) (hs : ∀ i : Fin ((labelsOf y).length - 1), copyFit Q estTrain estTest X preds i (groupVsRest ((labelsOf y).take (i + 1)) y) = .ok (s i))
    (r : Fin ((labelsOf y).length - 1) → Fl) (q : Fin ((labelsOf y).length - 1) → ℝ) (hq : ∀ i, copyPredict Q (s i) X' preds' i = .ok [r i, Fl.fin (q i)])
    (h0 : ∀ i, 0 ≤ q i) (hle : ∀ i, q i ≤ 1) :
    ∃ f p, fhqFit Q estTrain estTest X y preds = .ok f ∧ f.1 = labelsOf y ∧ fhqPredict Q f X' preds' = .ok (List.ofFn fun i => Fl.fin (p i))
      ∧ IsPrev (p : Fin (labelsOf y).length → ℝ) ∧ ∀ i : Fin ((labelsOf y).length - 1), EnvelopeMean (List.ofFn q) i (((List.ofFn p).take (i + 1)).sum) := by
  obtain ⟨m, hm, hml, hmc⟩ := C69_fh_binarizer y y h3
  have hfit : fhqFit Q estTrain estTest X y preds = .ok (labelsOf y, List.ofFn s) := by
    unfold fhqFit
    simp only [npUnique_eq_labelsOf]
    rw [hm]
    show (if _ then _ else _) = _
    rw [if_neg]
    · rw [mapM_range_ok _ _ s]
      · rfl
      · intro i
        rw [fitCopy_eq Q estTrain estTest X _ preds ((labelsOf y).length - 1) i i.2 h1 h2 hp (groupVsRest ((labelsOf y).take (i + 1)) y)]
        · exact hs i
        · exact hmc i (by omega)
    · simp only [Bool.and_eq_true, Option.isNone_iff_eq_none, not_and]
      rintro ⟨⟨ha, hb⟩, hc⟩ hd
      rcases hgiven ha hb with h | h
      · rw [hc] at h; cases h
      · rw [hd] at h; cases h
  have hask : ∀ i : Fin ((labelsOf y).length - 1), askCopy Q (List.ofFn s) X' preds' i = .ok (Fl.fin (q i)) := by
    intro i
    refine askCopy_eq Q _ X' preds' ((labelsOf y).length - 1) i i.2 hp' (s i) ?_ (r i) _ (hq i)
    rw [List.getElem?_ofFn, dif_pos i.2]
  obtain ⟨c, e, hcl, henv⟩ := correctAsc_fin (List.ofFn q)
  have hb : ∀ v ∈ c, 0 ≤ v ∧ v ≤ 1 := by
    intro v hv
    obtain ⟨i, hi⟩ := List.getElem?_of_mem hv
    refine envelope_bounds (henv i v hi) ?_ ?_ <;> intro t ht <;> obtain ⟨j, rfl⟩ := (List.mem_ofFn' _ _).1 ht
    · exact h0 j
    · exact hle j
  have hcl' : c.length = (labelsOf y).length - 1 := by rw [hcl, List.length_ofFn]
  obtain ⟨p, ep, hpl, hp0, hp1, hpc⟩ := fhqClasses_fin c (by intro h; rw [h] at hcl'; simp at hcl'; omega) (fun v hv => (hb v hv).1) (fun v hv => (hb v hv).2)
    ((isAsc_iff c).2 fun i j a b hij ha hb => envelope_mono hij (henv i a ha) (henv j b hb))
  have hn : p.length = (labelsOf y).length := by omega
  have hof : List.ofFn (fun i : Fin (labelsOf y).length => p[i]'(by rw [hn]; exact i.2)) = p := by
    apply List.ext_getElem
    · simp [hn]
    · intro i _ _
      simp
  have hof' : List.ofFn (fun i : Fin (labelsOf y).length => Fl.fin (p[i]'(by rw [hn]; exact i.2))) = p.map Fl.fin := by
    conv_rhs => rw [← hof]
    rw [List.map_ofFn]
    rfl
  refine ⟨_, fun i => p[i]'(by rw [hn]; exact i.2), hfit, rfl, ?_, ⟨fun i => hp0 _ (List.getElem_mem _), ?_⟩, ?_⟩
  · unfold fhqPredict
    simp only
    rw [mapM_range_ok _ _ _ hask]
    show fhqClasses (correctAsc _) = _
    have : (List.ofFn fun i => Fl.fin (q i)) = (List.ofFn q).map Fl.fin := by rw [List.map_ofFn]; rfl
    rw [this, e, ep, hof']
  · rw [← List.sum_ofFn, hof, hp1]
  · intro i
    have hi : (i : ℕ) < c.length := by rw [hcl']; exact i.2
    have := hpc i c[i] (List.getElem?_eq_getElem hi)
    rw [hof, this]
    exact henv i _ (List.getElem?_eq_getElem hi)

/-- **C52**: consistent binary answers are kept: the cumulative sums of the answer are the answers of the copies. -/
theorem C52_fh_faithful {n : ℕ} (q : Fin n → ℝ) (hq : Monotone q) (i : Fin n) (v : ℝ) (h : EnvelopeMean (List.ofFn q) i v) : v = q i := by
  obtain ⟨u, l, ⟨⟨j, hj, hju⟩, hu⟩, ⟨⟨k, hk, hkl⟩, hl⟩, rfl⟩ := h
  have hi : (List.ofFn q)[(i : ℕ)]? = some (q i) := by rw [List.getElem?_ofFn, dif_pos i.2]
  have h1 := hu ⟨i, le_rfl, hi⟩
  have h2 := hl ⟨i, le_rfl, hi⟩
  rw [List.getElem?_ofFn] at hju hkl
  split_ifs at hju hkl with hjn hkn
  rw [Option.some.injEq] at hju hkl
  have h3 : q ⟨j, hjn⟩ ≤ q i := hq (by exact hj)
  have h4 : q i ≤ q ⟨k, hkn⟩ := hq (by exact hk)
  rw [hju] at h3
  rw [hkl] at h4
  linarith

/-- **C52** fails for two classes: `fit` raises IndexError. -/
theorem C52_two_classes_refuted [LinearOrder α] (Q : BinQuant D ε σ) (estTrain estTest : Option (List ε)) (X : List D) (y : List α) (preds : Option (List (List ℝ)))
    (h2 : (labelsOf y).length = 2) : fhqFit Q estTrain estTest X y preds = .error .indexError := by
  unfold fhqFit
  simp only [npUnique_eq_labelsOf]
  rw [C69_two_classes_error y y h2]
  rfl

/-- The hypotheses of C52 are met: groups {1} and {1, 2} of the labels 3, 1, 2, 1 have prevalences 1/2 and 3/4. -/
example : ∃ (s : Fin 2 → ℝ), ∀ i : Fin 2, copyFit toyQuant none none [] none i (groupVsRest (([1, 2, 3] : List ℕ).take (i + 1)) [3, 1, 2, 1]) = .ok (s i)
    ∧ copyPredict toyQuant (s i) [] none i = .ok [Fl.fin (1 - s i), Fl.fin (s i)] ∧ 0 ≤ s i ∧ s i ≤ 1 := by
  refine ⟨![2/4, 3/4], fun i => ?_⟩
  fin_cases i <;> refine ⟨?_, rfl, ?_⟩ <;> norm_num [copyFit, toyQuant, groupVsRest, copyPredict]

end Verif.Props
