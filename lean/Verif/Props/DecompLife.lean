import Verif.Model.DecompLife
import Verif.Props.Decomp

/-!
# Histories of calls of the decompositions (C161)
-/

namespace Verif.Props

open Verif.Model Verif.Spec Verif.Proof

section
variable {α D ε σ : Type}

/-- The loop of `fit` and the `mapM` of `Verif.Model.Decomp`. -/
theorem fitSlots_ok (f : ℕ → Except Err σ) : ∀ (k i : ℕ), (fitSlots f i k).2 = none → ∃ qs : List σ, (List.range' i k).mapM f = .ok qs ∧ (fitSlots f i k).1 = qs.map Slot.fitted := by
  intro k
  induction k with
  | zero => intro i _; exact ⟨[], rfl, rfl⟩
  | succ k ih =>
    intro i h
    cases hf : f i with
    | error e => simp [fitSlots, hf] at h
    | ok s =>
      simp only [fitSlots, hf] at h
      obtain ⟨qs, h1, h2⟩ := ih (i + 1) h
      refine ⟨s :: qs, ?_, ?_⟩
      · rw [List.range'_succ, List.mapM_cons, hf]
        show ((List.range' (i + 1) k).mapM f >>= _) = _
        rw [h1]
        rfl
      · simp [fitSlots, hf, h2]

theorem fitSlots_of_ok (f : ℕ → Except Err σ) : ∀ (k i : ℕ) (qs : List σ), (List.range' i k).mapM f = .ok qs → fitSlots f i k = (qs.map Slot.fitted, none) := by
  intro k
  induction k with
  | zero => intro i qs h; cases h; rfl
  | succ k ih =>
    intro i qs h
    rw [List.range'_succ, List.mapM_cons] at h
    cases hf : f i with
    | error e => rw [hf] at h; cases h
    | ok s =>
      rw [hf] at h
      change ((List.range' (i + 1) k).mapM f >>= _) = _ at h
      cases hr : (List.range' (i + 1) k).mapM f with
      | error e => rw [hr] at h; cases h
      | ok qs' =>
        rw [hr] at h
        cases h
        simp [fitSlots, hf, ih (i + 1) qs' hr]

/-- A loop that raised: one of its positions holds a copy that is not fitted. -/
theorem fitSlots_raw (f : ℕ → Except Err σ) : ∀ (k i : ℕ), (fitSlots f i k).2 ≠ none → ∃ j < k, (fitSlots f i k).1[j]? = some .raw := by
  intro k
  induction k with
  | zero => intro i h; exact absurd rfl h
  | succ k ih =>
    intro i h
    cases hf : f i with
    | error e => exact ⟨0, Nat.succ_pos k, by simp [fitSlots, hf]⟩
    | ok s =>
      simp only [fitSlots, hf] at h
      obtain ⟨j, hj, hr⟩ := ih (i + 1) h
      exact ⟨j + 1, Nat.succ_lt_succ hj, by simpa [fitSlots, hf] using hr⟩

/-- If a copy before the last one raises, the last position keeps the number 0. -/
theorem fitSlots_zero (f : ℕ → Except Err σ) : ∀ (k i : ℕ), (∃ j, j + 1 < k ∧ ∃ e, f (i + j) = .error e) → (fitSlots f i k).1[k - 1]? = some .zero := by
  intro k
  induction k with
  | zero => rintro i ⟨j, hj, -⟩; exact absurd hj (Nat.not_lt_zero _)
  | succ k ih =>
    rintro i ⟨j, hj, e, he⟩
    obtain ⟨k, rfl⟩ : ∃ m, k = m + 1 := ⟨k - 1, by omega⟩
    cases hf : f i with
    | error e' => simp [fitSlots, hf]
    | ok s =>
      obtain ⟨j, rfl⟩ : ∃ m, j = m + 1 := by
        cases j with
        | zero => rw [Nat.add_zero, hf] at he; cases he
        | succ m => exact ⟨m, rfl⟩
      have := ih (i + 1) ⟨j, by omega, e, by rw [← he]; congr 1; omega⟩
      rw [fitSlots]
      simpa [hf] using this

theorem fitSlots_length (f : ℕ → Except Err σ) : ∀ (k i : ℕ), (fitSlots f i k).1.length = k := by
  intro k
  induction k with
  | zero => intro i; rfl
  | succ k ih =>
    intro i
    cases hf : f i with
    | error e => simp [fitSlots, hf]
    | ok s => simp [fitSlots, hf, ih]

/-- A `mapM` with an element that raises raises. -/
theorem mapM_raises {β γ : Type} (g : β → Except Err γ) : ∀ (l : List β) (b : β), b ∈ l → (∃ e, g b = .error e) → ∃ e, l.mapM g = .error e := by
  intro l
  induction l with
  | nil => intro b hb; cases hb
  | cons a l ih =>
    intro b hb he
    rw [List.mapM_cons]
    cases ha : g a with
    | error e => exact ⟨e, rfl⟩
    | ok v =>
      rcases List.mem_cons.mp hb with rfl | hb
      · obtain ⟨e, he⟩ := he
        rw [ha] at he
        cases he
      · obtain ⟨e, he⟩ := ih b hb he
        refine ⟨e, ?_⟩
        show (l.mapM g >>= _) = _
        rw [he]
        rfl

/-- Asking the copies in the attributes is asking the copies of `Verif.Model.Decomp`, as long as the position is one that the loop filled. -/
theorem askSlot_eq (Q : BinQuant D ε σ) (raw) (qs : List σ) (spare : List (Slot σ)) (X : List D) (preds) (i : ℕ) (hi : i < qs.length) : askSlot Q raw (some (qs.map Slot.fitted ++ spare)) X preds i = askCopy Q qs X preds i := by
  unfold askSlot askCopy
  have h1 : (qs.map Slot.fitted ++ spare)[i]? = some (.fitted qs[i]) := by
    rw [List.getElem?_append_left (by simpa using hi)]
    simp [hi]
  have h2 : item qs i = .ok qs[i] := by simp [item, hi]
  rw [h2]
  simp only [h1]
  rfl

theorem mapM_len {β γ : Type} (g : β → Except Err γ) : ∀ (l : List β) (r : List γ), l.mapM g = .ok r → r.length = l.length := by
  intro l
  induction l with
  | nil => intro r h; cases h; rfl
  | cons a l ih =>
    intro r h
    rw [List.mapM_cons] at h
    cases ha : g a with
    | error e => rw [ha] at h; cases h
    | ok v =>
      rw [ha] at h
      change (l.mapM g >>= _) = _ at h
      cases hr : l.mapM g with
      | error e => rw [hr] at h; cases h
      | ok r' =>
        rw [hr] at h
        cases h
        simp [ih r' hr]

theorem mapM_congr_mem {β γ : Type} (g h : β → Except Err γ) (l : List β) (hgh : ∀ b ∈ l, g b = h b) : l.mapM g = l.mapM h := by
  induction l with
  | nil => rfl
  | cons a l ih =>
    rw [List.mapM_cons, List.mapM_cons, hgh a (by simp), ih fun b hb => hgh b (by simp [hb])]

variable [LinearOrder α]

/-- What the functional models of `Verif.Model.Decomp` call `fit` and `predict`. -/
noncomputable def decFitFun (kind : DecKind) (Q : BinQuant D ε σ) (estTrain estTest : Option (List ε)) (X : List D) (y : List α) (preds : Option (List (List ℝ))) : Except Err (List α × List σ) :=
  match kind with
  | .ovr => ovrFit Q estTrain estTest X y preds
  | .fh => fhqFit Q estTrain estTest X y preds

noncomputable def decPredictFun (kind : DecKind) (Q : BinQuant D ε σ) (f : List α × List σ) (X : List D) (preds : Option (List (List ℝ))) : Except Err (List Fl) :=
  match kind with
  | .ovr => ovrPredict Q f X preds
  | .fh => fhqPredict Q f X preds

omit [LinearOrder α] in
theorem decPredict_eq (kind : DecKind) (Q : BinQuant D ε σ) (raw) (classes : List α) (qs : List σ) (spare : List (Slot σ)) (hl : qs.length = kind.count classes.length) (X : List D) (preds) :
    decPredict kind Q raw ⟨some classes, some (qs.map Slot.fitted ++ spare)⟩ X preds = decPredictFun kind Q (classes, qs) X preds := by
  unfold decPredict
  show ((List.range (kind.count classes.length)).mapM _ >>= _) = _
  rw [mapM_congr_mem _ (fun i => askCopy Q qs X preds i) _ fun i hi => askSlot_eq Q raw qs spare X preds i (by rw [hl]; exact List.mem_range.mp hi)]
  cases kind <;> rfl

/-- A fit that returns: what it stores. -/
theorem decFit_returns (kind : DecKind) (Q : BinQuant D ε σ) (estTrain estTest) (sup : List α → Option (List (List ℝ)) → Option Err) (st : DecObj α σ) (X : List D) (y : List α) (preds)
    (h : (decFit kind Q estTrain estTest sup st X y preds).2 = none) :
    ∃ qs : List σ, decFitFun kind Q estTrain estTest X y preds = .ok (npUnique y, qs) ∧ qs.length = kind.count (npUnique y).length ∧
      (decFit kind Q estTrain estTest sup st X y preds).1 = ⟨some (npUnique y), some (qs.map Slot.fitted ++ decSpare kind Q.usesClassifiers)⟩ := by
  unfold decFit at h ⊢
  cases hb : decBinarize kind y with
  | error e => rw [hb] at h; cases h
  | ok yBin =>
    rw [hb] at h
    simp only at h ⊢
    split at h
    · cases h
    · rename_i hrej
      obtain ⟨qs, h1, h2⟩ := fitSlots_ok _ _ _ h
      rw [← List.range_eq_range'] at h1
      have hguard : (Q.usesClassifiers && Q.needsTrain && estTrain.isNone && preds.isNone) = false := by
        cases hu : Q.usesClassifiers with
        | false => rfl
        | true =>
          rw [hu] at hrej
          simp only [if_true] at hrej
          split at hrej
          · cases hrej
          · rename_i hc
            rw [Bool.true_and]
            exact Bool.eq_false_iff.mpr hc
      refine ⟨qs, ?_, by simpa using mapM_len _ _ _ h1, by rw [h2]⟩
      unfold decBinarize at hb
      split at hb
      · cases hb
      cases kind with
      | ovr =>
        cases hb
        show ovrFit Q estTrain estTest X y preds = _
        unfold ovrFit
        simp only [hguard]
        change (List.range (npUnique y).length).mapM _ = _ at h1
        show ((List.range (npUnique y).length).mapM _ >>= _) = _
        rw [h1]
        rfl
      | fh =>
        change fhTransform 0 1 (npUnique y) y = .ok yBin at hb
        show fhqFit Q estTrain estTest X y preds = _
        unfold fhqFit
        simp only [hb]
        show (if _ then _ else _) = _
        simp only [hguard]
        change (List.range ((npUnique y).length - 1)).mapM _ = _ at h1
        show ((List.range ((npUnique y).length - 1)).mapM _ >>= _) = _
        rw [h1]
        rfl

/-- C161: whatever was fitted before, with or without exceptions, after a fit that returns the object answers as a new object on which only that fit was called; that answer is the one of `ovrPredict`/`fhqPredict`. -/
theorem C161_last_fit (kind : DecKind) (Q : BinQuant D ε σ) (estTrain estTest) (sup : List α → Option (List (List ℝ)) → Option Err) (raw) (calls : List (DecCall α D)) (last : DecCall α D)
    (h : (decFit kind Q estTrain estTest sup (decHistory kind Q estTrain estTest sup (decNew α σ) calls) last.X last.y last.preds).2 = none) :
    (∀ (X : List D) preds, decPredict kind Q raw (decHistory kind Q estTrain estTest sup (decNew α σ) (calls ++ [last])) X preds = decPredict kind Q raw (decHistory kind Q estTrain estTest sup (decNew α σ) [last]) X preds) ∧
      ∃ f, decFitFun kind Q estTrain estTest last.X last.y last.preds = .ok f ∧
        ∀ (X : List D) preds, decPredict kind Q raw (decHistory kind Q estTrain estTest sup (decNew α σ) (calls ++ [last])) X preds = decPredictFun kind Q f X preds := by
  have err : ∀ st : DecObj α σ, (decFit kind Q estTrain estTest sup st last.X last.y last.preds).2 = (decFit kind Q estTrain estTest sup (decNew α σ) last.X last.y last.preds).2 := by
    intro st
    unfold decFit
    cases decBinarize kind last.y with
    | error e => rfl
    | ok yBin =>
      simp only
      split <;> rfl
  obtain ⟨qs, h1, h2, h3⟩ := decFit_returns kind Q estTrain estTest sup _ last.X last.y last.preds h
  have h' : (decFit kind Q estTrain estTest sup (decNew α σ) last.X last.y last.preds).2 = none := by rw [← err]; exact h
  obtain ⟨qs', h1', h2', h3'⟩ := decFit_returns kind Q estTrain estTest sup _ last.X last.y last.preds h'
  have hq : qs' = qs := by
    rw [h1] at h1'
    cases h1'
    rfl
  subst hq
  have e1 : decHistory kind Q estTrain estTest sup (decNew α σ) (calls ++ [last]) = ⟨some (npUnique last.y), some (qs'.map Slot.fitted ++ decSpare kind Q.usesClassifiers)⟩ := by
    unfold decHistory
    rw [List.foldl_append]
    exact h3
  have e2 : decHistory kind Q estTrain estTest sup (decNew α σ) [last] = ⟨some (npUnique last.y), some (qs'.map Slot.fitted ++ decSpare kind Q.usesClassifiers)⟩ := h3'
  refine ⟨fun X preds => by rw [e1, e2], (npUnique last.y, qs'), h1, fun X preds => ?_⟩
  rw [e1]
  exact decPredict_eq kind Q raw _ qs' _ h2 X preds

omit [LinearOrder α] in
/-- C161: a new object raises when asked. -/
theorem C161_unfitted (kind : DecKind) (Q : BinQuant D ε σ) (raw) (X : List D) (preds) : decPredict kind Q raw (decNew α σ) X preds = .error .typeError := rfl

/-- C161, the part about a fit that raises in one of the copies: from any attributes, the object then raises for every bag, provided that a copy that is not fitted raises. -/
theorem C161_failed_copy_partial (kind : DecKind) (Q : BinQuant D ε σ) (estTrain estTest) (sup : List α → Option (List (List ℝ)) → Option Err) (raw) (hraw : ∀ X preds, ∃ e, raw X preds = .error e) (st : DecObj α σ) (X : List D) (y : List α) (preds)
    (hsup : sup y preds = none) (hgiven : Q.usesClassifiers = true → Q.needsTrain = true → estTrain ≠ none ∨ preds ≠ none) (hbin : ∃ m, decBinarize kind y = .ok m) (h : (decFit kind Q estTrain estTest sup st X y preds).2 ≠ none)
    (X' : List D) (preds') : ∃ e, decPredict kind Q raw (decFit kind Q estTrain estTest sup st X y preds).1 X' preds' = .error e := by
  obtain ⟨yBin, hb⟩ := hbin
  have hrej : (if Q.usesClassifiers then (if Q.needsTrain && estTrain.isNone && preds.isNone then some Err.valueError else sup y preds) else none) = none := by
    cases hu : Q.usesClassifiers with
    | false => rfl
    | true =>
      simp only [if_true]
      split
      · rename_i hc
        simp only [Bool.and_eq_true, Option.isNone_iff_eq_none] at hc
        rcases hgiven hu hc.1.1 with h1 | h1
        · exact absurd hc.1.2 h1
        · exact absurd hc.2 h1
      · exact hsup
  unfold decFit at h ⊢
  rw [hb] at h ⊢
  simp only [hrej] at h ⊢
  obtain ⟨j, hj, hr⟩ := fitSlots_raw _ _ _ h
  unfold decPredict
  simp only
  have hask : ∃ e, askSlot Q raw (some ((fitSlots (fun i => fitCopy Q estTrain estTest X yBin preds i) 0 (kind.count (npUnique y).length)).1 ++ decSpare kind Q.usesClassifiers)) X' preds' j = .error e := by
    unfold askSlot
    cases askPreds Q preds' j with
    | error e => exact ⟨e, rfl⟩
    | ok p =>
      obtain ⟨e, he⟩ := hraw X' p
      refine ⟨e, ?_⟩
      have : ((fitSlots (fun i => fitCopy Q estTrain estTest X yBin preds i) 0 (kind.count (npUnique y).length)).1 ++ decSpare kind Q.usesClassifiers)[j]? = some .raw := by
        rw [List.getElem?_append_left (by rw [fitSlots_length]; exact hj)]
        exact hr
      simp only [this]
      show (raw X' p >>= _) = _
      rw [he]
      rfl
  obtain ⟨e, he⟩ := mapM_raises _ _ j (List.mem_range.mpr hj) hask
  refine ⟨e, ?_⟩
  rw [he]
  rfl

/-- C161, the same when the base quantifier was already fitted, so that its copies answer: if the copy that raises is not the last one, the object raises for every bag. -/
theorem C161_missing_copy_partial (kind : DecKind) (Q : BinQuant D ε σ) (estTrain estTest) (sup : List α → Option (List (List ℝ)) → Option Err) (raw) (st : DecObj α σ) (X : List D) (y : List α) (preds)
    (hsup : sup y preds = none) (hgiven : Q.usesClassifiers = true → Q.needsTrain = true → estTrain ≠ none ∨ preds ≠ none) (yBin) (hbin : decBinarize kind y = .ok yBin)
    (h : ∃ j, j + 1 < kind.count (npUnique y).length ∧ ∃ e, fitCopy Q estTrain estTest X yBin preds j = .error e) (X' : List D) (preds') :
    ∃ e, decPredict kind Q raw (decFit kind Q estTrain estTest sup st X y preds).1 X' preds' = .error e := by
  have hrej : (if Q.usesClassifiers then (if Q.needsTrain && estTrain.isNone && preds.isNone then some Err.valueError else sup y preds) else none) = none := by
    cases hu : Q.usesClassifiers with
    | false => rfl
    | true =>
      simp only [if_true]
      split
      · rename_i hc
        simp only [Bool.and_eq_true, Option.isNone_iff_eq_none] at hc
        rcases hgiven hu hc.1.1 with h1 | h1
        · exact absurd hc.1.2 h1
        · exact absurd hc.2 h1
      · exact hsup
  have hz := fitSlots_zero (fun i => fitCopy Q estTrain estTest X yBin preds i) (kind.count (npUnique y).length) 0 (by
    obtain ⟨j, hj, e, he⟩ := h
    exact ⟨j, hj, e, by rw [Nat.zero_add]; exact he⟩)
  have hpos : kind.count (npUnique y).length - 1 < kind.count (npUnique y).length := by
    obtain ⟨j, hj, -⟩ := h
    omega
  unfold decFit
  rw [hbin]
  simp only [hrej]
  unfold decPredict
  simp only
  have hask : ∃ e, askSlot Q raw (some ((fitSlots (fun i => fitCopy Q estTrain estTest X yBin preds i) 0 (kind.count (npUnique y).length)).1 ++ decSpare kind Q.usesClassifiers)) X' preds' (kind.count (npUnique y).length - 1) = .error e := by
    unfold askSlot
    cases askPreds Q preds' (kind.count (npUnique y).length - 1) with
    | error e => exact ⟨e, rfl⟩
    | ok p =>
      have : ((fitSlots (fun i => fitCopy Q estTrain estTest X yBin preds i) 0 (kind.count (npUnique y).length)).1 ++ decSpare kind Q.usesClassifiers)[kind.count (npUnique y).length - 1]? = some .zero := by
        rw [List.getElem?_append_left (by rw [fitSlots_length]; exact hpos)]
        exact hz
      exact ⟨.attributeError, by simp only [this]; rfl⟩
  obtain ⟨e, he⟩ := mapM_raises _ _ _ (List.mem_range.mpr hpos) hask
  refine ⟨e, ?_⟩
  rw [he]
  rfl

/-- C161, the part about a fit that raises while the labels are binarised: it changes nothing. -/
theorem C161_failed_labels_partial (kind : DecKind) (Q : BinQuant D ε σ) (estTrain estTest) (sup : List α → Option (List (List ℝ)) → Option Err) (st : DecObj α σ) (X : List D) (y : List α) (preds)
    (h : y = [] ∨ (kind = .fh ∧ (npUnique y).length = 2)) : (decFit kind Q estTrain estTest sup st X y preds).2 ≠ none ∧ (decFit kind Q estTrain estTest sup st X y preds).1 = st := by
  have hb : ∃ e, decBinarize kind y = .error e := by
    unfold decBinarize
    split
    · exact ⟨_, rfl⟩
    · rename_i hy
      obtain ⟨rfl, h2⟩ := h.resolve_left hy
      simp only [fhTransform, lbTransform, h2]
      exact ⟨.indexError, rfl⟩
  obtain ⟨e, hb⟩ := hb
  unfold decFit
  rw [hb]
  exact ⟨by simp, rfl⟩

/-- C161 is false: a fit that is rejected for lack of predictions, with labels of fewer classes, leaves the old copies with the new classes. The object then answers with the first copies of the old fit: for `m` classes, the answers to the first
`kind.count m` of the old binary problems. -/
theorem C161_rejected_refuted (kind : DecKind) (Q : BinQuant D ε σ) (hQ : Q.usesClassifiers = true ∧ Q.needsTrain = true) (estTest) (sup : List α → Option (List (List ℝ)) → Option Err) (raw) (st : DecObj α σ) (X : List D) (y : List α) (preds)
    (h : (decFit kind Q none estTest sup st X y preds).2 = none) (X' : List D) (y' : List α) (hbin : ∃ m, decBinarize kind y' = .ok m) (hle : (npUnique y').length ≤ (npUnique y).length) :
    let st1 := (decFit kind Q none estTest sup st X y preds).1
    let r := decFit kind Q none estTest sup st1 X' y' none
    r.2 = some .valueError ∧ ∃ qs : List σ, decFitFun kind Q none estTest X y preds = .ok (npUnique y, qs) ∧
      ∀ (bag : List D) bagPreds, decPredict kind Q raw r.1 bag bagPreds = decPredictFun kind Q (npUnique y', qs.take (kind.count (npUnique y').length)) bag bagPreds := by
  obtain ⟨qs, h1, h2, h3⟩ := decFit_returns kind Q none estTest sup st X y preds h
  obtain ⟨m, hm⟩ := hbin
  have hr : decFit kind Q none estTest sup (decFit kind Q none estTest sup st X y preds).1 X' y' none = (⟨some (npUnique y'), some (qs.map Slot.fitted ++ decSpare kind Q.usesClassifiers)⟩, some .valueError) := by
    rw [h3]
    unfold decFit
    rw [hm]
    simp [hQ.1, hQ.2]
  have hc : kind.count (npUnique y').length ≤ kind.count (npUnique y).length := by
    cases kind with
    | ovr => exact hle
    | fh => exact Nat.sub_le_sub_right hle 1
  refine ⟨by rw [hr], qs, h1, fun bag bagPreds => ?_⟩
  rw [hr]
  have hsplit : qs.map Slot.fitted ++ decSpare kind Q.usesClassifiers = (qs.take (kind.count (npUnique y').length)).map Slot.fitted ++ ((qs.drop (kind.count (npUnique y').length)).map Slot.fitted ++ decSpare kind Q.usesClassifiers) := by
    rw [← List.append_assoc, ← List.map_append, List.take_append_drop]
  simp only
  rw [hsplit]
  exact decPredict_eq kind Q raw _ _ _ (by rw [List.length_take, h2]; exact Nat.min_eq_left hc) bag bagPreds

end

/-- A base quantifier that uses predictions, needs at least two examples of each side to be fitted (as the stratified folds of a `CV_estimator` do) and answers the prevalences of its training set. -/
noncomputable def twoEach : BinQuant Unit Unit ℝ where
  usesClassifiers := true
  needsTrain := true
  fit _ _ _ y _ := if y.count 1 < 2 then .error .valueError else .ok ((y.count 1 : ℝ) / y.length)
  predict s _ _ := .ok [Fl.fin (1 - s), Fl.fin s]

/-- The two calls of the counterexample. -/
noncomputable def firstCall : DecCall ℤ Unit := ⟨List.replicate 7 (), [1, 1, 2, 2, 3, 3, 4], some [[1, 1, 0, 0, 0, 0, 0], [0, 0, 1, 1, 0, 0, 0], [0, 0, 0, 0, 1, 1, 0], [0, 0, 0, 0, 0, 0, 1]]⟩

noncomputable def secondCall : DecCall ℤ Unit := ⟨List.replicate 3 (), [1, 2, 3], none⟩

private theorem unique4 : npUnique ([1, 1, 2, 2, 3, 3, 4] : List ℤ) = [1, 2, 3, 4] := by
  rw [npUnique_eq_labelsOf]
  exact labelsOf_eq _ _ (by decide) (by decide)
private theorem unique3 : npUnique ([1, 2, 3] : List ℤ) = [1, 2, 3] := by
  rw [npUnique_eq_labelsOf]
  exact labelsOf_eq _ _ (by decide) (by decide)

private theorem first_fit : decFit .ovr twoEach none none (fun _ _ => none) (decNew ℤ ℝ) firstCall.X firstCall.y firstCall.preds =
    (⟨some [1, 2, 3, 4], some [.fitted (2 / 7), .fitted (2 / 7), .fitted (2 / 7), .raw]⟩, some .valueError) := by
  simp [decFit, decBinarize, firstCall, unique4, lbTransform, twoEach, DecKind.count, fitSlots, fitCopy, estAt, binPreds, item, decSpare, bind, Except.bind, Except.map]

private theorem second_fit (st : DecObj ℤ ℝ) : decFit .ovr twoEach none none (fun _ _ => none) st secondCall.X secondCall.y secondCall.preds = (⟨some [1, 2, 3], st.quants⟩, some .valueError) := by
  simp [decFit, decBinarize, secondCall, unique3, twoEach]

/-- C161 is false in another way: no fit returned and yet the object answers. The first fit raises in the fourth copy, the second one is rejected for lack of predictions; the object then has the three classes of the second and the three fitted
copies of the first. -/
theorem C161_no_fit_refuted :
    (decFit .ovr twoEach none none (fun _ _ => none) (decNew ℤ ℝ) firstCall.X firstCall.y firstCall.preds).2 = some .valueError ∧
    (decFit .ovr twoEach none none (fun _ _ => none) (decHistory .ovr twoEach none none (fun _ _ => none) (decNew ℤ ℝ) [firstCall]) secondCall.X secondCall.y secondCall.preds).2 = some .valueError ∧
    decPredict .ovr twoEach (fun _ _ => .error .valueError) (decHistory .ovr twoEach none none (fun _ _ => none) (decNew ℤ ℝ) [firstCall, secondCall]) [()] (some [[0], [0], [1]]) = .ok [Fl.fin (1 / 3), Fl.fin (1 / 3), Fl.fin (1 / 3)] := by
  refine ⟨by rw [first_fit], by rw [second_fit], ?_⟩
  have e : decHistory .ovr twoEach none none (fun _ _ => none) (decNew ℤ ℝ) [firstCall, secondCall] = ⟨some [1, 2, 3], some [.fitted (2 / 7), .fitted (2 / 7), .fitted (2 / 7), .raw]⟩ := by
    simp only [decHistory, List.foldl_cons, List.foldl_nil]
    rw [first_fit, second_fit]
  rw [e]
  simp [decPredict, DecKind.count, askSlot, askPreds, twoEach, binPreds, item, decFinish, ovrNormalize, bind, Except.bind, Except.map, List.range_succ, pure, Except.pure]
  norm_num
  rw [Fl.fin_div _ (by norm_num)]
  norm_num

/-- A fit that is then rejected: the answers 2/6, 2/6, 2/6 for the classes 1, 2, 3 become 1/2, 1/2 for the classes 1, 2. -/
example : ∃ preds, (decFit .ovr twoEach none none (fun _ _ => none) (decNew ℤ ℝ) (List.replicate 6 ()) [1, 1, 2, 2, 3, 3] preds).2 = none ∧ (∃ m, decBinarize .ovr ([1, 2] : List ℤ) = .ok m) ∧
    (npUnique ([1, 2] : List ℤ)).length ≤ (npUnique ([1, 1, 2, 2, 3, 3] : List ℤ)).length := by
  have u3 : npUnique ([1, 1, 2, 2, 3, 3] : List ℤ) = [1, 2, 3] := by
    rw [npUnique_eq_labelsOf]
    exact labelsOf_eq _ _ (by decide) (by decide)
  have u2 : npUnique ([1, 2] : List ℤ) = [1, 2] := by
    rw [npUnique_eq_labelsOf]
    exact labelsOf_eq _ _ (by decide) (by decide)
  refine ⟨some [[1, 1, 0, 0, 0, 0], [0, 0, 1, 1, 0, 0], [0, 0, 0, 0, 1, 1]], ?_, ⟨_, rfl⟩, by rw [u2, u3]; decide⟩
  simp [decFit, decBinarize, u3, lbTransform, twoEach, DecKind.count, fitSlots, fitCopy, estAt, binPreds, item, bind, Except.bind, Except.map]

/-- The hypotheses of `C161_failed_copy_partial` hold for the first of the two calls. -/
example : (decFit .ovr twoEach none none (fun _ _ => none) (decNew ℤ ℝ) firstCall.X firstCall.y firstCall.preds).2 ≠ none ∧ (∃ m, decBinarize .ovr firstCall.y = .ok m) ∧ firstCall.preds ≠ none :=
  ⟨by rw [first_fit]; simp, ⟨_, rfl⟩, by simp [firstCall]⟩

/-- The hypotheses of `C161_missing_copy_partial`: three classes with one example each, the first copy raises. -/
example : ∃ preds yBin, decBinarize .ovr secondCall.y = .ok yBin ∧ ∃ j, j + 1 < DecKind.ovr.count (npUnique secondCall.y).length ∧ ∃ e, fitCopy twoEach none none secondCall.X yBin (some preds) j = .error e := by
  refine ⟨[[1, 0, 0], [0, 1, 0], [0, 0, 1]], _, rfl, 0, by simp [secondCall, unique3, DecKind.count], .valueError, ?_⟩
  simp [secondCall, unique3, lbTransform, twoEach, fitCopy, estAt, binPreds, item, bind, Except.bind, Except.map]

end Verif.Props
