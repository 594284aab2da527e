import Verif.Model.CC
import Verif.Spec.Prevalence
import Verif.Num.ListAux
import Mathlib.Data.List.Perm.Basic
import Mathlib.Tactic.FinCases

/-!
# C01-C03: Classify and Count, Probabilistic Classify and Count
-/

namespace Verif.Props

open Verif.Model Verif.Spec

variable {σ D α : Type*} {k : ℕ}

theorem npUnique_eq_labelsOf [LinearOrder α] (y : List α) : npUnique y = labelsOf y := rfl

theorem labelsOf_nodup [LinearOrder α] (y : List α) : (labelsOf y).Nodup :=
  Finset.sort_nodup _ _

theorem mem_labelsOf [LinearOrder α] (y : List α) (a : α) : a ∈ labelsOf y ↔ a ∈ y := by
  simp [labelsOf]

/-- Fitting CC succeeds, trains nothing but the testing estimator, and stores the sorted
distinct labels. -/
theorem C01_cc_fit [LinearOrder α] (ops : EstOps σ D α k) (enc : Bool → α) (w : World σ D α)
    (et : Option ℕ) (s : QState α k) (X : List D) (y : List α) :
    (ccFit ops enc w et s X y).2 = ({ s with classes := some (labelsOf y) }, none) := by
  simp [ccFit, usingFit, ccCfg, npUnique_eq_labelsOf]

/-- **C06** (CC): `fit` trains an untrained estimator with the data it is given, and records it. -/
theorem C06_cc_trains [LinearOrder α] (ops : EstOps σ D α k) (enc : Bool → α) (w : World σ D α)
    (e : ℕ) (s : QState α k) (X : List D) (y : List α) (hu : ops.notFitted (w.est e) = true) :
    (ccFit ops enc w (some e) s X y).1.est e = ops.fit (w.est e) X y
    ∧ (ccFit ops enc w (some e) s X y).1.log = w.log ++ [(e, X, y)] := by
  simp [ccFit, usingFit, ccCfg, fitIfNeeded, hu]

/-- **C06** (CC): `fit` does nothing to an estimator that is already trained. -/
theorem C06_cc_keeps [LinearOrder α] (ops : EstOps σ D α k) (enc : Bool → α) (w : World σ D α)
    (e : ℕ) (s : QState α k) (X : List D) (y : List α) (hu : ops.notFitted (w.est e) = false) :
    (ccFit ops enc w (some e) s X y).1 = w := by
  simp [ccFit, usingFit, ccCfg, fitIfNeeded, hu]

theorem freqs_isPrev [DecidableEq α] (cs : List α) (hcs : cs.Nodup) (preds : List α)
    (hne : preds ≠ []) (hk : ∀ a ∈ preds, a ∈ cs) : IsPrev (freqs cs preds) := by
  have hl : (preds.length : ℝ) ≠ 0 := by
    simpa using hne
  refine ⟨fun i => by unfold freqs freq; positivity, ?_⟩
  unfold freqs freq
  rw [← Finset.sum_div, ← Nat.cast_sum]
  have := sum_count_of_subset cs hcs preds hk
  rw [show (∑ i : Fin cs.length, preds.count cs[i]) = preds.length from this]
  field_simp

theorem classFreqs_eq [DecidableEq α] (cs : List α) (preds : List α) (hne : preds ≠ []) :
    classFreqs cs preds = fun i => Fl.fin (freqs cs preds i) := by
  have hl : (preds.length : ℝ) ≠ 0 := by simpa using hne
  funext i
  simp only [classFreqs, freqs, freq]
  rw [Fl.fin_div _ hl]

/-- **C01** (supplied crisp predictions): after fitting on labels `y`, a nonempty bag of
known labels yields exactly its class frequencies, a valid prevalence vector. -/
theorem C01_cc_valid [LinearOrder α] (ops : EstOps σ D α k) (enc : Bool → α) (w : World σ D α)
    (et : Option ℕ) (y : List α) (X : List D) (preds : List α) (hne : preds ≠ [])
    (hk : ∀ a ∈ preds, a ∈ y) :
    ccPredict ops enc w et (labelsOf y) X (some (.crisp preds))
        = .ok (fun i => Fl.fin (freqs (labelsOf y) preds i))
      ∧ IsPrev (freqs (labelsOf y) preds) := by
  refine ⟨?_, freqs_isPrev _ (labelsOf_nodup y) _ hne (fun a ha => (mem_labelsOf y a).2 (hk a ha))⟩
  rw [← classFreqs_eq _ _ hne]
  simp [ccPredict, usingPredict, ccCfg, probs2crisps, Except.map]

/-- **C01** (predictions made by the testing estimator). -/
theorem C01_cc_valid_estimator [LinearOrder α] (ops : EstOps σ D α k) (enc : Bool → α)
    (w : World σ D α) (e : ℕ) (y : List α) (X : List D)
    (hne : ops.predict (w.est e) X ≠ []) (hk : ∀ a ∈ ops.predict (w.est e) X, a ∈ y) :
    ccPredict ops enc w (some e) (labelsOf y) X none
        = .ok (fun i => Fl.fin (freqs (labelsOf y) (ops.predict (w.est e) X) i))
      ∧ IsPrev (freqs (labelsOf y) (ops.predict (w.est e) X)) := by
  refine ⟨?_, freqs_isPrev _ (labelsOf_nodup y) _ hne (fun a ha => (mem_labelsOf y a).2 (hk a ha))⟩
  rw [← classFreqs_eq _ _ hne]
  simp [ccPredict, usingPredict, ccCfg]

open Classical in
/-- **C01** (unknown labels): in general the values returned for a nonempty bag are the class
frequencies and add up to the fraction of predictions that are known labels. -/
theorem C01_cc_unknown_labels [LinearOrder α] (ops : EstOps σ D α k) (enc : Bool → α)
    (w : World σ D α) (et : Option ℕ) (y : List α) (X : List D) (preds : List α)
    (hne : preds ≠ []) :
    ccPredict ops enc w et (labelsOf y) X (some (.crisp preds))
        = .ok (fun i => Fl.fin (freqs (labelsOf y) preds i))
      ∧ ∑ i, freqs (labelsOf y) preds i
          = (preds.countP (fun a => decide (a ∈ y)) : ℝ) / preds.length := by
  constructor
  · rw [← classFreqs_eq _ _ hne]
    simp [ccPredict, usingPredict, ccCfg, probs2crisps, Except.map]
  · unfold freqs freq
    rw [← Finset.sum_div, ← Nat.cast_sum]
    have := sum_count_eq (labelsOf y) (labelsOf_nodup y) preds
    rw [show (∑ i : Fin (labelsOf y).length, preds.count (labelsOf y)[i])
      = preds.countP (fun a => decide (a ∈ labelsOf y)) from this]
    simp only [mem_labelsOf]

/-- **C01** (empty bag): every value is NaN. -/
theorem C01_cc_empty [LinearOrder α] (ops : EstOps σ D α k) (enc : Bool → α) (w : World σ D α)
    (et : Option ℕ) (y : List α) (X : List D) :
    ccPredict ops enc w et (labelsOf y) X (some (.crisp [])) = .ok (fun _ => Fl.nan) := by
  have : classFreqs (labelsOf y) ([] : List α) = fun _ => Fl.nan := by
    funext i
    simp [classFreqs, Fl.zero_div_zero]
  rw [← this]
  simp [ccPredict, usingPredict, ccCfg, probs2crisps, Except.map]

/-- Non-vacuity of C01: training labels 2,1,2,3 and a bag predicted 3,1,3. -/
example : (∀ a ∈ ([3, 1, 3] : List ℕ), a ∈ ([2, 1, 2, 3] : List ℕ)) ∧ ([3, 1, 3] : List ℕ) ≠ []
    ∧ labelsOf ([2, 1, 2, 3] : List ℕ) = [1, 2, 3] ∧ freq ([3, 1, 3] : List ℕ) 3 = 2 / 3 := by
  refine ⟨by decide, by decide, labelsOf_eq _ _ (by decide) (by decide), ?_⟩
  norm_num [freq]

/-- **C02** (CC, order): the order of the test examples is irrelevant. -/
theorem C02_cc_perm [LinearOrder α] (ops : EstOps σ D α k) (enc : Bool → α) (w : World σ D α)
    (et : Option ℕ) (y : List α) (X X' : List D) (preds preds' : List α) (h : preds.Perm preds') :
    ccPredict ops enc w et (labelsOf y) X (some (.crisp preds))
      = ccPredict ops enc w et (labelsOf y) X' (some (.crisp preds')) := by
  have : classFreqs (labelsOf y) preds = classFreqs (labelsOf y) preds' := by
    funext i
    simp only [classFreqs]
    rw [h.count_eq, h.length_eq]
  simp [ccPredict, usingPredict, ccCfg, probs2crisps, Except.map, this]

/-- **C02** (CC, pooling): the prevalences of the union of two nonempty bags are the
size-weighted average of the prevalences of the bags. -/
theorem C02_cc_pool [LinearOrder α] (ops : EstOps σ D α k) (enc : Bool → α) (w : World σ D α)
    (et : Option ℕ) (y : List α) (X : List D) (b₁ b₂ : List α) (h₁ : b₁ ≠ []) (h₂ : b₂ ≠ []) :
    ∃ p₁ p₂ p : Fin (labelsOf y).length → ℝ,
      ccPredict ops enc w et (labelsOf y) X (some (.crisp b₁)) = .ok (fun i => Fl.fin (p₁ i))
      ∧ ccPredict ops enc w et (labelsOf y) X (some (.crisp b₂)) = .ok (fun i => Fl.fin (p₂ i))
      ∧ ccPredict ops enc w et (labelsOf y) X (some (.crisp (b₁ ++ b₂)))
          = .ok (fun i => Fl.fin (p i))
      ∧ ∀ i, p i = (b₁.length * p₁ i + b₂.length * p₂ i) / (b₁.length + b₂.length) := by
  refine ⟨_, _, _, (C01_cc_unknown_labels ops enc w et y X b₁ h₁).1,
    (C01_cc_unknown_labels ops enc w et y X b₂ h₂).1,
    (C01_cc_unknown_labels ops enc w et y X (b₁ ++ b₂) (by simp [h₁])).1, ?_⟩
  intro i
  have e₁ : (b₁.length : ℝ) ≠ 0 := by simpa using h₁
  have e₂ : (b₂.length : ℝ) ≠ 0 := by simpa using h₂
  have e₃ : (b₁.length : ℝ) + b₂.length ≠ 0 := by positivity
  simp only [freqs, freq, List.count_append, List.length_append, Nat.cast_add]
  field_simp

example : (["a", "b"] : List String) ≠ [] ∧ (["b"] : List String) ≠ [] := by decide

/-- **C03** (validity): PCC returns the mean posterior, a valid prevalence vector when every
posterior row is one. -/
theorem C03_pcc_valid (ops : EstOps σ D α k) (enc : Bool → α) (w : World σ D α) (et : Option ℕ)
    (classes : List α) (X : List D) (rows : List (Fin k → ℝ)) (hne : rows ≠ [])
    (hr : ∀ r ∈ rows, IsPrev r) :
    ∃ p : Fin k → ℝ, pccPredict ops enc w et classes X (some (.probs rows))
        = .ok (fun j => Fl.fin (p j))
      ∧ IsPrev p ∧ ∀ j, p j = (rows.map fun r => r j).sum / rows.length := by
  have hl : (rows.length : ℝ) ≠ 0 := by simpa using hne
  have hpos : (0 : ℝ) < rows.length := lt_of_le_of_ne (by positivity) (Ne.symm hl)
  refine ⟨fun j => (rows.map fun r => r j).sum / rows.length, ?_, ⟨?_, ?_⟩, fun j => rfl⟩
  · have : colMeans rows = fun j => Fl.fin ((rows.map fun r => r j).sum / rows.length) := by
      funext j
      simp only [colMeans]
      rw [Fl.fin_div _ hl]
    simp [pccPredict, usingPredict, pccCfg, this]
  · intro j
    exact div_nonneg (list_sum_map_nonneg _ _ fun r hr' => (hr r hr').1 j) hpos.le
  · rw [← Finset.sum_div, sum_list_map_comm, list_sum_const rows _ 1 (fun r hr' => (hr r hr').2)]
    field_simp

/-- The one-hot encoding of a class with respect to a list of classes. -/
noncomputable def oneHot [DecidableEq α] (cs : List α) (a : α) : Fin cs.length → ℝ :=
  fun i => if cs[i] = a then 1 else 0

/-- **C03** (agreement): on one-hot posteriors PCC returns what CC returns on the labels. -/
theorem C03_pcc_eq_cc_on_onehot [LinearOrder α] (y : List α)
    (ops : EstOps σ D α (labelsOf y).length) (enc : Bool → α) (w : World σ D α) (et : Option ℕ)
    (X : List D) (preds : List α) :
    pccPredict ops enc w et (labelsOf y) X (some (.probs (preds.map (oneHot (labelsOf y)))))
      = ccPredict ops enc w et (labelsOf y) X (some (.crisp preds)) := by
  have : colMeans (preds.map (oneHot (labelsOf y))) = classFreqs (labelsOf y) preds := by
    funext i
    simp only [colMeans, classFreqs, List.length_map, List.map_map]
    congr 2
    induction preds with
    | nil => simp
    | cons a l ih =>
      simp only [List.map_cons, List.sum_cons, ih, List.count_cons, Function.comp, oneHot]
      push_cast
      rw [add_comm]
      congr 1
      by_cases h : (labelsOf y)[i] = a
      · simp only [h]
        simp
      · rw [if_neg h, if_neg (by simpa using Ne.symm h)]
  simp [pccPredict, usingPredict, pccCfg, ccPredict, ccCfg, probs2crisps, Except.map, this]

/-- Non-vacuity of C03: two posterior rows over two classes. -/
example : ∀ r ∈ ([![1/4, 3/4], ![1/2, 1/2]] : List (Fin 2 → ℝ)), IsPrev r := by
  intro r hr
  simp only [List.mem_cons, List.not_mem_nil, or_false] at hr
  rcases hr with rfl | rfl <;> refine ⟨fun i => ?_, ?_⟩
  · fin_cases i <;> norm_num
  · norm_num [Fin.sum_univ_two]
  · fin_cases i <;> norm_num
  · norm_num [Fin.sum_univ_two]

/-- **C02** (PCC, order). -/
theorem C02_pcc_perm (ops : EstOps σ D α k) (enc : Bool → α) (w : World σ D α) (et : Option ℕ)
    (classes : List α) (X X' : List D) (rows rows' : List (Fin k → ℝ)) (h : rows.Perm rows') :
    pccPredict ops enc w et classes X (some (.probs rows))
      = pccPredict ops enc w et classes X' (some (.probs rows')) := by
  have : colMeans rows = colMeans rows' := by
    funext j
    simp only [colMeans]
    rw [h.length_eq, (h.map fun r => r j).sum_eq]
  simp [pccPredict, usingPredict, pccCfg, this]

/-- **C02** (PCC, pooling). -/
theorem C02_pcc_pool (ops : EstOps σ D α k) (enc : Bool → α) (w : World σ D α) (et : Option ℕ)
    (classes : List α) (X : List D) (b₁ b₂ : List (Fin k → ℝ)) (h₁ : b₁ ≠ []) (h₂ : b₂ ≠ []) :
    ∃ p₁ p₂ p : Fin k → ℝ,
      pccPredict ops enc w et classes X (some (.probs b₁)) = .ok (fun i => Fl.fin (p₁ i))
      ∧ pccPredict ops enc w et classes X (some (.probs b₂)) = .ok (fun i => Fl.fin (p₂ i))
      ∧ pccPredict ops enc w et classes X (some (.probs (b₁ ++ b₂)))
          = .ok (fun i => Fl.fin (p i))
      ∧ ∀ i, p i = (b₁.length * p₁ i + b₂.length * p₂ i) / (b₁.length + b₂.length) := by
  have key : ∀ b : List (Fin k → ℝ), b ≠ [] →
      pccPredict ops enc w et classes X (some (.probs b))
        = .ok (fun j => Fl.fin ((b.map fun r => r j).sum / b.length)) := by
    intro b hb
    have hl : (b.length : ℝ) ≠ 0 := by simpa using hb
    have : colMeans b = fun j => Fl.fin ((b.map fun r => r j).sum / b.length) := by
      funext j
      simp only [colMeans]
      rw [Fl.fin_div _ hl]
    simp [pccPredict, usingPredict, pccCfg, this]
  refine ⟨_, _, _, key b₁ h₁, key b₂ h₂, key (b₁ ++ b₂) (by simp [h₁]), ?_⟩
  intro i
  have e₁ : (b₁.length : ℝ) ≠ 0 := by simpa using h₁
  have e₂ : (b₂.length : ℝ) ≠ 0 := by simpa using h₂
  have e₃ : (b₁.length : ℝ) + b₂.length ≠ 0 := by positivity
  simp only [List.map_append, List.sum_append, List.length_append, Nat.cast_add]
  field_simp

/-- **C03** (empty bag): NaN in every column. -/
theorem C03_pcc_empty (ops : EstOps σ D α k) (enc : Bool → α) (w : World σ D α) (et : Option ℕ)
    (classes : List α) (X : List D) :
    pccPredict ops enc w et classes X (some (.probs ([] : List (Fin k → ℝ))))
      = .ok (fun _ => Fl.nan) := by
  have : colMeans ([] : List (Fin k → ℝ)) = fun _ => Fl.nan := by
    funext j
    simp [colMeans, Fl.zero_div_zero]
  simp [pccPredict, usingPredict, pccCfg, this]

end Verif.Props
