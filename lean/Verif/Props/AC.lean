import Verif.Proof.AC
import Verif.Model.Knn
import Verif.Spec.Confusion
import Verif.Props.Base

/-!
# C08-C12: Adjusted Count and Probabilistic Adjusted Count
-/

namespace Verif.Props

open Verif.Model Verif.Spec Verif.Proof

variable {σ D α : Type*} {k : ℕ}

/-! ## C08 -/

theorem stacked_eq_npTile [DecidableEq α] (y : List α) (r : ℕ) : stacked y r = npTile y r := rfl

theorem stacked_length [DecidableEq α] (y : List α) (r : ℕ) : (stacked y r).length = r * y.length := by
  simp [stacked]

theorem stacked_count [DecidableEq α] (y : List α) (r : ℕ) (c : α) :
    (stacked y r).count c = r * y.count c := by
  unfold stacked
  induction r with
  | zero => simp
  | succ r ih =>
    rw [List.replicate_succ, List.flatten_cons, List.count_append, ih, Nat.succ_mul]
    omega

theorem mem_stacked [DecidableEq α] (y : List α) (r : ℕ) (c : α) (h : c ∈ stacked y r) : c ∈ y := by
  unfold stacked at h
  obtain ⟨l, hl, hc⟩ := List.mem_flatten.mp h
  rw [(List.mem_replicate.mp hl).2] at hc
  exact hc

theorem acFit_crisp [LinearOrder α] (ops : EstOps σ D α k) (enc : Bool → α) (w : World σ D α)
    (et et' : Option ℕ) (s : QState α k) (X : List D) (y : List α) (hy : y ≠ []) (r : ℕ)
    (preds : List α) (hlen : preds.length = r * y.length) :
    acFit ops enc w et et' s X y (some (.crisp preds))
      = .ok ⟨labelsOf y, normalizeRows fun i j =>
          ((stacked y r).zip preds).count ((labelsOf y)[i], (labelsOf y)[j])⟩ := by
  have ht := extendLabels_tile y hy r
  rw [← hlen] at ht
  have hl : (npTile y r).length = preds.length := by
    rw [hlen, ← stacked_eq_npTile, stacked_length]
  simp [acFit, usingFit, trainPreds, probs2crisps, Except.map, Preds.len, ht, confusionMatrix, hl,
    npUnique_eq_labelsOf, stacked_eq_npTile]

theorem row_total [LinearOrder α] (y : List α) (r : ℕ) (preds : List α)
    (hlen : preds.length = r * y.length) (hk : ∀ a ∈ preds, a ∈ y) (i : Fin (labelsOf y).length) :
    (∑ j : Fin (labelsOf y).length, ((stacked y r).zip preds).count ((labelsOf y)[i], (labelsOf y)[j]))
      = (stacked y r).count (labelsOf y)[i] := by
  have := sum_count_snd (labelsOf y) (labelsOf_nodup y) ((stacked y r).zip preds) (labelsOf y)[i]
    (fun t ht => (mem_labelsOf y _).2 (hk _ (List.of_mem_zip ht).2))
  rw [show (∑ j : Fin (labelsOf y).length,
    ((stacked y r).zip preds).count ((labelsOf y)[i], (labelsOf y)[j])) = _ from this]
  exact zip_countP_fst _ _ (by rw [hlen, stacked_length]) _

theorem stacked_count_pos [LinearOrder α] (y : List α) (r : ℕ) (hr : 0 < r)
    (i : Fin (labelsOf y).length) : 0 < (stacked y r).count (labelsOf y)[i] := by
  rw [stacked_count]
  have : (labelsOf y)[i] ∈ y := (mem_labelsOf y _).1 (List.getElem_mem i.2)
  exact Nat.mul_pos hr (List.count_pos_iff.mpr this)

/-- The confusion matrix as a real matrix. -/
noncomputable def cmReal [LinearOrder α] (y : List α) (r : ℕ) (preds : List α) :
    Matrix (Fin (labelsOf y).length) (Fin (labelsOf y).length) ℝ :=
  fun i j => condFreq (stacked y r) preds (labelsOf y)[i] (labelsOf y)[j]

theorem normalizeRows_eq [LinearOrder α] (y : List α) (r : ℕ) (hr : 0 < r) (preds : List α)
    (hlen : preds.length = r * y.length) (hk : ∀ a ∈ preds, a ∈ y) :
    (normalizeRows fun i j : Fin (labelsOf y).length =>
        ((stacked y r).zip preds).count ((labelsOf y)[i], (labelsOf y)[j]))
      = fun i j => Fl.fin (cmReal y r preds i j) := by
  funext i j
  have hpos := stacked_count_pos y r hr i
  simp only [normalizeRows]
  rw [row_total y r preds hlen hk i, Fl.fin_div _ (by positivity)]
  unfold cmReal condFreq
  congr 3
  rw [List.count]
  refine congrArg (fun p => List.countP p ((stacked y r).zip preds)) ?_
  funext t
  rw [Bool.eq_iff_iff]
  simp [Prod.ext_iff]

theorem cmReal_row [LinearOrder α] (y : List α) (r : ℕ) (hr : 0 < r) (preds : List α)
    (hlen : preds.length = r * y.length) (hk : ∀ a ∈ preds, a ∈ y) (i : Fin (labelsOf y).length) :
    IsPrev (cmReal y r preds i) := by
  constructor
  · intro j
    unfold cmReal condFreq
    positivity
  · have hpos := stacked_count_pos y r hr i
    have ht := row_total y r preds hlen hk i
    have hc : ∀ j, cmReal y r preds i j
        = (((stacked y r).zip preds).count ((labelsOf y)[i], (labelsOf y)[j]) : ℝ)
          / ((stacked y r).count (labelsOf y)[i] : ℝ) := by
      intro j
      unfold cmReal condFreq
      congr 2
      rw [List.count]
      refine congrArg (fun p => List.countP p ((stacked y r).zip preds)) ?_
      funext t
      rw [Bool.eq_iff_iff]
      simp [Prod.ext_iff]
    simp_rw [hc]
    rw [← Finset.sum_div, ← Nat.cast_sum, ht]
    exact div_self (by positivity)

/-- **C08** (AC): with `r ≥ 1` stacked training predictions that are all known labels, `fit`
succeeds and entry `(i, j)` of the confusion matrix is the fraction of the examples of class `i`
predicted as class `j`; every row is a probability distribution. -/
theorem C08_ac_confusion [LinearOrder α] (ops : EstOps σ D α k) (enc : Bool → α) (w : World σ D α)
    (et et' : Option ℕ) (s : QState α k) (X : List D) (y : List α) (hy : y ≠ []) (r : ℕ) (hr : 0 < r)
    (preds : List α) (hlen : preds.length = r * y.length) (hk : ∀ a ∈ preds, a ∈ y) :
    ∃ f, acFit ops enc w et et' s X y (some (.crisp preds)) = .ok f
      ∧ f.classes = labelsOf y
      ∧ (∀ i j, f.cm i j
          = Fl.fin (condFreq (stacked y r) preds f.classes[i] f.classes[j]))
      ∧ ∀ i, IsPrevFl (f.cm i) := by
  refine ⟨_, acFit_crisp ops enc w et et' s X y hy r preds hlen, rfl, ?_, ?_⟩
  · intro i j
    have := congrFun (congrFun (normalizeRows_eq y r hr preds hlen hk) i) j
    exact this
  · intro i
    exact ⟨_, cmReal_row y r hr preds hlen hk i, congrFun (normalizeRows_eq y r hr preds hlen hk) i⟩

/-- **C08** (AC with an estimator): without given predictions, the matrix is that of the labels the
estimator predicts for the training examples, after training if it was not trained. -/
theorem C08_ac_estimator [LinearOrder α] (ops : EstOps σ D α k) (enc : Bool → α) (w : World σ D α)
    (e : ℕ) (s : QState α k) (X : List D) (y : List α) (hy : y ≠ []) (r : ℕ) (hr : 0 < r)
    (preds : List α)
    (hpreds : preds = ops.predict
      (if ops.notFitted (w.est e) then ops.fit (w.est e) X y else w.est e) X)
    (hlen : preds.length = r * y.length) (hk : ∀ a ∈ preds, a ∈ y) :
    ∃ f, acFit ops enc w (some e) none s X y none = .ok f
      ∧ f.classes = labelsOf y
      ∧ ∀ i j, f.cm i j = Fl.fin (condFreq (stacked y r) preds f.classes[i] f.classes[j]) := by
  have key : acFit ops enc w (some e) none s X y none
      = acFit ops enc w none none s X y (some (.crisp preds)) := by
    have he : (fitIfNeeded ops w (some e) X y).est e
        = if ops.notFitted (w.est e) then ops.fit (w.est e) X y else w.est e := by
      unfold fitIfNeeded
      simp only
      split <;> simp
    rw [hpreds, ← he]
    simp only [acFit, usingFit, trainPreds, probs2crisps, Except.map, Bool.and_true, Option.isNone_some,
      Option.isNone_none, Bool.true_and, Bool.and_false, Bool.false_eq_true, if_false, if_true]
    rw [show ∀ w : World σ D α, fitIfNeeded ops w none X y = w from fun _ => rfl]
    cases extendLabels y _ <;> rfl
  rw [key]
  obtain ⟨f, h1, h2, h3, _⟩ := C08_ac_confusion ops enc w none none s X y hy r hr preds hlen hk
  exact ⟨f, h1, h2, h3⟩

/-- Non-vacuity of C08: two repetitions of predictions for labels 1,1,2. -/
example : ([1, 2, 2, 1, 1, 2] : List ℕ).length = 2 * ([1, 1, 2] : List ℕ).length
    ∧ (∀ a ∈ ([1, 2, 2, 1, 1, 2] : List ℕ), a ∈ ([1, 1, 2] : List ℕ))
    ∧ condFreq (stacked ([1, 1, 2] : List ℕ) 2) [1, 2, 2, 1, 1, 2] 1 2 = 1/4 := by
  refine ⟨rfl, by decide, ?_⟩
  norm_num [condFreq, stacked, List.replicate]

/-! ### PAC -/

theorem zip_filter_length {β : Type*} [DecidableEq α] : ∀ (l : List α) (l' : List β),
    l.length = l'.length → ∀ c, ((l.zip l').filter fun t => decide (t.1 = c)).length = l.count c
  | [], [], _, c => by simp
  | a :: l, b :: l', h, c => by
    rw [List.zip_cons_cons, List.count_cons]
    have := zip_filter_length l l' (by simpa using h) c
    by_cases hc : a = c
    · rw [List.filter_cons_of_pos (by simpa using hc), List.length_cons, this]; simp [hc]
    · rw [List.filter_cons_of_neg (by simpa using hc), this]; simp [hc]

/-- The probabilistic confusion matrix as a real matrix. -/
noncomputable def pcmReal [LinearOrder α] (y : List α) (r : ℕ)
    (rows : List (Fin (labelsOf y).length → ℝ)) :
    Matrix (Fin (labelsOf y).length) (Fin (labelsOf y).length) ℝ :=
  fun i j => condMean (stacked y r) rows (fun row => row j) (labelsOf y)[i]

theorem pcm_entry [LinearOrder α] (y : List α) (r : ℕ) (hr : 0 < r)
    (rows : List (Fin (labelsOf y).length → ℝ)) (hlen : rows.length = r * y.length)
    (i j : Fin (labelsOf y).length) :
    colMeans (rowsOf (stacked y r) rows (labelsOf y)[i]) j = Fl.fin (pcmReal y r rows i j) := by
  have hpos := stacked_count_pos y r hr i
  have hl := zip_filter_length (stacked y r) rows (by rw [stacked_length, hlen]) (labelsOf y)[i]
  unfold colMeans rowsOf pcmReal condMean
  rw [List.length_map, hl, Fl.fin_div _ (by positivity), List.map_map]
  rfl

theorem pcmReal_row [LinearOrder α] (y : List α) (r : ℕ) (hr : 0 < r)
    (rows : List (Fin (labelsOf y).length → ℝ)) (hlen : rows.length = r * y.length)
    (hk : ∀ row ∈ rows, IsPrev row) (i : Fin (labelsOf y).length) : IsPrev (pcmReal y r rows i) := by
  have hpos := stacked_count_pos y r hr i
  have hmem : ∀ t ∈ ((stacked y r).zip rows).filter (fun t => decide (t.1 = (labelsOf y)[i])),
      IsPrev t.2 := fun t ht => hk _ (List.of_mem_zip (List.mem_filter.mp ht).1).2
  constructor
  · intro j
    unfold pcmReal condMean
    exact div_nonneg (list_sum_map_nonneg _ _ fun t ht => (hmem t ht).1 j) (by positivity)
  · have hl := zip_filter_length (stacked y r) rows (by rw [stacked_length, hlen]) (labelsOf y)[i]
    unfold pcmReal condMean
    rw [← Finset.sum_div]
    have h1 := sum_list_map_comm Finset.univ
      (((stacked y r).zip rows).filter (fun t => decide (t.1 = (labelsOf y)[i])))
      (fun (t : α × (Fin (labelsOf y).length → ℝ)) j => t.2 j)
    rw [h1, list_sum_const _ _ 1 (fun t ht => (hmem t ht).2), hl, mul_one]
    exact div_self (by positivity)

/-- `PAC.fit` on supplied posterior rows, in closed form. -/
theorem pacFit_probs [LinearOrder α] (y : List α) (hy : y ≠ []) (r : ℕ) (hr : 0 < r)
    (ops : EstOps σ D α (labelsOf y).length) (enc : Bool → α) (w : World σ D α) (et et' : Option ℕ)
    (s : QState α (labelsOf y).length) (X : List D) (rows : List (Fin (labelsOf y).length → ℝ))
    (hlen : rows.length = r * y.length) :
    pacFit ops enc w et et' s X y (some (.probs rows))
      = .ok ⟨labelsOf y, fun i j => Fl.fin (pcmReal y r rows i j)⟩ := by
  have ht := extendLabels_tile y hy r
  rw [← hlen] at ht
  have hl : (npTile y r).length = rows.length := by
    rw [hlen, ← stacked_eq_npTile, stacked_length]
  have he : ∀ i j : Fin (labelsOf y).length,
      colMeans (rowsOf (npTile y r) rows (labelsOf y)[i]) j = Fl.fin (pcmReal y r rows i j) :=
    fun i j => pcm_entry y r hr rows hlen i j
  have he' : (fun i j : Fin (labelsOf y).length =>
      colMeans (rowsOf (npTile y r) rows (labelsOf y)[i.1]) j)
      = fun i j => Fl.fin (pcmReal y r rows i j) := funext fun i => funext fun j => he i j
  simp [pacFit, usingFit, trainPreds, Preds.len, ht, hl, npUnique_eq_labelsOf, he']

/-- **C08** (PAC): row `i` of the matrix learned by PAC is the mean posterior of the examples of
class `i`, a probability distribution. -/
theorem C08_pac_confusion [LinearOrder α] (y : List α) (hy : y ≠ []) (r : ℕ) (hr : 0 < r)
    (ops : EstOps σ D α (labelsOf y).length) (enc : Bool → α) (w : World σ D α) (et et' : Option ℕ)
    (s : QState α (labelsOf y).length) (X : List D) (rows : List (Fin (labelsOf y).length → ℝ))
    (hlen : rows.length = r * y.length) (hk : ∀ row ∈ rows, IsPrev row) :
    ∃ f, pacFit ops enc w et et' s X y (some (.probs rows)) = .ok f
      ∧ ∃ hc : f.classes = labelsOf y,
        (∀ i j, f.cm i j = Fl.fin (condMean (stacked y r) rows
          (fun row => row (Fin.cast (congrArg List.length hc) j)) f.classes[i]))
      ∧ ∀ i, IsPrevFl (f.cm i) :=
  ⟨_, pacFit_probs y hy r hr ops enc w et et' s X rows hlen, rfl, fun _ _ => rfl,
    fun i => ⟨_, pcmReal_row y r hr rows hlen hk i, rfl⟩⟩

/-! ## C09 -/

/-- **C09** (formula): when the rates differ by more than 0.001 the two-class branch returns
Forman's estimate clipped to [0,1], and its complement. -/
theorem C09_binary_formula (cm : Fin 2 → Fin 2 → Fl) (p0 : Fin 2 → Fl) (tpr fpr q : ℝ)
    (ht : cm 1 1 = Fl.fin tpr) (hf : cm 0 1 = Fl.fin fpr) (hq : p0 1 = Fl.fin q)
    (h : 1/1000 < |tpr - fpr|) (sol : Solvers) (dist : Dist) :
    adjust sol dist cm p0 = .ok ![Fl.fin (1 - max 0 (min ((q - fpr) / (tpr - fpr)) 1)),
      Fl.fin (max 0 (min ((q - fpr) / (tpr - fpr)) 1))] :=
  congrArg Except.ok (binaryAdjust_adjusted cm p0 tpr fpr q ht hf hq h)

/-- **C09** (degenerate rates): otherwise a valid observed estimate is returned unchanged; this
includes NaN rates, which appear when a class has no usable training prediction. -/
theorem C09_binary_unadjusted (cm : Fin 2 → Fin 2 → Fl) (p : Fin 2 → ℝ) (hp : IsPrev p)
    (h : ¬ ∃ t f, cm 1 1 = Fl.fin t ∧ cm 0 1 = Fl.fin f ∧ 1/1000 < |t - f|)
    (hfin : ∀ i, cm i 1 ≠ Fl.pinf ∧ cm i 1 ≠ Fl.ninf) (sol : Solvers) (dist : Dist) :
    adjust sol dist cm (fun i => Fl.fin (p i)) = .ok fun i => Fl.fin (p i) := by
  refine congrArg Except.ok (binaryAdjust_unadjusted cm p hp ?_)
  have h0 := hfin 0
  have h1 := hfin 1
  cases h11 : cm 1 1 with
  | fin t =>
    cases h01 : cm 0 1 with
    | fin f =>
      intro hlt
      apply h
      refine ⟨t, f, h11, h01, ?_⟩
      simpa [h11, h01] using hlt
    | nan =>
      show ¬ (Fl.fin (1/1000) < Fl.abs (Fl.fin t + -Fl.nan))
      exact Fl.not_lt_nan _
    | pinf => exact absurd h01 h0.1
    | ninf => exact absurd h01 h0.2
  | nan =>
    show ¬ (Fl.fin (1/1000) < Fl.abs (Fl.nan + -cm 0 1))
    rw [Fl.nan_add]
    exact Fl.not_lt_nan _
  | pinf => exact absurd h11 h1.1
  | ninf => exact absurd h11 h1.2

theorem isPrevFl_binary (v : ℝ) : IsPrevFl ![Fl.fin (1 - max 0 (min v 1)), Fl.fin (max 0 (min v 1))] := by
  refine ⟨![1 - max 0 (min v 1), max 0 (min v 1)], ⟨?_, ?_⟩, ?_⟩
  · intro i
    fin_cases i
    · simp
    · simp
  · simp [Fin.sum_univ_two]
  · funext i
    fin_cases i <;> rfl

/-- The two-class branch always produces a valid prevalence vector from a valid one. -/
theorem binaryAdjust_valid (cm : Fin 2 → Fin 2 → Fl) (p : Fin 2 → ℝ) (hp : IsPrev p)
    (hfin : ∀ i, cm i 1 ≠ Fl.pinf ∧ cm i 1 ≠ Fl.ninf) :
    IsPrevFl (binaryAdjust cm fun i => Fl.fin (p i)) := by
  by_cases h : ∃ t f, cm 1 1 = Fl.fin t ∧ cm 0 1 = Fl.fin f ∧ 1/1000 < |t - f|
  · obtain ⟨t, f, ht, hf, h⟩ := h
    rw [binaryAdjust_adjusted cm _ t f (p 1) ht hf rfl h]
    exact isPrevFl_binary _
  · have := C09_binary_unadjusted cm p hp h hfin ⟨fun _ _ _ => 0, fun _ _ _ => 0, fun _ _ _ => 0⟩ .HD
    injection this with this
    rw [this]
    exact ⟨p, hp, rfl⟩

theorem normalizeRows_noinf {n : ℕ} (cm : Fin n → Fin n → ℕ) (i j : Fin n) :
    normalizeRows cm i j ≠ Fl.pinf ∧ normalizeRows cm i j ≠ Fl.ninf := by
  unfold normalizeRows
  rw [Fl.fin_div_def]
  split
  · rename_i h
    have h0 : cm i j = 0 := by
      have h' : (∑ l, cm i l) = 0 := by exact_mod_cast h
      exact (Finset.sum_eq_zero_iff.mp h') j (Finset.mem_univ j)
    simp [h0, Fl.scaleInf]
  · simp

theorem adjust_two_valid (sol : Solvers) (dist : Dist) {n : ℕ} (hn : n = 2) (cm : Fin n → Fin n → Fl)
    (p : Fin n → ℝ) (hp : IsPrev p) (hfin : ∀ i j, cm i j ≠ Fl.pinf ∧ cm i j ≠ Fl.ninf) :
    ∃ v, adjust sol dist cm (fun i => Fl.fin (p i)) = .ok v ∧ IsPrevFl v := by
  subst hn
  exact ⟨_, rfl, binaryAdjust_valid cm p hp fun i => hfin i 1⟩

theorem acFit_noinf [LinearOrder α] (ops : EstOps σ D α k) (enc : Bool → α) (w : World σ D α)
    (et et' : Option ℕ) (s : QState α k) (X : List D) (y : List α) (pt : Option (Preds α k))
    (f : ACFit α) (hf : acFit ops enc w et et' s X y pt = .ok f) :
    f.classes = labelsOf y ∧ ∀ i j, f.cm i j ≠ Fl.pinf ∧ f.cm i j ≠ Fl.ninf := by
  unfold acFit at hf
  split at hf
  · cases hf
  · split at hf
    · rename_i ye p _ _
      cases hcm : confusionMatrix (npUnique y) ye p with
      | error e => rw [hcm] at hf; cases hf
      | ok cm =>
        rw [hcm] at hf
        simp only [Except.map, Except.ok.injEq] at hf
        rw [← hf]
        exact ⟨rfl, fun i j => normalizeRows_noinf cm i j⟩
    · cases hf

theorem acPredict_crisp [DecidableEq α] (ops : EstOps σ D α k) (enc : Bool → α) (w : World σ D α)
    (et et' : Option ℕ) (sol : Solvers) (dist : Dist) (f : ACFit α) (X : List D) (preds : List α)
    (hne : preds ≠ []) :
    acPredict ops enc w et et' sol dist f X (some (.crisp preds))
      = adjust sol dist f.cm (fun i => Fl.fin (freqs f.classes preds i)) := by
  rw [← classFreqs_eq f.classes preds hne]
  simp [acPredict, usingPredict, probs2crisps, Except.map]

/-- **C09** (AC, end to end): with two classes, whatever training predictions were given and
whatever the rates turned out to be (NaN included), a nonempty bag of known labels always gets a
valid prevalence vector. -/
theorem C09_ac_binary_valid [LinearOrder α] (ops : EstOps σ D α k) (enc : Bool → α) (w w' : World σ D α)
    (et et' : Option ℕ) (s : QState α k) (X X' : List D) (y : List α) (pt : Option (Preds α k))
    (f : ACFit α) (hf : acFit ops enc w et et' s X y pt = .ok f) (h2 : (labelsOf y).length = 2)
    (sol : Solvers) (dist : Dist) (preds : List α) (hne : preds ≠ []) (hk : ∀ a ∈ preds, a ∈ y) :
    ∃ v, acPredict ops enc w' et et' sol dist f X' (some (.crisp preds)) = .ok v ∧ IsPrevFl v := by
  obtain ⟨hc, hfin⟩ := acFit_noinf ops enc w et et' s X y pt f hf
  rw [acPredict_crisp _ _ _ _ _ _ _ _ _ _ hne]
  refine adjust_two_valid sol dist (by rw [hc, h2]) _ _ ?_ hfin
  rw [hc]
  exact freqs_isPrev _ (labelsOf_nodup y) _ hne fun a ha => (mem_labelsOf y a).2 (hk a ha)

/-- **C09** (PWK, end to end). -/
theorem C09_pwk_binary_valid [LinearOrder α] (y predsTrain : List α) (f : ACFit α)
    (hf : pwkqFit y predsTrain = .ok f) (h2 : (labelsOf y).length = 2) (sol : Solvers)
    (preds : List α) (hne : preds ≠ []) (hk : ∀ a ∈ preds, a ∈ y) :
    IsPrevFl (pwkqPredict sol f preds) := by
  have hcf : f.classes = labelsOf y ∧ ∀ i j, f.cm i j ≠ Fl.pinf ∧ f.cm i j ≠ Fl.ninf := by
    unfold pwkqFit at hf
    cases hcm : confusionMatrix (npUnique y) y predsTrain with
    | error e => rw [hcm] at hf; cases hf
    | ok cm =>
      rw [hcm] at hf
      simp only [Except.map, Except.ok.injEq] at hf
      rw [← hf]
      exact ⟨rfl, fun i j => normalizeRows_noinf cm i j⟩
  obtain ⟨hc, hfin⟩ := hcf
  unfold pwkqPredict
  rw [classFreqs_eq _ _ hne]
  have hp : IsPrev (freqs f.classes preds) := by
    rw [hc]
    exact freqs_isPrev _ (labelsOf_nodup y) _ hne fun a ha => (mem_labelsOf y a).2 (hk a ha)
  have hl : f.classes.length = 2 := by rw [hc, h2]
  revert hp hfin
  generalize freqs f.classes preds = p
  generalize f.cm = cm
  revert cm p
  generalize f.classes.length = n at hl ⊢
  subst hl
  intro p cm hfin hp
  exact binaryAdjust_valid cm p hp fun i => hfin i 1

/-- Non-vacuity of C09: labels 1, 2 and predictions 2, 1 (rates 1 and 0). -/
example : (labelsOf ([1, 2] : List ℕ)).length = 2 ∧ ∀ a ∈ ([2, 1, 2] : List ℕ), a ∈ ([1, 2] : List ℕ) := by
  refine ⟨?_, by decide⟩
  rw [labelsOf_eq _ [1, 2] (by decide) (by decide)]
  rfl

theorem colMeans_eq (rows : List (Fin k → ℝ)) (hne : rows ≠ []) :
    colMeans rows = fun j => Fl.fin (meanOf rows fun row => row j) := by
  have hl : (rows.length : ℝ) ≠ 0 := by simpa using hne
  funext j
  simp only [colMeans, meanOf]
  rw [Fl.fin_div _ hl]

theorem meanOf_isPrev {n : ℕ} (rows : List (Fin n → ℝ)) (hne : rows ≠ []) (hk : ∀ row ∈ rows, IsPrev row) :
    IsPrev fun j => meanOf rows fun row => row j := by
  have hl : (rows.length : ℝ) ≠ 0 := by simpa using hne
  constructor
  · intro j
    exact div_nonneg (list_sum_map_nonneg _ _ fun r hr => (hk r hr).1 j) (by positivity)
  · unfold meanOf
    rw [← Finset.sum_div, sum_list_map_comm Finset.univ rows (fun r j => r j),
      list_sum_const _ _ 1 (fun r hr => (hk r hr).2), mul_one]
    exact div_self hl

theorem pacPredict_probs (f : ACFit α) (ops : EstOps σ D α f.classes.length) (enc : Bool → α)
    (w : World σ D α) (et et' : Option ℕ) (sol : Solvers) (dist : Dist) (X : List D)
    (rows : List (Fin f.classes.length → ℝ)) (hne : rows ≠ []) :
    pacPredict ops enc w et et' sol dist f X (some (.probs rows))
      = adjust sol dist f.cm (fun j => Fl.fin (meanOf rows fun row => row j)) := by
  have := colMeans_eq rows hne
  simp [pacPredict, usingPredict, this]

/-- **C09** (PAC, end to end). -/
theorem C09_pac_binary_valid [LinearOrder α] (y : List α) (hy : y ≠ []) (r : ℕ) (hr : 0 < r)
    (ops : EstOps σ D α (labelsOf y).length) (enc : Bool → α) (w w' : World σ D α) (et et' : Option ℕ)
    (s : QState α (labelsOf y).length) (X X' : List D) (rows : List (Fin (labelsOf y).length → ℝ))
    (hlen : rows.length = r * y.length) (h2 : (labelsOf y).length = 2) (sol : Solvers) (dist : Dist)
    (test : List (Fin (labelsOf y).length → ℝ)) (hne : test ≠ []) (hk : ∀ row ∈ test, IsPrev row) :
    ∃ f, pacFit ops enc w et et' s X y (some (.probs rows)) = .ok f
      ∧ ∃ v, pacPredict ops enc w' et et' sol dist f X' (some (.probs test)) = .ok v ∧ IsPrevFl v := by
  refine ⟨_, pacFit_probs y hy r hr ops enc w et et' s X rows hlen, ?_⟩
  have := pacPredict_probs (σ := σ) (D := D)
    ⟨labelsOf y, fun i j => Fl.fin (pcmReal y r rows i j)⟩ ops enc w' et et' sol dist X' test hne
  rw [this]
  exact adjust_two_valid sol dist h2 _ _ (meanOf_isPrev test hne hk) fun i j => by simp

/-! ## C10 -/

theorem IsPrev_pos_part {n : ℕ} (x : Fin n → ℝ) (hx : ∑ i, x i = 1) :
    0 < (∑ i, max 0 (x i)) ∧ IsPrev fun i => max 0 (x i) / ∑ i, max 0 (x i) := by
  have h1 : 1 ≤ ∑ i, max 0 (x i) := by
    rw [← hx]
    exact Finset.sum_le_sum fun i _ => le_max_right _ _
  have hpos : 0 < ∑ i, max 0 (x i) := by linarith
  refine ⟨hpos, fun i => div_nonneg (le_max_left _ _) hpos.le, ?_⟩
  rw [← Finset.sum_div]
  exact div_self hpos.ne'

/-- **C10**: for any number of classes other than two, if the matrix has rows adding up to 1
and is invertible, and the observed prevalences add up to 1, the values returned are
nonnegative and add up to 1. -/
theorem C10_multi_valid (sol : Solvers) (dist : Dist) {n : ℕ} (hn : n ≠ 2)
    (M : Matrix (Fin n) (Fin n) ℝ) (hrow : ∀ i, ∑ j, M i j = 1) (hM : M.det ≠ 0) (p0 : Fin n → ℝ)
    (hp0 : ∑ i, p0 i = 1) :
    ∃ v, adjust sol dist (fun i j => Fl.fin (M i j)) (fun i => Fl.fin (p0 i)) = .ok v ∧ IsPrevFl v := by
  have hx : ∑ i, adjX M p0 i = 1 := by rw [adjX_sum M hM hrow, hp0]
  obtain ⟨hpos, hv⟩ := IsPrev_pos_part _ hx
  rw [adjust_ne_two sol dist hn, multiAdjust_fin sol dist M hM p0 hpos.ne']
  exact ⟨_, rfl, _, hv, rfl⟩

/-- **C10** (AC, end to end): fitting on known predictions and predicting a nonempty bag of known
predictions returns a valid prevalence vector whenever the matrix of conditional frequencies is
invertible. -/
theorem C10_ac_valid [LinearOrder α] (ops : EstOps σ D α k) (enc : Bool → α) (w w' : World σ D α)
    (et et' : Option ℕ) (s : QState α k) (X X' : List D) (y : List α) (hy : y ≠ []) (r : ℕ)
    (hr : 0 < r) (ptrain : List α) (hlen : ptrain.length = r * y.length)
    (hkt : ∀ a ∈ ptrain, a ∈ y) (hn : (labelsOf y).length ≠ 2)
    (hdet : Matrix.det (fun i j : Fin (labelsOf y).length =>
      condFreq (stacked y r) ptrain (labelsOf y)[i] (labelsOf y)[j]) ≠ 0)
    (sol : Solvers) (dist : Dist) (preds : List α) (hne : preds ≠ []) (hk : ∀ a ∈ preds, a ∈ y) :
    ∃ f, acFit ops enc w et et' s X y (some (.crisp ptrain)) = .ok f
      ∧ ∃ v, acPredict ops enc w' et et' sol dist f X' (some (.crisp preds)) = .ok v ∧ IsPrevFl v := by
  refine ⟨_, acFit_crisp ops enc w et et' s X y hy r ptrain hlen, ?_⟩
  rw [acPredict_crisp _ _ _ _ _ _ _ _ _ _ hne, normalizeRows_eq y r hr ptrain hlen hkt]
  exact C10_multi_valid sol dist hn (cmReal y r ptrain)
    (fun i => (cmReal_row y r hr ptrain hlen hkt i).2) hdet _
    (freqs_isPrev _ (labelsOf_nodup y) _ hne fun a ha => (mem_labelsOf y a).2 (hk a ha)).2

/-- **C10** (PAC, end to end). -/
theorem C10_pac_valid [LinearOrder α] (y : List α) (hy : y ≠ []) (r : ℕ) (hr : 0 < r)
    (ops : EstOps σ D α (labelsOf y).length) (enc : Bool → α) (w w' : World σ D α) (et et' : Option ℕ)
    (s : QState α (labelsOf y).length) (X X' : List D) (rows : List (Fin (labelsOf y).length → ℝ))
    (hlen : rows.length = r * y.length) (hkt : ∀ row ∈ rows, IsPrev row)
    (hn : (labelsOf y).length ≠ 2)
    (hdet : Matrix.det (fun i j : Fin (labelsOf y).length =>
      condMean (stacked y r) rows (fun row => row j) (labelsOf y)[i]) ≠ 0)
    (sol : Solvers) (dist : Dist) (test : List (Fin (labelsOf y).length → ℝ)) (hne : test ≠ [])
    (hk : ∀ row ∈ test, IsPrev row) :
    ∃ f, pacFit ops enc w et et' s X y (some (.probs rows)) = .ok f
      ∧ ∃ v, pacPredict ops enc w' et et' sol dist f X' (some (.probs test)) = .ok v ∧ IsPrevFl v := by
  refine ⟨_, pacFit_probs y hy r hr ops enc w et et' s X rows hlen, ?_⟩
  have := pacPredict_probs (σ := σ) (D := D)
    ⟨labelsOf y, fun i j => Fl.fin (pcmReal y r rows i j)⟩ ops enc w' et et' sol dist X' test hne
  rw [this]
  exact C10_multi_valid sol dist hn (pcmReal y r rows)
    (fun i => (pcmReal_row y r hr rows hlen hkt i).2) hdet _ (meanOf_isPrev test hne hk).2

/-- **C10** (singular matrix): the solver for the chosen distance decides; an unknown distance is
a `ValueError`. -/
theorem C10_singular (sol : Solvers) (dist : Dist) {n : ℕ} (hn : n ≠ 2)
    (M : Matrix (Fin n) (Fin n) ℝ) (hM : M.det = 0) (p0 : Fin n → Fl) :
    adjust sol dist (fun i j => Fl.fin (M i j)) p0
      = match dist with
        | .HD => .ok (sol.hd (fun i j => Fl.fin (M j i)) p0)
        | .L1 => .ok (sol.l1 (fun i j => Fl.fin (M j i)) p0)
        | .L2 => .ok (sol.l2 (fun i j => Fl.fin (M j i)) p0)
        | .other => .error .valueError := by
  have h1 : scipyInv (fun i j => Fl.fin (M j i)) = .error .linAlgError := by
    have := scipyInv_fin M.transpose
    rw [if_pos (by rwa [Matrix.det_transpose])] at this
    exact this
  rw [adjust_ne_two sol dist hn]
  unfold multiAdjust
  simp only [h1]
  cases dist <;> rfl

/-- Non-vacuity of C10: the identity matrix for three classes. -/
example : ((1 : Matrix (Fin 3) (Fin 3) ℝ).det ≠ 0) ∧ ∀ i, ∑ j, (1 : Matrix (Fin 3) (Fin 3) ℝ) i j = 1 := by
  refine ⟨by simp, fun i => ?_⟩
  simp [Matrix.one_apply]

/-! ## C11 -/

/-- **C11** (more than two classes): if the observed prevalences are the mixture of the rows of an
invertible matrix with weights `p`, exactly `p` is returned. -/
theorem C11_multi_recovery (sol : Solvers) (dist : Dist) {n : ℕ} (hn : n ≠ 2)
    (M : Matrix (Fin n) (Fin n) ℝ) (hM : M.det ≠ 0) (p : Fin n → ℝ) (hp : IsPrev p) :
    adjust sol dist (fun i j => Fl.fin (M i j)) (fun j => Fl.fin (∑ i, p i * M i j))
      = .ok fun i => Fl.fin (p i) := by
  have hx : adjX M (fun j => ∑ i, p i * M i j) = p :=
    adjX_unique M hM p _ fun j => Finset.sum_congr rfl fun i _ => mul_comm _ _
  have hmax : ∀ i, max 0 (adjX M (fun j => ∑ i, p i * M i j) i) = p i := fun i => by
    rw [hx, max_eq_right (hp.1 i)]
  have hs : (∑ i, max 0 (adjX M (fun j => ∑ i, p i * M i j) i)) = 1 := by
    simp_rw [hmax, hp.2]
  rw [adjust_ne_two sol dist hn, multiAdjust_fin sol dist M hM _ (by rw [hs]; exact one_ne_zero)]
  simp_rw [hs, hmax, div_one]

/-- **C11** (two classes): the same whenever `|tpr - fpr| > 0.001`. -/
theorem C11_binary_recovery (sol : Solvers) (dist : Dist) (M : Matrix (Fin 2) (Fin 2) ℝ)
    (hM : 1/1000 < |M 1 1 - M 0 1|) (p : Fin 2 → ℝ) (hp : IsPrev p) :
    adjust sol dist (fun i j => Fl.fin (M i j)) (fun j => Fl.fin (∑ i, p i * M i j))
      = .ok fun i => Fl.fin (p i) := by
  have hd : M 1 1 - M 0 1 ≠ 0 := by
    intro h0
    rw [h0] at hM
    norm_num at hM
  rw [C09_binary_formula _ _ (M 1 1) (M 0 1) (∑ i, p i * M i 1) rfl rfl rfl hM]
  have hp2 := hp.2
  rw [Fin.sum_univ_two] at hp2
  have h1 : ((∑ i, p i * M i 1) - M 0 1) / (M 1 1 - M 0 1) = p 1 := by
    rw [Fin.sum_univ_two, div_eq_iff hd]
    have : p 0 = 1 - p 1 := by linarith
    rw [this]
    ring
  rw [h1, min_eq_left (hp.le_one 1), max_eq_right (hp.1 1)]
  congr 1
  funext i
  fin_cases i
  · show Fl.fin (1 - p 1) = Fl.fin (p 0)
    congr 1
    linarith
  · rfl

/-- Either non-degeneracy condition, according to the number of classes. -/
def NonDegenerate {n : ℕ} (M : Matrix (Fin n) (Fin n) ℝ) : Prop :=
  (n ≠ 2 ∧ M.det ≠ 0)
    ∨ ∃ h : n = 2, 1/1000 < |M (Fin.cast h.symm 1) (Fin.cast h.symm 1)
        - M (Fin.cast h.symm 0) (Fin.cast h.symm 1)|

/-- **C11**: exact recovery under prior probability shift, any number of classes. -/
theorem C11_recovery (sol : Solvers) (dist : Dist) {n : ℕ} (M : Matrix (Fin n) (Fin n) ℝ)
    (hM : NonDegenerate M) (p : Fin n → ℝ) (hp : IsPrev p) :
    adjust sol dist (fun i j => Fl.fin (M i j)) (fun j => Fl.fin (∑ i, p i * M i j))
      = .ok fun i => Fl.fin (p i) := by
  rcases hM with ⟨hn, hM⟩ | ⟨h, hM⟩
  · exact C11_multi_recovery sol dist hn M hM p hp
  · subst h
    exact C11_binary_recovery sol dist M hM p hp

example : NonDegenerate (1 : Matrix (Fin 2) (Fin 2) ℝ) := by
  refine .inr ⟨rfl, ?_⟩
  norm_num [Matrix.one_apply]

/-! ## C12 -/

theorem freqs_stacked [LinearOrder α] (y : List α) (r : ℕ) (hr : 0 < r) :
    freqs (labelsOf y) (stacked y r) = freqs (labelsOf y) y := by
  funext i
  unfold freqs freq
  rw [stacked_count, stacked_length]
  have : (r : ℝ) ≠ 0 := by positivity
  push_cast
  rw [mul_div_mul_left _ _ this]

theorem mixture_of_training [LinearOrder α] (y : List α) (hy : y ≠ []) (r : ℕ) (hr : 0 < r)
    (preds : List α) (hlen : preds.length = r * y.length) (j : Fin (labelsOf y).length) :
    ∑ i, freqs (labelsOf y) y i * cmReal y r preds i j = freqs (labelsOf y) preds j := by
  rw [← freqs_stacked y r hr]
  have hlen' : (stacked y r).length = preds.length := by rw [stacked_length, hlen]
  have hy0 : y.length ≠ 0 := by simpa using hy
  have hN : ((stacked y r).length : ℝ) ≠ 0 := by
    rw [stacked_length]
    have : r * y.length ≠ 0 := Nat.mul_ne_zero hr.ne' hy0
    exact_mod_cast this
  have hterm : ∀ i, freqs (labelsOf y) (stacked y r) i * cmReal y r preds i j
      = (((stacked y r).zip preds).count ((labelsOf y)[i], (labelsOf y)[j]) : ℝ)
        / ((stacked y r).length : ℝ) := by
    intro i
    have hpos := stacked_count_pos y r hr i
    have hc0 : ((stacked y r).count (labelsOf y)[i] : ℝ) ≠ 0 := by positivity
    have hc : cmReal y r preds i j
        = (((stacked y r).zip preds).count ((labelsOf y)[i], (labelsOf y)[j]) : ℝ)
          / ((stacked y r).count (labelsOf y)[i] : ℝ) := by
      unfold cmReal condFreq
      congr 2
      rw [List.count]
      refine congrArg (fun p => List.countP p ((stacked y r).zip preds)) ?_
      funext t
      rw [Bool.eq_iff_iff]
      simp [Prod.ext_iff]
    rw [hc]
    unfold freqs freq
    field_simp
  simp_rw [hterm]
  rw [← Finset.sum_div, ← Nat.cast_sum]
  have h1 := sum_count_fst (labelsOf y) (labelsOf_nodup y) ((stacked y r).zip preds) (labelsOf y)[j]
    (fun t ht => (mem_labelsOf y _).2 (mem_stacked y r _ (List.of_mem_zip ht).1))
  rw [show (∑ i : Fin (labelsOf y).length,
    ((stacked y r).zip preds).count ((labelsOf y)[i], (labelsOf y)[j])) = _ from h1,
    zip_countP_snd _ _ hlen', hlen']
  rfl

/-- **C12** (AC): predicting the very predictions it was fitted on returns the class frequencies
of the training labels. -/
theorem C12_ac_self [LinearOrder α] (ops : EstOps σ D α k) (enc : Bool → α) (w w' : World σ D α)
    (et et' : Option ℕ) (s : QState α k) (X X' : List D) (y : List α) (hy : y ≠ []) (r : ℕ)
    (hr : 0 < r) (preds : List α) (hlen : preds.length = r * y.length) (hk : ∀ a ∈ preds, a ∈ y)
    (hM : NonDegenerate (fun i j : Fin (labelsOf y).length =>
      condFreq (stacked y r) preds (labelsOf y)[i] (labelsOf y)[j])) (sol : Solvers) (dist : Dist) :
    ∃ f, acFit ops enc w et et' s X y (some (.crisp preds)) = .ok f
      ∧ f.classes = labelsOf y
      ∧ acPredict ops enc w' et et' sol dist f X' (some (.crisp preds))
          = .ok fun i => Fl.fin (freqs f.classes y i) := by
  refine ⟨_, acFit_crisp ops enc w et et' s X y hy r preds hlen, rfl, ?_⟩
  have hne : preds ≠ [] := by
    intro h
    have hy0 : y.length ≠ 0 := by simpa using hy
    rw [h] at hlen
    exact Nat.mul_ne_zero hr.ne' hy0 hlen.symm
  rw [acPredict_crisp _ _ _ _ _ _ _ _ _ _ hne, normalizeRows_eq y r hr preds hlen hk]
  simp_rw [← mixture_of_training y hy r hr preds hlen]
  exact C11_recovery sol dist _ hM _
    (freqs_isPrev _ (labelsOf_nodup y) y hy fun a ha => (mem_labelsOf y a).2 ha)

theorem sum_over_classes {β : Type*} [DecidableEq α] (cs : List α) (hcs : cs.Nodup)
    (f : β → ℝ) : ∀ (z : List (α × β)), (∀ t ∈ z, t.1 ∈ cs) →
    (∑ i : Fin cs.length, ((z.filter fun t => decide (t.1 = cs[i])).map fun t => f t.2).sum)
      = (z.map fun t => f t.2).sum
  | [], _ => by simp
  | t :: z, h => by
    have ih := sum_over_classes cs hcs f z fun t ht => h t (by simp [ht])
    rw [List.map_cons, List.sum_cons, ← ih]
    obtain ⟨i, hi, hti⟩ := List.getElem_of_mem (h t (by simp))
    have hsplit : ∀ j : Fin cs.length,
        (((t :: z).filter fun t => decide (t.1 = cs[j])).map fun t => f t.2).sum
        = (if j = ⟨i, hi⟩ then f t.2 else 0)
          + ((z.filter fun t => decide (t.1 = cs[j])).map fun t => f t.2).sum := by
      intro j
      by_cases hj : j = ⟨i, hi⟩
      · subst hj
        rw [List.filter_cons_of_pos (by simp [hti]), if_pos rfl, List.map_cons, List.sum_cons]
      · have hne : ¬ t.1 = cs[j] := by
          intro heq
          apply hj
          rw [← hti] at heq
          have := (hcs.getElem_inj_iff (hi := hi) (hj := j.2)).mp heq
          exact Fin.ext this.symm
        rw [List.filter_cons_of_neg (by simpa using hne), if_neg hj, zero_add]
    simp_rw [hsplit]
    rw [Finset.sum_add_distrib]
    simp

theorem zip_map_snd_sum {β : Type*} (f : β → ℝ) : ∀ (l : List α) (l' : List β), l.length = l'.length →
    ((l.zip l').map fun t => f t.2).sum = (l'.map f).sum
  | [], [], _ => by simp
  | a :: l, b :: l', h => by
    simp only [List.zip_cons_cons, List.map_cons, List.sum_cons]
    rw [zip_map_snd_sum f l l' (by simpa using h)]

theorem pmixture_of_training [LinearOrder α] (y : List α) (r : ℕ) (hr : 0 < r)
    (rows : List (Fin (labelsOf y).length → ℝ)) (hlen : rows.length = r * y.length)
    (j : Fin (labelsOf y).length) :
    ∑ i, freqs (labelsOf y) y i * pcmReal y r rows i j = meanOf rows fun row => row j := by
  rw [← freqs_stacked y r hr]
  have hlen' : (stacked y r).length = rows.length := by rw [stacked_length, hlen]
  have hterm : ∀ i, freqs (labelsOf y) (stacked y r) i * pcmReal y r rows i j
      = ((((stacked y r).zip rows).filter fun t => decide (t.1 = (labelsOf y)[i])).map
          fun t => t.2 j).sum / ((stacked y r).length : ℝ) := by
    intro i
    have hpos := stacked_count_pos y r hr i
    have hc0 : ((stacked y r).count (labelsOf y)[i] : ℝ) ≠ 0 := by positivity
    unfold pcmReal condMean freqs freq
    field_simp
  simp_rw [hterm]
  rw [← Finset.sum_div]
  have h1 := sum_over_classes (labelsOf y) (labelsOf_nodup y)
    (fun row : Fin (labelsOf y).length → ℝ => row j) ((stacked y r).zip rows)
    (fun t ht => (mem_labelsOf y _).2 (mem_stacked y r _ (List.of_mem_zip ht).1))
  rw [h1, zip_map_snd_sum (fun row : Fin (labelsOf y).length → ℝ => row j) _ _ hlen', hlen']
  rfl

/-- **C12** (PAC). -/
theorem C12_pac_self [LinearOrder α] (y : List α) (hy : y ≠ []) (r : ℕ) (hr : 0 < r)
    (ops : EstOps σ D α (labelsOf y).length) (enc : Bool → α) (w w' : World σ D α) (et et' : Option ℕ)
    (s : QState α (labelsOf y).length) (X X' : List D) (rows : List (Fin (labelsOf y).length → ℝ))
    (hlen : rows.length = r * y.length)
    (hM : NonDegenerate (fun i j : Fin (labelsOf y).length =>
      condMean (stacked y r) rows (fun row => row j) (labelsOf y)[i])) (sol : Solvers) (dist : Dist) :
    ∃ f, pacFit ops enc w et et' s X y (some (.probs rows)) = .ok f
      ∧ f.classes = labelsOf y
      ∧ pacPredict ops enc w' et et' sol dist f X' (some (.probs rows))
          = .ok fun i => Fl.fin (freqs f.classes y i) := by
  refine ⟨_, pacFit_probs y hy r hr ops enc w et et' s X rows hlen, rfl, ?_⟩
  have hne : rows ≠ [] := by
    intro h
    have hy0 : y.length ≠ 0 := by simpa using hy
    rw [h] at hlen
    exact Nat.mul_ne_zero hr.ne' hy0 hlen.symm
  have := pacPredict_probs (σ := σ) (D := D)
    ⟨labelsOf y, fun i j => Fl.fin (pcmReal y r rows i j)⟩ ops enc w' et et' sol dist X' rows hne
  rw [this]
  have hmix := pmixture_of_training y r hr rows hlen
  have h2 : (fun j : Fin (labelsOf y).length => Fl.fin (meanOf rows fun row => row j))
      = fun j => Fl.fin (∑ i, freqs (labelsOf y) y i * pcmReal y r rows i j) := by
    funext j
    rw [hmix j]
  show adjust sol dist (fun i j => Fl.fin (pcmReal y r rows i j))
      (fun j : Fin (labelsOf y).length => Fl.fin (meanOf rows fun row => row j)) = _
  rw [h2]
  exact C11_recovery sol dist _ hM _
    (freqs_isPrev _ (labelsOf_nodup y) y hy fun a ha => (mem_labelsOf y a).2 ha)

/-- Non-vacuity of C12: labels 1,1,2,2 and predictions 1,2,2,2 give tpr = 1, fpr = 1/2. -/
example : condFreq (stacked ([1, 1, 2, 2] : List ℕ) 1) [1, 2, 2, 2] 2 2
    - condFreq (stacked ([1, 1, 2, 2] : List ℕ) 1) [1, 2, 2, 2] 1 2 = 1/2 := by
  norm_num [condFreq, stacked, List.replicate]

/-- **C11** (AC, from the training predictions to the answer): AC fitted on the predictions of the
training set, and asked about a bag in which class `j` is predicted as often as a bag of
prevalences `p` would have it under the rates of the training set, answers exactly `p`. -/
theorem C11_ac_recovery [LinearOrder α] (ops : EstOps σ D α k) (enc : Bool → α)
    (w w' : World σ D α) (et et' : Option ℕ) (s : QState α k) (X X' : List D) (y : List α)
    (hy : y ≠ []) (r : ℕ) (hr : 0 < r) (preds : List α) (hlen : preds.length = r * y.length)
    (hk : ∀ a ∈ preds, a ∈ y)
    (hM : NonDegenerate (fun i j : Fin (labelsOf y).length =>
      condFreq (stacked y r) preds (labelsOf y)[i] (labelsOf y)[j]))
    (bag : List α) (hbag : bag ≠ []) (p : Fin (labelsOf y).length → ℝ) (hp : IsPrev p)
    (hshift : ∀ j : Fin (labelsOf y).length, freq bag (labelsOf y)[j]
      = ∑ i, p i * condFreq (stacked y r) preds (labelsOf y)[i] (labelsOf y)[j])
    (sol : Solvers) (dist : Dist) :
    ∃ f, acFit ops enc w et et' s X y (some (.crisp preds)) = .ok f
      ∧ ∃ hf : f.classes = labelsOf y,
        acPredict ops enc w' et et' sol dist f X' (some (.crisp bag))
          = .ok fun i => Fl.fin (p (i.cast (by rw [hf]))) := by
  refine ⟨_, acFit_crisp ops enc w et et' s X y hy r preds hlen, rfl, ?_⟩
  rw [acPredict_crisp _ _ _ _ _ _ _ _ _ _ hbag, normalizeRows_eq y r hr preds hlen hk]
  have h2 : (fun j : Fin (labelsOf y).length => Fl.fin (freqs (labelsOf y) bag j))
      = fun j => Fl.fin (∑ i, p i * cmReal y r preds i j) := by
    funext j
    exact congrArg Fl.fin (hshift j)
  refine Eq.trans (congrArg _ h2) ?_
  exact C11_recovery sol dist _ hM _ hp

/-- **C11** (PAC, from the training predictions to the answer). -/
theorem C11_pac_recovery [LinearOrder α] (y : List α) (hy : y ≠ []) (r : ℕ) (hr : 0 < r)
    (ops : EstOps σ D α (labelsOf y).length) (enc : Bool → α) (w w' : World σ D α) (et et' : Option ℕ)
    (s : QState α (labelsOf y).length) (X X' : List D) (rows : List (Fin (labelsOf y).length → ℝ))
    (hlen : rows.length = r * y.length)
    (hM : NonDegenerate (fun i j : Fin (labelsOf y).length =>
      condMean (stacked y r) rows (fun row => row j) (labelsOf y)[i]))
    (bag : List (Fin (labelsOf y).length → ℝ)) (hbag : bag ≠ [])
    (p : Fin (labelsOf y).length → ℝ) (hp : IsPrev p)
    (hshift : ∀ j : Fin (labelsOf y).length, meanOf bag (fun row => row j)
      = ∑ i, p i * condMean (stacked y r) rows (fun row => row j) (labelsOf y)[i])
    (sol : Solvers) (dist : Dist) :
    ∃ f, pacFit ops enc w et et' s X y (some (.probs rows)) = .ok f
      ∧ ∃ hf : f.classes = labelsOf y,
        pacPredict ops enc w' et et' sol dist f X' (some (.probs bag))
          = .ok fun i => Fl.fin (p (i.cast (by rw [hf]))) := by
  refine ⟨_, pacFit_probs y hy r hr ops enc w et et' s X rows hlen, rfl, ?_⟩
  have := pacPredict_probs (σ := σ) (D := D)
    ⟨labelsOf y, fun i j => Fl.fin (pcmReal y r rows i j)⟩ ops enc w' et et' sol dist X' bag hbag
  rw [this]
  have h2 : (fun j : Fin (labelsOf y).length => Fl.fin (meanOf bag fun row => row j))
      = fun j => Fl.fin (∑ i, p i * pcmReal y r rows i j) := by
    funext j
    exact congrArg Fl.fin (hshift j)
  show adjust sol dist (fun i j => Fl.fin (pcmReal y r rows i j))
      (fun j : Fin (labelsOf y).length => Fl.fin (meanOf bag fun row => row j)) = _
  rw [h2]
  exact C11_recovery sol dist _ hM _ hp

/-- Non-vacuity of C11: with labels 1,1,2,2 and training predictions 1,2,2,2 (tpr = 1, fpr = 1/2),
the bag 1,2,2,2,2,2,2,2 is what a bag with a quarter of class 1 looks like. -/
example : freq ([1, 2, 2, 2, 2, 2, 2, 2] : List ℕ) 1
      = 1/4 * condFreq (stacked ([1, 1, 2, 2] : List ℕ) 1) [1, 2, 2, 2] 1 1
        + 3/4 * condFreq (stacked ([1, 1, 2, 2] : List ℕ) 1) [1, 2, 2, 2] 2 1
    ∧ freq ([1, 2, 2, 2, 2, 2, 2, 2] : List ℕ) 2
      = 1/4 * condFreq (stacked ([1, 1, 2, 2] : List ℕ) 1) [1, 2, 2, 2] 1 2
        + 3/4 * condFreq (stacked ([1, 1, 2, 2] : List ℕ) 1) [1, 2, 2, 2] 2 2 := by
  constructor <;> norm_num [condFreq, freq, stacked, List.replicate]

end Verif.Props
