import Verif.Spec.Bias
import Verif.Props.Drift

/-!
# C157: the bias of classify and count
-/

namespace Verif.Props

open Verif.Model Verif.Spec Verif.Proof

/-- Mistakes cancel out. -/
theorem count_balance {α : Type*} [DecidableEq α] (bag : List (α × α)) (c : α) :
    (bag.map Prod.snd).count c + falseNegatives bag c = (bag.map Prod.fst).count c + falsePositives bag c := by
  unfold falsePositives falseNegatives
  induction bag with
  | nil => rfl
  | cons t bag ih =>
    obtain ⟨a, b⟩ := t
    simp only [List.map_cons, List.count_cons, List.countP_cons, beq_iff_eq, decide_eq_true_eq]
    simp only [ne_eq] at ih ⊢
    by_cases h1 : a = c <;> by_cases h2 : b = c <;> simp only [h1, h2, not_true_eq_false, not_false_eq_true, and_true, and_false, if_true, if_false] <;> omega

theorem sum_if_eq {α : Type*} {n : ℕ} [DecidableEq α] (f : Fin n → α) (hf : Function.Injective f) (a : α) : ∑ j, (if a = f j then 1 else 0 : ℕ) ≤ 1 := by
  rw [Finset.sum_boole]
  simp only [Nat.cast_id]
  refine Finset.card_le_one.2 fun i hi j hj => hf ?_
  rw [← (Finset.mem_filter.1 hi).2, ← (Finset.mem_filter.1 hj).2]

theorem mistakes_sum {α : Type*} [LinearOrder α] (y : List α) (bag : List (α × α)) :
    ∑ j : Fin (labelsOf y).length, falsePositives bag (labelsOf y)[j] ≤ mistakes bag ∧ ∑ j : Fin (labelsOf y).length, falseNegatives bag (labelsOf y)[j] ≤ mistakes bag := by
  have hinj : Function.Injective fun c : Fin (labelsOf y).length => (labelsOf y)[c] := getElem_inj_of_nodup (labelsOf_nodup' y)
  unfold falsePositives falseNegatives mistakes
  induction bag with
  | nil => simp
  | cons t bag ih =>
    obtain ⟨a, b⟩ := t
    simp only [List.countP_cons, decide_eq_true_eq, Finset.sum_add_distrib]
    by_cases h : a = b
    · subst h
      have h1 : ∀ j : Fin (labelsOf y).length, ¬ (a ≠ (labelsOf y)[j] ∧ a = (labelsOf y)[j]) := fun j h => h.1 h.2
      have h2 : ∀ j : Fin (labelsOf y).length, ¬ (a = (labelsOf y)[j] ∧ a ≠ (labelsOf y)[j]) := fun j h => h.2 h.1
      simp only [if_neg (h1 _), if_neg (h2 _), Finset.sum_const_zero, add_zero, ne_eq, not_true_eq_false, if_false]
      exact ih
    · rw [if_pos h]
      refine ⟨add_le_add ih.1 ((Finset.sum_le_sum fun j _ => ?_).trans (sum_if_eq _ hinj b)), add_le_add ih.2 ((Finset.sum_le_sum fun j _ => ?_).trans (sum_if_eq _ hinj a))⟩
      · by_cases h3 : b = (labelsOf y)[j]
        · rw [if_pos h3]
          split_ifs <;> simp
        · rw [if_neg h3, if_neg fun h => h3 h.2]
      · by_cases h3 : a = (labelsOf y)[j]
        · rw [if_pos h3]
          split_ifs <;> simp
        · rw [if_neg h3, if_neg fun h => h3 h.1]

section
variable {σ D α : Type} {k : ℕ} [LinearOrder α] (enc : Bool → α) (w : World σ D α) (et et' : Option ℕ) (X Xt : List D) (y : List α) (hy : y ≠ []) (r : ℕ)
include hy

/-- **C157** for every bag: the error of CC in a class is the difference of its false positives and its false negatives; the total error is at most twice the share of mistakes. -/
theorem C157_mistakes (ops : EstOps σ D α k) (P : List α) (hP : P.length = r * y.length) (bag : List (α × α)) (hne : bag ≠ []) :
    ∃ x, ucRun ops enc w ⟨ccClass, et, et'⟩ X y (some (.crisp P)) Xt (some (.crisp (bag.map Prod.snd))) = .ok (some (realList x))
      ∧ (∀ j, x j - bagPrevs y bag j = ((falsePositives bag (labelsOf y)[j] : ℝ) - falseNegatives bag (labelsOf y)[j]) / bag.length)
      ∧ totalError x (bagPrevs y bag) ≤ 2 * (mistakes bag / bag.length) := by
  have hans := cc_mean_answer enc w et et' X Xt y hy r ops P hP bag hne
  rw [← freqs_mean] at hans
  have hn : (0:ℝ) < bag.length := by exact_mod_cast List.length_pos_iff.2 hne
  have h1 : ∀ j : Fin (labelsOf y).length, freqs (labelsOf y) (bag.map Prod.snd) j - bagPrevs y bag j = ((falsePositives bag (labelsOf y)[j] : ℝ) - falseNegatives bag (labelsOf y)[j]) / bag.length := fun j => by
    have h : ((bag.map Prod.snd).count (labelsOf y)[j] : ℝ) + falseNegatives bag (labelsOf y)[j] = (bag.map Prod.fst).count (labelsOf y)[j] + falsePositives bag (labelsOf y)[j] := by
      exact_mod_cast count_balance bag (labelsOf y)[j]
    unfold freqs bagPrevs freq
    rw [List.length_map, List.length_map, ← sub_div]
    congr 1
    linarith
  refine ⟨_, hans, h1, ?_⟩
  obtain ⟨hp, hn'⟩ := mistakes_sum y bag
  unfold totalError
  have h2 : ∀ j : Fin (labelsOf y).length, |freqs (labelsOf y) (bag.map Prod.snd) j - bagPrevs y bag j| ≤ ((falsePositives bag (labelsOf y)[j] : ℝ) + falseNegatives bag (labelsOf y)[j]) / bag.length := fun j => by
    rw [h1, abs_div, abs_of_pos hn]
    refine div_le_div_of_nonneg_right ?_ hn.le
    refine (abs_sub _ _).trans (le_of_eq ?_)
    rw [Nat.abs_cast, Nat.abs_cast]
  refine (Finset.sum_le_sum fun j _ => h2 j).trans ?_
  rw [← Finset.sum_div, Finset.sum_add_distrib, ← mul_div_assoc]
  refine div_le_div_of_nonneg_right ?_ hn.le
  have e1 : ∑ j : Fin (labelsOf y).length, (falsePositives bag (labelsOf y)[j] : ℝ) ≤ mistakes bag := by exact_mod_cast hp
  have e2 : ∑ j : Fin (labelsOf y).length, (falseNegatives bag (labelsOf y)[j] : ℝ) ≤ mistakes bag := by exact_mod_cast hn'
  linarith

end

section
variable {σ D α : Type} {k : ℕ} [LinearOrder α] (enc : Bool → α) (w : World σ D α) (et et' : Option ℕ) (X Xt : List D) (y : List α) (hy : y ≠ []) (r : ℕ) (hr : 0 < r)
include hy hr

/-- **C157** under prior probability shift: CC answers the predictions expected for the prevalences of the bag. -/
theorem C157_cc_shift (ops : EstOps σ D α k) (P : List α) (hP : P.length = r * y.length) (bag : List (α × α)) (hs : PriorShift ((stacked y r).zip P) bag) :
    ucRun ops enc w ⟨ccClass, et, et'⟩ X y (some (.crisp P)) Xt (some (.crisp (bag.map Prod.snd)))
      = .ok (some (realList (expectedPreds (fun i j : Fin (labelsOf y).length => condFreq (stacked y r) P (labelsOf y)[i] (labelsOf y)[j]) (bagPrevs y bag)))) := by
  have hl : (stacked y r).length = P.length := by rw [stacked_length, hP]
  have hans := cc_mean_answer enc w et et' X Xt y hy r ops P hP bag hs.nonempty
  rw [← freqs_mean] at hans
  rw [hans]
  congr 3
  funext j
  exact freqs_shift y r hr P hl bag hs j

/-- **C157** for PCC. -/
theorem C157_pcc_shift (ops : EstOps σ D α (labelsOf y).length) (P : List (Fin (labelsOf y).length → ℝ)) (hP : P.length = r * y.length) (bag : List (α × (Fin (labelsOf y).length → ℝ)))
    (hs : PriorShift ((stacked y r).zip P) bag) :
    ucRun ops enc w ⟨pccClass, et, et'⟩ X y (some (.probs P)) Xt (some (.probs (bag.map Prod.snd)))
      = .ok (some (realList (expectedPreds (fun i j : Fin (labelsOf y).length => condMean (stacked y r) P (fun row => row j) (labelsOf y)[i]) (bagPrevs y bag)))) := by
  have hl : (stacked y r).length = P.length := by rw [stacked_length, hP]
  have hbne : bag.map Prod.snd ≠ [] := by simpa using hs.nonempty
  rw [ucRun_given_probs ops enc w X Xt y pccClass rfl rfl et et' hy r P _ hP]
  have : answerOn pccClass y r (.probs P) (.probs (bag.map Prod.snd)) = .ok (some (vecList (colMeans (bag.map Prod.snd)))) := rfl
  rw [this, colMeans_eq _ hbne]
  have h1 : (fun j => meanOf (bag.map Prod.snd) fun row => row j) = expectedPreds (fun i j : Fin (labelsOf y).length => condMean (stacked y r) P (fun row => row j) (labelsOf y)[i]) (bagPrevs y bag) := by
    funext j
    refine (hs.mean_labels (stacked_mem_iff y r hr) fun row => row j).trans (Finset.sum_congr rfl fun c _ => ?_)
    rw [mul_comm]
    congr 1
    exact class_mean_probs y r P hl c j
  rw [← h1]
  rfl

end

/-- **C157**, two classes: the error of the expected predictions, whose rows are distributions. It is 0 only for one prevalence of the second class (or for none, or all); below it the prevalence is overestimated and above it underestimated. -/
theorem C157_bias (M : Fin 2 → Fin 2 → ℝ) (hM : ∀ i, IsPrev (M i)) (p : Fin 2 → ℝ) (hp : IsPrev p) :
    expectedPreds M p 1 - p 1 = M 0 1 * (1 - p 1) - M 1 0 * p 1
      ∧ (p 1 * (M 0 1 + M 1 0) < M 0 1 ↔ p 1 < expectedPreds M p 1) ∧ (M 0 1 < p 1 * (M 0 1 + M 1 0) ↔ expectedPreds M p 1 < p 1) ∧ (p 1 * (M 0 1 + M 1 0) = M 0 1 ↔ expectedPreds M p 1 = p 1) := by
  have h1 := (hM 1).2
  have h0 := hp.2
  rw [Fin.sum_univ_two] at h1 h0
  have e : expectedPreds M p 1 - p 1 = M 0 1 * (1 - p 1) - M 1 0 * p 1 := by
    unfold expectedPreds
    rw [Fin.sum_univ_two]
    have h2 : M 1 1 = 1 - M 1 0 := by linarith
    have h3 : p 0 = 1 - p 1 := by linarith
    rw [h2, h3]
    ring
  refine ⟨e, ⟨fun h => by nlinarith, fun h => by nlinarith⟩, ⟨fun h => by nlinarith, fun h => by nlinarith⟩, ⟨fun h => by nlinarith, fun h => by nlinarith⟩⟩

section
variable {σ D α : Type} {k : ℕ} [LinearOrder α] (enc : Bool → α) (w : World σ D α) (et et' : Option ℕ) (X Xt : List D) (y : List α) (hy : y ≠ []) (r : ℕ) (hr : 0 < r)
include hy hr

omit hy in
/-- The training examples of one class are a bag. -/
theorem class_bag {β : Type*} (P : List β) (hl : (stacked y r).length = P.length) (c : Fin (labelsOf y).length) :
    PriorShift ((stacked y r).zip P) (((stacked y r).zip P).filter fun t => t.1 = (labelsOf y)[c]) ∧ bagPrevs y (((stacked y r).zip P).filter fun t => t.1 = (labelsOf y)[c]) = fun i => if i = c then 1 else 0 := by
  have hne := class_ne y r hr P hl c
  set bag := ((stacked y r).zip P).filter fun t => t.1 = (labelsOf y)[c] with hbag
  have hof : ofClass ((stacked y r).zip P) (labelsOf y)[c] = bag.map Prod.snd := rfl
  have hall : ∀ t ∈ bag, t.1 = (labelsOf y)[c] := fun t ht => by simpa using (List.mem_filter.1 ht).2
  have hne' : bag ≠ [] := by
    intro h
    rw [hof, h] at hne
    exact hne rfl
  refine ⟨⟨hne', fun d hd => ?_⟩, funext fun i => ?_⟩
  · obtain ⟨t, ht, rfl⟩ := List.mem_map.1 hd
    rw [hall t ht]
    have : ofClass bag (labelsOf y)[c] = ofClass ((stacked y r).zip P) (labelsOf y)[c] := by
      unfold ofClass
      rw [hbag, List.filter_filter]
      simp
    rw [this]
    exact ⟨hne, hne, fun _ => rfl⟩
  · have hrep : bag.map Prod.fst = List.replicate bag.length (labelsOf y)[c] := by
      rw [List.eq_replicate_iff]
      refine ⟨by simp, fun b hb => ?_⟩
      obtain ⟨t, ht, rfl⟩ := List.mem_map.1 hb
      exact hall t ht
    have hn : (bag.length : ℝ) ≠ 0 := by exact_mod_cast (List.length_pos_iff.2 hne').ne'
    rw [bagPrevs, freq, hrep, List.count_replicate, List.length_replicate]
    by_cases h : i = c
    · subst h
      simp [hn]
    · have : (labelsOf y)[c] ≠ (labelsOf y)[i] := fun h' => h (getElem_inj_of_nodup (labelsOf_nodup' y) h').symm
      rw [if_neg h, if_neg (by simpa using this)]
      simp

/-- **C157**: CC is right for every bag with prior probability shift if, and only if, the predictions of the training examples have no mistakes. -/
theorem C157_cc_exact_iff (ops : EstOps σ D α k) (P : List α) (hP : P.length = r * y.length) :
    (∀ bag, PriorShift ((stacked y r).zip P) bag → ucRun ops enc w ⟨ccClass, et, et'⟩ X y (some (.crisp P)) Xt (some (.crisp (bag.map Prod.snd))) = rightAnswer y bag)
      ↔ P = stacked y r := by
  have hl : (stacked y r).length = P.length := by rw [stacked_length, hP]
  constructor
  · intro h
    have hM : ∀ t ∈ (stacked y r).zip P, t.2 = t.1 := fun t ht => by
      have hmem : t.1 ∈ y := (stacked_mem_iff y r hr _).1 (List.of_mem_zip (a := t.1) (b := t.2) ht).1
      obtain ⟨c, hc⟩ := exists_getElem_of_mem ((mem_labelsOf' y _).2 hmem)
      obtain ⟨hs, -⟩ := class_bag y r hr P hl c
      obtain ⟨x, h1, h2, -⟩ := C157_mistakes enc w et et' X Xt y hy r ops P hP _ hs.nonempty
      have h3 := h2 c
      rw [h _ hs, rightAnswer_eq] at h1
      have h4 : realList (bagPrevs y _) = realList x := Option.some.inj (Except.ok.inj h1)
      have h5 : Fl.fin (bagPrevs y _ c) = Fl.fin (x c) := congrFun (List.ofFn_injective h4) c
      rw [← Fl.fin.inj h5, sub_self] at h3
      have hn : (0:ℝ) < (((stacked y r).zip P).filter fun t => t.1 = (labelsOf y)[c]).length := by exact_mod_cast List.length_pos_iff.2 hs.nonempty
      have h6 := (div_eq_zero_iff.1 h3.symm).resolve_right hn.ne'
      have hfp : falsePositives (((stacked y r).zip P).filter fun t => t.1 = (labelsOf y)[c]) (labelsOf y)[c] = 0 := by
        unfold falsePositives
        rw [List.countP_eq_zero]
        intro t' ht'
        have := (List.mem_filter.1 ht').2
        simp only [decide_eq_true_eq] at this ⊢
        exact fun h => h.1 this
      rw [hfp] at h6
      have hfn : falseNegatives (((stacked y r).zip P).filter fun t => t.1 = (labelsOf y)[c]) (labelsOf y)[c] = 0 := by
        have : (falseNegatives (((stacked y r).zip P).filter fun t => t.1 = (labelsOf y)[c]) (labelsOf y)[c] : ℝ) = 0 := by
          push_cast at h6
          linarith
        exact_mod_cast this
      unfold falseNegatives at hfn
      rw [List.countP_eq_zero] at hfn
      have := hfn t (List.mem_filter.2 ⟨ht, by simpa using hc.symm⟩)
      simp only [decide_eq_true_eq, not_and, not_not] at this
      rw [this hc.symm, hc]
    refine List.ext_getElem hl.symm fun i hi hi' => ?_
    have hz : i < ((stacked y r).zip P).length := by
      rw [List.length_zip]
      exact lt_min hi' hi
    have := hM _ (List.getElem_mem hz)
    rwa [List.getElem_zip] at this
  · rintro rfl bag hs
    have hall : ∀ t ∈ bag, t.2 = t.1 := fun t ht => by
      have h1 : t.2 ∈ ofClass bag t.1 := List.mem_map.2 ⟨t, List.mem_filter.2 ⟨ht, by simp⟩, rfl⟩
      have h2 := ((hs.same t.1 (List.mem_map.2 ⟨t, ht, rfl⟩)).mem_iff t.2).1 h1
      obtain ⟨t', ht', h3⟩ := List.mem_map.1 h2
      obtain ⟨h4, h5⟩ := List.mem_filter.1 ht'
      have h6 : t'.1 = t'.2 := by
        obtain ⟨i, hi, rfl⟩ := List.mem_iff_getElem.1 h4
        rw [List.getElem_zip]
      rw [← h3, ← h6]
      simpa using h5
    have e : bag.map Prod.snd = bag.map Prod.fst := List.map_congr_left hall
    have hans := cc_mean_answer enc w et et' X Xt y hy r ops _ hP bag hs.nonempty
    rw [← freqs_mean] at hans
    rw [hans, rightAnswer_eq, e]
    rfl

/-- **C157**, two classes and prior probability shift: the error of CC is linear in the prevalence of the second class. It overestimates it when it is low, underestimates it when it is high, and is right only in between. -/
theorem C157_cc_two (ops : EstOps σ D α k) (P : List α) (hP : P.length = r * y.length) (hPy : ∀ a ∈ P, a ∈ y) (c0 c1 : α) (hl : labelsOf y = [c0, c1]) (bag : List (α × α)) (hs : PriorShift ((stacked y r).zip P) bag)
    (p fpr fnr : ℝ) (hp : p = freq (bag.map Prod.fst) c1) (hfpr : fpr = condFreq (stacked y r) P c0 c1) (hfnr : fnr = condFreq (stacked y r) P c1 c0) :
    ∃ a : ℝ, ucRun ops enc w ⟨ccClass, et, et'⟩ X y (some (.crisp P)) Xt (some (.crisp (bag.map Prod.snd))) = .ok (some [Fl.fin (1 - a), Fl.fin a]) ∧ a - p = fpr * (1 - p) - fnr * p
      ∧ (p < a ↔ p * (fpr + fnr) < fpr) ∧ (a < p ↔ fpr < p * (fpr + fnr)) ∧ (a = p ↔ p * (fpr + fnr) = fpr) := by
  have hlen : (stacked y r).length = P.length := by rw [stacked_length, hP]
  have hbp : IsPrev (bagPrevs y bag) := hs.bagPrevs_isPrev (stacked_mem_iff y r hr) hlen
  have hrows := fun i => (cmReal_row y r hr P hP hPy i).2
  have e1 : (fun L : List α => ∑ i : Fin L.length, freq (bag.map Prod.fst) L[i]) (labelsOf y) = 1 := hbp.2
  have e2 : (fun L : List α => ∀ i : Fin L.length, ∑ j : Fin L.length, condFreq (stacked y r) P L[i] L[j] = 1) (labelsOf y) := hrows
  have hans := C157_cc_shift enc w et et' X Xt y hy r hr ops P hP bag hs
  have e3 : ucRun ops enc w ⟨ccClass, et, et'⟩ X y (some (.crisp P)) Xt (some (.crisp (bag.map Prod.snd)))
      = (fun L : List α => .ok (some (realList (expectedPreds (fun i j : Fin L.length => condFreq (stacked y r) P L[i] L[j]) fun i => freq (bag.map Prod.fst) L[i])))) (labelsOf y) := hans
  rw [hl] at e1 e2 e3
  have e20 := e2 ⟨0, by simp⟩
  have e21 := e2 ⟨1, by simp⟩
  simp only [List.length_cons, List.length_nil, Nat.reduceAdd, Fin.sum_univ_two, Fin.isValue, Fin.getElem_fin, Fin.val_zero, Fin.val_one, List.getElem_cons_zero, List.getElem_cons_succ] at e1 e20 e21
  refine ⟨freq (bag.map Prod.fst) c0 * fpr + freq (bag.map Prod.fst) c1 * (1 - fnr), ?_, ?_⟩
  · rw [e3]
    simp only [realList, List.length_cons, List.length_nil, Nat.reduceAdd, expectedPreds, Fin.sum_univ_two, Fin.isValue, Fin.getElem_fin, Fin.val_zero, Fin.val_one, List.getElem_cons_zero, List.getElem_cons_succ, List.ofFn_succ,
      List.ofFn_zero, Fin.succ_zero_eq_one]
    congr 3
    · congr 1
      rw [hfpr, hfnr]
      linear_combination freq (bag.map Prod.fst) c0 * e20 + e1
    · congr 2
      rw [hfpr, hfnr]
      linear_combination freq (bag.map Prod.fst) c1 * e21
  · have e4 : freq (bag.map Prod.fst) c0 = 1 - p := by rw [hp]; linarith
    rw [e4, ← hp]
    refine ⟨by ring, ⟨fun h => by nlinarith, fun h => by nlinarith⟩, ⟨fun h => by nlinarith, fun h => by nlinarith⟩, ⟨fun h => by nlinarith, fun h => by nlinarith⟩⟩

end

/-- With two classes: the prediction of class 1 is expected with frequencies 3/10 and 8/10 in the two classes. At the prevalence 3/5 nothing is wrong; at 1/5 twice as many are counted, at 9/10 too few. -/
example : let M : Fin 2 → Fin 2 → ℝ := ![![7/10, 3/10], ![2/10, 8/10]]
    (∀ i, IsPrev (M i)) ∧ expectedPreds M ![2/5, 3/5] 1 = 3/5 ∧ expectedPreds M ![4/5, 1/5] 1 = 2/5 ∧ expectedPreds M ![1/10, 9/10] 1 = 3/4 := by
  refine ⟨fun i => ?_, ?_, ?_, ?_⟩
  · fin_cases i
    · exact ⟨fun j => by fin_cases j <;> simp <;> norm_num, by simp [Fin.sum_univ_two]; norm_num⟩
    · exact ⟨fun j => by fin_cases j <;> simp <;> norm_num, by simp [Fin.sum_univ_two]; norm_num⟩
  all_goals
    simp [expectedPreds, Fin.sum_univ_two]
    norm_num

/-- A bag with one false positive and two false negatives of class 1; prior probability shift: see `shift_example`. -/
example : falsePositives [(0, 1), (1, 0), (1, 0), (1, 1), (0, 0)] 1 = 1 ∧ falseNegatives [(0, 1), (1, 0), (1, 0), (1, 1), (0, 0)] 1 = 2 ∧ mistakes [(0, 1), (1, 0), (1, 0), (1, 1), (0, 0)] = 3 := by decide

end Verif.Props
