import Verif.Model.WeightedKnn
import Verif.Props.Baselines

/-!
# C55: the proportion-weighted nearest neighbours classifier
-/

namespace Verif.Props

open Verif.Model Verif.Spec

variable {α : Type*}

/-- The weight of a class in a neighbourhood: the number of neighbours of that class times one minus the frequency of the class in the training set. -/
noncomputable def neighbourhoodWeight [DecidableEq α] (y : List α) (neigh : List (Fin y.length)) (c : α) : ℝ :=
  ((neigh.map fun i => y[i]).count c : ℝ) * (1 - freq y c)

theorem pwkWeights_fold [LinearOrder α] (y : List α) (l : List α) (hl : l.Nodup) (w : Fin y.length → ℝ) (i : Fin y.length) :
    l.foldl (fun w c i => if y[i] = c then 1 - (y.count c : ℝ) / y.length else w i) w i = if y[i] ∈ l then 1 - freq y y[i] else w i := by
  induction l generalizing w with
  | nil => simp
  | cons c l ih =>
    rw [List.nodup_cons] at hl
    rw [List.foldl_cons, ih hl.2]
    by_cases h : y[i] = c
    · have h' : y[i] ∉ l := h ▸ hl.1
      rw [if_neg h', if_pos h, if_pos (show y[i] ∈ c :: l from List.mem_cons.2 (Or.inl h)), h]
      rfl
    · simp only [List.mem_cons, h, false_or, if_false]

/-- **C55**: the weight of a training example is one minus the frequency of its class. -/
theorem C55_pwk_weights [LinearOrder α] (y : List α) (i : Fin y.length) : pwkWeights y i = 1 - freq y y[i] := by
  unfold pwkWeights
  have h := pwkWeights_fold y (npUnique y) (labelsOf_nodup y) (fun _ => 1) i
  rw [h]
  exact if_pos ((mem_labelsOf y y[i]).2 (List.getElem_mem _))

theorem classWeight_eq [LinearOrder α] (y : List α) (neigh : List (Fin y.length)) (c : α) : classWeight y (pwkWeights y) neigh c = neighbourhoodWeight y neigh c := by
  unfold classWeight neighbourhoodWeight
  induction neigh with
  | nil => simp
  | cons i t ih =>
    simp only [List.filter_cons, List.map_cons, List.count_cons, decide_eq_true_eq, beq_iff_eq]
    by_cases h : y[i] = c
    · rw [if_pos h, if_pos h, List.map_cons, List.sum_cons, ih, C55_pwk_weights, h]
      push_cast
      ring
    · rw [if_neg h, if_neg h, ih]
      simp

theorem freq_lt_one [LinearOrder α] (y : List α) (h2 : 2 ≤ (labelsOf y).length) (c : α) : freq y c < 1 := by
  have hy : y ≠ [] := by
    rintro rfl
    simp [labelsOf] at h2
  have hl : (0:ℝ) < y.length := by exact_mod_cast List.length_pos_iff.2 hy
  unfold freq
  rw [div_lt_one hl]
  have : y.count c < y.length := by
    refine lt_of_le_of_ne List.count_le_length fun h => ?_
    rw [List.count_eq_length] at h
    have hsub : labelsOf y ⊆ [c] := fun a ha => by
      rw [List.mem_singleton]
      exact (h a ((mem_labelsOf y a).1 ha)).symm
    have := (List.subperm_of_subset (labelsOf_nodup y) hsub).length_le
    simp at this
    omega
  exact_mod_cast this

theorem neighbourhoodWeight_nonneg [LinearOrder α] (y : List α) (h2 : 2 ≤ (labelsOf y).length) (neigh : List (Fin y.length)) (c : α) : 0 ≤ neighbourhoodWeight y neigh c :=
  mul_nonneg (Nat.cast_nonneg _) (by linarith [freq_lt_one y h2 c])

theorem neighbourhoodWeight_pos [LinearOrder α] (y : List α) (h2 : 2 ≤ (labelsOf y).length) (neigh : List (Fin y.length)) (c : α) :
    0 < neighbourhoodWeight y neigh c ↔ c ∈ neigh.map fun i => y[i] := by
  have h := freq_lt_one y h2 c
  unfold neighbourhoodWeight
  rw [mul_pos_iff_of_pos_right (by linarith), Nat.cast_pos, List.count_pos_iff]

theorem total_pos [LinearOrder α] (y : List α) (h2 : 2 ≤ (labelsOf y).length) (neigh : List (Fin y.length)) (hne : neigh ≠ []) :
    0 < ∑ j : Fin (labelsOf y).length, neighbourhoodWeight y neigh (labelsOf y)[j] := by
  obtain ⟨i, t, rfl⟩ := List.exists_cons_of_ne_nil hne
  have hmem : y[i] ∈ labelsOf y := (mem_labelsOf y _).2 (List.getElem_mem _)
  obtain ⟨k, hk, hki⟩ := List.getElem_of_mem hmem
  refine Finset.sum_pos' (fun j _ => neighbourhoodWeight_nonneg y h2 _ _) ⟨⟨k, hk⟩, Finset.mem_univ _, ?_⟩
  rw [neighbourhoodWeight_pos y h2]
  simp only [Fin.getElem_fin, hki]
  simp

/-- **C55**: with two or more classes, the posterior of a class is its weight in the neighbourhood divided by the total, and the row is a probability
distribution. -/
theorem C55_pwk_proba [LinearOrder α] (y : List α) (h2 : 2 ≤ (labelsOf y).length) (neigh : List (Fin y.length)) (hne : neigh ≠ []) :
    (∀ j : Fin (labelsOf y).length, pwkProba y neigh j
        = neighbourhoodWeight y neigh (labelsOf y)[j] / ∑ k : Fin (labelsOf y).length, neighbourhoodWeight y neigh (labelsOf y)[k])
      ∧ IsPrev (n := (labelsOf y).length) (pwkProba y neigh) := by
  have htot := total_pos y h2 neigh hne
  have hform : ∀ j : Fin (labelsOf y).length, pwkProba y neigh j
        = neighbourhoodWeight y neigh (labelsOf y)[j] / ∑ k : Fin (labelsOf y).length, neighbourhoodWeight y neigh (labelsOf y)[k] := by
    intro j
    show classWeight y (pwkWeights y) neigh (labelsOf y)[j] / nonzero (∑ k : Fin (labelsOf y).length, classWeight y (pwkWeights y) neigh (labelsOf y)[k]) = _
    simp only [classWeight_eq]
    unfold nonzero
    rw [if_neg htot.ne']
  refine ⟨hform, fun j => ?_, ?_⟩
  · rw [hform]
    exact div_nonneg (neighbourhoodWeight_nonneg y h2 _ _) htot.le
  · rw [Finset.sum_congr rfl fun j _ => hform j, ← Finset.sum_div, div_self htot.ne']

/-! ## The crisp prediction -/

theorem modeFold (f : α → ℝ) (l : List α) (s : α × ℝ) :
    let r := l.foldl (modeStep f) s
    ((∀ c ∈ l, f c ≤ s.2) ∧ r = s) ∨
      ∃ (l1 l2 : List α) (c : α), l = l1 ++ c :: l2 ∧ r = (c, f c) ∧ s.2 < f c ∧ (∀ a ∈ l1, f a < f c) ∧ ∀ a ∈ l2, f a ≤ f c := by
  induction l generalizing s with
  | nil => simp
  | cons c l ih =>
    intro r
    by_cases h : s.2 < f c
    · have hs : modeStep f s c = (c, f c) := by
        unfold modeStep
        rw [if_pos h, max_eq_left h.le]
      have hr : r = l.foldl (modeStep f) (c, f c) := by
        show (c :: l).foldl (modeStep f) s = _
        rw [List.foldl_cons, hs]
      refine Or.inr ?_
      rcases ih (c, f c) with ⟨h1, h2⟩ | ⟨l1, l2, d, rfl, h2, h3, h4, h5⟩
      · exact ⟨[], l, c, rfl, hr.trans h2, h, by simp, h1⟩
      · refine ⟨c :: l1, l2, d, rfl, hr.trans h2, h.trans h3, ?_, h5⟩
        intro a ha
        rcases List.mem_cons.1 ha with rfl | ha
        · exact h3
        · exact h4 a ha
    · have hs : modeStep f s c = s := by
        unfold modeStep
        rw [if_neg h, max_eq_right (not_lt.1 h)]
      have hr : r = l.foldl (modeStep f) s := by
        show (c :: l).foldl (modeStep f) s = _
        rw [List.foldl_cons, hs]
      rcases ih s with ⟨h1, h2⟩ | ⟨l1, l2, d, rfl, h2, h3, h4, h5⟩
      · refine Or.inl ⟨?_, hr.trans h2⟩
        intro a ha
        rcases List.mem_cons.1 ha with rfl | ha
        · exact not_lt.1 h
        · exact h1 a ha
      · refine Or.inr ⟨c :: l1, l2, d, rfl, hr.trans h2, h3, ?_, h5⟩
        intro a ha
        rcases List.mem_cons.1 ha with rfl | ha
        · exact (not_lt.1 h).trans_lt h3
        · exact h4 a ha

/-- **C55**: with two or more classes the crisp prediction of every example of a bag is a label of the training set, the first of those with the largest
posterior: `j` is its position. -/
theorem C55_pwk_predict [LinearOrder α] (zero : α) (y : List α) (h2 : 2 ≤ (labelsOf y).length) (bag : List (List (Fin y.length))) (hne : ∀ n ∈ bag, n ≠ [])
    (r : ℕ) (neigh : List (Fin y.length)) (hr : bag[r]? = some neigh) :
    ∃ j : Fin (labelsOf y).length, (pwkPredict zero y bag)[r]? = some (labelsOf y)[j]
      ∧ (∀ k : Fin (labelsOf y).length, pwkProba y neigh k ≤ pwkProba y neigh j) ∧ ∀ k : Fin (labelsOf y).length, k < j → pwkProba y neigh k < pwkProba y neigh j := by
  have hmem : neigh ∈ bag := List.mem_of_getElem? hr
  have hn := hne neigh hmem
  have htot := total_pos y h2 neigh hn
  have hf : classWeight y (pwkWeights y) neigh = neighbourhoodWeight y neigh := funext fun c => classWeight_eq y neigh c
  set scores := labelsOf (bag.flatten.map fun i => y[i]) with hsc
  have hin : ∀ c, c ∈ (neigh.map fun i => y[i]) → c ∈ scores := by
    intro c hc
    rw [hsc, mem_labelsOf]
    obtain ⟨i, hi, rfl⟩ := List.mem_map.1 hc
    exact List.mem_map.2 ⟨i, List.mem_flatten.2 ⟨neigh, hmem, hi⟩, rfl⟩
  have hsorted : scores.Pairwise (· < ·) := Finset.sortedLT_sort _ |>.pairwise
  have hpred : (pwkPredict zero y bag)[r]? = some (weightedMode zero (neighbourhoodWeight y neigh) scores) := by
    unfold pwkPredict
    rw [List.getElem?_map, hr, Option.map_some, hf]
    rfl
  obtain ⟨i0, t, hit⟩ := List.exists_cons_of_ne_nil hn
  have hi0 : y[i0] ∈ neigh.map fun i => y[i] := by rw [hit]; simp
  rcases modeFold (neighbourhoodWeight y neigh) scores (zero, 0) with ⟨h1, -⟩ | ⟨l1, l2, c, hl, hc, hpos, hlt, hle⟩
  · exact absurd (h1 _ (hin _ hi0)) (not_le.2 ((neighbourhoodWeight_pos y h2 neigh _).2 hi0))
  · have hcm : weightedMode zero (neighbourhoodWeight y neigh) scores = c := by
      unfold weightedMode
      rw [hc]
    have hcy : c ∈ labelsOf y := by
      obtain ⟨i, -, rfl⟩ := List.mem_map.1 ((neighbourhoodWeight_pos y h2 neigh c).1 hpos)
      exact (mem_labelsOf y _).2 (List.getElem_mem _)
    obtain ⟨j, hj, hjc⟩ := List.getElem_of_mem hcy
    have hmax : ∀ a, neighbourhoodWeight y neigh a ≤ neighbourhoodWeight y neigh c := by
      intro a
      by_cases ha : a ∈ neigh.map fun i => y[i]
      · have := hin a ha
        rw [hl, List.mem_append, List.mem_cons] at this
        rcases this with h | rfl | h
        · exact (hlt a h).le
        · exact le_rfl
        · exact hle a h
      · rw [← neighbourhoodWeight_pos y h2] at ha
        exact (not_lt.1 ha).trans hpos.le
    have hfirst : ∀ a, a < c → neighbourhoodWeight y neigh a < neighbourhoodWeight y neigh c := by
      intro a hac
      by_cases ha : a ∈ neigh.map fun i => y[i]
      · have := hin a ha
        rw [hl, List.mem_append, List.mem_cons] at this
        rcases this with h | rfl | h
        · exact hlt a h
        · exact absurd hac (lt_irrefl _)
        · rw [hl, List.pairwise_append] at hsorted
          exact absurd hac (not_lt.2 (List.rel_of_pairwise_cons hsorted.2.1 h).le)
      · rw [← neighbourhoodWeight_pos y h2] at ha
        exact (not_lt.1 ha).trans_lt hpos
    obtain ⟨hform, -⟩ := C55_pwk_proba y h2 neigh hn
    have hsy : (labelsOf y).Pairwise (· < ·) := Finset.sortedLT_sort _ |>.pairwise
    refine ⟨⟨j, hj⟩, ?_, fun k => ?_, fun k hk => ?_⟩
    · rw [hpred, hcm, ← hjc]
      rfl
    · rw [hform, hform]
      simp only [Fin.getElem_fin, hjc]
      exact div_le_div_of_nonneg_right (hmax _) htot.le
    · rw [hform, hform]
      simp only [Fin.getElem_fin, hjc]
      refine div_lt_div_of_pos_right (hfirst _ ?_) htot
      rw [← hjc]
      exact List.pairwise_iff_getElem.1 hsy _ _ k.2 hj hk

/-- With a single class all the weights are zero: the posteriors are zero, and the prediction is the label 0 whatever the class is. -/
theorem C55_single_class [LinearOrder α] (zero : α) (y : List α) (h1 : (labelsOf y).length = 1) (bag : List (List (Fin y.length))) (r : ℕ) (neigh : List (Fin y.length)) (hr : bag[r]? = some neigh) :
    (pwkPredict zero y bag)[r]? = some zero ∧ ∀ j, pwkProba y neigh j = 0 := by
  obtain ⟨c, hc⟩ := List.length_eq_one_iff.1 h1
  have hall : ∀ a ∈ y, a = c := fun a ha => by
    have := (mem_labelsOf y a).2 ha
    rw [hc, List.mem_singleton] at this
    exact this
  have hy : y ≠ [] := by
    rintro rfl
    simp [labelsOf] at h1
  have hfreq : freq y c = 1 := by
    unfold freq
    rw [List.count_eq_length.2 fun a ha => (hall a ha).symm, div_self]
    exact_mod_cast (List.length_pos_iff.2 hy).ne'
  have hz : ∀ n : List (Fin y.length), classWeight y (pwkWeights y) n = fun _ => 0 := by
    intro n
    funext a
    rw [classWeight_eq]
    unfold neighbourhoodWeight
    by_cases ha : a = c
    · rw [ha, hfreq]; ring
    · rw [List.count_eq_zero_of_not_mem, Nat.cast_zero, zero_mul]
      intro hm
      obtain ⟨i, -, hi⟩ := List.mem_map.1 hm
      exact ha (hi ▸ hall _ (List.getElem_mem _))
  refine ⟨?_, fun j => ?_⟩
  · unfold pwkPredict
    rw [List.getElem?_map, hr, Option.map_some, hz]
    unfold weightedMode
    rcases modeFold (fun _ : α => (0:ℝ)) (npUnique (bag.flatten.map fun i => y[i])) (zero, 0) with ⟨-, h⟩ | ⟨_, _, _, -, -, h, -⟩
    · rw [h]
    · exact absurd h (lt_irrefl _)
  · simp [pwkProba, hz]

/-- Two classes, and a neighbourhood with one example of each: the rarer class wins. -/
example : 2 ≤ (labelsOf ([1, 1, 2] : List ℕ)).length ∧ neighbourhoodWeight ([1, 1, 2] : List ℕ) [0, 2] 1 < neighbourhoodWeight ([1, 1, 2] : List ℕ) [0, 2] 2 := by
  refine ⟨?_, ?_⟩
  · rw [labelsOf_eq _ [1, 2] (by decide) (by decide)]
    decide
  · simp [neighbourhoodWeight, freq]
    norm_num

end Verif.Props
