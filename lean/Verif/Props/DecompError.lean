import Verif.Props.Decomp
import Verif.Props.MetricsCompared
import Verif.Spec.Stability

/-!
# C159: the error of a decomposition is bounded by the errors of its binary quantifiers
-/

namespace Verif.Props

open Verif.Model Verif.Spec Verif.Proof

variable {α D ε σ : Type}

/-- What `OneVsRestQuantifier` answers when every copy answers: the vector of the positive prevalences divided by its sum, or left as it is if they are all 0. -/
theorem ovr_run [LinearOrder α] (Q : BinQuant D ε σ) (estTrain estTest : Option (List ε)) (X X' : List D) (y : List α) (preds preds' : Option (List (List ℝ)))
    (h3 : 3 ≤ (labelsOf y).length) (hgiven : Q.usesClassifiers = true → Q.needsTrain = true → estTrain.isSome ∨ preds.isSome) (h1 : Enough (labelsOf y).length estTrain)
    (h2 : Enough (labelsOf y).length estTest) (hp : Enough (labelsOf y).length preds) (hp' : Enough (labelsOf y).length preds')
    (s : Fin (labelsOf y).length → σ) (hs : ∀ i : Fin (labelsOf y).length, copyFit Q estTrain estTest X preds i (oneVsRest (labelsOf y)[i] y) = .ok (s i))
    (r : Fin (labelsOf y).length → Fl) (q : Fin (labelsOf y).length → ℝ) (hq : ∀ i, copyPredict Q (s i) X' preds' i = .ok [r i, Fl.fin (q i)]) :
    ∃ f, ovrFit Q estTrain estTest X y preds = .ok f ∧ f.1 = labelsOf y
      ∧ ovrPredict Q f X' preds' = .ok (List.ofFn fun i => Fl.fin (if 0 < ∑ j, q j then q i / ∑ j, q j else q i)) := by
  have hlb : lbTransform 0 1 (labelsOf y) y = (labelsOf y).map fun c => oneVsRest c y := by
    unfold lbTransform oneVsRest
    rw [if_neg (by omega), if_neg (by omega)]
  have hfit : ovrFit Q estTrain estTest X y preds = .ok (labelsOf y, List.ofFn s) := by
    unfold ovrFit
    simp only [npUnique_eq_labelsOf]
    rw [if_neg]
    · rw [mapM_range_ok _ _ s]
      · rfl
      · intro i
        rw [fitCopy_eq Q estTrain estTest X _ preds (labelsOf y).length i i.2 h1 h2 hp (oneVsRest (labelsOf y)[i] y)]
        · exact hs i
        · rw [hlb, List.getElem?_map, List.getElem?_eq_getElem i.2]
          rfl
    · simp only [Bool.and_eq_true, Option.isNone_iff_eq_none, not_and]
      rintro ⟨⟨ha, hb⟩, hc⟩ hd
      rcases hgiven ha hb with h | h
      · rw [hc] at h; cases h
      · rw [hd] at h; cases h
  refine ⟨_, hfit, rfl, ?_⟩
  unfold ovrPredict
  have hask : ∀ i : Fin (labelsOf y).length, askCopy Q (List.ofFn s) X' preds' i = .ok (Fl.fin (q i)) := by
    intro i
    refine askCopy_eq Q _ X' preds' (labelsOf y).length i i.2 hp' (s i) ?_ (r i) _ (hq i)
    rw [List.getElem?_ofFn, dif_pos i.2]
  simp only
  rw [mapM_range_ok _ _ _ hask]
  show Except.ok (ovrNormalize _) = _
  unfold ovrNormalize
  have hl : (List.ofFn fun i => Fl.fin (q i)).sum = Fl.fin (∑ j, q j) := by rw [List.sum_ofFn, Fl.sum_fin]
  rw [hl, Fl.zero_def]
  by_cases hsum : 0 < ∑ j, q j
  · simp only [if_pos ((Fl.fin_lt_fin _ _).2 hsum), if_pos hsum, List.map_ofFn]
    congr 2
    funext i
    exact Fl.fin_div _ hsum.ne'
  · simp only [if_neg (fun h => hsum ((Fl.fin_lt_fin _ _).1 h)), if_neg hsum]

/-- **C159** for `OneVsRestQuantifier`: whatever the bag and the prevalences `p` it is compared with, the answer is at most twice as far from `p` as the vector of the answers of the binary quantifiers;
and the prevalence of a class is off by no more than the error of its own binary quantifier plus what the binary answers miss from adding up to 1. -/
theorem C159_ovr [LinearOrder α] (Q : BinQuant D ε σ) (estTrain estTest : Option (List ε)) (X X' : List D) (y : List α) (preds preds' : Option (List (List ℝ)))
    (h3 : 3 ≤ (labelsOf y).length) (hgiven : Q.usesClassifiers = true → Q.needsTrain = true → estTrain.isSome ∨ preds.isSome) (h1 : Enough (labelsOf y).length estTrain)
    (h2 : Enough (labelsOf y).length estTest) (hp : Enough (labelsOf y).length preds) (hp' : Enough (labelsOf y).length preds')
    (s : Fin (labelsOf y).length → σ) (hs : ∀ i : Fin (labelsOf y).length, copyFit Q estTrain estTest X preds i (oneVsRest (labelsOf y)[i] y) = .ok (s i))
    (r : Fin (labelsOf y).length → Fl) (q : Fin (labelsOf y).length → ℝ) (hq : ∀ i, copyPredict Q (s i) X' preds' i = .ok [r i, Fl.fin (q i)]) (h0 : ∀ i, 0 ≤ q i)
    (p : Fin (labelsOf y).length → ℝ) (hprev : IsPrev p) :
    ∃ f x, ovrFit Q estTrain estTest X y preds = .ok f ∧ f.1 = labelsOf y ∧ ovrPredict Q f X' preds' = .ok (List.ofFn fun i => Fl.fin (x i))
      ∧ totalError x p ≤ 2 * ∑ i, |q i - p i| ∧ ∀ i, |x i - p i| ≤ |q i - p i| + |∑ j, q j - 1| := by
  obtain ⟨f, e1, e2, e3⟩ := ovr_run Q estTrain estTest X X' y preds preds' h3 hgiven h1 h2 hp hp' s hs r q hq
  have hS : |∑ j, q j - 1| ≤ ∑ i, |q i - p i| := by
    rw [← hprev.2, ← Finset.sum_sub_distrib]
    exact Finset.abs_sum_le_sum_abs _ _
  refine ⟨f, _, e1, e2, e3, ?_⟩
  by_cases hsum : 0 < ∑ j, q j
  · simp only [if_pos hsum]
    have hx : ∀ i, |q i / ∑ j, q j - q i| = q i / (∑ j, q j) * |∑ j, q j - 1| := fun i => by
      have e : q i / ∑ j, q j - q i = q i / (∑ j, q j) * (1 - ∑ j, q j) := by field_simp
      rw [e, abs_mul, abs_of_nonneg (div_nonneg (h0 i) hsum.le), abs_sub_comm]
    have hle : ∀ i, |q i / ∑ j, q j - p i| ≤ |q i - p i| + q i / (∑ j, q j) * |∑ j, q j - 1| := fun i => by
      rw [← hx i, add_comm]
      exact abs_sub_le _ _ _
    refine ⟨?_, fun i => (hle i).trans ?_⟩
    · unfold totalError
      refine (Finset.sum_le_sum fun i _ => hle i).trans ?_
      rw [Finset.sum_add_distrib, ← Finset.sum_mul, ← Finset.sum_div, div_self hsum.ne']
      linarith
    · have : q i / (∑ j, q j) ≤ 1 := (div_le_one hsum).2 (Finset.single_le_sum (fun j _ => h0 j) (Finset.mem_univ i))
      have := mul_le_mul_of_nonneg_right this (abs_nonneg (∑ j, q j - 1))
      linarith
  · simp only [if_neg hsum]
    refine ⟨?_, fun i => le_add_of_nonneg_right (abs_nonneg _)⟩
    have : 0 ≤ ∑ i, |q i - p i| := Finset.sum_nonneg fun i _ => abs_nonneg _
    unfold totalError
    linarith

/-- The means of the envelopes of a sequence are no farther than it from a nondecreasing one. -/
theorem envelope_close {x : List ℝ} {P : ℕ → ℝ} {δ v : ℝ} {i : ℕ} (hP : ∀ j k, j ≤ k → k < x.length → P j ≤ P k) (hi : i < x.length) (hx : ∀ j a, x[j]? = some a → |a - P j| ≤ δ)
    (hv : EnvelopeMean x i v) : |v - P i| ≤ δ := by
  obtain ⟨u, l, ⟨⟨j, hj, hju⟩, hu⟩, ⟨⟨k, hk, hkl⟩, hl⟩, rfl⟩ := hv
  have hxi := hx i x[i] (List.getElem?_eq_getElem hi)
  have b1 := hu ⟨i, le_rfl, List.getElem?_eq_getElem hi⟩
  have b2 := hl ⟨i, le_rfl, List.getElem?_eq_getElem hi⟩
  have b3 := hx j u hju
  have b4 := hx k l hkl
  have b5 := hP j i hj hi
  have b6 := hP i k hk (List.getElem?_eq_some_iff.1 hkl).1
  rw [abs_le] at *
  constructor <;> linarith [hxi.1, hxi.2, b3.1, b3.2, b4.1, b4.2]

theorem take_sum_eq {n : ℕ} (p : Fin n → ℝ) (k : Fin n) : ((List.ofFn p).take (k + 1)).sum = cumsum p k := by
  rw [List.sum_take_ofFn]
  unfold cumsum
  rw [Finset.sum_filter]
  exact Finset.sum_congr rfl fun j _ => by simp only [Fin.le_def, Nat.lt_succ_iff]

/-- **C159** for `FrankAndHallQuantifier`: if every binary quantifier is within `δ` of the prevalence of its group of classes (the first `i + 1` ones), so is the answer, and therefore the prevalence of
every class is within `2 * δ`, the total error is at most `2 * (n - 1) * δ` and the earth mover's distance at most `(n - 1) * δ`. -/
theorem C159_fh [LinearOrder α] (Q : BinQuant D ε σ) (estTrain estTest : Option (List ε)) (X X' : List D) (y : List α) (preds preds' : Option (List (List ℝ)))
    (h3 : 3 ≤ (labelsOf y).length) (hgiven : Q.usesClassifiers = true → Q.needsTrain = true → estTrain.isSome ∨ preds.isSome) (h1 : Enough ((labelsOf y).length - 1) estTrain)
    (h2 : Enough ((labelsOf y).length - 1) estTest) (hp : Enough ((labelsOf y).length - 1) preds) (hp' : Enough ((labelsOf y).length - 1) preds')
    (s : Fin ((labelsOf y).length - 1) → σ) (hs : ∀ i : Fin ((labelsOf y).length - 1), copyFit Q estTrain estTest X preds i (groupVsRest ((labelsOf y).take (i + 1)) y) = .ok (s i))
    (r : Fin ((labelsOf y).length - 1) → Fl) (q : Fin ((labelsOf y).length - 1) → ℝ) (hq : ∀ i, copyPredict Q (s i) X' preds' i = .ok [r i, Fl.fin (q i)])
    (h0 : ∀ i, 0 ≤ q i) (hle : ∀ i, q i ≤ 1) (p : Fin (labelsOf y).length → ℝ) (hprev : IsPrev p) (δ : ℝ)
    (hδ : ∀ i : Fin ((labelsOf y).length - 1), |q i - ((List.ofFn p).take (i + 1)).sum| ≤ δ) :
    ∃ f x, fhqFit Q estTrain estTest X y preds = .ok f ∧ f.1 = labelsOf y ∧ fhqPredict Q f X' preds' = .ok (List.ofFn fun i => Fl.fin (x i))
      ∧ (∀ i : Fin ((labelsOf y).length - 1), |((List.ofFn x).take (i + 1)).sum - ((List.ofFn p).take (i + 1)).sum| ≤ δ)
      ∧ (∀ c, |x c - p c| ≤ 2 * δ) ∧ totalError x p ≤ 2 * ((labelsOf y).length - 1) * δ ∧ emd p x ≤ ((labelsOf y).length - 1) * δ := by
  obtain ⟨f, x, e1, e2, e3, hx, henv⟩ := C52_fh_partial Q estTrain estTest X X' y preds preds' h3 hgiven h1 h2 hp hp' s hs r q hq h0 hle
  have hclose : ∀ i : Fin ((labelsOf y).length - 1), |((List.ofFn x).take (i + 1)).sum - ((List.ofFn p).take (i + 1)).sum| ≤ δ := by
    intro i
    refine envelope_close (P := fun j => ((List.ofFn p).take (j + 1)).sum) ?_ (by rw [List.length_ofFn]; exact i.2) ?_ (henv i)
    · intro j k hjk _
      show ((List.ofFn p).take (j + 1)).sum ≤ ((List.ofFn p).take (k + 1)).sum
      rw [List.sum_take_ofFn, List.sum_take_ofFn]
      refine Finset.sum_le_sum_of_subset_of_nonneg ?_ fun c _ _ => hprev.1 c
      intro c hc
      rw [Finset.mem_filter] at hc ⊢
      exact ⟨hc.1, by omega⟩
    · intro j a hj
      rw [List.getElem?_ofFn] at hj
      split_ifs at hj with hjn
      rw [Option.some.injEq] at hj
      rw [← hj]
      exact hδ ⟨j, hjn⟩
  have hδ0 : 0 ≤ δ := (abs_nonneg _).trans (hδ ⟨0, by omega⟩)
  have hC : ∀ k : Fin (labelsOf y).length, |cumsum (fun j => p j - x j) k| ≤ if (k : ℕ) < (labelsOf y).length - 1 then δ else 0 := by
    intro k
    have hsub : cumsum (fun j => p j - x j) k = cumsum p k - cumsum x k := by
      unfold cumsum
      rw [← Finset.sum_sub_distrib]
      exact Finset.sum_congr rfl fun j _ => by split_ifs <;> simp
    split_ifs with hk
    · have := hclose ⟨k, hk⟩
      rw [hsub, ← take_sum_eq, ← take_sum_eq, abs_sub_comm]
      exact this
    · have hall : ∀ v : Fin (labelsOf y).length → ℝ, cumsum v k = ∑ j, v j := fun v => Finset.sum_congr rfl fun j _ => if_pos (by rw [Fin.le_def]; omega)
      rw [hsub, hall, hall, hprev.2, hx.2, sub_self, abs_zero]
  have hemd : emd p x ≤ ((labelsOf y).length - 1) * δ := by
    unfold emd
    refine (Finset.sum_le_sum fun k _ => hC k).trans ?_
    rw [Fin.sum_univ_eq_sum_range (fun k => if k < (labelsOf y).length - 1 then δ else 0), ← Finset.sum_filter]
    have : (Finset.range (labelsOf y).length).filter (· < (labelsOf y).length - 1) = Finset.range ((labelsOf y).length - 1) := by
      ext k
      simp only [Finset.mem_filter, Finset.mem_range]
      omega
    rw [this, Finset.sum_const, Finset.card_range, nsmul_eq_mul, Nat.cast_sub (by omega), Nat.cast_one]
  refine ⟨f, x, e1, e2, e3, hclose, ?_, ?_, hemd⟩
  · intro c
    have hC' : ∀ k, |cumsum (fun j => p j - x j) k| ≤ δ := fun k => (hC k).trans (by split_ifs <;> simp [hδ0])
    by_cases hc : (c : ℕ) = 0
    · have : cumsum (fun j => p j - x j) c = p c - x c := by
        unfold cumsum
        rw [Finset.sum_eq_single_of_mem c (Finset.mem_univ c), if_pos le_rfl]
        intro j _ hj
        exact if_neg fun h => hj (Fin.ext (by rw [Fin.le_def] at h; omega))
      have h := hC' c
      rw [this, abs_sub_comm] at h
      linarith
    · have hb : (c : ℕ) - 1 < (labelsOf y).length := by omega
      have : p c - x c = cumsum (fun j => p j - x j) c - cumsum (fun j => p j - x j) ⟨c - 1, hb⟩ := by
        unfold cumsum
        rw [← Finset.sum_sub_distrib, Finset.sum_eq_single_of_mem c (Finset.mem_univ c)]
        · rw [if_pos le_rfl, if_neg (by rw [Fin.le_def]; show ¬(c : ℕ) ≤ c - 1; omega), sub_zero]
        · intro j _ hj
          have hj' : j.val ≠ c.val := fun h => hj (Fin.ext h)
          by_cases h : j.val < c.val
          · rw [if_pos (by rw [Fin.le_def]; omega), if_pos (by rw [Fin.le_def]; show j.val ≤ c - 1; omega), sub_self]
          · rw [if_neg (by rw [Fin.le_def]; omega), if_neg (by rw [Fin.le_def]; show ¬j.val ≤ c - 1; omega), sub_self]
      rw [abs_sub_comm, this]
      have a1 := hC' c
      have a2 := hC' ⟨c - 1, hb⟩
      rw [abs_le] at *
      constructor <;> linarith
  · obtain ⟨a, ha, hb, -⟩ := C158_emd p x hprev hx
    rw [l1_eq, Fl.fin_inj] at ha
    unfold totalError
    have : ∑ i, |x i - p i| = a := by rw [← ha]; exact Finset.sum_congr rfl fun i _ => abs_sub_comm _ _
    rw [this]
    linarith

/-- The hypotheses are met with errors that are not 0: the base quantifier `toyQuant` answers 1/2, 1/4 and 1/4 for the labels 3, 1, 2, 1, and 1/2 and 3/4 for its groups, compared with the prevalences
1/4, 1/4 and 1/2. -/
example : ∃ (s : Fin 3 → ℝ) (t : Fin 2 → ℝ), (∀ i : Fin 3, copyFit toyQuant none none [] none i (oneVsRest ([1, 2, 3] : List ℕ)[i] [3, 1, 2, 1]) = .ok (s i)
      ∧ copyPredict toyQuant (s i) [] none i = .ok [Fl.fin (1 - s i), Fl.fin (s i)] ∧ 0 ≤ s i)
    ∧ (∀ i : Fin 2, copyFit toyQuant none none [] none i (groupVsRest (([1, 2, 3] : List ℕ).take (i + 1)) [3, 1, 2, 1]) = .ok (t i)
      ∧ copyPredict toyQuant (t i) [] none i = .ok [Fl.fin (1 - t i), Fl.fin (t i)] ∧ 0 ≤ t i ∧ t i ≤ 1
      ∧ |t i - ((List.ofFn (![1/4, 1/4, 1/2] : Fin 3 → ℝ)).take (i + 1)).sum| ≤ 1/4)
    ∧ IsPrev (![1/4, 1/4, 1/2] : Fin 3 → ℝ) := by
  refine ⟨![2/4, 1/4, 1/4], ![2/4, 3/4], fun i => ?_, fun i => ?_, fun i => ?_, ?_⟩
  · fin_cases i <;> refine ⟨?_, rfl, ?_⟩ <;> norm_num [copyFit, toyQuant, oneVsRest, copyPredict]
  · fin_cases i <;> refine ⟨?_, rfl, ?_⟩ <;> norm_num [copyFit, toyQuant, groupVsRest, copyPredict, List.ofFn_succ, abs_le]
  · fin_cases i <;> norm_num
  · rw [Fin.sum_univ_three]; simp; norm_num

end Verif.Props
