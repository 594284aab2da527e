import Verif.Proof.Deviation
import Verif.Spec.SampleSize
import Verif.Props.Consistency
import Verif.Props.Influence

/-!
# C154: how far from the prevalences the answer to a bag of n random examples can be

The test examples are a stream of random examples under prior probability shift. For bags of the first `n` examples, bounds for the probability of an error.
-/

namespace Verif.Props

open Verif.Model Verif.Spec Verif.Proof
open MeasureTheory ProbabilityTheory Filter Topology

/-- From a bound of the error by the deviations of means over the bag, to the probability of an error. -/
theorem within_of_bound {Ω α β ι E : Type*} [MeasurableSpace Ω] [LinearOrder α] [MeasurableSpace α] [MeasurableSingletonClass α] [MeasurableSpace β] [MeasurableSingletonClass β] {μ : Measure Ω} [IsProbabilityMeasure μ]
    {train : List (α × β)} {y : List α} {p : Fin (labelsOf y).length → ℝ} {Z : ℕ → Ω → α × β} (h : ShiftedStream μ train y p Z) (hp : IsPrev p) (hne : ∀ c : Fin (labelsOf y).length, ofClass train (labelsOf y)[c] ≠ [])
    {k : ℕ} (target : Fin k → ℝ) (answer : List β → Except E (Option (List Fl))) [Fintype ι] (F : ι → β → ℝ) (n : ℕ) (hn : 0 < n) (ε η : ℝ)
    (hans : ∀ bag : List (α × β), bag ≠ [] → (∀ t ∈ bag, t ∈ train) → ∃ x : Fin k → ℝ, answer (bag.map Prod.snd) = .ok (some (realList x))
      ∧ (∑ j, |meanOf (bag.map Prod.snd) (F j) - ∑ c, p c * meanOf (ofClass train (labelsOf y)[c]) (F j)| < η → totalError x target < ε)) (δ : ℝ)
    (hδ : μ {ω | η ≤ ∑ j, |meanOf (firstSeen Z n ω) (F j) - ∑ c, p c * meanOf (ofClass train (labelsOf y)[c]) (F j)|} ≤ ENNReal.ofReal δ) :
    AnswersWithin μ Z n target answer ε δ := by
  refine (measure_mono_ae ?_).trans hδ
  filter_upwards [stream_mem h hp.2 hne] with ω hω hbad
  by_contra hcon
  have hcon' : ∑ j, |meanOf (firstSeen Z n ω) (F j) - ∑ c, p c * meanOf (ofClass train (labelsOf y)[c]) (F j)| < η := not_le.1 hcon
  have hseen : firstSeen Z n ω = ((List.range n).map fun i => Z i ω).map Prod.snd := by
    rw [firstSeen, List.map_map]
    rfl
  obtain ⟨x, h1, h2⟩ := hans ((List.range n).map fun i => Z i ω) (by simpa using hn.ne') fun t ht => by
    obtain ⟨i, -, rfl⟩ := List.mem_map.1 ht
    exact hω i
  rw [← hseen] at h1 h2
  exact hbad ⟨x, h1, h2 hcon'⟩

/-- Both bounds of the probability: for examples independent two by two, and for independent examples. -/
theorem within_both {Ω α β ι E : Type*} [MeasurableSpace Ω] [LinearOrder α] [MeasurableSpace α] [MeasurableSingletonClass α] [MeasurableSpace β] [MeasurableSingletonClass β] {μ : Measure Ω} [IsProbabilityMeasure μ]
    {train : List (α × β)} {y : List α} {p : Fin (labelsOf y).length → ℝ} {Z : ℕ → Ω → α × β} (h : ShiftedStream μ train y p Z) (hp : IsPrev p) (hne : ∀ c : Fin (labelsOf y).length, ofClass train (labelsOf y)[c] ≠ [])
    {k : ℕ} (target : Fin k → ℝ) (answer : List β → Except E (Option (List Fl))) [Fintype ι] (F : ι → β → ℝ) (B : ℝ) (hB : ∀ t ∈ train, ∑ k, F k t.2 ^ 2 ≤ B) (hF : ∀ t ∈ train, ∀ k, F k t.2 ∈ Set.Icc (0:ℝ) 1)
    (n : ℕ) (hn : 0 < n) (ε η : ℝ) (hη : 0 < η)
    (hans : ∀ bag : List (α × β), bag ≠ [] → (∀ t ∈ bag, t ∈ train) → ∃ x : Fin k → ℝ, answer (bag.map Prod.snd) = .ok (some (realList x))
      ∧ (∑ j, |meanOf (bag.map Prod.snd) (F j) - ∑ c, p c * meanOf (ofClass train (labelsOf y)[c]) (F j)| < η → totalError x target < ε)) :
    AnswersWithin μ Z n target answer ε (Fintype.card ι * B / (n * η ^ 2)) ∧ (iIndepFun Z μ → AnswersWithin μ Z n target answer ε (2 * Fintype.card ι * Real.exp (-2 * n * (η / Fintype.card ι) ^ 2))) :=
  ⟨within_of_bound h hp hne target answer F n hn ε η hans _ (deviation_le h hp.2 hp.1 hne F B hB n hn η hη),
    fun hind => within_of_bound h hp hne target answer F n hn ε η hans _ (deviation_exp h hind hp.2 hne F hF n hn η hη)⟩

/-- From the moments of means over the bag to the moments of answers that are such means. -/
theorem moments_of_mean {Ω α β E : Type*} [MeasurableSpace Ω] [LinearOrder α] [MeasurableSpace α] [MeasurableSingletonClass α] [MeasurableSpace β] [MeasurableSingletonClass β] {μ : Measure Ω} [IsProbabilityMeasure μ]
    {train : List (α × β)} {y : List α} {p : Fin (labelsOf y).length → ℝ} {Z : ℕ → Ω → α × β} (h : ShiftedStream μ train y p Z) (hp : IsPrev p) (hne : ∀ c : Fin (labelsOf y).length, ofClass train (labelsOf y)[c] ≠ [])
    {k : ℕ} (answer : List β → Except E (Option (List Fl))) (F : Fin k → β → ℝ) (n : ℕ) (hn : 0 < n) (mean var : Fin k → ℝ)
    (hmean : ∀ j, ∑ c, p c * meanOf (ofClass train (labelsOf y)[c]) (F j) = mean j) (hvar : ∀ j, (∑ c, p c * meanOf (ofClass train (labelsOf y)[c]) (fun v => F j v ^ 2) - mean j ^ 2) / n = var j)
    (hans : ∀ bag : List (α × β), bag.length = n → (∀ t ∈ bag, t ∈ train) → answer (bag.map Prod.snd) = .ok (some (realList fun j => meanOf (bag.map Prod.snd) (F j)))) :
    AnswersMoments μ Z n mean var answer := by
  have hm := fun j => mean_moments h hp.2 hne (F j) n hn
  refine ⟨fun ω j => meanOf (firstSeen Z n ω) (F j), ?_, fun j => (hm j).2.1, fun j => (hm j).2.2.1.trans (hmean j), fun j => ?_, fun j => ?_⟩
  · filter_upwards [stream_mem h hp.2 hne] with ω hω
    have hseen : firstSeen Z n ω = ((List.range n).map fun i => Z i ω).map Prod.snd := by
      rw [firstSeen, List.map_map]
      rfl
    rw [hseen]
    refine hans _ (by simp) fun t ht => ?_
    obtain ⟨i, -, rfl⟩ := List.mem_map.1 ht
    exact hω i
  · rw [← hmean j]
    exact (hm j).1
  · rw [← hmean j, (hm j).2.2.2, hmean j]
    exact hvar j

theorem onehot_sq {α : Type*} [LinearOrder α] (cs : List α) (hcs : cs.Nodup) (a : α) : ∑ j : Fin cs.length, (if a = cs[j] then (1:ℝ) else 0) ^ 2 ≤ 1 := by
  have h1 : ∀ j : Fin cs.length, (if a = cs[j] then (1:ℝ) else 0) ^ 2 = if a = cs[j] then (1:ℝ) else 0 := fun j => by split_ifs <;> norm_num
  simp only [h1]
  by_cases h : ∃ j : Fin cs.length, a = cs[j]
  · obtain ⟨j, hj⟩ := h
    rw [Finset.sum_eq_single_of_mem j (Finset.mem_univ _) fun j' _ hne => if_neg fun h' => hne (Fin.ext ((List.Nodup.getElem_inj_iff hcs).1 (h'.symm.trans hj))), if_pos hj]
  · rw [Finset.sum_eq_zero fun j _ => if_neg fun hj => h ⟨j, hj⟩]
    exact zero_le_one

theorem prev_sq {n : ℕ} {v : Fin n → ℝ} (h : IsPrev v) : ∑ j, v j ^ 2 ≤ 1 := by
  rw [← h.2]
  refine Finset.sum_le_sum fun j _ => ?_
  have h1 : v j ≤ 1 := by
    rw [← h.2]
    exact Finset.single_le_sum (f := v) (fun i _ => h.1 i) (Finset.mem_univ j)
  nlinarith [h.1 j]

theorem prev_le_one {n : ℕ} {v : Fin n → ℝ} (h : IsPrev v) (j : Fin n) : v j ≤ 1 := by
  rw [← h.2]
  exact Finset.single_le_sum (f := v) (fun i _ => h.1 i) (Finset.mem_univ j)

section
variable {Ω : Type*} [MeasurableSpace Ω] {μ : Measure Ω} [IsProbabilityMeasure μ]
variable {σ D α : Type} {k : ℕ} [LinearOrder α] [MeasurableSpace α] [MeasurableSingletonClass α] (enc : Bool → α) (w : World σ D α) (et et' : Option ℕ) (X Xt : List D) (y : List α) (hy : y ≠ []) (r : ℕ) (hr : 0 < r)
  (p : Fin (labelsOf y).length → ℝ) (hp : IsPrev p)
include hy hr hp

omit [MeasurableSpace α] [MeasurableSingletonClass α] hr hp in
theorem cc_mean_answer (ops : EstOps σ D α k) (P : List α) (hP : P.length = r * y.length) (bag : List (α × α)) (hne : bag ≠ []) :
    ucRun ops enc w ⟨ccClass, et, et'⟩ X y (some (.crisp P)) Xt (some (.crisp (bag.map Prod.snd)))
      = .ok (some (realList fun j : Fin (labelsOf y).length => meanOf (bag.map Prod.snd) fun a => if a = (labelsOf y)[j] then (1:ℝ) else 0)) := by
  have hbne : bag.map Prod.snd ≠ [] := by simpa using hne
  rw [ucRun_given_crisp ops enc w X Xt y ccClass rfl rfl et et' hy r P _ hP]
  have : answerOn (k := k) ccClass y r (.crisp P) (.crisp (bag.map Prod.snd)) = .ok (some (vecList (classFreqs (labelsOf y) (bag.map Prod.snd)))) := rfl
  rw [this, classFreqs_fin _ _ hbne, ← freqs_mean]
  rfl

/-- **C154** for CC: the expectation of the answer is what is expected of the predictions, and its variances are those of frequencies. -/
theorem C154_cc_moments (ops : EstOps σ D α k) (P : List α) (hP : P.length = r * y.length) (Z : ℕ → Ω → α × α) (hZ : ShiftedStream μ ((stacked y r).zip P) y p Z) (n : ℕ) (hn : 0 < n) (q : Fin (labelsOf y).length → ℝ)
    (hq : q = expectedPreds (fun i j => condFreq (stacked y r) P (labelsOf y)[i] (labelsOf y)[j]) p) :
    AnswersMoments μ Z n q (fun j => q j * (1 - q j) / n) fun bag => ucRun ops enc w ⟨ccClass, et, et'⟩ X y (some (.crisp P)) Xt (some (.crisp bag)) := by
  have hl : (stacked y r).length = P.length := by rw [stacked_length, hP]
  have h1 : ∀ j : Fin (labelsOf y).length, ∑ c, p c * meanOf (ofClass ((stacked y r).zip P) (labelsOf y)[c]) (fun a => if a = (labelsOf y)[j] then (1:ℝ) else 0) = q j := fun j => by
    simp only [class_mean_crisp y r P hl]
    rw [hq]
    rfl
  have h2 : ∀ j : Fin (labelsOf y).length, (fun a => (if a = (labelsOf y)[j] then (1:ℝ) else 0) ^ 2) = fun a => if a = (labelsOf y)[j] then (1:ℝ) else 0 := fun j => by
    funext a
    split_ifs <;> norm_num
  refine moments_of_mean hZ hp (class_ne y r hr P hl) _ (fun (j : Fin (labelsOf y).length) a => if a = (labelsOf y)[j] then (1:ℝ) else 0) n hn _ _ h1 (fun j => ?_)
    fun bag hlen _ => cc_mean_answer enc w et et' X Xt y hy r ops P hP bag (List.length_pos_iff.1 (hlen ▸ hn))
  rw [h2, h1]
  ring

/-- **C154** for PCC: the same for means of probabilities; the variance of a probability over the mixture of the classes, divided by the size of the bag. -/
theorem C154_pcc_moments (ops : EstOps σ D α (labelsOf y).length) (P : List (Fin (labelsOf y).length → ℝ)) (hP : P.length = r * y.length) (Z : ℕ → Ω → α × (Fin (labelsOf y).length → ℝ))
    (hZ : ShiftedStream μ ((stacked y r).zip P) y p Z) (n : ℕ) (hn : 0 < n) (q : Fin (labelsOf y).length → ℝ) (hq : q = expectedPreds (fun i j => condMean (stacked y r) P (fun row => row j) (labelsOf y)[i]) p) :
    AnswersMoments μ Z n q (fun j => ((∑ c, p c * condMean (stacked y r) P (fun row => row j ^ 2) (labelsOf y)[c]) - q j ^ 2) / n)
      fun bag => ucRun ops enc w ⟨pccClass, et, et'⟩ X y (some (.probs P)) Xt (some (.probs bag)) := by
  have hl : (stacked y r).length = P.length := by rw [stacked_length, hP]
  have h1 : ∀ j : Fin (labelsOf y).length, ∑ c, p c * meanOf (ofClass ((stacked y r).zip P) (labelsOf y)[c]) (fun row => row j) = q j := fun j => by
    simp only [class_mean_probs y r P hl]
    rw [hq]
    rfl
  refine moments_of_mean hZ hp (class_ne y r hr P hl) _ (fun (j : Fin (labelsOf y).length) row => row j) n hn _ _ h1 (fun j => ?_) fun bag hlen _ => ?_
  · congr 2
    refine Finset.sum_congr rfl fun c _ => ?_
    congr 1
    have h1 : ofClass ((stacked y r).zip P) (labelsOf y)[c] = selectRows (stacked y r) P (labelsOf y)[c] := rfl
    rw [meanOf, h1, selectRows_length _ _ hl]
    unfold condMean selectRows
    rw [List.map_map]
    rfl
  · have hbne : bag.map Prod.snd ≠ [] := by simpa using List.length_pos_iff.1 (hlen ▸ hn)
    rw [ucRun_given_probs ops enc w X Xt y pccClass rfl rfl et et' hy r P _ hP]
    have : answerOn pccClass y r (.probs P) (.probs (bag.map Prod.snd)) = .ok (some (vecList (colMeans (bag.map Prod.snd)))) := rfl
    rw [this, colMeans_eq _ hbne]
    rfl

omit hy hr hp in
theorem adjust_single (sol : Solvers) (dist : Dist) {n : ℕ} (hn : n = 2) (neg pos : Fin n) (h0 : neg.1 = 0) (h1 : pos.1 = 1) (M : Fin n → Fin n → ℝ) (hM : ∀ i j, 0 ≤ M i j ∧ M i j ≤ 1) (hd : M neg pos + 1/1000 < M pos pos)
    (q : Fin n → ℝ) (hq : IsPrev q) (hq01 : q pos = 0 ∨ q pos = 1) : adjust sol dist (fun i j => Fl.fin (M i j)) (fun j => Fl.fin (q j)) = .ok fun j => Fl.fin (q j) := by
  subst hn
  obtain rfl : neg = 0 := Fin.ext h0
  obtain rfl : pos = 1 := Fin.ext h1
  have hpos : 0 < M 1 1 - M 0 1 := by linarith
  have hbig : 1/1000 < |M 1 1 - M 0 1| := by
    rw [abs_of_pos hpos]
    linarith
  rw [C09_binary_formula _ _ (M 1 1) (M 0 1) (q 1) rfl rfl rfl hbig]
  have hs := hq.2
  rw [Fin.sum_univ_two] at hs
  have ht : max 0 (min ((q 1 - M 0 1) / (M 1 1 - M 0 1)) 1) = q 1 := by
    rcases hq01 with h | h
    · rw [h, max_eq_left]
      exact (min_le_left _ _).trans (div_nonpos_of_nonpos_of_nonneg (by linarith [(hM 0 1).1]) hpos.le)
    · rw [h, min_eq_right, max_eq_right zero_le_one]
      rw [le_div_iff₀ hpos]
      linarith [(hM 1 1).2]
  rw [ht]
  congr 1
  funext i
  fin_cases i
  · show Fl.fin (1 - q 1) = Fl.fin (q 0)
    rw [← hs, add_sub_cancel_right]
  · rfl

/-- **C154** for AC with bags of one example: the adjustment does nothing, so the expectation of the answer is what is expected of the predictions, not the prevalences. -/
theorem C154_ac_one_example (ops : EstOps σ D α k) (sol : Solvers) (dist : Dist) (h2 : (labelsOf y).length = 2) (neg pos : Fin (labelsOf y).length) (h0 : neg.1 = 0) (h1 : pos.1 = 1) (P : List α) (hP : P.length = r * y.length)
    (hPy : ∀ a ∈ P, a ∈ y) (hd : condFreq (stacked y r) P (labelsOf y)[neg] (labelsOf y)[pos] + 1/1000 < condFreq (stacked y r) P (labelsOf y)[pos] (labelsOf y)[pos]) (Z : ℕ → Ω → α × α)
    (hZ : ShiftedStream μ ((stacked y r).zip P) y p Z) (q : Fin (labelsOf y).length → ℝ) (hq : q = expectedPreds (fun i j => condFreq (stacked y r) P (labelsOf y)[i] (labelsOf y)[j]) p) :
    AnswersMoments μ Z 1 q (fun j => q j * (1 - q j)) fun bag => ucRun ops enc w ⟨acClass sol dist, et, et'⟩ X y (some (.crisp P)) Xt (some (.crisp bag)) := by
  have hl : (stacked y r).length = P.length := by rw [stacked_length, hP]
  have hm : ∀ j : Fin (labelsOf y).length, ∑ c, p c * meanOf (ofClass ((stacked y r).zip P) (labelsOf y)[c]) (fun a => if a = (labelsOf y)[j] then (1:ℝ) else 0) = q j := fun j => by
    simp only [class_mean_crisp y r P hl]
    rw [hq]
    rfl
  have hsq : ∀ j : Fin (labelsOf y).length, (fun a => (if a = (labelsOf y)[j] then (1:ℝ) else 0) ^ 2) = fun a => if a = (labelsOf y)[j] then (1:ℝ) else 0 := fun j => by
    funext a
    split_ifs <;> norm_num
  refine moments_of_mean hZ hp (class_ne y r hr P hl) _ (fun (j : Fin (labelsOf y).length) a => if a = (labelsOf y)[j] then (1:ℝ) else 0) 1 one_pos _ _ hm (fun j => ?_) fun bag hlen hbag => ?_
  · rw [hsq, hm, Nat.cast_one]
    ring
  · obtain ⟨t, rfl⟩ := List.length_eq_one_iff.1 hlen
    have ht := hPy _ (mem_of_zip_class y r P t (hbag t (List.mem_singleton_self _)) hr).2
    have hbne : [t].map Prod.snd ≠ [] := by simp
    have hfq : IsPrev (freqs (labelsOf y) ([t].map Prod.snd)) := freqs_isPrev _ (labelsOf_nodup y) _ hbne fun a ha => by
      rw [List.map_singleton, List.mem_singleton] at ha
      rw [ha]
      exact (mem_labelsOf y _).2 ht
    have h01 : freqs (labelsOf y) ([t].map Prod.snd) pos = 0 ∨ freqs (labelsOf y) ([t].map Prod.snd) pos = 1 := by
      rw [freqs_mean]
      beta_reduce
      by_cases h : t.2 = (labelsOf y)[pos]
      · right
        rw [List.map_singleton, meanOf, List.map_singleton, List.sum_singleton, if_pos h]
        norm_num
      · left
        rw [List.map_singleton, meanOf, List.map_singleton, List.sum_singleton, if_neg h]
        norm_num
    rw [← freqs_mean, ucRun_given_crisp ops enc w X Xt y (acClass sol dist) rfl rfl et et' hy r P _ hP, answer_ac_eq y sol dist r P _ hP hbne, normalizeRows_eq y r hr P hP hPy,
      adjust_single sol dist h2 neg pos h0 h1 (cmReal y r P) (fun i j => ⟨(cmReal_row y r hr P hP hPy i).1 j, prev_le_one (cmReal_row y r hr P hP hPy i) j⟩) hd _ hfq h01]
    rfl

/-- **C154** for CC. -/
theorem C154_cc (ops : EstOps σ D α k) (P : List α) (hP : P.length = r * y.length) (Z : ℕ → Ω → α × α) (hZ : ShiftedStream μ ((stacked y r).zip P) y p Z) (n : ℕ) (hn : 0 < n) (ε : ℝ) (hε : 0 < ε)
    (q : Fin (labelsOf y).length → ℝ) (hq : q = expectedPreds (fun i j => condFreq (stacked y r) P (labelsOf y)[i] (labelsOf y)[j]) p) (answer : List α → Except Err (Option (List Fl)))
    (hans : answer = fun bag => ucRun ops enc w ⟨ccClass, et, et'⟩ X y (some (.crisp P)) Xt (some (.crisp bag))) :
    AnswersWithin μ Z n q answer ε ((labelsOf y).length / (n * ε ^ 2))
      ∧ (iIndepFun Z μ → AnswersWithin μ Z n q answer ε (2 * (labelsOf y).length * Real.exp (-2 * n * (ε / (labelsOf y).length) ^ 2))) := by
  have hl : (stacked y r).length = P.length := by rw [stacked_length, hP]
  have h1 : ∀ j : Fin (labelsOf y).length, ∑ c, p c * meanOf (ofClass ((stacked y r).zip P) (labelsOf y)[c]) (fun a => if a = (labelsOf y)[j] then (1:ℝ) else 0) = q j := fun j => by
    simp only [class_mean_crisp y r P hl]
    rw [hq]
    rfl
  have := within_both hZ hp (class_ne y r hr P hl) q answer (fun (j : Fin (labelsOf y).length) a => if a = (labelsOf y)[j] then (1:ℝ) else 0) 1 (fun t _ => onehot_sq _ (labelsOf_nodup y) t.2)
    (fun t _ j => by split_ifs <;> simp) n hn ε ε hε fun bag hne _ =>
      ⟨_, by rw [hans]; exact cc_mean_answer enc w et et' X Xt y hy r ops P hP bag hne, by simp only [h1]; exact id⟩
  simpa using this

/-- **C154** for PCC. -/
theorem C154_pcc (ops : EstOps σ D α (labelsOf y).length) (P : List (Fin (labelsOf y).length → ℝ)) (hP : P.length = r * y.length) (hPp : ∀ row ∈ P, IsPrev row) (Z : ℕ → Ω → α × (Fin (labelsOf y).length → ℝ))
    (hZ : ShiftedStream μ ((stacked y r).zip P) y p Z) (n : ℕ) (hn : 0 < n) (ε : ℝ) (hε : 0 < ε)
    (q : Fin (labelsOf y).length → ℝ) (hq : q = expectedPreds (fun i j => condMean (stacked y r) P (fun row => row j) (labelsOf y)[i]) p) (answer : List (Fin (labelsOf y).length → ℝ) → Except Err (Option (List Fl)))
    (hans : answer = fun bag => ucRun ops enc w ⟨pccClass, et, et'⟩ X y (some (.probs P)) Xt (some (.probs bag))) :
    AnswersWithin μ Z n q answer ε ((labelsOf y).length / (n * ε ^ 2))
      ∧ (iIndepFun Z μ → AnswersWithin μ Z n q answer ε (2 * (labelsOf y).length * Real.exp (-2 * n * (ε / (labelsOf y).length) ^ 2))) := by
  have hl : (stacked y r).length = P.length := by rw [stacked_length, hP]
  have h1 : ∀ j : Fin (labelsOf y).length, ∑ c, p c * meanOf (ofClass ((stacked y r).zip P) (labelsOf y)[c]) (fun row => row j) = q j := fun j => by
    simp only [class_mean_probs y r P hl]
    rw [hq]
    rfl
  have hrows : ∀ t ∈ (stacked y r).zip P, IsPrev t.2 := fun t ht => hPp _ (mem_of_zip_class y r P t ht hr).2
  have := within_both hZ hp (class_ne y r hr P hl) q answer (fun (j : Fin (labelsOf y).length) row => row j) 1 (fun t ht => prev_sq (hrows t ht))
    (fun t ht j => ⟨(hrows t ht).1 j, prev_le_one (hrows t ht) j⟩) n hn ε ε hε fun bag hne _ => ⟨fun j => meanOf (bag.map Prod.snd) fun row => row j, ?_, ?_⟩
  · simpa using this
  · have hbne : bag.map Prod.snd ≠ [] := by simpa using hne
    rw [hans]
    show ucRun ops enc w ⟨pccClass, et, et'⟩ X y (some (.probs P)) Xt (some (.probs (bag.map Prod.snd))) = _
    rw [ucRun_given_probs ops enc w X Xt y pccClass rfl rfl et et' hy r P _ hP]
    have : answerOn pccClass y r (.probs P) (.probs (bag.map Prod.snd)) = .ok (some (vecList (colMeans (bag.map Prod.snd)))) := rfl
    rw [this, colMeans_eq _ hbne]
    rfl
  · simp only [h1]
    exact id

omit hy hr hp in
theorem scale_bounds {m κ ε n : ℝ} (hκ : 0 < κ) : m * 1 / (n * (ε / κ) ^ 2) = m * κ ^ 2 / (n * ε ^ 2) := by
  field_simp

/-- **C154** for AC: `κ` says how well the predictions tell prevalences apart. -/
theorem C154_ac (ops : EstOps σ D α k) (sol : Solvers) (dist : Dist) (P : List α) (hP : P.length = r * y.length) (hPy : ∀ a ∈ P, a ∈ y) (κ : ℝ) (hκ0 : 0 < κ)
    (hκ : TellsApart (fun i j : Fin (labelsOf y).length => condFreq (stacked y r) P (labelsOf y)[i] (labelsOf y)[j]) κ) (h2 : (labelsOf y).length = 2 → κ < 1000)
    (Z : ℕ → Ω → α × α) (hZ : ShiftedStream μ ((stacked y r).zip P) y p Z) (n : ℕ) (hn : 0 < n) (ε : ℝ) (hε : 0 < ε) (answer : List α → Except Err (Option (List Fl)))
    (hans : answer = fun bag => ucRun ops enc w ⟨acClass sol dist, et, et'⟩ X y (some (.crisp P)) Xt (some (.crisp bag))) :
    AnswersWithin μ Z n p answer ε ((labelsOf y).length * κ ^ 2 / (n * ε ^ 2))
      ∧ (iIndepFun Z μ → AnswersWithin μ Z n p answer ε (2 * (labelsOf y).length * Real.exp (-2 * n * (ε / κ / (labelsOf y).length) ^ 2))) := by
  have hl : (stacked y r).length = P.length := by rw [stacked_length, hP]
  have hrow := fun i => (cmReal_row y r hr P hP hPy i).2
  have := within_both hZ hp (class_ne y r hr P hl) p answer (fun (j : Fin (labelsOf y).length) a => if a = (labelsOf y)[j] then (1:ℝ) else 0) 1 (fun t _ => onehot_sq _ (labelsOf_nodup y) t.2)
    (fun t _ j => by split_ifs <;> simp) n hn ε (ε / κ) (div_pos hε hκ0) fun bag hne hbag => ?_
  · simpa only [Fintype.card_fin, scale_bounds hκ0] using this
  · have hbne : bag.map Prod.snd ≠ [] := by simpa using hne
    have hq : IsPrev (freqs (labelsOf y) (bag.map Prod.snd)) := freqs_isPrev _ (labelsOf_nodup y) _ hbne fun a ha => by
      obtain ⟨t, ht, rfl⟩ := List.mem_map.1 ha
      exact (mem_labelsOf y _).2 (hPy _ (mem_of_zip_class y r P t (hbag t ht) hr).2)
    obtain ⟨x, h, hx, he⟩ := adjust_error sol dist (cmReal y r P) hrow κ hκ h2 p _ hp hq.2
    refine ⟨x, ?_, fun hdev => ?_⟩
    · rw [hans]
      show ucRun ops enc w ⟨acClass sol dist, et, et'⟩ X y (some (.crisp P)) Xt (some (.crisp (bag.map Prod.snd))) = _
      rw [ucRun_given_crisp ops enc w X Xt y (acClass sol dist) rfl rfl et et' hy r P _ hP, answer_ac_eq y sol dist r P _ hP hbne, normalizeRows_eq y r hr P hP hPy, h]
      rfl
    · rw [freqs_mean] at he
      simp only [class_mean_crisp y r P hl] at hdev
      rw [lt_div_iff₀ hκ0, mul_comm] at hdev
      exact lt_of_le_of_lt he hdev

/-- **C154** for PAC. -/
theorem C154_pac (ops : EstOps σ D α (labelsOf y).length) (sol : Solvers) (dist : Dist) (P : List (Fin (labelsOf y).length → ℝ)) (hP : P.length = r * y.length) (hPp : ∀ row ∈ P, IsPrev row) (κ : ℝ) (hκ0 : 0 < κ)
    (hκ : TellsApart (fun i j : Fin (labelsOf y).length => condMean (stacked y r) P (fun row => row j) (labelsOf y)[i]) κ) (h2 : (labelsOf y).length = 2 → κ < 1000)
    (Z : ℕ → Ω → α × (Fin (labelsOf y).length → ℝ)) (hZ : ShiftedStream μ ((stacked y r).zip P) y p Z) (n : ℕ) (hn : 0 < n) (ε : ℝ) (hε : 0 < ε) (answer : List (Fin (labelsOf y).length → ℝ) → Except Err (Option (List Fl)))
    (hans : answer = fun bag => ucRun ops enc w ⟨pacClass sol dist, et, et'⟩ X y (some (.probs P)) Xt (some (.probs bag))) :
    AnswersWithin μ Z n p answer ε ((labelsOf y).length * κ ^ 2 / (n * ε ^ 2))
      ∧ (iIndepFun Z μ → AnswersWithin μ Z n p answer ε (2 * (labelsOf y).length * Real.exp (-2 * n * (ε / κ / (labelsOf y).length) ^ 2))) := by
  have hl : (stacked y r).length = P.length := by rw [stacked_length, hP]
  have hrow := fun i => (pcmReal_row y r hr P hP hPp i).2
  have hrows : ∀ t ∈ (stacked y r).zip P, IsPrev t.2 := fun t ht => hPp _ (mem_of_zip_class y r P t ht hr).2
  have := within_both hZ hp (class_ne y r hr P hl) p answer (fun (j : Fin (labelsOf y).length) row => row j) 1 (fun t ht => prev_sq (hrows t ht))
    (fun t ht j => ⟨(hrows t ht).1 j, prev_le_one (hrows t ht) j⟩) n hn ε (ε / κ) (div_pos hε hκ0) fun bag hne hbag => ?_
  · simpa only [Fintype.card_fin, scale_bounds hκ0] using this
  · have hbne : bag.map Prod.snd ≠ [] := by simpa using hne
    have hq := meanOf_isPrev (bag.map Prod.snd) hbne fun row hrow => by
      obtain ⟨t, ht, rfl⟩ := List.mem_map.1 hrow
      exact hrows t (hbag t ht)
    obtain ⟨x, h, hx, he⟩ := adjust_error sol dist (pcmReal y r P) hrow κ hκ h2 p _ hp hq.2
    refine ⟨x, ?_, fun hdev => ?_⟩
    · rw [hans]
      show ucRun ops enc w ⟨pacClass sol dist, et, et'⟩ X y (some (.probs P)) Xt (some (.probs (bag.map Prod.snd))) = _
      rw [pac_run enc w et et' X Xt y hy r hr ops sol dist P hP _ hbne, h]
      rfl
    · simp only [class_mean_probs y r P hl] at hdev
      rw [lt_div_iff₀ hκ0, mul_comm] at hdev
      exact lt_of_le_of_lt he hdev

/-- How much the representation of a bag changes with its histograms: no more than the histograms, or as many times as there are numbers, when they are accumulated. -/
def accumFactor (f : DistFun) (m : ℕ) : ℝ := match f with
  | .pdf => 1
  | .cdf => m

omit hy hr hp in
theorem accumulate_dev (kind : CumKind) (f : DistFun) {nd nb : ℕ} (h h' : Fin nd × Fin nb → ℝ) :
    totalError (accumulate kind f fun d b => h (d, b)) (accumulate kind f fun d b => h' (d, b)) ≤ accumFactor f (nd * nb) * ∑ i, |h i - h' i| := by
  have hre : ∑ i : Fin (nd * nb), |h (finProdFinEquiv.symm i) - h' (finProdFinEquiv.symm i)| = ∑ i, |h i - h' i| := Equiv.sum_comp finProdFinEquiv.symm fun i => |h i - h' i|
  have hcs : ∀ {m : ℕ} (v v' : Fin m → ℝ) (i : Fin m), |cumsum v i - cumsum v' i| ≤ ∑ j, |v j - v' j| := by
    intro m v v' i
    unfold cumsum
    rw [← Finset.sum_sub_distrib]
    refine (Finset.abs_sum_le_sum_abs _ _).trans (Finset.sum_le_sum fun j _ => ?_)
    split_ifs
    · exact le_rfl
    · simp
  cases f with
  | pdf =>
    rw [accumFactor, one_mul, ← hre]
    exact le_rfl
  | cdf =>
    have hall : ∀ i, |accumulate kind .cdf (fun d b => h (d, b)) i - accumulate kind .cdf (fun d b => h' (d, b)) i| ≤ ∑ i, |h i - h' i| := by
      intro i
      cases kind with
      | whole =>
        rw [← hre]
        exact hcs _ _ i
      | perBlock =>
        refine (hcs (fun b => h ((finProdFinEquiv.symm i).1, b)) (fun b => h' ((finProdFinEquiv.symm i).1, b)) _).trans ?_
        rw [Fintype.sum_prod_type fun i => |h i - h' i|]
        exact Finset.single_le_sum (f := fun d => ∑ b, |h (d, b) - h' (d, b)|) (fun d _ => Finset.sum_nonneg fun b _ => abs_nonneg _) (Finset.mem_univ _)
    unfold totalError
    refine (Finset.sum_le_sum fun i _ => hall i).trans (le_of_eq ?_)
    rw [Finset.sum_const, Finset.card_univ, Fintype.card_fin, nsmul_eq_mul, accumFactor]

omit hy hr hp in
theorem hellinger_le {m : ℕ} (v v' : Fin m → ℝ) (hv : ∀ i, 0 ≤ v i) (hv' : ∀ i, 0 ≤ v' i) : hellingerDist v v' ≤ Real.sqrt (totalError v v') := by
  refine Real.sqrt_le_sqrt (Finset.sum_le_sum fun i _ => ?_)
  have h1 : ∀ a b : ℝ, 0 ≤ b → b ≤ a → (Real.sqrt a - Real.sqrt b) ^ 2 ≤ |a - b| := by
    intro a b hb hab
    rw [abs_of_nonneg (sub_nonneg.2 hab)]
    have h2 := Real.sq_sqrt hb
    have h3 := Real.sq_sqrt (hb.trans hab)
    have h4 := Real.sqrt_le_sqrt hab
    nlinarith [Real.sqrt_nonneg a, Real.sqrt_nonneg b, mul_nonneg (Real.sqrt_nonneg b) (sub_nonneg.2 h4)]
  rcases le_total (v' i) (v i) with h | h
  · exact h1 _ _ (hv' i) h
  · have := h1 _ _ (hv i) h
    rw [abs_sub_comm]
    linarith [sq_abs (Real.sqrt (v' i) - Real.sqrt (v i)), (show (Real.sqrt (v i) - Real.sqrt (v' i)) ^ 2 = (Real.sqrt (v' i) - Real.sqrt (v i)) ^ 2 by ring)]

omit hy hr hp in
theorem binInd_sq {n : ℕ} (edges : Fin (n + 1) → EReal) (h : Monotone edges) (v : ℝ) : (∀ b, binInd edges b v ∈ Set.Icc (0:ℝ) 1) ∧ ∑ b, binInd edges b v ^ 2 ≤ 1 := by
  have h01 : ∀ i, 0 ≤ cumInd edges i v ∧ cumInd edges i v ≤ 1 := fun i => by
    unfold cumInd
    split_ifs <;> norm_num
  have hI : ∀ b, binInd edges b v ∈ Set.Icc (0:ℝ) 1 := fun b => ⟨binInd_nonneg edges h b v, by
    unfold binInd
    linarith [(h01 b.succ).2, (h01 b.castSucc).1]⟩
  refine ⟨hI, ?_⟩
  have hs : ∑ b, binInd edges b v ≤ 1 := by
    unfold binInd
    have h1 := Fin.sum_univ_succ (fun i => cumInd edges i v)
    have h2 := Fin.sum_univ_castSucc (fun i => cumInd edges i v)
    rw [Finset.sum_sub_distrib]
    linarith [(h01 0).1, (h01 (Fin.last n)).2]
  refine (Finset.sum_le_sum fun b _ => ?_).trans hs
  nlinarith [(hI b).1, (hI b).2]

/-- The deviation of the histograms of a bag that leads to an error `ε`, for the distances 'L1', 'L2' (proportional to the error) and 'HD' (proportional to its square). -/
noncomputable def devFor {m : ℕ} (distance : DfDistance m) (f : DistFun) (κ ε : ℝ) : ℝ := match distance with
  | .l1 | .l2 => ε / (2 * κ) / accumFactor f m
  | .hd => (ε / (2 * κ)) ^ 2 / accumFactor f m
  | .fn _ => 1

/-- **C154** for DFy (and HDy, MMy). -/
theorem C154_dfy (ops : EstOps σ D α (labelsOf y).length) (sv : CvxSolver) (hsv : ExactCvx sv) (qp : QPSolver) (hqp : ExactQP qp) (ppf : ℝ → EReal) (la : LinAlg (labelsOf y).length) (hla : ExactLinAlg la) (fuel : ℕ) (tol : ℝ)
    (cfg : DfCfg) (m : ℕ) (hm : m = nDescriptors (labelsOf y).length * cfg.nBins) (hm0 : 0 < m) (distance : DfDistance (nDescriptors (labelsOf y).length * cfg.nBins))
    {dist : (Fin (nDescriptors (labelsOf y).length * cfg.nBins) → ℝ) → (Fin (nDescriptors (labelsOf y).length * cfg.nBins) → ℝ) → ℝ} (hD : namedDistance distance = some dist)
    (P : List (Fin (labelsOf y).length → ℝ)) (hP : P.length = r * y.length)
    (fit : DfFit (nDescriptors (labelsOf y).length) cfg.nBins (labelsOf y).length) (hfit : dfyFit ppf cfg (labelsOf y) y (stacked y r) P = .ok fit) (hd : Solvable distance fit.train) (κ : ℝ) (hκ0 : 0 < κ)
    (hκ : MixturesTellApart dist fit.train κ) (Z : ℕ → Ω → α × (Fin (labelsOf y).length → ℝ)) (hZ : ShiftedStream μ ((stacked y r).zip P) y p Z) (n : ℕ) (hn : 0 < n) (ε : ℝ) (hε : 0 < ε)
    (η : ℝ) (hη : η = devFor distance cfg.f κ ε) (answer : List (Fin (labelsOf y).length → ℝ) → Except Err (Option (List Fl)))
    (hans : answer = fun bag => ucRun ops enc w ⟨dfyClass ppf sv qp la (fuel + 1) tol cfg distance, et, et'⟩ X y (some (.probs P)) Xt (some (.probs bag))) :
    AnswersWithin μ Z n p answer ε (m * nDescriptors (labelsOf y).length / (n * η ^ 2)) ∧ (iIndepFun Z μ → AnswersWithin μ Z n p answer ε (2 * m * Real.exp (-2 * n * (η / m) ^ 2))) := by
  have hl : (stacked y r).length = P.length := by rw [stacked_length, hP]
  have h0 := df_nonneg ppf .whole cfg (some (0, 1)) _ y (stacked y r) hy P fit hfit
  obtain ⟨hmono, htr⟩ := df_means ppf .whole cfg (some (0, 1)) _ y (stacked y r) hy P fit hfit p
  have hL : 0 < accumFactor cfg.f (nDescriptors (labelsOf y).length * cfg.nBins) := by
    unfold accumFactor
    split
    · exact one_pos
    · rw [← hm]
      exact_mod_cast hm0
  have hη0 : 0 < η := by
    rw [hη]
    unfold devFor
    split <;> positivity
  have hcard : (Fintype.card (Fin (nDescriptors (labelsOf y).length) × Fin cfg.nBins) : ℝ) = m := by
    rw [Fintype.card_prod, Fintype.card_fin, Fintype.card_fin, hm]
  set F : Fin (nDescriptors (labelsOf y).length) × Fin cfg.nBins → (Fin (labelsOf y).length → ℝ) → ℝ := fun i row => binInd (fit.cuts i.1) i.2 (dfyAtt _ i.1 row) with hFdef
  have hB : ∀ t ∈ (stacked y r).zip P, ∑ i, F i t.2 ^ 2 ≤ (nDescriptors (labelsOf y).length : ℝ) := by
    intro t _
    have h1 : ∑ i, F i t.2 ^ 2 = ∑ d, ∑ b, binInd (fit.cuts d) b (dfyAtt _ d t.2) ^ 2 := Fintype.sum_prod_type _
    have h2 : ∑ d, ∑ b, binInd (fit.cuts d) b (dfyAtt _ d t.2) ^ 2 ≤ ∑ _d : Fin (nDescriptors (labelsOf y).length), (1:ℝ) := Finset.sum_le_sum fun d _ => (binInd_sq (fit.cuts d) (hmono d) _).2
    rw [h1]
    refine h2.trans (le_of_eq ?_)
    rw [Finset.sum_const, Finset.card_univ, Fintype.card_fin, nsmul_eq_mul, mul_one]
  have hF : ∀ t ∈ (stacked y r).zip P, ∀ i, F i t.2 ∈ Set.Icc (0:ℝ) 1 := fun t _ i => (binInd_sq (fit.cuts i.1) (hmono i.1) _).1 i.2
  have := within_both hZ hp (class_ne y r hr P hl) p answer F (nDescriptors (labelsOf y).length) hB hF n hn ε η hη0 fun bag hne hbag => ?_
  · rw [hcard] at this
    exact this
  · obtain ⟨q, x, hq, h1, -, h2⟩ := C137_dfy enc w et et' X Xt y hy r hr ops sv hsv qp hqp ppf la hla fuel tol cfg distance hD P hP fit hfit hd κ hκ0.le hκ (bag.map Prod.snd) (by simpa using hne)
    refine ⟨x, by rw [hans]; exact h1, fun hdev => ?_⟩
    have h3 : dfyTest cfg fit (bag.map Prod.snd) = .ok (accumulate .whole cfg.f fun d b => meanOf (bag.map Prod.snd) fun row => binInd (fit.cuts d) b (dfyAtt _ d row)) := dfTest_eq .whole cfg _ fit hmono _
    obtain ⟨-, q', hq', hq0⟩ := h0 (bag.map Prod.snd)
    have hqq : q' = q := Except.ok.inj (hq'.symm.trans hq)
    subst hqq
    rw [h3] at hq
    have hqe := Except.ok.inj hq
    refine lt_of_le_of_lt (h2 p hp) ?_
    have hacc := accumulate_dev .whole cfg.f (fun i : Fin (nDescriptors (labelsOf y).length) × Fin cfg.nBins => meanOf (bag.map Prod.snd) fun row => binInd (fit.cuts i.1) i.2 (dfyAtt _ i.1 row))
      fun i => ∑ c, p c * meanOf (ofClass ((stacked y r).zip P) (labelsOf y)[c]) fun row => binInd (fit.cuts i.1) i.2 (dfyAtt _ i.1 row)
    rw [htr, hqe] at hacc
    have hmix0 : ∀ i, 0 ≤ mixtureOf fit.train p i := fun i => Finset.sum_nonneg fun c _ => mul_nonneg ((h0 []).1 i c) (hp.1 c)
    have hte : totalError q' (mixtureOf fit.train p) < accumFactor cfg.f (nDescriptors (labelsOf y).length * cfg.nBins) * η := lt_of_le_of_lt hacc (mul_lt_mul_of_pos_left hdev hL)
    have hκ2 : 0 < 2 * κ := by positivity
    cases distance with
    | fn d => cases hD
    | l1 =>
      obtain rfl := Option.some.inj hD
      rw [hη, devFor, mul_div_cancel₀ _ hL.ne', lt_div_iff₀ hκ2, mul_comm] at hte
      exact hte
    | l2 =>
      obtain rfl := Option.some.inj hD
      rw [hη, devFor, mul_div_cancel₀ _ hL.ne', lt_div_iff₀ hκ2, mul_comm] at hte
      exact lt_of_le_of_lt (mul_le_mul_of_nonneg_left (euclidean_le_totalError _ _) hκ2.le) hte
    | hd =>
      obtain rfl := Option.some.inj hD
      rw [hη, devFor, mul_div_cancel₀ _ hL.ne'] at hte
      have h4 : Real.sqrt (totalError q' (mixtureOf fit.train p)) < ε / (2 * κ) := (Real.sqrt_lt' (by positivity)).2 hte
      rw [lt_div_iff₀ hκ2, mul_comm] at h4
      exact lt_of_le_of_lt (mul_le_mul_of_nonneg_left (hellinger_le _ _ hq0 hmix0) hκ2.le) h4

end

/-- **C154** for EDy, with distances between 0 and `R`. -/
theorem C154_edy {Ω : Type*} [MeasurableSpace Ω] {μ : Measure Ω} [IsProbabilityMeasure μ] {σ D α : Type} {n : ℕ} [LinearOrder α] [MeasurableSpace α] [MeasurableSingletonClass α] (enc : Bool → α) (w : World σ D α) (et et' : Option ℕ)
    (X Xt : List D) (y : List α) (hy : y ≠ []) (r : ℕ) (hr : 0 < r) (p : Fin (labelsOf y).length → ℝ) (hp : IsPrev p) (ops : EstOps σ D α (n + 1)) (hn : 0 < n) (hk : (labelsOf y).length = n + 1) (qp : QPSolver)
    (hqp : ExactQP qp) (la : LinAlg n) (fuel : ℕ) (d : (Fin (n + 1) → ℝ) → (Fin (n + 1) → ℝ) → ℝ) (hd : ∀ x y, d x y = d y x) (P : List (Fin (n + 1) → ℝ)) (hP : P.length = r * y.length)
    (R : ℝ) (hR0 : 0 < R) (hR : ∀ a ∈ P, ∀ b ∈ P, 0 ≤ d a b ∧ d a b ≤ R)
    (train : Fin (n + 1) → List (Fin (n + 1) → ℝ)) (htr : train = fun i => ofClass ((stacked y r).zip P) (labelsOf y)[Fin.cast hk.symm i]) (hsep : Separated d train) (κ : ℝ) (hκ0 : 0 < κ) (hκ : EnergyTellsApart d train κ)
    (Z : ℕ → Ω → α × (Fin (n + 1) → ℝ)) (hZ : ShiftedStream μ ((stacked y r).zip P) y p Z) (N : ℕ) (hN : 0 < N) (ε : ℝ) (hε : 0 < ε) (answer : List (Fin (n + 1) → ℝ) → Except Err (Option (List Fl)))
    (hans : answer = fun bag => ucRun ops enc w ⟨edyClass qp la fuel d, et, et'⟩ X y (some (.probs P)) Xt (some (.probs bag))) :
    AnswersWithin μ Z N (fun i => p (Fin.cast hk.symm i)) answer ε ((n + 1) ^ 2 * (2 * κ * R) ^ 2 / (N * ε ^ 2))
      ∧ (iIndepFun Z μ → AnswersWithin μ Z N (fun i => p (Fin.cast hk.symm i)) answer ε (2 * (n + 1) * Real.exp (-2 * N * (ε / (2 * κ * R) / (n + 1)) ^ 2))) := by
  have hl : (stacked y r).length = P.length := by rw [stacked_length, hP]
  have hp' : IsPrev fun i => p (Fin.cast hk.symm i) := ⟨fun i => hp.1 _, by rw [sum_cast hk, hp.2]⟩
  have hmemP : ∀ i, ∀ a ∈ train i, a ∈ P := by
    intro i a ha
    rw [htr] at ha
    exact (mem_of_zip_class y r P _ (mem_train_of_class ha) hr).2
  have hlen : ∀ i, 0 < ((train i).length : ℝ) := by
    intro i
    rw [htr]
    exact_mod_cast List.length_pos_iff.2 (class_ne y r hr P hl (Fin.cast hk.symm i))
  have hF : ∀ t ∈ (stacked y r).zip P, ∀ i, (meanOf (train i) fun a => d a t.2) / R ∈ Set.Icc (0:ℝ) 1 := by
    intro t ht i
    have htP := (mem_of_zip_class y r P t ht hr).2
    have h1 : ∀ l : List (Fin (n + 1) → ℝ), (∀ a ∈ l, a ∈ P) → 0 ≤ (l.map fun a => d a t.2).sum ∧ (l.map fun a => d a t.2).sum ≤ R * l.length := by
      intro l
      induction l with
      | nil => simp
      | cons a l ih =>
        intro hl'
        have h2 := ih fun b hb => hl' b (List.mem_cons_of_mem _ hb)
        have h3 := hR a (hl' a (List.mem_cons_self ..)) t.2 htP
        rw [List.map_cons, List.sum_cons, List.length_cons]
        push_cast
        constructor <;> linarith
    have h2 := h1 (train i) (hmemP i)
    refine ⟨div_nonneg (div_nonneg h2.1 (hlen i).le) hR0.le, ?_⟩
    rw [div_le_one hR0, meanOf, div_le_iff₀ (hlen i)]
    exact h2.2
  have := within_both hZ hp (class_ne y r hr P hl) (fun i => p (Fin.cast hk.symm i)) answer (fun (i : Fin (n + 1)) b => (meanOf (train i) fun a => d a b) / R) (n + 1)
    (fun t ht => by
      refine (Finset.sum_le_sum fun i _ => ?_ : _ ≤ ∑ _i : Fin (n + 1), (1:ℝ)).trans (le_of_eq (by simp))
      have := hF t ht i
      nlinarith [this.1, this.2]) hF N hN ε (ε / (2 * κ * R)) (by positivity) fun bag hne hbag => ?_
  · have h1 : ((n:ℝ) + 1) * (n + 1) / (N * (ε / (2 * κ * R)) ^ 2) = (n + 1) ^ 2 * (2 * κ * R) ^ 2 / (N * ε ^ 2) := by
      field_simp
    simpa only [Fintype.card_fin, Nat.cast_add, Nat.cast_one, h1] using this
  · obtain ⟨x, h1, -, h2⟩ := C137_edy enc w et et' X Xt y hy r hr ops hn hk qp hqp la fuel d hd P hP train htr hsep κ hκ0.le hκ (bag.map Prod.snd) (by simpa using hne)
    refine ⟨x, by rw [hans]; exact h1, fun hdev => ?_⟩
    refine lt_of_le_of_lt (h2 _ hp') ?_
    rw [lt_div_iff₀ (by positivity)] at hdev
    refine lt_of_eq_of_lt ?_ hdev
    have hdivm : ∀ (l : List (Fin (n + 1) → ℝ)) (i : Fin (n + 1)), meanOf l (fun b => (meanOf (train i) fun a => d a b) / R) = (meanOf l fun b => meanOf (train i) fun a => d a b) / R := by
      intro l i
      unfold meanOf
      rw [div_right_comm]
      congr 1
      induction l with
      | nil => simp
      | cons b l ih => rw [List.map_cons, List.sum_cons, List.map_cons, List.sum_cons, ih, add_div]
    unfold totalError
    rw [Finset.sum_mul, Finset.mul_sum]
    refine Finset.sum_congr rfl fun i _ => ?_
    have h4 : ∑ j, p (Fin.cast hk.symm j) * avgDist d (train i) (train j) = ∑ c, p c * meanOf (ofClass ((stacked y r).zip P) (labelsOf y)[c]) fun b => meanOf (train i) fun a => d a b := by
      rw [← sum_cast hk]
      refine Finset.sum_congr rfl fun j _ => ?_
      rw [avgDist_mean]
      rw [htr]
    beta_reduce
    rw [h4, avgDist_mean]
    simp only [hdivm, mul_div_assoc']
    rw [← Finset.sum_div, ← sub_div, abs_div, abs_of_pos hR0]
    field_simp

/-- **C154**: the size that is enough for a probability `δ`. -/
theorem C154_size {Ω α β E : Type*} [MeasurableSpace Ω] {μ : Measure Ω} {k n : ℕ} (Z : ℕ → Ω → α × β) (p : Fin k → ℝ) (answer : List β → Except E (Option (List Fl))) (ε δ C : ℝ) (hε : 0 < ε) (hδ : 0 < δ) (hn0 : 0 < n)
    (hn : C / (δ * ε ^ 2) ≤ n) (h : AnswersWithin μ Z n p answer ε (C / (n * ε ^ 2))) : AnswersWithin μ Z n p answer ε δ := by
  refine le_trans h (ENNReal.ofReal_le_ofReal ?_)
  have hn' : (0:ℝ) < n := by exact_mod_cast hn0
  rw [div_le_iff₀ (by positivity)] at hn ⊢
  linarith

/-- C154: a classifier that is right for three of four examples of both classes tells prevalences apart with `κ = 2`. With 1/4 of positives, 3/8 of positive predictions are expected: the mean answer of AC to bags of one
example is 3/8. Bags of 800 examples are enough for a total error below 1 with probability 99/100. -/
example : (fun i j : Fin 2 => condFreq (stacked [0, 0, 0, 0, 1, 1, 1, 1] 1) [0, 0, 0, 1, 1, 1, 1, 0] ([0, 1].getD i 0) ([0, 1].getD j 0)) = ![![3/4, 1/4], ![1/4, 3/4]]
    ∧ TellsApart (![![3/4, 1/4], ![1/4, 3/4]] : Fin 2 → Fin 2 → ℝ) 2 ∧ expectedPreds (![![3/4, 1/4], ![1/4, 3/4]] : Fin 2 → Fin 2 → ℝ) ![3/4, 1/4] = ![5/8, 3/8]
    ∧ ((2:ℝ) * 2 ^ 2) / (1/100 * 1 ^ 2) ≤ (800 : ℕ) := by
  refine ⟨?_, ?_, ?_, by norm_num⟩
  · funext i j
    fin_cases i <;> fin_cases j <;> norm_num [condFreq, stacked]
  · have := C135_two_classes (![![3/4, 1/4], ![1/4, 3/4]] : Fin 2 → Fin 2 → ℝ) (by intro i; fin_cases i <;> simp [Fin.sum_univ_two] <;> norm_num) (by norm_num)
    have e : (1:ℝ) / |(![![3/4, 1/4], ![1/4, 3/4]] : Fin 2 → Fin 2 → ℝ) 1 1 - (![![3/4, 1/4], ![1/4, 3/4]] : Fin 2 → Fin 2 → ℝ) 0 1| = 2 := by
      show (1:ℝ) / |3/4 - 1/4| = 2
      norm_num
    rwa [e] at this
  · funext j
    fin_cases j <;> simp [expectedPreds, Fin.sum_univ_two] <;> norm_num

end Verif.Props
