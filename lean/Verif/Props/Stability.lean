import Verif.Spec.Stability
import Verif.Props.PriorShift

/-!
# C135, C136: how the errors of the predictions reach the answer of AC and PAC
-/

namespace Verif.Props

open Verif.Model Verif.Spec Verif.Proof

/-! ## C135 -/

/-- Clipping negative values and dividing by the sum does not take a vector with total 1 further away from any vector of prevalences. -/
theorem clip_normalise_error {n : ℕ} (x p : Fin n → ℝ) (hx : ∑ i, x i = 1) (hp : IsPrev p) :
    totalError (fun i => max 0 (x i) / ∑ i, max 0 (x i)) p ≤ totalError x p := by
  set S := ∑ i, max 0 (x i) with hS
  have h1 : 1 ≤ S := by
    rw [hS, ← hx]
    exact Finset.sum_le_sum fun i _ => le_max_right _ _
  have hpos : 0 < S := by linarith
  unfold totalError
  have key : ∀ i, |max 0 (x i) / S - p i| ≤ |x i - p i| + x i - max 0 (x i) / S := by
    intro i
    have hle : max 0 (x i) / S ≤ max 0 (x i) := div_le_self (le_max_left _ _) h1
    have hnn : 0 ≤ max 0 (x i) / S := div_nonneg (le_max_left _ _) hpos.le
    have hpi := hp.1 i
    rcases le_total (x i) 0 with h | h
    · rw [max_eq_left h, zero_div, zero_sub, abs_neg, abs_of_nonneg hpi, abs_of_nonpos (by linarith)]
      linarith
    · rw [max_eq_right h] at hle hnn ⊢
      rcases le_total (x i / S) (p i) with h2 | h2
      · rw [abs_of_nonpos (by linarith)]
        rcases le_total (x i) (p i) with h3 | h3
        · rw [abs_of_nonpos (by linarith)]; linarith
        · rw [abs_of_nonneg (by linarith)]; linarith
      · rw [abs_of_nonneg (by linarith), abs_of_nonneg (by linarith)]
        linarith
  calc ∑ i, |max 0 (x i) / S - p i| ≤ ∑ i, (|x i - p i| + x i - max 0 (x i) / S) := Finset.sum_le_sum fun i _ => key i
    _ = ∑ i, |x i - p i| := by
      rw [Finset.sum_sub_distrib, Finset.sum_add_distrib, hx, ← Finset.sum_div, ← hS, div_self hpos.ne']
      ring

theorem tellsApart_vec {n m : ℕ} {M : Fin n → Fin m → ℝ} {κ : ℝ} (h : TellsApart M κ) (v : Fin n → ℝ) (hv : ∑ i, v i = 0) : ∑ i, |v i| ≤ κ * ∑ j, |∑ i, v i * M i j| := by
  simpa [totalError, expectedPreds] using h v 0 (by simpa using hv)

theorem tellsApart_det {n : ℕ} {M : Matrix (Fin n) (Fin n) ℝ} {κ : ℝ} (h : TellsApart M κ) (hrow : ∀ i, ∑ j, M i j = 1) : M.det ≠ 0 := by
  intro h0
  obtain ⟨v, hv, hM⟩ := Matrix.exists_vecMul_eq_zero_iff.2 h0
  have hM' : ∀ j, ∑ i, v i * M i j = 0 := fun j => congrFun hM j
  have hs : ∑ i, v i = 0 := by
    calc ∑ i, v i = ∑ i, v i * ∑ j, M i j := by simp [hrow]
      _ = ∑ j, ∑ i, v i * M i j := by simp_rw [Finset.mul_sum]; exact Finset.sum_comm
      _ = 0 := by simp [hM']
  have := tellsApart_vec h v hs
  simp only [hM', abs_zero, Finset.sum_const_zero, mul_zero] at this
  apply hv
  funext i
  have h2 := Finset.sum_nonneg fun i (_ : i ∈ Finset.univ) => abs_nonneg (v i)
  have h3 := (Finset.sum_eq_zero_iff_of_nonneg fun i (_ : i ∈ Finset.univ) => abs_nonneg (v i)).1 (le_antisymm this h2) i (Finset.mem_univ i)
  exact abs_eq_zero.1 h3

/-- The bound for the adjustment of AC, PAC and PWKQ. -/
theorem adjust_error (sol : Solvers) (dist : Dist) {n : ℕ} (M : Matrix (Fin n) (Fin n) ℝ) (hrow : ∀ i, ∑ j, M i j = 1) (κ : ℝ) (hκ : TellsApart M κ) (h2 : n = 2 → κ < 1000) (p q : Fin n → ℝ) (hp : IsPrev p)
    (hq : ∑ i, q i = 1) :
    ∃ x, adjust sol dist (fun i j => Fl.fin (M i j)) (fun j => Fl.fin (q j)) = .ok (fun i => Fl.fin (x i)) ∧ IsPrev x ∧ totalError x p ≤ κ * totalError q (expectedPreds M p) := by
  have hM := tellsApart_det hκ hrow
  by_cases hn : n = 2
  · subst hn
    have hd := tellsApart_vec hκ ![-1, 1] (by simp)
    have r0 := hrow 0
    have r1 := hrow 1
    rw [Fin.sum_univ_two] at r0 r1
    have hk := h2 rfl
    set d := M 1 1 - M 0 1 with hdef
    have e0 : M 1 0 - M 0 0 = -d := by rw [hdef]; linarith
    have hd' : 1 ≤ κ * |d| := by
      simp only [Fin.sum_univ_two, Matrix.cons_val_zero, Matrix.cons_val_one, abs_neg, abs_one, neg_mul, one_mul] at hd
      rw [show -M 0 0 + M 1 0 = -d by linarith, show -M 0 1 + M 1 1 = d by rw [hdef]; ring, abs_neg] at hd
      linarith
    have hd0 : 0 < |d| := by
      rcases (abs_nonneg d).lt_or_eq with h | h
      · exact h
      · rw [← h] at hd'; norm_num at hd'
    have hbig : 1/1000 < |d| := by
      have : κ * |d| < 1000 * |d| := mul_lt_mul_of_pos_right hk hd0
      linarith
    have hdne : d ≠ 0 := abs_pos.1 hd0
    rw [C09_binary_formula _ _ (M 1 1) (M 0 1) (q 1) rfl rfl rfl hbig]
    set t := max 0 (min ((q 1 - M 0 1) / d) 1) with ht
    refine ⟨![1 - t, t], by congr 1; funext i; fin_cases i <;> rfl, ⟨fun i => ?_, by simp⟩, ?_⟩
    · have h1 : t ≤ 1 := max_le zero_le_one (min_le_right _ _)
      have h0 : 0 ≤ t := le_max_left _ _
      fin_cases i
      · simpa using h1
      · simpa using h0
    · have hp2 := hp.2
      rw [Fin.sum_univ_two] at hp2 hq
      have ep : p 0 = 1 - p 1 := by linarith
      have eq0 : q 0 = 1 - q 1 := by linarith
      have hclip : |t - p 1| ≤ |(q 1 - M 0 1) / d - p 1| := by
        have ha := hp.1 1
        have hb := hp.le_one 1
        rw [ht]
        rcases le_total ((q 1 - M 0 1) / d) 0 with h | h
        · rw [min_eq_left (by linarith), max_eq_left h, abs_of_nonpos (by linarith), abs_of_nonpos (by linarith)]; linarith
        · rcases le_total ((q 1 - M 0 1) / d) 1 with h' | h'
          · rw [min_eq_left h', max_eq_right h]
          · rw [min_eq_right h', max_eq_right zero_le_one, abs_of_nonneg (by linarith), abs_of_nonneg (by linarith)]; linarith
      have hexp : (q 1 - M 0 1) / d - p 1 = (q 1 - (p 0 * M 0 1 + p 1 * M 1 1)) / d := by
        field_simp
        rw [ep, hdef]
        ring
      rw [hexp, abs_div] at hclip
      set δ := q 1 - (p 0 * M 0 1 + p 1 * M 1 1) with hδ
      have eδ : q 0 - (p 0 * M 0 0 + p 1 * M 1 0) = -δ := by
        rw [hδ, eq0, show M 0 0 = 1 - M 0 1 by linarith, show M 1 0 = 1 - M 1 1 by linarith, ep]
        ring
      simp only [totalError, expectedPreds, Fin.sum_univ_two, Matrix.cons_val_zero, Matrix.cons_val_one]
      rw [eδ, ← hδ, abs_neg, ep, show 1 - t - (1 - p 1) = -(t - p 1) by ring, abs_neg]
      have : |δ| / |d| ≤ κ * |δ| := by
        rw [div_le_iff₀ hd0]
        calc |δ| = |δ| * 1 := by ring
          _ ≤ |δ| * (κ * |d|) := mul_le_mul_of_nonneg_left hd' (abs_nonneg _)
          _ = κ * |δ| * |d| := by ring
      linarith
  · have hx : ∑ i, adjX M q i = 1 := by rw [adjX_sum M hM hrow, hq]
    obtain ⟨hpos, hv⟩ := IsPrev_pos_part _ hx
    rw [adjust_ne_two sol dist hn, multiAdjust_fin sol dist M hM q hpos.ne']
    refine ⟨_, rfl, hv, (clip_normalise_error _ p hx hp).trans ?_⟩
    have := hκ (adjX M q) p (by rw [hx, hp.2])
    have e : expectedPreds M (adjX M q) = q := by
      funext j
      rw [← adjX_solves M hM q j]
      exact Finset.sum_congr rfl fun i _ => mul_comm _ _
    rwa [e] at this

/-- Two classes: `κ` is the inverse of the difference between the rate of true positives and the rate of false positives. -/
theorem C135_two_classes (M : Fin 2 → Fin 2 → ℝ) (hrow : ∀ i, ∑ j, M i j = 1) (hd : M 1 1 ≠ M 0 1) : TellsApart M (1 / |M 1 1 - M 0 1|) := by
  intro p q hpq
  have r0 := hrow 0
  have r1 := hrow 1
  rw [Fin.sum_univ_two] at r0 r1
  rw [Fin.sum_univ_two, Fin.sum_univ_two] at hpq
  have hd0 : 0 < |M 1 1 - M 0 1| := abs_pos.2 (sub_ne_zero.2 hd)
  simp only [totalError, expectedPreds, Fin.sum_univ_two]
  have e0 : p 0 - q 0 = -(p 1 - q 1) := by linarith
  have e1 : p 0 * M 0 1 + p 1 * M 1 1 - (q 0 * M 0 1 + q 1 * M 1 1) = (p 1 - q 1) * (M 1 1 - M 0 1) := by
    rw [show p 0 = q 0 - (p 1 - q 1) by linarith]; ring
  have e2 : p 0 * M 0 0 + p 1 * M 1 0 - (q 0 * M 0 0 + q 1 * M 1 0) = -((p 1 - q 1) * (M 1 1 - M 0 1)) := by
    rw [show p 0 = q 0 - (p 1 - q 1) by linarith, show M 0 0 = 1 - M 0 1 by linarith, show M 1 0 = 1 - M 1 1 by linarith]; ring
  rw [e0, e1, e2, abs_neg, abs_neg, abs_mul, ← two_mul, ← two_mul]
  have : 1 / |M 1 1 - M 0 1| * (2 * (|p 1 - q 1| * |M 1 1 - M 0 1|)) = 2 * |p 1 - q 1| := by
    field_simp
  rw [this]

/-! ## C136 -/

/-- The two-class adjustment as a function of the observed prevalence of the second class. -/
theorem adjust_two_monotone (sol : Solvers) (dist : Dist) (M : Fin 2 → Fin 2 → ℝ) (q q' : Fin 2 → ℝ) (hq : IsPrev q) (hq' : IsPrev q') (hle : q 1 ≤ q' 1) :
    ∃ x x' : Fin 2 → ℝ, adjust sol dist (fun i j => Fl.fin (M i j)) (fun j => Fl.fin (q j)) = .ok (fun i => Fl.fin (x i)) ∧ adjust sol dist (fun i j => Fl.fin (M i j)) (fun j => Fl.fin (q' j)) = .ok (fun i => Fl.fin (x' i))
      ∧ (M 0 1 ≤ M 1 1 → x 1 ≤ x' 1) ∧ (M 1 1 + 1/1000 < M 0 1 → x' 1 ≤ x 1) := by
  by_cases hd : 1/1000 < |M 1 1 - M 0 1|
  · rw [C09_binary_formula _ _ (M 1 1) (M 0 1) (q 1) rfl rfl rfl hd, C09_binary_formula _ _ (M 1 1) (M 0 1) (q' 1) rfl rfl rfl hd]
    refine ⟨![1 - max 0 (min ((q 1 - M 0 1) / (M 1 1 - M 0 1)) 1), max 0 (min ((q 1 - M 0 1) / (M 1 1 - M 0 1)) 1)], ![1 - max 0 (min ((q' 1 - M 0 1) / (M 1 1 - M 0 1)) 1), max 0 (min ((q' 1 - M 0 1) / (M 1 1 - M 0 1)) 1)],
      by congr 1; funext i; fin_cases i <;> rfl, by congr 1; funext i; fin_cases i <;> rfl, fun h => ?_, fun h => ?_⟩
    · refine max_le_max le_rfl (min_le_min (div_le_div_of_nonneg_right (by linarith) (by linarith)) le_rfl)
    · refine max_le_max le_rfl (min_le_min (div_le_div_of_nonpos_of_le (by linarith) (by linarith)) le_rfl)
  · have hu : ∀ q : Fin 2 → ℝ, IsPrev q → adjust sol dist (fun i j => Fl.fin (M i j)) (fun j => Fl.fin (q j)) = .ok (fun i => Fl.fin (q i)) := fun q hq =>
      C09_binary_unadjusted _ q hq (by
        rintro ⟨t, f, ht, hf, h⟩
        rw [← Fl.fin.inj ht, ← Fl.fin.inj hf] at h
        exact hd h) (fun i => ⟨by simp, by simp⟩) sol dist
    refine ⟨q, q', hu q hq, hu q' hq', fun _ => hle, fun h => ?_⟩
    exact absurd (by rw [abs_of_neg (by linarith)]; linarith) hd

theorem adjust_monotone (sol : Solvers) (dist : Dist) {n : ℕ} (h2 : n = 2) (neg pos : Fin n) (hn : neg.1 = 0) (hpo : pos.1 = 1) (M : Fin n → Fin n → ℝ) (q q' : Fin n → ℝ) (hq : IsPrev q) (hq' : IsPrev q') (hle : q pos ≤ q' pos) :
    ∃ x x' : Fin n → ℝ, adjust sol dist (fun i j => Fl.fin (M i j)) (fun j => Fl.fin (q j)) = .ok (fun i => Fl.fin (x i)) ∧ adjust sol dist (fun i j => Fl.fin (M i j)) (fun j => Fl.fin (q' j)) = .ok (fun i => Fl.fin (x' i))
      ∧ (M neg pos ≤ M pos pos → x pos ≤ x' pos) ∧ (M pos pos + 1/1000 < M neg pos → x' pos ≤ x pos) := by
  subst h2
  have e0 : neg = 0 := Fin.ext hn
  have e1 : pos = 1 := Fin.ext hpo
  subst e0 e1
  exact adjust_two_monotone sol dist M q q' hq hq' hle

section
variable {σ D α : Type} {k : ℕ} [LinearOrder α] (enc : Bool → α) (w : World σ D α) (et et' : Option ℕ) (X Xt : List D) (y : List α) (hy : y ≠ []) (r : ℕ) (hr : 0 < r)
include hy hr

/-- **C135** for AC: for every bag of pairs (true class, predicted class), the answer is a vector of prevalences whose error is at most `κ` times the distance between the predictions seen in the bag and those expected
for its prevalences. With two classes, `κ` has to be less than 1000. -/
theorem C135_ac (ops : EstOps σ D α k) (sol : Solvers) (dist : Dist) (P : List α) (hP : P.length = r * y.length) (hPy : ∀ a ∈ P, a ∈ y) (κ : ℝ)
    (hκ : TellsApart (fun i j : Fin (labelsOf y).length => condFreq (stacked y r) P (labelsOf y)[i] (labelsOf y)[j]) κ) (h2 : (labelsOf y).length = 2 → κ < 1000)
    (bag : List (α × α)) (hne : bag ≠ []) (hbag : ∀ t ∈ bag, t.1 ∈ y ∧ t.2 ∈ y) :
    ∃ x, ucRun ops enc w ⟨acClass sol dist, et, et'⟩ X y (some (.crisp P)) Xt (some (.crisp (bag.map Prod.snd))) = .ok (some (realList x)) ∧ IsPrev x
      ∧ totalError x (bagPrevs y bag)
        ≤ κ * totalError (freqs (labelsOf y) (bag.map Prod.snd)) (expectedPreds (fun i j => condFreq (stacked y r) P (labelsOf y)[i] (labelsOf y)[j]) (bagPrevs y bag)) := by
  have hbne : bag.map Prod.snd ≠ [] := by simpa using hne
  have hp : IsPrev (bagPrevs y bag) := freqs_isPrev _ (labelsOf_nodup y) (bag.map Prod.fst) (by simpa using hne) fun a ha => by
    obtain ⟨t, ht, rfl⟩ := List.mem_map.1 ha
    exact (mem_labelsOf y _).2 (hbag t ht).1
  have hq := freqs_isPrev _ (labelsOf_nodup y) (bag.map Prod.snd) hbne fun a ha => by
    obtain ⟨t, ht, rfl⟩ := List.mem_map.1 ha
    exact (mem_labelsOf y _).2 (hbag t ht).2
  obtain ⟨x, h, hx, he⟩ := adjust_error sol dist (cmReal y r P) (fun i => (cmReal_row y r hr P hP hPy i).2) κ hκ h2 _ _ hp hq.2
  refine ⟨x, ?_, hx, he⟩
  rw [ucRun_given_crisp ops enc w X Xt y (acClass sol dist) rfl rfl et et' hy r P _ hP, answer_ac_eq y sol dist r P _ hP hbne, normalizeRows_eq y r hr P hP hPy, h]
  rfl

/-- What PAC answers, given the predictions. -/
theorem pac_run (ops : EstOps σ D α (labelsOf y).length) (sol : Solvers) (dist : Dist) (P : List (Fin (labelsOf y).length → ℝ)) (hP : P.length = r * y.length) (Q : List (Fin (labelsOf y).length → ℝ)) (hQ : Q ≠ []) :
    ucRun ops enc w ⟨pacClass sol dist, et, et'⟩ X y (some (.probs P)) Xt (some (.probs Q))
      = ((adjust sol dist (fun i j => Fl.fin (pcmReal y r P i j)) fun j => Fl.fin (meanOf Q fun row => row j)).map vecList).map some := by
  have hl : (stacked y r).length = P.length := by rw [stacked_length, hP]
  rw [ucRun_given_probs ops enc w X Xt y (pacClass sol dist) rfl rfl et et' hy r P _ hP]
  have e : answerOn (pacClass sol dist) y r (.probs P) (.probs Q)
      = ((adjust sol dist (fun i j => colMeans (rowsOf (stacked y r) P (labelsOf y)[i]) j) (colMeans Q)).map vecList).map some := by
    simp only [answerOn, learnAnswer, fittedState, pacClass, trainData, probRows, if_true, bind, Except.bind, hl, keep]
    rw [dif_pos (show (labelsOf y).length = (npUnique y).length from rfl)]
    simp only [pure, Except.pure]
    rw [dif_pos (show (labelsOf y).length = (npUnique y).length from rfl)]
    rfl
  have hent : (fun i j => colMeans (rowsOf (stacked y r) P (labelsOf y)[i]) j) = fun i j => Fl.fin (pcmReal y r P i j) := by
    funext i j
    exact pcm_entry y r hr P hP i j
  rw [e, hent, colMeans_eq _ hQ]

/-- **C135** for PAC: bags of pairs (true class, probabilities). -/
theorem C135_pac (ops : EstOps σ D α (labelsOf y).length) (sol : Solvers) (dist : Dist) (P : List (Fin (labelsOf y).length → ℝ)) (hP : P.length = r * y.length) (hPp : ∀ row ∈ P, IsPrev row) (κ : ℝ)
    (hκ : TellsApart (fun i j : Fin (labelsOf y).length => condMean (stacked y r) P (fun row => row j) (labelsOf y)[i]) κ) (h2 : (labelsOf y).length = 2 → κ < 1000)
    (bag : List (α × (Fin (labelsOf y).length → ℝ))) (hne : bag ≠ []) (hbag : ∀ t ∈ bag, t.1 ∈ y ∧ IsPrev t.2) :
    ∃ x, ucRun ops enc w ⟨pacClass sol dist, et, et'⟩ X y (some (.probs P)) Xt (some (.probs (bag.map Prod.snd))) = .ok (some (realList x)) ∧ IsPrev x
      ∧ totalError x (bagPrevs y bag)
        ≤ κ * totalError (fun j => meanOf (bag.map Prod.snd) fun row => row j) (expectedPreds (fun i j => condMean (stacked y r) P (fun row => row j) (labelsOf y)[i]) (bagPrevs y bag)) := by
  have hbne : bag.map Prod.snd ≠ [] := by simpa using hne
  have hp : IsPrev (bagPrevs y bag) := freqs_isPrev _ (labelsOf_nodup y) (bag.map Prod.fst) (by simpa using hne) fun a ha => by
    obtain ⟨t, ht, rfl⟩ := List.mem_map.1 ha
    exact (mem_labelsOf y _).2 (hbag t ht).1
  have hq := meanOf_isPrev (bag.map Prod.snd) hbne fun row hrow => by
    obtain ⟨t, ht, rfl⟩ := List.mem_map.1 hrow
    exact (hbag t ht).2
  obtain ⟨x, h, hx, he⟩ := adjust_error sol dist (pcmReal y r P) (fun i => (pcmReal_row y r hr P hP hPp i).2) κ hκ h2 _ _ hp hq.2
  refine ⟨x, ?_, hx, he⟩
  rw [pac_run enc w et et' X Xt y hy r hr ops sol dist P hP _ hbne, h]
  rfl

/-- **C136** for AC, two classes: of two bags, the one with the larger fraction of predictions of the second class gets at least the same prevalence for that class, if the rate of true positives is not lower
than the rate of false positives; if it is lower by more than 0.001, the order is turned round. -/
theorem C136_ac (ops : EstOps σ D α k) (sol : Solvers) (dist : Dist) (h2 : (labelsOf y).length = 2) (neg pos : Fin (labelsOf y).length) (hn : neg.1 = 0) (hpo : pos.1 = 1)
    (P : List α) (hP : P.length = r * y.length) (hPy : ∀ a ∈ P, a ∈ y) (Q Q' : List α) (hQ : Q ≠ []) (hQ' : Q' ≠ []) (hQy : ∀ a ∈ Q, a ∈ y) (hQy' : ∀ a ∈ Q', a ∈ y)
    (hle : freq Q (labelsOf y)[pos] ≤ freq Q' (labelsOf y)[pos]) :
    ∃ x x' : Fin (labelsOf y).length → ℝ, ucRun ops enc w ⟨acClass sol dist, et, et'⟩ X y (some (.crisp P)) Xt (some (.crisp Q)) = .ok (some (realList x))
      ∧ ucRun ops enc w ⟨acClass sol dist, et, et'⟩ X y (some (.crisp P)) Xt (some (.crisp Q')) = .ok (some (realList x'))
      ∧ (condFreq (stacked y r) P (labelsOf y)[neg] (labelsOf y)[pos] ≤ condFreq (stacked y r) P (labelsOf y)[pos] (labelsOf y)[pos] → x pos ≤ x' pos)
      ∧ (condFreq (stacked y r) P (labelsOf y)[pos] (labelsOf y)[pos] + 1/1000 < condFreq (stacked y r) P (labelsOf y)[neg] (labelsOf y)[pos] → x' pos ≤ x pos) := by
  rw [ucRun_given_crisp ops enc w X Xt y (acClass sol dist) rfl rfl et et' hy r P _ hP, answer_ac_eq y sol dist r P _ hP hQ, normalizeRows_eq y r hr P hP hPy,
    ucRun_given_crisp ops enc w X Xt y (acClass sol dist) rfl rfl et et' hy r P _ hP, answer_ac_eq y sol dist r P _ hP hQ', normalizeRows_eq y r hr P hP hPy]
  have hq := freqs_isPrev _ (labelsOf_nodup y) Q hQ fun a ha => (mem_labelsOf y _).2 (hQy a ha)
  have hq' := freqs_isPrev _ (labelsOf_nodup y) Q' hQ' fun a ha => (mem_labelsOf y _).2 (hQy' a ha)
  obtain ⟨x, x', e, e', m⟩ := adjust_monotone sol dist h2 neg pos hn hpo (cmReal y r P) _ _ hq hq' hle
  refine ⟨x, x', ?_, ?_, m⟩
  · rw [e]; rfl
  · rw [e']; rfl

/-- **C136** for PAC: the same for the mean of the probabilities of the second class. -/
theorem C136_pac (ops : EstOps σ D α (labelsOf y).length) (sol : Solvers) (dist : Dist) (h2 : (labelsOf y).length = 2) (neg pos : Fin (labelsOf y).length) (hn : neg.1 = 0) (hpo : pos.1 = 1)
    (P : List (Fin (labelsOf y).length → ℝ)) (hP : P.length = r * y.length) (Q Q' : List (Fin (labelsOf y).length → ℝ)) (hQ : Q ≠ []) (hQ' : Q' ≠ []) (hQp : ∀ row ∈ Q, IsPrev row) (hQp' : ∀ row ∈ Q', IsPrev row)
    (hle : (meanOf Q fun row => row pos) ≤ meanOf Q' fun row => row pos) :
    ∃ x x' : Fin (labelsOf y).length → ℝ, ucRun ops enc w ⟨pacClass sol dist, et, et'⟩ X y (some (.probs P)) Xt (some (.probs Q)) = .ok (some (realList x))
      ∧ ucRun ops enc w ⟨pacClass sol dist, et, et'⟩ X y (some (.probs P)) Xt (some (.probs Q')) = .ok (some (realList x'))
      ∧ (condMean (stacked y r) P (fun row => row pos) (labelsOf y)[neg] ≤ condMean (stacked y r) P (fun row => row pos) (labelsOf y)[pos] → x pos ≤ x' pos)
      ∧ (condMean (stacked y r) P (fun row => row pos) (labelsOf y)[pos] + 1/1000 < condMean (stacked y r) P (fun row => row pos) (labelsOf y)[neg] → x' pos ≤ x pos) := by
  rw [pac_run enc w et et' X Xt y hy r hr ops sol dist P hP Q hQ, pac_run enc w et et' X Xt y hy r hr ops sol dist P hP Q' hQ']
  obtain ⟨x, x', e, e', m⟩ := adjust_monotone sol dist h2 neg pos hn hpo (pcmReal y r P) _ _ (meanOf_isPrev Q hQ hQp) (meanOf_isPrev Q' hQ' hQp') hle
  refine ⟨x, x', ?_, ?_, m⟩
  · rw [e]; rfl
  · rw [e']; rfl

end

/-- C135: a classifier that is right for half of the negatives and for all the positives tells prevalences apart with `κ = 2`; its hypotheses are met by this training set and by every bag of both classes. -/
example : TellsApart (fun i j : Fin 2 => condFreq (stacked [0, 0, 1, 1] 1) [0, 1, 1, 1] ([0, 1].getD i 0) ([0, 1].getD j 0)) 2 := by
  have e : (fun i j : Fin 2 => condFreq (stacked [0, 0, 1, 1] 1) [0, 1, 1, 1] ([0, 1].getD i 0) ([0, 1].getD j 0)) = ![![1/2, 1/2], ![0, 1]] := by
    funext i j
    fin_cases i <;> fin_cases j <;> norm_num [condFreq, stacked]
  rw [e]
  have := C135_two_classes ![![1/2, 1/2], ![0, 1]] (fun i => by fin_cases i <;> norm_num) (by norm_num)
  norm_num at this
  exact this

/-- C136: both cases occur, with rates 1/2 ≤ 1 for one classifier and 1 > 1/2 + 1/1000 for another; the second bag has more positive predictions. -/
example : (labelsOf [0, 0, 1, 1]).length = 2 ∧ condFreq (stacked [0, 0, 1, 1] 1) [0, 1, 1, 1] 0 1 ≤ condFreq (stacked [0, 0, 1, 1] 1) [0, 1, 1, 1] 1 1
    ∧ condFreq (stacked [0, 0, 1, 1] 1) [1, 1, 0, 1] 1 1 + 1/1000 < condFreq (stacked [0, 0, 1, 1] 1) [1, 1, 0, 1] 0 1 ∧ freq [0, 1] 1 ≤ freq [1, 1] 1 := by
  refine ⟨by rw [labelsOf_eq [0, 0, 1, 1] [0, 1] (by decide) (by decide)]; rfl, ?_, ?_, ?_⟩ <;> norm_num [condFreq, stacked, freq]

end Verif.Props
