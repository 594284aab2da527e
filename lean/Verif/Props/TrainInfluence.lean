import Verif.Props.Population
import Verif.Props.Influence
import Verif.Props.Perfect

/-!
# C171: one example of the training set
-/

namespace Verif.Props

open Verif.Model Verif.Spec Verif.Proof

/-- The adjustment, from the vector that solves the system: it is clipped and divided by its sum, also with two classes. -/
theorem adjust_solution (sol : Solvers) (dist : Dist) {n : ℕ} (M : Matrix (Fin n) (Fin n) ℝ) (hrow : ∀ i, ∑ j, M i j = 1) (κ : ℝ) (hκ : TellsApart M κ) (h2 : n = 2 → κ < 1000) (q z : Fin n → ℝ)
    (hz : ∑ i, z i = 1) (hs : ∀ j, ∑ i, z i * M i j = q j) :
    adjust sol dist (fun i j => Fl.fin (M i j)) (fun j => Fl.fin (q j)) = .ok (fun i => Fl.fin (max 0 (z i) / ∑ i, max 0 (z i))) := by
  have hM := tellsApart_det hκ hrow
  by_cases hn : n = 2
  · subst hn
    have hd := tellsApart_vec hκ ![-1, 1] (by simp)
    have r0 := hrow 0
    have r1 := hrow 1
    have s1 := hs 1
    rw [Fin.sum_univ_two] at r0 r1 hz s1
    have hk := h2 rfl
    set d := M 1 1 - M 0 1 with hdef
    have hd' : 1 ≤ κ * |d| := by
      simp only [Fin.sum_univ_two, Matrix.cons_val_zero, Matrix.cons_val_one, abs_neg, abs_one, neg_mul, one_mul] at hd
      rw [show -M 0 0 + M 1 0 = -d by linarith, show -M 0 1 + M 1 1 = d by rw [hdef]; ring, abs_neg] at hd
      linarith
    have hd0 : 0 < |d| := by
      rcases (abs_nonneg d).lt_or_eq with h | h
      · exact h
      · rw [← h] at hd'; norm_num at hd'
    have hbig : 1/1000 < |d| := by
      have : κ * |d| < 1000 * |d| := mul_lt_mul_of_pos_right hk hd0
      linarith
    rw [C09_binary_formula _ _ (M 1 1) (M 0 1) (q 1) rfl rfl rfl hbig]
    have hdne : d ≠ 0 := abs_pos.1 hd0
    have ht : (q 1 - M 0 1) / (M 1 1 - M 0 1) = z 1 := by
      rw [← hdef, div_eq_iff hdne, ← s1, show z 0 = 1 - z 1 by linarith, hdef]
      ring
    rw [ht]
    have hz0 : z 0 = 1 - z 1 := by linarith
    have key : ∀ t : ℝ, max 0 (1 - t) / (max 0 (1 - t) + max 0 t) = 1 - max 0 (min t 1) ∧ max 0 t / (max 0 (1 - t) + max 0 t) = max 0 (min t 1) := by
      intro t
      rcases le_total t 0 with h | h
      · rw [max_eq_right (by linarith : (0:ℝ) ≤ 1 - t), max_eq_left h, min_eq_left (by linarith), max_eq_left h, add_zero, div_self (by linarith)]
        simp
      · rcases le_total t 1 with h' | h'
        · rw [max_eq_right (by linarith : (0:ℝ) ≤ 1 - t), max_eq_right h, min_eq_left h', max_eq_right h]
          simp
        · rw [max_eq_left (by linarith : 1 - t ≤ 0), max_eq_right h, min_eq_right h', max_eq_right zero_le_one, zero_add, div_self (by linarith)]
          simp
    congr 1
    funext i
    rw [Fin.sum_univ_two, hz0]
    fin_cases i
    · simp only [Fin.zero_eta, hz0, (key (z 1)).1]
      rfl
    · simp only [Fin.mk_one, (key (z 1)).2]
      rfl
  · have e : adjX M q = z := by
      have h1 : Matrix.vecMul (adjX M q - z) M = 0 := by
        funext j
        have := adjX_solves M hM q j
        simp only [Matrix.vecMul, dotProduct, Pi.sub_apply, Pi.zero_apply, sub_mul, Finset.sum_sub_distrib]
        rw [hs j, ← this, sub_eq_zero]
        exact Finset.sum_congr rfl fun i _ => mul_comm _ _
      by_contra hne
      exact hM (Matrix.exists_vecMul_eq_zero_iff.1 ⟨_, sub_ne_zero.2 hne, h1⟩)
    have hx : ∑ i, adjX M q i = 1 := by rw [e, hz]
    rw [adjust_ne_two sol dist hn, multiAdjust_fin sol dist M hM q (IsPrev_pos_part _ hx).1.ne', e]

/-- The adjustments with two matrices whose rows are close. -/
theorem adjust_matrices (sol : Solvers) (dist : Dist) {n : ℕ} (M M' : Matrix (Fin n) (Fin n) ℝ) (hrow : ∀ i, IsPrev (M i)) (hrow' : ∀ i, IsPrev (M' i)) (κ ε : ℝ) (hκ0 : 0 ≤ κ) (hκ : TellsApart M κ)
    (hε : ∀ i, ∑ j, |M' i j - M i j| ≤ ε) (h1 : κ * ε < 1) (h2 : n = 2 → κ / (1 - κ * ε) < 1000) (q : Fin n → ℝ) (hq : IsPrev q) :
    ∃ x x' : Fin n → ℝ, adjust sol dist (fun i j => Fl.fin (M i j)) (fun j => Fl.fin (q j)) = .ok (fun i => Fl.fin (x i)) ∧ adjust sol dist (fun i j => Fl.fin (M' i j)) (fun j => Fl.fin (q j)) = .ok (fun i => Fl.fin (x' i))
      ∧ totalError x x' ≤ 2 * (κ * ε * (1 + 2 * κ) / (1 - κ * ε)) := by
  have hκ' := tellsApart_perturbed M M' κ ε hκ0 hκ hε h1
  have hpos : 0 < 1 - κ * ε := by linarith
  have hn0 : ∃ i : Fin n, True := by
    by_contra hne
    have : ∑ i, q i = 0 := Finset.sum_eq_zero fun i _ => absurd ⟨i, trivial⟩ hne
    rw [hq.2] at this
    norm_num at this
  obtain ⟨i0, -⟩ := hn0
  have hε0 : 0 ≤ ε := (Finset.sum_nonneg fun j _ => abs_nonneg _).trans (hε i0)
  have hle : κ ≤ κ / (1 - κ * ε) := by
    rw [le_div_iff₀ hpos]
    nlinarith [mul_nonneg hκ0 (mul_nonneg hκ0 hε0)]
  have hM := tellsApart_det hκ fun i => (hrow i).2
  have hM' := tellsApart_det hκ' fun i => (hrow' i).2
  have hs : ∀ j, ∑ i, adjX M q i * M i j = q j := fun j => by
    rw [← adjX_solves M hM q j]
    exact Finset.sum_congr rfl fun i _ => mul_comm _ _
  have hs' : ∀ j, ∑ i, adjX M' q i * M' i j = q j := fun j => by
    rw [← adjX_solves M' hM' q j]
    exact Finset.sum_congr rfl fun i _ => mul_comm _ _
  have hx : ∑ i, adjX M q i = 1 := by rw [adjX_sum M hM fun i => (hrow i).2, hq.2]
  have hx' : ∑ i, adjX M' q i = 1 := by rw [adjX_sum M' hM' fun i => (hrow' i).2, hq.2]
  refine ⟨_, _, adjust_solution sol dist M (fun i => (hrow i).2) κ hκ (fun h => hle.trans_lt (h2 h)) q _ hx hs, adjust_solution sol dist M' (fun i => (hrow' i).2) _ hκ' h2 q _ hx' hs',
    (clip_normalise_lipschitz _ _ hx hx').trans (mul_le_mul_of_nonneg_left ?_ two_pos.le)⟩
  set z := adjX M q with hz
  have habs : ∑ i, |z i| ≤ 1 + 2 * κ := by
    have ha := hκ z q (by rw [hx, hq.2])
    have e1 : expectedPreds M z = q := funext hs
    have e2 : IsPrev (expectedPreds M q) := by
      refine ⟨fun j => Finset.sum_nonneg fun i _ => mul_nonneg (hq.1 i) ((hrow i).1 j), ?_⟩
      unfold expectedPreds
      rw [Finset.sum_comm]
      simp only [← Finset.mul_sum, (hrow _).2, mul_one, hq.2]
    rw [e1] at ha
    have hb := mul_le_mul_of_nonneg_left (prev_distance q _ hq e2) hκ0
    have hc : ∑ i, |z i| ≤ totalError z q + ∑ i, q i := by
      unfold totalError
      rw [← Finset.sum_add_distrib]
      refine Finset.sum_le_sum fun i _ => ?_
      have := abs_add_le (z i - q i) (q i)
      rw [sub_add_cancel, abs_of_nonneg (hq.1 i)] at this
      exact this
    rw [hq.2] at hc
    linarith
  have ha := hκ' z (adjX M' q) (by rw [hx, hx'])
  have e1 : expectedPreds M' (adjX M' q) = q := funext hs'
  have hb : totalError (expectedPreds M' z) q ≤ ε * ∑ i, |z i| := by
    calc totalError (expectedPreds M' z) q = ∑ j, |∑ i, z i * (M' i j - M i j)| := by
          unfold totalError expectedPreds
          refine Finset.sum_congr rfl fun j _ => ?_
          rw [← hs j, ← Finset.sum_sub_distrib]
          congr 1
          exact Finset.sum_congr rfl fun i _ => by ring
      _ ≤ ∑ j, ∑ i, |z i| * |M' i j - M i j| := Finset.sum_le_sum fun j _ => (Finset.abs_sum_le_sum_abs _ _).trans (le_of_eq (Finset.sum_congr rfl fun i _ => abs_mul _ _))
      _ = ∑ i, |z i| * ∑ j, |M' i j - M i j| := by rw [Finset.sum_comm]; simp only [Finset.mul_sum]
      _ ≤ ∑ i, |z i| * ε := Finset.sum_le_sum fun i _ => mul_le_mul_of_nonneg_left (hε i) (abs_nonneg _)
      _ = ε * ∑ i, |z i| := by rw [← Finset.sum_mul, mul_comm]
  rw [e1] at ha
  refine ha.trans ?_
  rw [div_mul_eq_mul_div]
  refine div_le_div_of_nonneg_right ?_ hpos.le
  calc κ * totalError (expectedPreds M' z) q ≤ κ * (ε * (1 + 2 * κ)) := mul_le_mul_of_nonneg_left (hb.trans (mul_le_mul_of_nonneg_left habs hε0)) hκ0
    _ = κ * ε * (1 + 2 * κ) := by ring

/-- Where one of the training predictions is replaced: the sums over the examples of each class. -/
theorem replaced_class_sum {α β : Type*} [DecidableEq α] {P P' : List β} {v v' : β} (h : OneReplaced P P' v v') (Y : List α) (hl : Y.length = P.length) (c : α) :
    ∃ δ : ℝ, (δ = 0 ∨ δ = 1) ∧ ∀ f : β → ℝ, (((Y.zip P').filter fun t => decide (t.1 = c)).map fun t => f t.2).sum - (((Y.zip P).filter fun t => decide (t.1 = c)).map fun t => f t.2).sum = δ * (f v' - f v) := by
  obtain ⟨A, B, rfl, rfl⟩ := h
  induction A generalizing Y with
  | nil =>
    obtain ⟨a, Y, rfl⟩ : ∃ a Y', Y = a :: Y' := by
      cases Y with
      | nil => simp at hl
      | cons a Y => exact ⟨a, Y, rfl⟩
    by_cases h : a = c
    · exact ⟨1, .inr rfl, fun f => by simp [h]⟩
    · exact ⟨0, .inl rfl, fun f => by simp [h]⟩
  | cons b A ih =>
    obtain ⟨a, Y, rfl⟩ : ∃ a Y', Y = a :: Y' := by
      cases Y with
      | nil => simp at hl
      | cons a Y => exact ⟨a, Y, rfl⟩
    obtain ⟨δ, hδ, h⟩ := ih Y (by simpa using hl)
    refine ⟨δ, hδ, fun f => ?_⟩
    rw [← h f]
    by_cases h : a = c <;> simp [h]

/-- The means over the examples of each class change by at most 2 over the number of those examples, if the values are prevalences. -/
theorem replaced_rows {α β : Type*} [DecidableEq α] {m : ℕ} {P P' : List β} {v v' : β} (h : OneReplaced P P' v v') (Y : List α) (hl : Y.length = P.length) (f : Fin m → β → ℝ) (hv : IsPrev fun j => f j v) (hv' : IsPrev fun j => f j v')
    (N : ℝ) (hN : 0 < N) (c : α) (hc : N ≤ Y.count c) : ∑ j, |condMean Y P' (f j) c - condMean Y P (f j) c| ≤ 2 / N := by
  obtain ⟨δ, hδ, h⟩ := replaced_class_sum h Y hl c
  have hpos : (0:ℝ) < Y.count c := hN.trans_le hc
  have e : ∀ j, |condMean Y P' (f j) c - condMean Y P (f j) c| = δ / Y.count c * |f j v' - f j v| := fun j => by
    have hδ0 : 0 ≤ δ / (Y.count c : ℝ) := by rcases hδ with rfl | rfl <;> positivity
    unfold condMean
    rw [← sub_div, h (f j), mul_div_right_comm, abs_mul, abs_of_nonneg hδ0]
  simp only [e, ← Finset.mul_sum]
  have h2 := prev_distance _ _ hv' hv
  unfold totalError at h2
  have hδ1 : δ / (Y.count c : ℝ) ≤ 1 / N := by
    rcases hδ with rfl | rfl
    · rw [zero_div]; positivity
    · exact one_div_le_one_div_of_le hN hc
  calc δ / (Y.count c : ℝ) * ∑ j, |f j v' - f j v| ≤ 1 / N * 2 := mul_le_mul hδ1 h2 (Finset.sum_nonneg fun _ _ => abs_nonneg _) (by positivity)
    _ = 2 / N := by ring

theorem condFreq_condMean {α : Type*} [DecidableEq α] (Y P : List α) (a b : α) : condFreq Y P a b = condMean Y P (fun p => if p = b then (1:ℝ) else 0) a := by
  unfold condFreq condMean
  congr 1
  induction Y.zip P with
  | nil => simp
  | cons t l ih =>
    rw [List.countP_cons, Nat.cast_add, ih]
    by_cases h1 : t.1 = a <;> by_cases h2 : t.2 = b <;> simp [h1, h2, add_comm]

theorem influence_bound (κ N : ℝ) (hN : 0 < N) (h1 : 2 * κ < N) : κ * (2 / N) < 1 ∧ κ / (1 - κ * (2 / N)) = κ * N / (N - 2 * κ) ∧ 2 * (κ * (2 / N) * (1 + 2 * κ) / (1 - κ * (2 / N))) = 4 * κ * (1 + 2 * κ) / (N - 2 * κ) := by
  have hp : 0 < N - 2 * κ := by linarith
  have e : 1 - κ * (2 / N) = (N - 2 * κ) / N := by
    field_simp
  refine ⟨?_, ?_, ?_⟩
  · have : 0 < 1 - κ * (2 / N) := by rw [e]; positivity
    linarith
  · rw [e]
    field_simp
  · rw [e]
    field_simp
    ring

section
variable {σ D α : Type} {k : ℕ} [LinearOrder α] (enc : Bool → α) (w : World σ D α) (et et' : Option ℕ) (X Xt : List D) (y : List α) (hy : y ≠ []) (r : ℕ)
include hy

/-- **C171** for CC: the training predictions do not count. -/
theorem C171_cc (ops : EstOps σ D α k) (P P' : List α) (hP : P.length = r * y.length) (hP' : P'.length = r * y.length) (bag : List α) :
    ucRun ops enc w ⟨ccClass, et, et'⟩ X y (some (.crisp P)) Xt (some (.crisp bag)) = ucRun ops enc w ⟨ccClass, et, et'⟩ X y (some (.crisp P')) Xt (some (.crisp bag)) := by
  rw [ucRun_given_crisp ops enc w X Xt y ccClass rfl rfl et et' hy r P _ hP, ucRun_given_crisp ops enc w X Xt y ccClass rfl rfl et et' hy r P' _ hP']
  rfl

/-- **C171** for PCC. -/
theorem C171_pcc (ops : EstOps σ D α (labelsOf y).length) (P P' : List (Fin (labelsOf y).length → ℝ)) (hP : P.length = r * y.length) (hP' : P'.length = r * y.length) (bag : List (Fin (labelsOf y).length → ℝ)) :
    ucRun ops enc w ⟨pccClass, et, et'⟩ X y (some (.probs P)) Xt (some (.probs bag)) = ucRun ops enc w ⟨pccClass, et, et'⟩ X y (some (.probs P')) Xt (some (.probs bag)) := by
  rw [ucRun_given_probs ops enc w X Xt y pccClass rfl rfl et et' hy r P _ hP, ucRun_given_probs ops enc w X Xt y pccClass rfl rfl et et' hy r P' _ hP']
  rfl

/-- **C171** for EM, which learns the prevalences of the training set only. -/
theorem C171_em (ops : EstOps σ D α (labelsOf y).length) (eps : ℝ) (maxIter : ℕ) (P P' : List (Fin (labelsOf y).length → ℝ)) (hP : P.length = r * y.length) (hP' : P'.length = r * y.length) (bag : List (Fin (labelsOf y).length → ℝ)) :
    ucRun ops enc w ⟨emClass eps maxIter, et, et'⟩ X y (some (.probs P)) Xt (some (.probs bag)) = ucRun ops enc w ⟨emClass eps maxIter, et, et'⟩ X y (some (.probs P')) Xt (some (.probs bag)) := by
  rw [ucRun_given_probs ops enc w X Xt y (emClass eps maxIter) rfl rfl et et' hy r P _ hP, ucRun_given_probs ops enc w X Xt y (emClass eps maxIter) rfl rfl et et' hy r P' _ hP']
  rfl

variable (hr : 0 < r)
include hr

/-- **C171** for AC: a training example is replaced by another one of its class, which is predicted as `v'` instead of `v`. Every class has at least `N` predictions in training. -/
theorem C171_ac (ops : EstOps σ D α k) (sol : Solvers) (dist : Dist) (P P' : List α) (hP : P.length = r * y.length) (v v' : α) (h : OneReplaced P P' v v') (hPy : ∀ a ∈ P, a ∈ y) (hPy' : ∀ a ∈ P', a ∈ y) (κ N : ℝ) (hκ0 : 0 ≤ κ)
    (hκ : TellsApart (fun i j : Fin (labelsOf y).length => condFreq (stacked y r) P (labelsOf y)[i] (labelsOf y)[j]) κ) (hN : ∀ c ∈ y, N ≤ r * y.count c) (h1 : 2 * κ < N) (h2 : (labelsOf y).length = 2 → κ * N / (N - 2 * κ) < 1000)
    (bag : List α) (hbag : bag ≠ []) (hby : ∀ a ∈ bag, a ∈ y) :
    ∃ x x' : Fin (labelsOf y).length → ℝ, ucRun ops enc w ⟨acClass sol dist, et, et'⟩ X y (some (.crisp P)) Xt (some (.crisp bag)) = .ok (some (realList x))
      ∧ ucRun ops enc w ⟨acClass sol dist, et, et'⟩ X y (some (.crisp P')) Xt (some (.crisp bag)) = .ok (some (realList x')) ∧ totalError x x' ≤ 4 * κ * (1 + 2 * κ) / (N - 2 * κ) := by
  have hN0 : 0 < N := by linarith
  have hP' : P'.length = r * y.length := by rw [replaced_length h, hP]
  obtain ⟨b1, b2, b3⟩ := influence_bound κ N hN0 h1
  have hind : ∀ a ∈ y, IsPrev fun j : Fin (labelsOf y).length => if a = (labelsOf y)[j] then (1:ℝ) else 0 := fun a ha => by
    have := freqs_isPrev _ (labelsOf_nodup y) [a] (by simp) (by simpa using (mem_labelsOf y a).2 ha)
    rw [freqs_meanOf] at this
    simpa [meanOf] using this
  have hq := freqs_isPrev _ (labelsOf_nodup y) bag hbag fun a ha => (mem_labelsOf y _).2 (hby a ha)
  obtain ⟨x, x', e, e', he⟩ := adjust_matrices sol dist (cmReal y r P) (cmReal y r P') (cmReal_row y r hr P hP hPy) (cmReal_row y r hr P' hP' hPy') κ (2 / N) hκ0 hκ (fun i => by
    simp only [cmReal, condFreq_condMean]
    refine replaced_rows h _ (by rw [stacked_length, hP]) (fun j p => if p = (labelsOf y)[j] then (1:ℝ) else 0) (hind v (hPy _ (replaced_mem h).1)) (hind v' (hPy' _ (replaced_mem h).2)) N hN0 _ ?_
    rw [stacked_count]
    push_cast
    exact hN _ ((mem_labelsOf y _).1 (List.getElem_mem _))) b1 (fun h => b2 ▸ h2 h) _ hq
  refine ⟨x, x', ?_, ?_, he.trans_eq b3⟩
  · rw [ucRun_given_crisp ops enc w X Xt y (acClass sol dist) rfl rfl et et' hy r P _ hP, answer_ac_eq y sol dist r P _ hP hbag, normalizeRows_eq y r hr P hP hPy, e]
    rfl
  · rw [ucRun_given_crisp ops enc w X Xt y (acClass sol dist) rfl rfl et et' hy r P' _ hP', answer_ac_eq y sol dist r P' _ hP' hbag, normalizeRows_eq y r hr P' hP' hPy', e']
    rfl

/-- **C171** for PAC. -/
theorem C171_pac (ops : EstOps σ D α (labelsOf y).length) (sol : Solvers) (dist : Dist) (P P' : List (Fin (labelsOf y).length → ℝ)) (hP : P.length = r * y.length) (v v' : Fin (labelsOf y).length → ℝ) (h : OneReplaced P P' v v')
    (hPp : ∀ row ∈ P, IsPrev row) (hPp' : ∀ row ∈ P', IsPrev row) (κ N : ℝ) (hκ0 : 0 ≤ κ)
    (hκ : TellsApart (fun i j : Fin (labelsOf y).length => condMean (stacked y r) P (fun row => row j) (labelsOf y)[i]) κ) (hN : ∀ c ∈ y, N ≤ r * y.count c) (h1 : 2 * κ < N) (h2 : (labelsOf y).length = 2 → κ * N / (N - 2 * κ) < 1000)
    (bag : List (Fin (labelsOf y).length → ℝ)) (hbag : bag ≠ []) (hby : ∀ row ∈ bag, IsPrev row) :
    ∃ x x' : Fin (labelsOf y).length → ℝ, ucRun ops enc w ⟨pacClass sol dist, et, et'⟩ X y (some (.probs P)) Xt (some (.probs bag)) = .ok (some (realList x))
      ∧ ucRun ops enc w ⟨pacClass sol dist, et, et'⟩ X y (some (.probs P')) Xt (some (.probs bag)) = .ok (some (realList x')) ∧ totalError x x' ≤ 4 * κ * (1 + 2 * κ) / (N - 2 * κ) := by
  have hN0 : 0 < N := by linarith
  have hP' : P'.length = r * y.length := by rw [replaced_length h, hP]
  obtain ⟨b1, b2, b3⟩ := influence_bound κ N hN0 h1
  have hq := meanOf_isPrev bag hbag hby
  obtain ⟨x, x', e, e', he⟩ := adjust_matrices sol dist (pcmReal y r P) (pcmReal y r P') (pcmReal_row y r hr P hP hPp) (pcmReal_row y r hr P' hP' hPp') κ (2 / N) hκ0 hκ (fun i => by
    refine replaced_rows h _ (by rw [stacked_length, hP]) (fun j row => row j) (hPp _ (replaced_mem h).1) (hPp' _ (replaced_mem h).2) N hN0 _ ?_
    rw [stacked_count]
    push_cast
    exact hN _ ((mem_labelsOf y _).1 (List.getElem_mem _))) b1 (fun h => b2 ▸ h2 h) _ hq
  refine ⟨x, x', ?_, ?_, he.trans_eq b3⟩
  · rw [pac_run enc w et et' X Xt y hy r hr ops sol dist P hP _ hbag, e]
    rfl
  · rw [pac_run enc w et et' X Xt y hy r hr ops sol dist P' hP' _ hbag, e']
    rfl

end

/-- Two classes of `m + 1` examples with the right predictions, and then one of them is wrong: the answers of AC for a bag differ by at most `12 / (m - 1)`. -/
example (ops : EstOps Unit Unit ℕ 2) (enc : Bool → ℕ) (w : World Unit Unit ℕ) (sol : Solvers) (bag : List ℕ) (hbag : bag ≠ []) (hby : ∀ a ∈ bag, a = 0 ∨ a = 1) (m : ℕ) (hm : 2 ≤ m) :
    ∃ x x' : Fin (labelsOf (List.replicate (m + 1) 0 ++ List.replicate (m + 1) 1)).length → ℝ,
      ucRun ops enc w ⟨acClass sol .HD, none, none⟩ [] (List.replicate (m + 1) 0 ++ List.replicate (m + 1) 1) (some (.crisp (List.replicate (m + 1) 0 ++ List.replicate (m + 1) 1))) [] (some (.crisp bag)) = .ok (some (realList x))
      ∧ ucRun ops enc w ⟨acClass sol .HD, none, none⟩ [] (List.replicate (m + 1) 0 ++ List.replicate (m + 1) 1) (some (.crisp (List.replicate m 0 ++ 1 :: List.replicate (m + 1) 1))) [] (some (.crisp bag)) = .ok (some (realList x'))
      ∧ totalError x x' ≤ 12 / (m - 1) := by
  set y := List.replicate (m + 1) 0 ++ List.replicate (m + 1) 1 with hy
  have hm' : (2:ℝ) ≤ m := by exact_mod_cast hm
  have hmem : ∀ a, a ∈ y ↔ a = 0 ∨ a = 1 := fun a => by simp [y, List.mem_replicate]
  have hst : stacked y 1 = y := by simp [stacked]
  have := C171_ac enc w none none [] [] y (by simp [y]) 1 one_pos ops sol .HD y (List.replicate m 0 ++ 1 :: List.replicate (m + 1) 1) (by simp) 0 1
    ⟨List.replicate m 0, List.replicate (m + 1) 1, by rw [hy, List.replicate_succ', List.append_assoc]; rfl, rfl⟩ (fun a ha => ha) (fun a ha => by rw [hmem]; simp [List.mem_replicate] at ha; omega) 1 (m + 1) zero_le_one
    (fun p q _ => by
      have e := fun x => perfect_expected y 1 one_pos x
      rw [hst] at e
      unfold cmReal at e
      rw [hst] at e ⊢
      rw [e, e, one_mul])
    (fun c hc => by
      rcases (hmem c).1 hc with rfl | rfl <;> simp [y, List.count_append, List.count_replicate])
    (by linarith) (fun _ => by rw [div_lt_iff₀ (by linarith)]; linarith) bag hbag (fun a ha => (hmem a).2 (hby a ha))
  obtain ⟨x, x', h, h', he⟩ := this
  exact ⟨x, x', h, h', he.trans_eq (by rw [show (m:ℝ) + 1 - 2 * 1 = m - 1 by ring]; norm_num)⟩

end Verif.Props
