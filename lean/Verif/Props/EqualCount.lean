import Verif.Props.Df

/-!
# C125: how many bins the equal_count strategy can make

`compute_bincuts` with `bin_strategy='equal_count'` (df.py:700-707) is asked for `n_bins` bins of a sample. The property: for every nonempty sample and
every positive number of bins it returns cut points, that go from -∞ to ∞ without decreasing. `C46_equal_count` proves it for fewer bins
than twice the examples. Beyond that it is false, and `fit` of every method that uses these bins fails.
-/

namespace Verif.Props
open Verif.Model Verif.Spec Verif.Proof

variable {α : Type*} [DecidableEq α]

theorem seqFin_raises {β : Type*} {n : ℕ} (f : Fin n → Except Err β) (e : Err) (he : ∀ i e', f i = .error e' → e' = e) (h : ∃ i, ∃ e', f i = .error e') : seqFin f = .error e := by
  induction n with
  | zero => obtain ⟨i, _⟩ := h; exact i.elim0
  | succ n ih =>
    simp only [seqFin]
    cases h0 : f 0 with
    | error e' => rw [he 0 e' h0]
    | ok a =>
      simp only
      rw [ih (fun i => f i.succ) (fun i e' hi => he i.succ e' hi)]
      obtain ⟨i, e', hi⟩ := h
      refine Fin.cases (fun hi => ?_) (fun j hj => ⟨j, e', hj⟩) i hi
      rw [h0] at hi
      cases hi

theorem pyIndex_error (l : List ℝ) (i : ℤ) (e : Err) (h : pyIndex l i = .error e) : e = .indexError := by
  unfold pyIndex at h
  split at h
  · split_ifs at h
    exact (Except.error.inj h).symm
  · exact (Except.error.inj h).symm

theorem equalCount_error (ppf : ℝ → EReal) (x : List ℝ) (y classes : List α) (n : ℕ) (range : Option (ℝ × ℝ)) (e : Err) (h : computeBincuts ppf x y classes n .equalCount range = .error e) : e = .indexError := by
  by_contra hne
  unfold computeBincuts at h
  simp only at h
  have key : ∀ {β : Type} {m : ℕ} (f : Fin m → Except Err β), (∀ i e', f i = .error e' → e' = .indexError) → seqFin f = .error e → False := by
    intro β m f hf hs
    by_cases hx : ∃ i, ∃ e', f i = .error e'
    · rw [seqFin_raises f .indexError hf hx] at hs
      exact hne (Except.error.inj hs).symm
    · have : ∀ i, ∃ v, f i = .ok v := fun i => by
        cases hi : f i with
        | ok v => exact ⟨v, rfl⟩
        | error e' => exact absurd ⟨i, e', hi⟩ hx
      choose v hv using this
      rw [(seqFin_ok f v).2 hv] at hs
      cases hs
  refine key _ (fun i e' hi => ?_) h
  split_ifs at hi
  split at hi
  · cases hi
  · rename_i h1
    cases hi
    exact pyIndex_error _ _ _ h1
  · rename_i h1 _
    cases hi
    exact pyIndex_error _ _ _ h1

/-- **C125, refuted.** With more than two bins per example `compute_bincuts` always raises an IndexError (the last cut point is after the last
example), whatever the sample. -/
theorem C125_equal_count_refuted (ppf : ℝ → EReal) (x : List ℝ) (y classes : List α) (n : ℕ) (hn : 2 ≤ n) (hx : 2 * x.length < n) (range : Option (ℝ × ℝ)) :
    computeBincuts ppf x y classes n .equalCount range = .error .indexError := by
  cases h : computeBincuts ppf x y classes n .equalCount range with
  | error e => rw [equalCount_error ppf x y classes n range e h]
  | ok cuts =>
    exfalso
    unfold computeBincuts at h
    simp only at h
    rw [seqFin_ok] at h
    have hi := h ⟨n - 1, by omega⟩
    have h1 : (⟨n - 1, by omega⟩ : Fin (n + 1)) ≠ Fin.last n := by
      intro hc
      have := congrArg Fin.val hc
      simp at this
      omega
    have h0 : (⟨n - 1, by omega⟩ : Fin (n + 1)) ≠ 0 := by
      intro hc
      have := congrArg Fin.val hc
      simp at this
      omega
    rw [if_neg h1, if_neg h0] at hi
    have hnr : (0:ℝ) < n := by exact_mod_cast (by omega : 0 < n)
    have hxr : 2 * (x.length : ℝ) < n := by exact_mod_cast hx
    have hr : roundHalfEven ((x.length : ℝ) * ((n - 1 : ℕ) : ℝ) / n) = (x.length : ℤ) := by
      have e : (x.length : ℝ) * ((n - 1 : ℕ) : ℝ) / n = x.length - x.length / n := by
        rw [Nat.cast_sub (by omega)]
        field_simp
        push_cast
        ring
      have l1 : (x.length : ℝ) / n < 1 / 2 := by rw [div_lt_iff₀ hnr]; linarith
      have l2 : 0 ≤ (x.length : ℝ) / n := by positivity
      rw [e]
      obtain ⟨b1, b2⟩ := roundHalfEven_bounds ((x.length : ℝ) - x.length / n)
      have u1 : ((x.length : ℤ) : ℝ) - 1 < roundHalfEven ((x.length : ℝ) - x.length / n) := by push_cast; linarith
      have u2 : (roundHalfEven ((x.length : ℝ) - x.length / n) : ℝ) < ((x.length : ℤ) : ℝ) + 1 := by push_cast; linarith
      have v1 : (x.length : ℤ) - 1 < roundHalfEven ((x.length : ℝ) - x.length / n) := by exact_mod_cast u1
      have v2 : roundHalfEven ((x.length : ℝ) - x.length / n) < (x.length : ℤ) + 1 := by exact_mod_cast u2
      omega
    have hp : pyIndex (x.mergeSort fun a b => decide (a ≤ b)) (x.length : ℤ) = .error .indexError := by
      unfold pyIndex
      have : (if (x.length : ℤ) < 0 then (x.length : ℤ) + (x.mergeSort fun a b => decide (a ≤ b)).length else (x.length : ℤ)).toNat = x.length := by
        rw [if_neg (by omega)]
        simp
      rw [this, List.getElem?_eq_none (by simp)]
    simp only [hr, hp] at hi
    split at hi <;> simp_all

/-- **C125, refuted**, with exactly two bins per example: there can be an answer, but its cut points decrease (the first one is between the largest and the smallest example, because `sorted_values[-1]`
is the last one). -/
theorem C125_unsorted_refuted (ppf : ℝ → EReal) : ∃ cuts, computeBincuts ppf [0, 0, 1] [1, 2, 1] [1, 2] 6 .equalCount none = .ok cuts ∧ cuts 1 = ((1/2 : ℝ) : EReal) ∧ cuts 2 = ((0 : ℝ) : EReal) ∧ ¬ CutsOk cuts := by
  have hs : ([0, 0, 1] : List ℝ).mergeSort (fun a b => decide (a ≤ b)) = [0, 0, 1] := List.mergeSort_of_pairwise (by simp)
  have r : ∀ (x : ℝ) (k : ℤ), ⌊x⌋ = k → roundHalfEven x = if x - k < 1/2 then k else if 1/2 < x - k then k + 1 else if Even k then k else k + 1 := by
    intro x k hk
    unfold roundHalfEven
    rw [hk]
  have r1 : roundHalfEven (([0, 0, 1] : List ℝ).length * ((1 : ℕ) : ℝ) / ((6 : ℕ) : ℝ)) = 0 := by
    rw [r _ 0 (by norm_num [Int.floor_eq_iff])]; norm_num
  have r2 : roundHalfEven (([0, 0, 1] : List ℝ).length * ((2 : ℕ) : ℝ) / ((6 : ℕ) : ℝ)) = 1 := by
    rw [r _ 1 (by norm_num [Int.floor_eq_iff])]; norm_num
  have r3 : roundHalfEven (([0, 0, 1] : List ℝ).length * ((3 : ℕ) : ℝ) / ((6 : ℕ) : ℝ)) = 2 := by
    rw [r _ 1 (by norm_num [Int.floor_eq_iff])]; norm_num
  have r4 : roundHalfEven (([0, 0, 1] : List ℝ).length * ((4 : ℕ) : ℝ) / ((6 : ℕ) : ℝ)) = 2 := by
    rw [r _ 2 (by norm_num [Int.floor_eq_iff])]; norm_num
  have r5 : roundHalfEven (([0, 0, 1] : List ℝ).length * ((5 : ℕ) : ℝ) / ((6 : ℕ) : ℝ)) = 2 := by
    rw [r _ 2 (by norm_num [Int.floor_eq_iff])]; norm_num
  have p0 : pyIndex [0, 0, 1] 0 = .ok 0 := by simp [pyIndex]
  have pm : pyIndex [0, 0, 1] (0 - 1) = .ok 1 := by simp [pyIndex]
  have p1 : pyIndex [0, 0, 1] (1 - 1) = .ok 0 := by simp [pyIndex]
  have p1' : pyIndex [0, 0, 1] 1 = .ok 0 := by simp [pyIndex]
  have p2 : pyIndex [0, 0, 1] (2 - 1) = .ok 0 := by simp [pyIndex]
  have p2' : pyIndex [0, 0, 1] 2 = .ok 1 := by simp [pyIndex]
  refine ⟨![⊥, (((1 + 0) / 2 : ℝ) : EReal), (((0 + 0) / 2 : ℝ) : EReal), (((0 + 1) / 2 : ℝ) : EReal), (((0 + 1) / 2 : ℝ) : EReal), (((0 + 1) / 2 : ℝ) : EReal), ⊤], ?_, ?_, ?_, ?_⟩
  · unfold computeBincuts
    simp only
    rw [seqFin_ok, hs]
    intro i
    fin_cases i
    · rfl
    · rw [if_neg (by decide), if_neg (by decide)]; simp only [r1, pm, p0]; rfl
    · rw [if_neg (by decide), if_neg (by decide)]; simp only [r2, p1, p1']; rfl
    · rw [if_neg (by decide), if_neg (by decide)]; simp only [r3, p2, p2']; rfl
    · rw [if_neg (by decide), if_neg (by decide)]; simp only [r4, p2, p2']; rfl
    · rw [if_neg (by decide), if_neg (by decide)]; simp only [r5, p2, p2']; rfl
    · rfl
  · norm_num
  · change (((0 + 0) / 2 : ℝ) : EReal) = _
    norm_num
  · intro h
    have : (((1 + 0) / 2 : ℝ) : EReal) ≤ (((0 + 0) / 2 : ℝ) : EReal) := h.mono (by decide : (1 : Fin 7) ≤ 2)
    rw [EReal.coe_le_coe_iff] at this
    norm_num at this

/-- **C125**, the part that holds: with fewer bins than twice the examples there are cut points, from -∞ to ∞, that do not decrease. -/
theorem C125_equal_count_partial (ppf : ℝ → EReal) (x : List ℝ) (y classes : List α) (n : ℕ) (hn : 0 < n) (hx : n < 2 * x.length) (range : Option (ℝ × ℝ)) :
    ∃ cuts, computeBincuts ppf x y classes n .equalCount range = .ok cuts ∧ cuts 0 = ⊥ ∧ cuts (Fin.last n) = ⊤ ∧ ∀ i j, i ≤ j → cuts i ≤ cuts j := by
  obtain ⟨cuts, h, hc⟩ := C46_equal_count ppf x y classes n hn hx range
  exact ⟨cuts, h, hc.first, hc.last, fun i j hij => hc.mono hij⟩

/-- **C125, refuted** for `DFX`: `fit` of a training set with fewer examples than half the bins raises an IndexError. -/
theorem C125_dfx_refuted (ppf : ℝ → EReal) {nf : ℕ} (hnf : 0 < nf) (cfg : DfCfg) (hs : cfg.strategy = .equalCount) (hn : 2 ≤ cfg.nBins) (classes y : List α) (X : List (Fin nf → ℝ)) (hX : 2 * X.length < cfg.nBins) :
    dfxFit ppf cfg classes y X = .error .indexError := by
  unfold dfxFit dfFit
  rw [seqFin_error _ hnf .indexError]
  rw [hs]
  exact C125_equal_count_refuted ppf _ y classes cfg.nBins hn (by simpa using hX) none

/-- **C125, refuted** for `DFy`: the same with fewer training predictions than half the bins. -/
theorem C125_dfy_refuted (ppf : ℝ → EReal) (cfg : DfCfg) (hs : cfg.strategy = .equalCount) (hn : 2 ≤ cfg.nBins) (classes y yExt : List α) (hcl : classes ≠ []) (preds : List (Fin classes.length → ℝ))
    (hX : 2 * preds.length < cfg.nBins) : dfyFit ppf cfg classes y yExt preds = .error .indexError := by
  have hpos : 0 < nDescriptors classes.length := by
    have := List.length_pos_iff.2 hcl
    unfold nDescriptors
    split_ifs <;> omega
  unfold dfyFit dfFit
  rw [seqFin_error _ hpos .indexError]
  rw [hs]
  exact C125_equal_count_refuted ppf _ y classes cfg.nBins hn (by simpa using hX) _

example : ∃ (x : List ℝ) (n : ℕ), x ≠ [] ∧ 0 < n ∧ x.length < n ∧ n < 2 * x.length := ⟨[3, 1, 2], 5, by simp, by norm_num, by norm_num, by norm_num⟩

example : ∃ (x : List ℝ) (n : ℕ), x ≠ [] ∧ 2 ≤ n ∧ 2 * x.length < n := ⟨[3, 1, 2], 8, by simp, by norm_num, by norm_num⟩

end Verif.Props
