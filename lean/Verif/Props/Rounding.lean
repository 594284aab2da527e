import Verif.Proof.Rounding
import Verif.Proof.Decomp
import Verif.Props.EM

/-!
# C145: the answers in rounded arithmetic
-/

namespace Verif.Props

open Verif.Model Verif.Spec Verif.Proof

variable {α : Type*} {k n : ℕ} {A : Arith} {u : ℝ}

theorem ofFn_nonneg {v : Fin n → ℝ} (hv : ∀ i, 0 ≤ v i) : ∀ x ∈ List.ofFn v, 0 ≤ x := by
  intro x hx
  obtain ⟨i, rfl⟩ := (List.mem_ofFn' _ _).1 hx
  exact hv i

/-- A nonnegative vector divided by its computed sum. -/
theorem quotient_valid (h : A.Ok u) {v : Fin n → ℝ} (hv : ∀ i, 0 ≤ v i) (hs : 0 < ∑ i, v i) :
    0 < A.sum (List.ofFn v) ∧ (∀ i, 0 ≤ A.rnd (v i / A.sum (List.ofFn v))) ∧ (∀ i, 0 < v i → 0 < A.rnd (v i / A.sum (List.ofFn v)))
      ∧ NearOne u n fun i => A.rnd (v i / A.sum (List.ofFn v)) := by
  have hu := h.nonneg
  have hu1 := h.lt_one
  have hl := ofFn_nonneg hv
  have hls : (List.ofFn v).sum = ∑ i, v i := by rw [List.sum_ofFn]
  have hpos : 0 < A.sum (List.ofFn v) := sum_pos h hl (by rw [hls]; exact hs)
  obtain ⟨b1, b2⟩ := sum_bounds h hl
  rw [hls, List.length_ofFn] at b1 b2
  set s := A.sum (List.ofFn v) with hsdef
  have hq : ∀ i, 0 ≤ v i / s := fun i => div_nonneg (hv i) hpos.le
  have p1 : 0 < (1 - u) ^ n := pow_pos (by linarith) _
  have p2 : 0 < (1 + u) ^ n := pow_pos (by linarith) _
  refine ⟨hpos, fun i => rnd_nonneg h (hq i), fun i hi => rnd_pos h (div_pos hi hpos), ?_, ?_⟩
  · calc (1 - u) / (1 + u) ^ n ≤ (1 - u) * ((∑ i, v i) / s) := by
          rw [div_eq_mul_inv]
          refine mul_le_mul_of_nonneg_left ?_ (by linarith)
          rw [inv_eq_one_div, div_le_div_iff₀ p2 hpos]
          linarith
      _ = ∑ i, (1 - u) * (v i / s) := by rw [Finset.sum_div, Finset.mul_sum]
      _ ≤ _ := Finset.sum_le_sum fun i _ => rnd_lower h (hq i)
  · calc ∑ i, A.rnd (v i / s) ≤ ∑ i, (1 + u) * (v i / s) := Finset.sum_le_sum fun i _ => rnd_upper h (hq i)
      _ = (1 + u) * ((∑ i, v i) / s) := by rw [Finset.sum_div, Finset.mul_sum]
      _ ≤ (1 + u) / (1 - u) ^ n := by
          rw [div_eq_mul_inv _ ((1 - u) ^ n)]
          refine mul_le_mul_of_nonneg_left ?_ (by linarith)
          rw [inv_eq_one_div, div_le_div_iff₀ hpos p1]
          linarith

theorem normalizeA_valid (h : A.Ok u) {v : Fin n → ℝ} (hv : ∀ i, 0 ≤ v i) (hs : 0 < ∑ i, v i) : (∀ i, 0 ≤ normalizeA A v i) ∧ NearOne u n (normalizeA A v) := by
  obtain ⟨h1, h2, -, h4⟩ := quotient_valid h hv hs
  unfold normalizeA
  rw [if_pos h1]
  exact ⟨h2, h4⟩

/-- **C145** (`CC`): in arithmetic with relative error `u`, for every nonempty list of predictions among the classes, the prevalences of `CC` are nonnegative and their exact sum differs from 1 by at most `u`. -/
theorem C145_cc [LinearOrder α] (h : A.Ok u) (y preds : List α) (hne : preds ≠ []) (hp : ∀ a ∈ preds, a ∈ y) :
    (∀ i, 0 ≤ ccA A (labelsOf y) preds i) ∧ |∑ i, ccA A (labelsOf y) preds i - 1| ≤ u := by
  have hf : IsPrev (freqs (labelsOf y) preds) := freqs_isPrev _ (labelsOf_nodup y) preds hne fun a ha => (mem_labelsOf y a).2 (hp a ha)
  refine ⟨fun i => rnd_nonneg h (hf.1 i), ?_⟩
  have : ∑ i, ccA A (labelsOf y) preds i - 1 = ∑ i, (ccA A (labelsOf y) preds i - freqs (labelsOf y) preds i) := by
    rw [Finset.sum_sub_distrib, hf.2]
  rw [this]
  calc |∑ i, (ccA A (labelsOf y) preds i - freqs (labelsOf y) preds i)| ≤ ∑ i, |ccA A (labelsOf y) preds i - freqs (labelsOf y) preds i| := Finset.abs_sum_le_sum_abs _ _
    _ ≤ ∑ i, u * freqs (labelsOf y) preds i := Finset.sum_le_sum fun i _ => by
        have := h.rnd (freqs (labelsOf y) preds i)
        rwa [abs_of_nonneg (hf.1 i)] at this
    _ = u := by rw [← Finset.mul_sum, hf.2, mul_one]

/-- The computed mean of rows whose entries are nonnegative and add up to about 1. -/
theorem meansA_valid (h : A.Ok u) (rows : List (Fin k → ℝ)) (hne : rows ≠ []) {lo hi : ℝ} (h0 : ∀ r ∈ rows, ∀ j, 0 ≤ r j) (h1 : ∀ r ∈ rows, lo ≤ ∑ j, r j ∧ ∑ j, r j ≤ hi) :
    (∀ j, 0 ≤ meansA A rows j) ∧ (1 - u) ^ (rows.length + 1) * lo ≤ ∑ j, meansA A rows j ∧ ∑ j, meansA A rows j ≤ (1 + u) ^ (rows.length + 1) * hi := by
  have hu := h.nonneg
  have hu1 := h.lt_one
  have hlen : (0:ℝ) < rows.length := by exact_mod_cast List.length_pos_iff.2 hne
  have hcol : ∀ j, ∀ x ∈ rows.map (fun r => r j), 0 ≤ x := by
    intro j x hx
    obtain ⟨r, hr, rfl⟩ := List.mem_map.1 hx
    exact h0 r hr j
  have hb := fun j => sum_bounds h (hcol j)
  simp only [List.length_map] at hb
  have hq : ∀ j, 0 ≤ A.sum (rows.map fun r => r j) / (rows.length : ℝ) := fun j => div_nonneg (sum_nonneg h (hcol j)) hlen.le
  have htot : ∑ j, (rows.map fun r => r j).sum = (rows.map fun r => ∑ j, r j).sum := sum_list_comm rows fun r => r
  have hlo : rows.length * lo ≤ (rows.map fun r => ∑ j, r j).sum := by
    have := List.card_nsmul_le_sum (rows.map fun r => ∑ j, r j) lo fun x hx => by
      obtain ⟨r, hr, rfl⟩ := List.mem_map.1 hx
      exact (h1 r hr).1
    simpa using this
  have hhi : (rows.map fun r => ∑ j, r j).sum ≤ rows.length * hi := by
    have := List.sum_le_card_nsmul (rows.map fun r => ∑ j, r j) hi fun x hx => by
      obtain ⟨r, hr, rfl⟩ := List.mem_map.1 hx
      exact (h1 r hr).2
    simpa using this
  refine ⟨fun j => rnd_nonneg h (hq j), ?_, ?_⟩
  · calc (1 - u) ^ (rows.length + 1) * lo = (1 - u) * (((1 - u) ^ rows.length * (rows.length * lo)) / rows.length) := by field_simp; ring
      _ ≤ (1 - u) * (((1 - u) ^ rows.length * ∑ j, (rows.map fun r => r j).sum) / rows.length) := by
          rw [htot]
          have : 0 ≤ 1 - u := by linarith
          gcongr
      _ = ∑ j, (1 - u) * ((1 - u) ^ rows.length * (rows.map fun r => r j).sum / rows.length) := by rw [← Finset.mul_sum, ← Finset.sum_div, ← Finset.mul_sum]
      _ ≤ ∑ j, (1 - u) * (A.sum (rows.map fun r => r j) / rows.length) := Finset.sum_le_sum fun j _ =>
          mul_le_mul_of_nonneg_left (div_le_div_of_nonneg_right (hb j).1 hlen.le) (by linarith)
      _ ≤ _ := Finset.sum_le_sum fun j _ => rnd_lower h (hq j)
  · calc ∑ j, meansA A rows j ≤ ∑ j, (1 + u) * (A.sum (rows.map fun r => r j) / rows.length) := Finset.sum_le_sum fun j _ => rnd_upper h (hq j)
      _ ≤ ∑ j, (1 + u) * ((1 + u) ^ rows.length * (rows.map fun r => r j).sum / rows.length) := Finset.sum_le_sum fun j _ =>
          mul_le_mul_of_nonneg_left (div_le_div_of_nonneg_right (hb j).2 hlen.le) (by linarith)
      _ = (1 + u) * (((1 + u) ^ rows.length * ∑ j, (rows.map fun r => r j).sum) / rows.length) := by rw [← Finset.mul_sum, ← Finset.sum_div, ← Finset.mul_sum]
      _ ≤ (1 + u) * (((1 + u) ^ rows.length * (rows.length * hi)) / rows.length) := by
          rw [htot]
          have : 0 ≤ 1 + u := by linarith
          gcongr
      _ = _ := by field_simp; ring

/-- **C145** (`PCC`): for a nonempty bag of nonnegative rows whose sums are between `lo` and `hi` (1, except for the rounding done by the classifier), the prevalences of `PCC` are nonnegative and their sum is
between `lo` and `hi` except for a factor that is a power of `1 - u` or of `1 + u`, with the size of the bag plus one as exponent. -/
theorem C145_pcc (h : A.Ok u) (rows : List (Fin k → ℝ)) (hne : rows ≠ []) {lo hi : ℝ} (h0 : ∀ r ∈ rows, ∀ j, 0 ≤ r j) (h1 : ∀ r ∈ rows, lo ≤ ∑ j, r j ∧ ∑ j, r j ≤ hi) :
    (∀ j, 0 ≤ meansA A rows j) ∧ (1 - u) ^ (rows.length + 1) * lo ≤ ∑ j, meansA A rows j ∧ ∑ j, meansA A rows j ≤ (1 + u) ^ (rows.length + 1) * hi :=
  meansA_valid h rows hne h0 h1

/-- A vector `[1 - p, p]`, with rounding, after clipping. -/
theorem pair_clip (h : A.Ok u) (p : ℝ) : (∀ i, 0 ≤ (![max 0 (min (A.rnd (1 - p)) 1), max 0 (min p 1)] : Fin 2 → ℝ) i) ∧
    0 < ∑ i, (![max 0 (min (A.rnd (1 - p)) 1), max 0 (min p 1)] : Fin 2 → ℝ) i := by
  refine ⟨fun i => by fin_cases i <;> simp, ?_⟩
  simp only [Fin.sum_univ_two, Matrix.cons_val_zero, Matrix.cons_val_one]
  rcases le_or_gt p 0 with hp | hp
  · have h1 : 0 < A.rnd (1 - p) := rnd_pos h (by linarith)
    exact add_pos_of_pos_of_nonneg (lt_max_of_lt_right (lt_min h1 one_pos)) (le_max_left _ _)
  · exact add_pos_of_nonneg_of_pos (le_max_left _ _) (lt_max_of_lt_right (lt_min hp one_pos))

/-- **C145** (`AC` and `PAC`, two classes): whatever rates were estimated, for nonnegative observed prevalences that are not all zero, the answer is nonnegative and adds up to 1 except for rounding. -/
theorem C145_ac_two_classes (h : A.Ok u) (cm : Fin 2 → Fin 2 → ℝ) (p0 : Fin 2 → ℝ) (h0 : ∀ i, 0 ≤ p0 i) (hs : 0 < ∑ i, p0 i) :
    (∀ i, 0 ≤ binaryAdjustA A cm p0 i) ∧ NearOne u 2 (binaryAdjustA A cm p0) := by
  unfold binaryAdjustA
  dsimp only
  split_ifs with hc
  · set p := A.rnd (A.rnd (p0 1 - cm 0 1) / A.rnd (cm 1 1 - cm 0 1)) with hp
    have e : (fun i => max 0 (min ((![A.rnd (1 - p), p] : Fin 2 → ℝ) i) 1)) = ![max 0 (min (A.rnd (1 - p)) 1), max 0 (min p 1)] := by
      funext i
      fin_cases i <;> rfl
    rw [e]
    exact normalizeA_valid h (pair_clip h p).1 (pair_clip h p).2
  · refine normalizeA_valid h (fun i => le_max_left _ _) ?_
    simp only [Fin.sum_univ_two] at hs ⊢
    rcases (h0 0).eq_or_lt with e | e
    · exact add_pos_of_nonneg_of_pos (le_max_left _ _) (lt_max_of_lt_right (lt_min (by linarith) one_pos))
    · exact add_pos_of_pos_of_nonneg (lt_max_of_lt_right (lt_min e one_pos)) (le_max_left _ _)

/-- **C145** (`AC` and `PAC`, three classes or more): whatever matrix `linalg.inv` returns, if some entry of the computed product is positive, the answer is nonnegative and adds up to 1 except for rounding. -/
theorem C145_ac_many_classes (h : A.Ok u) (inv : Fin n → Fin n → ℝ) (p0 : Fin n → ℝ) (hpos : ∃ i, 0 < A.sum (List.ofFn fun j => A.rnd (inv i j * p0 j))) :
    (∀ i, 0 ≤ multiAdjustA A inv p0 i) ∧ NearOne u n (multiAdjustA A inv p0) := by
  unfold multiAdjustA
  dsimp only
  set prev : Fin n → ℝ := fun i => A.sum (List.ofFn fun j => A.rnd (inv i j * p0 j)) with hprev
  have hv : ∀ i, 0 ≤ (fun i => if prev i < 0 then 0 else prev i) i := fun i => by
    dsimp only
    split_ifs with hc
    · exact le_rfl
    · exact not_lt.1 hc
  have hs : 0 < ∑ i, (fun i => if prev i < 0 then 0 else prev i) i := by
    obtain ⟨i, hi⟩ := hpos
    refine Finset.sum_pos' (fun i _ => hv i) ⟨i, Finset.mem_univ _, ?_⟩
    rw [if_neg (not_lt.2 hi.le)]
    exact hi
  obtain ⟨-, h2, -, h4⟩ := quotient_valid h hv hs
  exact ⟨h2, h4⟩

/-- **C145** (when that is so): a positive entry exists whenever the exact product adds up to more than the errors of the rounding (it adds up to 1 if `inv` is the exact inverse). -/
theorem C145_ac_many_classes_defined (h : A.Ok u) (inv : Fin n → Fin n → ℝ) (p0 : Fin n → ℝ)
    (hs : ((1 + u) ^ (n + 1) - 1) * ∑ i, ∑ j, |inv i j * p0 j| < ∑ i, ∑ j, inv i j * p0 j) : ∃ i, 0 < A.sum (List.ofFn fun j => A.rnd (inv i j * p0 j)) := by
  by_contra hcon
  push Not at hcon
  have hu := h.nonneg
  have hp : 1 ≤ (1 + u) ^ n := one_le_pow₀ (by linarith)
  have key : ∀ i, ∑ j, inv i j * p0 j - ((1 + u) ^ (n + 1) - 1) * ∑ j, |inv i j * p0 j| ≤ A.sum (List.ofFn fun j => A.rnd (inv i j * p0 j)) := by
    intro i
    have e1 := (abs_le.1 (sum_error h (List.ofFn fun j => A.rnd (inv i j * p0 j)))).1
    rw [List.length_ofFn, List.sum_ofFn, List.map_ofFn, List.sum_ofFn] at e1
    simp only [Function.comp_apply] at e1
    have e2 : ∑ j, |A.rnd (inv i j * p0 j)| ≤ (1 + u) * ∑ j, |inv i j * p0 j| := by
      rw [Finset.mul_sum]
      refine Finset.sum_le_sum fun j _ => ?_
      have := h.rnd (inv i j * p0 j)
      have h3 := abs_add_le (A.rnd (inv i j * p0 j) - inv i j * p0 j) (inv i j * p0 j)
      rw [sub_add_cancel] at h3
      linarith
    have e3 : ∑ j, inv i j * p0 j - u * ∑ j, |inv i j * p0 j| ≤ ∑ j, A.rnd (inv i j * p0 j) := by
      rw [Finset.mul_sum, ← Finset.sum_sub_distrib]
      refine Finset.sum_le_sum fun j _ => ?_
      have := (abs_le.1 (h.rnd (inv i j * p0 j))).1
      linarith
    have e4 := mul_le_mul_of_nonneg_left e2 (show 0 ≤ (1 + u) ^ n - 1 by linarith)
    rw [pow_succ]
    linarith
  have := Finset.sum_le_sum (s := Finset.univ) fun i _ => (key i).trans (hcon i)
  rw [Finset.sum_sub_distrib, ← Finset.mul_sum, Finset.sum_const_zero] at this
  linarith

/-- **C145** (`OneVsRestQuantifier`): if the prevalences of the classes are nonnegative and not all zero, the answer is nonnegative and adds up to 1 except for rounding. -/
theorem C145_one_vs_rest (h : A.Ok u) (v : Fin n → ℝ) (hv : ∀ i, 0 ≤ v i) (hs : 0 < ∑ i, v i) : (∀ i, 0 ≤ normalizeA A v i) ∧ NearOne u n (normalizeA A v) :=
  normalizeA_valid h hv hs

/-- **C145** (`DeBias`): whatever predictions are given, if the relative variance computed by `fit` is not zero, the answer is nonnegative and adds up to 1 except for rounding. -/
theorem C145_debias (h : A.Ok u) (tp : Fin 2 → ℝ) (train preds : List (Fin 2 → ℝ)) (_hv : deBiasVarA A tp train ≠ 0) (_hne : preds ≠ []) :
    (∀ i, 0 ≤ deBiasA A tp (deBiasVarA A tp train) preds i) ∧ NearOne u 2 (deBiasA A tp (deBiasVarA A tp train) preds) :=
  normalizeA_valid h (pair_clip h _).1 (pair_clip h _).2

/-! ## EM -/

/-- The examples of a bag remain explained by the prevalences: some class with positive prevalence has positive posterior. -/
def Supported (rows : List (Fin k → ℝ)) (p : Fin k → ℝ) : Prop := (∀ c, 0 ≤ p c) ∧ ∀ r ∈ rows, ∃ c, 0 < r c ∧ 0 < p c

theorem emPosteriorA_valid (h : A.Ok u) {ptr p r : Fin k → ℝ} (hptr : ∀ c, 0 < ptr c) (hr : ∀ c, 0 ≤ r c) (hp : ∀ c, 0 ≤ p c) (he : ∃ c, 0 < r c ∧ 0 < p c) :
    (∀ c, 0 ≤ emPosteriorA A ptr p r c) ∧ (∀ c, 0 < r c → 0 < p c → 0 < emPosteriorA A ptr p r c) ∧ NearOne u k (emPosteriorA A ptr p r) := by
  set v : Fin k → ℝ := fun c => A.rnd (r c * A.rnd (p c / ptr c)) with hvdef
  have hv : ∀ c, 0 ≤ v c := fun c => rnd_nonneg h (mul_nonneg (hr c) (rnd_nonneg h (div_nonneg (hp c) (hptr c).le)))
  have hvp : ∀ c, 0 < r c → 0 < p c → 0 < v c := fun c h1 h2 => rnd_pos h (mul_pos h1 (rnd_pos h (div_pos h2 (hptr c))))
  have hs : 0 < ∑ c, v c := by
    obtain ⟨c, h1, h2⟩ := he
    exact Finset.sum_pos' (fun c _ => hv c) ⟨c, Finset.mem_univ _, hvp c h1 h2⟩
  obtain ⟨-, h2, h3, h4⟩ := quotient_valid h hv hs
  exact ⟨h2, fun c h1 h5 => h3 c (hvp c h1 h5), h4⟩

theorem emStepA_valid (h : A.Ok u) {ptr p : Fin k → ℝ} {rows : List (Fin k → ℝ)} (hne : rows ≠ []) (hptr : ∀ c, 0 < ptr c) (hr : ∀ r ∈ rows, ∀ c, 0 ≤ r c) (hp : Supported rows p) :
    Supported rows (emStepA A ptr rows p) ∧ (1 - u) ^ (rows.length + 1) * ((1 - u) / (1 + u) ^ k) ≤ ∑ c, emStepA A ptr rows p c
      ∧ ∑ c, emStepA A ptr rows p c ≤ (1 + u) ^ (rows.length + 1) * ((1 + u) / (1 - u) ^ k) := by
  have hpost := fun r (hrr : r ∈ rows) => emPosteriorA_valid h hptr (hr r hrr) hp.1 (hp.2 r hrr)
  have hlen : (0:ℝ) < rows.length := by exact_mod_cast List.length_pos_iff.2 hne
  obtain ⟨m1, m2, m3⟩ := meansA_valid h (rows.map (emPosteriorA A ptr p)) (by simpa using hne) (lo := (1 - u) / (1 + u) ^ k) (hi := (1 + u) / (1 - u) ^ k)
    (fun r hr' => by
      obtain ⟨x, hx, rfl⟩ := List.mem_map.1 hr'
      exact (hpost x hx).1)
    (fun r hr' => by
      obtain ⟨x, hx, rfl⟩ := List.mem_map.1 hr'
      exact (hpost x hx).2.2)
  rw [List.length_map] at m2 m3
  refine ⟨⟨m1, fun r hrr => ?_⟩, m2, m3⟩
  obtain ⟨c, h1, h2⟩ := hp.2 r hrr
  refine ⟨c, h1, rnd_pos h (div_pos (sum_pos h ?_ ?_) (by simpa using hlen))⟩
  · intro x hx
    simp only [List.map_map, List.mem_map, Function.comp_apply] at hx
    obtain ⟨z, hz, rfl⟩ := hx
    exact (hpost z hz).1 c
  · have hmem : emPosteriorA A ptr p r c ∈ (rows.map (emPosteriorA A ptr p)).map fun r => r c := List.mem_map_of_mem (List.mem_map_of_mem hrr)
    refine lt_of_lt_of_le ((hpost r hrr).2.1 c h1 h2) (List.single_le_sum (fun x hx => ?_) _ hmem)
    simp only [List.map_map, List.mem_map, Function.comp_apply] at hx
    obtain ⟨z, hz, rfl⟩ := hx
    exact (hpost z hz).1 c

theorem emLoopA_valid (h : A.Ok u) {ptr : Fin k → ℝ} {rows : List (Fin k → ℝ)} (hne : rows ≠ []) (hptr : ∀ c, 0 < ptr c) (hr : ∀ r ∈ rows, ∀ c, 0 ≤ r c) (eps : ℝ) (m : ℕ) (p q : Fin k → ℝ) (t : ℕ)
    (hp : Supported rows p) (hst : t = 0 ∧ 0 < m ∨ (1 - u) ^ (rows.length + 1) * ((1 - u) / (1 + u) ^ k) ≤ ∑ c, p c ∧ ∑ c, p c ≤ (1 + u) ^ (rows.length + 1) * ((1 + u) / (1 - u) ^ k)) :
    (∀ c, 0 ≤ emLoopA A ptr rows eps m p q t c) ∧ (1 - u) ^ (rows.length + 1) * ((1 - u) / (1 + u) ^ k) ≤ ∑ c, emLoopA A ptr rows eps m p q t c
      ∧ ∑ c, emLoopA A ptr rows eps m p q t c ≤ (1 + u) ^ (rows.length + 1) * ((1 + u) / (1 - u) ^ k) := by
  induction m generalizing p q t with
  | zero =>
    unfold emLoopA
    rcases hst with ⟨-, h0⟩ | hst
    · exact absurd h0 (lt_irrefl _)
    · exact ⟨hp.1, hst⟩
  | succ m ih =>
    unfold emLoopA
    split_ifs with hc
    · obtain ⟨s1, s2⟩ := emStepA_valid h hne hptr hr hp
      exact ih _ _ _ s1 (Or.inr s2)
    · rcases hst with ⟨h0, -⟩ | hst
      · push Not at hc
        omega
      · exact ⟨hp.1, hst⟩

/-- **C145** (`EM`): for every nonempty list of training labels, every nonempty bag of nonnegative rows none of which is zero, every tolerance and every positive number of iterations, the answer is nonnegative and
adds up to 1 except for rounding. No division by zero occurs, and the errors do not accumulate with the iterations. -/
theorem C145_em [LinearOrder α] (h : A.Ok u) (y : List α) (hy : y ≠ []) (rows : List (Fin (labelsOf y).length → ℝ)) (hne : rows ≠ []) (hr : ∀ r ∈ rows, ∀ c, 0 ≤ r c) (hz : ∀ r ∈ rows, ∃ c, 0 < r c)
    (eps : ℝ) (maxIter : ℕ) (hm : 0 < maxIter) :
    (∀ c, 0 ≤ emA A (labelsOf y) y rows eps maxIter c)
      ∧ (1 - u) ^ (rows.length + 1) * ((1 - u) / (1 + u) ^ (labelsOf y).length) ≤ ∑ c, emA A (labelsOf y) y rows eps maxIter c
      ∧ ∑ c, emA A (labelsOf y) y rows eps maxIter c ≤ (1 + u) ^ (rows.length + 1) * ((1 + u) / (1 - u) ^ (labelsOf y).length) := by
  have hpos : ∀ c, 0 < ccA A (labelsOf y) y c := fun c => rnd_pos h ((emFit_eq y hy).2.2 c)
  refine emLoopA_valid h hne hpos hr eps maxIter _ _ 0 ⟨fun c => (hpos c).le, fun r hrr => ?_⟩ (Or.inl ⟨rfl, hm⟩)
  obtain ⟨c, hc⟩ := hz r hrr
  exact ⟨c, hc, hpos c⟩

/-! ## Ordinal decomposition -/

theorem raiseAll_mem (l : List ℝ) : ∀ v ∈ raiseAll l, v ∈ l := by
  intro v hv
  obtain ⟨i, hi⟩ := List.mem_iff_getElem?.1 hv
  obtain ⟨j, -, hj⟩ := (raiseAll_greatest l i v hi).1
  exact List.mem_of_getElem? hj

theorem lowerAll_mem (l : List ℝ) : ∀ v ∈ lowerAll l, v ∈ l := by
  intro v hv
  obtain ⟨i, hi⟩ := List.mem_iff_getElem?.1 hv
  obtain ⟨j, -, hj⟩ := (lowerAll_least l i v hi).1
  exact List.mem_of_getElem? hj

theorem correctAscA_bounds (h : A.Ok u) (l : List ℝ) (hl : ∀ v ∈ l, 0 ≤ v ∧ v ≤ 1) : (correctAscA A l).length = l.length ∧ ∀ v ∈ correctAscA A l, 0 ≤ v ∧ v ≤ (1 + u) ^ 2 := by
  have hu := h.nonneg
  unfold correctAscA
  split_ifs with hc
  · exact ⟨rfl, fun v hv => ⟨(hl v hv).1, (hl v hv).2.trans (one_le_pow₀ (by linarith))⟩⟩
  · refine ⟨by rw [List.length_zipWith, raiseAll_length, lowerAll_length, min_self], fun v hv => ?_⟩
    obtain ⟨i, hi⟩ := List.mem_iff_getElem?.1 hv
    rw [List.getElem?_zipWith_eq_some] at hi
    obtain ⟨a, b, ha, hb, rfl⟩ := hi
    have ha' := hl a (raiseAll_mem l a (List.mem_of_getElem? ha))
    have hb' := hl b (lowerAll_mem l b (List.mem_of_getElem? hb))
    have s0 : 0 ≤ a + b := by linarith
    have s1 := rnd_nonneg h s0
    have s2 := rnd_upper h s0
    refine ⟨rnd_nonneg h (by linarith), (rnd_upper h (by linarith)).trans ?_⟩
    nlinarith

/-- The loop keeps the prevalences nonnegative and their exact sum bounded. -/
theorem fhqLoopA_bounds (h : A.Ok u) {B : ℝ} (hB : 0 ≤ B) (N : ℕ) (done rest : List ℝ) (hd : done ≠ []) (hlen : done.length + rest.length ≤ N) (h0 : ∀ v ∈ done, 0 ≤ v) (hr : ∀ v ∈ rest, v ≤ B)
    (hs : done.sum ≤ B / (1 - u) ^ N) :
    ∃ more, fhqLoopA A done rest = done ++ more ∧ more.length = rest.length ∧ (∀ v ∈ more, 0 ≤ v ∧ v ≤ 1) ∧ (fhqLoopA A done rest).sum ≤ B / (1 - u) ^ N := by
  have hu := h.nonneg
  have hu1 := h.lt_one
  have hpN : 0 < (1 - u) ^ N := pow_pos (by linarith) _
  induction rest generalizing done with
  | nil => exact ⟨[], by simp [fhqLoopA], rfl, by simp, by simpa [fhqLoopA] using hs⟩
  | cons l rest ih =>
    unfold fhqLoopA
    set x := max 0 (min (A.rnd (l - A.sum done)) 1) with hx
    have hx0 : 0 ≤ x := le_max_left _ _
    have hx1 : x ≤ 1 := max_le zero_le_one (min_le_right _ _)
    have hS := List.sum_nonneg h0
    have hlow : (1 - u) ^ N * done.sum ≤ A.sum done :=
      le_trans (mul_le_mul_of_nonneg_right (pow_le_pow_of_le_one (by linarith) (by linarith) (by simp at hlen; omega)) hS) (sum_bounds h h0).1
    have hsum : (done ++ [x]).sum ≤ B / (1 - u) ^ N := by
      rw [List.sum_append, List.sum_singleton]
      rcases le_or_gt (l - A.sum done) 0 with hle | hgt
      · have : x = 0 := by rw [hx, max_eq_left]; exact (min_le_left _ _).trans (rnd_nonpos h hle)
        linarith
      · have hxle : x ≤ (1 + u) * (l - A.sum done) := max_le (mul_nonneg (by linarith) hgt.le) ((min_le_left _ _).trans (rnd_upper h hgt.le))
        have hlB := hr l (by simp)
        have h1 : x ≤ (1 + u) * (B - (1 - u) ^ N * done.sum) := hxle.trans (mul_le_mul_of_nonneg_left (by linarith) (by linarith))
        have hc : 0 ≤ 1 - (1 + u) * (1 - u) ^ N := by
          have hN : 1 ≤ N := by
            have := List.length_pos_iff.2 hd
            omega
          have : (1 - u) ^ N ≤ (1 - u) ^ 1 := pow_le_pow_of_le_one (by linarith) (by linarith) hN
          rw [pow_one] at this
          nlinarith
        have h2 := mul_le_mul_of_nonneg_left hs hc
        have h3 : (1 - (1 + u) * (1 - u) ^ N) * (B / (1 - u) ^ N) = B / (1 - u) ^ N - (1 + u) * B := by field_simp
        nlinarith
    obtain ⟨more, e1, e2, e3, e4⟩ := ih (done ++ [x]) (by simp) (by simp at hlen ⊢; omega) (fun v hv => by
      rcases List.mem_append.1 hv with hv | hv
      · exact h0 v hv
      · rw [List.mem_singleton.1 hv]; exact hx0) (fun v hv => hr v (List.mem_cons_of_mem _ hv)) hsum
    refine ⟨x :: more, by rw [e1]; simp, by simp [e2], fun v hv => ?_, e4⟩
    rcases List.mem_cons.1 hv with rfl | hv
    · exact ⟨hx0, hx1⟩
    · exact e3 v hv

/-- **C145** (`FrankAndHallQuantifier`): for prevalences of the left groups in [0,1], all prevalences but the last are nonnegative and the last is 1 minus their computed sum. The last one may be negative
(`C145_frankhall_refuted`), but not by more than the rounding errors. -/
theorem C145_frankhall_partial (h : A.Ok u) (l : List ℝ) (hne : l ≠ []) (hl : ∀ v ∈ l, 0 ≤ v ∧ v ≤ 1) :
    ∃ p last, fhqA A l = p ++ [last] ∧ p.length = l.length ∧ (∀ v ∈ p, 0 ≤ v) ∧ -((1 + u) * ((1 + u) ^ 2 * ((1 + u) / (1 - u)) ^ l.length - 1)) ≤ last := by
  have hu := h.nonneg
  have hu1 := h.lt_one
  obtain ⟨c1, c2⟩ := correctAscA_bounds h l hl
  unfold fhqA
  cases hc : correctAscA A l with
  | nil =>
    rw [hc] at c1
    exact absurd (List.length_eq_zero_iff.1 c1.symm) hne
  | cons x rest =>
    rw [hc] at c1 c2
    have hpN : 0 < (1 - u) ^ l.length := pow_pos (by linarith) _
    have hpN1 : (1 - u) ^ l.length ≤ 1 := pow_le_one₀ (by linarith) (by linarith)
    have hx := c2 x (by simp)
    obtain ⟨more, e1, e2, e3, e4⟩ := fhqLoopA_bounds h (B := (1 + u) ^ 2) (by positivity) l.length [x] rest (by simp) (by simp at c1 ⊢; omega) (by simpa using hx.1)
      (fun v hv => (c2 v (List.mem_cons_of_mem _ hv)).2) (by
        rw [List.sum_singleton, le_div_iff₀ hpN]
        nlinarith [hx.1, hx.2])
    have hnn : ∀ v ∈ fhqLoopA A [x] rest, 0 ≤ v := by
      rw [e1]
      intro v hv
      rcases List.mem_append.1 hv with hv | hv
      · rw [List.mem_singleton.1 hv]; exact hx.1
      · exact (e3 v hv).1
    have hlen : (fhqLoopA A [x] rest).length = l.length := by
      rw [e1, ← c1]
      simp [e2]
    refine ⟨fhqLoopA A [x] rest, A.rnd (1 - A.sum (fhqLoopA A [x] rest)), rfl, hlen, hnn, ?_⟩
    have hup := (sum_bounds h hnn).2
    rw [hlen] at hup
    have hup2 : A.sum (fhqLoopA A [x] rest) ≤ (1 + u) ^ 2 * ((1 + u) / (1 - u)) ^ l.length := by
      refine hup.trans ((mul_le_mul_of_nonneg_left e4 (by positivity)).trans (le_of_eq ?_))
      rw [div_pow]
      ring
    have hge : 1 ≤ (1 + u) ^ 2 * ((1 + u) / (1 - u)) ^ l.length := by
      have a1 : 1 ≤ (1 + u) ^ 2 := one_le_pow₀ (by linarith)
      have a2 : 1 ≤ ((1 + u) / (1 - u)) ^ l.length := one_le_pow₀ (by rw [le_div_iff₀ (by linarith)]; linarith)
      nlinarith
    rcases le_or_gt 0 (1 - A.sum (fhqLoopA A [x] rest)) with hp | hn
    · refine le_trans ?_ (rnd_nonneg h hp)
      have := mul_nonneg (show 0 ≤ 1 + u by linarith) (sub_nonneg.2 hge)
      linarith
    · have := (abs_le.1 (h.rnd (1 - A.sum (fhqLoopA A [x] rest)))).1
      rw [abs_of_neg hn] at this
      have h5 := mul_le_mul_of_nonneg_left hup2 (show 0 ≤ 1 + u by linarith)
      linarith

end Verif.Props
