import Verif.Props.Rounding
import Verif.Props.AC
import Verif.Props.DeBias
import Verif.Props.Double

/-!
# C146: the answers in rounded arithmetic tend to the exact ones
-/

namespace Verif.Props

open Verif.Model Verif.Spec Verif.Proof Filter Topology

variable {α : Type*} {k n : ℕ} {A : ℕ → Arith} {u : ℕ → ℝ}

theorem tendsto_clip {f : ℕ → ℝ} {a : ℝ} (h : Tendsto f atTop (𝓝 a)) : Tendsto (fun m => max 0 (min (f m) 1)) atTop (𝓝 (max 0 (min a 1))) :=
  tendsto_const_nhds.max (h.min tendsto_const_nhds)

theorem tendsto_normalizeA (hA : ∀ m, (A m).Ok (u m)) (hu : Tendsto u atTop (𝓝 0)) {v : ℕ → Fin n → ℝ} {a : Fin n → ℝ} (hv : ∀ i, Tendsto (fun m => v m i) atTop (𝓝 (a i))) (hs : 0 < ∑ i, a i) (i : Fin n) :
    Tendsto (fun m => normalizeA (A m) (v m) i) atTop (𝓝 (a i / ∑ i, a i)) := by
  have hsum := tendsto_ofFn_sum hA hu hv
  have hev : ∀ᶠ m in atTop, 0 < (A m).sum (List.ofFn (v m)) := hsum.eventually_const_lt hs
  refine (tendsto_rnd hA hu ((hv i).div hsum hs.ne')).congr' ?_
  filter_upwards [hev] with m hm
  unfold normalizeA
  rw [if_pos hm]
  rfl

theorem tendsto_meansA (hA : ∀ m, (A m).Ok (u m)) (hu : Tendsto u atTop (𝓝 0)) {β : Type*} (l : List β) {g : ℕ → β → Fin k → ℝ} {a : β → Fin k → ℝ}
    (hne : l ≠ []) (hg : ∀ b ∈ l, ∀ j, Tendsto (fun m => g m b j) atTop (𝓝 (a b j))) (j : Fin k) :
    Tendsto (fun m => meansA (A m) (l.map (g m)) j) atTop (𝓝 ((l.map fun b => a b j).sum / (l.length : ℝ))) := by
  have hl : (l.length : ℝ) ≠ 0 := by simpa using hne
  unfold meansA
  simp only [List.map_map, List.length_map]
  exact tendsto_rnd hA hu ((tendsto_sum hA hu l (g := fun m b => g m b j) (a := fun b => a b j) fun b hb => hg b hb j).div_const _)

/-- **C146** (`CC`): as the precision of the arithmetic grows, the computed prevalences tend to the answer of the exact model. -/
theorem C146_cc [LinearOrder α] (hA : ∀ m, (A m).Ok (u m)) (hu : Tendsto u atTop (𝓝 0)) (y preds : List α) (hne : preds ≠ []) :
    ∃ v : Fin (labelsOf y).length → ℝ, classFreqs (labelsOf y) preds = (fun i => Fl.fin (v i)) ∧ ∀ i, Tendsto (fun m => ccA (A m) (labelsOf y) preds i) atTop (𝓝 (v i)) :=
  ⟨freqs (labelsOf y) preds, classFreqs_eq _ _ hne, fun _ => tendsto_rnd hA hu tendsto_const_nhds⟩

/-- **C146** (`PCC`). -/
theorem C146_pcc (hA : ∀ m, (A m).Ok (u m)) (hu : Tendsto u atTop (𝓝 0)) (rows : List (Fin k → ℝ)) (hne : rows ≠ []) :
    ∃ v : Fin k → ℝ, colMeans rows = (fun j => Fl.fin (v j)) ∧ ∀ j, Tendsto (fun m => meansA (A m) rows j) atTop (𝓝 (v j)) := by
  refine ⟨_, colMeans_eq rows hne, fun j => ?_⟩
  have := tendsto_meansA hA hu rows (g := fun _ r => r) (a := fun r => r) hne (fun b _ j => tendsto_const_nhds) j
  simpa [meanOf] using this

/-- **C146** (the rates estimated by `AC.fit`). -/
theorem C146_ac_rates [LinearOrder α] (hA : ∀ m, (A m).Ok (u m)) (hu : Tendsto u atTop (𝓝 0)) (y : List α) (r : ℕ) (hr : 0 < r) (preds : List α) (hlen : preds.length = r * y.length) (hk : ∀ a ∈ preds, a ∈ y) :
    ∃ v : Fin (labelsOf y).length → Fin (labelsOf y).length → ℝ,
      (normalizeRows fun i j : Fin (labelsOf y).length => ((stacked y r).zip preds).count ((labelsOf y)[i], (labelsOf y)[j])) = (fun i j => Fl.fin (v i j))
      ∧ ∀ i j, Tendsto (fun m => acRatesA (A m) (labelsOf y) (stacked y r) preds i j) atTop (𝓝 (v i j)) := by
  refine ⟨_, normalizeRows_eq y r hr preds hlen hk, fun i j => ?_⟩
  have e : cmReal y r preds i j = (((stacked y r).zip preds).count ((labelsOf y)[i], (labelsOf y)[j]) : ℝ)
      / ((∑ l : Fin (labelsOf y).length, ((stacked y r).zip preds).count ((labelsOf y)[i], (labelsOf y)[l]) : ℕ) : ℝ) := by
    have h1 := congrFun (congrFun (normalizeRows_eq y r hr preds hlen hk) i) j
    simp only [normalizeRows] at h1
    rw [Fl.fin_div _ (by rw [row_total y r preds hlen hk i]; exact_mod_cast (stacked_count_pos y r hr i).ne')] at h1
    injection h1 with h1
    exact h1.symm
  rw [e]
  exact tendsto_rnd hA hu tendsto_const_nhds

/-- **C146** (the mean predictions estimated by `PAC.fit`). -/
theorem C146_pac_rates [LinearOrder α] (hA : ∀ m, (A m).Ok (u m)) (hu : Tendsto u atTop (𝓝 0)) (y : List α) (rows : List (Fin k → ℝ)) (hlen : y.length = rows.length) (i : Fin (labelsOf y).length) :
    ∃ v : Fin k → ℝ, colMeans (rowsOf y rows (labelsOf y)[i]) = (fun j => Fl.fin (v j)) ∧ ∀ j, Tendsto (fun m => pacRatesA (A m) (labelsOf y) y rows i j) atTop (𝓝 (v j)) := by
  refine C146_pcc hA hu _ ?_
  have hmem : (labelsOf y)[i] ∈ y := (mem_labelsOf y _).1 (List.getElem_mem i.2)
  obtain ⟨j, hj, hji⟩ := List.getElem_of_mem hmem
  intro h0
  have : rows[j]'(by omega) ∈ rowsOf y rows (labelsOf y)[i] := by
    unfold rowsOf
    refine List.mem_map.2 ⟨(y[j], rows[j]'(by omega)), List.mem_filter.2 ⟨?_, by simpa using hji⟩, rfl⟩
    rw [List.mem_iff_getElem]
    exact ⟨j, by rw [List.length_zip]; omega, by simp⟩
  rw [h0] at this
  exact absurd this (List.not_mem_nil)

/-- **C146** (`AC` and `PAC`, two classes): if the computed rates and observed prevalences tend to exact ones whose difference of rates is not exactly the threshold 0.001, the computed answer tends to the exact one. -/
theorem C146_ac_two_classes (hA : ∀ m, (A m).Ok (u m)) (hu : Tendsto u atTop (𝓝 0)) (cmA : ℕ → Fin 2 → Fin 2 → ℝ) (cm : Fin 2 → Fin 2 → ℝ) (hcm : ∀ i j, Tendsto (fun m => cmA m i j) atTop (𝓝 (cm i j)))
    (pA : ℕ → Fin 2 → ℝ) (p0 : Fin 2 → ℝ) (hp : ∀ i, Tendsto (fun m => pA m i) atTop (𝓝 (p0 i))) (hv : IsPrev p0) (hedge : |cm 1 1 - cm 0 1| ≠ 1/1000) :
    ∃ v : Fin 2 → ℝ, binaryAdjust (fun i j => Fl.fin (cm i j)) (fun i => Fl.fin (p0 i)) = (fun i => Fl.fin (v i))
      ∧ ∀ i, Tendsto (fun m => binaryAdjustA (A m) (cmA m) (pA m) i) atTop (𝓝 (v i)) := by
  have hd : Tendsto (fun m => (A m).rnd (cmA m 1 1 - cmA m 0 1)) atTop (𝓝 (cm 1 1 - cm 0 1)) := tendsto_rnd hA hu ((hcm 1 1).sub (hcm 0 1))
  have ht : Tendsto (fun m => (A m).rnd (1/1000)) atTop (𝓝 (1/1000)) := tendsto_rnd hA hu tendsto_const_nhds
  rcases lt_or_gt_of_ne hedge with hlt | hgt
  · refine ⟨p0, ?_, fun i => ?_⟩
    · refine binaryAdjust_unadjusted _ p0 hv ?_
      rw [Fl.fin_sub, Fl.abs_fin, Fl.fin_lt_fin]
      exact not_lt.2 hlt.le
    · have hclip : ∀ i, max 0 (min (p0 i) 1) = p0 i := fun i => by rw [min_eq_left (hv.le_one i), max_eq_right (hv.1 i)]
      have := tendsto_normalizeA hA hu (fun i => tendsto_clip (hp i)) (by simp only [hclip, hv.2]; exact one_pos) i
      simp only [hclip, hv.2, div_one] at this
      refine this.congr' ?_
      filter_upwards [hd.abs.eventually_lt ht hlt] with m hm
      unfold binaryAdjustA
      dsimp only
      rw [if_neg (not_lt.2 hm.le)]
  · set p := (p0 1 - cm 0 1) / (cm 1 1 - cm 0 1) with hpdef
    have hne : cm 1 1 - cm 0 1 ≠ 0 := by
      intro h0
      rw [h0, abs_zero] at hgt
      norm_num at hgt
    refine ⟨![1 - max 0 (min p 1), max 0 (min p 1)], ?_, fun i => ?_⟩
    · rw [binaryAdjust_adjusted _ _ (cm 1 1) (cm 0 1) (p0 1) rfl rfl rfl hgt]
      funext i
      fin_cases i <;> rfl
    · have hpm : Tendsto (fun m => (A m).rnd ((A m).rnd (pA m 1 - cmA m 0 1) / (A m).rnd (cmA m 1 1 - cmA m 0 1))) atTop (𝓝 p) :=
        tendsto_rnd hA hu ((tendsto_rnd hA hu ((hp 1).sub (hcm 0 1))).div hd hne)
      have hadd := Proof.clip_add_clip p
      have hvec : ∀ i, Tendsto (fun m => (![(A m).rnd (1 - (A m).rnd ((A m).rnd (pA m 1 - cmA m 0 1) / (A m).rnd (cmA m 1 1 - cmA m 0 1))),
          (A m).rnd ((A m).rnd (pA m 1 - cmA m 0 1) / (A m).rnd (cmA m 1 1 - cmA m 0 1))] : Fin 2 → ℝ) i) atTop (𝓝 ((![1 - p, p] : Fin 2 → ℝ) i)) := by
        intro i
        fin_cases i
        · exact tendsto_rnd hA hu (tendsto_const_nhds.sub hpm)
        · exact hpm
      have hsum : ∑ i, max 0 (min ((![1 - p, p] : Fin 2 → ℝ) i) 1) = 1 := by
        simpa [Fin.sum_univ_two] using hadd
      have := tendsto_normalizeA hA hu (fun i => tendsto_clip (hvec i)) (by rw [hsum]; exact one_pos) i
      rw [hsum, div_one] at this
      have e : max 0 (min ((![1 - p, p] : Fin 2 → ℝ) i) 1) = (![1 - max 0 (min p 1), max 0 (min p 1)] : Fin 2 → ℝ) i := by
        fin_cases i
        · show max 0 (min (1 - p) 1) = 1 - max 0 (min p 1)
          linarith
        · rfl
      rw [e] at this
      refine this.congr' ?_
      filter_upwards [ht.eventually_lt hd.abs hgt] with m hm
      unfold binaryAdjustA
      dsimp only
      rw [if_pos hm]

/-- **C146** (`AC` and `PAC`, three classes or more): if the matrices that `linalg.inv` returns tend to the exact inverse, the computed answer tends to the exact one. -/
theorem C146_ac_many_classes (hA : ∀ m, (A m).Ok (u m)) (hu : Tendsto u atTop (𝓝 0)) (sol : Solvers) (dist : Dist) (M : Matrix (Fin n) (Fin n) ℝ) (hM : M.det ≠ 0)
    (inv : ℕ → Fin n → Fin n → ℝ) (hinv : ∀ i j, Tendsto (fun m => inv m i j) atTop (𝓝 ((M.transpose)⁻¹ i j))) (pA : ℕ → Fin n → ℝ) (p0 : Fin n → ℝ) (hp : ∀ i, Tendsto (fun m => pA m i) atTop (𝓝 (p0 i)))
    (hrows : ∀ i, ∑ j, M i j = 1) (hsum : ∑ i, p0 i = 1) :
    ∃ v : Fin n → ℝ, multiAdjust sol dist (fun i j => Fl.fin (M i j)) (fun i => Fl.fin (p0 i)) = .ok (fun i => Fl.fin (v i))
      ∧ ∀ i, Tendsto (fun m => multiAdjustA (A m) (inv m) (pA m) i) atTop (𝓝 (v i)) := by
  have hadj : ∑ i, adjX M p0 i = 1 := by
    have h1 : (M.transpose).mulVec (adjX M p0) = p0 := by
      have : adjX M p0 = (M.transpose)⁻¹.mulVec p0 := by
        funext i
        rfl
      rw [this, Matrix.mulVec_mulVec, Matrix.mul_nonsing_inv _ (by rw [Matrix.det_transpose]; exact isUnit_iff_ne_zero.2 hM), Matrix.one_mulVec]
    have h2 : ∑ j, (M.transpose).mulVec (adjX M p0) j = ∑ i, adjX M p0 i := by
      simp only [Matrix.mulVec, dotProduct, Matrix.transpose_apply]
      rw [Finset.sum_comm]
      refine Finset.sum_congr rfl fun i _ => ?_
      rw [← Finset.sum_mul, hrows, one_mul]
    rw [← h2, h1, hsum]
  have hposs : 0 < ∑ i, max 0 (adjX M p0 i) := lt_of_lt_of_le (by rw [hadj]; exact one_pos) (Finset.sum_le_sum fun i _ => le_max_right 0 (adjX M p0 i))
  refine ⟨_, multiAdjust_fin sol dist M hM p0 hposs.ne', fun i => ?_⟩
  have hprev : ∀ i, Tendsto (fun m => (A m).sum (List.ofFn fun j => (A m).rnd (inv m i j * pA m j))) atTop (𝓝 (adjX M p0 i)) := fun i =>
    tendsto_ofFn_sum hA hu fun j => tendsto_rnd hA hu ((hinv i j).mul (hp j))
  have hif : ∀ x : ℝ, (if x < 0 then 0 else x) = max 0 x := fun x => by
    split_ifs with h
    · exact (max_eq_left h.le).symm
    · exact (max_eq_right (not_lt.1 h)).symm
  have hpos : ∀ i, Tendsto (fun m => if (A m).sum (List.ofFn fun j => (A m).rnd (inv m i j * pA m j)) < 0 then 0 else (A m).sum (List.ofFn fun j => (A m).rnd (inv m i j * pA m j))) atTop
      (𝓝 (max 0 (adjX M p0 i))) := fun i => by
    simp only [hif]
    exact tendsto_const_nhds.max (hprev i)
  exact tendsto_rnd hA hu ((hpos i).div (tendsto_ofFn_sum hA hu hpos) hposs.ne')

/-- **C146** (`OneVsRestQuantifier`): the computed answer tends to the exact one if the prevalences of the classes do, and their limits are not all zero. -/
theorem C146_one_vs_rest (hA : ∀ m, (A m).Ok (u m)) (hu : Tendsto u atTop (𝓝 0)) (vA : ℕ → Fin n → ℝ) (v : Fin n → ℝ) (hv : ∀ i, Tendsto (fun m => vA m i) atTop (𝓝 (v i))) (hs : 0 < ∑ i, v i) :
    ∃ w : Fin n → ℝ, ovrNormalize (List.ofFn fun i => Fl.fin (v i)) = (List.ofFn fun i => Fl.fin (w i)) ∧ ∀ i, Tendsto (fun m => normalizeA (A m) (vA m) i) atTop (𝓝 (w i)) := by
  refine ⟨fun i => v i / ∑ i, v i, ?_, tendsto_normalizeA hA hu hv hs⟩
  have hsum : (List.ofFn fun i => Fl.fin (v i)).sum = Fl.fin (∑ i, v i) := by rw [List.sum_ofFn, Fl.sum_fin]
  unfold ovrNormalize
  rw [hsum, Fl.zero_def, if_pos ((Fl.fin_lt_fin _ _).2 hs), List.map_ofFn]
  congr 1
  funext i
  exact Fl.fin_div _ hs.ne'

/-- **C146** (`DeBias`): with two classes, training posteriors that are not all equal to the prevalence of the positive class and a nonempty bag, the computed answer tends to the exact one. -/
theorem C146_debias [LinearOrder α] (hA : ∀ m, (A m).Ok (u m)) (hu : Tendsto u atTop (𝓝 0)) (y : List α) (h2 : (labelsOf y).length = 2) (preds test : List (Fin 2 → ℝ))
    (hv : ∃ r ∈ preds, r 1 ≠ freq y (posLabel y h2)) (htest : test ≠ []) :
    ∃ f, ∃ v : Fin 2 → ℝ, deBiasFit y preds = .ok f ∧ deBiasPredict f test = (fun i => Fl.fin (v i))
      ∧ ∀ i, Tendsto (fun m => deBiasA (A m) (fun c => ccA (A m) (labelsOf y) y (Fin.cast h2.symm c)) (deBiasVarA (A m) (fun c => ccA (A m) (labelsOf y) y (Fin.cast h2.symm c)) preds) test i) atTop (𝓝 (v i)) := by
  obtain ⟨f, p, e1, e2, e3, hpos⟩ := C50_debias_formula y h2 preds test hv htest
  obtain ⟨hb, hb0, hb1⟩ := binary_freqs y h2
  have hne : preds ≠ [] := by obtain ⟨r, hr, _⟩ := hv; exact List.ne_nil_of_mem hr
  refine ⟨f, ![1 - p, p], e1, ?_, ?_⟩
  · rw [e2]
    funext i
    fin_cases i <;> rfl
  · set π := freq y (posLabel y h2) with hπ
    have ht1 : Tendsto (fun m => ccA (A m) (labelsOf y) y (Fin.cast h2.symm 1)) atTop (𝓝 π) := tendsto_rnd hA hu tendsto_const_nhds
    have ht0 : Tendsto (fun m => ccA (A m) (labelsOf y) y (Fin.cast h2.symm 0)) atTop (𝓝 (1 - π)) := by
      have : Tendsto (fun m => ccA (A m) (labelsOf y) y (Fin.cast h2.symm 0)) atTop (𝓝 (freqs (labelsOf y) y (Fin.cast h2.symm 0))) := tendsto_rnd hA hu tendsto_const_nhds
      have e : freqs (labelsOf y) y (Fin.cast h2.symm 0) = 1 - π := hb
      rwa [e] at this
    have hvar : Tendsto (fun m => deBiasVarA (A m) (fun c => ccA (A m) (labelsOf y) y (Fin.cast h2.symm c)) preds) atTop (𝓝 (relVariance π preds)) := by
      unfold deBiasVarA relVariance meanOf
      refine tendsto_rnd hA hu (Tendsto.div (tendsto_rnd hA hu ((tendsto_sum hA hu preds fun r _ => tendsto_rnd hA hu ((tendsto_rnd hA hu (tendsto_const_nhds.sub ht1)).pow 2)).div_const _))
        (tendsto_rnd hA hu (ht1.mul ht0)) (mul_pos hb0 (by linarith)).ne')
    have hm : Tendsto (fun m => (A m).rnd ((A m).sum (test.map fun row => row 1) / (test.length : ℝ))) atTop (𝓝 (meanOf test fun r => r 1)) :=
      tendsto_rnd hA hu ((tendsto_sum hA hu test (g := fun _ row => row 1) fun _ _ => tendsto_const_nhds).div_const _)
    set q := π + (meanOf test (fun r => r 1) - π) / relVariance π preds with hq
    have hp : Tendsto (fun m => (A m).rnd (ccA (A m) (labelsOf y) y (Fin.cast h2.symm 1)
        + (A m).rnd ((A m).rnd ((A m).rnd ((A m).sum (test.map fun row => row 1) / (test.length : ℝ)) - ccA (A m) (labelsOf y) y (Fin.cast h2.symm 1))
          / deBiasVarA (A m) (fun c => ccA (A m) (labelsOf y) y (Fin.cast h2.symm c)) preds))) atTop (𝓝 q) :=
      tendsto_rnd hA hu (ht1.add (tendsto_rnd hA hu ((tendsto_rnd hA hu (hm.sub ht1)).div hvar hpos.ne')))
    have hadd := Proof.clip_add_clip q
    intro i
    have hsum : ∑ i, (![max 0 (min (1 - q) 1), max 0 (min q 1)] : Fin 2 → ℝ) i = 1 := by simpa [Fin.sum_univ_two] using hadd
    have := tendsto_normalizeA hA hu (v := fun m => ![max 0 (min ((A m).rnd (1 - (A m).rnd (ccA (A m) (labelsOf y) y (Fin.cast h2.symm 1)
        + (A m).rnd ((A m).rnd ((A m).rnd ((A m).sum (test.map fun row => row 1) / (test.length : ℝ)) - ccA (A m) (labelsOf y) y (Fin.cast h2.symm 1))
          / deBiasVarA (A m) (fun c => ccA (A m) (labelsOf y) y (Fin.cast h2.symm c)) preds)))) 1), max 0 (min ((A m).rnd (ccA (A m) (labelsOf y) y (Fin.cast h2.symm 1)
        + (A m).rnd ((A m).rnd ((A m).rnd ((A m).sum (test.map fun row => row 1) / (test.length : ℝ)) - ccA (A m) (labelsOf y) y (Fin.cast h2.symm 1))
          / deBiasVarA (A m) (fun c => ccA (A m) (labelsOf y) y (Fin.cast h2.symm c)) preds))) 1)])
      (a := ![max 0 (min (1 - q) 1), max 0 (min q 1)]) (fun i => by
        fin_cases i
        · exact tendsto_clip (tendsto_rnd hA hu (tendsto_const_nhds.sub hp))
        · exact tendsto_clip hp) (by rw [hsum]; exact one_pos) i
    rw [hsum, div_one] at this
    have e : (![max 0 (min (1 - q) 1), max 0 (min q 1)] : Fin 2 → ℝ) i = (![1 - p, p] : Fin 2 → ℝ) i := by
      fin_cases i
      · show max 0 (min (1 - q) 1) = 1 - p
        rw [e3]
        linarith
      · exact e3.symm
    rw [e] at this
    exact this

/-! ## EM -/

theorem tendsto_emStepA (hA : ∀ m, (A m).Ok (u m)) (hu : Tendsto u atTop (𝓝 0)) {ptr p : Fin k → ℝ} {bag : List (Fin k → ℝ)} (hne : bag ≠ []) (hptr : ∀ c, 0 < ptr c) (h : Explained ptr p bag)
    {tA pA : ℕ → Fin k → ℝ} (ht : ∀ c, Tendsto (fun m => tA m c) atTop (𝓝 (ptr c))) (hp : ∀ c, Tendsto (fun m => pA m c) atTop (𝓝 (p c))) (c : Fin k) :
    Tendsto (fun m => emStepA (A m) (tA m) bag (pA m) c) atTop (𝓝 (emMap ptr bag p c)) := by
  refine tendsto_meansA hA hu bag (g := fun m r => emPosteriorA (A m) (tA m) (pA m) r) (a := fun r => posterior ptr p r) hne (fun r hr j => ?_) c
  have hnon : ∀ c, Tendsto (fun m => (A m).rnd (r c * (A m).rnd (pA m c / tA m c))) atTop (𝓝 (p c * (r c / ptr c))) := by
    intro c
    have := tendsto_rnd hA hu ((tendsto_const_nhds (x := r c)).mul (tendsto_rnd hA hu ((hp c).div (ht c) (hptr c).ne')))
    rwa [show r c * (p c / ptr c) = p c * (r c / ptr c) by ring] at this
  exact tendsto_rnd hA hu ((hnon j).div (tendsto_ofFn_sum hA hu hnon) (h.2 r hr).ne')

theorem tendsto_maeA (hA : ∀ m, (A m).Ok (u m)) (hu : Tendsto u atTop (𝓝 0)) {p q : Fin k → ℝ} {pA qA : ℕ → Fin k → ℝ} (hp : ∀ c, Tendsto (fun m => pA m c) atTop (𝓝 (p c)))
    (hq : ∀ c, Tendsto (fun m => qA m c) atTop (𝓝 (q c))) : Tendsto (fun m => maeA (A m) (pA m) (qA m)) atTop (𝓝 (meanChange p q)) := by
  unfold maeA meanChange
  simp only [abs_sub_comm (p _) (q _)]
  exact tendsto_rnd hA hu ((tendsto_ofFn_sum hA hu fun j => (tendsto_rnd hA hu ((hq j).sub (hp j))).abs).div_const _)

theorem tendsto_emLoopA [NeZero k] (hA : ∀ m, (A m).Ok (u m)) (hu : Tendsto u atTop (𝓝 0)) {ptr : Fin k → ℝ} {bag : List (Fin k → ℝ)} (hne : bag ≠ []) (hpr : IsPrev ptr) (hptr : ∀ c, 0 < ptr c)
    (hrows : ∀ x ∈ bag, IsPrev x) (eps : ℝ) {tA : ℕ → Fin k → ℝ} (ht : ∀ c, Tendsto (fun m => tA m c) atTop (𝓝 (ptr c))) (N t : ℕ)
    (hedge : ∀ s, 10 ≤ s → t ≤ s → s < t + N → meanChange (emIterate ptr bag s) (emIterate ptr bag (s - 1)) ≠ eps)
    (q : Fin k → ℝ) (hq : 0 < t → q = emIterate ptr bag (t - 1)) {pA qA : ℕ → Fin k → ℝ} (hpA : ∀ c, Tendsto (fun m => pA m c) atTop (𝓝 (emIterate ptr bag t c)))
    (hqA : ∀ c, Tendsto (fun m => qA m c) atTop (𝓝 (q c))) :
    ∃ r, ∃ v : Fin k → ℝ, emLoop (fun c => Fl.fin (ptr c)) bag eps N ⟨fun c => Fl.fin (emIterate ptr bag t c), fun c => Fl.fin (q c), t⟩ = .ok r ∧ r.prevalences = (fun c => Fl.fin (v c))
      ∧ ∀ c, Tendsto (fun m => emLoopA (A m) (tA m) bag eps N (pA m) (qA m) t c) atTop (𝓝 (v c)) := by
  induction N generalizing t q pA qA with
  | zero => exact ⟨_, _, rfl, rfl, fun c => by simpa [emLoopA] using hpA c⟩
  | succ N ih =>
    have hexp := emIterate_explained hne hpr hptr hrows t
    have hstep : ∀ c, Tendsto (fun m => emStepA (A m) (tA m) bag (pA m) c) atTop (𝓝 (emIterate ptr bag (t + 1) c)) := by
      intro c
      rw [emIterate_succ]
      exact tendsto_emStepA hA hu hne hptr hexp ht hpA c
    have hch := tendsto_maeA hA hu hpA hqA
    have hnext := ih (t + 1) (fun s h1 h2 h3 => hedge s h1 (by omega) (by omega)) (emIterate ptr bag t) (fun _ => rfl) hstep hpA
    by_cases hc : eps < meanChange (emIterate ptr bag t) q ∨ t < 10
    · obtain ⟨r, v, e1, e2, e3⟩ := hnext
      refine ⟨r, v, ?_, e2, fun c => ?_⟩
      · unfold emLoop
        simp only [emChange_fin, Fl.fin_lt_fin]
        rw [if_pos hc, emStep_fin hne hptr hexp, ← emIterate_succ]
        exact e1
      · refine (e3 c).congr' ?_
        have hev : ∀ᶠ m in atTop, eps < maeA (A m) (pA m) (qA m) ∨ t < 10 := by
          rcases hc with hc | hc
          · exact (hch.eventually_const_lt hc).mono fun m hm => Or.inl hm
          · exact Eventually.of_forall fun _ => Or.inr hc
        filter_upwards [hev] with m hm
        conv_rhs => rw [emLoopA]
        rw [if_pos hm]
    · push Not at hc
      have hlt : meanChange (emIterate ptr bag t) q < eps := by
        refine lt_of_le_of_ne hc.1 ?_
        rw [hq (by omega)]
        exact hedge t hc.2 le_rfl (by omega)
      refine ⟨⟨fun c => Fl.fin (emIterate ptr bag t c), fun c => Fl.fin (q c), t⟩, emIterate ptr bag t, ?_, rfl, fun c => ?_⟩
      · unfold emLoop
        simp only [emChange_fin, Fl.fin_lt_fin]
        rw [if_neg (by push Not; exact hc)]
      · refine (hpA c).congr' ?_
        filter_upwards [hch.eventually_lt_const hlt] with m hm
        conv_rhs => rw [emLoopA]
        rw [if_neg (by push Not; exact ⟨hm.le, hc.2⟩)]

/-- **C146** (`EM`): for a bag of rows that are distributions, if the change between two iterations (from the tenth on) is never exactly the tolerance, the computed answer tends to the exact one. -/
theorem C146_em [LinearOrder α] (hA : ∀ m, (A m).Ok (u m)) (hu : Tendsto u atTop (𝓝 0)) (y : List α) (hy : y ≠ []) (bag : List (Fin (labelsOf y).length → ℝ)) (hne : bag ≠ []) (hrows : ∀ x ∈ bag, IsPrev x)
    (eps : ℝ) (maxIter : ℕ)
    (hedge : ∀ s, 10 ≤ s → s < maxIter → meanChange (emIterate (freqs (labelsOf y) y) bag s) (emIterate (freqs (labelsOf y) y) bag (s - 1)) ≠ eps) :
    ∃ r, ∃ v : Fin (labelsOf y).length → ℝ, emPredict (emFit (labelsOf y) y) bag eps maxIter = .ok r ∧ r.prevalences = (fun c => Fl.fin (v c))
      ∧ ∀ c, Tendsto (fun m => emA (A m) (labelsOf y) y bag eps maxIter c) atTop (𝓝 (v c)) := by
  obtain ⟨h1, h2, h3⟩ := emFit_eq y hy
  have hk : NeZero (labelsOf y).length := ⟨fun h0 => by
    have := h2.2
    rw [Finset.sum_eq_zero fun c _ => absurd c.2 (by omega)] at this
    norm_num at this⟩
  have ht : ∀ c, Tendsto (fun m => ccA (A m) (labelsOf y) y c) atTop (𝓝 (freqs (labelsOf y) y c)) := fun c => tendsto_rnd hA hu tendsto_const_nhds
  rw [h1]
  exact tendsto_emLoopA hA hu hne h2 h3 hrows eps ht maxIter 0 (fun s a b c => hedge s a (by omega)) (fun _ => 1) (fun h => absurd h (lt_irrefl _)) ht fun _ => tendsto_const_nhds

/-! ## Ordinal decomposition -/

theorem listTendsTo_length {L : ℕ → List ℝ} {l : List ℝ} (h : ListTendsTo L l) (m : ℕ) : (L m).length = l.length := by
  induction h with
  | nil => rfl
  | cons _ _ ih => simp [ih]

theorem listTendsTo_sum {L : ℕ → List ℝ} {l : List ℝ} (h : ListTendsTo L l) : Tendsto (fun m => (L m).sum) atTop (𝓝 l.sum) := by
  induction h with
  | nil => simp
  | cons hx _ ih =>
    simp only [List.sum_cons]
    exact hx.add ih

theorem listTendsTo_abs {L : ℕ → List ℝ} {l : List ℝ} (h : ListTendsTo L l) : ListTendsTo (fun m => (L m).map abs) (l.map abs) := by
  induction h with
  | nil => exact .nil
  | cons hx _ ih => exact .cons hx.abs ih

theorem listTendsTo_append {L L' : ℕ → List ℝ} {l l' : List ℝ} (h : ListTendsTo L l) (h' : ListTendsTo L' l') : ListTendsTo (fun m => L m ++ L' m) (l ++ l') := by
  induction h with
  | nil => exact h'
  | cons hx _ ih => exact .cons hx ih

theorem listTendsTo_rsum (hA : ∀ m, (A m).Ok (u m)) (hu : Tendsto u atTop (𝓝 0)) {L : ℕ → List ℝ} {l : List ℝ} (h : ListTendsTo L l) : Tendsto (fun m => (A m).sum (L m)) atTop (𝓝 l.sum) := by
  have h0 : Tendsto (fun m => (A m).sum (L m) - (L m).sum) atTop (𝓝 0) := by
    refine squeeze_zero_norm (fun m => ?_) (?_ : Tendsto (fun m => ((1 + u m) ^ l.length - 1) * ((L m).map abs).sum) atTop (𝓝 0))
    · have := sum_error (hA m) (L m)
      rwa [listTendsTo_length h m] at this
    · have h1 : Tendsto (fun m => (1 + u m) ^ l.length - 1) atTop (𝓝 0) := by
        simpa using ((hu.const_add 1).pow l.length).sub_const 1
      simpa using h1.mul (listTendsTo_sum (listTendsTo_abs h))
  simpa using h0.add (listTendsTo_sum h)

theorem if_lt_eq_max (a b : ℝ) : (if a < b then b else a) = max b a := by
  split_ifs with h
  · exact (max_eq_left h.le).symm
  · exact (max_eq_right (not_lt.1 h)).symm

theorem if_lt_eq_min (a b : ℝ) : (if b < a then b else a) = min b a := by
  split_ifs with h
  · exact (min_eq_left h.le).symm
  · exact (min_eq_right (not_lt.1 h)).symm

theorem raiseFrom_tendsTo {L : ℕ → List ℝ} {l : List ℝ} (h : ListTendsTo L l) {x : ℕ → ℝ} {a : ℝ} (hx : Tendsto x atTop (𝓝 a)) : ListTendsTo (fun m => raiseFrom (x m) (L m)) (raiseFrom a l) := by
  induction h generalizing x a with
  | nil => exact .nil
  | cons hy _ ih =>
    simp only [raiseFrom, if_lt_eq_max]
    exact .cons (hx.max hy) (ih (hx.max hy))

theorem raiseAll_tendsTo {L : ℕ → List ℝ} {l : List ℝ} (h : ListTendsTo L l) : ListTendsTo (fun m => raiseAll (L m)) (raiseAll l) := by
  cases h with
  | nil => exact .nil
  | cons hx h => exact .cons hx (raiseFrom_tendsTo h hx)

theorem lowerAll_cons (x : ℝ) (l : List ℝ) : lowerAll (x :: l) = min ((lowerAll l).headD x) x :: lowerAll l := by
  rw [lowerAll]
  cases lowerAll l with
  | nil => simp
  | cons z zs => simp [if_lt_eq_min]

theorem headD_tendsTo {L : ℕ → List ℝ} {l : List ℝ} (h : ListTendsTo L l) {x : ℕ → ℝ} {a : ℝ} (hx : Tendsto x atTop (𝓝 a)) : Tendsto (fun m => (L m).headD (x m)) atTop (𝓝 (l.headD a)) := by
  cases h with
  | nil => simpa using hx
  | cons hy _ => simpa using hy

theorem lowerAll_tendsTo {L : ℕ → List ℝ} {l : List ℝ} (h : ListTendsTo L l) : ListTendsTo (fun m => lowerAll (L m)) (lowerAll l) := by
  induction h with
  | nil => exact .nil
  | cons hx h ih =>
    simp only [lowerAll_cons]
    exact .cons ((headD_tendsTo ih hx).min hx) ih

theorem raiseAll_asc (l : List ℝ) (h : isAsc l) : raiseAll l = l := by
  cases l with
  | nil => rfl
  | cons x l =>
    rw [raiseAll]
    congr 1
    induction l generalizing x with
    | nil => rfl
    | cons z l ih =>
      rw [isAsc] at h
      rw [raiseFrom, if_lt_eq_max, max_eq_right h.1]
      rw [ih z h.2]

theorem lowerAll_asc (l : List ℝ) (h : isAsc l) : lowerAll l = l := by
  induction l with
  | nil => rfl
  | cons x l ih =>
    rw [lowerAll_cons]
    cases l with
    | nil => simp [lowerAll]
    | cons z l =>
      rw [isAsc] at h
      rw [ih h.2]
      simp [h.1]

theorem zipWith_tendsTo {L L' : ℕ → List ℝ} {l l' : List ℝ} (h : ListTendsTo L l) (h' : ListTendsTo L' l') {f : ℕ → ℝ → ℝ → ℝ} {g : ℝ → ℝ → ℝ}
    (hf : ∀ (x y : ℕ → ℝ) (a b : ℝ), Tendsto x atTop (𝓝 a) → Tendsto y atTop (𝓝 b) → Tendsto (fun m => f m (x m) (y m)) atTop (𝓝 (g a b))) :
    ListTendsTo (fun m => List.zipWith (f m) (L m) (L' m)) (List.zipWith g l l') := by
  induction h generalizing L' l' with
  | nil => simpa using ListTendsTo.nil
  | cons hx _ ih =>
    cases h' with
    | nil => simpa using ListTendsTo.nil
    | cons hy h' => exact .cons (hf _ _ _ _ hx hy) (ih h')

theorem mean_self (l : List ℝ) : List.zipWith (fun a b => (a + b) / 2) l l = l := by
  induction l with
  | nil => rfl
  | cons x l ih =>
    rw [List.zipWith_cons_cons, ih]
    congr 1
    ring

theorem ite_tendsTo {L L' : ℕ → List ℝ} {l : List ℝ} (h : ListTendsTo L l) (h' : ListTendsTo L' l) (c : ℕ → Prop) [DecidablePred c] : ListTendsTo (fun m => if c m then L m else L' m) l := by
  induction h generalizing L' with
  | nil =>
    cases h'
    simpa using ListTendsTo.nil
  | @cons x a L l hx _ ih =>
    cases h' with
    | @cons y _ L' _ hy h' =>
      have e : (fun m => if c m then x m :: L m else y m :: L' m) = fun m => (if c m then x m else y m) :: (if c m then L m else L' m) := by
        funext m
        split_ifs <;> rfl
      rw [e]
      exact .cons (hx.if' hy) (ih h')

open Classical in
theorem correctAscA_tendsTo (hA : ∀ m, (A m).Ok (u m)) (hu : Tendsto u atTop (𝓝 0)) {L : ℕ → List ℝ} {l : List ℝ} (h : ListTendsTo L l) :
    ListTendsTo (fun m => correctAscA (A m) (L m)) (List.zipWith (fun a b => (a + b) / 2) (raiseAll l) (lowerAll l)) := by
  have e : (fun m => correctAscA (A m) (L m)) = fun m => if isAsc (L m) then List.zipWith (fun a b => (a + b) / 2) (raiseAll (L m)) (lowerAll (L m))
      else List.zipWith (fun a b => (A m).rnd ((A m).rnd (a + b) / 2)) (raiseAll (L m)) (lowerAll (L m)) := by
    funext m
    unfold correctAscA
    split_ifs with hc
    · rw [raiseAll_asc _ hc, lowerAll_asc _ hc, mean_self]
    · rfl
  rw [e]
  exact ite_tendsTo (zipWith_tendsTo (f := fun _ a b => (a + b) / 2) (raiseAll_tendsTo h) (lowerAll_tendsTo h) fun x y a b hx hy => (hx.add hy).div_const 2)
    (zipWith_tendsTo (f := fun m a b => (A m).rnd ((A m).rnd (a + b) / 2)) (raiseAll_tendsTo h) (lowerAll_tendsTo h) fun x y a b hx hy => tendsto_rnd hA hu ((tendsto_rnd hA hu (hx.add hy)).div_const 2)) _

theorem correctAsc_eq (l : List ℝ) : correctAsc (l.map Fl.fin) = (List.zipWith (fun a b => (a + b) / 2) (raiseAll l) (lowerAll l)).map Fl.fin := by
  unfold correctAsc
  rw [isAsc_fin]
  split_ifs with h
  · rw [raiseAll_asc _ h, lowerAll_asc _ h, mean_self]
  · rw [raiseAll_fin, lowerAll_fin, List.zipWith_map, List.map_zipWith]
    congr 1
    funext a b
    rw [Fl.fin_add, Fl.fin_div _ two_ne_zero]

theorem fhqLoopA_tendsTo (hA : ∀ m, (A m).Ok (u m)) (hu : Tendsto u atTop (𝓝 0)) {D R : ℕ → List ℝ} {d r : List ℝ} (hr : ListTendsTo R r) (hd : ListTendsTo D d) :
    ∃ p, fhqLoop (d.map Fl.fin) (r.map Fl.fin) = p.map Fl.fin ∧ ListTendsTo (fun m => fhqLoopA (A m) (D m) (R m)) p := by
  induction hr generalizing D d with
  | nil => exact ⟨d, rfl, hd⟩
  | @cons x a R r hx _ ih =>
    obtain ⟨p, e1, e2⟩ := ih (listTendsTo_append hd (.cons (tendsto_clip (tendsto_rnd hA hu (hx.sub (listTendsTo_rsum hA hu hd)))) .nil))
    refine ⟨p, ?_, e2⟩
    rw [List.map_cons, fhqLoop, Fl.list_sum_fin, Fl.fin_sub, Fl.clip01_fin, ← e1]
    simp

theorem fhqClassesA_tendsTo (hA : ∀ m, (A m).Ok (u m)) (hu : Tendsto u atTop (𝓝 0)) {C : ℕ → List ℝ} {c : List ℝ} (hc : ListTendsTo C c) (hne : c ≠ []) :
    ∃ p : List ℝ, fhqClasses (c.map Fl.fin) = .ok (p.map Fl.fin) ∧ ListTendsTo (fun m => fhqClassesA (A m) (C m)) p := by
  cases hc with
  | nil => exact absurd rfl hne
  | @cons x a R r hx hr =>
    obtain ⟨p, e1, e2⟩ := fhqLoopA_tendsTo hA hu hr (.cons hx .nil)
    refine ⟨p ++ [1 - p.sum], ?_, listTendsTo_append e2 (.cons (tendsto_rnd hA hu (tendsto_const_nhds.sub (listTendsTo_rsum hA hu e2))) .nil)⟩
    rw [List.map_cons, fhqClasses]
    simp only [List.map_cons, List.map_nil] at e1
    simp only [e1, Fl.list_sum_fin, Fl.one_def, Fl.fin_sub]
    simp

/-- **C146** (`FrankAndHallQuantifier`): if the prevalences of the left groups tend to exact ones, the computed answer tends to the exact one. -/
theorem C146_frankhall (hA : ∀ m, (A m).Ok (u m)) (hu : Tendsto u atTop (𝓝 0)) (L : ℕ → List ℝ) (l : List ℝ) (hne : l ≠ []) (hL : ListTendsTo L l) :
    ∃ p : List ℝ, fhqClasses (correctAsc (l.map Fl.fin)) = .ok (p.map Fl.fin) ∧ ListTendsTo (fun m => fhqA (A m) (L m)) p := by
  have hc := correctAscA_tendsTo hA hu hL
  rw [correctAsc_eq]
  refine fhqClassesA_tendsTo hA hu hc fun h0 => hne (List.length_eq_zero_iff.1 ?_)
  have := congrArg List.length h0
  rwa [List.length_zipWith, raiseAll_length, lowerAll_length, min_self] at this

/-! ## The hypotheses can be met -/

/-- NumPy's arithmetic with `m + 1` significant bits, for every `m`. -/
noncomputable def bitsArith (m : ℕ) : Arith := ⟨rndBits (m + 1), pairwiseSum (rndBits (m + 1))⟩

theorem bitsArith_ok (m : ℕ) : (bitsArith m).Ok (1 / 2 ^ (m + 1)) := bits_ok (m + 1) (Nat.succ_pos m)

theorem bits_tendsto : Tendsto (fun m : ℕ => (1:ℝ) / 2 ^ (m + 1)) atTop (𝓝 0) := by
  have := (tendsto_pow_atTop_nhds_zero_of_lt_one (by norm_num : (0:ℝ) ≤ 1/2) (by norm_num)).comp (tendsto_add_atTop_nat 1)
  refine this.congr fun m => ?_
  simp [Function.comp]

/-- The hypotheses of C145 and C146 are met by doubles, and by a sequence of arithmetics with more and more bits; the training labels 0, 1, 1 and a bag of two rows. -/
example : (∀ c, 0 ≤ emA Arith.double (labelsOf [0, 1, 1]) [0, 1, 1] [fun _ => 1/2, fun c => if c.1 = 0 then 1 else 0] (1/10^6) 1000 c) :=
  (C145_em double_ok [0, 1, 1] (by simp) _ (by simp)
    (by
      intro r hr c
      rcases List.mem_cons.1 hr with rfl | hr
      · norm_num
      · rw [List.mem_singleton.1 hr]
        dsimp only
        split_ifs <;> norm_num)
    (by
      have hl : labelsOf [0, 1, 1] = [0, 1] := labelsOf_eq _ _ (by decide) (by decide)
      intro r hr
      refine ⟨⟨0, by rw [hl]; simp⟩, ?_⟩
      rcases List.mem_cons.1 hr with rfl | hr
      · norm_num
      · rw [List.mem_singleton.1 hr]
        simp) _ 1000 (by norm_num)).1

example : ∃ v : Fin 2 → ℝ, binaryAdjust (fun i j => Fl.fin (if i = j then 3/4 else 1/4)) (fun i => Fl.fin (if i = 0 then 2/5 else 3/5)) = (fun i => Fl.fin (v i))
    ∧ ∀ i, Tendsto (fun m => binaryAdjustA (bitsArith m) (fun i j => if i = j then 3/4 else 1/4) (fun i => if i = 0 then 2/5 else 3/5) i) atTop (𝓝 (v i)) :=
  C146_ac_two_classes bitsArith_ok bits_tendsto (fun _ i j => if i = j then 3/4 else 1/4) (fun i j => if i = j then 3/4 else 1/4) (fun _ _ => tendsto_const_nhds)
    (fun _ i => if i = 0 then 2/5 else 3/5) (fun i => if i = 0 then 2/5 else 3/5) (fun _ => tendsto_const_nhds)
    ⟨fun i => by fin_cases i <;> norm_num, by rw [Fin.sum_univ_two]; norm_num⟩ (by simp; norm_num [abs_of_pos])

example : ∃ i : Fin 3, 0 < Arith.double.sum (List.ofFn fun j => Arith.double.rnd ((if i = j then 1 else 0) * (![1/2, 1/4, 1/4] : Fin 3 → ℝ) j)) :=
  C145_ac_many_classes_defined double_ok (fun i j => if i = j then 1 else 0) ![1/2, 1/4, 1/4] (by
    have e : ∀ i j : Fin 3, |(if i = j then (1:ℝ) else 0) * (![1/2, 1/4, 1/4] : Fin 3 → ℝ) j| = (if i = j then (1:ℝ) else 0) * (![1/2, 1/4, 1/4] : Fin 3 → ℝ) j := by
      intro i j
      refine abs_of_nonneg (mul_nonneg (by split_ifs <;> norm_num) (by fin_cases j <;> norm_num))
    simp only [e]
    simp [Fin.sum_univ_three]
    norm_num)

example : ∃ r, ∃ v : Fin (labelsOf [0, 1, 1]).length → ℝ, emPredict (emFit (labelsOf [0, 1, 1]) [0, 1, 1]) [freqs (labelsOf [0, 1, 1]) [0]] (1/10) 10 = .ok r ∧ r.prevalences = (fun c => Fl.fin (v c))
    ∧ ∀ c, Tendsto (fun m => emA (bitsArith m) (labelsOf [0, 1, 1]) [0, 1, 1] [freqs (labelsOf [0, 1, 1]) [0]] (1/10) 10 c) atTop (𝓝 (v c)) :=
  C146_em bitsArith_ok bits_tendsto [0, 1, 1] (by simp) _ (by simp)
    (by
      intro x hx
      rw [List.mem_singleton.1 hx]
      exact freqs_isPrev _ (labelsOf_nodup _) [0] (by simp) fun a ha => (mem_labelsOf _ a).2 (by simp at ha; simp [ha]))
    (1/10) 10 (fun s h1 h2 => by omega)

example : ∃ p : List ℝ, fhqClasses (correctAsc ([1/4, 1/2, 2/5].map Fl.fin)) = .ok (p.map Fl.fin) ∧ ListTendsTo (fun m => fhqA (bitsArith m) [1/4, 1/2, 2/5]) p :=
  C146_frankhall bitsArith_ok bits_tendsto (fun _ => [1/4, 1/2, 2/5]) [1/4, 1/2, 2/5] (by simp)
    (.cons tendsto_const_nhds (.cons tendsto_const_nhds (.cons tendsto_const_nhds .nil)))

end Verif.Props
