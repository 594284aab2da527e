import Verif.Model.DeBias
import Verif.Spec.DeBias
import Verif.Props.AC

/-!
# C50, C87: the DeBias quantifier
-/

namespace Verif.Props

open Verif.Model Verif.Spec

variable {α : Type*}

/-- The second of two labels. -/
def posLabel [LinearOrder α] (y : List α) (h2 : (labelsOf y).length = 2) : α := (labelsOf y)[1]'(by omega)

/-- The first of two labels. -/
def negLabel [LinearOrder α] (y : List α) (h2 : (labelsOf y).length = 2) : α := (labelsOf y)[0]'(by omega)

theorem binary_freqs [LinearOrder α] (y : List α) (h2 : (labelsOf y).length = 2) :
    freq y (negLabel y h2) = 1 - freq y (posLabel y h2) ∧ 0 < freq y (posLabel y h2) ∧ freq y (posLabel y h2) < 1 := by
  have hy : y ≠ [] := by
    rintro rfl
    simp [labelsOf] at h2
  have hl : (0:ℝ) < y.length := by exact_mod_cast List.length_pos_iff.2 hy
  have hpos : ∀ c ∈ labelsOf y, 0 < freq y c := by
    intro c hc
    have : 0 < y.count c := List.count_pos_iff.2 ((mem_labelsOf y c).1 hc)
    unfold freq
    have : (0:ℝ) < y.count c := by exact_mod_cast this
    positivity
  have hsum := (freqs_isPrev (labelsOf y) (labelsOf_nodup y) y hy fun a ha => (mem_labelsOf y a).2 ha).2
  have e : freq y (negLabel y h2) + freq y (posLabel y h2) = 1 := by
    rw [← hsum]
    unfold freqs
    rw [show (∑ i : Fin (labelsOf y).length, freq y (labelsOf y)[i]) = ∑ i : Fin (labelsOf y).length, (fun c => freq y c) (labelsOf y)[i] from rfl,
      show (∑ i : Fin (labelsOf y).length, (fun c => freq y c) (labelsOf y)[i]) = ((labelsOf y).map fun c => freq y c).sum from Fin.sum_univ_fun_getElem _ _]
    have key : ∀ (l : List α) (hl : l.length = 2), freq y (l[0]'(by omega)) + freq y (l[1]'(by omega)) = (l.map fun c => freq y c).sum := by
      intro l hl
      match l, hl with
      | [a, b], _ => simp
    exact key (labelsOf y) h2
  have h1 : 0 < freq y (posLabel y h2) := hpos _ (List.getElem_mem _)
  have h0 : 0 < freq y (negLabel y h2) := hpos _ (List.getElem_mem _)
  exact ⟨by linarith, h1, by linarith⟩

theorem list_mean_fin (l : List (Fin 2 → ℝ)) (hne : l ≠ []) (f : (Fin 2 → ℝ) → ℝ) : (l.map fun r => Fl.fin (f r)).sum / Fl.fin (l.length : ℝ) = Fl.fin (meanOf l f) := by
  have hl : (l.length : ℝ) ≠ 0 := by exact_mod_cast (List.length_pos_iff.2 hne).ne'
  have : l.map (fun r => Fl.fin (f r)) = (l.map f).map Fl.fin := by rw [List.map_map]; rfl
  rw [this, Fl.list_sum_fin, Fl.fin_div _ hl]
  rfl

theorem deBiasFit_eq [LinearOrder α] (y : List α) (h2 : (labelsOf y).length = 2) (preds : List (Fin 2 → ℝ)) (hne : preds ≠ []) :
    deBiasFit y preds = .ok ⟨labelsOf y, ![Fl.fin (1 - freq y (posLabel y h2)), Fl.fin (freq y (posLabel y h2))], Fl.fin (relVariance (freq y (posLabel y h2)) preds)⟩ := by
  obtain ⟨hb, hb0, hb1⟩ := binary_freqs y h2
  have hy : y ≠ [] := by
    rintro rfl
    simp [labelsOf] at h2
  have hl : (y.length : ℝ) ≠ 0 := by exact_mod_cast (List.length_pos_iff.2 hy).ne'
  have h1 : classShare (labelsOf y) y 1 = Fl.fin (freq y (posLabel y h2)) := by
    unfold classShare
    rw [List.getElem?_eq_getElem (by omega)]
    exact Fl.fin_div _ hl
  have h0 : classShare (labelsOf y) y 0 = Fl.fin (1 - freq y (posLabel y h2)) := by
    unfold classShare
    rw [List.getElem?_eq_getElem (by omega), ← hb]
    exact Fl.fin_div _ hl
  have hfit : deBiasFit y preds = .ok ⟨labelsOf y, fun i => classShare (labelsOf y) y i,
      (preds.map fun row => (Fl.fin (row 1) - classShare (labelsOf y) y ((1 : Fin 2) : ℕ)).sq).sum / Fl.fin (preds.length : ℝ)
        / (classShare (labelsOf y) y ((1 : Fin 2) : ℕ) * classShare (labelsOf y) y ((0 : Fin 2) : ℕ))⟩ := if_neg (not_not.2 h2)
  rw [hfit]
  simp only [Fin.val_one, Fin.val_zero, h0, h1, Fl.fin_sub, Fl.sq_fin, Fl.fin_mul]
  rw [list_mean_fin preds hne fun r => (r 1 - freq y (posLabel y h2)) ^ 2, Fl.fin_div _ (mul_pos hb0 (by linarith)).ne']
  congr 2
  funext i
  fin_cases i
  · exact h0
  · exact h1

theorem deBiasClip_fin (p : ℝ) : deBiasClip (Fl.fin p) = ![Fl.fin (1 - max 0 (min p 1)), Fl.fin (max 0 (min p 1))] := by
  unfold deBiasClip
  simp only
  generalize hs : (![(1 - Fl.fin p).clip01, (Fl.fin p).clip01] : Fin 2 → Fl) = s
  replace hs := hs.symm
  have h := Proof.clip_add_clip p
  have e0 : s 0 = Fl.fin (max 0 (min (1 - p) 1)) := by rw [hs]; simp
  have e1 : s 1 = Fl.fin (max 0 (min p 1)) := by rw [hs]; simp
  rw [e0, e1, Fl.fin_add, h, Fl.zero_def, if_pos ((Fl.fin_lt_fin _ _).2 one_pos)]
  funext i
  fin_cases i
  · show s 0 / Fl.fin 1 = Fl.fin (1 - max 0 (min p 1))
    rw [e0, Fl.fin_div _ one_ne_zero, div_one]
    congr 1
    linarith
  · show s 1 / Fl.fin 1 = Fl.fin (max 0 (min p 1))
    rw [e1, Fl.fin_div _ one_ne_zero, div_one]

/-- **C50**, the formula: with two classes, training posteriors that are not all equal to the prevalence `π` of the positive class and a nonempty bag, the answer is
`π + (mean posterior - π) / Vt` clipped to [0,1], and 1 minus it. -/
theorem C50_debias_formula [LinearOrder α] (y : List α) (h2 : (labelsOf y).length = 2) (preds test : List (Fin 2 → ℝ)) (hv : ∃ r ∈ preds, r 1 ≠ freq y (posLabel y h2)) (htest : test ≠ []) :
    ∃ f p, deBiasFit y preds = .ok f ∧ deBiasPredict f test = ![Fl.fin (1 - p), Fl.fin p]
      ∧ p = max 0 (min (freq y (posLabel y h2) + (meanOf test (fun r => r 1) - freq y (posLabel y h2)) / relVariance (freq y (posLabel y h2)) preds) 1)
      ∧ 0 < relVariance (freq y (posLabel y h2)) preds := by
  obtain ⟨-, hb0, hb1⟩ := binary_freqs y h2
  have hne : preds ≠ [] := by obtain ⟨r, hr, _⟩ := hv; exact List.ne_nil_of_mem hr
  set π := freq y (posLabel y h2) with hπ
  have hV : 0 < relVariance π preds := by
    unfold relVariance meanOf
    have hl : (0:ℝ) < preds.length := by exact_mod_cast List.length_pos_iff.2 hne
    refine div_pos (div_pos ?_ hl) (mul_pos hb0 (by linarith))
    obtain ⟨r, hr, hne'⟩ := hv
    refine lt_of_lt_of_le (show (0:ℝ) < (r 1 - π) ^ 2 from by have := sub_ne_zero.2 hne'; positivity) ?_
    apply List.single_le_sum
    · intro x hx
      obtain ⟨r', _, rfl⟩ := List.mem_map.1 hx
      positivity
    · exact List.mem_map.2 ⟨r, hr, rfl⟩
  refine ⟨_, _, deBiasFit_eq y h2 preds hne, ?_, rfl, hV⟩
  unfold deBiasPredict
  simp only [← hπ, Matrix.cons_val_one, Matrix.cons_val_zero]
  rw [list_mean_fin test htest fun r => r 1, Fl.fin_sub, Fl.fin_div _ hV.ne', Fl.fin_add]
  exact deBiasClip_fin _

/-- **C50**: the answer is a valid prevalence vector. -/
theorem C50_debias_valid [LinearOrder α] (y : List α) (h2 : (labelsOf y).length = 2) (preds test : List (Fin 2 → ℝ)) (hv : ∃ r ∈ preds, r 1 ≠ freq y (posLabel y h2)) (htest : test ≠ []) :
    ∃ f, deBiasFit y preds = .ok f ∧ IsPrevFl (deBiasPredict f test) := by
  obtain ⟨f, p, e1, e2, e3, -⟩ := C50_debias_formula y h2 preds test hv htest
  refine ⟨f, e1, ?_⟩
  rw [e2, e3]
  exact isPrevFl_binary _

/-- **C50**: if the mean posterior of the bag equals the training prevalence, the answer is the training prevalences. -/
theorem C50_debias_fixed [LinearOrder α] (y : List α) (h2 : (labelsOf y).length = 2) (preds test : List (Fin 2 → ℝ)) (hv : ∃ r ∈ preds, r 1 ≠ freq y (posLabel y h2)) (htest : test ≠ [])
    (hm : meanOf test (fun r => r 1) = freq y (posLabel y h2)) :
    ∃ f, deBiasFit y preds = .ok f ∧ deBiasPredict f test = ![Fl.fin (freq y (negLabel y h2)), Fl.fin (freq y (posLabel y h2))] := by
  obtain ⟨f, p, e1, e2, e3, -⟩ := C50_debias_formula y h2 preds test hv htest
  obtain ⟨hb, hb0, hb1⟩ := binary_freqs y h2
  refine ⟨f, e1, ?_⟩
  rw [hm, sub_self, zero_div, add_zero, min_eq_left hb1.le, max_eq_right hb0.le] at e3
  rw [e2, e3, hb]

/-- **C50**, outside its hypothesis: when all training posteriors equal the prevalence of the positive class, the answer is still valid if the mean posterior of the bag differs from it (all of one class),
but it is NaN if it does not. -/
theorem C50_debias_zero_variance [LinearOrder α] (y : List α) (h2 : (labelsOf y).length = 2) (preds test : List (Fin 2 → ℝ)) (hne : preds ≠ []) (hv : ∀ r ∈ preds, r 1 = freq y (posLabel y h2))
    (htest : test ≠ []) :
    ∃ f, deBiasFit y preds = .ok f
      ∧ (freq y (posLabel y h2) < meanOf test (fun r => r 1) → deBiasPredict f test = ![Fl.fin 0, Fl.fin 1])
      ∧ (meanOf test (fun r => r 1) < freq y (posLabel y h2) → deBiasPredict f test = ![Fl.fin 1, Fl.fin 0])
      ∧ (meanOf test (fun r => r 1) = freq y (posLabel y h2) → deBiasPredict f test = ![Fl.nan, Fl.nan]) := by
  obtain ⟨-, hb0, hb1⟩ := binary_freqs y h2
  set π := freq y (posLabel y h2) with hπ
  have hV : relVariance π preds = 0 := by
    unfold relVariance meanOf
    have : preds.map (fun r => (r 1 - π) ^ 2) = preds.map fun _ => (0:ℝ) := List.map_congr_left fun r hr => by rw [hv r hr]; simp
    rw [this]
    simp
  have e : ∀ d : ℝ, (Fl.fin π + Fl.fin d / Fl.fin 0) = if d = 0 then Fl.nan else if 0 < d then Fl.pinf else Fl.ninf := by
    intro d
    rw [Fl.fin_div_def, if_pos rfl]
    unfold Fl.scaleInf
    split_ifs <;> rfl
  have hdone : ∀ a b : ℝ, a + b = 1 → ∀ s : Fin 2 → Fl, s = ![Fl.fin a, Fl.fin b] →
      (open Classical in if (0 : Fl) < s 0 + s 1 then fun i => s i / (s 0 + s 1) else s) = ![Fl.fin a, Fl.fin b] := by
    rintro a b hab s hs
    have hsum : s 0 + s 1 = Fl.fin 1 := by rw [hs]; simp [hab]
    rw [hsum, Fl.zero_def, if_pos ((Fl.fin_lt_fin _ _).2 one_pos), hs]
    funext i
    fin_cases i
    · show Fl.fin a / Fl.fin 1 = Fl.fin a
      rw [Fl.fin_div _ one_ne_zero, div_one]
    · show Fl.fin b / Fl.fin 1 = Fl.fin b
      rw [Fl.fin_div _ one_ne_zero, div_one]
  have hp : ∀ f, f = (⟨labelsOf y, ![Fl.fin (1 - π), Fl.fin π], Fl.fin 0⟩ : DeBiasFit α) → deBiasPredict f test =
      deBiasClip (open Classical in if meanOf test (fun r => r 1) - π = 0 then Fl.nan else if 0 < meanOf test (fun r => r 1) - π then Fl.pinf else Fl.ninf) := by
    rintro f rfl
    unfold deBiasPredict
    simp only [Matrix.cons_val_one, Matrix.cons_val_zero]
    rw [list_mean_fin test htest fun r => r 1, Fl.fin_sub, e]
  refine ⟨_, deBiasFit_eq y h2 preds hne, fun h => ?_, fun h => ?_, fun h => ?_⟩
  · rw [hp _ (by rw [← hπ, hV]), if_neg (by linarith), if_pos (by linarith)]
    exact hdone 0 1 (by norm_num) _ rfl
  · rw [hp _ (by rw [← hπ, hV]), if_neg (by linarith), if_neg (by linarith)]
    exact hdone 1 0 (by norm_num) _ rfl
  · rw [hp _ (by rw [← hπ, hV]), if_pos (by linarith)]
    unfold deBiasClip
    exact if_neg (Fl.not_lt_nan _)

/-! ## C87 -/

theorem sum_by_value {β : Type*} (z : List β) (h F : β → ℝ) (S : Finset ℝ) (hS : ∀ t ∈ z, h t ∈ S) :
    (open Classical in (z.map F).sum = ∑ v ∈ S, ((z.filter fun t => decide (h t = v)).map F).sum) := by
  classical
  induction z with
  | nil => simp
  | cons t z ih =>
    have e : ∀ v, (((t :: z).filter fun t => decide (h t = v)).map F).sum = (if h t = v then F t else 0) + ((z.filter fun t => decide (h t = v)).map F).sum := by
      intro v
      by_cases hv : h t = v
      · rw [List.filter_cons_of_pos (by simpa using hv), if_pos hv, List.map_cons, List.sum_cons]
      · rw [List.filter_cons_of_neg (by simpa using hv), if_neg hv, zero_add]
    simp only [e]
    rw [Finset.sum_add_distrib, Finset.sum_ite_eq, if_pos (hS t (by simp)), List.map_cons, List.sum_cons, ih fun t ht => hS t (by simp [ht])]

/-- Calibration makes label and posterior interchangeable under sums of functions of the posterior. -/
theorem calibrated_sum [DecidableEq α] (y : List α) (pos : α) (rows : List (Fin 2 → ℝ)) (hc : Calibrated y pos rows) (g : ℝ → ℝ) :
    ((y.zip rows).map fun t => (if t.1 = pos then 1 else 0) * g (t.2 1)).sum = ((y.zip rows).map fun t => t.2 1 * g (t.2 1)).sum := by
  classical
  set z := y.zip rows
  have hS : ∀ t ∈ z, (fun t : α × (Fin 2 → ℝ) => t.2 1) t ∈ (z.map fun t => t.2 1).toFinset := fun t ht => List.mem_toFinset.2 (List.mem_map.2 ⟨t, ht, rfl⟩)
  rw [sum_by_value z (fun t => t.2 1) _ _ hS, sum_by_value z (fun t => t.2 1) (fun t => t.2 1 * g (t.2 1)) _ hS]
  apply Finset.sum_congr rfl
  intro v _
  have h1 : ((z.filter fun t => decide (t.2 1 = v)).map fun t => (if t.1 = pos then 1 else 0) * g (t.2 1)).sum
      = g v * (z.countP fun t => decide (t.2 1 = v ∧ t.1 = pos)) := by
    generalize z = z'
    induction z' with
    | nil => simp
    | cons t z' ih =>
      by_cases hv : t.2 1 = v
      · rw [List.filter_cons_of_pos (by simpa using hv), List.map_cons, List.sum_cons, ih, List.countP_cons]
        by_cases hp : t.1 = pos
        · simp only [hp, hv, and_self, decide_true, if_true]
          push_cast
          ring
        · simp only [hp, hv, and_false, decide_false, if_false]
          simp
      · rw [List.filter_cons_of_neg (by simpa using hv), ih, List.countP_cons]
        simp [hv]
  have h2 : ((z.filter fun t => decide (t.2 1 = v)).map fun t => t.2 1 * g (t.2 1)).sum = v * g v * (z.countP fun t => decide (t.2 1 = v)) := by
    generalize z = z'
    induction z' with
    | nil => simp
    | cons t z' ih =>
      by_cases hv : t.2 1 = v
      · rw [List.filter_cons_of_pos (by simpa using hv), List.map_cons, List.sum_cons, ih, List.countP_cons]
        simp only [hv, decide_true, if_true]
        push_cast
        ring
      · rw [List.filter_cons_of_neg (by simpa using hv), ih, List.countP_cons]
        simp [hv]
  rw [h1, h2, hc v]
  ring

theorem zip_indicator_sum [DecidableEq α] {β : Type*} (y : List α) (l : List β) (hl : y.length = l.length) (c : α) :
    ((y.zip l).map fun t => (if t.1 = c then (1:ℝ) else 0)).sum = y.count c := by
  induction y generalizing l with
  | nil => simp
  | cons a y ih =>
    cases l with
    | nil => simp at hl
    | cons b l =>
      rw [List.zip_cons_cons, List.map_cons, List.sum_cons, ih l (by simpa using hl), List.count_cons]
      by_cases h : a = c
      · simp [h]; ring
      · simp [h]

/-- **C87**: DeBias is exact under prior probability shift when the training posteriors are calibrated: if the mean posterior of the bag is the mixture, with weight `q` for the positive class, of the mean
posteriors of the training positives and negatives, the answer is `[1 - q, q]`. -/
theorem C87_debias_exact [LinearOrder α] (y : List α) (h2 : (labelsOf y).length = 2) (preds test : List (Fin 2 → ℝ)) (hlen : preds.length = y.length) (hv : ∃ r ∈ preds, r 1 ≠ freq y (posLabel y h2))
    (htest : test ≠ []) (hcal : Calibrated y (posLabel y h2) preds) (q : ℝ) (hq0 : 0 ≤ q) (hq1 : q ≤ 1)
    (hshift : meanOf test (fun r => r 1) = q * condMean y preds (fun r => r 1) (posLabel y h2) + (1 - q) * condMean y preds (fun r => r 1) (negLabel y h2)) :
    ∃ f, deBiasFit y preds = .ok f ∧ deBiasPredict f test = ![Fl.fin (1 - q), Fl.fin q] := by
  obtain ⟨f, p, e1, e2, e3, hV⟩ := C50_debias_formula y h2 preds test hv htest
  refine ⟨f, e1, ?_⟩
  obtain ⟨hb, hb0, hb1⟩ := binary_freqs y h2
  have hy : y ≠ [] := by
    rintro rfl
    simp [labelsOf] at h2
  have hN : (0:ℝ) < y.length := by exact_mod_cast List.length_pos_iff.2 hy
  set pos := posLabel y h2 with hpos
  set neg := negLabel y h2 with hneg
  set π := freq y pos with hπ
  have hnp : neg ≠ pos := by
    intro h
    rw [hneg, hpos] at h
    unfold negLabel posLabel at h
    exact absurd ((labelsOf_nodup y).getElem_inj_iff.1 h) (by decide)
  -- sums
  set A := ((y.zip preds).map fun t => t.2 1).sum with hA
  set B := ((y.zip preds).map fun t => t.2 1 * t.2 1).sum with hB
  have hsnd : ∀ F : (Fin 2 → ℝ) → ℝ, ((y.zip preds).map fun t => F t.2).sum = (preds.map F).sum := fun F => zip_map_snd_sum F y preds hlen.symm
  have hcount : ((y.zip preds).map fun t => (if t.1 = pos then (1:ℝ) else 0)).sum = y.count pos := by
    exact zip_indicator_sum y preds hlen.symm pos
  have hAπ : A = π * y.length := by
    have := calibrated_sum y pos preds hcal fun _ => 1
    simp only [mul_one] at this
    rw [hA, ← this, hcount, hπ]
    unfold freq
    field_simp
  have hcp : condMean y preds (fun r => r 1) pos * (y.count pos : ℝ) = B := by
    have hc0 : (y.count pos : ℝ) ≠ 0 := by
      intro h0
      rw [hπ] at hb0
      unfold freq at hb0
      rw [h0] at hb0
      simp at hb0
    unfold condMean
    rw [div_mul_cancel₀ _ hc0, hB, ← calibrated_sum y pos preds hcal fun v => v]
    generalize y.zip preds = z
    induction z with
    | nil => simp
    | cons t z ih =>
      by_cases ht : t.1 = pos
      · rw [List.filter_cons_of_pos (by simpa using ht), List.map_cons, List.sum_cons, ih, List.map_cons, List.sum_cons, if_pos ht, one_mul]
      · rw [List.filter_cons_of_neg (by simpa using ht), ih, List.map_cons, List.sum_cons, if_neg ht, zero_mul, zero_add]
  have hboth : ∀ t ∈ y.zip preds, t.1 = pos ∨ t.1 = neg := by
    intro t ht
    have h1 := (mem_labelsOf y t.1).2 (List.of_mem_zip ht).1
    obtain ⟨i, hi, hti⟩ := List.getElem_of_mem h1
    have hi' : i < 2 := by omega
    rcases (show i = 0 ∨ i = 1 by omega) with rfl | rfl
    · right; rw [← hti]; rfl
    · left; rw [← hti]; rfl
  have hcn : condMean y preds (fun r => r 1) neg * (y.count neg : ℝ) = A - B := by
    have hc0 : (y.count neg : ℝ) ≠ 0 := by
      intro h0
      have : freq y neg = 0 := by unfold freq; rw [h0]; simp
      linarith
    have hB' : B = ((y.zip preds).map fun t => (if t.1 = pos then (1:ℝ) else 0) * t.2 1).sum := (calibrated_sum y pos preds hcal fun v => v).symm
    unfold condMean
    rw [div_mul_cancel₀ _ hc0, hB', hA]
    revert hboth
    generalize y.zip preds = z
    intro hboth
    clear hB'
    induction z with
    | nil => simp
    | cons t z ih =>
      have ih := ih fun t ht => hboth t (by simp [ht])
      rcases hboth t (by simp) with ht | ht
      · rw [List.filter_cons_of_neg (by simpa [ht] using hnp.symm), ih, List.map_cons, List.sum_cons, List.map_cons, List.sum_cons, if_pos ht]
        ring
      · rw [List.filter_cons_of_pos (by simpa using ht), List.map_cons, List.sum_cons, ih, List.map_cons, List.sum_cons, List.map_cons, List.sum_cons,
          if_neg (by rw [ht]; exact hnp)]
        ring
  have hVeq : relVariance π preds * (π * (1 - π)) = B / y.length - π ^ 2 := by
    unfold relVariance
    rw [div_mul_cancel₀ _ (mul_pos hb0 (by linarith)).ne']
    unfold meanOf
    rw [← hsnd fun r => (r 1 - π) ^ 2, hlen]
    have : ((y.zip preds).map fun t => (t.2 1 - π) ^ 2).sum = B - 2 * π * A + π ^ 2 * y.length := by
      have hl : ((y.zip preds).length : ℝ) = y.length := by rw [List.length_zip, hlen, min_self]
      rw [hB, hA, ← hl]
      generalize y.zip preds = z
      induction z with
      | nil => simp
      | cons t z ih =>
        simp only [List.map_cons, List.sum_cons, ih, List.length_cons]
        push_cast
        ring
    rw [this, hAπ]
    field_simp
    ring
  have hcpv : condMean y preds (fun r => r 1) pos * π = B / y.length := by
    rw [← hcp, hπ]
    unfold freq
    ring
  have hcnv : condMean y preds (fun r => r 1) neg * (1 - π) = π - B / y.length := by
    have h1 : condMean y preds (fun r => r 1) neg * freq y neg = (A - B) / y.length := by
      rw [← hcn]
      unfold freq
      ring
    rw [hb] at h1
    rw [h1, hAπ]
    field_simp
  have hgoal : π + (meanOf test (fun r => r 1) - π) / relVariance π preds = q := by
    have hne1 : π ≠ 0 := hb0.ne'
    have hne2 : 1 - π ≠ 0 := by intro h; linarith
    have h1 : condMean y preds (fun r => r 1) pos = π + (1 - π) * relVariance π preds := by
      apply mul_right_cancel₀ hne1
      rw [hcpv]
      linarith [hVeq]
    have h0 : condMean y preds (fun r => r 1) neg = π - π * relVariance π preds := by
      apply mul_right_cancel₀ hne2
      rw [hcnv]
      linarith [hVeq]
    rw [hshift, h1, h0]
    field_simp
    ring
  rw [hgoal, min_eq_left hq1, max_eq_right hq0] at e3
  rw [e2, e3]

/-- A calibrated training set: four examples with posterior 1/2, of which two are positive, and one positive with posterior 1. -/
example : Calibrated ([1, 1, 2, 2, 2] : List ℕ) 2 [![1/2, 1/2], ![1/2, 1/2], ![1/2, 1/2], ![1/2, 1/2], ![0, 1]] := by
  intro v
  simp only [List.zip_cons_cons, List.zip_nil_right, List.countP_cons, List.countP_nil]
  simp only [Matrix.cons_val_one, Matrix.cons_val_zero]
  by_cases h1 : (1/2 : ℝ) = v
  · subst h1; norm_num
  · by_cases h2 : (1 : ℝ) = v
    · subst h2; norm_num
    · simp [h1, h2]
      simp at h1
      simp [h1]

end Verif.Props
