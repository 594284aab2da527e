import Verif.Spec.Units
import Verif.Model.DfxRun
import Verif.Proof.Df
import Verif.Proof.NanPreds
import Verif.Props.TrainOrder

/-!
# Lemmas about other units for the features
-/

namespace Verif.Proof

open Verif.Model Verif.Spec Verif.Props

/-- A cut point in other units. -/
noncomputable def cutConv (A B : ℝ) (e : EReal) : EReal := (A : EReal) * e + (B : EReal)

theorem cutConv_coe (A B r : ℝ) : cutConv A B r = ((A * r + B : ℝ) : EReal) := by
  unfold cutConv
  push_cast
  rfl

theorem cutConv_top {A : ℝ} (hA : 0 < A) (B : ℝ) : cutConv A B ⊤ = ⊤ := by
  unfold cutConv
  rw [EReal.coe_mul_top_of_pos hA, EReal.top_add_coe]

theorem cutConv_bot {A : ℝ} (hA : 0 < A) (B : ℝ) : cutConv A B ⊥ = ⊥ := by
  unfold cutConv
  rw [EReal.coe_mul_bot_of_pos hA, EReal.bot_add]

theorem cutConv_strictMono {A : ℝ} (hA : 0 < A) (B : ℝ) : StrictMono (cutConv A B) := by
  intro a b h
  induction a with
  | bot =>
    rw [cutConv_bot hA]
    induction b with
    | bot => exact absurd h (lt_irrefl _)
    | coe r => rw [cutConv_coe]; exact EReal.bot_lt_coe _
    | top => rw [cutConv_top hA]; exact bot_lt_top
  | coe r =>
    rw [cutConv_coe]
    induction b with
    | bot => exact absurd h not_lt_bot
    | coe s =>
      rw [cutConv_coe, EReal.coe_lt_coe_iff]
      rw [EReal.coe_lt_coe_iff] at h
      nlinarith
    | top => rw [cutConv_top hA]; exact EReal.coe_lt_top _
  | top => exact absurd h not_top_lt

theorem histCum_conv {A : ℝ} (hA : 0 < A) (B : ℝ) (x : List ℝ) {n : ℕ} (edges : Fin (n + 1) → EReal) (i : Fin (n + 1)) :
    histCum (x.map fun v => A * v + B) (fun i => cutConv A B (edges i)) i = histCum x edges i := by
  unfold histCum
  have hm := cutConv_strictMono hA B
  simp only [List.countP_map, Function.comp_def, ← cutConv_coe, hm.le_iff_le, hm.lt_iff_lt]

theorem npHistogram_conv {A : ℝ} (hA : 0 < A) (B : ℝ) (x : List ℝ) {n : ℕ} (edges : Fin (n + 1) → EReal) :
    npHistogram (x.map fun v => A * v + B) (fun i => cutConv A B (edges i)) = npHistogram x edges := by
  unfold npHistogram
  simp only [histCum_conv hA, (cutConv_strictMono hA B).le_iff_le]

theorem histBlocks_conv {nf nb : ℕ} (u : Units nf) (cuts : Fin nf → Fin (nb + 1) → EReal) (rows : List (Fin nf → ℝ)) :
    histBlocks (fun d row => row d) (fun d i => cutConv (u.factor d) (u.shift d) (cuts d i)) (u.sample rows) = histBlocks (fun d row => row d) cuts rows := by
  unfold histBlocks
  refine congrArg seqFin (funext fun d => ?_)
  have : (u.sample rows).map (fun row => row d) = (rows.map fun row => row d).map fun v => u.factor d * v + u.shift d := by
    unfold Units.sample
    rw [List.map_map, List.map_map]
    rfl
  rw [this, npHistogram_conv (u.pos d)]
  simp [Units.sample]

/-! ## Bin cuts -/

theorem linspace_conv (A B a b : ℝ) (n i : ℕ) : linspace (A * a + B) (A * b + B) n i = A * linspace a b n i + B := by
  unfold linspace
  ring

theorem npMean_conv (A B : ℝ) (x : List ℝ) (hx : x ≠ []) : npMean (x.map fun v => A * v + B) = A * npMean x + B := by
  have hl : (x.length : ℝ) ≠ 0 := by simpa using hx
  have : ∀ l : List ℝ, (l.map fun v => A * v + B).sum = A * l.sum + B * l.length := by
    intro l
    induction l with
    | nil => simp
    | cons a l ih => simp only [List.map_cons, List.sum_cons, ih, List.length_cons]; push_cast; ring
  unfold npMean
  rw [this, List.length_map]
  field_simp

theorem npStd_conv {A : ℝ} (hA : 0 < A) (B : ℝ) (x : List ℝ) (hx : x ≠ []) : npStd (x.map fun v => A * v + B) = A * npStd x := by
  unfold npStd
  rw [npMean_conv A B x hx, List.map_map]
  have : ((fun v => (v - (A * npMean x + B)) ^ 2) ∘ fun v => A * v + B) = fun v => A ^ 2 * (v - npMean x) ^ 2 + 0 := by
    funext v
    simp only [Function.comp_def]
    ring
  rw [this]
  have h2 := npMean_conv (A ^ 2) 0 (x.map fun v => (v - npMean x) ^ 2) (by simpa using hx)
  rw [List.map_map] at h2
  simp only [Function.comp_def] at h2
  rw [h2, add_zero, Real.sqrt_mul (by positivity), Real.sqrt_sq hA.le]

theorem npStd_nonneg (x : List ℝ) : 0 ≤ npStd x := Real.sqrt_nonneg _

theorem npStd_pos {x : List ℝ} (h : Varies x) : 0 < npStd x := by
  obtain ⟨a, ha, b, hb, hab⟩ := h
  have hne : x ≠ [] := List.ne_nil_of_mem ha
  have hl : 0 < (x.length : ℝ) := by exact_mod_cast List.length_pos_iff.2 hne
  refine Real.sqrt_pos.2 ?_
  unfold npMean
  rw [List.length_map]
  refine div_pos ?_ hl
  have hn : ∀ w ∈ x.map fun v => (v - x.sum / x.length) ^ 2, 0 ≤ w := by
    intro w hw
    obtain ⟨v, -, rfl⟩ := List.mem_map.1 hw
    positivity
  rcases eq_or_ne a (x.sum / x.length) with h | h
  · have h' : b ≠ x.sum / x.length := fun h' => hab (h.trans h'.symm)
    exact lt_of_lt_of_le (by have := sub_ne_zero.2 h'; positivity) (List.single_le_sum hn _ (List.mem_map.2 ⟨b, hb, rfl⟩))
  · exact lt_of_lt_of_le (by have := sub_ne_zero.2 h; positivity) (List.single_le_sum hn _ (List.mem_map.2 ⟨a, ha, rfl⟩))

theorem min_conv {A : ℝ} (hA : 0 < A) (B : ℝ) (x : List ℝ) : (x.map fun v => A * v + B).min? = x.min?.map fun v => A * v + B := by
  cases hm : x.min? with
  | none =>
    rw [List.min?_eq_none_iff] at hm
    subst hm
    rfl
  | some a =>
    rw [List.min?_eq_some_iff] at hm
    rw [Option.map_some, List.min?_eq_some_iff]
    refine ⟨List.mem_map.2 ⟨a, hm.1, rfl⟩, fun b hb => ?_⟩
    obtain ⟨v, hv, rfl⟩ := List.mem_map.1 hb
    have := hm.2 v hv
    nlinarith

theorem max_conv {A : ℝ} (hA : 0 < A) (B : ℝ) (x : List ℝ) : (x.map fun v => A * v + B).max? = x.max?.map fun v => A * v + B := by
  cases hm : x.max? with
  | none =>
    rw [List.max?_eq_none_iff] at hm
    subst hm
    rfl
  | some a =>
    rw [List.max?_eq_some_iff] at hm
    rw [Option.map_some, List.max?_eq_some_iff]
    refine ⟨List.mem_map.2 ⟨a, hm.1, rfl⟩, fun b hb => ?_⟩
    obtain ⟨v, hv, rfl⟩ := List.mem_map.1 hb
    have := hm.2 v hv
    nlinarith

theorem mergeSort_conv {A : ℝ} (hA : 0 < A) (B : ℝ) (x : List ℝ) :
    (x.map fun v => A * v + B).mergeSort (fun a b => decide (a ≤ b)) = (x.mergeSort fun a b => decide (a ≤ b)).map fun v => A * v + B := by
  refine List.Perm.eq_of_pairwise (le := fun a b => a ≤ b) (fun a b _ _ h1 h2 => le_antisymm h1 h2) ?_ ?_ ((List.mergeSort_perm _ _).trans ((List.mergeSort_perm x _).symm.map _))
  · have := List.pairwise_mergeSort (le := fun a b : ℝ => decide (a ≤ b)) (fun a b c => by simpa using le_trans) (fun a b => by simpa using le_total a b)
    simpa using this _
  · have := List.pairwise_mergeSort (le := fun a b : ℝ => decide (a ≤ b)) (fun a b c => by simpa using le_trans) (fun a b => by simpa using le_total a b) x
    rw [List.pairwise_map]
    exact this.imp fun {a b} h => by
      have : a ≤ b := by simpa using h
      nlinarith

theorem pyIndex_conv (A B : ℝ) (l : List ℝ) (i : ℤ) : pyIndex (l.map fun v => A * v + B) i = (pyIndex l i).map fun v => A * v + B := by
  unfold pyIndex
  simp only [List.length_map, List.getElem?_map]
  cases l[(if i < 0 then i + (l.length : ℤ) else i).toNat]? with
  | none => rfl
  | some v =>
    simp only [Option.map_some]
    split_ifs <;> rfl

theorem npAverage_conv (A B : ℝ) (l : List (ℝ × ℝ)) (h : (l.map Prod.snd).sum ≠ 0) : npAverage (l.map fun t => (A * t.1 + B, t.2)) = A * npAverage l + B := by
  have : ∀ l : List (ℝ × ℝ), (l.map fun t => (A * t.1 + B) * t.2).sum = A * (l.map fun t => t.1 * t.2).sum + B * (l.map Prod.snd).sum := by
    intro l
    induction l with
    | nil => simp
    | cons a l ih => simp only [List.map_cons, List.sum_cons, ih]; ring
  unfold npAverage
  simp only [List.map_map, Function.comp_def]
  have e : (l.map fun t => t.2).sum = (l.map Prod.snd).sum := rfl
  rw [this, e]
  field_simp

section
variable {α : Type} [DecidableEq α]

/-- The weights of the normal strategy. -/
noncomputable def weightOf (y classes : List α) (n : ℕ) (c : α) : ℝ := if c ∈ classes then (n : ℝ) / (y.count c : ℝ) else 1

theorem weightOf_pos (y classes : List α) (n : ℕ) (hn : 0 < n) (c : α) (hc : c ∈ y) : 0 < weightOf y classes n c := by
  unfold weightOf
  split_ifs
  · have : 0 < y.count c := List.count_pos_iff.2 hc
    positivity
  · exact one_pos

theorem normalParams_eq (x : List ℝ) (y classes : List α) : normalParams x y classes
    = (npAverage (x.zip (y.map (weightOf y classes x.length))),
       Real.sqrt (npAverage ((x.map fun v => (v - npAverage (x.zip (y.map (weightOf y classes x.length)))) ^ 2).zip (y.map (weightOf y classes x.length))))) := rfl

theorem weights_sum (x : List ℝ) (y classes : List α) (h : x.length = y.length) (hx : x ≠ []) : 0 < ((x.zip (y.map (weightOf y classes x.length))).map Prod.snd).sum := by
  have hn : 0 < x.length := List.length_pos_iff.2 hx
  rw [List.map_snd_zip (by simp [h])]
  refine List.sum_pos _ (fun w hw => ?_) (by
    intro h0
    rw [List.map_eq_nil_iff] at h0
    rw [h0] at h
    exact hn.ne' h)
  obtain ⟨c, hc, rfl⟩ := List.mem_map.1 hw
  exact weightOf_pos y classes _ hn c hc

theorem normalParams_conv {A : ℝ} (hA : 0 < A) (B : ℝ) (x : List ℝ) (y classes : List α) (h : x.length = y.length) (hx : x ≠ []) :
    normalParams (x.map fun v => A * v + B) y classes = (A * (normalParams x y classes).1 + B, A * (normalParams x y classes).2) := by
  have hw := weights_sum x y classes h hx
  have hz : ∀ (f : ℝ → ℝ) (w : List ℝ), (x.map f).zip w = (x.zip w).map fun t => (f t.1, t.2) := fun f w => by
    rw [List.zip_map_left]; rfl
  rw [normalParams_eq, normalParams_eq]
  simp only [List.length_map]
  have h1 : npAverage ((x.map fun v => A * v + B).zip (y.map (weightOf y classes x.length))) = A * npAverage (x.zip (y.map (weightOf y classes x.length))) + B := by
    rw [hz, npAverage_conv A B _ hw.ne']
  refine Prod.ext h1 ?_
  show Real.sqrt _ = _
  rw [h1, List.map_map]
  generalize npAverage (x.zip (y.map (weightOf y classes x.length))) = mu
  have : ((fun v => (v - (A * mu + B)) ^ 2) ∘ fun v => A * v + B) = fun v => A ^ 2 * (v - mu) ^ 2 + 0 := by
    funext v
    simp only [Function.comp_def]
    ring
  rw [this]
  have h2 := npAverage_conv (A ^ 2) 0 ((x.map fun v => (v - mu) ^ 2).zip (y.map (weightOf y classes x.length))) (by
    rw [hz, List.map_map]
    exact hw.ne')
  rw [hz, List.map_map] at h2
  simp only [Function.comp_def] at h2
  rw [hz, h2, add_zero, Real.sqrt_mul (by positivity), Real.sqrt_sq hA.le, hz]

theorem normalParams_pos (x : List ℝ) (y classes : List α) (h : x.length = y.length) (hv : Varies x) : 0 < (normalParams x y classes).2 := by
  obtain ⟨a, ha, b, hb, hab⟩ := hv
  have hx : x ≠ [] := List.ne_nil_of_mem ha
  have hw := weights_sum x y classes h hx
  rw [normalParams_eq]
  refine Real.sqrt_pos.2 ?_
  generalize npAverage (x.zip (y.map (weightOf y classes x.length))) = mu
  have hz : ∀ (f : ℝ → ℝ) (w : List ℝ), (x.map f).zip w = (x.zip w).map fun t => (f t.1, t.2) := fun f w => by
    rw [List.zip_map_left]; rfl
  rw [hz]
  unfold npAverage
  simp only [List.map_map, Function.comp_def]
  refine div_pos ?_ hw
  have hpos : ∀ t ∈ x.zip (y.map (weightOf y classes x.length)), 0 < t.2 := by
    intro t ht
    obtain ⟨c, hc, h⟩ := List.mem_map.1 (List.of_mem_zip (a := t.1) (b := t.2) ht).2
    rw [← h]
    exact weightOf_pos y classes _ (List.length_pos_iff.2 hx) c hc
  have hn : ∀ w ∈ (x.zip (y.map (weightOf y classes x.length))).map fun t => (t.1 - mu) ^ 2 * t.2, 0 ≤ w := by
    intro w hw
    obtain ⟨t, ht, rfl⟩ := List.mem_map.1 hw
    have := hpos t ht
    positivity
  have hmem : ∀ v ∈ x, ∃ w, (v, w) ∈ x.zip (y.map (weightOf y classes x.length)) := by
    intro v hv
    have : (x.zip (y.map (weightOf y classes x.length))).map Prod.fst = x := List.map_fst_zip (by simp [h])
    rw [← this] at hv
    obtain ⟨t, ht, rfl⟩ := List.mem_map.1 hv
    exact ⟨t.2, ht⟩
  have key : ∀ v ∈ x, v ≠ mu → 0 < ((x.zip (y.map (weightOf y classes x.length))).map fun t => (t.1 - mu) ^ 2 * t.2).sum := by
    intro v hv hne
    obtain ⟨w, hw⟩ := hmem v hv
    have h1 := hpos _ hw
    have h2 := sub_ne_zero.2 hne
    exact lt_of_lt_of_le (by dsimp only at h1; positivity) (List.single_le_sum hn _ (List.mem_map.2 ⟨(v, w), hw, rfl⟩))
  rcases eq_or_ne a mu with h | h
  · exact key b hb fun h' => hab (h.trans h'.symm)
  · exact key a ha h

theorem normalCuts_conv {A : ℝ} (hA : 0 < A) (B : ℝ) (ppf : ℝ → EReal) (n : ℕ) (p : ℝ × ℝ) (hp : 0 < p.2) :
    normalCuts ppf n (A * p.1 + B, A * p.2) = (normalCuts ppf n p).map fun e i => cutConv A B (e i) := by
  unfold normalCuts
  rw [if_pos hp, if_pos (show 0 < A * p.2 by positivity)]
  by_cases hn : n = 0
  · rw [if_pos hn, if_pos hn]
    rfl
  rw [if_neg hn, if_neg hn]
  refine congrArg Except.ok (funext fun i => ?_)
  dsimp only
  generalize ppf ((i : ℕ) / n) = e
  induction e with
  | bot => rw [EReal.coe_mul_bot_of_pos hp, EReal.coe_mul_bot_of_pos (show 0 < A * p.2 by positivity), EReal.bot_add, EReal.bot_add, cutConv_bot hA]
  | top => rw [EReal.coe_mul_top_of_pos hp, EReal.coe_mul_top_of_pos (show 0 < A * p.2 by positivity), EReal.top_add_coe, EReal.top_add_coe, cutConv_top hA]
  | coe r =>
    rw [← EReal.coe_mul, ← EReal.coe_mul, ← EReal.coe_add, ← EReal.coe_add, cutConv_coe]
    congr 1
    ring

theorem binormalParams_conv {A : ℝ} (hA : 0 < A) (B : ℝ) (x : List ℝ) (y classes : List α) (h : x.length = y.length) (hcl : ∀ c ∈ classes, c ∈ y) (hne : classes ≠ []) :
    binormalParams (x.map fun v => A * v + B) y classes = (A * (binormalParams x y classes).1 + B, A * (binormalParams x y classes).2) := by
  have hl : (classes.length : ℝ) ≠ 0 := by simpa using hne
  have hr : ∀ c ∈ classes, selectRows y x c ≠ [] := fun c hc => selectRows_ne h.symm (hcl c hc)
  have e1 : (classes.map fun c => npMean (selectRows y (x.map fun v => A * v + B) c)) = (classes.map fun c => npMean (selectRows y x c)).map fun v => A * v + B := by
    rw [List.map_map]
    refine List.map_congr_left fun c hc => ?_
    rw [selectRows_map, npMean_conv A B _ (hr c hc)]
    rfl
  have e2 : (classes.map fun c => npStd (selectRows y (x.map fun v => A * v + B) c)) = (classes.map fun c => npStd (selectRows y x c)).map fun v => A * v + 0 := by
    rw [List.map_map]
    refine List.map_congr_left fun c hc => ?_
    rw [selectRows_map, npStd_conv hA B _ (hr c hc)]
    simp
  unfold binormalParams
  rw [e1, e2]
  have k1 := npMean_conv A B (classes.map fun c => npMean (selectRows y x c)) (by simpa using hne)
  have k2 := npMean_conv A 0 (classes.map fun c => npStd (selectRows y x c)) (by simpa using hne)
  unfold npMean at k1 k2
  simp only [List.length_map] at k1 k2
  rw [add_zero] at k2
  exact Prod.ext k1 k2

theorem binormalParams_pos (x : List ℝ) (y classes : List α) (hv : ∃ c ∈ classes, Varies (selectRows y x c)) : 0 < (binormalParams x y classes).2 := by
  obtain ⟨c, hc, hv⟩ := hv
  have hl : 0 < (classes.length : ℝ) := by exact_mod_cast List.length_pos_of_mem hc
  unfold binormalParams
  refine div_pos (lt_of_lt_of_le (npStd_pos hv) (List.single_le_sum (fun w hw => ?_) _ (List.mem_map.2 ⟨c, hc, rfl⟩))) hl
  obtain ⟨c', -, rfl⟩ := List.mem_map.1 hw
  exact npStd_nonneg _

/-- The cut points in other units. -/
theorem computeBincuts_conv {A : ℝ} (hA : 0 < A) (B : ℝ) (ppf : ℝ → EReal) (x : List ℝ) (y classes : List α) (hcl : ∀ c ∈ classes, c ∈ y) (n : ℕ) (st : BinStrategy)
    (hs : x.length = y.length → Spread st classes (y.zip x)) (hxy : x.length = y.length ∨ st ≠ .equalWidth) :
    computeBincuts ppf (x.map fun v => A * v + B) y classes n st none = (computeBincuts ppf x y classes n st none).map fun e i => cutConv A B (e i) := by
  cases st with
  | other => rfl
  | equalWidth =>
    have hxy := hxy.resolve_right (by simp)
    obtain ⟨u, hu, v, hv, huv⟩ := hs hxy
    rw [List.map_snd_zip hxy.le] at hu hv
    unfold computeBincuts binRange
    simp only [min_conv hA, max_conv hA]
    cases hmin : x.min? with
    | none =>
      rw [List.min?_eq_none_iff] at hmin
      subst hmin
      cases hu
    | some a =>
      cases hmax : x.max? with
      | none =>
        rw [List.max?_eq_none_iff] at hmax
        subst hmax
        cases hu
      | some b =>
        rw [List.min?_eq_some_iff] at hmin
        rw [List.max?_eq_some_iff] at hmax
        have hab : a < b := by
          rcases lt_or_gt_of_ne huv with h | h
          · exact (hmin.2 u hu).trans_lt (h.trans_le (hmax.2 v hv))
          · exact (hmin.2 v hv).trans_lt (h.trans_le (hmax.2 u hu))
        have hab' : A * a + B < A * b + B := by nlinarith
        simp only [Option.map_some]
        unfold binEdges
        by_cases hn : n = 0
        · simp only [hn, if_true]; rfl
        · simp only [if_neg hn, if_neg hab.le.not_gt, if_neg hab'.le.not_gt, if_neg hab.ne, if_neg hab'.ne]
          refine congrArg Except.ok (funext fun i => ?_)
          dsimp only
          split_ifs
          · rw [cutConv_top hA]
          · rw [cutConv_bot hA]
          · rw [linspace_conv, cutConv_coe]
  | equalCount =>
    unfold computeBincuts
    simp only [List.length_map, mergeSort_conv hA, pyIndex_conv]
    rw [← seqFin_map]
    refine congrArg seqFin (funext fun i => ?_)
    split_ifs
    · exact congrArg Except.ok (cutConv_top hA B).symm
    · exact congrArg Except.ok (cutConv_bot hA B).symm
    · cases pyIndex (x.mergeSort fun a b => decide (a ≤ b)) (roundHalfEven ((x.length : ℝ) * (i : ℕ) / n) - 1) with
      | error e => rfl
      | ok v1 =>
        cases pyIndex (x.mergeSort fun a b => decide (a ≤ b)) (roundHalfEven ((x.length : ℝ) * (i : ℕ) / n)) with
        | error e => rfl
        | ok v2 =>
          refine congrArg Except.ok ?_
          rw [cutConv_coe]
          congr 1
          ring
  | binormal =>
    unfold computeBincuts
    simp only [List.length_map]
    split_ifs with h1 h2
    · rfl
    · rfl
    · have h2 := not_not.1 h2
      have hne : classes ≠ [] := fun h => h1 (by rw [h]; simp)
      rw [binormalParams_conv hA B x y classes h2 hcl hne]
      exact normalCuts_conv hA B ppf n _ (binormalParams_pos x y classes (hs h2))
  | normal =>
    unfold computeBincuts
    simp only [List.length_map, List.map_eq_nil_iff]
    split_ifs with h1 h2
    · rfl
    · rfl
    · have h1 := not_not.1 h1
      have hv : Varies x := by
        have := hs h1
        unfold Spread at this
        rwa [List.map_snd_zip h1.le] at this
      rw [normalParams_conv hA B x y classes h1 h2]
      exact normalCuts_conv hA B ppf n _ (normalParams_pos x y classes h1 hv)

end

end Verif.Proof
