import Verif.Proof.NanPreds
import Verif.Proof.Decomp
import Verif.Proof.Df
import Verif.Spec.Prevalence

/-!
# C148: predictions that are not numbers

When a prediction is NaN, is the caller told? PCC, EM, DeBias, PAC (in part) and the decompositions let the NaN through or raise an exception; CC, SORDy, DFy,
FriedmanME and PAC with two classes answer as if nothing had happened.
-/

namespace Verif.Props

open Verif.Model Verif.Spec Verif.Proof

variable {α : Type*} {k : ℕ}

/-! ## The models of this property and those of the others -/

/-- **C148**: on predictions that are numbers, these are the methods of the other properties. -/
theorem C148_numbers [DecidableEq α] (rows : List (Fin k → ℝ)) (ptr : Fin k → Fl) (eps : ℝ) (maxIter : ℕ) (classes : List α) (f : DeBiasFit α) (test : List (Fin 2 → ℝ)) :
    pccF (floats rows) = colMeans rows
    ∧ emPredictF ptr (floats rows) eps maxIter = (emPredict ptr rows eps maxIter).map EMState.prevalences
    ∧ (∀ row : Fin k → ℝ, npArgmaxF (fun j => Fl.fin (row j)) = npArgmax row)
    ∧ deBiasPredictF f (floats test) = deBiasPredict f test := by
  refine ⟨colMeansF_floats rows, ?_, npArgmaxF_floats, ?_⟩
  · unfold emPredictF emPredict
    rw [emLoopF_floats]
  · unfold deBiasPredictF deBiasPredict floats
    rw [List.map_map, List.length_map]
    rfl

/-- **C148**: the same for the training of PAC and DeBias, and for the distributions that DFy and FriedmanME compare. -/
theorem C148_numbers_fit [DecidableEq α] (classes : Fin k → α) (y : List α) (rows : List (Fin k → ℝ)) (hy : y.length = rows.length) {nc : ℕ} (cfg : DfCfg)
    (fit : DfFit (nDescriptors nc) cfg.nBins nc) (ff : FriedmanFit nc) (preds : List (Fin nc → ℝ)) :
    pacFitF classes y (floats rows) = .ok (fun i j => colMeans (rowsOf y rows (classes i)) j)
    ∧ dfyTestF cfg fit (floats preds) = dfyTest cfg fit preds
    ∧ friedmanTestF ff (floats preds) = friedmanTest ff preds := by
  refine ⟨?_, ?_, ?_⟩
  · unfold pacFitF
    rw [if_pos (by rw [hy]; simp [floats])]
    congr 1
    funext i j
    have e : selectRows y (floats rows) (classes i) = floats (rowsOf y rows (classes i)) := by
      unfold floats rowsOf
      rw [selectRows_map]
      rfl
    rw [e, colMeansF_floats]
  · unfold dfyTestF dfyTest dfTest histBlocks
    congr 2
    funext d
    have e : ((floats preds).map fun row => row (Fin.castLE (nDescriptors_le nc) d)) = (preds.map (dfyAtt nc d)).map Fl.fin := by
      unfold floats
      rw [List.map_map, List.map_map]
      rfl
    rw [e, npHistogramF_floats]
    simp [floats]
  · unfold friedmanTestF friedmanTest floats
    rw [List.map_map]
    congr 2

/-- **C148**: the same for SORDy, whose sorts agree. -/
theorem C148_numbers_sordy (sort : List (ℝ × ℤ) → List (ℝ × ℤ)) (sortF : List (Fl × ℤ) → List (Fl × ℤ))
    (hs : ∀ l, sortF (l.map fun t => (Fl.fin t.1, t.2)) = (sort l).map fun t => (Fl.fin t.1, t.2)) (tol : ℝ) (f : SordyFit) (test : List ℝ) :
    sordyPredictF sortF tol ⟨f.classes, f.train.map fun t => (Fl.fin t.1, t.2)⟩ (test.map Fl.fin) = sordyPredict sort tol f test := by
  have hu : sordyUnionF sortF ⟨f.classes, f.train.map fun t => (Fl.fin t.1, t.2)⟩ (test.map Fl.fin) = (sordyUnion sort f test).map fun t => (Fl.fin t.1, t.2) := by
    unfold sordyUnionF sordyUnion
    rw [← hs]
    congr 1
    rw [List.map_append, List.map_map, List.map_map]
    rfl
  unfold sordyPredictF sordyPredict
  simp only [hu, List.map_eq_nil_iff]
  have hl : sordyLossF f.classes ((sordyUnion sort f test).map fun t => (Fl.fin t.1, t.2)) = sordyLoss f.classes (sordyUnion sort f test) := by
    funext p
    unfold sordyLossF sordyLoss
    rw [List.map_map, List.map_map]
    cases sordyUnion sort f test with
    | nil => rfl
    | cons t l =>
      show sordLoopF (Fl.fin 0) _ (Fl.fin t.1) _ = Fl.fin (sordLoop 0 _ t.1 _)
      rw [← sordLoopF_floats]
      congr 1
      rw [List.map_map]
      rfl
  rw [hl]

/-- **C148**: the same from the training set to the answer. -/
theorem C148_numbers_sordy_run (sort : List (ℝ × ℤ) → List (ℝ × ℤ)) (sortF : List (Fl × ℤ) → List (Fl × ℤ))
    (hs : ∀ l, sortF (l.map fun t => (Fl.fin t.1, t.2)) = (sort l).map fun t => (Fl.fin t.1, t.2)) (tol : ℝ) (y : List ℤ) (probs test : List ℝ) :
    (sordyFitF sortF y (probs.map Fl.fin) >>= fun f => sordyPredictF sortF tol f (test.map Fl.fin)) = (sordyFit sort y probs >>= fun f => sordyPredict sort tol f test) := by
  unfold sordyFitF sordyFit
  split_ifs with h
  · rfl
  · show sordyPredictF sortF tol ⟨npUnique y, sortF ((probs.map Fl.fin).zip y)⟩ (test.map Fl.fin) = sordyPredict sort tol ⟨npUnique y, sort (probs.zip y)⟩ test
    rw [← C148_numbers_sordy sort sortF hs tol ⟨npUnique y, sort (probs.zip y)⟩ test, ← hs]
    congr 3
    rw [List.zip_map_left]
    rfl

/-! ## Methods that let the NaN through, or raise -/

/-- **C148**: PCC answers NaN for every class whose column has a NaN. -/
theorem C148_pcc_partial (rows : List (Fin k → Fl)) (r : Fin k → Fl) (hr : r ∈ rows) (j : Fin k) (h : r j = Fl.nan) : pccF rows j = Fl.nan := colMeansF_nan hr h

theorem binaryAdjust_nan (cm : Fin 2 → Fin 2 → Fl) (p0 : Fin 2 → Fl) (h : p0 1 = Fl.nan) : binaryAdjust cm p0 1 = Fl.nan := by
  unfold binaryAdjust
  dsimp only
  by_cases hd : Fl.fin (1/1000) < (cm 1 1 - cm 0 1).abs
  · rw [if_pos hd]
    split_ifs
    · show ((p0 1 - cm 0 1) / (cm 1 1 - cm 0 1)).clip01 / _ = _
      rw [h, nan_sub, Fl.nan_div, clip_nan, Fl.nan_div]
    · show ((p0 1 - cm 0 1) / (cm 1 1 - cm 0 1)).clip01 = _
      rw [h, nan_sub, Fl.nan_div, clip_nan]
  · rw [if_neg hd]
    split_ifs
    · show (p0 1).clip01 / _ = _
      rw [h, clip_nan, Fl.nan_div]
    · show (p0 1).clip01 = _
      rw [h, clip_nan]

/-- **C148**: PAC with two classes: if the probability of the positive class of an example of the bag is NaN, so is the answer for that class, whatever the training set was. -/
theorem C148_pac_two_partial (sol : Solvers) (dist : Dist) (cm : Fin 2 → Fin 2 → Fl) (rows : List (Fin 2 → Fl)) (r : Fin 2 → Fl) (hr : r ∈ rows) (h : r 1 = Fl.nan) :
    ∃ p, pacPredictF sol dist cm rows = .ok p ∧ p 1 = Fl.nan :=
  ⟨_, rfl, binaryAdjust_nan cm _ (colMeansF_nan hr h)⟩

/-- **C148**: PAC with another number of classes and an invertible matrix: every entry of the answer is NaN as soon as one prediction of the bag is. -/
theorem C148_pac_many_partial (sol : Solvers) (dist : Dist) (hk : k ≠ 2) (M : Matrix (Fin k) (Fin k) ℝ) (hM : M.det ≠ 0) (rows : List (Fin k → Fl)) (h : HasNan rows) :
    pacPredictF sol dist (fun i j => Fl.fin (M i j)) rows = .ok fun _ => Fl.nan := by
  obtain ⟨r, hr, j, hj⟩ := h
  have hp := colMeansF_nan hr hj
  unfold pacPredictF
  rw [adjust_ne_two sol dist hk]
  unfold multiAdjust
  have h1 : scipyInv (fun i j => Fl.fin (M j i)) = .ok fun i j => Fl.fin (M.transpose⁻¹ i j) := by
    have := scipyInv_fin M.transpose
    rw [if_neg (by rwa [Matrix.det_transpose])] at this
    exact this
  have h2 : ∀ i, (∑ l, Fl.fin (M.transpose⁻¹ i l) * colMeansF rows l) = Fl.nan := fun i =>
    Fl.sum_eq_nan Finset.univ _ (Finset.mem_univ j) (by rw [hp, Fl.mul_nan])
  simp only [h1]
  congr 1
  funext i
  have h3 : ∀ x : Fl, x = Fl.nan → ∀ d : Decidable (x < 0), (@ite _ (x < 0) d 0 x) = Fl.nan := fun x hx d => by
    rw [if_neg (by rw [hx]; exact Fl.not_nan_lt _), hx]
  rw [h3 _ (h2 i), Fl.nan_div]

theorem selectRows_mem [DecidableEq α] {β : Type*} {y : List α} {rows : List β} {a : α} {r : β} (h : (a, r) ∈ y.zip rows) : r ∈ selectRows y rows a :=
  List.mem_map.2 ⟨(a, r), List.mem_filter.2 ⟨h, by simp⟩, rfl⟩

/-- **C148**: PAC with another number of classes: if a training prediction is NaN, `predict` raises a ValueError for every bag. -/
theorem C148_pac_train_partial [DecidableEq α] (sol : Solvers) (dist : Dist) (hk : k ≠ 2) (classes : Fin k → α) (y : List α) (train : List (Fin k → Fl)) (cm : Fin k → Fin k → Fl)
    (hfit : pacFitF classes y train = .ok cm) (i : Fin k) (r : Fin k → Fl) (hr : (classes i, r) ∈ y.zip train) (j : Fin k) (h : r j = Fl.nan) (rows : List (Fin k → Fl)) :
    pacPredictF sol dist cm rows = .error .valueError := by
  have hcm : cm i j = Fl.nan := by
    unfold pacFitF at hfit
    split_ifs at hfit
    injection hfit with hfit
    rw [← hfit]
    exact colMeansF_nan (selectRows_mem hr) h
  unfold pacPredictF
  rw [adjust_ne_two sol dist hk]
  unfold multiAdjust
  have h1 : scipyInv (fun i j => cm j i) = .error .valueError := by
    unfold scipyInv
    rw [dif_neg]
    rintro ⟨R, hR⟩
    have := congrFun (congrFun hR j) i
    rw [hcm] at this
    exact Fl.fin_ne_nan _ this.symm
  simp only [h1]

/-- **C148**: EM, unless no iteration is allowed: a NaN anywhere in the bag makes `predict` raise an exception or return a NaN. -/
theorem C148_em_partial (ptr : Fin k → Fl) (rows : List (Fin k → Fl)) (h : HasNan rows) (eps : ℝ) (maxIter : ℕ) (hm : 1 ≤ maxIter) : Noticed (emPredictF ptr rows eps maxIter) := by
  obtain ⟨r, hr, j, hj⟩ := h
  have hstep : ∀ p, emStepF ptr rows p = fun _ => Fl.nan := by
    intro p
    funext c
    unfold emStepF
    rw [list_sum_has_nan (List.mem_map.2 ⟨r, hr, ?_⟩), Fl.nan_div]
    unfold emPosteriorF
    dsimp only
    rw [Fl.sum_eq_nan Finset.univ _ (Finset.mem_univ j) (by rw [hj, Fl.nan_mul]), Fl.div_nan]
  obtain ⟨m, rfl⟩ : ∃ m, maxIter = m + 1 := ⟨maxIter - 1, by omega⟩
  unfold emPredictF emLoopF
  cases hc : emChange ptr (fun _ => 1) with
  | error e => exact trivial
  | ok v =>
    dsimp only
    rw [if_pos (Or.inr (by norm_num))]
    rw [hstep]
    cases m with
    | zero => exact ⟨j, rfl⟩
    | succ m =>
      unfold emLoopF
      have : emChange (fun _ : Fin k => Fl.nan) ptr = .error .valueError := by
        unfold emChange
        rw [if_neg]
        rintro ⟨⟨p, hp⟩, _⟩
        exact Fl.fin_ne_nan _ (congrFun hp j).symm
      simp only [this]
      exact trivial

theorem deBiasClip_nan : deBiasClip Fl.nan = fun _ => Fl.nan := by
  unfold deBiasClip
  dsimp only
  funext i
  rw [if_neg]
  · fin_cases i
    · show (1 - Fl.nan).clip01 = _
      rw [sub_nan, clip_nan]
    · rfl
  · show ¬ (0 : Fl) < (1 - Fl.nan).clip01 + Fl.nan.clip01
    rw [sub_nan, clip_nan, Fl.nan_add]
    exact Fl.not_lt_nan _

/-- **C148**: DeBias: a NaN in the bag makes both entries of the answer NaN. -/
theorem C148_debias_test_partial (f : DeBiasFit α) (rows : List (Fin 2 → Fl)) (r : Fin 2 → Fl) (hr : r ∈ rows) (h : r 1 = Fl.nan) : deBiasPredictF f rows = fun _ => Fl.nan := by
  unfold deBiasPredictF
  dsimp only
  rw [list_sum_has_nan (List.mem_map.2 ⟨r, hr, h⟩), Fl.nan_div, nan_sub, Fl.nan_div, Fl.add_nan, deBiasClip_nan]

/-- **C148**: DeBias: so does a NaN among the training predictions, for every bag. -/
theorem C148_debias_train_partial [LinearOrder α] (y : List α) (train : List (Fin 2 → Fl)) (r : Fin 2 → Fl) (hr : r ∈ train) (h : r 1 = Fl.nan) (f : DeBiasFit α)
    (hf : deBiasFitF y train = .ok f) (rows : List (Fin 2 → Fl)) : deBiasPredictF f rows = fun _ => Fl.nan := by
  have hv : f.vt = Fl.nan := by
    unfold deBiasFitF at hf
    split_ifs at hf
    injection hf with hf
    rw [← hf]
    dsimp only
    rw [list_sum_has_nan (List.mem_map.2 ⟨r, hr, by rw [h, nan_sub, sq_nan]⟩), Fl.nan_div, Fl.nan_div]
  unfold deBiasPredictF
  dsimp only
  rw [hv, Fl.div_nan, Fl.add_nan, deBiasClip_nan]

/-! ## Decompositions -/

section
variable {D ε σ β : Type}

theorem mapM_range_mem {γ : Type} {n : ℕ} {f : ℕ → Except Err γ} {l : List γ} (h : (List.range n).mapM f = .ok l) {i : ℕ} (hi : i < n) {v : γ} (hv : f i = .ok v) : v ∈ l := by
  have : ∀ (xs : List ℕ) (l : List γ), xs.mapM f = .ok l → i ∈ xs → v ∈ l := by
    intro xs
    induction xs with
    | nil => intro l _ h; simp at h
    | cons a xs ih =>
      intro l hl hm
      rw [List.mapM_cons] at hl
      cases ha : f a with
      | error e => rw [ha] at hl; cases hl
      | ok b =>
        rw [ha] at hl
        cases hx : xs.mapM f with
        | error e => rw [hx] at hl; cases hl
        | ok l' =>
          rw [hx] at hl
          have : l = b :: l' := by injection hl with hl; exact hl.symm
          subst this
          rcases List.mem_cons.1 hm with rfl | hm
          · rw [ha] at hv; injection hv with hv; simp [hv]
          · exact List.mem_cons_of_mem _ (ih l' hx hm)
  exact this _ l h (List.mem_range.2 hi)

/-- **C148**: one-versus-rest: if one of the binary quantifiers answers NaN, the answer has a NaN. -/
theorem C148_ovr_partial (Q : BinQuant D ε σ) (f : List β × List σ) (X : List D) (preds : Option (List (List ℝ))) (l : List Fl) (h : ovrPredict Q f X preds = .ok l)
    (i : ℕ) (hi : i < f.1.length) (hn : askCopy Q f.2 X preds i = .ok Fl.nan) : Fl.nan ∈ l := by
  unfold ovrPredict at h
  cases hm : (List.range f.1.length).mapM fun i => askCopy Q f.2 X preds i with
  | error e => rw [hm] at h; cases h
  | ok l' =>
    rw [hm] at h
    have hl : l = ovrNormalize l' := by injection h with h; exact h.symm
    have hmem := mapM_range_mem hm hi hn
    subst hl
    unfold ovrNormalize
    rw [list_sum_has_nan hmem, if_neg (Fl.not_lt_nan _)]
    exact hmem

theorem raiseFrom_nan [DecidableRel ((· < ·) : Fl → Fl → Prop)] (l : List Fl) : ∀ (prev : Fl) (i : ℕ), l[i]? = some Fl.nan → (raiseFrom prev l)[i]? = some Fl.nan := by
  induction l with
  | nil => intro _ _ h; simp at h
  | cons x l ih =>
    intro prev i h
    unfold raiseFrom
    cases i with
    | zero =>
      have hx : x = Fl.nan := by simpa using h
      simp [hx]
    | succ i =>
      simpa using ih _ i (by simpa using h)

theorem raiseAll_nan [DecidableRel ((· < ·) : Fl → Fl → Prop)] (l : List Fl) (i : ℕ) (h : l[i]? = some Fl.nan) : (raiseAll l)[i]? = some Fl.nan := by
  cases l with
  | nil => simp at h
  | cons x l =>
    unfold raiseAll
    cases i with
    | zero => simpa using h
    | succ i => simpa using raiseFrom_nan l x i (by simpa using h)

theorem lowerAll_nan [DecidableRel ((· < ·) : Fl → Fl → Prop)] (l : List Fl) : ∀ i : ℕ, l[i]? = some Fl.nan → (lowerAll l)[i]? = some Fl.nan := by
  induction l with
  | nil => intro _ h; simp at h
  | cons x l ih =>
    intro i h
    unfold lowerAll
    cases hl : lowerAll l with
    | nil =>
      cases i with
      | zero => simpa using h
      | succ i =>
        have := ih i (by simpa using h)
        rw [hl] at this
        simp at this
    | cons z zs =>
      cases i with
      | zero =>
        have hx : x = Fl.nan := by simpa using h
        simp [hx]
      | succ i =>
        have := ih i (by simpa using h)
        rw [hl] at this
        simpa using this

theorem correctAsc_nan (l : List Fl) (h : Fl.nan ∈ l) : Fl.nan ∈ correctAsc l := by
  obtain ⟨i, hi⟩ := List.mem_iff_getElem?.1 h
  unfold correctAsc
  split_ifs
  · exact h
  · refine List.mem_iff_getElem?.2 ⟨i, ?_⟩
    classical
    rw [List.getElem?_zipWith, raiseAll_nan l i hi, lowerAll_nan l i hi]
    simp

theorem fhqLoop_nan (l : List Fl) : ∀ done : List Fl, (Fl.nan ∈ done ∨ Fl.nan ∈ l) → Fl.nan ∈ fhqLoop done l := by
  induction l with
  | nil => intro done h; simpa [fhqLoop] using h
  | cons x l ih =>
    intro done h
    unfold fhqLoop
    refine ih _ ?_
    rcases h with h | h
    · exact Or.inl (List.mem_append_left _ h)
    · rcases List.mem_cons.1 h with h | h
      · left
        rw [← h, nan_sub, clip_nan]
        simp
      · exact Or.inr h

/-- **C148**: Frank and Hall: if one of the binary quantifiers answers NaN, the answer has a NaN. -/
theorem C148_fhq_partial (Q : BinQuant D ε σ) (f : List β × List σ) (X : List D) (preds : Option (List (List ℝ))) (l : List Fl) (h : fhqPredict Q f X preds = .ok l)
    (i : ℕ) (hi : i + 1 < f.1.length) (hn : askCopy Q f.2 X preds i = .ok Fl.nan) : Fl.nan ∈ l := by
  unfold fhqPredict at h
  cases hm : (List.range (f.1.length - 1)).mapM fun i => askCopy Q f.2 X preds i with
  | error e => rw [hm] at h; cases h
  | ok l' =>
    rw [hm] at h
    have hl : fhqClasses (correctAsc l') = .ok l := h
    have hmem := correctAsc_nan l' (mapM_range_mem hm (by omega) hn)
    revert hl hmem
    generalize correctAsc l' = c
    intro hl hmem
    cases c with
    | nil => simp at hmem
    | cons a c =>
      have : l = fhqLoop [a] c ++ [1 - (fhqLoop [a] c).sum] := by injection hl with hl; exact hl.symm
      rw [this]
      refine List.mem_append_left _ (fhqLoop_nan c [a] ?_)
      rcases List.mem_cons.1 hmem with h | h
      · exact Or.inl (by simp [h])
      · exact Or.inr h

end

/-! ## Methods that hide it -/

/-- **C148** refuted: PAC with two classes: one NaN among the training predictions of the positive column, and PAC answers as PCC does, without the adjustment and without a warning. -/
theorem C148_pac_train_refuted [DecidableEq α] (sol : Solvers) (dist : Dist) (classes : Fin 2 → α) (y : List α) (train : List (Fin 2 → Fl)) (cm : Fin 2 → Fin 2 → Fl)
    (hfit : pacFitF classes y train = .ok cm) (i : Fin 2) (r : Fin 2 → Fl) (hr : (classes i, r) ∈ y.zip train) (h : r 1 = Fl.nan)
    (rows : List (Fin 2 → ℝ)) (hne : rows ≠ []) (hrows : ∀ x ∈ rows, IsPrev x) :
    pacPredictF sol dist cm (floats rows) = .ok (pccF (floats rows)) ∧ IsPrevFl (pccF (floats rows)) := by
  have hlen : (rows.length : ℝ) ≠ 0 := by
    rw [Nat.cast_ne_zero]
    exact fun h => hne (List.length_eq_zero_iff.1 h)
  have hcm : cm i 1 = Fl.nan := by
    unfold pacFitF at hfit
    split_ifs at hfit
    injection hfit with hfit
    rw [← hfit]
    exact colMeansF_nan (selectRows_mem hr) h
  have hd : (cm 1 1 - cm 0 1).abs = Fl.nan := by
    fin_cases i
    · have : cm 0 1 = Fl.nan := hcm
      rw [this, sub_nan, abs_nan]
    · have : cm 1 1 = Fl.nan := hcm
      rw [this, nan_sub, abs_nan]
  have hmean : ∀ j, pccF (floats rows) j = Fl.fin ((rows.map fun r => r j).sum / rows.length) := fun j => by
    unfold pccF
    rw [colMeansF_floats]
    unfold colMeans
    rw [Fl.fin_div _ hlen]
  have hval : IsPrev fun j : Fin 2 => (rows.map fun r => r j).sum / (rows.length : ℝ) := by
    constructor
    · intro j
      exact div_nonneg (List.sum_nonneg (by simp only [List.mem_map]; rintro _ ⟨x, hx, rfl⟩; exact (hrows x hx).1 j)) (Nat.cast_nonneg _)
    · rw [Fin.sum_univ_two, ← add_div, ← List.sum_map_add]
      have : (rows.map fun r => r 0 + r 1) = rows.map fun _ => (1 : ℝ) := by
        refine List.map_congr_left fun x hx => ?_
        have := (hrows x hx).2
        rwa [Fin.sum_univ_two] at this
      rw [this, List.map_const', List.sum_replicate, nsmul_eq_mul, mul_one, div_self hlen]
  refine ⟨?_, _, hval, funext hmean⟩
  have e : colMeansF (floats rows) = fun j => Fl.fin ((rows.map fun r => r j).sum / rows.length) := funext hmean
  show Except.ok (binaryAdjust cm (colMeansF (floats rows))) = Except.ok (colMeansF (floats rows))
  rw [e, binaryAdjust_unadjusted cm _ hval (by rw [hd]; exact Fl.not_lt_nan _)]

theorem argmaxLoopF_nan (row : Fin k → Fl) (best : Fin k) (l : List (Fin k)) (h : row best = Fl.nan) : argmaxLoopF row best l = best := by
  cases l with
  | nil => rfl
  | cons i l => unfold argmaxLoopF; rw [if_pos h]

/-- **C148** refuted: CC: an example whose predictions are all NaN is a vote for the first class, so a bag of such examples is answered with prevalence 1 for that class. -/
theorem C148_cc_refuted [DecidableEq α] (c : α) (cs : List α) (hc : c ∉ cs) (rows : List (Fin (cs.length + 1) → Fl)) (hne : rows ≠ []) (h : ∀ r ∈ rows, ∀ j, r j = Fl.nan) :
    ccPredictF (c :: cs) rows = .ok fun i => if i = 0 then Fl.fin 1 else Fl.fin 0 := by
  have hlen : (rows.length : ℝ) ≠ 0 := by
    rw [Nat.cast_ne_zero]
    exact fun h => hne (List.length_eq_zero_iff.1 h)
  have h1 : ∀ (l : List (Fin (cs.length + 1) → Fl)), (∀ r ∈ l, ∀ j, r j = Fl.nan) → crispsF (c :: cs) l = .ok (List.replicate l.length c) := by
    intro l
    induction l with
    | nil => intro _; rfl
    | cons r l ih =>
      intro hl
      have hr : npArgmaxF r = some 0 := by
        unfold npArgmaxF
        rw [List.finRange_succ]
        dsimp only
        rw [argmaxLoopF_nan r 0 _ (hl r (by simp) 0)]
      have ih' := ih fun r' hr' => hl r' (by simp [hr'])
      unfold crispsF at ih' ⊢
      rw [List.mapM_cons, ih', hr]
      rfl
  unfold ccPredictF
  rw [h1 rows h]
  show Except.ok (classFreqs (c :: cs) (List.replicate rows.length c)) = Except.ok _
  congr 1
  funext i
  unfold classFreqs
  rw [List.length_replicate, Fl.fin_div _ hlen]
  refine Fin.cases ?_ (fun j => ?_) i
  · simp [hlen]
  · have : (c :: cs)[(j.succ : Fin (cs.length + 1))] ∈ cs := by simp
    rw [List.count_replicate, if_neg]
    · simp
    · intro e
      rw [beq_iff_eq] at e
      exact hc (e ▸ this)

/-- **C148** refuted: SORDy: as soon as a prediction, of the bag or of the training set, is NaN, the answer does not depend on the data any more: the prevalence of
the positive class is a number between `1 - tol / 2` and 1 that depends only on the tolerance. -/
theorem C148_sordy_refuted : ∃ p : ℝ → ℝ, ∀ (sort : List (Fl × ℤ) → List (Fl × ℤ)), (∀ l, (sort l).Perm l) → ∀ (tol : ℝ), 0 < tol → ∀ (f : SordyFitF) (test : List Fl),
    2 ≤ f.train.length + test.length → (Fl.nan ∈ test ∨ Fl.nan ∈ f.train.map Prod.fst) →
    sordyPredictF sort tol f test = .ok ![1 - p tol, p tol] ∧ 1 - tol / 2 ≤ p tol ∧ p tol ≤ 1 := by
  refine ⟨goldenBlind, fun sort hs tol htol f test h2 hn => ⟨?_, goldenBlind_bounds htol⟩⟩
  have hperm : (sordyUnionF sort f test).Perm (f.train ++ test.map fun u => (u, f.classes.max?.getD 0 + 1)) := hs _
  have hlen : 2 ≤ (sordyUnionF sort f test).length := by
    rw [hperm.length_eq]
    simpa using h2
  have hmem : Fl.nan ∈ (sordyUnionF sort f test).map Prod.fst := by
    rw [(hperm.map Prod.fst).mem_iff, List.map_append, List.mem_append, List.map_map]
    rcases hn with hn | hn
    · right
      simpa [Function.comp_def] using hn
    · exact Or.inl hn
  have hloss : sordyLossF f.classes (sordyUnionF sort f test) = fun _ => Fl.nan := by
    funext p
    unfold sordyLossF
    rw [sordF_nan]
    · rw [List.map_map]
      exact hmem
    · simpa using hlen
  unfold sordyPredictF
  dsimp only
  rw [if_neg (fun h => by rw [h] at hlen; simp at hlen), hloss, golden_nan htol]
  rfl

/-- **C148** refuted for SORDy, from the training set to the answer. -/
theorem C148_sordy_run_refuted : ∃ p : ℝ → ℝ, ∀ (sort : List (Fl × ℤ) → List (Fl × ℤ)), (∀ l, (sort l).Perm l) → ∀ (tol : ℝ), 0 < tol → ∀ (y : List ℤ) (probs test : List Fl),
    (labelsOf y).length ≤ 2 → probs.length = y.length → 2 ≤ y.length + test.length → (Fl.nan ∈ test ∨ Fl.nan ∈ probs) →
    (sordyFitF sort y probs >>= fun f => sordyPredictF sort tol f test) = .ok ![1 - p tol, p tol] ∧ 1 - tol / 2 ≤ p tol ∧ p tol ≤ 1 := by
  obtain ⟨p, hp⟩ := C148_sordy_refuted
  refine ⟨p, fun sort hs tol htol y probs test h2 hl hlen hn => ?_⟩
  have hz : (sort (probs.zip y)).Perm (probs.zip y) := hs _
  have hf : sordyFitF sort y probs = .ok ⟨npUnique y, sort (probs.zip y)⟩ := if_neg (not_lt.2 h2)
  rw [hf]
  refine hp sort hs tol htol ⟨npUnique y, sort (probs.zip y)⟩ test ?_ (hn.imp id fun hn => ?_)
  · rw [hz.length_eq, List.length_zip, hl, min_self]
    exact hlen
  · rw [(hz.map Prod.fst).mem_iff, List.map_fst_zip hl.le]
    exact hn

theorem le_nanToZero {p : ℝ} (hp : 0 < p) (x : Fl) : Fl.fin p ≤ x ↔ Fl.fin p ≤ nanToZero x := by
  cases x with
  | nan =>
    refine ⟨fun h => h.elim, fun h => ?_⟩
    have : p ≤ 0 := h
    linarith
  | fin x => rfl
  | pinf => rfl
  | ninf => rfl

theorem friedmanRowF_nan {nc : ℕ} (prevs : Fin nc → ℝ) (hp : ∀ j, 0 < prevs j) (row : Fin nc → Fl) : friedmanRowF prevs row = friedmanRowF prevs fun j => nanToZero (row j) := by
  funext j
  unfold friedmanRowF
  by_cases h : Fl.fin (prevs j) ≤ row j
  · rw [if_pos h, if_pos ((le_nanToZero (hp j) _).1 h)]
  · rw [if_neg h, if_neg fun h' => h ((le_nanToZero (hp j) _).2 h')]

/-- **C148** refuted: FriedmanME: a NaN of the bag is taken for a zero. -/
theorem C148_friedman_refuted {nc : ℕ} (fit : FriedmanFit nc) (hp : ∀ j, 0 < fit.prevs j) (rows : List (Fin nc → Fl)) :
    friedmanTestF fit rows = friedmanTestF fit (rows.map fun r j => nanToZero (r j)) := by
  unfold friedmanTestF
  rw [List.map_map]
  congr 2
  funext r
  exact friedmanRowF_nan fit.prevs hp r

theorem countP_usable (rows : List (Fin k → Fl)) (j : Fin k) (P : Fl → Bool) (hP : P Fl.nan = false) :
    (rows.map fun r => r j).countP P = ((usable rows j).map fun r => r j).countP P := by
  unfold usable
  induction rows with
  | nil => rfl
  | cons r rows ih =>
    by_cases h : r j = Fl.nan
    · rw [List.filter_cons_of_neg (by simp [h]), ← ih, List.map_cons, List.countP_cons_of_neg (by simp [h, hP])]
    · rw [List.filter_cons_of_pos (by simp [h]), List.map_cons, List.map_cons, List.countP_cons, List.countP_cons, ih]

theorem npHistogramF_usable (rows : List (Fin k → Fl)) (j : Fin k) {n : ℕ} (edges : Fin (n + 1) → EReal) :
    npHistogramF (rows.map fun r => r j) edges = npHistogramF ((usable rows j).map fun r => r j) edges := by
  have h : ∀ i, histCumF (rows.map fun r => r j) edges i = histCumF ((usable rows j).map fun r => r j) edges i := by
    intro i
    unfold histCumF
    rw [countP_usable rows j _ (@decide_eq_false _ (Classical.propDecidable _) fun h : Fl.upto Fl.nan _ => h),
      countP_usable rows j _ (@decide_eq_false _ (Classical.propDecidable _) fun h : Fl.before Fl.nan _ => h)]
  unfold npHistogramF
  simp only [h]

theorem cumsum_scale {n : ℕ} (c : ℝ) (v : Fin n → ℝ) : cumsum (fun i => c * v i) = fun i => c * cumsum v i := by
  funext i
  unfold cumsum
  rw [Finset.mul_sum]
  refine Finset.sum_congr rfl fun j _ => ?_
  split_ifs <;> simp

theorem accumulate_scale (f : DistFun) {nd nb : ℕ} (c : ℝ) (v : Fin nd → Fin nb → ℝ) : accumulate .whole f (fun d b => c * v d b) = fun i => c * accumulate .whole f v i := by
  cases f with
  | pdf => rfl
  | cdf => exact cumsum_scale c (stackBlocks v)

/-- **C148** refuted: DFy with two classes: the examples whose prediction is NaN are left out of the histogram but still counted in its size, so what is compared with the training distributions is the
distribution of the others made smaller, and the solvers answer as usual. -/
theorem C148_dfy_refuted (cfg : DfCfg) (fit : DfFit (nDescriptors 2) cfg.nBins 2) (rows : List (Fin 2 → Fl)) (hu : usable rows 0 ≠ []) (q : Fin (nDescriptors 2 * cfg.nBins) → ℝ)
    (hq : dfyTestF cfg fit (usable rows 0) = .ok q) (hq0 : ∀ i, 0 ≤ q i) (sv : CvxSolver) (qp : QPSolver) (tol : ℝ) (par : QPParams 2 (2 + 1)) :
    dfyTestF cfg fit rows = .ok (fun i => ((usable rows 0).length : ℝ) / (rows.length : ℝ) * q i)
    ∧ dfSolve sv qp tol .hd fit.train par (fun i => ((usable rows 0).length : ℝ) / (rows.length : ℝ) * q i)
      = .ok (some ⟨2, sv.solve .hd fit.train (fun i => ((usable rows 0).length : ℝ) / (rows.length : ℝ) * q i) none⟩) := by
  have hlen : ((usable rows 0).length : ℝ) ≠ 0 := by
    rw [Nat.cast_ne_zero]
    exact fun h => hu (List.length_eq_zero_iff.1 h)
  constructor
  · unfold dfyTestF at hq ⊢
    cases hv : seqFin fun d : Fin (nDescriptors 2) => (npHistogramF ((usable rows 0).map fun row => row (Fin.castLE (nDescriptors_le 2) d)) (fit.cuts d)).map
        fun h b => (h b / ((usable rows 0).length : ℝ) : ℝ) with
    | error e => rw [hv] at hq; cases hq
    | ok v =>
      rw [hv] at hq
      have hq' : accumulate .whole cfg.f v = q := by injection hq
      rw [seqFin_ok] at hv
      have : seqFin (fun d : Fin (nDescriptors 2) => (npHistogramF (rows.map fun row => row (Fin.castLE (nDescriptors_le 2) d)) (fit.cuts d)).map
          fun h b => (h b / (rows.length : ℝ) : ℝ)) = .ok fun d b => ((usable rows 0).length : ℝ) / (rows.length : ℝ) * v d b := by
        rw [seqFin_ok]
        intro d
        have hd : Fin.castLE (nDescriptors_le 2) d = 0 := by
          apply Fin.ext
          have : (d : ℕ) < 1 := d.2
          simp
          omega
        have := hv d
        rw [hd] at this ⊢
        rw [npHistogramF_usable rows 0]
        cases hh : npHistogramF ((usable rows 0).map fun r => r 0) (fit.cuts d) with
        | error e => rw [hh] at this; cases this
        | ok h =>
          rw [hh] at this
          have e : (fun b => h b / ((usable rows 0).length : ℝ)) = v d := by injection this
          show Except.ok _ = Except.ok _
          congr 1
          funext b
          rw [← e]
          field_simp
      rw [this]
      show Except.ok (accumulate .whole cfg.f fun d b => ((usable rows 0).length : ℝ) / (rows.length : ℝ) * v d b) = _
      rw [accumulate_scale, hq']
  · have h0 : ∀ i, 0 ≤ ((usable rows 0).length : ℝ) / (rows.length : ℝ) * q i := fun i => mul_nonneg (by positivity) (hq0 i)
    have hset : setParameter (nDescriptors 2 * cfg.nBins) ⟨_, fun i => ((usable rows 0).length : ℝ) / (rows.length : ℝ) * q i⟩ = .ok fun i => ((usable rows 0).length : ℝ) / (rows.length : ℝ) * q i := by
      unfold setParameter
      simp [h0]
    simp only [dfSolve, solveCvx, hset]
    rfl

/-! ## Concrete cases -/

/-- A bag of three examples, for one of which the classifier failed: PCC and EM notice it, and so do DeBias and PAC. -/
example : let bag : List (Fin 2 → Fl) := [![Fl.fin (1/4), Fl.fin (3/4)], ![Fl.nan, Fl.nan], ![Fl.fin (1/2), Fl.fin (1/2)]]
    HasNan bag ∧ pccF bag 1 = Fl.nan ∧ Noticed (emPredictF ![Fl.fin (1/2), Fl.fin (1/2)] bag (1/1000) 100)
    ∧ deBiasPredictF (⟨[0, 1], ![Fl.fin (1/2), Fl.fin (1/2)], Fl.fin (1/2)⟩ : DeBiasFit ℕ) bag = fun _ => Fl.nan := by
  intro bag
  have hb : HasNan bag := ⟨![Fl.nan, Fl.nan], by simp [bag], 0, rfl⟩
  exact ⟨hb, C148_pcc_partial bag ![Fl.nan, Fl.nan] (by simp [bag]) 1 rfl, C148_em_partial _ _ hb _ _ (by norm_num),
    C148_debias_test_partial _ _ ![Fl.nan, Fl.nan] (by simp [bag]) rfl⟩

/-- Three classes and the identity matrix: PAC answers NaN for every class although only one prediction is NaN. -/
example (sol : Solvers) : pacPredictF sol .HD (fun i j => Fl.fin ((1 : Matrix (Fin 3) (Fin 3) ℝ) i j)) [![Fl.fin 1, Fl.fin 0, Fl.fin 0], ![Fl.fin 0, Fl.fin 1, Fl.nan]] = .ok fun _ => Fl.nan :=
  C148_pac_many_partial sol .HD (by norm_num) 1 (by simp) _ ⟨![Fl.fin 0, Fl.fin 1, Fl.nan], by simp, 2, rfl⟩

/-- Three classes and a training prediction that is NaN: PAC raises a ValueError. -/
example (sol : Solvers) (rows : List (Fin 3 → Fl)) :
    ∃ cm, pacFitF (α := ℕ) ![0, 1, 2] [0, 1, 2] [![Fl.fin 1, Fl.fin 0, Fl.fin 0], ![Fl.fin 0, Fl.nan, Fl.fin 0], ![Fl.fin 0, Fl.fin 0, Fl.fin 1]] = .ok cm ∧ pacPredictF sol .L2 cm rows = .error .valueError := by
  refine ⟨_, if_pos rfl, ?_⟩
  exact C148_pac_train_partial (α := ℕ) sol .L2 (by norm_num) ![0, 1, 2] [0, 1, 2] [![Fl.fin 1, Fl.fin 0, Fl.fin 0], ![Fl.fin 0, Fl.nan, Fl.fin 0], ![Fl.fin 0, Fl.fin 0, Fl.fin 1]] _
    (if_pos rfl) 1 ![Fl.fin 0, Fl.nan, Fl.fin 0] (by simp) 1 rfl rows

/-- Two classes and a training prediction that is NaN: PAC answers, and does not adjust. -/
example (sol : Solvers) : ∃ cm, pacFitF (α := ℕ) ![0, 1] [0, 0, 1] [![Fl.fin 1, Fl.fin 0], ![Fl.nan, Fl.nan], ![Fl.fin (1/2), Fl.fin (1/2)]] = .ok cm
    ∧ pacPredictF sol .L2 cm (floats [![1/2, 1/2]]) = .ok (pccF (floats [![1/2, 1/2]])) := by
  refine ⟨_, if_pos rfl, ?_⟩
  refine (C148_pac_train_refuted (α := ℕ) sol .L2 ![0, 1] [0, 0, 1] [![Fl.fin 1, Fl.fin 0], ![Fl.nan, Fl.nan], ![Fl.fin (1/2), Fl.fin (1/2)]] _
    (if_pos rfl) 0 ![Fl.nan, Fl.nan] (by simp) rfl [![1/2, 1/2]] (by simp) ?_).1
  intro x hx
  have : x = ![1/2, 1/2] := by simpa using hx
  subst this
  exact ⟨fun i => by fin_cases i <;> norm_num, by rw [Fin.sum_univ_two]; norm_num⟩

/-- Two classes, two examples without predictions: CC answers that all are of the first class. -/
example : ccPredictF ["neg", "pos"] [![Fl.nan, Fl.nan], ![Fl.nan, Fl.nan]] = .ok fun i => if i = 0 then Fl.fin 1 else Fl.fin 0 :=
  C148_cc_refuted "neg" ["pos"] (by simp) _ (by simp) (by
    intro r hr j
    have : r = ![Fl.nan, Fl.nan] := by simpa using hr
    subst this
    fin_cases j <;> rfl)

/-- Two bags with nothing in common but a NaN, and two training sets: SORDy gives the same answer. -/
example (sort : List (Fl × ℤ) → List (Fl × ℤ)) (hs : ∀ l, (sort l).Perm l) :
    sordyPredictF sort (1/1000) ⟨[0, 1], [(Fl.fin 0, 0), (Fl.fin 1, 1)]⟩ [Fl.fin 0, Fl.fin 0, Fl.nan]
      = sordyPredictF sort (1/1000) ⟨[3, 5], [(Fl.fin (1/2), 3), (Fl.fin 1, 5)]⟩ [Fl.fin 1, Fl.nan] := by
  obtain ⟨p, hp⟩ := C148_sordy_refuted
  rw [(hp sort hs (1/1000) (by norm_num) ⟨[0, 1], [(Fl.fin 0, 0), (Fl.fin 1, 1)]⟩ [Fl.fin 0, Fl.fin 0, Fl.nan] (by simp) (Or.inl (by simp))).1,
    (hp sort hs (1/1000) (by norm_num) ⟨[3, 5], [(Fl.fin (1/2), 3), (Fl.fin 1, 5)]⟩ [Fl.fin 1, Fl.nan] (by simp) (Or.inl (by simp))).1]

/-- One bin, a bag of two examples, one of them without a prediction: the test distribution is 1/2 instead of 1. -/
example : dfyTestF ⟨.pdf, 1, .equalWidth⟩ ⟨fun _ => ![⊥, ⊤], fun _ _ => 1⟩ ([![Fl.fin (1/3), Fl.fin (2/3)], ![Fl.nan, Fl.nan]] : List (Fin 2 → Fl)) = .ok fun _ => 1/2 := by
  have hu : usable ([![Fl.fin (1/3), Fl.fin (2/3)], ![Fl.nan, Fl.nan]] : List (Fin 2 → Fl)) 0 = [![Fl.fin (1/3), Fl.fin (2/3)]] := by
    unfold usable
    rw [List.filter_cons_of_pos (by simp), List.filter_cons_of_neg (by simp)]
    rfl
  have hq : dfyTestF ⟨.pdf, 1, .equalWidth⟩ ⟨fun _ => ![⊥, ⊤], fun _ _ => 1⟩ ([![Fl.fin (1/3), Fl.fin (2/3)]] : List (Fin 2 → Fl)) = .ok fun _ => 1 := by
    unfold dfyTestF
    rw [(seqFin_ok _ fun _ _ => 1).2]
    · rfl
    · intro d
      have hd : Fin.castLE (nDescriptors_le 2) d = 0 := by
        apply Fin.ext
        have : (d : ℕ) < 1 := d.2
        simp
        omega
      unfold npHistogramF
      rw [if_pos (by intro i; fin_cases i; simp), hd]
      show Except.ok _ = Except.ok _
      congr 1
      funext b
      have hb : b = 0 := by
        have h1 : (b : ℕ) < 1 := b.2
        exact Fin.ext (Nat.lt_one_iff.1 h1)
      subst hb
      simp [histCumF, Fl.upto, Fl.before]
  have h := (C148_dfy_refuted ⟨.pdf, 1, .equalWidth⟩ ⟨fun _ => ![⊥, ⊤], fun _ _ => 1⟩ [![Fl.fin (1/3), Fl.fin (2/3)], ![Fl.nan, Fl.nan]] (by rw [hu]; simp) (fun _ => 1) (by rw [hu]; exact hq)
    (fun _ => zero_le_one) ⟨fun _ _ _ _ _ => 0⟩ (fun _ => .error .valueError) 1 ⟨fun _ _ => 0, fun _ _ => 0, fun _ => 0⟩).1
  rw [h, hu]
  norm_num

end Verif.Props
