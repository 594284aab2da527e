import Verif.Model.EmptyBag
import Verif.Props.NanPreds
import Verif.Props.Search
import Verif.Props.SearchErrors
import Verif.Props.Sord
import Verif.Props.TrainOrder
import Verif.Props.EM
import Verif.Props.Quanty
import Verif.Proof.Ordinal

/-!
# C153: a bag without predictions
-/

namespace Verif.Props

open Verif.Model Verif.Spec Verif.Proof

variable {σ D α : Type*} {k : ℕ}

/-! ## The model on bags that are not empty -/

/-- The division of NumPy makes no difference for bags with examples. -/
theorem dfyTestFl_not_empty {nc : ℕ} (cfg : DfCfg) (fit : DfFit (nDescriptors nc) cfg.nBins nc) (preds : List (Fin nc → ℝ)) (h : preds ≠ []) :
    dfyTestFl cfg fit preds = (dfTest .whole cfg (dfyAtt nc) fit preds).map fun v i => Fl.fin (v i) := by
  have hl : (preds.length : ℝ) ≠ 0 := by simpa using h
  unfold dfyTestFl dfTest histBlocks
  rw [seqFin_map (fun d => npHistogram (preds.map (dfyAtt nc d)) (fit.cuts d)) fun _ h b => h b / (preds.length : ℝ)]
  cases seqFin fun d => npHistogram (preds.map (dfyAtt nc d)) (fit.cuts d) with
  | error e => rfl
  | ok v =>
    show Except.ok _ = Except.ok _
    congr 1
    unfold accumulate
    cases cfg.f with
    | pdf =>
      funext i
      show Fl.fin _ / Fl.fin _ = _
      rw [Fl.fin_div _ hl]
      rfl
    | cdf =>
      funext i
      show cumsumF _ _ = Fl.fin (cumsum _ _)
      unfold cumsumF cumsum
      rw [← Fl.sum_fin]
      refine Finset.sum_congr rfl fun j _ => ?_
      split_ifs
      · exact Fl.fin_div _ hl
      · rfl

/-! ## Methods whose answer is NaN, or that raise -/

theorem classFreqs_nil [DecidableEq α] (classes : List α) : classFreqs classes [] = fun _ => Fl.nan := by
  funext i
  unfold classFreqs
  simp [Fl.zero_div_zero]

theorem colMeans_nil : colMeans ([] : List (Fin k → ℝ)) = fun _ => Fl.nan := by
  funext j
  unfold colMeans
  simp [Fl.zero_div_zero]

theorem binaryAdjust_all_nan (cm : Fin 2 → Fin 2 → Fl) : binaryAdjust cm (fun _ => Fl.nan) = fun _ => Fl.nan := by
  have key : ∀ prev : Fin 2 → Fl, prev = (fun _ => Fl.nan) → ∀ d : Decidable (Fl.fin 0 < ∑ i, (prev i).clip01),
      (@ite _ (Fl.fin 0 < ∑ i, (prev i).clip01) d (fun i => (prev i).clip01 / ∑ i, (prev i).clip01) fun i => (prev i).clip01) = fun _ => Fl.nan := by
    rintro prev rfl d
    rw [if_neg]
    · funext i
      exact clip_nan
    · rw [Fin.sum_univ_two, clip_nan, Fl.nan_add]
      exact Fl.not_lt_nan _
  unfold binaryAdjust
  dsimp only
  refine key _ ?_ _
  by_cases hd : Fl.fin (1/1000) < (cm 1 1 - cm 0 1).abs
  · rw [if_pos hd, nan_sub, Fl.nan_div, sub_nan]
    funext i
    fin_cases i <;> rfl
  · rw [if_neg hd]

/-- The adjustment of an observation that is not made of numbers. -/
theorem adjust_all_nan (sol : Solvers) (dist : Dist) {n : ℕ} (cm : Fin n → Fin n → Fl) (h : n = 2 ∨ 0 < n ∧ ∃ M : Matrix (Fin n) (Fin n) ℝ, M.det ≠ 0 ∧ cm = fun i j => Fl.fin (M i j)) :
    adjust sol dist cm (fun _ => Fl.nan) = .ok fun _ => Fl.nan := by
  by_cases h2 : n = 2
  · subst h2
    exact congrArg Except.ok (binaryAdjust_all_nan cm)
  · obtain ⟨hn, M, hM, rfl⟩ := h.resolve_left h2
    rw [adjust_ne_two sol dist h2]
    unfold multiAdjust
    have h1 : scipyInv (fun i j => Fl.fin (M j i)) = .ok fun i j => Fl.fin (M.transpose⁻¹ i j) := by
      have := scipyInv_fin M.transpose
      rw [if_neg (by rwa [Matrix.det_transpose])] at this
      exact this
    have h2 : ∀ i, (∑ l, Fl.fin (M.transpose⁻¹ i l) * Fl.nan) = Fl.nan := fun i => Fl.sum_eq_nan Finset.univ _ (Finset.mem_univ ⟨0, hn⟩) (by rw [Fl.mul_nan])
    simp only [h1]
    congr 1
    funext i
    have h3 : ∀ x : Fl, x = Fl.nan → ∀ d : Decidable (x < 0), (@ite _ (x < 0) d 0 x) = Fl.nan := fun x hx d => by
      rw [if_neg (by rw [hx]; exact Fl.not_nan_lt _), hx]
    rw [h3 _ (h2 i), Fl.nan_div]

/-- **C153**: CC and PCC answer NaN for every class. -/
theorem C153_counting_partial [DecidableEq α] (ops : EstOps σ D α k) (enc : Bool → α) (w : World σ D α) (et : Option ℕ) (classes : List α) (X : List D) :
    ccPredict ops enc w et classes X (some (.crisp [])) = .ok (fun _ => Fl.nan)
    ∧ ccPredict ops enc w et classes X (some (.probs [])) = .ok (fun _ => Fl.nan)
    ∧ pccPredict ops enc w et classes X (some (.probs [])) = .ok (fun _ => Fl.nan) := by
  refine ⟨?_, ?_, ?_⟩
  · cases et <;> exact congrArg Except.ok (classFreqs_nil classes)
  · cases et <;> exact congrArg Except.ok (classFreqs_nil classes)
  · cases et <;> exact congrArg Except.ok colMeans_nil

/-- **C153**: ACOrdinal raises ValueError, after any history of calls. -/
theorem C153_ac_ordinal_partial [DecidableEq α] (ops : EstOps σ D α k) (enc : Bool → α) (w : World σ D α) (et et' : Option ℕ) (sv : CvxSolver) (s : WarmState (AcoFit α)) (hc : s.fitted.classes ≠ []) (X : List D) :
    (acoPredict ops enc w et et' sv s (X, some (.crisp []))).2 = .error .valueError := by
  have hu : usingPredict ops enc w ⟨et, et', true, false⟩ s.fitted.classes X (some (.crisp [])) = .ok (.crisp []) := by cases et' <;> rfl
  have hl : 0 < s.fitted.classes.length := List.length_pos_iff.2 hc
  have h0 : accumArr (classFreqs s.fitted.classes []) ⟨0, hl⟩ = Fl.nan := by
    unfold accumArr
    rw [accumLoop_eq _ _ _ hl, running, dif_pos hl, classFreqs_nil]
  have hprep : (acoQ ops enc w et et').prep s.fitted (X, some (.crisp [])) = .error .valueError := by
    unfold acoQ
    dsimp only
    rw [hu]
    dsimp only
    refine if_neg fun h => ?_
    have := h.2 ⟨0, hl⟩
    rw [h0] at this
    exact this
  unfold acoPredict warmPredict
  rw [hprep]

/-- Two classes. -/
example (sv : CvxSolver) : (acoPredict (σ := Unit) (D := Unit) (k := 2) ⟨fun _ => false, fun s _ _ => s, fun _ X => X.map fun _ => 0, fun _ X => X.map fun _ _ => 0⟩ (fun b => if b then 1 else 0) ⟨fun _ => (), []⟩ none none sv
    (warmFit ⟨[0, 1], fun _ _ => Fl.fin 1, fun _ _ => Fl.fin 1⟩) ([], some (.crisp []))).2 = .error .valueError := C153_ac_ordinal_partial _ _ _ _ _ _ _ (by simp [warmFit]) _
/-- **C153**: so do AC and PAC with two classes, or with an invertible matrix. -/
theorem C153_adjusted_partial [DecidableEq α] (f : ACFit α) (ops : EstOps σ D α f.classes.length) (enc : Bool → α) (w : World σ D α) (et et' : Option ℕ) (sol : Solvers) (dist : Dist) (X : List D)
    (h : f.classes.length = 2 ∨ 0 < f.classes.length ∧ ∃ M : Matrix (Fin f.classes.length) (Fin f.classes.length) ℝ, M.det ≠ 0 ∧ f.cm = fun i j => Fl.fin (M i j)) :
    acPredict ops enc w et et' sol dist f X (some (.crisp [])) = .ok (fun _ => Fl.nan)
    ∧ pacPredict ops enc w et et' sol dist f X (some (.probs [])) = .ok (fun _ => Fl.nan) := by
  have hc : usingPredict ops enc w ⟨et, et', true, false⟩ f.classes X (some (.crisp [])) = .ok (.crisp []) := by cases et' <;> rfl
  have hp : usingPredict ops enc w ⟨et, et', true, true⟩ f.classes X (some (.probs [])) = .ok (.probs []) := by cases et' <;> rfl
  constructor
  · unfold acPredict
    rw [hc]
    dsimp only
    rw [classFreqs_nil]
    exact adjust_all_nan sol dist f.cm h
  · unfold pacPredict
    rw [hp]
    dsimp only
    rw [dif_pos rfl, colMeans_nil]
    exact adjust_all_nan sol dist f.cm h

/-- **C153**: DeBias answers NaN. -/
theorem C153_debias_partial (f : DeBiasFit α) : deBiasPredict f [] = fun _ => Fl.nan := by
  unfold deBiasPredict
  have : ((([] : List (Fin 2 → ℝ)).map fun row => Fl.fin (row 1)).sum / Fl.fin ((([] : List (Fin 2 → ℝ)).length : ℕ) : ℝ)) = Fl.nan := by simp [Fl.zero_div_zero]
  dsimp only
  rw [this, nan_sub, Fl.nan_div, Fl.add_nan, deBiasClip_nan]

/-- **C153**: EM raises a ValueError, for limits of at least two iterations. -/
theorem C153_em_partial [LinearOrder α] (y : List α) (hy : y ≠ []) (eps : ℝ) (maxIter : ℕ) (hm : 2 ≤ maxIter) : emPredict (emFit (labelsOf y) y) [] eps maxIter = .error .valueError :=
  C130_em_rejects_partial y hy [] (Or.inl rfl) eps maxIter hm

/-- **C153**: QUANTy raises an exception; its distance is a metric of the library, which rejects NaN. -/
theorem C153_quanty_partial [DecidableEq α] (n : ℕ) (dist : (Fin n → Fl) → (Fin n → Fl) → Fl) (tol : ℝ) (d : α) (s : MixState (QuantyFit α) (Fin n → Fl)) : ∃ e, (quantyPredict n dist tol d s []).2 = .error e := by
  obtain ⟨e, he⟩ : ∃ e, (quantyQ n dist tol d).test s.fitted [] = .error e := by
    unfold quantyQ
    dsimp only
    cases computeQuantiles none ([] : List ℝ).length (fun i => (([] : List ℝ).mergeSort (fun a b => decide (a ≤ b))).getD i 0) n (fun _ => d) d d with
    | error e => exact ⟨e, rfl⟩
    | ok q =>
      dsimp only
      rw [if_pos rfl]
      split_ifs
      · exact ⟨_, rfl⟩
      · exact ⟨_, rfl⟩
  refine ⟨e, ?_⟩
  unfold quantyPredict mixPredict
  rw [he]
  rfl

/-! ## Distribution matching with a distance function -/

theorem dfyTestFl_empty {nc : ℕ} (cfg : DfCfg) (fit : DfFit (nDescriptors nc) cfg.nBins nc) (hm : ∀ d (i : Fin cfg.nBins), fit.cuts d i.castSucc ≤ fit.cuts d i.succ) :
    dfyTestFl cfg fit [] = .ok fun _ => Fl.nan := by
  have h0 : (seqFin fun d => npHistogram (([] : List (Fin nc → ℝ)).map (dfyAtt nc d)) (fit.cuts d)) = .ok fun _ _ => 0 := (seqFin_ok _ _).2 fun d => by
    unfold npHistogram
    rw [if_pos (hm d)]
    congr 1
    funext i
    unfold histCum
    simp
  unfold dfyTestFl
  rw [h0]
  show Except.ok _ = Except.ok _
  have hs : (fun i : Fin (nDescriptors nc * cfg.nBins) => Fl.fin (stackBlocks (fun _ _ => (0 : ℝ)) i) / Fl.fin ((([] : List (Fin nc → ℝ)).length : ℕ) : ℝ)) = fun _ => Fl.nan := by
    funext i
    show Fl.fin 0 / Fl.fin ((0 : ℕ) : ℝ) = _
    rw [Nat.cast_zero, Fl.zero_div_zero]
  congr 1
  cases cfg.f with
  | pdf => exact hs
  | cdf =>
    show cumsumF _ = _
    rw [hs]
    funext i
    unfold cumsumF
    exact Fl.sum_eq_nan Finset.univ _ (Finset.mem_univ i) (if_pos le_rfl)

/-- **C153**: DFy with a distance that rejects arrays with NaN, as all the metrics of the library do, raises its exception. -/
theorem C153_dfy_library_partial (tol : ℝ) (cfg : DfCfg) (dist : NdArr Fl → NdArr Fl → Except Err Fl) (fit : DfFit (nDescriptors 2) cfg.nBins 2)
    (hm : ∀ d (i : Fin cfg.nBins), fit.cuts d i.castSucc ≤ fit.cuts d i.succ) (hd : ∀ a, dist a (.col fun _ : Fin (nDescriptors 2 * cfg.nBins) => Fl.nan) = .error .valueError) :
    dfySearchFl tol cfg dist fit [] = .error .valueError := by
  unfold dfySearchFl
  rw [dfyTestFl_empty cfg fit hm]
  show (globalSearchFl _ _ _ _ >>= _) = _
  unfold globalSearchFl
  rw [show List.range 101 = 0 :: (List.range 100).map (· + 1) from rfl, List.mapM_cons, hd]
  rfl

theorem globalSearchFl_nan {tol : ℝ} (htol : 0 < tol) {m : ℕ} (dist : NdArr Fl → NdArr Fl → Except Err Fl) (mix : ℝ → Fin m → ℝ) (hd : ∀ a, dist a (.col fun _ : Fin m => Fl.nan) = .ok Fl.nan) :
    ∃ p, globalSearchFl dist mix (fun _ => Fl.nan) tol = .ok (some p) ∧ 98 / 100 ≤ p ∧ p ≤ 1 := by
  obtain ⟨loss, p, u, v, h1, h2, h3, -⟩ := (C30_golden_section_bracket (fun _ => Fl.nan) tol (98 / 100) 1 (by norm_num) htol).1
  refine ⟨p, ?_, h2, h3⟩
  have hlosses : ((List.range 101).mapM fun i : ℕ => dist (.vec _ fun j => Fl.fin (mix ((i : ℝ) / 100) j)) (.col fun _ : Fin m => Fl.nan)) = .ok (List.replicate 101 Fl.nan) := by
    rw [mapM_ok _ _ (fun _ => Fl.nan) fun _ _ => hd _, List.map_const', List.length_range]
  have hn : ∀ i, i ≤ 100 → (List.replicate 101 Fl.nan).getD i 0 = Fl.nan := fun i hi => by
    rw [List.getD_eq_getElem _ _ (by simp; omega), List.getElem_replicate]
  have hscan : ∀ (search : ℝ → ℝ → Except Err (Fl × ℝ)) (l : List ℕ), (∀ i ∈ l, i ≤ 100) → ∀ st, globalScan (fun i => (List.replicate 101 Fl.nan).getD i 0) search l st = .ok st := by
    intro search l
    induction l with
    | nil => intro _ st; rfl
    | cons i l ih =>
      rintro hl ⟨nMins, best, q⟩
      unfold globalScan
      rw [if_neg]
      · exact ih (fun j hj => hl j (List.mem_cons_of_mem _ hj)) _
      · rintro ⟨h, -⟩
        rw [hn i (hl i (List.mem_cons_self ..))] at h
        exact Fl.not_lt_nan _ h
  unfold globalSearchFl
  rw [hlosses]
  show globalCore _ _ = _
  unfold globalCore
  rw [hscan _ _ (by simp; omega)]
  simp only [if_true]
  rw [if_neg (by rw [hn 0 (by norm_num)]; intro h; exact h), if_neg (by rw [hn 100 le_rfl]; exact Fl.not_lt_nan _), C118_no_exception_partial _ (fun _ => Fl.nan) tol _ _ (by norm_num) fun p _ _ => hd _, h1]
  rfl

/-- **C153** is false of DFy with a distance that gives NaN when it is given NaN, as those written with NumPy do: the answer for an empty bag is that at least 98% of it is positive, whatever the training set. -/
theorem C153_dfy_refuted (tol : ℝ) (htol : 0 < tol) (cfg : DfCfg) (dist : NdArr Fl → NdArr Fl → Except Err Fl) (fit : DfFit (nDescriptors 2) cfg.nBins 2)
    (hm : ∀ d (i : Fin cfg.nBins), fit.cuts d i.castSucc ≤ fit.cuts d i.succ) (hd : ∀ a, dist a (.col fun _ : Fin (nDescriptors 2 * cfg.nBins) => Fl.nan) = .ok Fl.nan) :
    ∃ v : Fin 2 → ℝ, dfySearchFl tol cfg dist fit [] = .ok (some v) ∧ IsPrev v ∧ 98 / 100 ≤ v 1 := by
  obtain ⟨p, h1, h2, h3⟩ := globalSearchFl_nan htol dist (fun p => mixtureOfPdfs p (fun i => fit.train i 1) (fun i => fit.train i 0)) hd
  refine ⟨![1 - p, p], ?_, ⟨fun i => ?_, by simp⟩, h2⟩
  · unfold dfySearchFl
    rw [dfyTestFl_empty cfg fit hm]
    show (globalSearchFl _ _ _ _ >>= _) = _
    rw [h1]
    rfl
  · fin_cases i
    · show 0 ≤ 1 - p
      linarith
    · show 0 ≤ p
      linarith

/-! ## SORDy -/

/-- **C153** is false of SORDy: for every training set with two classes it answers with valid prevalences. The examples of the second class are taken for the bag. -/
theorem C153_sordy_refuted (sort : List (ℝ × ℤ) → List (ℝ × ℤ)) (hsort : IsSort sort) (tol : ℝ) (htol : 0 < tol) (y : List ℤ) (probs : List ℝ) (hlen : probs.length = y.length) (hcls : (labelsOf y).length = 2) :
    ∃ f v, sordyFit sort y probs = .ok f ∧ sordyPredict sort tol f [] = .ok v ∧ IsPrev v := by
  have hy : y ≠ [] := by
    rintro rfl
    simp [labelsOf] at hcls
  refine ⟨⟨npUnique y, sort (probs.zip y)⟩, ?_⟩
  obtain ⟨loss, p, u, v, h1, h2, h3, -⟩ := (C30_golden_section_bracket (sordyLoss (npUnique y) (sordyUnion sort ⟨npUnique y, sort (probs.zip y)⟩ [])) tol 0 1 (by norm_num) htol).1
  refine ⟨![1 - p, p], ?_, ?_, ⟨fun i => ?_, by simp⟩⟩
  · unfold sordyFit
    rw [if_neg (by rw [npUnique_eq_labelsOf]; omega)]
  · unfold sordyPredict
    dsimp only
    rw [if_neg, h1]
    · rfl
    · intro h
      have hl := congrArg List.length h
      unfold sordyUnion at hl
      rw [(hsort _).1.length_eq] at hl
      simp only [List.map_nil, List.append_nil, List.length_nil] at hl
      rw [(hsort _).1.length_eq, List.length_zip, hlen, min_self] at hl
      exact hy (List.length_eq_zero_iff.1 hl)
  · fin_cases i
    · show 0 ≤ 1 - p
      linarith
    · show 0 ≤ p
      linarith

/-! ## Concrete cases -/

/-- A training set with two classes, and a classifier that gives every label. -/
example (sol : Solvers) (w : World Unit Unit ℕ) : acPredict (k := 2) ⟨fun _ => false, fun _ _ _ => (), fun _ _ => [], fun _ _ => []⟩ (fun b => if b then 1 else 0) w none none sol .HD
    ⟨[0, 1], fun i j => Fl.fin (if i = j then 1 else 0)⟩ [] (some (.crisp [])) = .ok fun _ => Fl.nan :=
  (C153_adjusted_partial ⟨[0, 1], fun i j => Fl.fin (if i = j then 1 else 0)⟩ ⟨fun _ => false, fun _ _ _ => (), fun _ _ => [], fun _ _ => []⟩ _ w none none sol .HD [] (Or.inl rfl)).1

/-- Three classes and the identity matrix. -/
example (sol : Solvers) (w : World Unit Unit ℕ) : acPredict (k := 3) ⟨fun _ => false, fun _ _ _ => (), fun _ _ => [], fun _ _ => []⟩ (fun b => if b then 1 else 0) w none none sol .HD
    ⟨[0, 1, 2], fun i j => Fl.fin ((1 : Matrix (Fin 3) (Fin 3) ℝ) i j)⟩ [] (some (.crisp [])) = .ok fun _ => Fl.nan :=
  (C153_adjusted_partial ⟨[0, 1, 2], fun i j => Fl.fin ((1 : Matrix (Fin 3) (Fin 3) ℝ) i j)⟩ ⟨fun _ => false, fun _ _ _ => (), fun _ _ => [], fun _ _ => []⟩ _ w none none sol .HD []
    (Or.inr ⟨by simp, (1 : Matrix (Fin 3) (Fin 3) ℝ), by rw [Matrix.det_one]; norm_num, rfl⟩)).1

example : emPredict (emFit (labelsOf [0, 1]) [0, 1]) [] (1 / 1000) 1000 = .error .valueError := C153_em_partial [0, 1] (by simp) _ _ (by norm_num)

/-- Two bins, and the sum of the absolute differences of the flattened arrays as the distance. -/
noncomputable def flatL1 (a b : NdArr Fl) : Except Err Fl :=
  let flat : NdArr Fl → List Fl := fun x => match x with
    | .scalar v => [v]
    | .vec _ v => List.ofFn v
    | .mat _ _ m => (List.ofFn fun i => List.ofFn (m i)).flatten
  .ok (((flat a).zipWith (fun u v => (u - v).abs) (flat b)).sum + (flat b).sum * Fl.fin 0)

example : ∃ v : Fin 2 → ℝ, dfySearchFl (1 / 1000) ⟨.pdf, 2, .equalWidth⟩ flatL1 ⟨fun _ => ![0, ((1 / 2 : ℝ) : EReal), 1], fun i j => if (i : ℕ) = j then 1 else 0⟩ [] = .ok (some v) ∧ IsPrev v ∧ 98 / 100 ≤ v 1 := by
  refine C153_dfy_refuted _ (by norm_num) ⟨.pdf, 2, .equalWidth⟩ flatL1 _ (fun d i => ?_) fun a => ?_
  · change Fin 2 at i
    fin_cases i
    · show (0 : EReal) ≤ ((1 / 2 : ℝ) : EReal)
      exact EReal.coe_nonneg.2 (by norm_num)
    · show ((1 / 2 : ℝ) : EReal) ≤ 1
      exact (EReal.coe_le_coe_iff.2 (by norm_num : (1 / 2 : ℝ) ≤ 1)).trans_eq EReal.coe_one
  · show Except.ok (_ + (((List.ofFn fun i : Fin 2 => List.ofFn fun _ : Fin 1 => Fl.nan).flatten).sum * Fl.fin 0)) = _
    have : ((List.ofFn fun i : Fin 2 => List.ofFn fun _ : Fin 1 => Fl.nan).flatten).sum = Fl.nan := list_sum_has_nan (by simp)
    rw [this, Fl.nan_mul, Fl.add_nan]

example (sort : List (ℝ × ℤ) → List (ℝ × ℤ)) (hsort : IsSort sort) : ∃ f v, sordyFit sort [0, 1, 1] [1 / 4, 1 / 2, 3 / 4] = .ok f ∧ sordyPredict sort (1 / 100) f [] = .ok v ∧ IsPrev v :=
  C153_sordy_refuted sort hsort _ (by norm_num) _ _ rfl (by rw [labelsOf_eq _ [0, 1] (by decide) (by decide)]; rfl)

end Verif.Props
