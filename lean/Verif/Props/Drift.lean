import Verif.Spec.Drift
import Verif.Props.SampleSize

/-!
# C156: when the examples of the classes change too
-/

namespace Verif.Props

open Verif.Model Verif.Spec Verif.Proof

/-- The mean over a bag, class by class. -/
theorem bag_mean {α β : Type*} [LinearOrder α] (y : List α) (bag : List (α × β)) (hbag : ∀ t ∈ bag, t.1 ∈ y) (f : β → ℝ) :
    meanOf (bag.map Prod.snd) f = ∑ c : Fin (labelsOf y).length, bagPrevs y bag c * meanOf (ofClass bag (labelsOf y)[c]) f := by
  have hl : (bag.map Prod.fst).length = (bag.map Prod.snd).length := by simp
  have hmem : ∀ a ∈ bag.map Prod.fst, ∃ c : Fin (labelsOf y).length, (labelsOf y)[c] = a := fun a ha => by
    obtain ⟨t, ht, rfl⟩ := List.mem_map.1 ha
    exact exists_getElem_of_mem ((mem_labelsOf' y _).2 (hbag t ht))
  unfold meanOf
  rw [← selectRows_sum (bag.map Prod.fst) (bag.map Prod.snd) hl (fun c : Fin (labelsOf y).length => (labelsOf y)[c]) (getElem_inj_of_nodup (labelsOf_nodup' y)) hmem f, Finset.sum_div]
  refine Finset.sum_congr rfl fun c _ => ?_
  have hlen := selectRows_length (bag.map Prod.fst) (bag.map Prod.snd) hl (labelsOf y)[c]
  rw [ofClass_eq, hlen, bagPrevs, freq, ← hl]
  by_cases h0 : (bag.map Prod.fst).count (labelsOf y)[c] = 0
  · rw [h0] at hlen
    rw [List.length_eq_zero_iff.1 hlen, h0]
    simp
  · have : ((bag.map Prod.fst).count (labelsOf y)[c] : ℝ) ≠ 0 := by exact_mod_cast h0
    field_simp

/-- The means over a bag differ from those expected for its prevalences by no more than the drift. -/
theorem dev_le_drift {α β ι : Type*} [LinearOrder α] [Fintype ι] (F : ι → β → ℝ) (y : List α) (train bag : List (α × β)) (hbag : ∀ t ∈ bag, t.1 ∈ y) :
    ∑ j, |meanOf (bag.map Prod.snd) (F j) - ∑ c : Fin (labelsOf y).length, bagPrevs y bag c * meanOf (ofClass train (labelsOf y)[c]) (F j)| ≤ drift F y train bag := by
  have h0 : ∀ c, 0 ≤ bagPrevs y bag c := fun c => by
    unfold bagPrevs freq
    positivity
  unfold drift
  simp only [Finset.mul_sum]
  rw [Finset.sum_comm]
  refine Finset.sum_le_sum fun j _ => ?_
  rw [bag_mean y bag hbag, ← Finset.sum_sub_distrib]
  refine (Finset.abs_sum_le_sum_abs _ _).trans (Finset.sum_le_sum fun c _ => ?_)
  rw [← mul_sub, abs_mul, abs_of_nonneg (h0 c)]

theorem bagPrevs_isPrev {α β : Type*} [LinearOrder α] (y : List α) (bag : List (α × β)) (hne : bag ≠ []) (hbag : ∀ t ∈ bag, t.1 ∈ y) : IsPrev (bagPrevs y bag) :=
  freqs_isPrev _ (labelsOf_nodup y) (bag.map Prod.fst) (by simpa using hne) fun a ha => by
    obtain ⟨t, ht, rfl⟩ := List.mem_map.1 ha
    exact (mem_labelsOf y _).2 (hbag t ht)

section
variable {σ D α : Type} {k : ℕ} [LinearOrder α] (enc : Bool → α) (w : World σ D α) (et et' : Option ℕ) (X Xt : List D) (y : List α) (hy : y ≠ []) (r : ℕ) (hr : 0 < r)
include hy hr

/-- **C156** for AC: the features are the predicted labels; the drift is the change of the misclassification rates. -/
theorem C156_ac (ops : EstOps σ D α k) (sol : Solvers) (dist : Dist) (P : List α) (hP : P.length = r * y.length) (hPy : ∀ a ∈ P, a ∈ y) (κ : ℝ) (hκ0 : 0 ≤ κ)
    (hκ : TellsApart (fun i j : Fin (labelsOf y).length => condFreq (stacked y r) P (labelsOf y)[i] (labelsOf y)[j]) κ) (h2 : (labelsOf y).length = 2 → κ < 1000)
    (bag : List (α × α)) (hne : bag ≠ []) (hbag : ∀ t ∈ bag, t.1 ∈ y ∧ t.2 ∈ y) :
    ∃ x, ucRun ops enc w ⟨acClass sol dist, et, et'⟩ X y (some (.crisp P)) Xt (some (.crisp (bag.map Prod.snd))) = .ok (some (realList x)) ∧ IsPrev x
      ∧ totalError x (bagPrevs y bag) ≤ κ * drift (fun (j : Fin (labelsOf y).length) a => if a = (labelsOf y)[j] then (1:ℝ) else 0) y ((stacked y r).zip P) bag := by
  have hl : (stacked y r).length = P.length := by rw [stacked_length, hP]
  obtain ⟨x, h1, hx, h3⟩ := C135_ac enc w et et' X Xt y hy r hr ops sol dist P hP hPy κ hκ h2 bag hne hbag
  refine ⟨x, h1, hx, h3.trans (mul_le_mul_of_nonneg_left ?_ hκ0)⟩
  have := dev_le_drift (fun (j : Fin (labelsOf y).length) a => if a = (labelsOf y)[j] then (1:ℝ) else 0) y ((stacked y r).zip P) bag fun t ht => (hbag t ht).1
  simp only [class_mean_crisp y r P hl] at this
  rw [freqs_mean]
  exact this

/-- **C156** for PAC: the features are the probabilities of the classes. -/
theorem C156_pac (ops : EstOps σ D α (labelsOf y).length) (sol : Solvers) (dist : Dist) (P : List (Fin (labelsOf y).length → ℝ)) (hP : P.length = r * y.length) (hPp : ∀ row ∈ P, IsPrev row) (κ : ℝ) (hκ0 : 0 ≤ κ)
    (hκ : TellsApart (fun i j : Fin (labelsOf y).length => condMean (stacked y r) P (fun row => row j) (labelsOf y)[i]) κ) (h2 : (labelsOf y).length = 2 → κ < 1000)
    (bag : List (α × (Fin (labelsOf y).length → ℝ))) (hne : bag ≠ []) (hbag : ∀ t ∈ bag, t.1 ∈ y ∧ IsPrev t.2) :
    ∃ x, ucRun ops enc w ⟨pacClass sol dist, et, et'⟩ X y (some (.probs P)) Xt (some (.probs (bag.map Prod.snd))) = .ok (some (realList x)) ∧ IsPrev x
      ∧ totalError x (bagPrevs y bag) ≤ κ * drift (fun (j : Fin (labelsOf y).length) row => row j) y ((stacked y r).zip P) bag := by
  have hl : (stacked y r).length = P.length := by rw [stacked_length, hP]
  obtain ⟨x, h1, hx, h3⟩ := C135_pac enc w et et' X Xt y hy r hr ops sol dist P hP hPp κ hκ h2 bag hne hbag
  refine ⟨x, h1, hx, h3.trans (mul_le_mul_of_nonneg_left ?_ hκ0)⟩
  have := dev_le_drift (fun (j : Fin (labelsOf y).length) (row : Fin (labelsOf y).length → ℝ) => row j) y ((stacked y r).zip P) bag fun t ht => (hbag t ht).1
  simp only [class_mean_probs y r P hl] at this
  exact this

omit hr in
/-- **C156** for CC, whose error has a part that does not depend on the drift: the distance between the prevalences and the predictions expected for them. -/
theorem C156_cc (ops : EstOps σ D α k) (P : List α) (hP : P.length = r * y.length) (bag : List (α × α)) (hne : bag ≠ []) (hbag : ∀ t ∈ bag, t.1 ∈ y) :
    ∃ x, ucRun ops enc w ⟨ccClass, et, et'⟩ X y (some (.crisp P)) Xt (some (.crisp (bag.map Prod.snd))) = .ok (some (realList x))
      ∧ |totalError x (bagPrevs y bag) - totalError (expectedPreds (fun i j => condFreq (stacked y r) P (labelsOf y)[i] (labelsOf y)[j]) (bagPrevs y bag)) (bagPrevs y bag)|
        ≤ drift (fun (j : Fin (labelsOf y).length) a => if a = (labelsOf y)[j] then (1:ℝ) else 0) y ((stacked y r).zip P) bag := by
  have hl : (stacked y r).length = P.length := by rw [stacked_length, hP]
  refine ⟨_, cc_mean_answer enc w et et' X Xt y hy r ops P hP bag hne, ?_⟩
  have := dev_le_drift (fun (j : Fin (labelsOf y).length) a => if a = (labelsOf y)[j] then (1:ℝ) else 0) y ((stacked y r).zip P) bag hbag
  simp only [class_mean_crisp y r P hl] at this
  refine le_trans ?_ this
  unfold totalError
  rw [← Finset.sum_sub_distrib]
  refine (Finset.abs_sum_le_sum_abs _ _).trans (Finset.sum_le_sum fun j _ => ?_)
  refine (abs_abs_sub_abs_le_abs_sub _ _).trans (le_of_eq ?_)
  rw [sub_sub_sub_cancel_right]
  rfl

/-- The error that a deviation of the histograms causes, at most: proportional to it for the distances 'L1' and 'L2', and to its square root for 'HD'. -/
noncomputable def matchError {m : ℕ} (distance : DfDistance m) (κ v : ℝ) : ℝ := match distance with
  | .l1 | .l2 => 2 * κ * v
  | .hd => 2 * κ * Real.sqrt v
  | .fn _ => 0

omit hr in
/-- **C156** for PCC. -/
theorem C156_pcc (ops : EstOps σ D α (labelsOf y).length) (P : List (Fin (labelsOf y).length → ℝ)) (hP : P.length = r * y.length) (bag : List (α × (Fin (labelsOf y).length → ℝ))) (hne : bag ≠ []) (hbag : ∀ t ∈ bag, t.1 ∈ y) :
    ∃ x, ucRun ops enc w ⟨pccClass, et, et'⟩ X y (some (.probs P)) Xt (some (.probs (bag.map Prod.snd))) = .ok (some (realList x))
      ∧ |totalError x (bagPrevs y bag) - totalError (expectedPreds (fun i j => condMean (stacked y r) P (fun row => row j) (labelsOf y)[i]) (bagPrevs y bag)) (bagPrevs y bag)|
        ≤ drift (fun (j : Fin (labelsOf y).length) row => row j) y ((stacked y r).zip P) bag := by
  have hl : (stacked y r).length = P.length := by rw [stacked_length, hP]
  have hbne : bag.map Prod.snd ≠ [] := by simpa using hne
  have hans : ucRun ops enc w ⟨pccClass, et, et'⟩ X y (some (.probs P)) Xt (some (.probs (bag.map Prod.snd))) = .ok (some (realList fun j => meanOf (bag.map Prod.snd) fun row => row j)) := by
    rw [ucRun_given_probs ops enc w X Xt y pccClass rfl rfl et et' hy r P _ hP]
    have : answerOn pccClass y r (.probs P) (.probs (bag.map Prod.snd)) = .ok (some (vecList (colMeans (bag.map Prod.snd)))) := rfl
    rw [this, colMeans_eq _ hbne]
    rfl
  refine ⟨_, hans, ?_⟩
  have := dev_le_drift (fun (j : Fin (labelsOf y).length) (row : Fin (labelsOf y).length → ℝ) => row j) y ((stacked y r).zip P) bag hbag
  simp only [class_mean_probs y r P hl] at this
  refine le_trans ?_ this
  unfold totalError
  rw [← Finset.sum_sub_distrib]
  refine (Finset.abs_sum_le_sum_abs _ _).trans (Finset.sum_le_sum fun j _ => ?_)
  refine (abs_abs_sub_abs_le_abs_sub _ _).trans (le_of_eq ?_)
  rw [sub_sub_sub_cancel_right]
  rfl

omit [LinearOrder α] hy hr in
theorem match_error {kind : CumKind} {f : DistFun} {nd nb nc : ℕ} (distance : DfDistance (nd * nb)) {dist : (Fin (nd * nb) → ℝ) → (Fin (nd * nb) → ℝ) → ℝ} (hD : namedDistance distance = some dist) (κ : ℝ) (hκ0 : 0 ≤ κ)
    (train : Fin (nd * nb) → Fin nc → ℝ) (h0 : ∀ i c, 0 ≤ train i c) (p : Fin nc → ℝ) (hp : IsPrev p) (q : Fin (nd * nb) → ℝ) (hq0 : ∀ i, 0 ≤ q i) (m m' : Fin nd × Fin nb → ℝ) (hq : accumulate kind f (fun d b => m (d, b)) = q)
    (hm' : accumulate kind f (fun d b => m' (d, b)) = mixtureOf train p) (v : ℝ) (hv : ∑ i, |m i - m' i| ≤ v) : 2 * κ * dist q (mixtureOf train p) ≤ matchError distance κ (accumFactor f (nd * nb) * v) := by
  have hacc := accumulate_dev kind f m m'
  rw [hm', hq] at hacc
  have hL : 0 ≤ accumFactor f (nd * nb) := by
    unfold accumFactor
    split
    · exact zero_le_one
    · exact Nat.cast_nonneg _
  have hte := hacc.trans (mul_le_mul_of_nonneg_left hv hL)
  have hmix0 : ∀ i, 0 ≤ mixtureOf train p i := fun i => Finset.sum_nonneg fun c _ => mul_nonneg (h0 i c) (hp.1 c)
  have hκ2 : 0 ≤ 2 * κ := by positivity
  cases distance with
  | fn d => cases hD
  | l1 =>
    obtain rfl := Option.some.inj hD
    exact mul_le_mul_of_nonneg_left hte hκ2
  | l2 =>
    obtain rfl := Option.some.inj hD
    exact mul_le_mul_of_nonneg_left ((euclidean_le_totalError _ _).trans hte) hκ2
  | hd =>
    obtain rfl := Option.some.inj hD
    exact mul_le_mul_of_nonneg_left ((hellinger_le _ _ hq0 hmix0).trans (Real.sqrt_le_sqrt hte)) hκ2

/-- **C156** for DFy (and HDy, MMy): the features are the bins of the histograms. -/
theorem C156_dfy (ops : EstOps σ D α (labelsOf y).length) (sv : CvxSolver) (hsv : ExactCvx sv) (qp : QPSolver) (hqp : ExactQP qp) (ppf : ℝ → EReal) (la : LinAlg (labelsOf y).length) (hla : ExactLinAlg la) (fuel : ℕ) (tol : ℝ)
    (cfg : DfCfg) (distance : DfDistance (nDescriptors (labelsOf y).length * cfg.nBins))
    {dist : (Fin (nDescriptors (labelsOf y).length * cfg.nBins) → ℝ) → (Fin (nDescriptors (labelsOf y).length * cfg.nBins) → ℝ) → ℝ} (hD : namedDistance distance = some dist)
    (P : List (Fin (labelsOf y).length → ℝ)) (hP : P.length = r * y.length)
    (fit : DfFit (nDescriptors (labelsOf y).length) cfg.nBins (labelsOf y).length) (hfit : dfyFit ppf cfg (labelsOf y) y (stacked y r) P = .ok fit) (hd : Solvable distance fit.train) (κ : ℝ) (hκ0 : 0 ≤ κ)
    (hκ : MixturesTellApart dist fit.train κ) (bag : List (α × (Fin (labelsOf y).length → ℝ))) (hne : bag ≠ []) (hbag : ∀ t ∈ bag, t.1 ∈ y) :
    ∃ x, ucRun ops enc w ⟨dfyClass ppf sv qp la (fuel + 1) tol cfg distance, et, et'⟩ X y (some (.probs P)) Xt (some (.probs (bag.map Prod.snd))) = .ok (some (realList x)) ∧ IsPrev x
      ∧ totalError x (bagPrevs y bag) ≤ matchError distance κ (accumFactor cfg.f (nDescriptors (labelsOf y).length * cfg.nBins)
        * drift (fun (i : Fin (nDescriptors (labelsOf y).length) × Fin cfg.nBins) row => binInd (fit.cuts i.1) i.2 (dfyAtt _ i.1 row)) y ((stacked y r).zip P) bag) := by
  have hp := bagPrevs_isPrev y bag hne hbag
  have h0 := df_nonneg ppf .whole cfg (some (0, 1)) _ y (stacked y r) hy P fit hfit
  obtain ⟨hmono, htr⟩ := df_means ppf .whole cfg (some (0, 1)) _ y (stacked y r) hy P fit hfit (bagPrevs y bag)
  obtain ⟨q, x, hq, h1, hx, h2⟩ := C137_dfy enc w et et' X Xt y hy r hr ops sv hsv qp hqp ppf la hla fuel tol cfg distance hD P hP fit hfit hd κ hκ0 hκ (bag.map Prod.snd) (by simpa using hne)
  refine ⟨x, h1, hx, (h2 _ hp).trans ?_⟩
  have h3 : dfyTest cfg fit (bag.map Prod.snd) = .ok (accumulate .whole cfg.f fun d b => meanOf (bag.map Prod.snd) fun row => binInd (fit.cuts d) b (dfyAtt _ d row)) := dfTest_eq .whole cfg _ fit hmono _
  obtain ⟨-, q', hq', hq0⟩ := h0 (bag.map Prod.snd)
  have hqq : q' = q := Except.ok.inj (hq'.symm.trans hq)
  subst hqq
  rw [h3] at hq
  refine match_error distance hD κ hκ0 fit.train (h0 []).1 _ hp q' hq0 (fun i => meanOf (bag.map Prod.snd) fun row => binInd (fit.cuts i.1) i.2 (dfyAtt _ i.1 row))
    (fun i => ∑ c, bagPrevs y bag c * meanOf (ofClass ((stacked y r).zip P) (labelsOf y)[c]) fun row => binInd (fit.cuts i.1) i.2 (dfyAtt _ i.1 row)) (Except.ok.inj hq) htr _ ?_
  exact dev_le_drift (fun (i : Fin (nDescriptors (labelsOf y).length) × Fin cfg.nBins) row => binInd (fit.cuts i.1) i.2 (dfyAtt _ i.1 row)) y ((stacked y r).zip P) bag hbag

/-- **C156** for FriedmanME: the features tell for each class whether its probability reaches the prevalence of the class in the training set. -/
theorem C156_friedman (ops : EstOps σ D α (labelsOf y).length) (sv : CvxSolver) (hsv : ExactCvx sv) (qp : QPSolver) (hqp : ExactQP qp) (la : LinAlg (labelsOf y).length) (hla : ExactLinAlg la) (fuel : ℕ) (tol : ℝ)
    (distance : DfDistance (labelsOf y).length) {dist : (Fin (labelsOf y).length → ℝ) → (Fin (labelsOf y).length → ℝ) → ℝ} (hD : namedDistance distance = some dist)
    (P : List (Fin (labelsOf y).length → ℝ)) (hP : P.length = r * y.length) (T : Fin (labelsOf y).length → Fin (labelsOf y).length → ℝ)
    (hT : T = fun i c => reachShare i (freq y (labelsOf y)[i]) (ofClass ((stacked y r).zip P) (labelsOf y)[c])) (hd : Solvable distance T)
    (κ : ℝ) (hκ0 : 0 ≤ κ) (hκ : MixturesTellApart dist T κ) (bag : List (α × (Fin (labelsOf y).length → ℝ))) (hne : bag ≠ []) (hbag : ∀ t ∈ bag, t.1 ∈ y) :
    ∃ x, ucRun ops enc w ⟨friedmanClass sv qp la (fuel + 1) tol distance, et, et'⟩ X y (some (.probs P)) Xt (some (.probs (bag.map Prod.snd))) = .ok (some (realList x)) ∧ IsPrev x
      ∧ totalError x (bagPrevs y bag) ≤ matchError distance κ (drift (fun (i : Fin (labelsOf y).length) row => if freq y (labelsOf y)[i] ≤ row i then (1:ℝ) else 0) y ((stacked y r).zip P) bag) := by
  classical
  have hp := bagPrevs_isPrev y bag hne hbag
  obtain ⟨x, h1, hx, h2⟩ := C137_friedman enc w et et' X Xt y hy r hr ops sv hsv qp hqp la hla fuel tol distance hD P hP T hT hd κ hκ0 hκ (bag.map Prod.snd) (by simpa using hne)
  refine ⟨x, h1, hx, (h2 _ hp).trans ?_⟩
  have hreach : ∀ (i : Fin (labelsOf y).length) (t : ℝ) (rows : List (Fin (labelsOf y).length → ℝ)), reachShare i t rows = meanOf rows fun row => if t ≤ row i then (1:ℝ) else 0 := fun i t rows => by
    rw [reachShare, meanOf]
    congr 1
    induction rows with
    | nil => simp
    | cons a l ih =>
      rw [List.map_cons, List.sum_cons, ← ih, List.countP_cons]
      by_cases h : t ≤ a i
      · simp [h, add_comm]
      · simp [h]
  have hte : totalError (fun i => reachShare i (freq y (labelsOf y)[i]) (bag.map Prod.snd)) (mixtureOf T (bagPrevs y bag))
      ≤ drift (fun (i : Fin (labelsOf y).length) row => if freq y (labelsOf y)[i] ≤ row i then (1:ℝ) else 0) y ((stacked y r).zip P) bag := by
    refine le_trans (le_of_eq ?_) (dev_le_drift _ y ((stacked y r).zip P) bag hbag)
    refine Finset.sum_congr rfl fun i _ => ?_
    rw [hT]
    simp only [mixtureOf, hreach]
    congr 2
    exact Finset.sum_congr rfl fun c _ => mul_comm _ _
  have h01 : ∀ (i : Fin (labelsOf y).length) (t : ℝ) (rows : List (Fin (labelsOf y).length → ℝ)), 0 ≤ reachShare i t rows := fun i t rows => by
    unfold reachShare
    positivity
  have hmix0 : ∀ i, 0 ≤ mixtureOf T (bagPrevs y bag) i := fun i => Finset.sum_nonneg fun c _ => mul_nonneg (by rw [hT]; exact h01 _ _ _) (hp.1 c)
  have hκ2 : 0 ≤ 2 * κ := by positivity
  cases distance with
  | fn d => cases hD
  | l1 =>
    obtain rfl := Option.some.inj hD
    exact mul_le_mul_of_nonneg_left hte hκ2
  | l2 =>
    obtain rfl := Option.some.inj hD
    exact mul_le_mul_of_nonneg_left ((euclidean_le_totalError _ _).trans hte) hκ2
  | hd =>
    obtain rfl := Option.some.inj hD
    exact mul_le_mul_of_nonneg_left ((hellinger_le _ _ (fun i => h01 _ _ _) hmix0).trans (Real.sqrt_le_sqrt hte)) hκ2

omit [LinearOrder α] hy hr in
theorem sum_if_list {n : ℕ} (i : Fin n) (f : Fin n → α → ℝ) (l : List α) : (l.map fun a => ∑ j, if j ≤ i then f j a else 0).sum = ∑ j, if j ≤ i then (l.map (f j)).sum else 0 := by
  induction l with
  | nil => simp
  | cons b l ih =>
    rw [List.map_cons, List.sum_cons, ih, ← Finset.sum_add_distrib]
    refine Finset.sum_congr rfl fun j _ => ?_
    split_ifs <;> simp

/-- **C156** for ACOrdinal: the features tell for each class whether the predicted label is that class or one before it. -/
theorem C156_aco (ops : EstOps σ D α k) (sv : CvxSolver) (hsv : ExactCvx sv) (P : List α) (hP : P.length = r * y.length) (hPy : ∀ a ∈ P, a ∈ y)
    (T : Fin (labelsOf y).length → Fin (labelsOf y).length → ℝ) (hT : T = fun i j => ∑ l, if l ≤ i then condFreq (stacked y r) P (labelsOf y)[j] (labelsOf y)[l] else 0)
    (κ : ℝ) (hκ0 : 0 ≤ κ) (hκ : MixturesTellApart totalError T κ) (bag : List (α × α)) (hne : bag ≠ []) (hbag : ∀ t ∈ bag, t.1 ∈ y) :
    ∃ x, ucRun ops enc w ⟨acoClass sv, et, et'⟩ X y (some (.crisp P)) Xt (some (.crisp (bag.map Prod.snd))) = .ok (some (realList x)) ∧ IsPrev x
      ∧ totalError x (bagPrevs y bag) ≤ 2 * κ * drift (fun (i : Fin (labelsOf y).length) a => ∑ l, if l ≤ i then (if a = (labelsOf y)[l] then (1:ℝ) else 0) else 0) y ((stacked y r).zip P) bag := by
  have hl : (stacked y r).length = P.length := by rw [stacked_length, hP]
  have hp := bagPrevs_isPrev y bag hne hbag
  obtain ⟨x, h1, hx, h2⟩ := C137_aco enc w et et' X Xt y hy r hr ops sv hsv P hP hPy T hT κ hκ0 hκ (bag.map Prod.snd) (by simpa using hne)
  refine ⟨x, h1, hx, (h2 _ hp).trans (mul_le_mul_of_nonneg_left (le_trans (le_of_eq ?_) (dev_le_drift _ y ((stacked y r).zip P) bag hbag)) (by positivity))⟩
  have hlin : ∀ (l : List α) (i : Fin (labelsOf y).length), meanOf l (fun a => ∑ l, if l ≤ i then (if a = (labelsOf y)[l] then (1:ℝ) else 0) else 0)
      = ∑ j, if j ≤ i then meanOf l (fun a => if a = (labelsOf y)[j] then (1:ℝ) else 0) else 0 := fun l i => by
    unfold meanOf
    rw [sum_if_list, Finset.sum_div]
    refine Finset.sum_congr rfl fun j _ => ?_
    split_ifs <;> simp
  have hfm : ∀ l : Fin (labelsOf y).length, freq (bag.map Prod.snd) (labelsOf y)[l] = meanOf (bag.map Prod.snd) fun a => if a = (labelsOf y)[l] then (1:ℝ) else 0 := fun l => congrFun (freqs_mean (labelsOf y) (bag.map Prod.snd)) l
  refine Finset.sum_congr rfl fun i _ => ?_
  rw [hT]
  simp only [mixtureOf, hlin, class_mean_crisp y r P hl, hfm]
  congr 2
  exact Finset.sum_congr rfl fun c _ => mul_comm _ _

end

/-- **C156** for EDy: the features are the mean distances to the training examples of the classes. -/
theorem C156_edy {σ D α : Type} {n : ℕ} [LinearOrder α] (enc : Bool → α) (w : World σ D α) (et et' : Option ℕ)
    (X Xt : List D) (y : List α) (hy : y ≠ []) (r : ℕ) (hr : 0 < r) (ops : EstOps σ D α (n + 1)) (hn : 0 < n) (hk : (labelsOf y).length = n + 1) (qp : QPSolver)
    (hqp : ExactQP qp) (la : LinAlg n) (fuel : ℕ) (d : (Fin (n + 1) → ℝ) → (Fin (n + 1) → ℝ) → ℝ) (hd : ∀ x y, d x y = d y x) (P : List (Fin (n + 1) → ℝ)) (hP : P.length = r * y.length)
    (train : Fin (n + 1) → List (Fin (n + 1) → ℝ)) (htr : train = fun i => ofClass ((stacked y r).zip P) (labelsOf y)[Fin.cast hk.symm i]) (hsep : Separated d train) (κ : ℝ) (hκ0 : 0 ≤ κ) (hκ : EnergyTellsApart d train κ)
    (bag : List (α × (Fin (n + 1) → ℝ))) (hne : bag ≠ []) (hbag : ∀ t ∈ bag, t.1 ∈ y) :
    ∃ x : Fin (n + 1) → ℝ, ucRun ops enc w ⟨edyClass qp la fuel d, et, et'⟩ X y (some (.probs P)) Xt (some (.probs (bag.map Prod.snd))) = .ok (some (realList x)) ∧ IsPrev x
      ∧ totalError x (fun i => bagPrevs y bag (Fin.cast hk.symm i)) ≤ 2 * κ * drift (fun (i : Fin (n + 1)) b => meanOf (train i) fun a => d a b) y ((stacked y r).zip P) bag := by
  have hp := bagPrevs_isPrev y bag hne hbag
  have hp' : IsPrev fun i => bagPrevs y bag (Fin.cast hk.symm i) := ⟨fun i => hp.1 _, by rw [sum_cast hk, hp.2]⟩
  obtain ⟨x, h1, hx, h2⟩ := C137_edy enc w et et' X Xt y hy r hr ops hn hk qp hqp la fuel d hd P hP train htr hsep κ hκ0 hκ (bag.map Prod.snd) (by simpa using hne)
  refine ⟨x, h1, hx, (h2 _ hp').trans (mul_le_mul_of_nonneg_left ?_ (by positivity))⟩
  refine le_trans (le_of_eq ?_) (dev_le_drift (fun (i : Fin (n + 1)) b => meanOf (train i) fun a => d a b) y ((stacked y r).zip P) bag hbag)
  unfold totalError
  refine Finset.sum_congr rfl fun i _ => ?_
  have h4 : ∑ j, bagPrevs y bag (Fin.cast hk.symm j) * avgDist d (train i) (train j) = ∑ c, bagPrevs y bag c * meanOf (ofClass ((stacked y r).zip P) (labelsOf y)[c]) fun b => meanOf (train i) fun a => d a b := by
    rw [← sum_cast hk]
    refine Finset.sum_congr rfl fun j _ => ?_
    rw [avgDist_mean]
    rw [htr]
  beta_reduce
  rw [h4, avgDist_mean]

/-- **C156** for EDX: the features are the mean distances to the training examples of the classes. -/
theorem C156_edx {β α : Type*} [LinearOrder α] {n : ℕ} (y : List α) (hn : 0 < n) (hk : (labelsOf y).length = n + 1) (qp : QPSolver) (hqp : ExactQP qp) (la : LinAlg n) (fuel : ℕ) (d : β → β → ℝ) (hd : ∀ x y, d x y = d y x)
    (X : List β) (hX : y.length = X.length) (train : Fin (n + 1) → List β) (htr : train = fun i => ofClass (y.zip X) (labelsOf y)[Fin.cast hk.symm i]) (hsep : Separated d train)
    (κ : ℝ) (hκ0 : 0 ≤ κ) (hκ : EnergyTellsApart d train κ) :
    ∃ f, edFit la fuel d (fun i => (labelsOf y)[Fin.cast hk.symm i]) y X = some f ∧ ∀ bag : List (α × β), bag ≠ [] → (∀ t ∈ bag, t.1 ∈ y) → ∃ x, edPredict qp d f (bag.map Prod.snd) = .ok x ∧ IsPrev x
      ∧ totalError x (fun i => bagPrevs y bag (Fin.cast hk.symm i)) ≤ 2 * κ * drift (fun (i : Fin (n + 1)) b => meanOf (train i) fun a => d a b) y (y.zip X) bag := by
  obtain ⟨f, hf, h2⟩ := C137_edx y hn hk qp hqp la fuel d hd X hX train htr hsep κ hκ0 hκ
  refine ⟨f, hf, fun bag hne hbag => ?_⟩
  have hp := bagPrevs_isPrev y bag hne hbag
  have hp' : IsPrev fun i => bagPrevs y bag (Fin.cast hk.symm i) := ⟨fun i => hp.1 _, by rw [sum_cast hk, hp.2]⟩
  obtain ⟨x, h1, hx, h3⟩ := h2 (bag.map Prod.snd) (by simpa using hne)
  refine ⟨x, h1, hx, (h3 _ hp').trans (mul_le_mul_of_nonneg_left ?_ (by positivity))⟩
  refine le_trans (le_of_eq ?_) (dev_le_drift (fun (i : Fin (n + 1)) b => meanOf (train i) fun a => d a b) y (y.zip X) bag hbag)
  unfold totalError
  refine Finset.sum_congr rfl fun i _ => ?_
  have h4 : ∑ j, bagPrevs y bag (Fin.cast hk.symm j) * avgDist d (train i) (train j) = ∑ c, bagPrevs y bag c * meanOf (ofClass (y.zip X) (labelsOf y)[c]) fun b => meanOf (train i) fun a => d a b := by
    rw [← sum_cast hk]
    refine Finset.sum_congr rfl fun j _ => ?_
    rw [avgDist_mean]
    rw [htr]
  beta_reduce
  rw [h4, avgDist_mean]

/-- **C156** for DFX (and HDX): the features are the bins of the histograms of the attributes. -/
theorem C156_dfx {α : Type} [LinearOrder α] {nf : ℕ} (y : List α) (hy : y ≠ []) (sv : CvxSolver) (hsv : ExactCvx sv) (qp : QPSolver) (hqp : ExactQP qp) (ppf : ℝ → EReal) (la : LinAlg (labelsOf y).length) (hla : ExactLinAlg la)
    (fuel : ℕ) (tol : ℝ) (cfg : DfCfg) (distance : DfDistance (nf * cfg.nBins)) {dist : (Fin (nf * cfg.nBins) → ℝ) → (Fin (nf * cfg.nBins) → ℝ) → ℝ} (hD : namedDistance distance = some dist)
    (X : List (Fin nf → ℝ)) (fit : DfFit nf cfg.nBins (labelsOf y).length) (hfit : dfxFit ppf cfg (labelsOf y) y X = .ok fit)
    (hd : Solvable distance fit.train) (par : QPParams (labelsOf y).length ((labelsOf y).length + 1)) (hpar : distance = .l2 → computeL2ParamTrain la (fuel + 1) fit.train = some par)
    (κ : ℝ) (hκ0 : 0 ≤ κ) (hκ : MixturesTellApart dist fit.train κ) (bag : List (α × (Fin nf → ℝ))) (hne : bag ≠ []) (hbag : ∀ t ∈ bag, t.1 ∈ y) :
    ∃ (q : Fin (nf * cfg.nBins) → ℝ) (x : Fin (labelsOf y).length → ℝ), dfxTest cfg fit (bag.map Prod.snd) = .ok q ∧ dfSolve sv qp tol distance fit.train par q = .ok (some ⟨_, x⟩) ∧ IsPrev x
      ∧ totalError x (bagPrevs y bag) ≤ matchError distance κ (accumFactor cfg.f (nf * cfg.nBins) * drift (fun (i : Fin nf × Fin cfg.nBins) row => binInd (fit.cuts i.1) i.2 (row i.1)) y (y.zip X) bag) := by
  have hp := bagPrevs_isPrev y bag hne hbag
  have h0 := df_nonneg ppf .perBlock cfg none _ y y hy X fit hfit
  obtain ⟨hmono, htr⟩ := df_means ppf .perBlock cfg none _ y y hy X fit hfit (bagPrevs y bag)
  have htr' : (accumulate .perBlock cfg.f fun d b => ∑ c, bagPrevs y bag c * meanOf (ofClass (y.zip X) (labelsOf y)[c]) fun row => binInd (fit.cuts d) b (row d)) = mixtureOf fit.train (bagPrevs y bag) := htr
  obtain ⟨q, x, hq, h1, hx, h2⟩ := C137_dfx y hy sv hsv qp hqp ppf la hla fuel tol cfg distance hD X fit hfit hd par hpar κ hκ0 hκ (bag.map Prod.snd) (by simpa using hne)
  refine ⟨q, x, hq, h1, hx, (h2 _ hp).trans ?_⟩
  have h3 : dfxTest cfg fit (bag.map Prod.snd) = .ok (accumulate .perBlock cfg.f fun d b => meanOf (bag.map Prod.snd) fun row => binInd (fit.cuts d) b (row d)) := dfTest_eq .perBlock cfg _ fit hmono _
  obtain ⟨-, q', hq', hq0⟩ := h0 (bag.map Prod.snd)
  have hqq : q' = q := Except.ok.inj (hq'.symm.trans hq)
  subst hqq
  rw [h3] at hq
  have hdev := dev_le_drift (fun (i : Fin nf × Fin cfg.nBins) row => binInd (fit.cuts i.1) i.2 (row i.1)) y (y.zip X) bag hbag
  have hqe := Except.ok.inj hq
  generalize drift (fun (i : Fin nf × Fin cfg.nBins) row => binInd (fit.cuts i.1) i.2 (row i.1)) y (y.zip X) bag = v at hdev ⊢
  have h00 := (h0 []).1
  generalize hm : (fun i : Fin nf × Fin cfg.nBins => meanOf (bag.map Prod.snd) fun row => binInd (fit.cuts i.1) i.2 (row i.1)) = m at *
  generalize hm' : (fun i : Fin nf × Fin cfg.nBins => ∑ c, bagPrevs y bag c * meanOf (ofClass (y.zip X) (labelsOf y)[c]) fun row => binInd (fit.cuts i.1) i.2 (row i.1)) = m' at *
  have e1 : ∀ d b, meanOf (bag.map Prod.snd) (fun row => binInd (fit.cuts d) b (row d)) = m (d, b) := fun d b => congrFun hm (d, b)
  have e2 : ∀ d b, ∑ c, bagPrevs y bag c * meanOf (ofClass (y.zip X) (labelsOf y)[c]) (fun row => binInd (fit.cuts d) b (row d)) = m' (d, b) := fun d b => congrFun hm' (d, b)
  simp only [e1] at hqe hdev
  simp only [e2] at htr' hdev
  exact match_error (kind := .perBlock) (f := cfg.f) distance hD κ hκ0 fit.train h00 _ hp q' hq0 m m' hqe htr' v hdev

/-- **C156**: there is no drift under prior probability shift, whatever the features. -/
theorem C156_no_drift {α β ι : Type*} [LinearOrder α] [Fintype ι] (F : ι → β → ℝ) (y : List α) (train bag : List (α × β)) (h : PriorShift train bag) : drift F y train bag = 0 := by
  unfold drift
  refine Finset.sum_eq_zero fun c _ => ?_
  by_cases hc : (labelsOf y)[c] ∈ bag.map Prod.fst
  · rw [Finset.sum_eq_zero fun j _ => ?_, mul_zero]
    rw [abs_eq_zero, sub_eq_zero]
    exact (h.same _ hc).average (F j)
  · have : bagPrevs y bag c = 0 := by
      rw [bagPrevs, freq, List.count_eq_zero_of_not_mem hc]
      simp
    rw [this, zero_mul]

/-! ## Non-vacuity, and the bound of AC is attained -/

/-- The training set has four examples of each class, one of each misclassified (`κ = 2`, see the example of C154). In the bag, in which half of the examples are of each class, half of the examples of class 0 are predicted as 1, instead of
a quarter. The drift is 1/4, AC answers 1/4 and 3/4, and the total error, 1/2, is the bound `κ * drift`. -/
example (ops : EstOps Unit Unit ℕ 2) (enc : Bool → ℕ) (w : World Unit Unit ℕ) (sol : Solvers) (y P : List ℕ) (hy : y = [0, 0, 0, 0, 1, 1, 1, 1]) (hP : P = [0, 0, 0, 1, 1, 1, 1, 0]) (bag : List (ℕ × ℕ))
    (hbag : bag = [(0, 0), (0, 0), (0, 0), (0, 0), (1, 0), (1, 0), (1, 1), (1, 1), (1, 1), (1, 1), (1, 1), (1, 1), (0, 1), (0, 1), (0, 1), (0, 1)]) :
    ucRun ops enc w ⟨acClass sol .HD, none, none⟩ [] y (some (.crisp P)) [] (some (.crisp (bag.map Prod.snd))) = .ok (some [Fl.fin (1 / 4), Fl.fin (3 / 4)])
      ∧ (List.ofFn (bagPrevs y bag) = [1 / 2, 1 / 2]) ∧ drift (fun (j : Fin (labelsOf y).length) a => if a = (labelsOf y)[j] then (1:ℝ) else 0) y ((stacked y 1).zip P) bag = 1 / 4 := by
  have hl : labelsOf y = [0, 1] := by
    subst hy
    exact labelsOf_eq _ _ (by decide) (by decide)
  refine ⟨?_, ?_, ?_⟩
  · subst hbag hy hP
    have hs : PriorShift ((stacked [0, 0, 0, 0, 1, 1, 1, 1] 1).zip [0, 0, 0, 1, 1, 1, 1, 0])
        [(0, 0), (0, 0), (0, 0), (1, 0), (1, 0), (1, 0), (0, 1), (1, 1), (1, 1), (1, 1), (1, 1), (1, 1), (1, 1), (1, 1), (1, 1), (1, 1)] :=
      ⟨by simp, fun c hc => by
        have h1 : SameFrequencies [0, 0, 0, 1, 1, 1, 1, 1, 1, 1, 1, 1] [1, 1, 1, 0] := ⟨by simp, by simp, fun a => by
          unfold freq
          simp only [List.count_cons, List.count_nil, List.length_cons, List.length_nil, beq_iff_eq]
          split_ifs <;> norm_num⟩
        have h0 : SameFrequencies [0, 0, 0, 1] [0, 0, 0, 1] := ⟨by simp, by simp, fun a => rfl⟩
        have : c = 1 ∨ c = 0 := by
          simp only [List.map_cons, List.map_nil, List.mem_cons, List.not_mem_nil, or_false] at hc
          tauto
        rcases this with rfl | rfl
        · exact h1
        · exact h0⟩
    have h := C128_ac enc w none none [] [] [0, 0, 0, 0, 1, 1, 1, 1] (by simp) 1 one_pos ops sol .HD [0, 0, 0, 1, 1, 1, 1, 0] rfl (by simp) (.inr ⟨by rw [hl]; rfl, by
      simp only [(label_index hl).1]
      simp only [condFreq, stacked, Fin.val_cast]
      simp [List.countP_cons, List.count_cons]
      norm_num [abs_of_pos]⟩) _ hs
    refine h.trans ?_
    unfold rightAnswer
    rw [hl]
    simp [freq, List.count_cons]
    norm_num
  · show (fun L : List ℕ => List.ofFn fun i : Fin L.length => freq (bag.map Prod.fst) L[i]) (labelsOf y) = _
    rw [hl, hbag]
    simp [freq, List.count_cons]
    norm_num
  · show (fun L : List ℕ => ∑ c : Fin L.length, freq (bag.map Prod.fst) L[c] * ∑ j : Fin L.length, |meanOf (ofClass bag L[c]) (fun a => if a = L[j] then (1:ℝ) else 0)
      - meanOf (ofClass ((stacked y 1).zip P) L[c]) fun a => if a = L[j] then (1:ℝ) else 0|) (labelsOf y) = _
    rw [hl]
    subst hbag hy hP
    simp [Fin.sum_univ_two, freq, List.count_cons, ofClass, meanOf, stacked]
    norm_num [abs_of_pos, abs_of_neg]

end Verif.Props
