import Verif.Props.SampleSize

/-!
# C154 for FriedmanME, ACOrdinal, DFX and EDX
-/

namespace Verif.Props

open Verif.Model Verif.Spec Verif.Proof
open MeasureTheory ProbabilityTheory Filter Topology

theorem devFor_pos {m : ℕ} (hm0 : 0 < m) (distance : DfDistance m) (f : DistFun) {κ ε : ℝ} (hκ0 : 0 < κ) (hε : 0 < ε) : 0 < devFor distance f κ ε := by
  have hL : 0 < accumFactor f m := by
    unfold accumFactor
    split
    · exact one_pos
    · exact_mod_cast hm0
  unfold devFor
  split <;> positivity

/-- A deviation below `devFor` leads to an error below `ε`. -/
theorem devFor_lt {m : ℕ} (hm0 : 0 < m) (distance : DfDistance m) {dist : (Fin m → ℝ) → (Fin m → ℝ) → ℝ} (hD : namedDistance distance = some dist) (f : DistFun) {κ ε dev : ℝ} (hκ0 : 0 < κ) (hε : 0 < ε) {q v : Fin m → ℝ}
    (hq0 : ∀ i, 0 ≤ q i) (hv0 : ∀ i, 0 ≤ v i) (hacc : totalError q v ≤ accumFactor f m * dev) (hdev : dev < devFor distance f κ ε) : 2 * κ * dist q v < ε := by
  have hL : 0 < accumFactor f m := by
    unfold accumFactor
    split
    · exact one_pos
    · exact_mod_cast hm0
  have hte := lt_of_le_of_lt hacc (mul_lt_mul_of_pos_left hdev hL)
  have hκ2 : 0 < 2 * κ := by positivity
  cases distance with
  | fn d => cases hD
  | l1 =>
    obtain rfl := Option.some.inj hD
    rw [devFor, mul_div_cancel₀ _ hL.ne', lt_div_iff₀ hκ2, mul_comm] at hte
    exact hte
  | l2 =>
    obtain rfl := Option.some.inj hD
    rw [devFor, mul_div_cancel₀ _ hL.ne', lt_div_iff₀ hκ2, mul_comm] at hte
    exact lt_of_le_of_lt (mul_le_mul_of_nonneg_left (euclidean_le_totalError _ _) hκ2.le) hte
  | hd =>
    obtain rfl := Option.some.inj hD
    rw [devFor, mul_div_cancel₀ _ hL.ne'] at hte
    have h4 : Real.sqrt (totalError q v) < ε / (2 * κ) := (Real.sqrt_lt' (by positivity)).2 hte
    rw [lt_div_iff₀ hκ2, mul_comm] at h4
    exact lt_of_le_of_lt (mul_le_mul_of_nonneg_left (hellinger_le _ _ hq0 hv0) hκ2.le) h4

section
variable {Ω : Type*} [MeasurableSpace Ω] {μ : Measure Ω} [IsProbabilityMeasure μ]
variable {σ D α : Type} {k : ℕ} [LinearOrder α] [MeasurableSpace α] [MeasurableSingletonClass α] (enc : Bool → α) (w : World σ D α) (et et' : Option ℕ) (X Xt : List D) (y : List α) (hy : y ≠ []) (r : ℕ) (hr : 0 < r)
  (p : Fin (labelsOf y).length → ℝ) (hp : IsPrev p)
include hy hr hp

/-- **C154** for FriedmanME. -/
theorem C154_friedman (ops : EstOps σ D α (labelsOf y).length) (sv : CvxSolver) (hsv : ExactCvx sv) (qp : QPSolver) (hqp : ExactQP qp) (la : LinAlg (labelsOf y).length) (hla : ExactLinAlg la) (fuel : ℕ) (tol : ℝ)
    (distance : DfDistance (labelsOf y).length) {dist : (Fin (labelsOf y).length → ℝ) → (Fin (labelsOf y).length → ℝ) → ℝ} (hD : namedDistance distance = some dist)
    (P : List (Fin (labelsOf y).length → ℝ)) (hP : P.length = r * y.length) (T : Fin (labelsOf y).length → Fin (labelsOf y).length → ℝ)
    (hT : T = fun i c => reachShare i (freq y (labelsOf y)[i]) (ofClass ((stacked y r).zip P) (labelsOf y)[c])) (hd : Solvable distance T) (κ : ℝ) (hκ0 : 0 < κ) (hκ : MixturesTellApart dist T κ)
    (Z : ℕ → Ω → α × (Fin (labelsOf y).length → ℝ)) (hZ : ShiftedStream μ ((stacked y r).zip P) y p Z) (n : ℕ) (hn : 0 < n) (ε : ℝ) (hε : 0 < ε) (η : ℝ) (hη : η = devFor distance .pdf κ ε)
    (answer : List (Fin (labelsOf y).length → ℝ) → Except Err (Option (List Fl)))
    (hans : answer = fun bag => ucRun ops enc w ⟨friedmanClass sv qp la (fuel + 1) tol distance, et, et'⟩ X y (some (.probs P)) Xt (some (.probs bag))) :
    AnswersWithin μ Z n p answer ε ((labelsOf y).length ^ 2 / (n * η ^ 2)) ∧ (iIndepFun Z μ → AnswersWithin μ Z n p answer ε (2 * (labelsOf y).length * Real.exp (-2 * n * (η / (labelsOf y).length) ^ 2))) := by
  have hl : (stacked y r).length = P.length := by rw [stacked_length, hP]
  have hreach : ∀ (i : Fin (labelsOf y).length) (l : List (Fin (labelsOf y).length → ℝ)), reachShare i (freq y (labelsOf y)[i]) l = meanOf l fun row => if freq y (labelsOf y)[i] ≤ row i then (1:ℝ) else 0 := by
    intro i l
    unfold reachShare meanOf
    congr 1
    induction l with
    | nil => simp
    | cons a l ih =>
      rw [List.map_cons, List.sum_cons, ← ih, List.countP_cons]
      by_cases h : freq y (labelsOf y)[i] ≤ a i <;> simp [h, add_comm]
  have hη0 : 0 < η := hη ▸ devFor_pos (labels_pos y hy) distance .pdf hκ0 hε
  have := within_both hZ hp (class_ne y r hr P hl) p answer (fun (i : Fin (labelsOf y).length) row => if freq y (labelsOf y)[i] ≤ row i then (1:ℝ) else 0) (labelsOf y).length
    (fun t _ => by
      refine (Finset.sum_le_sum fun i _ => ?_ : _ ≤ ∑ _i : Fin (labelsOf y).length, (1:ℝ)).trans (le_of_eq (by simp))
      split_ifs <;> norm_num) (fun t _ i => by split_ifs <;> simp) n hn ε η hη0 fun bag hne hbag => ?_
  · rw [Fintype.card_fin, ← sq] at this
    exact this
  · obtain ⟨x, h1, -, h2⟩ := C137_friedman enc w et et' X Xt y hy r hr ops sv hsv qp hqp la hla fuel tol distance hD P hP T hT hd κ hκ0.le hκ (bag.map Prod.snd) (by simpa using hne)
    refine ⟨x, by rw [hans]; exact h1, fun hdev => lt_of_le_of_lt (h2 p hp) ?_⟩
    simp only [← hreach] at hdev
    have hmix : mixtureOf T p = fun i => ∑ c, p c * reachShare i (freq y (labelsOf y)[i]) (ofClass ((stacked y r).zip P) (labelsOf y)[c]) := by
      rw [hT]
      funext i
      exact Finset.sum_congr rfl fun c _ => mul_comm _ _
    refine devFor_lt (labels_pos y hy) distance hD .pdf hκ0 hε (fun i => (reachShare_mem _ _ _).1) (fun i => Finset.sum_nonneg fun c _ => mul_nonneg ?_ (hp.1 c)) ?_ (hη ▸ hdev)
    · rw [hT]
      exact (reachShare_mem _ _ _).1
    · rw [accumFactor, one_mul, hmix]
      exact le_rfl

/-- **C154** for ACOrdinal. -/
theorem C154_aco (ops : EstOps σ D α k) (sv : CvxSolver) (hsv : ExactCvx sv) (P : List α) (hP : P.length = r * y.length) (hPy : ∀ a ∈ P, a ∈ y) (T : Fin (labelsOf y).length → Fin (labelsOf y).length → ℝ)
    (hT : T = fun i j => ∑ l, if l ≤ i then condFreq (stacked y r) P (labelsOf y)[j] (labelsOf y)[l] else 0) (κ : ℝ) (hκ0 : 0 < κ) (hκ : MixturesTellApart totalError T κ)
    (Z : ℕ → Ω → α × α) (hZ : ShiftedStream μ ((stacked y r).zip P) y p Z) (n : ℕ) (hn : 0 < n) (ε : ℝ) (hε : 0 < ε) (K : ℝ) (hK : K = 2 * κ * (labelsOf y).length) (answer : List α → Except Err (Option (List Fl)))
    (hans : answer = fun bag => ucRun ops enc w ⟨acoClass sv, et, et'⟩ X y (some (.crisp P)) Xt (some (.crisp bag))) :
    AnswersWithin μ Z n p answer ε ((labelsOf y).length * K ^ 2 / (n * ε ^ 2))
      ∧ (iIndepFun Z μ → AnswersWithin μ Z n p answer ε (2 * (labelsOf y).length * Real.exp (-2 * n * (ε / K / (labelsOf y).length) ^ 2))) := by
  have hl : (stacked y r).length = P.length := by rw [stacked_length, hP]
  have hc : (0:ℝ) < (labelsOf y).length := by exact_mod_cast labels_pos y hy
  have hK0 : 0 < K := by rw [hK]; positivity
  have := within_both hZ hp (class_ne y r hr P hl) p answer (fun (j : Fin (labelsOf y).length) a => if a = (labelsOf y)[j] then (1:ℝ) else 0) 1 (fun t _ => onehot_sq _ (labelsOf_nodup y) t.2)
    (fun t _ j => by split_ifs <;> simp) n hn ε (ε / K) (div_pos hε hK0) fun bag hne hbag => ?_
  · simpa only [Fintype.card_fin, scale_bounds hK0] using this
  · obtain ⟨x, h1, -, h2⟩ := C137_aco enc w et et' X Xt y hy r hr ops sv hsv P hP hPy T hT κ hκ0.le hκ (bag.map Prod.snd) (by simpa using hne)
    refine ⟨x, by rw [hans]; exact h1, fun hdev => lt_of_le_of_lt (h2 p hp) ?_⟩
    have h3 : ∀ l : Fin (labelsOf y).length, (meanOf (bag.map Prod.snd) fun a => if a = (labelsOf y)[l] then (1:ℝ) else 0) = freq (bag.map Prod.snd) (labelsOf y)[l] := fun l => (congrFun (freqs_mean (labelsOf y) (bag.map Prod.snd)) l).symm
    simp only [class_mean_crisp y r P hl, h3] at hdev
    have hmix : mixtureOf T p = fun i => ∑ l, if l ≤ i then ∑ c, p c * cmReal y r P c l else 0 := by
      rw [hT]
      funext i
      symm
      refine Eq.trans ?_ (cumsum_mixture (fun j l => cmReal y r P j l) p i)
      exact Finset.sum_congr rfl fun l _ => by simp only [mul_comm]
    have hall : ∀ i : Fin (labelsOf y).length, |(∑ l, if l ≤ i then freq (bag.map Prod.snd) (labelsOf y)[l] else 0) - mixtureOf T p i| ≤ ∑ l, |freq (bag.map Prod.snd) (labelsOf y)[l] - ∑ c, p c * cmReal y r P c l| := by
      intro i
      rw [hmix, ← Finset.sum_sub_distrib]
      refine (Finset.abs_sum_le_sum_abs _ _).trans (Finset.sum_le_sum fun l _ => ?_)
      split_ifs
      · exact le_rfl
      · simp
    have hte : totalError (fun i => ∑ l, if l ≤ i then freq (bag.map Prod.snd) (labelsOf y)[l] else 0) (mixtureOf T p) ≤ (labelsOf y).length * ∑ l, |freq (bag.map Prod.snd) (labelsOf y)[l] - ∑ c, p c * cmReal y r P c l| := by
      unfold totalError
      refine (Finset.sum_le_sum fun i _ => hall i).trans (le_of_eq ?_)
      rw [Finset.sum_const, Finset.card_univ, Fintype.card_fin, nsmul_eq_mul]
    rw [lt_div_iff₀ hK0, hK] at hdev
    have hκ2 : 0 < 2 * κ := by positivity
    calc _ ≤ 2 * κ * ((labelsOf y).length * ∑ l, |freq (bag.map Prod.snd) (labelsOf y)[l] - ∑ c, p c * cmReal y r P c l|) := mul_le_mul_of_nonneg_left hte hκ2.le
      _ = (∑ l, |freq (bag.map Prod.snd) (labelsOf y)[l] - ∑ c, p c * cmReal y r P c l|) * (2 * κ * (labelsOf y).length) := by ring
      _ < ε := hdev

end

/-- **C154** for DFX (and HDX, MMX). -/
theorem C154_dfx {Ω : Type*} [MeasurableSpace Ω] {μ : Measure Ω} [IsProbabilityMeasure μ] {α : Type} [LinearOrder α] [MeasurableSpace α] [MeasurableSingletonClass α] {nf : ℕ} (y : List α) (hy : y ≠ []) (sv : CvxSolver)
    (hsv : ExactCvx sv) (qp : QPSolver) (hqp : ExactQP qp) (ppf : ℝ → EReal) (la : LinAlg (labelsOf y).length) (hla : ExactLinAlg la) (fuel : ℕ) (tol : ℝ) (cfg : DfCfg) (m : ℕ) (hm : m = nf * cfg.nBins) (hm0 : 0 < m)
    (distance : DfDistance (nf * cfg.nBins)) {dist : (Fin (nf * cfg.nBins) → ℝ) → (Fin (nf * cfg.nBins) → ℝ) → ℝ} (hD : namedDistance distance = some dist)
    (X : List (Fin nf → ℝ)) (hX : y.length = X.length) (fit : DfFit nf cfg.nBins (labelsOf y).length) (hfit : dfxFit ppf cfg (labelsOf y) y X = .ok fit) (hd : Solvable distance fit.train)
    (par : QPParams (labelsOf y).length ((labelsOf y).length + 1)) (hpar : distance = .l2 → computeL2ParamTrain la (fuel + 1) fit.train = some par) (κ : ℝ) (hκ0 : 0 < κ) (hκ : MixturesTellApart dist fit.train κ)
    (p : Fin (labelsOf y).length → ℝ) (hp : IsPrev p) (Z : ℕ → Ω → α × (Fin nf → ℝ)) (hZ : ShiftedStream μ (y.zip X) y p Z) (n : ℕ) (hn : 0 < n) (ε : ℝ) (hε : 0 < ε)
    (η : ℝ) (hη : η = devFor distance cfg.f κ ε) (answer : List (Fin nf → ℝ) → Except Err (Option (List Fl)))
    (hans : answer = fun bag => (dfxTest cfg fit bag).bind fun q => (dfSolve sv qp tol distance fit.train par q).map fun o => o.map fun v => List.ofFn fun i => Fl.fin (v.2 i)) :
    AnswersWithin μ Z n p answer ε (m * nf / (n * η ^ 2)) ∧ (iIndepFun Z μ → AnswersWithin μ Z n p answer ε (2 * m * Real.exp (-2 * n * (η / m) ^ 2))) := by
  have h0 := df_nonneg ppf .perBlock cfg none _ y y hy X fit hfit
  obtain ⟨hmono, htr⟩ := df_means ppf .perBlock cfg none _ y y hy X fit hfit p
  have hη0 : 0 < η := hη ▸ devFor_pos (hm ▸ hm0) distance cfg.f hκ0 hε
  have hcard : (Fintype.card (Fin nf × Fin cfg.nBins) : ℝ) = m := by
    rw [Fintype.card_prod, Fintype.card_fin, Fintype.card_fin, hm]
  set F : Fin nf × Fin cfg.nBins → (Fin nf → ℝ) → ℝ := fun i row => binInd (fit.cuts i.1) i.2 (row i.1) with hFdef
  have hB : ∀ t ∈ y.zip X, ∑ i, F i t.2 ^ 2 ≤ (nf : ℝ) := by
    intro t _
    have h1 : ∑ i, F i t.2 ^ 2 = ∑ d, ∑ b, binInd (fit.cuts d) b (t.2 d) ^ 2 := Fintype.sum_prod_type _
    have h2 : ∑ d, ∑ b, binInd (fit.cuts d) b (t.2 d) ^ 2 ≤ ∑ _d : Fin nf, (1:ℝ) := Finset.sum_le_sum fun d _ => (binInd_sq (fit.cuts d) (hmono d) _).2
    rw [h1]
    refine h2.trans (le_of_eq ?_)
    rw [Finset.sum_const, Finset.card_univ, Fintype.card_fin, nsmul_eq_mul, mul_one]
  have hF : ∀ t ∈ y.zip X, ∀ i, F i t.2 ∈ Set.Icc (0:ℝ) 1 := fun t _ i => (binInd_sq (fit.cuts i.1) (hmono i.1) _).1 i.2
  have := within_both hZ hp (fun c => selectRows_ne hX ((mem_labelsOf' y _).1 (List.getElem_mem _))) p answer F nf hB hF n hn ε η hη0 fun bag hne hbag => ?_
  · rw [hcard] at this
    exact this
  · obtain ⟨q, x, hq, h1, -, h2⟩ := C137_dfx y hy sv hsv qp hqp ppf la hla fuel tol cfg distance hD X fit hfit hd par hpar κ hκ0.le hκ (bag.map Prod.snd) (by simpa using hne)
    refine ⟨x, ?_, fun hdev => ?_⟩
    · rw [hans]
      simp only [hq, Except.bind, h1, Except.map, Option.map]
      rfl
    have h3 : dfxTest cfg fit (bag.map Prod.snd) = .ok (accumulate .perBlock cfg.f fun d b => meanOf (bag.map Prod.snd) fun row => binInd (fit.cuts d) b (row d)) := dfTest_eq .perBlock cfg _ fit hmono _
    obtain ⟨-, q', hq', hq0⟩ := h0 (bag.map Prod.snd)
    have hqq : q' = q := Except.ok.inj (hq'.symm.trans hq)
    subst hqq
    rw [h3] at hq
    have hqe := Except.ok.inj hq
    refine lt_of_le_of_lt (h2 p hp) ?_
    have hacc := accumulate_dev .perBlock cfg.f (fun i : Fin nf × Fin cfg.nBins => meanOf (bag.map Prod.snd) fun row => binInd (fit.cuts i.1) i.2 (row i.1))
      fun i => ∑ c, p c * meanOf (ofClass (y.zip X) (labelsOf y)[c]) fun row => binInd (fit.cuts i.1) i.2 (row i.1)
    rw [htr, hqe] at hacc
    exact devFor_lt (hm ▸ hm0) distance hD cfg.f hκ0 hε hq0 (fun i => Finset.sum_nonneg fun c _ => mul_nonneg ((h0 []).1 i c) (hp.1 c)) hacc (hη ▸ hdev)

/-- **C154** for EDX, with distances between 0 and `R`. -/
theorem C154_edx {Ω : Type*} [MeasurableSpace Ω] {μ : Measure Ω} [IsProbabilityMeasure μ] {β α : Type*} {n : ℕ} [LinearOrder α] [MeasurableSpace α] [MeasurableSingletonClass α] [MeasurableSpace β] [MeasurableSingletonClass β]
    (y : List α) (p : Fin (labelsOf y).length → ℝ) (hp : IsPrev p) (hn : 0 < n) (hk : (labelsOf y).length = n + 1) (qp : QPSolver) (hqp : ExactQP qp) (la : LinAlg n) (fuel : ℕ) (d : β → β → ℝ) (hd : ∀ x y, d x y = d y x)
    (X : List β) (hX : y.length = X.length) (R : ℝ) (hR0 : 0 < R) (hR : ∀ a ∈ X, ∀ b ∈ X, 0 ≤ d a b ∧ d a b ≤ R)
    (train : Fin (n + 1) → List β) (htr : train = fun i => ofClass (y.zip X) (labelsOf y)[Fin.cast hk.symm i]) (hsep : Separated d train) (κ : ℝ) (hκ0 : 0 < κ) (hκ : EnergyTellsApart d train κ)
    (Z : ℕ → Ω → α × β) (hZ : ShiftedStream μ (y.zip X) y p Z) (N : ℕ) (hN : 0 < N) (ε : ℝ) (hε : 0 < ε) :
    ∃ f, edFit la fuel d (fun i => (labelsOf y)[Fin.cast hk.symm i]) y X = some f
      ∧ AnswersWithin μ Z N (fun i => p (Fin.cast hk.symm i)) (fun bag => (edPredict qp d f bag).map fun x => some (List.ofFn fun i => Fl.fin (x i))) ε ((n + 1) ^ 2 * (2 * κ * R) ^ 2 / (N * ε ^ 2))
      ∧ (iIndepFun Z μ → AnswersWithin μ Z N (fun i => p (Fin.cast hk.symm i)) (fun bag => (edPredict qp d f bag).map fun x => some (List.ofFn fun i => Fl.fin (x i))) ε
          (2 * (n + 1) * Real.exp (-2 * N * (ε / (2 * κ * R) / (n + 1)) ^ 2))) := by
  have hp' : IsPrev fun i => p (Fin.cast hk.symm i) := ⟨fun i => hp.1 _, by rw [sum_cast hk, hp.2]⟩
  obtain ⟨f, hf, hpred⟩ := C137_edx y hn hk qp hqp la fuel d hd X hX train htr hsep κ hκ0.le hκ
  refine ⟨f, hf, ?_⟩
  have hcl : ∀ c : Fin (labelsOf y).length, ofClass (y.zip X) (labelsOf y)[c] ≠ [] := fun c => selectRows_ne hX ((mem_labelsOf' y _).1 (List.getElem_mem _))
  have hmemP : ∀ i, ∀ a ∈ train i, a ∈ X := by
    intro i a ha
    rw [htr] at ha
    exact (List.of_mem_zip (mem_train_of_class ha)).2
  have hlen : ∀ i, 0 < ((train i).length : ℝ) := by
    intro i
    rw [htr]
    exact_mod_cast List.length_pos_iff.2 (hcl (Fin.cast hk.symm i))
  have hF : ∀ t ∈ y.zip X, ∀ i, (meanOf (train i) fun a => d a t.2) / R ∈ Set.Icc (0:ℝ) 1 := by
    intro t ht i
    have htP := (List.of_mem_zip ht).2
    have h1 : ∀ l : List β, (∀ a ∈ l, a ∈ X) → 0 ≤ (l.map fun a => d a t.2).sum ∧ (l.map fun a => d a t.2).sum ≤ R * l.length := by
      intro l
      induction l with
      | nil => simp
      | cons a l ih =>
        intro hl'
        have h2 := ih fun b hb => hl' b (List.mem_cons_of_mem _ hb)
        have h3 := hR a (hl' a (List.mem_cons_self ..)) t.2 htP
        rw [List.map_cons, List.sum_cons, List.length_cons]
        push_cast
        constructor <;> linarith
    have h2 := h1 (train i) (hmemP i)
    refine ⟨div_nonneg (div_nonneg h2.1 (hlen i).le) hR0.le, ?_⟩
    rw [div_le_one hR0, meanOf, div_le_iff₀ (hlen i)]
    exact h2.2
  have := within_both hZ hp hcl (fun i => p (Fin.cast hk.symm i)) (fun bag => (edPredict qp d f bag).map fun x => some (List.ofFn fun i => Fl.fin (x i))) (fun (i : Fin (n + 1)) b => (meanOf (train i) fun a => d a b) / R) (n + 1)
    (fun t ht => by
      refine (Finset.sum_le_sum fun i _ => ?_ : _ ≤ ∑ _i : Fin (n + 1), (1:ℝ)).trans (le_of_eq (by simp))
      have := hF t ht i
      nlinarith [this.1, this.2]) hF N hN ε (ε / (2 * κ * R)) (by positivity) fun bag hne hbag => ?_
  · have h1 : ((n:ℝ) + 1) * (n + 1) / (N * (ε / (2 * κ * R)) ^ 2) = (n + 1) ^ 2 * (2 * κ * R) ^ 2 / (N * ε ^ 2) := by
      field_simp
    simpa only [Fintype.card_fin, Nat.cast_add, Nat.cast_one, h1] using this
  · obtain ⟨x, h1, -, h2⟩ := hpred (bag.map Prod.snd) (by simpa using hne)
    refine ⟨x, by rw [h1]; rfl, fun hdev => ?_⟩
    refine lt_of_le_of_lt (h2 _ hp') ?_
    rw [lt_div_iff₀ (by positivity)] at hdev
    refine lt_of_eq_of_lt ?_ hdev
    have hdivm : ∀ (l : List β) (i : Fin (n + 1)), meanOf l (fun b => (meanOf (train i) fun a => d a b) / R) = (meanOf l fun b => meanOf (train i) fun a => d a b) / R := by
      intro l i
      unfold meanOf
      rw [div_right_comm]
      congr 1
      induction l with
      | nil => simp
      | cons b l ih => rw [List.map_cons, List.sum_cons, List.map_cons, List.sum_cons, ih, add_div]
    unfold totalError
    rw [Finset.sum_mul, Finset.mul_sum]
    refine Finset.sum_congr rfl fun i _ => ?_
    have h4 : ∑ j, p (Fin.cast hk.symm j) * avgDist d (train i) (train j) = ∑ c, p c * meanOf (ofClass (y.zip X) (labelsOf y)[c]) fun b => meanOf (train i) fun a => d a b := by
      rw [← sum_cast hk]
      refine Finset.sum_congr rfl fun j _ => ?_
      rw [avgDist_mean]
      rw [htr]
    beta_reduce
    rw [h4, avgDist_mean]
    simp only [hdivm, mul_div_assoc']
    rw [← Finset.sum_div, ← sub_div, abs_div, abs_of_pos hR0]
    field_simp

/-- Two classes with one example each, at distance 1 (see C137). -/
theorem line_energy : Separated (n := 1) (fun a b : ℝ => |a - b|) ![[0], [1]] ∧ EnergyTellsApart (n := 1) (fun a b : ℝ => |a - b|) ![[0], [1]] 2 := by
  constructor
  · intro (c : Fin 2 → ℝ) (hc : ∑ i : Fin 2, c i = 0) hne
    change ∑ i : Fin 2, ∑ j : Fin 2, _ < (0:ℝ)
    simp only [Fin.sum_univ_two, avgDist] at hc ⊢
    norm_num
    have h1 : c 1 = -c 0 := by linarith
    have h0 : c 0 ≠ 0 := by
      intro h
      apply hne
      funext i
      fin_cases i
      · exact h
      · simpa [h] using h1
    rw [h1]
    have := sq_nonneg (c 0)
    have : 0 < c 0 ^ 2 := by positivity
    nlinarith
  · intro (p : Fin 2 → ℝ) (q : Fin 2 → ℝ) (hpq : ∑ i : Fin 2, p i = ∑ i : Fin 2, q i)
    change (∑ i : Fin 2, |p i - q i|) ^ 2 ≤ 2 * -∑ i : Fin 2, ∑ j : Fin 2, _
    simp only [Fin.sum_univ_two, avgDist, totalError] at hpq ⊢
    norm_num
    have h1 : p 1 - q 1 = -(p 0 - q 0) := by linarith
    rw [h1, abs_neg]
    have := sq_abs (p 0 - q 0)
    nlinarith

/-- C154: EDX with one example of each of two classes, at distance 1. There is a stream of independent test examples for any prevalences, and the answer to `N` of them has an error of `ε` or more with probability at most 64 / (N ε²). -/
example (qp : QPSolver) (hqp : ExactQP qp) (la : LinAlg 1) (N : ℕ) (hN : 0 < N) (ε : ℝ) (hε : 0 < ε) : ∃ (μ : Measure (ℕ → ℕ × ℝ)) (f : EDFit ℝ 1),
    edFit la 0 (fun a b : ℝ => |a - b|) ![0, 1] [0, 1] [0, 1] = some f
      ∧ AnswersWithin μ (fun i ω => ω i) N ![1/4, 3/4] (fun bag => (edPredict qp (fun a b : ℝ => |a - b|) f bag).map fun x => some (List.ofFn fun i => Fl.fin (x i))) ε (64 / (N * ε ^ 2)) := by
  have hl : labelsOf ([0, 1] : List ℕ) = [0, 1] := labelsOf_eq [0, 1] [0, 1] (by decide) (by decide)
  have hk : (labelsOf ([0, 1] : List ℕ)).length = 1 + 1 := by rw [hl]; rfl
  have hcs : (fun i : Fin (1 + 1) => (labelsOf ([0, 1] : List ℕ))[Fin.cast hk.symm i]) = ![0, 1] := by
    funext i
    simp only [Fin.getElem_fin, Fin.val_cast, hl]
    fin_cases i <;> rfl
  have hp : IsPrev (![1/4, 3/4] : Fin (1 + 1) → ℝ) := ⟨fun i => by fin_cases i <;> norm_num, by simp [Fin.sum_univ_two]; norm_num⟩
  have hp' : IsPrev fun i : Fin (labelsOf ([0, 1] : List ℕ)).length => (![1/4, 3/4] : Fin (1 + 1) → ℝ) (Fin.cast hk i) := ⟨fun i => hp.1 _,
    (Equiv.sum_comp (finCongr hk) (![1/4, 3/4] : Fin (1 + 1) → ℝ)).trans hp.2⟩
  have htr : (![[0], [1]] : Fin (1 + 1) → List ℝ) = fun i => ofClass (([0, 1] : List ℕ).zip [0, 1]) (labelsOf [0, 1])[Fin.cast hk.symm i] := by
    funext i
    rw [show (labelsOf ([0, 1] : List ℕ))[Fin.cast hk.symm i] = (![0, 1] : Fin (1 + 1) → ℕ) i from congrFun hcs i]
    fin_cases i <;> simp [ofClass]
  obtain ⟨μ, hμ, hZ, -⟩ := C143_streams_exist (([0, 1] : List ℕ).zip ([0, 1] : List ℝ)) [0, 1] (fun c => selectRows_ne (y := ([0, 1] : List ℕ)) (rows := ([0, 1] : List ℝ)) rfl ((mem_labelsOf' _ _).1 (List.getElem_mem _))) _ hp'
  obtain ⟨f, hf, h, -⟩ := C154_edx [0, 1] _ hp' one_pos hk qp hqp la 0 (fun a b : ℝ => |a - b|) (fun a b => abs_sub_comm a b) [0, 1] rfl 1 one_pos (by simp) _ htr line_energy.1 2 two_pos line_energy.2 _ hZ N hN ε hε
  rw [hcs] at hf
  refine ⟨μ, f, hf, ?_⟩
  have e : ((1:ℕ) + 1 : ℝ) ^ 2 * (2 * 2 * 1) ^ 2 / (N * ε ^ 2) = 64 / (N * ε ^ 2) := by norm_num
  rw [e] at h
  exact h

end Verif.Props
