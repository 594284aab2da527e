import Verif.Proof.Stream
import Verif.Props.EnergyStability
import Mathlib.Probability.Independence.InfinitePi

/-!
# C143: with more and more test examples, the answers approach the prevalences

The test examples are a stream of independent random examples under prior probability shift. With probability one, the answers to the bags of the first 1, 2, 3, ... examples converge to the prevalences (methods that
correct the shift), or to the expected predictions (CC, PCC).
-/

namespace Verif.Props

open Verif.Model Verif.Spec Verif.Proof
open MeasureTheory ProbabilityTheory Filter Topology

/-- Streams exist, also of independent examples, for every training set with examples of all classes and all prevalences. -/
theorem C143_streams_exist {α β : Type} [LinearOrder α] [MeasurableSpace α] [MeasurableSingletonClass α] [MeasurableSpace β] [MeasurableSingletonClass β] (train : List (α × β)) (y : List α)
    (hne : ∀ c : Fin (labelsOf y).length, ofClass train (labelsOf y)[c] ≠ []) (p : Fin (labelsOf y).length → ℝ) (hp : IsPrev p) :
    ∃ (μ : Measure (ℕ → α × β)) (_ : IsProbabilityMeasure μ), ShiftedStream μ train y p (fun i ω => ω i) ∧ iIndepFun (fun (i : ℕ) (ω : ℕ → α × β) => ω i) μ := by
  classical
  set T : Finset (Σ _ : Fin (labelsOf y).length, β) := Finset.univ.sigma fun c => (ofClass train (labelsOf y)[c]).toFinset with hT
  set e : (Σ _ : Fin (labelsOf y).length, β) → α × β := fun t => ((labelsOf y)[t.1], t.2) with he
  set wt : (Σ _ : Fin (labelsOf y).length, β) → ℝ := fun t => p t.1 * freq (ofClass train (labelsOf y)[t.1]) t.2 with hwt
  have hwt0 : ∀ t, 0 ≤ wt t := fun t => mul_nonneg (hp.1 _) (by unfold freq; positivity)
  have hinj : Function.Injective e := by
    rintro ⟨c, v⟩ ⟨c', v'⟩ heq
    simp only [he, Prod.mk.injEq] at heq
    have h1 : c = c' := Fin.ext ((List.Nodup.getElem_inj_iff (labelsOf_nodup' y)).1 heq.1)
    subst h1
    rw [heq.2]
  have hsum : ∑ t ∈ T, wt t = 1 := by
    rw [hT, Finset.sum_sigma, ← hp.2]
    refine Finset.sum_congr rfl fun c _ => ?_
    have hl : ((ofClass train (labelsOf y)[c]).length : ℝ) ≠ 0 := by
      exact_mod_cast (List.length_pos_iff.2 (hne c)).ne'
    have h1 := sum_freq_mul (ofClass train (labelsOf y)[c]) fun _ => 1
    simp only [mul_one] at h1
    have hm : meanOf (ofClass train (labelsOf y)[c]) (fun _ => (1 : ℝ)) = 1 := by
      rw [meanOf, List.map_const', List.sum_replicate, nsmul_eq_mul, mul_one]
      exact div_self hl
    have h3 : ∑ v ∈ (ofClass train (labelsOf y)[c]).toFinset, p c * freq (ofClass train (labelsOf y)[c]) v = p c := by
      rw [← Finset.mul_sum, h1, hm, mul_one]
    exact h3
  set ν : Measure (α × β) := ∑ t ∈ T, ENNReal.ofReal (wt t) • Measure.dirac (e t) with hν
  have hνs : ∀ s : Set (α × β), MeasurableSet s → ν s = ∑ t ∈ T, ENNReal.ofReal (wt t) * s.indicator 1 (e t) := by
    intro s hs
    rw [hν, Measure.finset_sum_apply]
    refine Finset.sum_congr rfl fun t _ => ?_
    rw [Measure.smul_apply, Measure.dirac_apply' _ hs, smul_eq_mul]
  have hprob : IsProbabilityMeasure ν := ⟨by
    rw [hνs _ MeasurableSet.univ]
    simp only [Set.indicator_univ, Pi.one_apply, mul_one]
    rw [← ENNReal.ofReal_sum_of_nonneg fun t _ => hwt0 t, hsum, ENNReal.ofReal_one]⟩
  refine ⟨Measure.infinitePi fun _ => ν, inferInstance, ⟨?_, ?_, ?_⟩, iIndepFun_infinitePi (P := fun _ : ℕ => ν) (X := fun _ x => x) fun _ => measurable_id⟩
  · intro i j hij
    exact (iIndepFun_infinitePi (P := fun _ : ℕ => ν) (X := fun _ x => x) fun _ => measurable_id).indepFun hij
  · intro i
    refine ⟨(measurable_pi_apply i).aemeasurable, (measurable_pi_apply 0).aemeasurable, ?_⟩
    exact ((measurePreserving_eval_infinitePi (fun _ : ℕ => ν) i).map_eq).trans ((measurePreserving_eval_infinitePi (fun _ : ℕ => ν) 0).map_eq).symm
  · intro c v
    have hms : MeasurableSet ({((labelsOf y)[c], v)} : Set (α × β)) := measurableSet_singleton _
    have h1 := (measurePreserving_eval_infinitePi (fun _ : ℕ => ν) 0).measure_preimage hms.nullMeasurableSet
    have h2 : (Measure.infinitePi fun _ : ℕ => ν).real {ω | ω 0 = ((labelsOf y)[c], v)} = ν.real {((labelsOf y)[c], v)} := by
      rw [measureReal_def, measureReal_def, ← h1]
      rfl
    rw [h2, measureReal_def, hνs _ hms]
    have h3 : ∀ t ∈ T, ENNReal.ofReal (wt t) * ({((labelsOf y)[c], v)} : Set (α × β)).indicator 1 (e t) = if t = ⟨c, v⟩ then ENNReal.ofReal (wt t) else 0 := by
      intro t _
      by_cases h : t = ⟨c, v⟩
      · subst h
        rw [if_pos rfl, Set.indicator_of_mem (Set.mem_singleton _), Pi.one_apply, mul_one]
      · rw [if_neg h, Set.indicator_of_notMem (fun hh => h (hinj (Set.mem_singleton_iff.1 hh))), mul_zero]
    rw [Finset.sum_congr rfl h3, Finset.sum_ite_eq']
    split_ifs with hm
    · rw [ENNReal.toReal_ofReal (hwt0 _)]
    · have h4 : v ∉ ofClass train (labelsOf y)[c] := fun hv => hm (Finset.mem_sigma.2 ⟨Finset.mem_univ _, List.mem_toFinset.2 hv⟩)
      rw [freq, List.count_eq_zero_of_not_mem h4]
      simp

/-- From a bound of the error that depends continuously on means over the bag, to consistency. -/
theorem consistent_of_bound {Ω α β ι E : Type*} [MeasurableSpace Ω] [LinearOrder α] [MeasurableSpace α] [MeasurableSingletonClass α] [MeasurableSpace β] [MeasurableSingletonClass β] {μ : Measure Ω} [IsProbabilityMeasure μ]
    {train : List (α × β)} {y : List α} {p : Fin (labelsOf y).length → ℝ} {Z : ℕ → Ω → α × β} (h : ShiftedStream μ train y p Z) (hp : ∑ c, p c = 1) (hne : ∀ c : Fin (labelsOf y).length, ofClass train (labelsOf y)[c] ≠ [])
    {n : ℕ} (target : Fin n → ℝ) (answer : List β → Except E (Option (List Fl))) (F : ι → β → ℝ) (g : (ι → ℝ) → ℝ) (hg : ContinuousAt g fun k => ∑ c, p c * meanOf (ofClass train (labelsOf y)[c]) (F k))
    (hg0 : g (fun k => ∑ c, p c * meanOf (ofClass train (labelsOf y)[c]) (F k)) = 0)
    (hans : ∀ bag : List (α × β), bag ≠ [] → (∀ t ∈ bag, t ∈ train) → ∃ x : Fin n → ℝ, answer (bag.map Prod.snd) = .ok (some (realList x)) ∧ totalError x target ≤ g fun k => meanOf (bag.map Prod.snd) (F k)) :
    Consistent μ Z target answer := by
  unfold Consistent
  filter_upwards [stream_means h hp hne] with ω hω
  obtain ⟨h1, h2⟩ := hω
  have hseen : ∀ m, firstSeen Z (m + 1) ω = ((List.range (m + 1)).map fun i => Z i ω).map Prod.snd := fun m => by
    rw [firstSeen, List.map_map]
    rfl
  have h3 : ∀ m, ∃ x : Fin n → ℝ, answer (firstSeen Z (m + 1) ω) = .ok (some (realList x)) ∧ totalError x target ≤ g fun k => meanOf (firstSeen Z (m + 1) ω) (F k) := by
    intro m
    rw [hseen]
    refine hans _ (by simp) fun t ht => ?_
    obtain ⟨i, -, rfl⟩ := List.mem_map.1 ht
    exact h1 i
  choose x hx hb using h3
  refine ⟨x, hx, ?_⟩
  have hlim : Tendsto (fun m => g fun k => meanOf (firstSeen Z (m + 1) ω) (F k)) atTop (𝓝 0) := by
    have h4 : Tendsto (fun m k => meanOf (firstSeen Z (m + 1) ω) (F k)) atTop (𝓝 fun k => ∑ c, p c * meanOf (ofClass train (labelsOf y)[c]) (F k)) :=
      tendsto_pi_nhds.2 fun k => (h2 (F k)).comp (tendsto_add_atTop_nat 1)
    have h5 := hg.tendsto.comp h4
    rw [hg0] at h5
    exact h5
  rw [tendsto_pi_nhds]
  intro i
  rw [tendsto_iff_dist_tendsto_zero]
  refine squeeze_zero (fun m => dist_nonneg) (fun m => ?_) hlim
  rw [Real.dist_eq]
  exact (Finset.single_le_sum (f := fun i => |x m i - target i|) (fun i _ => abs_nonneg _) (Finset.mem_univ i)).trans (hb m)

theorem class_mean_crisp {α : Type*} [LinearOrder α] (y : List α) (r : ℕ) (P : List α) (hl : (stacked y r).length = P.length) (i j : Fin (labelsOf y).length) :
    meanOf (ofClass ((stacked y r).zip P) (labelsOf y)[i]) (fun a => if a = (labelsOf y)[j] then (1:ℝ) else 0) = cmReal y r P i j := by
  have hcount : ∀ l : List α, (l.map fun a => if a = (labelsOf y)[j] then (1:ℝ) else 0).sum = l.count (labelsOf y)[j] := by
    intro l
    induction l with
    | nil => simp
    | cons a l ih =>
      rw [List.map_cons, List.sum_cons, ih, List.count_cons]
      by_cases h : a = (labelsOf y)[j] <;> simp [h, add_comm]
  have h1 : ofClass ((stacked y r).zip P) (labelsOf y)[i] = selectRows (stacked y r) P (labelsOf y)[i] := rfl
  rw [meanOf, hcount, h1, selectRows_length _ _ hl]
  unfold cmReal condFreq selectRows
  congr 2
  rw [List.count, List.countP_map, List.countP_filter]
  refine List.countP_congr fun t _ => ?_
  simp [and_comm]

theorem freqs_mean {α : Type*} [LinearOrder α] (cs : List α) (l : List α) : freqs cs l = fun j => meanOf l fun a => if a = cs[j] then (1:ℝ) else 0 := by
  funext j
  unfold freqs freq meanOf
  congr 1
  induction l with
  | nil => simp
  | cons a l ih =>
    rw [List.map_cons, List.sum_cons, ← ih, List.count_cons]
    by_cases h : a = cs[j] <;> simp [h, add_comm]

theorem continuous_totalError {n : ℕ} (q : Fin n → ℝ) : Continuous fun v => totalError v q := by
  unfold totalError
  fun_prop

theorem totalError_self {n : ℕ} (q : Fin n → ℝ) : totalError q q = 0 := by simp [totalError]

theorem tellsApart_of_nonDegenerate {n : ℕ} (M : Matrix (Fin n) (Fin n) ℝ) (hrow : ∀ i, ∑ j, M i j = 1) (hM : NonDegenerate M) : ∃ κ, TellsApart M κ ∧ (n = 2 → κ < 1000) := by
  rcases hM with ⟨hn, hd⟩ | ⟨rfl, hd⟩
  · obtain ⟨κ, -, h⟩ := C135_constant M hd
    exact ⟨κ, h, fun h2 => absurd h2 hn⟩
  · have hd' : 1/1000 < |M 1 1 - M 0 1| := hd
    have hpos : 0 < |M 1 1 - M 0 1| := lt_trans (by norm_num) hd'
    refine ⟨_, C135_two_classes M hrow (sub_ne_zero.1 (abs_pos.1 hpos)), fun _ => ?_⟩
    rw [div_lt_iff₀ hpos]
    linarith

theorem class_mean_probs {α : Type*} [LinearOrder α] {k : ℕ} (y : List α) (r : ℕ) (P : List (Fin k → ℝ)) (hl : (stacked y r).length = P.length) (i : Fin (labelsOf y).length) (j : Fin k) :
    meanOf (ofClass ((stacked y r).zip P) (labelsOf y)[i]) (fun row => row j) = condMean (stacked y r) P (fun row => row j) (labelsOf y)[i] := by
  have h1 : ofClass ((stacked y r).zip P) (labelsOf y)[i] = selectRows (stacked y r) P (labelsOf y)[i] := rfl
  rw [meanOf, h1, selectRows_length _ _ hl]
  unfold condMean selectRows
  rw [List.map_map]
  rfl

theorem distinguishes_solvable {m n : ℕ} {distance : DfDistance m} {T : Matrix (Fin m) (Fin n) ℝ} (h : Distinguishes distance T) : ∃ D, namedDistance distance = some D ∧ Solvable distance T ∧ Identifiable T := by
  cases distance with
  | fn d => exact h.elim
  | l1 => exact ⟨_, rfl, trivial, h⟩
  | hd => exact ⟨_, rfl, h.2, h.1⟩
  | l2 =>
    refine ⟨_, rfl, h, fun p q _ _ hpq => ?_⟩
    have := h (fun j => p j - q j) fun i => by
      simp only [mul_sub, Finset.sum_sub_distrib]
      exact sub_eq_zero.2 (hpq i)
    funext j
    exact sub_eq_zero.1 (congrFun this j)

theorem named_self {m : ℕ} {distance : DfDistance m} {D : (Fin m → ℝ) → (Fin m → ℝ) → ℝ} (h : namedDistance distance = some D) (v : Fin m → ℝ) : D v v = 0 := by
  cases distance with
  | fn d => cases h
  | l1 => obtain rfl := Option.some.inj h; simp [totalError]
  | l2 => obtain rfl := Option.some.inj h; simp [euclidean]
  | hd => obtain rfl := Option.some.inj h; simp [hellingerDist]

theorem continuous_named {m : ℕ} {distance : DfDistance m} {D : (Fin m → ℝ) → (Fin m → ℝ) → ℝ} (h : namedDistance distance = some D) (w : Fin m → ℝ) : Continuous fun v => D v w := by
  cases distance with
  | fn d => cases h
  | l1 => obtain rfl := Option.some.inj h; exact continuous_totalError w
  | l2 => obtain rfl := Option.some.inj h; unfold euclidean; fun_prop
  | hd => obtain rfl := Option.some.inj h; unfold hellingerDist; fun_prop

theorem continuous_accumulate (kind : CumKind) (f : DistFun) {nd nb : ℕ} : Continuous fun h : Fin nd × Fin nb → ℝ => accumulate kind f fun d b => h (d, b) := by
  have hc : ∀ {m : ℕ} (v : (Fin nd × Fin nb → ℝ) → Fin m → ℝ), (∀ i, Continuous fun h => v h i) → ∀ i, Continuous fun h => cumsum (v h) i := by
    intro m v hv i
    refine continuous_finset_sum _ fun l _ => ?_
    by_cases hli : l ≤ i
    · simp only [if_pos hli]
      exact hv l
    · simp only [if_neg hli]
      exact continuous_const
  refine continuous_pi fun i => ?_
  cases f with
  | pdf => exact continuous_apply _
  | cdf =>
    cases kind with
    | whole => exact hc _ (fun j => continuous_apply _) i
    | perBlock => exact hc (fun h b => h ((finProdFinEquiv.symm i).1, b)) (fun j => continuous_apply _) _

/-- The representations of the classes, as means; their mixtures. -/
theorem df_means {α : Type} [LinearOrder α] (ppf : ℝ → EReal) {D : Type*} {nd : ℕ} (kind : CumKind) (cfg : DfCfg) (range : Option (ℝ × ℝ)) (att : Fin nd → D → ℝ) (y yE : List α) (hy : y ≠ []) (rows : List D)
    (fit : DfFit nd cfg.nBins (labelsOf y).length) (hfit : dfFit ppf kind cfg range att (labelsOf y) y yE rows = .ok fit) (p : Fin (labelsOf y).length → ℝ) :
    (∀ d, Monotone (fit.cuts d)) ∧ (accumulate kind cfg.f fun d b => ∑ c, p c * meanOf (ofClass (yE.zip rows) (labelsOf y)[c]) fun row => binInd (fit.cuts d) b (att d row)) = mixtureOf fit.train p := by
  unfold dfFit at hfit
  split at hfit
  · cases hfit
  · rename_i cuts hcuts
    split_ifs at hfit with hlen
    split at hfit
    · cases hfit
    · rename_i v hv
      cases hfit
      have hv' := (seqFin_ok _ _).1 hv
      have hpos : 0 < (labelsOf y).length := labels_pos y hy
      have hm : ∀ d, Monotone (cuts d) := fun d => histBlocks_mono (hv' ⟨0, hpos⟩) d
      refine ⟨hm, funext fun i => ?_⟩
      refine Eq.trans ?_ (accumulate_mixture kind cfg.f v p i)
      congr 1
      funext d b
      refine Finset.sum_congr rfl fun c _ => ?_
      have := histBlocks_eq att cuts hm (selectRows yE rows (labelsOf y)[c])
      rw [hv' c] at this
      rw [Except.ok.inj this, mul_comm]
      rfl

theorem mem_of_zip_class {α β : Type*} [LinearOrder α] (y : List α) (r : ℕ) (P : List β) (t : α × β) (ht : t ∈ (stacked y r).zip P) (hr : 0 < r) : t.1 ∈ y ∧ t.2 ∈ P := by
  obtain ⟨a, b⟩ := t
  exact ⟨(stacked_mem_iff y r hr a).1 (List.of_mem_zip ht).1, (List.of_mem_zip ht).2⟩

theorem class_ne {α : Type} {β : Type*} [LinearOrder α] (y : List α) (r : ℕ) (hr : 0 < r) (P : List β) (hl : (stacked y r).length = P.length) (c : Fin (labelsOf y).length) : ofClass ((stacked y r).zip P) (labelsOf y)[c] ≠ [] :=
  selectRows_ne hl (stacked_mem y r hr _ ((mem_labelsOf y _).1 (List.getElem_mem _)))

section
variable {Ω : Type*} [MeasurableSpace Ω] {μ : Measure Ω} [IsProbabilityMeasure μ]
variable {σ D α : Type} {k : ℕ} [LinearOrder α] [MeasurableSpace α] [MeasurableSingletonClass α] (enc : Bool → α) (w : World σ D α) (et et' : Option ℕ) (X Xt : List D) (y : List α) (hy : y ≠ []) (r : ℕ) (hr : 0 < r)
  (p : Fin (labelsOf y).length → ℝ) (hp : IsPrev p)
include hy hr hp

/-- **C143** for AC. -/
theorem C143_ac (ops : EstOps σ D α k) (sol : Solvers) (dist : Dist) (P : List α) (hP : P.length = r * y.length) (hPy : ∀ a ∈ P, a ∈ y)
    (hM : NonDegenerate fun i j : Fin (labelsOf y).length => condFreq (stacked y r) P (labelsOf y)[i] (labelsOf y)[j]) (Z : ℕ → Ω → α × α) (hZ : ShiftedStream μ ((stacked y r).zip P) y p Z) :
    Consistent μ Z p fun bag => ucRun ops enc w ⟨acClass sol dist, et, et'⟩ X y (some (.crisp P)) Xt (some (.crisp bag)) := by
  have hl : (stacked y r).length = P.length := by rw [stacked_length, hP]
  have hrow := fun i => (cmReal_row y r hr P hP hPy i).2
  obtain ⟨κ, hκ, h2⟩ := tellsApart_of_nonDegenerate (cmReal y r P) hrow hM
  refine consistent_of_bound hZ hp.2 (class_ne y r hr P hl) p _ (fun (j : Fin (labelsOf y).length) a => if a = (labelsOf y)[j] then (1:ℝ) else 0) (fun q => κ * totalError q (expectedPreds (cmReal y r P) p))
    ((continuous_totalError _).const_mul κ).continuousAt ?_ fun bag hne hbag => ?_
  · simp only [class_mean_crisp y r P hl]
    exact (congrArg _ (totalError_self _)).trans (mul_zero κ)
  · have hbne : bag.map Prod.snd ≠ [] := by simpa using hne
    have hq := freqs_isPrev _ (labelsOf_nodup y) (bag.map Prod.snd) hbne fun a ha => by
      obtain ⟨t, ht, rfl⟩ := List.mem_map.1 ha
      exact (mem_labelsOf y _).2 (hPy _ (mem_of_zip_class y r P t (hbag t ht) hr).2)
    obtain ⟨x, h, hx, he⟩ := adjust_error sol dist (cmReal y r P) hrow κ hκ h2 p _ hp hq.2
    refine ⟨x, ?_, by rwa [freqs_mean] at he⟩
    rw [ucRun_given_crisp ops enc w X Xt y (acClass sol dist) rfl rfl et et' hy r P _ hP, answer_ac_eq y sol dist r P _ hP hbne, normalizeRows_eq y r hr P hP hPy, h]
    rfl

/-- **C143** for PAC. -/
theorem C143_pac (ops : EstOps σ D α (labelsOf y).length) (sol : Solvers) (dist : Dist) (P : List (Fin (labelsOf y).length → ℝ)) (hP : P.length = r * y.length) (hPp : ∀ row ∈ P, IsPrev row)
    (hM : NonDegenerate fun i j : Fin (labelsOf y).length => condMean (stacked y r) P (fun row => row j) (labelsOf y)[i]) (Z : ℕ → Ω → α × (Fin (labelsOf y).length → ℝ)) (hZ : ShiftedStream μ ((stacked y r).zip P) y p Z) :
    Consistent μ Z p fun bag => ucRun ops enc w ⟨pacClass sol dist, et, et'⟩ X y (some (.probs P)) Xt (some (.probs bag)) := by
  have hl : (stacked y r).length = P.length := by rw [stacked_length, hP]
  have hrow := fun i => (pcmReal_row y r hr P hP hPp i).2
  obtain ⟨κ, hκ, h2⟩ := tellsApart_of_nonDegenerate (pcmReal y r P) hrow hM
  refine consistent_of_bound hZ hp.2 (class_ne y r hr P hl) p _ (fun (j : Fin (labelsOf y).length) row => row j) (fun q => κ * totalError q (expectedPreds (pcmReal y r P) p))
    ((continuous_totalError _).const_mul κ).continuousAt ?_ fun bag hne hbag => ?_
  · simp only [class_mean_probs y r P hl]
    exact (congrArg _ (totalError_self _)).trans (mul_zero κ)
  · have hbne : bag.map Prod.snd ≠ [] := by simpa using hne
    have hq := meanOf_isPrev (bag.map Prod.snd) hbne fun row hrow => by
      obtain ⟨t, ht, rfl⟩ := List.mem_map.1 hrow
      exact hPp _ (mem_of_zip_class y r P t (hbag t ht) hr).2
    obtain ⟨x, h, hx, he⟩ := adjust_error sol dist (pcmReal y r P) hrow κ hκ h2 p _ hp hq.2
    refine ⟨x, ?_, he⟩
    rw [pac_run enc w et et' X Xt y hy r hr ops sol dist P hP _ hbne, h]
    rfl

/-- **C143** for CC: the answers converge to the frequencies of the predictions that are expected for the prevalences, which in general are not the prevalences. -/
theorem C143_cc (ops : EstOps σ D α k) (P : List α) (hP : P.length = r * y.length) (hPy : ∀ a ∈ P, a ∈ y) (Z : ℕ → Ω → α × α) (hZ : ShiftedStream μ ((stacked y r).zip P) y p Z) :
    Consistent μ Z (expectedPreds (fun i j => condFreq (stacked y r) P (labelsOf y)[i] (labelsOf y)[j]) p) fun bag => ucRun ops enc w ⟨ccClass, et, et'⟩ X y (some (.crisp P)) Xt (some (.crisp bag)) := by
  have hl : (stacked y r).length = P.length := by rw [stacked_length, hP]
  refine consistent_of_bound hZ hp.2 (class_ne y r hr P hl) _ _ (fun (j : Fin (labelsOf y).length) a => if a = (labelsOf y)[j] then (1:ℝ) else 0) (fun q => totalError q (expectedPreds (cmReal y r P) p))
    (continuous_totalError _).continuousAt ?_ fun bag hne hbag => ?_
  · simp only [class_mean_crisp y r P hl]
    exact totalError_self _
  · have hbne : bag.map Prod.snd ≠ [] := by simpa using hne
    refine ⟨freqs (labelsOf y) (bag.map Prod.snd), ?_, by rw [freqs_mean]; exact le_rfl⟩
    rw [ucRun_given_crisp ops enc w X Xt y ccClass rfl rfl et et' hy r P _ hP]
    have : answerOn (k := k) ccClass y r (.crisp P) (.crisp (bag.map Prod.snd)) = .ok (some (vecList (classFreqs (labelsOf y) (bag.map Prod.snd)))) := rfl
    rw [this, classFreqs_fin _ _ hbne]
    rfl

/-- **C143** for PCC: the same for the means of the probabilities. -/
theorem C143_pcc (ops : EstOps σ D α (labelsOf y).length) (P : List (Fin (labelsOf y).length → ℝ)) (hP : P.length = r * y.length) (Z : ℕ → Ω → α × (Fin (labelsOf y).length → ℝ))
    (hZ : ShiftedStream μ ((stacked y r).zip P) y p Z) :
    Consistent μ Z (expectedPreds (fun i j => condMean (stacked y r) P (fun row => row j) (labelsOf y)[i]) p) fun bag => ucRun ops enc w ⟨pccClass, et, et'⟩ X y (some (.probs P)) Xt (some (.probs bag)) := by
  have hl : (stacked y r).length = P.length := by rw [stacked_length, hP]
  refine consistent_of_bound hZ hp.2 (class_ne y r hr P hl) _ _ (fun (j : Fin (labelsOf y).length) row => row j) (fun q => totalError q (expectedPreds (pcmReal y r P) p))
    (continuous_totalError _).continuousAt ?_ fun bag hne hbag => ?_
  · simp only [class_mean_probs y r P hl]
    exact totalError_self _
  · have hbne : bag.map Prod.snd ≠ [] := by simpa using hne
    refine ⟨fun j => meanOf (bag.map Prod.snd) fun row => row j, ?_, le_rfl⟩
    rw [ucRun_given_probs ops enc w X Xt y pccClass rfl rfl et et' hy r P _ hP]
    have : answerOn pccClass y r (.probs P) (.probs (bag.map Prod.snd)) = .ok (some (vecList (colMeans (bag.map Prod.snd)))) := rfl
    rw [this, colMeans_eq _ hbne]
    rfl

/-- **C143** for ACOrdinal. -/
theorem C143_aco (ops : EstOps σ D α k) (sv : CvxSolver) (hsv : ExactCvx sv) (P : List α) (hP : P.length = r * y.length) (hPy : ∀ a ∈ P, a ∈ y)
    (hid : Identifiable fun i j : Fin (labelsOf y).length => ∑ l, if l ≤ i then condFreq (stacked y r) P (labelsOf y)[j] (labelsOf y)[l] else 0) (Z : ℕ → Ω → α × α) (hZ : ShiftedStream μ ((stacked y r).zip P) y p Z) :
    Consistent μ Z p fun bag => ucRun ops enc w ⟨acoClass sv, et, et'⟩ X y (some (.crisp P)) Xt (some (.crisp bag)) := by
  have hl : (stacked y r).length = P.length := by rw [stacked_length, hP]
  set T : Fin (labelsOf y).length → Fin (labelsOf y).length → ℝ := fun i j => ∑ l, if l ≤ i then condFreq (stacked y r) P (labelsOf y)[j] (labelsOf y)[l] else 0 with hT
  obtain ⟨κ, hκ0, hκ⟩ := C137_constant (distance := .l1) (D := totalError) rfl T (fun i j => Finset.sum_nonneg fun l _ => by split_ifs <;> [(unfold condFreq; positivity); exact le_rfl]) hid
  refine consistent_of_bound hZ hp.2 (class_ne y r hr P hl) p _ (fun (j : Fin (labelsOf y).length) a => if a = (labelsOf y)[j] then (1:ℝ) else 0)
    (fun q => 2 * κ * totalError (fun i => ∑ l, if l ≤ i then q l else 0) (mixtureOf T p)) ?_ ?_ fun bag hne hbag => ?_
  · refine Continuous.continuousAt (Continuous.const_mul ((continuous_totalError _).comp (continuous_pi fun i => continuous_finset_sum _ fun l _ => ?_)) _)
    split_ifs
    · exact continuous_apply l
    · exact continuous_const
  · simp only [class_mean_crisp y r P hl]
    have : (fun i => ∑ l, if l ≤ i then ∑ c, p c * cmReal y r P c l else 0) = mixtureOf T p := by
      funext i
      refine Eq.trans ?_ (cumsum_mixture (fun j l => cmReal y r P j l) p i)
      exact Finset.sum_congr rfl fun l _ => by simp only [mul_comm]
    rw [this, totalError_self, mul_zero]
  · obtain ⟨x, h1, -, h2⟩ := C137_aco enc w et et' X Xt y hy r hr ops sv hsv P hP hPy T hT κ hκ0 hκ (bag.map Prod.snd) (by simpa using hne)
    refine ⟨x, h1, ?_⟩
    have h3 : ∀ l : Fin (labelsOf y).length, freq (bag.map Prod.snd) (labelsOf y)[l] = meanOf (bag.map Prod.snd) fun a => if a = (labelsOf y)[l] then (1:ℝ) else 0 := fun l => congrFun (freqs_mean (labelsOf y) (bag.map Prod.snd)) l
    simp only [← h3]
    exact h2 p hp

/-- **C143** for FriedmanME. -/
theorem C143_friedman (ops : EstOps σ D α (labelsOf y).length) (sv : CvxSolver) (hsv : ExactCvx sv) (qp : QPSolver) (hqp : ExactQP qp) (la : LinAlg (labelsOf y).length) (hla : ExactLinAlg la) (fuel : ℕ) (tol : ℝ)
    (distance : DfDistance (labelsOf y).length) (P : List (Fin (labelsOf y).length → ℝ)) (hP : P.length = r * y.length)
    (hd : Distinguishes distance fun i c => reachShare i (freq y (labelsOf y)[i]) (ofClass ((stacked y r).zip P) (labelsOf y)[c]))
    (Z : ℕ → Ω → α × (Fin (labelsOf y).length → ℝ)) (hZ : ShiftedStream μ ((stacked y r).zip P) y p Z) :
    Consistent μ Z p fun bag => ucRun ops enc w ⟨friedmanClass sv qp la (fuel + 1) tol distance, et, et'⟩ X y (some (.probs P)) Xt (some (.probs bag)) := by
  have hl : (stacked y r).length = P.length := by rw [stacked_length, hP]
  set T : Fin (labelsOf y).length → Fin (labelsOf y).length → ℝ := fun i c => reachShare i (freq y (labelsOf y)[i]) (ofClass ((stacked y r).zip P) (labelsOf y)[c]) with hT
  obtain ⟨dist, hD, hsolv, hid⟩ := distinguishes_solvable hd
  obtain ⟨κ, hκ0, hκ⟩ := C137_constant hD T (fun i j => (reachShare_mem _ _ _).1) hid
  have hreach : ∀ (i : Fin (labelsOf y).length) (l : List (Fin (labelsOf y).length → ℝ)), reachShare i (freq y (labelsOf y)[i]) l = meanOf l fun row => if freq y (labelsOf y)[i] ≤ row i then (1:ℝ) else 0 := by
    intro i l
    unfold reachShare meanOf
    congr 1
    induction l with
    | nil => simp
    | cons a l ih =>
      rw [List.map_cons, List.sum_cons, ← ih, List.countP_cons]
      by_cases h : freq y (labelsOf y)[i] ≤ a i <;> simp [h, add_comm]
  refine consistent_of_bound hZ hp.2 (class_ne y r hr P hl) p _ (fun (i : Fin (labelsOf y).length) row => if freq y (labelsOf y)[i] ≤ row i then (1:ℝ) else 0)
    (fun q => 2 * κ * dist q (mixtureOf T p)) ((continuous_named hD _).const_mul _).continuousAt ?_ fun bag hne hbag => ?_
  · simp only [← hreach]
    have : (fun i => ∑ c, p c * reachShare i (freq y (labelsOf y)[i]) (ofClass ((stacked y r).zip P) (labelsOf y)[c])) = mixtureOf T p := by
      funext i
      exact Finset.sum_congr rfl fun c _ => mul_comm _ _
    rw [this, named_self hD, mul_zero]
  · obtain ⟨x, h1, -, h2⟩ := C137_friedman enc w et et' X Xt y hy r hr ops sv hsv qp hqp la hla fuel tol distance hD P hP T hT hsolv κ hκ0 hκ (bag.map Prod.snd) (by simpa using hne)
    refine ⟨x, h1, ?_⟩
    simp only [← hreach]
    exact h2 p hp

/-- **C143** for DFy (and HDy, MMy). -/
theorem C143_dfy (ops : EstOps σ D α (labelsOf y).length) (sv : CvxSolver) (hsv : ExactCvx sv) (qp : QPSolver) (hqp : ExactQP qp) (ppf : ℝ → EReal) (la : LinAlg (labelsOf y).length) (hla : ExactLinAlg la) (fuel : ℕ) (tol : ℝ)
    (cfg : DfCfg) (distance : DfDistance (nDescriptors (labelsOf y).length * cfg.nBins)) (P : List (Fin (labelsOf y).length → ℝ)) (hP : P.length = r * y.length)
    (fit : DfFit (nDescriptors (labelsOf y).length) cfg.nBins (labelsOf y).length) (hfit : dfyFit ppf cfg (labelsOf y) y (stacked y r) P = .ok fit) (hd : Distinguishes distance fit.train)
    (Z : ℕ → Ω → α × (Fin (labelsOf y).length → ℝ)) (hZ : ShiftedStream μ ((stacked y r).zip P) y p Z) :
    Consistent μ Z p fun bag => ucRun ops enc w ⟨dfyClass ppf sv qp la (fuel + 1) tol cfg distance, et, et'⟩ X y (some (.probs P)) Xt (some (.probs bag)) := by
  have hl : (stacked y r).length = P.length := by rw [stacked_length, hP]
  obtain ⟨dist, hD, hsolv, hid⟩ := distinguishes_solvable hd
  have h0 := (df_nonneg ppf .whole cfg (some (0, 1)) _ y (stacked y r) hy P fit hfit []).1
  obtain ⟨κ, hκ0, hκ⟩ := C137_constant hD fit.train h0 hid
  obtain ⟨hm, htr⟩ := df_means ppf .whole cfg (some (0, 1)) _ y (stacked y r) hy P fit hfit p
  refine consistent_of_bound hZ hp.2 (class_ne y r hr P hl) p _ (fun (i : Fin (nDescriptors (labelsOf y).length) × Fin cfg.nBins) row => binInd (fit.cuts i.1) i.2 (dfyAtt _ i.1 row))
    (fun h => 2 * κ * dist (accumulate .whole cfg.f fun d b => h (d, b)) (mixtureOf fit.train p)) ?_ ?_ fun bag hne hbag => ?_
  · exact (((continuous_named hD _).comp (continuous_accumulate .whole cfg.f)).const_mul _).continuousAt
  · rw [htr, named_self hD, mul_zero]
  · obtain ⟨q, x, hq, h1, -, h2⟩ := C137_dfy enc w et et' X Xt y hy r hr ops sv hsv qp hqp ppf la hla fuel tol cfg distance hD P hP fit hfit hsolv κ hκ0 hκ (bag.map Prod.snd) (by simpa using hne)
    refine ⟨x, h1, ?_⟩
    have h3 : dfyTest cfg fit (bag.map Prod.snd) = .ok (accumulate .whole cfg.f fun d b => meanOf (bag.map Prod.snd) fun row => binInd (fit.cuts d) b (dfyAtt _ d row)) := dfTest_eq .whole cfg _ fit hm _
    rw [h3] at hq
    rw [Except.ok.inj hq]
    exact h2 p hp

end

/-- **C143** for DFX (and HDX, MMX): the answers are those of `_solve` with the representation of the bag; nothing is returned for a bag that cannot be represented. -/
theorem C143_dfx {Ω : Type*} [MeasurableSpace Ω] {μ : Measure Ω} [IsProbabilityMeasure μ] {α : Type} [LinearOrder α] [MeasurableSpace α] [MeasurableSingletonClass α] {nf : ℕ} (y : List α) (hy : y ≠ []) (sv : CvxSolver)
    (hsv : ExactCvx sv) (qp : QPSolver) (hqp : ExactQP qp) (ppf : ℝ → EReal) (la : LinAlg (labelsOf y).length) (hla : ExactLinAlg la) (fuel : ℕ) (tol : ℝ) (cfg : DfCfg) (distance : DfDistance (nf * cfg.nBins))
    (X : List (Fin nf → ℝ)) (hX : y.length = X.length) (fit : DfFit nf cfg.nBins (labelsOf y).length) (hfit : dfxFit ppf cfg (labelsOf y) y X = .ok fit) (hd : Distinguishes distance fit.train)
    (par : QPParams (labelsOf y).length ((labelsOf y).length + 1)) (hpar : distance = .l2 → computeL2ParamTrain la (fuel + 1) fit.train = some par) (p : Fin (labelsOf y).length → ℝ) (hp : IsPrev p)
    (Z : ℕ → Ω → α × (Fin nf → ℝ)) (hZ : ShiftedStream μ (y.zip X) y p Z) :
    Consistent μ Z p fun bag => (dfxTest cfg fit bag).bind fun q => (dfSolve sv qp tol distance fit.train par q).map fun o => o.map fun v => List.ofFn fun i => Fl.fin (v.2 i) := by
  obtain ⟨dist, hD, hsolv, hid⟩ := distinguishes_solvable hd
  have h0 := (df_nonneg ppf .perBlock cfg none _ y y hy X fit hfit []).1
  obtain ⟨κ, hκ0, hκ⟩ := C137_constant hD fit.train h0 hid
  obtain ⟨hm, htr⟩ := df_means ppf .perBlock cfg none _ y y hy X fit hfit p
  refine consistent_of_bound hZ hp.2 (fun c => selectRows_ne hX ((mem_labelsOf' y _).1 (List.getElem_mem _))) p _ (fun (i : Fin nf × Fin cfg.nBins) row => binInd (fit.cuts i.1) i.2 (row i.1))
    (fun h => 2 * κ * dist (accumulate .perBlock cfg.f fun d b => h (d, b)) (mixtureOf fit.train p)) ?_ ?_ fun bag hne hbag => ?_
  · exact (((continuous_named hD _).comp (continuous_accumulate .perBlock cfg.f)).const_mul _).continuousAt
  · rw [htr, named_self hD, mul_zero]
  · obtain ⟨q, x, hq, h1, -, h2⟩ := C137_dfx y hy sv hsv qp hqp ppf la hla fuel tol cfg distance hD X fit hfit hsolv par hpar κ hκ0 hκ (bag.map Prod.snd) (by simpa using hne)
    refine ⟨x, ?_, ?_⟩
    · simp only [hq, Except.bind, h1, Except.map, Option.map]
      rfl
    · have h3 : dfxTest cfg fit (bag.map Prod.snd) = .ok (accumulate .perBlock cfg.f fun d b => meanOf (bag.map Prod.snd) fun row => binInd (fit.cuts d) b (row d)) := dfTest_eq .perBlock cfg _ fit hm _
      rw [h3] at hq
      rw [Except.ok.inj hq]
      exact h2 p hp

theorem avgDist_mean {P : Type*} (d : P → P → ℝ) (A B : List P) : avgDist d A B = meanOf B fun b => meanOf A fun a => d a b := by
  unfold avgDist meanOf
  rw [← div_div]
  congr 1
  induction B with
  | nil => simp
  | cons b B ih =>
    rw [List.map_cons, List.sum_cons, ← ih, ← add_div]
    congr 1
    simp only [List.map_cons, List.sum_cons]
    rw [List.sum_map_add]

theorem sum_cast {m n : ℕ} (h : m = n) (f : Fin m → ℝ) : ∑ i : Fin n, f (Fin.cast h.symm i) = ∑ i, f i := by
  subst h
  rfl

/-- **C143** for EDy. -/
theorem C143_edy {Ω : Type*} [MeasurableSpace Ω] {μ : Measure Ω} [IsProbabilityMeasure μ] {σ D α : Type} {n : ℕ} [LinearOrder α] [MeasurableSpace α] [MeasurableSingletonClass α] (enc : Bool → α) (w : World σ D α) (et et' : Option ℕ)
    (X Xt : List D) (y : List α) (hy : y ≠ []) (r : ℕ) (hr : 0 < r) (p : Fin (labelsOf y).length → ℝ) (hp : IsPrev p) (ops : EstOps σ D α (n + 1)) (hn : 0 < n) (hk : (labelsOf y).length = n + 1) (qp : QPSolver)
    (hqp : ExactQP qp) (la : LinAlg n) (fuel : ℕ) (d : (Fin (n + 1) → ℝ) → (Fin (n + 1) → ℝ) → ℝ) (hd : ∀ x y, d x y = d y x) (P : List (Fin (n + 1) → ℝ)) (hP : P.length = r * y.length)
    (hsep : Separated d fun i => ofClass ((stacked y r).zip P) (labelsOf y)[Fin.cast hk.symm i]) (Z : ℕ → Ω → α × (Fin (n + 1) → ℝ)) (hZ : ShiftedStream μ ((stacked y r).zip P) y p Z) :
    Consistent μ Z (fun i => p (Fin.cast hk.symm i)) fun bag => ucRun ops enc w ⟨edyClass qp la fuel d, et, et'⟩ X y (some (.probs P)) Xt (some (.probs bag)) := by
  have hl : (stacked y r).length = P.length := by rw [stacked_length, hP]
  set train : Fin (n + 1) → List (Fin (n + 1) → ℝ) := fun i => ofClass ((stacked y r).zip P) (labelsOf y)[Fin.cast hk.symm i] with htr
  obtain ⟨κ, hκ0, hκ⟩ := C137_energy_constant d train hsep
  have hp' : IsPrev fun i => p (Fin.cast hk.symm i) := ⟨fun i => hp.1 _, by rw [sum_cast hk, hp.2]⟩
  refine consistent_of_bound hZ hp.2 (class_ne y r hr P hl) _ _ (fun (i : Fin (n + 1)) b => meanOf (train i) fun a => d a b)
    (fun q => 2 * κ * totalError q fun i => ∑ j, p (Fin.cast hk.symm j) * avgDist d (train i) (train j)) ((continuous_totalError _).const_mul _).continuousAt ?_ fun bag hne hbag => ?_
  · have : (fun i => ∑ j, p (Fin.cast hk.symm j) * avgDist d (train i) (train j)) = fun i => ∑ c, p c * meanOf (ofClass ((stacked y r).zip P) (labelsOf y)[c]) fun b => meanOf (train i) fun a => d a b := by
      funext i
      rw [← sum_cast hk]
      exact Finset.sum_congr rfl fun j _ => by rw [avgDist_mean]
    rw [this, totalError_self, mul_zero]
  · obtain ⟨x, h1, -, h2⟩ := C137_edy enc w et et' X Xt y hy r hr ops hn hk qp hqp la fuel d hd P hP train htr hsep κ hκ0 hκ (bag.map Prod.snd) (by simpa using hne)
    refine ⟨x, h1, ?_⟩
    have h3 := h2 _ hp'
    simp only [avgDist_mean d _ (bag.map Prod.snd)] at h3
    exact h3

/-- **C143** for EDX. -/
theorem C143_edx {Ω : Type*} [MeasurableSpace Ω] {μ : Measure Ω} [IsProbabilityMeasure μ] {β α : Type*} {n : ℕ} [LinearOrder α] [MeasurableSpace α] [MeasurableSingletonClass α] [MeasurableSpace β] [MeasurableSingletonClass β]
    (y : List α) (p : Fin (labelsOf y).length → ℝ) (hp : IsPrev p) (hn : 0 < n) (hk : (labelsOf y).length = n + 1) (qp : QPSolver) (hqp : ExactQP qp) (la : LinAlg n) (fuel : ℕ) (d : β → β → ℝ) (hd : ∀ x y, d x y = d y x)
    (X : List β) (hX : y.length = X.length) (hsep : Separated d fun i => ofClass (y.zip X) (labelsOf y)[Fin.cast hk.symm i]) (Z : ℕ → Ω → α × β) (hZ : ShiftedStream μ (y.zip X) y p Z) :
    ∃ f, edFit la fuel d (fun i => (labelsOf y)[Fin.cast hk.symm i]) y X = some f
      ∧ Consistent μ Z (fun i => p (Fin.cast hk.symm i)) fun bag => (edPredict qp d f bag).map fun x => some (List.ofFn fun i => Fl.fin (x i)) := by
  set train : Fin (n + 1) → List β := fun i => ofClass (y.zip X) (labelsOf y)[Fin.cast hk.symm i] with htr
  obtain ⟨κ, hκ0, hκ⟩ := C137_energy_constant d train hsep
  have hp' : IsPrev fun i => p (Fin.cast hk.symm i) := ⟨fun i => hp.1 _, by rw [sum_cast hk, hp.2]⟩
  obtain ⟨f, hf, h2⟩ := C137_edx y hn hk qp hqp la fuel d hd X hX train htr hsep κ hκ0 hκ
  refine ⟨f, hf, ?_⟩
  refine consistent_of_bound hZ hp.2 (fun c => selectRows_ne hX ((mem_labelsOf' y _).1 (List.getElem_mem _))) _ _ (fun (i : Fin (n + 1)) b => meanOf (train i) fun a => d a b)
    (fun q => 2 * κ * totalError q fun i => ∑ j, p (Fin.cast hk.symm j) * avgDist d (train i) (train j)) ((continuous_totalError _).const_mul _).continuousAt ?_ fun bag hne hbag => ?_
  · have : (fun i => ∑ j, p (Fin.cast hk.symm j) * avgDist d (train i) (train j)) = fun i => ∑ c, p c * meanOf (ofClass (y.zip X) (labelsOf y)[c]) fun b => meanOf (train i) fun a => d a b := by
      funext i
      rw [← sum_cast hk]
      exact Finset.sum_congr rfl fun j _ => by rw [avgDist_mean]
    rw [this, totalError_self, mul_zero]
  · obtain ⟨x, h1, -, h3⟩ := h2 (bag.map Prod.snd) (by simpa using hne)
    have h4 := h3 _ hp'
    simp only [avgDist_mean d _ (bag.map Prod.snd)] at h4
    exact ⟨x, by rw [h1]; rfl, h4⟩

/-- **C143**: answers do not converge to two different vectors. In particular CC and PCC do not approach the prevalences when the expected predictions are different from them. -/
theorem C143_limit_unique {Ω α β E : Type*} [MeasurableSpace Ω] {μ : Measure Ω} [IsProbabilityMeasure μ] {n : ℕ} (p q : Fin n → ℝ) (Z : ℕ → Ω → α × β) (answer : List β → Except E (Option (List Fl)))
    (hp : Consistent μ Z p answer) (hq : Consistent μ Z q answer) : p = q := by
  obtain ⟨ω, ⟨x, hx, hxt⟩, z, hz, hzt⟩ := (hp.and hq).exists
  have : x = z := by
    funext m
    have := (hx m).symm.trans (hz m)
    have h1 := List.ofFn_injective (Option.some.inj (Except.ok.inj this))
    funext i
    exact Fl.fin.inj (congrFun h1 i)
  subst this
  exact tendsto_nhds_unique hxt hzt

/-- C143: a classifier that is right for half of the negatives and for all the positives. Its matrix is not degenerate, so AC approaches the prevalences of every stream, and there are streams with 1/4 of positives; CC
approaches 5/8 of positives instead. -/
example : NonDegenerate (fun i j : Fin 2 => condFreq (stacked [0, 0, 1, 1] 1) [0, 1, 1, 1] ([0, 1].getD i 0) ([0, 1].getD j 0))
    ∧ expectedPreds (fun i j : Fin 2 => condFreq (stacked [0, 0, 1, 1] 1) [0, 1, 1, 1] ([0, 1].getD i 0) ([0, 1].getD j 0)) ![3/4, 1/4] = ![3/8, 5/8]
    ∧ (∀ a ∈ [0, 1], ofClass ((stacked [0, 0, 1, 1] 1).zip [0, 1, 1, 1]) a ≠ []) := by
  have e : (fun i j : Fin 2 => condFreq (stacked [0, 0, 1, 1] 1) [0, 1, 1, 1] ([0, 1].getD i 0) ([0, 1].getD j 0)) = ![![1/2, 1/2], ![0, 1]] := by
    funext i j
    fin_cases i <;> fin_cases j <;> norm_num [condFreq, stacked]
  rw [e]
  refine ⟨Or.inr ⟨rfl, ?_⟩, ?_, by decide⟩
  · show (1:ℝ)/1000 < |(1:ℝ) - 1/2|
    norm_num
  · funext j
    fin_cases j <;> simp [expectedPreds, Fin.sum_univ_two] <;> norm_num

end Verif.Props
