import Verif.Proof.Stream
import Mathlib.Probability.Moments.Variance
import Mathlib.Probability.Moments.SubGaussian
import Mathlib.Algebra.Order.Chebyshev

/-!
# Deviations of means over a stream of test examples (used for C154)
-/

namespace Verif.Spec

open MeasureTheory ProbabilityTheory Filter Topology

variable {Ω α β : Type*} [MeasurableSpace Ω] [LinearOrder α] [MeasurableSpace α] [MeasurableSpace β] [MeasurableSingletonClass α] [MeasurableSingletonClass β]

omit [MeasurableSpace Ω] [LinearOrder α] [MeasurableSpace α] [MeasurableSpace β] [MeasurableSingletonClass α] [MeasurableSingletonClass β] in
theorem meanOf_firstSeen (Z : ℕ → Ω → α × β) (n : ℕ) (ω : Ω) (f : β → ℝ) : meanOf (firstSeen Z n ω) f = (∑ i ∈ Finset.range n, f (Z i ω).2) / n := by
  rw [meanOf, firstSeen, List.map_map, List.length_map, List.length_range]
  congr 1

/-- What is computed from the examples of a stream, as random variables. -/
theorem stream_rv {μ : Measure Ω} [IsProbabilityMeasure μ] {train : List (α × β)} {y : List α} {p : Fin (labelsOf y).length → ℝ} {Z : ℕ → Ω → α × β} (h : ShiftedStream μ train y p Z) (hp : ∑ c, p c = 1)
    (hne : ∀ c : Fin (labelsOf y).length, ofClass train (labelsOf y)[c] ≠ []) (f : β → ℝ) :
    ∃ G : α × β → ℝ, Measurable G ∧ (∀ t ∈ train, G t = f t.2) ∧ (∃ C, ∀ t, |G t| ≤ C) ∧ ∫ ω, G (Z 0 ω) ∂μ = ∑ c, p c * meanOf (ofClass train (labelsOf y)[c]) f := by
  classical
  set G : α × β → ℝ := fun t => ∑ s ∈ train.toFinset, f s.2 * ({s} : Set (α × β)).indicator (fun _ => (1 : ℝ)) t with hG
  have hGm : Measurable G := Finset.measurable_sum _ fun s _ => (measurable_const.indicator (measurableSet_singleton s)).const_mul _
  have hGt : ∀ t ∈ train, G t = f t.2 := by
    intro t ht
    rw [hG]
    simp only
    rw [Finset.sum_eq_single_of_mem t (List.mem_toFinset.2 ht), Set.indicator_of_mem (Set.mem_singleton _), mul_one]
    intro s _ hs
    rw [Set.indicator_of_notMem (fun hh => hs (Set.mem_singleton_iff.1 hh).symm), mul_zero]
  have hGb : ∀ t, |G t| ≤ ∑ s ∈ train.toFinset, |f s.2| := by
    intro t
    refine (Finset.abs_sum_le_sum_abs _ _).trans (Finset.sum_le_sum fun s _ => ?_)
    rw [abs_mul]
    refine mul_le_of_le_one_right (abs_nonneg _) ?_
    by_cases hs : t ∈ ({s} : Set (α × β))
    · rw [Set.indicator_of_mem hs]
      simp
    · rw [Set.indicator_of_notMem hs]
      simp
  refine ⟨G, hGm, hGt, ⟨_, hGb⟩, ?_⟩
  have hint : Integrable (G ∘ Z 0) μ :=
    Integrable.of_bound (hGm.comp_aemeasurable (h.same 0).aemeasurable_fst).aestronglyMeasurable _ (ae_of_all _ fun ω => by rw [Real.norm_eq_abs]; exact hGb _)
  have hlaw := strong_law_ae_real (fun i => G ∘ Z i) hint (fun i j hij => (h.indep hij).comp hGm hGm) fun i => (h.same i).comp hGm
  obtain ⟨ω, h1, h2, h3⟩ := (hlaw.and (stream_means h hp hne)).exists
  refine tendsto_nhds_unique h1 ?_
  refine (h3 f).congr fun n => ?_
  rw [meanOf_firstSeen]
  congr 1
  exact Finset.sum_congr rfl fun i _ => (hGt _ (h2 i)).symm

theorem stream_mem {μ : Measure Ω} [IsProbabilityMeasure μ] {train : List (α × β)} {y : List α} {p : Fin (labelsOf y).length → ℝ} {Z : ℕ → Ω → α × β} (h : ShiftedStream μ train y p Z) (hp : ∑ c, p c = 1)
    (hne : ∀ c : Fin (labelsOf y).length, ofClass train (labelsOf y)[c] ≠ []) : ∀ᵐ ω ∂μ, ∀ i, Z i ω ∈ train :=
  (stream_means h hp hne).mono fun _ hω => hω.1

/-- Mean and variance of what is computed from a bag of `n` examples. -/
theorem mean_moments {μ : Measure Ω} [IsProbabilityMeasure μ] {train : List (α × β)} {y : List α} {p : Fin (labelsOf y).length → ℝ} {Z : ℕ → Ω → α × β} (h : ShiftedStream μ train y p Z) (hp : ∑ c, p c = 1)
    (hne : ∀ c : Fin (labelsOf y).length, ofClass train (labelsOf y)[c] ≠ []) (f : β → ℝ) (n : ℕ) (hn : 0 < n) :
    Integrable (fun ω => (meanOf (firstSeen Z n ω) f - ∑ c, p c * meanOf (ofClass train (labelsOf y)[c]) f) ^ 2) μ
      ∧ Integrable (fun ω => meanOf (firstSeen Z n ω) f) μ ∧ ∫ ω, meanOf (firstSeen Z n ω) f ∂μ = ∑ c, p c * meanOf (ofClass train (labelsOf y)[c]) f
      ∧ ∫ ω, (meanOf (firstSeen Z n ω) f - ∑ c, p c * meanOf (ofClass train (labelsOf y)[c]) f) ^ 2 ∂μ
        = (∑ c, p c * meanOf (ofClass train (labelsOf y)[c]) (fun v => f v ^ 2) - (∑ c, p c * meanOf (ofClass train (labelsOf y)[c]) f) ^ 2) / n := by
  obtain ⟨G, hGm, hGt, ⟨C, hC⟩, hGi⟩ := stream_rv h hp hne f
  obtain ⟨G2, -, hGt2, -, hGi2⟩ := stream_rv h hp hne fun v => f v ^ 2
  set π := ∑ c, p c * meanOf (ofClass train (labelsOf y)[c]) f with hπ
  have hn' : (n : ℝ) ≠ 0 := by exact_mod_cast hn.ne'
  have hm : ∀ i, AEMeasurable (fun ω => G (Z i ω)) μ := fun i => hGm.comp_aemeasurable (h.same i).aemeasurable_fst
  have hL : ∀ i, MemLp (fun ω => G (Z i ω)) 2 μ := fun i => MemLp.of_bound (hm i).aestronglyMeasurable C (ae_of_all _ fun ω => by rw [Real.norm_eq_abs]; exact hC _)
  have hid : ∀ i, IdentDistrib (fun ω => G (Z i ω)) (fun ω => G (Z 0 ω)) μ μ := fun i => (h.same i).comp hGm
  set S : Ω → ℝ := ∑ i ∈ Finset.range n, fun ω => G (Z i ω) with hS
  have hSL : MemLp S 2 μ := memLp_finsetSum' _ fun i _ => hL i
  have hSe : ∀ ω, S ω = ∑ i ∈ Finset.range n, G (Z i ω) := fun ω => by rw [hS, Finset.sum_apply]
  have hSi : ∫ ω, S ω ∂μ = n * π := by
    simp only [hSe]
    rw [integral_finsetSum _ fun i _ => (hL i).integrable (by norm_num), Finset.sum_congr rfl fun i _ => (hid i).integral_eq.trans hGi, Finset.sum_const, Finset.card_range, nsmul_eq_mul]
  have hae : ∀ᵐ ω ∂μ, meanOf (firstSeen Z n ω) f = S ω / n := by
    filter_upwards [stream_mem h hp hne] with ω hω
    rw [meanOf_firstSeen, hSe]
    congr 1
    exact Finset.sum_congr rfl fun i _ => (hGt _ (hω i)).symm
  have hae2 : (fun ω => (meanOf (firstSeen Z n ω) f - π) ^ 2) =ᵐ[μ] fun ω => (S ω - n * π) ^ 2 / (n : ℝ) ^ 2 := by
    filter_upwards [hae] with ω hω
    rw [hω]
    field_simp
  have hvar : Var[S; μ] = n * (∑ c, p c * meanOf (ofClass train (labelsOf y)[c]) (fun v => f v ^ 2) - π ^ 2) := by
    rw [hS, IndepFun.variance_sum (fun i _ => hL i) fun i _ j _ hij => (h.indep hij).comp hGm hGm, Finset.sum_congr rfl fun i _ => (hid i).variance_eq, Finset.sum_const, Finset.card_range, nsmul_eq_mul]
    congr 1
    rw [variance_eq_sub (hL 0), hGi, ← hGi2]
    congr 1
    refine integral_congr_ae ?_
    filter_upwards [stream_mem h hp hne] with ω hω
    rw [Pi.pow_apply, hGt _ (hω 0), hGt2 _ (hω 0)]
  have hSq : Integrable (fun ω => (S ω - n * π) ^ 2) μ := (hSL.sub (memLp_const _)).integrable_sq
  refine ⟨(hSq.div_const _).congr hae2.symm, ((hSL.integrable (by norm_num)).div_const _).congr (hae.mono fun _ hh => hh.symm), ?_, ?_⟩
  · rw [integral_congr_ae hae, integral_div, hSi]
    field_simp
  · rw [integral_congr_ae hae2, integral_div]
    have : ∫ ω, (S ω - n * π) ^ 2 ∂μ = Var[S; μ] := by
      rw [variance_eq_integral hSL.aemeasurable, hSi]
    rw [this, hvar]
    field_simp

/-- The deviations of several means together (Chebyshev's inequality). -/
theorem deviation_le {μ : Measure Ω} [IsProbabilityMeasure μ] {train : List (α × β)} {y : List α} {p : Fin (labelsOf y).length → ℝ} {Z : ℕ → Ω → α × β} (h : ShiftedStream μ train y p Z) (hp : ∑ c, p c = 1)
    (hp0 : ∀ c, 0 ≤ p c) (hne : ∀ c : Fin (labelsOf y).length, ofClass train (labelsOf y)[c] ≠ []) {ι : Type*} [Fintype ι] (F : ι → β → ℝ) (B : ℝ) (hB : ∀ t ∈ train, ∑ k, F k t.2 ^ 2 ≤ B) (n : ℕ) (hn : 0 < n)
    (η : ℝ) (hη : 0 < η) :
    μ {ω | η ≤ ∑ k, |meanOf (firstSeen Z n ω) (F k) - ∑ c, p c * meanOf (ofClass train (labelsOf y)[c]) (F k)|} ≤ ENNReal.ofReal (Fintype.card ι * B / (n * η ^ 2)) := by
  set π : ι → ℝ := fun k => ∑ c, p c * meanOf (ofClass train (labelsOf y)[c]) (F k) with hπ
  set d : ι → Ω → ℝ := fun k ω => (meanOf (firstSeen Z n ω) (F k) - π k) ^ 2 with hd
  have hmom := fun k => mean_moments h hp hne (F k) n hn
  have hn' : (0 : ℝ) < n := by exact_mod_cast hn
  have hint : Integrable (fun ω => ∑ k, d k ω) μ := integrable_finsetSum _ fun k _ => (hmom k).1
  have hval : ∫ ω, ∑ k, d k ω ∂μ ≤ B / n := by
    rw [integral_finsetSum _ fun k _ => (hmom k).1, Finset.sum_congr rfl fun k _ => (hmom k).2.2.2, ← Finset.sum_div]
    refine div_le_div_of_nonneg_right ?_ hn'.le
    calc ∑ k, (∑ c, p c * meanOf (ofClass train (labelsOf y)[c]) (fun v => F k v ^ 2) - (∑ c, p c * meanOf (ofClass train (labelsOf y)[c]) (F k)) ^ 2)
        ≤ ∑ k, ∑ c, p c * meanOf (ofClass train (labelsOf y)[c]) (fun v => F k v ^ 2) := Finset.sum_le_sum fun k _ => sub_le_self _ (sq_nonneg _)
      _ = ∑ c, p c * ∑ k, meanOf (ofClass train (labelsOf y)[c]) (fun v => F k v ^ 2) := by
          rw [Finset.sum_comm]
          simp only [Finset.mul_sum]
      _ ≤ ∑ c, p c * B := by
          refine Finset.sum_le_sum fun c _ => mul_le_mul_of_nonneg_left ?_ (hp0 c)
          have hlen : (0 : ℝ) < (ofClass train (labelsOf y)[c]).length := by exact_mod_cast List.length_pos_iff.2 (hne c)
          simp only [meanOf]
          rw [← Finset.sum_div, div_le_iff₀ hlen]
          have key : ∀ l : List β, (∀ v ∈ l, ∑ k, F k v ^ 2 ≤ B) → ∑ k, (l.map fun v => F k v ^ 2).sum ≤ B * l.length := by
            intro l
            induction l with
            | nil => simp
            | cons v l ih =>
              intro hl
              simp only [List.map_cons, List.sum_cons, Finset.sum_add_distrib, List.length_cons]
              have h1 := hl v (List.mem_cons_self ..)
              have h2 := ih fun v' hv' => hl v' (List.mem_cons_of_mem _ hv')
              push_cast
              linarith
          exact key _ fun v hv => hB _ (mem_train_of_class hv)
      _ = B := by rw [← Finset.sum_mul, hp, one_mul]
  have hsub : {ω | η ≤ ∑ k, |meanOf (firstSeen Z n ω) (F k) - π k|} ⊆ {ω | η ^ 2 ≤ Fintype.card ι * ∑ k, d k ω} := by
    intro ω hω
    have h1 : (∑ k, |meanOf (firstSeen Z n ω) (F k) - π k|) ^ 2 ≤ Fintype.card ι * ∑ k, d k ω := by
      have := sq_sum_le_card_mul_sum_sq (s := (Finset.univ : Finset ι)) (f := fun k => |meanOf (firstSeen Z n ω) (F k) - π k|)
      simpa only [sq_abs, Finset.card_univ] using this
    exact (pow_le_pow_left₀ hη.le hω 2).trans h1
  refine (measure_mono hsub).trans ?_
  have hmk := mul_meas_ge_le_integral_of_nonneg (μ := μ) (f := fun ω => Fintype.card ι * ∑ k, d k ω)
    (ae_of_all _ fun ω => mul_nonneg (Nat.cast_nonneg _) (Finset.sum_nonneg fun k _ => sq_nonneg _)) (hint.const_mul _) (η ^ 2)
  rw [integral_const_mul] at hmk
  rw [← ENNReal.ofReal_toReal (measure_ne_top μ _)]
  refine ENNReal.ofReal_le_ofReal ?_
  rw [← measureReal_def, le_div_iff₀ (by positivity)]
  have h2 : (Fintype.card ι : ℝ) * ∫ ω, ∑ k, d k ω ∂μ ≤ Fintype.card ι * (B / n) := mul_le_mul_of_nonneg_left hval (Nat.cast_nonneg _)
  have h3 := hmk.trans h2
  have h4 : η ^ 2 * μ.real {ω | η ^ 2 ≤ Fintype.card ι * ∑ k, d k ω} * n ≤ Fintype.card ι * (B / n) * n := mul_le_mul_of_nonneg_right h3 hn'.le
  have h5 : (Fintype.card ι : ℝ) * (B / n) * n = Fintype.card ι * B := by field_simp
  calc _ = η ^ 2 * μ.real {ω | η ^ 2 ≤ Fintype.card ι * ∑ k, d k ω} * n := by ring
    _ ≤ _ := h4.trans h5.le

/-- The deviations of several means together, when the examples are all independent (Hoeffding's inequality). -/
theorem deviation_exp {μ : Measure Ω} [IsProbabilityMeasure μ] {train : List (α × β)} {y : List α} {p : Fin (labelsOf y).length → ℝ} {Z : ℕ → Ω → α × β} (h : ShiftedStream μ train y p Z) (hind : iIndepFun Z μ)
    (hp : ∑ c, p c = 1) (hne : ∀ c : Fin (labelsOf y).length, ofClass train (labelsOf y)[c] ≠ []) {ι : Type*} [Fintype ι] (F : ι → β → ℝ) (hF : ∀ t ∈ train, ∀ k, F k t.2 ∈ Set.Icc (0:ℝ) 1) (n : ℕ) (hn : 0 < n)
    (η : ℝ) (hη : 0 < η) :
    μ {ω | η ≤ ∑ k, |meanOf (firstSeen Z n ω) (F k) - ∑ c, p c * meanOf (ofClass train (labelsOf y)[c]) (F k)|} ≤ ENNReal.ofReal (2 * Fintype.card ι * Real.exp (-2 * n * (η / Fintype.card ι) ^ 2)) := by
  set π : ι → ℝ := fun k => ∑ c, p c * meanOf (ofClass train (labelsOf y)[c]) (F k) with hπ
  have hn' : (0 : ℝ) < n := by exact_mod_cast hn
  set s : ℝ := η / Fintype.card ι with hs
  have hs0 : 0 ≤ s := div_nonneg hη.le (Nat.cast_nonneg _)
  have hone : ∀ k, μ {ω | s ≤ |meanOf (firstSeen Z n ω) (F k) - π k|} ≤ ENNReal.ofReal (2 * Real.exp (-2 * n * s ^ 2)) := by
    intro k
    obtain ⟨G, hGm, hGt, ⟨C, hC⟩, hGi⟩ := stream_rv h hp hne (F k)
    have hm : ∀ i, AEMeasurable (fun ω => G (Z i ω)) μ := fun i => hGm.comp_aemeasurable (h.same i).aemeasurable_fst
    have hgi : ∀ i, ∫ ω, G (Z i ω) ∂μ = π k := fun i => (((h.same i).comp hGm).integral_eq).trans hGi
    have hsg : ∀ i, HasSubgaussianMGF (fun ω => G (Z i ω) - π k) ((‖(1:ℝ) - 0‖₊ / 2) ^ 2) μ := by
      intro i
      have := hasSubgaussianMGF_of_mem_Icc (μ := μ) (a := 0) (b := 1) (hm i) (by
        filter_upwards [stream_mem h hp hne] with ω hω
        rw [hGt _ (hω i)]
        exact hF _ (hω i) k)
      rwa [hgi i] at this
    have hi1 : iIndepFun (fun i ω => G (Z i ω) - π k) μ := hind.comp (fun _ t => G t - π k) fun _ => hGm.sub_const _
    have hi2 : iIndepFun (fun i ω => -(G (Z i ω) - π k)) μ := hind.comp (fun _ t => -(G t - π k)) fun _ => (hGm.sub_const _).neg
    have hc : ((((‖(1:ℝ) - 0‖₊ / 2) ^ 2 : NNReal)) : ℝ) = 1/4 := by
      simp
      norm_num
    have hexp : -(n * s) ^ 2 / (2 * n * (((‖(1:ℝ) - 0‖₊ / 2) ^ 2 : NNReal))) = -2 * n * s ^ 2 := by
      rw [hc]
      field_simp
      ring
    have hu := HasSubgaussianMGF.measure_sum_range_ge_le_of_iIndepFun (n := n) hi1 (fun i _ => hsg i) (ε := n * s) (by positivity)
    have hl := HasSubgaussianMGF.measure_sum_range_ge_le_of_iIndepFun (n := n) hi2 (fun i _ => (hsg i).neg) (ε := n * s) (by positivity)
    rw [hexp] at hu hl
    have hsub : {ω | s ≤ |meanOf (firstSeen Z n ω) (F k) - π k|} ≤ᵐ[μ] ({ω | n * s ≤ ∑ i ∈ Finset.range n, (G (Z i ω) - π k)} ∪ {ω | n * s ≤ ∑ i ∈ Finset.range n, -(G (Z i ω) - π k)} : Set Ω) := by
      filter_upwards [stream_mem h hp hne] with ω hω hω2
      have hω2' : s ≤ |meanOf (firstSeen Z n ω) (F k) - π k| := hω2
      have hmean : n * (meanOf (firstSeen Z n ω) (F k) - π k) = ∑ i ∈ Finset.range n, (G (Z i ω) - π k) := by
        rw [Finset.sum_sub_distrib, Finset.sum_const, Finset.card_range, nsmul_eq_mul, meanOf_firstSeen, Finset.sum_congr rfl fun i _ => hGt _ (hω i)]
        field_simp
      rcases le_abs.1 hω2' with h1 | h1
      · exact Or.inl (show n * s ≤ _ from hmean ▸ mul_le_mul_of_nonneg_left h1 hn'.le)
      · refine Or.inr (show n * s ≤ _ from ?_)
        rw [Finset.sum_neg_distrib, ← hmean, ← mul_neg]
        exact mul_le_mul_of_nonneg_left h1 hn'.le
    refine (measure_mono_ae hsub).trans ((measure_union_le _ _).trans ?_)
    rw [two_mul, ENNReal.ofReal_add (Real.exp_nonneg _) (Real.exp_nonneg _)]
    refine add_le_add ?_ ?_
    · rw [← ENNReal.ofReal_toReal (measure_ne_top μ _)]
      exact ENNReal.ofReal_le_ofReal hu
    · rw [← ENNReal.ofReal_toReal (measure_ne_top μ _)]
      exact ENNReal.ofReal_le_ofReal hl
  have hsub : {ω | η ≤ ∑ k, |meanOf (firstSeen Z n ω) (F k) - π k|} ⊆ ⋃ k ∈ (Finset.univ : Finset ι), {ω | s ≤ |meanOf (firstSeen Z n ω) (F k) - π k|} := by
    intro ω hω
    by_contra hcon
    simp only [Finset.mem_univ, Set.iUnion_true, Set.mem_iUnion, Set.mem_ofPred_eq, not_exists, not_le] at hcon
    have hω' : η ≤ ∑ k, |meanOf (firstSeen Z n ω) (F k) - π k| := hω
    rcases isEmpty_or_nonempty ι with hι | hι
    · rw [Finset.univ_eq_empty, Finset.sum_empty] at hω'
      exact absurd hη (not_lt.2 hω')
    · have hlt := Finset.sum_lt_sum_of_nonempty Finset.univ_nonempty fun k (_ : k ∈ Finset.univ) => hcon k
      rw [Finset.sum_const, Finset.card_univ, nsmul_eq_mul, hs, mul_div_cancel₀ _ (by exact_mod_cast Fintype.card_ne_zero)] at hlt
      exact absurd hω' (not_le.2 hlt)
  refine (measure_mono hsub).trans ((measure_biUnion_finset_le _ _).trans ((Finset.sum_le_sum fun k _ => hone k).trans ?_))
  rw [Finset.sum_const, Finset.card_univ, nsmul_eq_mul, ← ENNReal.ofReal_natCast, ← ENNReal.ofReal_mul (Nat.cast_nonneg _)]
  refine ENNReal.ofReal_le_ofReal (le_of_eq ?_)
  ring

end Verif.Spec
