import Verif.Spec.Consistency
import Mathlib.Probability.StrongLaw

/-!
# Means over a stream of test examples (used for C143)
-/

namespace Verif.Spec

open MeasureTheory ProbabilityTheory Filter Topology

variable {Ω α β : Type*} [MeasurableSpace Ω] [LinearOrder α] [MeasurableSpace α] [MeasurableSpace β] [MeasurableSingletonClass α] [MeasurableSingletonClass β]

/-- Relative frequencies converge to probabilities. -/
theorem frequency_tendsto {γ : Type*} [MeasurableSpace γ] [MeasurableSingletonClass γ] {μ : Measure Ω} [IsProbabilityMeasure μ] (Z : ℕ → Ω → γ) (hind : Pairwise fun i j => IndepFun (Z i) (Z j) μ)
    (hid : ∀ i, IdentDistrib (Z i) (Z 0) μ μ) (s : γ) :
    ∀ᵐ ω ∂μ, Tendsto (fun n : ℕ => (∑ i ∈ Finset.range n, ({s} : Set γ).indicator (fun _ => (1 : ℝ)) (Z i ω)) / n) atTop (𝓝 (μ.real {ω | Z 0 ω = s})) := by
  set g : γ → ℝ := ({s} : Set γ).indicator fun _ => (1 : ℝ) with hg
  have hgm : Measurable g := measurable_const.indicator (measurableSet_singleton s)
  have hset : NullMeasurableSet (Z 0 ⁻¹' {s}) μ := (hid 0).aemeasurable_fst.nullMeasurable (measurableSet_singleton s)
  have hcomp : g ∘ Z 0 = (Z 0 ⁻¹' {s}).indicator fun _ => (1 : ℝ) := by
    funext ω
    simp only [hg, Function.comp_apply, Set.indicator]
    rfl
  have hint : Integrable (g ∘ Z 0) μ := by
    rw [hcomp]
    exact (integrable_const (1 : ℝ)).indicator₀ hset
  have h := strong_law_ae_real (fun i => g ∘ Z i) hint (fun i j hij => (hind hij).comp hgm hgm) fun i => (hid i).comp hgm
  have hval : ∫ ω, (g ∘ Z 0) ω ∂μ = μ.real {ω | Z 0 ω = s} := by
    rw [hcomp, integral_indicator₀ hset, setIntegral_const]
    simp
    rfl
  rw [hval] at h
  exact h

/-- What is seen of the training examples of a class. -/
theorem mem_train_of_class {train : List (α × β)} {c : α} {v : β} (h : v ∈ ofClass train c) : (c, v) ∈ train := by
  obtain ⟨t, ht, rfl⟩ := List.mem_map.1 h
  obtain ⟨h1, h2⟩ := List.mem_filter.1 ht
  have : t.1 = c := by simpa using h2
  rw [← this]
  exact h1

open Classical in
theorem sum_freq_mul (l : List β) (g : β → ℝ) : ∑ v ∈ l.toFinset, freq l v * g v = meanOf l g := by
  rw [meanOf, Finset.sum_list_map_count, Finset.sum_div]
  refine Finset.sum_congr rfl fun v _ => ?_
  rw [freq, nsmul_eq_mul]
  ring

/-- With probability one, all the examples of the stream are like examples of the training set, and all means converge to the means of the mixture of the classes. -/
theorem stream_means {μ : Measure Ω} [IsProbabilityMeasure μ] {train : List (α × β)} {y : List α} {p : Fin (labelsOf y).length → ℝ} {Z : ℕ → Ω → α × β} (h : ShiftedStream μ train y p Z) (hp : ∑ c, p c = 1)
    (hne : ∀ c : Fin (labelsOf y).length, ofClass train (labelsOf y)[c] ≠ []) :
    ∀ᵐ ω ∂μ, (∀ i, Z i ω ∈ train) ∧ ∀ f : β → ℝ, Tendsto (fun n => meanOf (firstSeen Z n ω) f) atTop (𝓝 (∑ c, p c * meanOf (ofClass train (labelsOf y)[c]) f)) := by
  classical
  set T : Finset (Σ _ : Fin (labelsOf y).length, β) := Finset.univ.sigma fun c => (ofClass train (labelsOf y)[c]).toFinset with hT
  set e : (Σ _ : Fin (labelsOf y).length, β) → α × β := fun t => ((labelsOf y)[t.1], t.2) with he
  have hnd : (labelsOf y).Nodup := Finset.sort_nodup _ _
  have hinj : Function.Injective e := by
    rintro ⟨c, v⟩ ⟨c', v'⟩ heq
    simp only [he, Prod.mk.injEq] at heq
    have h1 : c = c' := Fin.ext ((List.Nodup.getElem_inj_iff hnd).1 heq.1)
    subst h1
    rw [heq.2]
  have hsum : ∀ F : (Σ _ : Fin (labelsOf y).length, β) → ℝ, ∑ t ∈ T, F t = ∑ c, ∑ v ∈ (ofClass train (labelsOf y)[c]).toFinset, F ⟨c, v⟩ := fun F => Finset.sum_sigma _ _ _
  have hlaw : ∀ t, μ.real {ω | Z 0 ω = e t} = p t.1 * freq (ofClass train (labelsOf y)[t.1]) t.2 := fun t => by
    have := h.law t.1 t.2
    convert this
  have htot : ∑ t ∈ T, μ.real {ω | Z 0 ω = e t} = 1 := by
    rw [Finset.sum_congr rfl fun t _ => hlaw t, hsum, ← hp]
    refine Finset.sum_congr rfl fun c _ => ?_
    have := sum_freq_mul (ofClass train (labelsOf y)[c]) fun _ => 1
    simp only [mul_one] at this
    have hl : ((ofClass train (labelsOf y)[c]).length : ℝ) ≠ 0 := by
      exact_mod_cast (List.length_pos_iff.2 (hne c)).ne'
    have hm : meanOf (ofClass train (labelsOf y)[c]) (fun _ => (1 : ℝ)) = 1 := by
      rw [meanOf, List.map_const', List.sum_replicate, nsmul_eq_mul, mul_one]
      exact div_self hl
    have h3 : ∑ v ∈ (ofClass train (labelsOf y)[c]).toFinset, p c * freq (ofClass train (labelsOf y)[c]) v = p c := by
      rw [← Finset.mul_sum, this, hm, mul_one]
    exact h3
  have hmem0 : ∀ᵐ ω ∂μ, Z 0 ω ∈ T.image e := by
    have hnull : ∀ t, NullMeasurableSet {ω | Z 0 ω = e t} μ := fun t => (h.same 0).aemeasurable_fst.nullMeasurable (measurableSet_singleton (e t))
    have hun : {ω | Z 0 ω ∈ T.image e} = ⋃ t ∈ T, {ω | Z 0 ω = e t} := by
      ext ω
      simp only [Finset.mem_image, Set.mem_setOf_eq, Set.mem_iUnion, exists_prop]
      exact ⟨fun ⟨t, h1, h2⟩ => ⟨t, h1, h2.symm⟩, fun ⟨t, h1, h2⟩ => ⟨t, h1, h2.symm⟩⟩
    have hreal : μ.real {ω | Z 0 ω ∈ T.image e} = 1 := by
      rw [hun, measureReal_biUnion_finset₀ ?_ fun t _ => hnull t, htot]
      intro t _ t' _ htt
      refine Disjoint.aedisjoint (Set.disjoint_left.2 fun ω h1 h2 => htt (hinj ?_))
      rw [← h1, ← h2]
    rw [ae_iff]
    have hm : NullMeasurableSet {ω | Z 0 ω ∈ T.image e} μ := by
      rw [hun]
      exact NullMeasurableSet.biUnion T.countable_toSet fun t _ => hnull t
    have h1 : μ {ω | Z 0 ω ∈ T.image e} = 1 := by
      rw [← ENNReal.ofReal_toReal (measure_ne_top μ _)]
      rw [measureReal_def] at hreal
      rw [hreal, ENNReal.ofReal_one]
    exact (prob_compl_eq_zero_iff₀ hm).2 h1
  have hmem : ∀ᵐ ω ∂μ, ∀ i, Z i ω ∈ T.image e := by
    rw [ae_all_iff]
    intro i
    exact (h.same i).symm.ae_mem_snd (t := (T.image e : Set (α × β))) (Finset.measurableSet _) hmem0
  have hfreq : ∀ᵐ ω ∂μ, ∀ t ∈ T, Tendsto (fun n : ℕ => (∑ i ∈ Finset.range n, ({e t} : Set (α × β)).indicator (fun _ => (1 : ℝ)) (Z i ω)) / n) atTop (𝓝 (μ.real {ω | Z 0 ω = e t})) := by
    have := (ae_ball_iff (μ := μ) (p := fun ω t _ => Tendsto (fun n : ℕ => (∑ i ∈ Finset.range n, ({e t} : Set (α × β)).indicator (fun _ => (1 : ℝ)) (Z i ω)) / n) atTop (𝓝 (μ.real {ω | Z 0 ω = e t}))) T.countable_toSet).2
      fun t _ => frequency_tendsto Z h.indep h.same (e t)
    filter_upwards [this] with ω h3 t ht using h3 t (Finset.mem_coe.2 ht)
  filter_upwards [hmem, hfreq] with ω h1 h2
  refine ⟨fun i => ?_, fun f => ?_⟩
  · obtain ⟨t, ht, h3⟩ := Finset.mem_image.1 (h1 i)
    rw [← h3]
    exact mem_train_of_class (List.mem_toFinset.1 (Finset.mem_sigma.1 ht).2)
  · have hlim : (∑ c, p c * meanOf (ofClass train (labelsOf y)[c]) f) = ∑ t ∈ T, f t.2 * μ.real {ω | Z 0 ω = e t} := by
      simp only [hlaw]
      rw [hsum]
      refine Finset.sum_congr rfl fun c _ => ?_
      rw [← sum_freq_mul, Finset.mul_sum]
      exact Finset.sum_congr rfl fun v _ => by ring
    have hval : ∀ n : ℕ, meanOf (firstSeen Z n ω) f = ∑ t ∈ T, f t.2 * ((∑ i ∈ Finset.range n, ({e t} : Set (α × β)).indicator (fun _ => (1 : ℝ)) (Z i ω)) / n) := by
      intro n
      have hone : ∀ i, f (Z i ω).2 = ∑ t ∈ T, f t.2 * ({e t} : Set (α × β)).indicator (fun _ => (1 : ℝ)) (Z i ω) := by
        intro i
        obtain ⟨t, ht, h3⟩ := Finset.mem_image.1 (h1 i)
        rw [Finset.sum_eq_single_of_mem t ht, ← h3, Set.indicator_of_mem (Set.mem_singleton _), mul_one]
        intro t' _ htt
        rw [← h3, Set.indicator_of_notMem (fun hh => htt (hinj (Set.mem_singleton_iff.1 hh)).symm), mul_zero]
      rw [meanOf, firstSeen, List.map_map, List.length_map, List.length_range]
      have : ((List.range n).map (f ∘ fun i => (Z i ω).2)).sum = ∑ i ∈ Finset.range n, f (Z i ω).2 := by
        clear hlim
        induction n with
        | zero => simp
        | succ n ih =>
          rw [List.range_succ, List.map_append, List.sum_append, ih, Finset.sum_range_succ]
          simp
      rw [this, Finset.sum_congr rfl fun i _ => hone i, Finset.sum_comm, Finset.sum_div]
      refine Finset.sum_congr rfl fun t _ => ?_
      rw [← Finset.mul_sum, mul_div_assoc]
    rw [hlim]
    simp only [hval]
    exact tendsto_finset_sum _ fun t ht => (h2 t ht).const_mul _

end Verif.Spec
