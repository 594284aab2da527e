import Verif.Spec.Population
import Verif.Spec.PriorShift
import Verif.Spec.Confusion
import Mathlib.Probability.StrongLaw

/-!
# Means over a stream of examples of a population (used for C165)
-/

namespace Verif.Spec

open MeasureTheory ProbabilityTheory Filter Topology

variable {Ω α β : Type*} [MeasurableSpace Ω] [LinearOrder α] [MeasurableSpace α] [MeasurableSpace β] [MeasurableSingletonClass α]
variable {μ : Measure Ω} [IsProbabilityMeasure μ] {cs : List α} {p : Fin cs.length → ℝ} {ν : Fin cs.length → Measure β} {Z : ℕ → Ω → α × β}

omit [IsProbabilityMeasure μ] in
/-- Means of what is seen of a class. -/
theorem population_mean (h : Population μ cs p ν Z) (c : Fin cs.length) (hp : 0 ≤ p c) (F : β → ℝ) (hF : Measurable F) (hint : Integrable F (ν c)) :
    ∀ᵐ ω ∂μ, Tendsto (fun n : ℕ => (∑ i ∈ Finset.range n, if (Z i ω).1 = cs[c] then F (Z i ω).2 else 0) / n) atTop (𝓝 (p c * ∫ v, F v ∂(ν c))) := by
  set S : Set (α × β) := Prod.fst ⁻¹' {cs[c]} with hS
  have hSm : MeasurableSet S := measurable_fst (measurableSet_singleton _)
  set g : α × β → ℝ := S.indicator (F ∘ Prod.snd) with hg
  have hgm : Measurable g := (hF.comp measurable_snd).indicator hSm
  have hZ := (h.same 0).aemeasurable_fst
  have hmeas : ((Measure.map (Z 0) μ).restrict S).map Prod.snd = ENNReal.ofReal (p c) • ν c := by
    ext B hB
    rw [Measure.map_apply measurable_snd hB, Measure.restrict_apply (measurable_snd hB), Measure.map_apply_of_aemeasurable hZ ((measurable_snd hB).inter hSm), Measure.smul_apply, smul_eq_mul, ← h.law c B hB]
    congr 1
    ext ω
    simp [hS, and_comm]
  have hint' : Integrable F (((Measure.map (Z 0) μ).restrict S).map Prod.snd) := by
    rw [hmeas]
    exact hint.smul_measure ENNReal.ofReal_ne_top
  have hintS : IntegrableOn (F ∘ Prod.snd) S (Measure.map (Z 0) μ) := (integrable_map_measure hF.aestronglyMeasurable measurable_snd.aemeasurable).1 hint'
  have hintg : Integrable g (Measure.map (Z 0) μ) := (integrable_indicator_iff hSm).2 hintS
  have hintZ : Integrable (g ∘ Z 0) μ := (integrable_map_measure hgm.aestronglyMeasurable hZ).1 hintg
  have hval : ∫ ω, (g ∘ Z 0) ω ∂μ = p c * ∫ v, F v ∂(ν c) := by
    have h1 : ∫ ω, (g ∘ Z 0) ω ∂μ = ∫ t, g t ∂(Measure.map (Z 0) μ) := (integral_map hZ hgm.aestronglyMeasurable).symm
    have h2 : ∫ v, F v ∂(((Measure.map (Z 0) μ).restrict S).map Prod.snd) = ∫ t in S, (F ∘ Prod.snd) t ∂(Measure.map (Z 0) μ) := integral_map measurable_snd.aemeasurable hF.aestronglyMeasurable
    rw [h1, hg, integral_indicator hSm, ← h2, hmeas, integral_smul_measure, ENNReal.toReal_ofReal hp, smul_eq_mul]
  have := strong_law_ae_real (fun i => g ∘ Z i) hintZ (fun i j hij => (h.indep hij).comp hgm hgm) fun i => (h.same i).comp hgm
  rw [hval] at this
  filter_upwards [this] with ω hω
  refine hω.congr fun n => ?_
  congr 1
  refine Finset.sum_congr rfl fun i _ => ?_
  by_cases hi : (Z i ω).1 = cs[c]
  · rw [if_pos hi]
    exact Set.indicator_of_mem (show Z i ω ∈ S from hi) _
  · rw [if_neg hi]
    exact Set.indicator_of_notMem (show Z i ω ∉ S from hi) _

theorem sum_range_list {γ : Type*} (Z : ℕ → γ) (f : γ → ℝ) (n : ℕ) : (((List.range n).map Z).map f).sum = ∑ i ∈ Finset.range n, f (Z i) := by
  induction n with
  | zero => simp
  | succ n ih =>
    rw [List.range_succ, List.map_append, List.map_append, List.sum_append, ih, Finset.sum_range_succ]
    simp

omit [MeasurableSpace α] [MeasurableSpace β] [MeasurableSingletonClass α] in
theorem sum_filter_class {l : List (α × β)} (a : α) (f : β → ℝ) : ((ofClass l a).map f).sum = (l.map fun t => if t.1 = a then f t.2 else 0).sum := by
  induction l with
  | nil => rfl
  | cons t l ih =>
    unfold ofClass at ih ⊢
    by_cases ht : t.1 = a
    · rw [List.filter_cons_of_pos (by simpa using ht)]
      simp only [List.map_cons, List.sum_cons, if_pos ht, ih]
    · rw [List.filter_cons_of_neg (by simpa using ht)]
      simp only [List.map_cons, List.sum_cons, if_neg ht, ih, zero_add]

/-- With probability one all the classes of the examples are in the list. -/
theorem population_classes (h : Population μ cs p ν Z) (hν : ∀ c, IsProbabilityMeasure (ν c)) (hcs : cs.Nodup) (hp : IsPrev p) : ∀ᵐ ω ∂μ, ∀ i, (Z i ω).1 ∈ cs := by
  have hZ := (h.same 0).aemeasurable_fst
  have hA : MeasurableSet {t : α × β | t.1 ∈ cs} := by
    have : {t : α × β | t.1 ∈ cs} = Prod.fst ⁻¹' (cs.toFinset : Set α) := by ext; simp
    rw [this]
    exact measurable_fst (Finset.measurableSet _)
  have h0 : ∀ᵐ ω ∂μ, Z 0 ω ∈ {t : α × β | t.1 ∈ cs} := by
    have hnull : ∀ c : Fin cs.length, NullMeasurableSet {ω | (Z 0 ω).1 = cs[c]} μ := fun c => hZ.nullMeasurable (measurable_fst (measurableSet_singleton cs[c]))
    have hun : {ω | Z 0 ω ∈ {t : α × β | t.1 ∈ cs}} = ⋃ c ∈ (Finset.univ : Finset (Fin cs.length)), {ω | (Z 0 ω).1 = cs[c]} := by
      ext ω
      simp only [Set.mem_ofPred_eq, Finset.mem_univ, Set.iUnion_true, Set.mem_iUnion]
      constructor
      · intro hm
        obtain ⟨i, hi, he⟩ := List.getElem_of_mem hm
        exact ⟨⟨i, hi⟩, he.symm⟩
      · rintro ⟨c, hc⟩
        rw [hc]
        exact List.getElem_mem _
    have h1 : μ {ω | Z 0 ω ∈ {t : α × β | t.1 ∈ cs}} = 1 := by
      rw [hun, measure_biUnion_finset₀ ?_ fun c _ => hnull c]
      · have : ∀ c : Fin cs.length, μ {ω | (Z 0 ω).1 = cs[c]} = ENNReal.ofReal (p c) := fun c => by
          have h2 := h.law c Set.univ MeasurableSet.univ
          have := hν c
          rw [measure_univ, mul_one] at h2
          rw [← h2]
          congr 1
          ext ω
          simp
        rw [Finset.sum_congr rfl fun c _ => this c, ← ENNReal.ofReal_sum_of_nonneg fun c _ => hp.1 c, hp.2, ENNReal.ofReal_one]
      · intro c _ c' _ hcc
        refine Disjoint.aedisjoint (Set.disjoint_left.2 fun ω h1 h2 => hcc (Fin.ext ?_))
        have h4 : cs[c.1] = cs[c'.1] := (show (Z 0 ω).1 = cs[c] from h1).symm.trans h2
        exact (List.Nodup.getElem_inj_iff hcs).1 h4
    have hm : NullMeasurableSet {ω | Z 0 ω ∈ {t : α × β | t.1 ∈ cs}} μ := hZ.nullMeasurable hA
    rw [ae_iff]
    exact (prob_compl_eq_zero_iff₀ hm).2 h1
  rw [ae_all_iff]
  exact fun i => (h.same i).symm.ae_mem_snd (t := {t : α × β | t.1 ∈ cs}) hA h0

/-- With probability one, what is seen of the examples is never in a set that has probability 0 for all classes. -/
theorem population_seen (h : Population μ cs p ν Z) (hν : ∀ c, IsProbabilityMeasure (ν c)) (hcs : cs.Nodup) (hp : IsPrev p) (B : Set β) (hB : MeasurableSet B) (h0 : ∀ c, ν c Bᶜ = 0) : ∀ᵐ ω ∂μ, ∀ i, (Z i ω).2 ∈ B := by
  have hcl := population_classes h hν hcs hp
  have hz : ∀ᵐ ω ∂μ, ∀ c : Fin cs.length, ¬((Z 0 ω).1 = cs[c] ∧ (Z 0 ω).2 ∈ Bᶜ) := by
    rw [ae_all_iff]
    intro c
    have := h.law c Bᶜ hB.compl
    rw [h0 c, mul_zero] at this
    rw [ae_iff]
    simpa only [not_not] using this
  have hz0 : ∀ᵐ ω ∂μ, Z 0 ω ∈ (Prod.snd ⁻¹' B : Set (α × β)) := by
    filter_upwards [hcl, hz] with ω h1 h2
    obtain ⟨i, hi, he⟩ := List.getElem_of_mem (h1 0)
    by_contra hne
    exact h2 ⟨i, hi⟩ ⟨he.symm, hne⟩
  rw [ae_all_iff]
  exact fun i => (h.same i).symm.ae_mem_snd (t := (Prod.snd ⁻¹' B : Set (α × β))) (measurable_snd hB) hz0

/-- The share of a class, and the mean of what is seen of its examples. -/
theorem population_class_mean (h : Population μ cs p ν Z) (hν : ∀ c, IsProbabilityMeasure (ν c)) (c : Fin cs.length) (hp : 0 < p c) (F : β → ℝ) (hF : Measurable F) (hint : Integrable F (ν c)) :
    ∀ᵐ ω ∂μ, Tendsto (fun n => meanOf (ofClass (firstExamples Z n ω) cs[c]) F) atTop (𝓝 (∫ v, F v ∂(ν c))) := by
  have := hν c
  filter_upwards [population_mean h c hp.le F hF hint, population_mean h c hp.le (fun _ => 1) measurable_const (integrable_const _)] with ω h1 h2
  have h2' : Tendsto (fun n : ℕ => (∑ i ∈ Finset.range n, if (Z i ω).1 = cs[c] then (1:ℝ) else 0) / n) atTop (𝓝 (p c)) := by simpa using h2
  have h3 := h1.div h2' hp.ne'
  rw [mul_div_cancel_left₀ _ hp.ne'] at h3
  refine h3.congr' ?_
  filter_upwards [eventually_gt_atTop 0] with n hn
  have hn' : (n : ℝ) ≠ 0 := by exact_mod_cast hn.ne'
  rw [Pi.div_apply, div_div_div_cancel_right₀ hn', meanOf, sum_filter_class, firstExamples, sum_range_list]
  congr 1
  have := sum_filter_class (l := firstExamples Z n ω) cs[c] fun _ => (1:ℝ)
  rw [List.map_const', List.sum_replicate, nsmul_eq_mul, mul_one] at this
  rw [firstExamples] at this
  rw [this, sum_range_list]

/-- From some number of examples on, the examples have all the classes. -/
theorem population_all_classes (h : Population μ cs p ν Z) (hν : ∀ c, IsProbabilityMeasure (ν c)) (hcs : cs.Pairwise (· < ·)) (hp : IsPrev p) (hpos : ∀ c, 0 < p c) :
    ∀ᵐ ω ∂μ, ∀ᶠ n in atTop, labelsOf ((firstExamples Z n ω).map Prod.fst) = cs := by
  have hnd : cs.Nodup := hcs.imp fun h => h.ne
  have hall : ∀ᵐ ω ∂μ, ∀ c : Fin cs.length, Tendsto (fun n : ℕ => (∑ i ∈ Finset.range n, if (Z i ω).1 = cs[c] then (1:ℝ) else 0) / n) atTop (𝓝 (p c)) := by
    rw [ae_all_iff]
    intro c
    have := hν c
    simpa using population_mean h c (hpos c).le (fun _ => 1) measurable_const (integrable_const _)
  filter_upwards [hall, population_classes h hν hnd hp] with ω h1 h2
  have h3 : ∀ᶠ n in atTop, ∀ c : Fin cs.length, 0 < (∑ i ∈ Finset.range n, if (Z i ω).1 = cs[c] then (1:ℝ) else 0) / n := eventually_all.2 fun c => (h1 c).eventually (lt_mem_nhds (hpos c))
  filter_upwards [h3] with n hn
  refine labelsOf_eq _ _ hcs ?_
  ext a
  simp only [List.mem_toFinset, List.mem_map, firstExamples]
  constructor
  · rintro ⟨t, ⟨i, -, rfl⟩, rfl⟩
    exact h2 i
  · intro ha
    obtain ⟨j, hj, rfl⟩ := List.getElem_of_mem ha
    by_contra hno
    refine (hn ⟨j, hj⟩).ne' ?_
    rw [Finset.sum_eq_zero, zero_div]
    intro i hi
    refine if_neg fun he => hno ⟨Z i ω, ⟨i, List.mem_range.2 (Finset.mem_range.1 hi), rfl⟩, he⟩

/-- Means over all the examples. -/
theorem population_total_mean (h : Population μ cs p ν Z) (hν : ∀ c, IsProbabilityMeasure (ν c)) (hcs : cs.Nodup) (hp : IsPrev p) (F : β → ℝ) (hF : Measurable F) (hint : ∀ c, Integrable F (ν c)) :
    ∀ᵐ ω ∂μ, Tendsto (fun n => meanOf ((firstExamples Z n ω).map Prod.snd) F) atTop (𝓝 (∑ c, p c * ∫ v, F v ∂(ν c))) := by
  have hall : ∀ᵐ ω ∂μ, ∀ c : Fin cs.length, Tendsto (fun n : ℕ => (∑ i ∈ Finset.range n, if (Z i ω).1 = cs[c] then F (Z i ω).2 else 0) / n) atTop (𝓝 (p c * ∫ v, F v ∂(ν c))) := by
    rw [ae_all_iff]
    exact fun c => population_mean h c (hp.1 c) F hF (hint c)
  filter_upwards [hall, population_classes h hν hcs hp] with ω h1 h2
  refine (tendsto_finsetSum _ fun c _ => h1 c).congr fun n => ?_
  rw [← Finset.sum_div, Finset.sum_comm, meanOf, List.map_map, firstExamples, sum_range_list, List.length_map, List.length_map, List.length_range]
  congr 1
  refine Finset.sum_congr rfl fun i _ => ?_
  obtain ⟨j, hj, he⟩ := List.getElem_of_mem (h2 i)
  rw [Finset.sum_eq_single_of_mem (⟨j, hj⟩ : Fin cs.length) (Finset.mem_univ _)]
  · exact if_pos he.symm
  · intro c _ hc
    refine if_neg fun hh => hc (Fin.ext ?_)
    have h4 : cs[c.1] = cs[j] := hh.symm.trans he.symm
    exact (List.Nodup.getElem_inj_iff hcs).1 h4

end Verif.Spec
