import Verif.Proof.Population
import Verif.Props.Consistency

/-!
# C165: with more and more training and test examples, the answers approach the prevalences

In C143 the rates of the classifier are those of the training set. Here the training set is a sample of a population too, and both samples grow.
-/

namespace Verif.Props

open Verif.Model Verif.Spec Verif.Proof
open MeasureTheory ProbabilityTheory Filter Topology

/-- Rates that are a little wrong tell prevalences apart almost as well. -/
theorem tellsApart_perturbed {n m : ℕ} (M M' : Fin n → Fin m → ℝ) (κ ε : ℝ) (hκ0 : 0 ≤ κ) (hκ : TellsApart M κ) (hε : ∀ i, ∑ j, |M' i j - M i j| ≤ ε) (h1 : κ * ε < 1) : TellsApart M' (κ / (1 - κ * ε)) := by
  intro p q hpq
  have hdev : totalError (expectedPreds M p) (expectedPreds M q) ≤ totalError (expectedPreds M' p) (expectedPreds M' q) + ε * totalError p q := by
    unfold totalError expectedPreds
    have h2 : ∑ j, |∑ i, (p i - q i) * (M' i j - M i j)| ≤ ε * ∑ i, |p i - q i| := by
      calc ∑ j, |∑ i, (p i - q i) * (M' i j - M i j)| ≤ ∑ j, ∑ i, |p i - q i| * |M' i j - M i j| :=
            Finset.sum_le_sum fun j _ => (Finset.abs_sum_le_sum_abs _ _).trans (le_of_eq (Finset.sum_congr rfl fun i _ => abs_mul _ _))
        _ = ∑ i, |p i - q i| * ∑ j, |M' i j - M i j| := by rw [Finset.sum_comm]; simp only [Finset.mul_sum]
        _ ≤ ∑ i, |p i - q i| * ε := Finset.sum_le_sum fun i _ => mul_le_mul_of_nonneg_left (hε i) (abs_nonneg _)
        _ = ε * ∑ i, |p i - q i| := by rw [← Finset.sum_mul, mul_comm]
    refine le_trans ?_ (add_le_add le_rfl h2)
    rw [← Finset.sum_add_distrib]
    refine Finset.sum_le_sum fun j _ => ?_
    have : ∑ i, p i * M i j - ∑ i, q i * M i j = (∑ i, p i * M' i j - ∑ i, q i * M' i j) - ∑ i, (p i - q i) * (M' i j - M i j) := by
      simp only [← Finset.sum_sub_distrib]
      exact Finset.sum_congr rfl fun i _ => by ring
    rw [this]
    exact abs_sub _ _
  have h3 := (hκ p q hpq).trans (mul_le_mul_of_nonneg_left hdev hκ0)
  rw [div_mul_eq_mul_div, le_div_iff₀ (by linarith)]
  nlinarith

theorem expectedPreds_perturbed {n m : ℕ} (M M' : Fin n → Fin m → ℝ) (ε : ℝ) (hε : ∀ i, ∑ j, |M' i j - M i j| ≤ ε) (p : Fin n → ℝ) (hp : IsPrev p) : totalError (expectedPreds M p) (expectedPreds M' p) ≤ ε := by
  unfold totalError expectedPreds
  calc ∑ j, |∑ i, p i * M i j - ∑ i, p i * M' i j| ≤ ∑ j, ∑ i, p i * |M' i j - M i j| := by
        refine Finset.sum_le_sum fun j _ => ?_
        rw [← Finset.sum_sub_distrib]
        refine (Finset.abs_sum_le_sum_abs _ _).trans (le_of_eq (Finset.sum_congr rfl fun i _ => ?_))
        rw [← mul_sub, abs_mul, abs_of_nonneg (hp.1 i), abs_sub_comm]
    _ = ∑ i, p i * ∑ j, |M' i j - M i j| := by rw [Finset.sum_comm]; simp only [Finset.mul_sum]
    _ ≤ ∑ i, p i * ε := Finset.sum_le_sum fun i _ => mul_le_mul_of_nonneg_left (hε i) (hp.1 i)
    _ = ε := by rw [← Finset.sum_mul, hp.2, one_mul]

theorem totalError_triangle {n : ℕ} (x y z : Fin n → ℝ) : totalError x z ≤ totalError x y + totalError y z := by
  unfold totalError
  rw [← Finset.sum_add_distrib]
  exact Finset.sum_le_sum fun i _ => abs_sub_le _ _ _

/-- The error of the adjustment with estimated rates. -/
theorem error_perturbed {n : ℕ} (M M' : Fin n → Fin n → ℝ) (κ ε : ℝ) (hκ0 : 0 ≤ κ) (hε : ∀ i, ∑ j, |M' i j - M i j| ≤ ε) (h1 : κ * ε < 1) (p q x : Fin n → ℝ) (hp : IsPrev p)
    (hx : totalError x p ≤ κ / (1 - κ * ε) * totalError q (expectedPreds M' p)) : totalError x p ≤ κ * (totalError q (expectedPreds M p) + ε) / (1 - κ * ε) := by
  refine hx.trans ?_
  rw [div_mul_eq_mul_div]
  refine div_le_div_of_nonneg_right (mul_le_mul_of_nonneg_left ?_ hκ0) (by linarith)
  exact (totalError_triangle _ (expectedPreds M p) _).trans (add_le_add le_rfl (expectedPreds_perturbed M M' ε hε p hp))

section
variable {σ D α : Type} {k : ℕ} [LinearOrder α] (enc : Bool → α) (w : World σ D α) (et et' : Option ℕ) (X Xt : List D) (y : List α) (hy : y ≠ []) (r : ℕ) (hr : 0 < r)
include hy hr

theorem ac_error (ops : EstOps σ D α k) (sol : Solvers) (dist : Dist) (P : List α) (hP : P.length = r * y.length) (hPy : ∀ a ∈ P, a ∈ y) (κ : ℝ)
    (hκ : TellsApart (fun i j : Fin (labelsOf y).length => condFreq (stacked y r) P (labelsOf y)[i] (labelsOf y)[j]) κ) (h2 : (labelsOf y).length = 2 → κ < 1000) (Q : List α) (hQ : Q ≠ []) (hQy : ∀ a ∈ Q, a ∈ y)
    (p : Fin (labelsOf y).length → ℝ) (hp : IsPrev p) :
    ∃ x, ucRun ops enc w ⟨acClass sol dist, et, et'⟩ X y (some (.crisp P)) Xt (some (.crisp Q)) = .ok (some (realList x)) ∧ IsPrev x
      ∧ totalError x p ≤ κ * totalError (freqs (labelsOf y) Q) (expectedPreds (fun i j => condFreq (stacked y r) P (labelsOf y)[i] (labelsOf y)[j]) p) := by
  have hq := freqs_isPrev _ (labelsOf_nodup y) Q hQ fun a ha => (mem_labelsOf y _).2 (hQy a ha)
  obtain ⟨x, h, hx, he⟩ := adjust_error sol dist (cmReal y r P) (fun i => (cmReal_row y r hr P hP hPy i).2) κ hκ h2 p _ hp hq.2
  refine ⟨x, ?_, hx, he⟩
  rw [ucRun_given_crisp ops enc w X Xt y (acClass sol dist) rfl rfl et et' hy r P _ hP, answer_ac_eq y sol dist r P _ hP hQ, normalizeRows_eq y r hr P hP hPy, h]
  rfl

theorem pac_error (ops : EstOps σ D α (labelsOf y).length) (sol : Solvers) (dist : Dist) (P : List (Fin (labelsOf y).length → ℝ)) (hP : P.length = r * y.length) (hPp : ∀ row ∈ P, IsPrev row) (κ : ℝ)
    (hκ : TellsApart (fun i j : Fin (labelsOf y).length => condMean (stacked y r) P (fun row => row j) (labelsOf y)[i]) κ) (h2 : (labelsOf y).length = 2 → κ < 1000)
    (Q : List (Fin (labelsOf y).length → ℝ)) (hQ : Q ≠ []) (hQp : ∀ row ∈ Q, IsPrev row) (p : Fin (labelsOf y).length → ℝ) (hp : IsPrev p) :
    ∃ x, ucRun ops enc w ⟨pacClass sol dist, et, et'⟩ X y (some (.probs P)) Xt (some (.probs Q)) = .ok (some (realList x)) ∧ IsPrev x
      ∧ totalError x p ≤ κ * totalError (fun j => meanOf Q fun row => row j) (expectedPreds (fun i j => condMean (stacked y r) P (fun row => row j) (labelsOf y)[i]) p) := by
  have hq := meanOf_isPrev Q hQ hQp
  obtain ⟨x, h, hx, he⟩ := adjust_error sol dist (pcmReal y r P) (fun i => (pcmReal_row y r hr P hP hPp i).2) κ hκ h2 p _ hp hq.2
  refine ⟨x, ?_, hx, he⟩
  rw [pac_run enc w et et' X Xt y hy r hr ops sol dist P hP _ hQ, h]
  rfl

/-- **C165** for AC, the error for given samples: `M` are the true rates of the predictions; those found in the training set differ from them by at most `ε` in each class. The predictions of the bag are those expected
with the true rates for the prevalences `p`, up to their `totalError`. -/
theorem C165_ac_error (ops : EstOps σ D α k) (sol : Solvers) (dist : Dist) (P : List α) (hP : P.length = r * y.length) (hPy : ∀ a ∈ P, a ∈ y) (M : Fin (labelsOf y).length → Fin (labelsOf y).length → ℝ) (κ ε : ℝ) (hκ0 : 0 ≤ κ)
    (hκ : TellsApart M κ) (hε : ∀ i, ∑ j, |condFreq (stacked y r) P (labelsOf y)[i] (labelsOf y)[j] - M i j| ≤ ε) (h1 : κ * ε < 1) (h2 : (labelsOf y).length = 2 → κ / (1 - κ * ε) < 1000)
    (Q : List α) (hQ : Q ≠ []) (hQy : ∀ a ∈ Q, a ∈ y) (p : Fin (labelsOf y).length → ℝ) (hp : IsPrev p) :
    ∃ x, ucRun ops enc w ⟨acClass sol dist, et, et'⟩ X y (some (.crisp P)) Xt (some (.crisp Q)) = .ok (some (realList x)) ∧ IsPrev x
      ∧ totalError x p ≤ κ * (totalError (freqs (labelsOf y) Q) (expectedPreds M p) + ε) / (1 - κ * ε) := by
  obtain ⟨x, h, hx, he⟩ := ac_error enc w et et' X Xt y hy r hr ops sol dist P hP hPy _ (tellsApart_perturbed M _ κ ε hκ0 hκ hε h1) h2 Q hQ hQy p hp
  exact ⟨x, h, hx, error_perturbed M _ κ ε hκ0 hε h1 p _ x hp he⟩

/-- **C165** for PAC, the error for given samples. -/
theorem C165_pac_error (ops : EstOps σ D α (labelsOf y).length) (sol : Solvers) (dist : Dist) (P : List (Fin (labelsOf y).length → ℝ)) (hP : P.length = r * y.length) (hPp : ∀ row ∈ P, IsPrev row)
    (M : Fin (labelsOf y).length → Fin (labelsOf y).length → ℝ) (κ ε : ℝ) (hκ0 : 0 ≤ κ) (hκ : TellsApart M κ)
    (hε : ∀ i, ∑ j, |condMean (stacked y r) P (fun row => row j) (labelsOf y)[i] - M i j| ≤ ε) (h1 : κ * ε < 1) (h2 : (labelsOf y).length = 2 → κ / (1 - κ * ε) < 1000)
    (Q : List (Fin (labelsOf y).length → ℝ)) (hQ : Q ≠ []) (hQp : ∀ row ∈ Q, IsPrev row) (p : Fin (labelsOf y).length → ℝ) (hp : IsPrev p) :
    ∃ x, ucRun ops enc w ⟨pacClass sol dist, et, et'⟩ X y (some (.probs P)) Xt (some (.probs Q)) = .ok (some (realList x)) ∧ IsPrev x
      ∧ totalError x p ≤ κ * (totalError (fun j => meanOf Q fun row => row j) (expectedPreds M p) + ε) / (1 - κ * ε) := by
  obtain ⟨x, h, hx, he⟩ := pac_error enc w et et' X Xt y hy r hr ops sol dist P hP hPp _ (tellsApart_perturbed M _ κ ε hκ0 hκ hε h1) h2 Q hQ hQp p hp
  exact ⟨x, h, hx, error_perturbed M _ κ ε hκ0 hε h1 p _ x hp he⟩

end

/-- From answers with errors that vanish in the limit, to convergence. -/
theorem limit_of_errors {E ι : Type*} {l : Filter ι} {n : ℕ} (p : Fin n → ℝ) (ans : ι → Except E (Option (List Fl))) (b : ι → ℝ) (hb : Tendsto b l (𝓝 0))
    (h : ∀ᶠ s in l, ∃ x : Fin n → ℝ, ans s = .ok (some (realList x)) ∧ totalError x p ≤ b s) :
    ∃ x : ι → Fin n → ℝ, (∀ᶠ s in l, ans s = .ok (some (List.ofFn fun i => Fl.fin (x s i)))) ∧ Tendsto x l (𝓝 p) := by
  classical
  refine ⟨fun s => if hs : ∃ x : Fin n → ℝ, ans s = .ok (some (realList x)) ∧ totalError x p ≤ b s then hs.choose else p, ?_, ?_⟩
  · filter_upwards [h] with s hs
    rw [dif_pos hs]
    exact hs.choose_spec.1
  · rw [tendsto_pi_nhds]
    intro i
    rw [tendsto_iff_dist_tendsto_zero]
    refine squeeze_zero' (Eventually.of_forall fun s => dist_nonneg) ?_ hb
    filter_upwards [h] with s hs
    rw [dif_pos hs, Real.dist_eq]
    exact (Finset.single_le_sum (f := fun i => |hs.choose i - p i|) (fun i _ => abs_nonneg _) (Finset.mem_univ i)).trans hs.choose_spec.2

theorem tendsto_both {δ : Type*} {f : ℕ → δ} {l : Filter δ} (h : Tendsto f atTop l) : Tendsto (fun s : ℕ × ℕ => f s.1) atTop l ∧ Tendsto (fun s : ℕ × ℕ => f s.2) atTop l := by
  rw [← prod_atTop_atTop_eq]
  exact ⟨h.comp tendsto_fst, h.comp tendsto_snd⟩

theorem eventually_both {P Q : ℕ → Prop} (h1 : ∀ᶠ n in atTop, P n) (h2 : ∀ᶠ n in atTop, Q n) : ∀ᶠ s : ℕ × ℕ in atTop, P s.1 ∧ Q s.2 := by
  rw [← prod_atTop_atTop_eq]
  exact h1.prod_mk h2

/-- The adjustment with rates that converge. -/
theorem adjust_converges {E : Type*} {n : ℕ} (M : Matrix (Fin n) (Fin n) ℝ) (hrow : ∀ i, ∑ j, M i j = 1) (hM : NonDegenerate M) (p : Fin n → ℝ) (Mn : ℕ → Fin n → Fin n → ℝ)
    (hMn : ∀ i j, Tendsto (fun s => Mn s i j) atTop (𝓝 (M i j))) (q : ℕ → Fin n → ℝ) (hq : ∀ j, Tendsto (fun s => q s j) atTop (𝓝 (expectedPreds M p j))) (ans : ℕ × ℕ → Except E (Option (List Fl)))
    (hans : ∀ᶠ s : ℕ × ℕ in atTop, ∀ κ, TellsApart (Mn s.1) κ → (n = 2 → κ < 1000) → ∃ x, ans s = .ok (some (realList x)) ∧ totalError x p ≤ κ * totalError (q s.2) (expectedPreds (Mn s.1) p)) :
    ∃ x : ℕ × ℕ → Fin n → ℝ, (∀ᶠ s in atTop, ans s = .ok (some (List.ofFn fun i => Fl.fin (x s i)))) ∧ Tendsto x atTop (𝓝 p) := by
  obtain ⟨κ₁, hκ₁, h2₁⟩ := tellsApart_of_nonDegenerate M hrow hM
  obtain ⟨κ, hpos, hκ, h2⟩ : ∃ κ, 0 < κ ∧ TellsApart M κ ∧ (n = 2 → κ < 1000) :=
    ⟨max κ₁ 1, lt_max_of_lt_right one_pos, fun p q hpq => (hκ₁ p q hpq).trans (mul_le_mul_of_nonneg_right (le_max_left _ _) (Finset.sum_nonneg fun _ _ => abs_nonneg _)), fun h => max_lt (h2₁ h) (by norm_num)⟩
  obtain ⟨ε, hε0, hε1, hε2⟩ : ∃ ε, 0 < ε ∧ κ * ε < 1 ∧ (n = 2 → κ / (1 - κ * ε) < 1000) := by
    by_cases hn : n = 2
    · have hk := h2 hn
      refine ⟨(1 / κ - 1 / 1000) / 2, ?_, ?_, fun _ => ?_⟩
      · have : 1 / 1000 < 1 / κ := one_div_lt_one_div_of_lt hpos hk
        linarith
      · have : κ * ((1 / κ - 1 / 1000) / 2) = 1 / 2 - κ / 2000 := by field_simp; ring
        rw [this]; linarith
      · have : κ * ((1 / κ - 1 / 1000) / 2) = 1 / 2 - κ / 2000 := by field_simp; ring
        rw [this, div_lt_iff₀ (by linarith)]
        linarith
    · refine ⟨1 / (2 * κ), by positivity, ?_, fun h => absurd h hn⟩
      have : κ * (1 / (2 * κ)) = 1 / 2 := by field_simp
      rw [this]; norm_num
  have hclose : ∀ᶠ s in atTop, ∀ i, ∑ j, |Mn s i j - M i j| ≤ ε := by
    refine eventually_all.2 fun i => ?_
    have : Tendsto (fun s => ∑ j, |Mn s i j - M i j|) atTop (𝓝 (∑ j, |M i j - M i j|)) := tendsto_finsetSum _ fun j _ => ((hMn i j).sub_const _).abs
    simp only [sub_self, abs_zero, Finset.sum_const_zero] at this
    exact (this.eventually (gt_mem_nhds hε0)).mono fun s hs => hs.le
  have hlim : Tendsto (fun s : ℕ × ℕ => κ / (1 - κ * ε) * totalError (q s.2) (expectedPreds (Mn s.1) p)) atTop (𝓝 0) := by
    have h3 : Tendsto (fun s : ℕ × ℕ => totalError (q s.2) (expectedPreds (Mn s.1) p)) atTop (𝓝 (totalError (expectedPreds M p) (expectedPreds M p))) :=
      tendsto_finsetSum _ fun j _ => ((tendsto_both (hq j)).2.sub (tendsto_finsetSum _ fun i _ => ((tendsto_both (hMn i j)).1.const_mul (p i)))).abs
    rw [totalError_self] at h3
    simpa using h3.const_mul (κ / (1 - κ * ε))
  refine limit_of_errors p ans _ hlim ?_
  filter_upwards [hans, eventually_both hclose (Q := fun _ => True) (Eventually.of_forall fun _ => trivial)] with s hs hc
  exact hs _ (tellsApart_perturbed M _ κ ε hpos.le hκ hc.1 hε1) hε2

theorem zip_unzip {α β : Type*} (l : List (α × β)) : (l.map Prod.fst).zip (l.map Prod.snd) = l := by
  induction l with
  | nil => rfl
  | cons t l ih => simp [ih]

theorem firstExamples_ne {Ω α β : Type*} [MeasurableSpace Ω] (Z : ℕ → Ω → α × β) {n : ℕ} (hn : 0 < n) (ω : Ω) : firstExamples Z n ω ≠ [] := by
  intro h
  have := congrArg List.length h
  simp [firstExamples] at this
  omega

/-- What holds with probability one of the samples: means converge, from some size on the training sample has all the classes, and nothing is seen outside the support. -/
theorem population_facts {Ω α β ι : Type*} [Countable ι] [MeasurableSpace Ω] [LinearOrder α] [MeasurableSpace α] [MeasurableSingletonClass α] [MeasurableSpace β] {μ : Measure Ω} [IsProbabilityMeasure μ] {cs : List α}
    (hcs : cs.Pairwise (· < ·)) {π p : Fin cs.length → ℝ} (hπ : IsPrev π) (hpos : ∀ c, 0 < π c) (hp : IsPrev p) {ν : Fin cs.length → Measure β} (hν : ∀ c, IsProbabilityMeasure (ν c)) {B : Set β} (hB : MeasurableSet B)
    (hsup : ∀ c, ν c Bᶜ = 0) {F : ι → β → ℝ} (hF : ∀ k, Measurable (F k)) (hFi : ∀ k c, Integrable (F k) (ν c)) {W Z : ℕ → Ω → α × β} (hW : Population μ cs π ν W) (hZ : Population μ cs p ν Z) :
    ∀ᵐ ω ∂μ, (∀ c k, Tendsto (fun n => meanOf (ofClass (firstExamples W n ω) cs[c]) (F k)) atTop (𝓝 (∫ v, F k v ∂(ν c))))
      ∧ (∀ k, Tendsto (fun n => meanOf ((firstExamples Z n ω).map Prod.snd) (F k)) atTop (𝓝 (∑ c, p c * ∫ v, F k v ∂(ν c))))
      ∧ (∀ᶠ n in atTop, labelsOf ((firstExamples W n ω).map Prod.fst) = cs)
      ∧ (∀ n, ∀ v ∈ (firstExamples W n ω).map Prod.snd, v ∈ B) ∧ (∀ n, ∀ v ∈ (firstExamples Z n ω).map Prod.snd, v ∈ B) := by
  have hnd : cs.Nodup := hcs.imp fun h => h.ne
  have hall1 := ae_all_iff.2 fun i => ae_all_iff.2 fun j => population_class_mean hW hν i (hpos i) (F j) (hF j) (hFi j i)
  have hall2 := ae_all_iff.2 fun j => population_total_mean hZ hν hnd hp (F j) (hF j) (hFi j)
  filter_upwards [hall1, hall2, population_all_classes hW hν hcs hπ hpos, population_seen hW hν hnd hπ B hB hsup, population_seen hZ hν hnd hp B hB hsup] with ω h1 h2 h3 h4 h5
  refine ⟨h1, h2, h3, fun n v hv => ?_, fun n v hv => ?_⟩
  all_goals
    obtain ⟨t, ht, rfl⟩ := List.mem_map.1 hv
    obtain ⟨i, -, rfl⟩ := List.mem_map.1 ht
    first | exact h4 i | exact h5 i

theorem measurable_labels {α : Type*} [LinearOrder α] [MeasurableSpace α] [MeasurableSingletonClass α] (cs : List α) : MeasurableSet {a | a ∈ cs} := by
  have : {a | a ∈ cs} = (cs.toFinset : Set α) := by ext; simp
  rw [this]
  exact Finset.measurableSet _

theorem indicator_facts {α : Type*} [LinearOrder α] [MeasurableSpace α] [MeasurableSingletonClass α] (a : α) (ν : Measure α) (hν : IsProbabilityMeasure ν) :
    Measurable (fun b => if b = a then (1:ℝ) else 0) ∧ Integrable (fun b => if b = a then (1:ℝ) else 0) ν ∧ ∫ b, (if b = a then (1:ℝ) else 0) ∂ν = ν.real {a} := by
  have hm : Measurable fun b => if b = a then (1:ℝ) else 0 := Measurable.ite (measurableSet_singleton _) measurable_const measurable_const
  refine ⟨hm, (integrable_const (1:ℝ)).mono' hm.aestronglyMeasurable (Eventually.of_forall fun b => ?_), ?_⟩
  · split_ifs <;> simp
  · have : (fun b => if b = a then (1:ℝ) else 0) = ({a} : Set α).indicator fun _ => (1:ℝ) := by
      funext b
      simp [Set.indicator]
    rw [this, integral_indicator (measurableSet_singleton _), setIntegral_const]
    simp

theorem label_row {α : Type*} [LinearOrder α] [MeasurableSpace α] [MeasurableSingletonClass α] {cs : List α} (hnd : cs.Nodup) (ν : Measure α) (hν : IsProbabilityMeasure ν) (hsup : ν {a | a ∈ cs}ᶜ = 0) :
    ∑ j : Fin cs.length, ν.real {cs[j]} = 1 := by
  have h1 : ν.real {a | a ∈ cs} = 1 := by
    rw [measureReal_def, (prob_compl_eq_zero_iff (measurable_labels cs)).1 hsup, ENNReal.toReal_one]
  have h2 : {a | a ∈ cs} = ⋃ j ∈ (Finset.univ : Finset (Fin cs.length)), {cs[j]} := by
    ext a
    simp only [Set.mem_ofPred_eq, Finset.mem_univ, Set.iUnion_true, Set.mem_iUnion, Set.mem_singleton_iff]
    constructor
    · intro hm
      obtain ⟨i, hi, he⟩ := List.getElem_of_mem hm
      exact ⟨⟨i, hi⟩, he.symm⟩
    · rintro ⟨c, rfl⟩
      exact List.getElem_mem _
  rw [← h1, h2, measureReal_biUnion_finset ?_ fun _ _ => measurableSet_singleton _]
  intro c _ c' _ hcc
  refine Set.disjoint_left.2 fun a h1 h2 => hcc (Fin.ext ?_)
  have h4 : cs[c.1] = cs[c'.1] := (show a = cs[c] from h1).symm.trans h2
  exact (List.Nodup.getElem_inj_iff hnd).1 h4

/-- Rows of probabilities. -/
theorem measurable_isPrev {n : ℕ} : MeasurableSet {row : Fin n → ℝ | IsPrev row} := by
  have : {row : Fin n → ℝ | IsPrev row} = (⋂ i, {row | 0 ≤ row i}) ∩ {row | ∑ i, row i = 1} := by
    ext row
    simp [IsPrev]
  rw [this]
  refine (MeasurableSet.iInter fun i => measurableSet_le measurable_const (measurable_pi_apply i)).inter (measurableSet_eq_fun ?_ measurable_const)
  exact Finset.measurable_sum _ fun i _ => measurable_pi_apply i

theorem row_integrable {n : ℕ} (ν : Measure (Fin n → ℝ)) (hν : IsProbabilityMeasure ν) (hsup : ν {row | IsPrev row}ᶜ = 0) (j : Fin n) : Integrable (fun row => row j) ν := by
  refine (integrable_const (1:ℝ)).mono' (measurable_pi_apply j).aestronglyMeasurable ?_
  have : ∀ᵐ row ∂ν, IsPrev row := hsup
  filter_upwards [this] with row hrow
  rw [Real.norm_eq_abs, abs_of_nonneg (hrow.1 j)]
  exact hrow.le_one j

theorem mean_row_total {n : ℕ} (ν : Measure (Fin n → ℝ)) (hν : IsProbabilityMeasure ν) (hsup : ν {row | IsPrev row}ᶜ = 0) : ∑ j, ∫ row, row j ∂ν = 1 := by
  rw [← integral_finsetSum _ fun j _ => row_integrable ν hν hsup j]
  have : ∀ᵐ row ∂ν, IsPrev row := hsup
  rw [integral_congr_ae (g := fun _ => (1:ℝ)) (this.mono fun row hrow => hrow.2)]
  simp

section
variable {σ D α : Type} {k : ℕ} [LinearOrder α] (enc : Bool → α) (w : World σ D α) (et et' : Option ℕ) (X Xt : List D) (cs : List α) (y : List α) (hl : labelsOf y = cs) (hy : y ≠ [])
include hl hy

theorem ac_at (ops : EstOps σ D α k) (sol : Solvers) (dist : Dist) (P : List α) (hP : P.length = y.length) (hPy : ∀ a ∈ P, a ∈ cs) (κ : ℝ)
    (hκ : TellsApart (fun i j : Fin cs.length => meanOf (ofClass (y.zip P) cs[i]) fun b => if b = cs[j] then (1:ℝ) else 0) κ) (h2 : cs.length = 2 → κ < 1000) (Q : List α) (hQ : Q ≠ []) (hQy : ∀ a ∈ Q, a ∈ cs)
    (p : Fin cs.length → ℝ) (hp : IsPrev p) :
    ∃ x, ucRun ops enc w ⟨acClass sol dist, et, et'⟩ X y (some (.crisp P)) Xt (some (.crisp Q)) = .ok (some (realList x))
      ∧ totalError x p ≤ κ * totalError (fun j => meanOf Q fun b => if b = cs[j] then (1:ℝ) else 0) (expectedPreds (fun i j : Fin cs.length => meanOf (ofClass (y.zip P) cs[i]) fun b => if b = cs[j] then (1:ℝ) else 0) p) := by
  subst hl
  have hcm := fun i j => class_mean_crisp y 1 P (by simp [stacked, hP]) i j
  simp only [show stacked y 1 = y by simp [stacked]] at hcm
  simp only [hcm] at hκ ⊢
  obtain ⟨x, hx1, -, hx2⟩ := ac_error enc w et et' X Xt y hy 1 one_pos ops sol dist P (by simp [hP]) (fun a ha => (mem_labelsOf _ _).1 (hPy a ha)) κ hκ h2 Q hQ (fun a ha => (mem_labelsOf _ _).1 (hQy a ha)) p hp
  refine ⟨x, hx1, hx2.trans (le_of_eq ?_)⟩
  rw [freqs_mean]
  rfl

theorem pac_at (ops : EstOps σ D α cs.length) (sol : Solvers) (dist : Dist) (P : List (Fin cs.length → ℝ)) (hP : P.length = y.length) (hPy : ∀ a ∈ P, IsPrev a) (κ : ℝ)
    (hκ : TellsApart (fun i j : Fin cs.length => meanOf (ofClass (y.zip P) cs[i]) fun row => row j) κ) (h2 : cs.length = 2 → κ < 1000) (Q : List (Fin cs.length → ℝ)) (hQ : Q ≠ []) (hQy : ∀ a ∈ Q, IsPrev a)
    (p : Fin cs.length → ℝ) (hp : IsPrev p) :
    ∃ x, ucRun ops enc w ⟨pacClass sol dist, et, et'⟩ X y (some (.probs P)) Xt (some (.probs Q)) = .ok (some (realList x))
      ∧ totalError x p ≤ κ * totalError (fun j => meanOf Q fun row => row j) (expectedPreds (fun i j : Fin cs.length => meanOf (ofClass (y.zip P) cs[i]) fun row => row j) p) := by
  subst hl
  have hcm := fun i j => class_mean_probs y 1 P (by simp [stacked, hP]) i j
  simp only [show stacked y 1 = y by simp [stacked]] at hcm
  simp only [hcm] at hκ ⊢
  have hκ' : TellsApart (fun i j : Fin (labelsOf y).length => condMean (stacked y 1) P (fun row => row j) (labelsOf y)[i]) κ := by
    rw [show stacked y 1 = y by simp [stacked]]
    exact hκ
  obtain ⟨x, hx1, -, hx2⟩ := pac_error enc w et et' X Xt y hy 1 one_pos ops sol dist P (by simp [hP]) hPy κ hκ' h2 Q hQ hQy p hp
  rw [show stacked y 1 = y by simp [stacked]] at hx2
  exact ⟨x, hx1, hx2⟩

theorem cc_at (ops : EstOps σ D α k) (P : List α) (hP : P.length = y.length) (Q : List α) (hQ : Q ≠ []) :
    ucRun ops enc w ⟨ccClass, et, et'⟩ X y (some (.crisp P)) Xt (some (.crisp Q)) = .ok (some (realList fun j : Fin cs.length => meanOf Q fun b => if b = cs[j] then (1:ℝ) else 0)) := by
  subst hl
  rw [ucRun_given_crisp ops enc w X Xt y ccClass rfl rfl et et' hy 1 P _ (by simp [hP])]
  have : answerOn (k := k) ccClass y 1 (.crisp P) (.crisp Q) = .ok (some (vecList (classFreqs (labelsOf y) Q))) := rfl
  rw [this, classFreqs_fin _ _ hQ, ← freqs_mean]
  rfl

theorem pcc_at (ops : EstOps σ D α cs.length) (P : List (Fin cs.length → ℝ)) (hP : P.length = y.length) (Q : List (Fin cs.length → ℝ)) (hQ : Q ≠ []) :
    ucRun ops enc w ⟨pccClass, et, et'⟩ X y (some (.probs P)) Xt (some (.probs Q)) = .ok (some (realList fun j : Fin cs.length => meanOf Q fun row => row j)) := by
  subst hl
  rw [ucRun_given_probs ops enc w X Xt y pccClass rfl rfl et et' hy 1 P _ (by simp [hP])]
  have : answerOn pccClass y 1 (.probs P) (.probs Q) = .ok (some (vecList (colMeans Q))) := rfl
  rw [this, colMeans_eq _ hQ]
  rfl

end

section
variable {Ω : Type*} [MeasurableSpace Ω] {μ : Measure Ω} [IsProbabilityMeasure μ]
variable {σ D α : Type} {k : ℕ} [LinearOrder α] [MeasurableSpace α] [MeasurableSingletonClass α] (enc : Bool → α) (w : World σ D α) (et et' : Option ℕ) (X Xt : List D)
  (cs : List α) (hcs : cs.Pairwise (· < ·)) (π p : Fin cs.length → ℝ) (hπ : IsPrev π) (hpos : ∀ c, 0 < π c) (hp : IsPrev p)
include hcs hπ hpos hp

/-- **C165** for AC: the training examples come from a population where every class has some probability, the test examples from a population with the prevalences `p`; in both, the predictions of the classifier
for the examples of a class have the same distribution. If the true rates of the predictions are not degenerate, the answers converge to `p` when both samples grow. -/
theorem C165_ac (ops : EstOps σ D α k) (sol : Solvers) (dist : Dist) (ν : Fin cs.length → Measure α) (hν : ∀ c, IsProbabilityMeasure (ν c)) (hsup : ∀ c, ν c {a | a ∈ cs}ᶜ = 0)
    (hM : NonDegenerate fun i j : Fin cs.length => (ν i).real {cs[j]}) (W Z : ℕ → Ω → α × α) (hW : Population μ cs π ν W) (hZ : Population μ cs p ν Z) :
    LearnsAndConverges μ W Z p fun y P bag => ucRun ops enc w ⟨acClass sol dist, et, et'⟩ X y (some (.crisp P)) Xt (some (.crisp bag)) := by
  have hnd : cs.Nodup := hcs.imp fun h => h.ne
  filter_upwards [population_facts hcs hπ hpos hp hν (measurable_labels cs) hsup (F := fun (j : Fin cs.length) b => if b = cs[j] then (1:ℝ) else 0) (fun j => (indicator_facts cs[j] (ν j) (hν j)).1)
    (fun j c => (indicator_facts cs[j] (ν c) (hν c)).2.1) hW hZ] with ω hω
  obtain ⟨h1, h2, h3, h4, h5⟩ := hω
  simp only [(indicator_facts _ _ (hν _)).2.2] at h1 h2
  refine adjust_converges _ (fun i => label_row hnd (ν i) (hν i) (hsup i)) hM p _ h1 _ h2 _ ?_
  filter_upwards [eventually_both (h3.and (eventually_gt_atTop 0)) (eventually_gt_atTop 0)] with s hs κ hκ hk
  rw [← zip_unzip (firstExamples W s.1 ω)] at hκ
  have := ac_at enc w et et' X Xt cs _ hs.1.1 (by simpa using firstExamples_ne W hs.1.2 ω) ops sol dist _ (by simp) (h4 s.1) κ hκ hk _ (by simpa using firstExamples_ne Z hs.2 ω) (h5 s.2) p hp
  rwa [zip_unzip] at this

/-- **C165** for PAC: the same, where the means of the probabilities that the classifier gives to the examples of each class are the rates. -/
theorem C165_pac (ops : EstOps σ D α cs.length) (sol : Solvers) (dist : Dist) (ν : Fin cs.length → Measure (Fin cs.length → ℝ)) (hν : ∀ c, IsProbabilityMeasure (ν c)) (hsup : ∀ c, ν c {row | IsPrev row}ᶜ = 0)
    (hM : NonDegenerate fun i j : Fin cs.length => ∫ row, row j ∂(ν i)) (W Z : ℕ → Ω → α × (Fin cs.length → ℝ)) (hW : Population μ cs π ν W) (hZ : Population μ cs p ν Z) :
    LearnsAndConverges μ W Z p fun y P bag => ucRun ops enc w ⟨pacClass sol dist, et, et'⟩ X y (some (.probs P)) Xt (some (.probs bag)) := by
  filter_upwards [population_facts hcs hπ hpos hp hν measurable_isPrev hsup (F := fun (j : Fin cs.length) row => row j) (fun j => measurable_pi_apply j) (fun j c => row_integrable _ (hν c) (hsup c) j) hW hZ] with ω hω
  obtain ⟨h1, h2, h3, h4, h5⟩ := hω
  refine adjust_converges _ (fun i => mean_row_total (ν i) (hν i) (hsup i)) hM p _ h1 _ h2 _ ?_
  filter_upwards [eventually_both (h3.and (eventually_gt_atTop 0)) (eventually_gt_atTop 0)] with s hs κ hκ hk
  rw [← zip_unzip (firstExamples W s.1 ω)] at hκ
  have := pac_at enc w et et' X Xt cs _ hs.1.1 (by simpa using firstExamples_ne W hs.1.2 ω) ops sol dist _ (by simp) (h4 s.1) κ hκ hk _ (by simpa using firstExamples_ne Z hs.2 ω) (h5 s.2) p hp
  rwa [zip_unzip] at this

/-- **C165** for CC: the answers converge to the predictions that are expected with the true rates, which in general are not the prevalences. -/
theorem C165_cc (ops : EstOps σ D α k) (ν : Fin cs.length → Measure α) (hν : ∀ c, IsProbabilityMeasure (ν c)) (W Z : ℕ → Ω → α × α) (hW : Population μ cs π ν W) (hZ : Population μ cs p ν Z) :
    LearnsAndConverges μ W Z (expectedPreds (fun i j : Fin cs.length => (ν i).real {cs[j]}) p) fun y P bag => ucRun ops enc w ⟨ccClass, et, et'⟩ X y (some (.crisp P)) Xt (some (.crisp bag)) := by
  filter_upwards [population_facts hcs hπ hpos hp hν MeasurableSet.univ (by simp) (F := fun (j : Fin cs.length) b => if b = cs[j] then (1:ℝ) else 0) (fun j => (indicator_facts cs[j] (ν j) (hν j)).1)
    (fun j c => (indicator_facts cs[j] (ν c) (hν c)).2.1) hW hZ] with ω hω
  obtain ⟨-, h2, h3, -, -⟩ := hω
  simp only [(indicator_facts _ _ (hν _)).2.2] at h2
  refine ⟨fun s j => meanOf ((firstExamples Z s.2 ω).map Prod.snd) fun b => if b = cs[j] then (1:ℝ) else 0, ?_, tendsto_pi_nhds.2 fun j => (tendsto_both (h2 j)).2⟩
  filter_upwards [eventually_both (h3.and (eventually_gt_atTop 0)) (eventually_gt_atTop 0)] with s hs
  exact cc_at enc w et et' X Xt cs _ hs.1.1 (by simpa using firstExamples_ne W hs.1.2 ω) ops _ (by simp) _ (by simpa using firstExamples_ne Z hs.2 ω)

/-- **C165** for PCC: the same for the means of the probabilities. -/
theorem C165_pcc (ops : EstOps σ D α cs.length) (ν : Fin cs.length → Measure (Fin cs.length → ℝ)) (hν : ∀ c, IsProbabilityMeasure (ν c)) (hsup : ∀ c, ν c {row | IsPrev row}ᶜ = 0)
    (W Z : ℕ → Ω → α × (Fin cs.length → ℝ)) (hW : Population μ cs π ν W) (hZ : Population μ cs p ν Z) :
    LearnsAndConverges μ W Z (expectedPreds (fun i j : Fin cs.length => ∫ row, row j ∂(ν i)) p) fun y P bag => ucRun ops enc w ⟨pccClass, et, et'⟩ X y (some (.probs P)) Xt (some (.probs bag)) := by
  filter_upwards [population_facts hcs hπ hpos hp hν measurable_isPrev hsup (F := fun (j : Fin cs.length) row => row j) (fun j => measurable_pi_apply j) (fun j c => row_integrable _ (hν c) (hsup c) j) hW hZ] with ω hω
  obtain ⟨-, h2, h3, -, -⟩ := hω
  refine ⟨fun s j => meanOf ((firstExamples Z s.2 ω).map Prod.snd) fun row => row j, ?_, tendsto_pi_nhds.2 fun j => (tendsto_both (h2 j)).2⟩
  filter_upwards [eventually_both (h3.and (eventually_gt_atTop 0)) (eventually_gt_atTop 0)] with s hs
  exact pcc_at enc w et et' X Xt cs _ hs.1.1 (by simpa using firstExamples_ne W hs.1.2 ω) ops _ (by simp) _ (by simpa using firstExamples_ne Z hs.2 ω)

end

end Verif.Props
