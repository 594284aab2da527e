import Verif.Props.MatchStability

/-!
# C137 for EDy and EDX: the error of the energy quantifiers
-/

namespace Verif.Props

open Verif.Model Verif.Spec Verif.Proof

/-- `κ` says how well the distances between examples tell prevalences apart: the squared difference between two prevalence vectors is at most `κ` times the energy distance between the mixtures of the training classes. -/
def EnergyTellsApart {P : Type*} {n : ℕ} (d : P → P → ℝ) (train : Fin (n + 1) → List P) (κ : ℝ) : Prop :=
  ∀ p q : Fin (n + 1) → ℝ, ∑ i, p i = ∑ i, q i → totalError p q ^ 2 ≤ κ * -∑ i, ∑ j, (p i - q i) * (p j - q j) * avgDist d (train i) (train j)

/-- A constant exists whenever the classes are separated. -/
theorem C137_energy_constant {P : Type*} {n : ℕ} (d : P → P → ℝ) (train : Fin (n + 1) → List P) (hsep : Separated d train) : ∃ κ, 0 ≤ κ ∧ EnergyTellsApart d train κ := by
  set f : (Fin (n + 1) → ℝ) → ℝ := fun c => -∑ i, ∑ j, c i * c j * avgDist d (train i) (train j) with hf
  have hfc : Continuous f := by
    rw [hf]
    fun_prop
  set S : Set (Fin (n + 1) → ℝ) := {c | ∑ i, |c i| = 1 ∧ ∑ i, c i = 0} with hS
  have hcl : IsClosed S := by
    have h1 : IsClosed {c : Fin (n + 1) → ℝ | ∑ i, |c i| = 1} := isClosed_eq (by fun_prop) continuous_const
    have h2 : IsClosed {c : Fin (n + 1) → ℝ | ∑ i, c i = 0} := isClosed_eq (by fun_prop) continuous_const
    exact h1.inter h2
  have hbd : S ⊆ Metric.closedBall 0 1 := by
    intro c hc
    rw [mem_closedBall_zero_iff, pi_norm_le_iff_of_nonneg zero_le_one]
    intro i
    rw [Real.norm_eq_abs, ← hc.1]
    exact Finset.single_le_sum (f := fun i => |c i|) (fun i _ => abs_nonneg _) (Finset.mem_univ i)
  have hK : IsCompact S := (isCompact_closedBall 0 1).of_isClosed_subset hcl hbd
  have hhom : ∀ (t : ℝ) (c : Fin (n + 1) → ℝ), f (fun i => t * c i) = t ^ 2 * f c := by
    intro t c
    rw [hf]
    simp only
    rw [mul_neg, Finset.mul_sum]
    congr 1
    refine Finset.sum_congr rfl fun i _ => ?_
    rw [Finset.mul_sum]
    exact Finset.sum_congr rfl fun j _ => by ring
  have hscale : ∀ c : Fin (n + 1) → ℝ, ∑ i, c i = 0 → 0 < ∑ i, |c i| → (fun i => (∑ i, |c i|)⁻¹ * c i) ∈ S := by
    intro c hc hpos
    refine ⟨?_, by rw [← Finset.mul_sum, hc, mul_zero]⟩
    simp only [abs_mul, abs_inv, abs_of_pos hpos]
    rw [← Finset.mul_sum, inv_mul_cancel₀ hpos.ne']
  obtain ⟨m, hm0, hm⟩ : ∃ m : ℝ, 0 < m ∧ ∀ c ∈ S, m ≤ f c := by
    rcases S.eq_empty_or_nonempty with h | h
    · exact ⟨1, one_pos, fun c hc => by rw [h] at hc; exact hc.elim⟩
    · obtain ⟨c, hc, hmin⟩ := hK.exists_isMinOn h hfc.continuousOn
      refine ⟨f c, ?_, fun c' hc' => hmin hc'⟩
      have hne : c ≠ 0 := by
        rintro rfl
        have := hc.1
        simp at this
      have := hsep c hc.2 hne
      rw [hf]
      simp only
      linarith
  refine ⟨m⁻¹, by positivity, fun p q hpq => ?_⟩
  set c : Fin (n + 1) → ℝ := fun i => p i - q i with hc
  have hc0 : ∑ i, c i = 0 := by rw [hc, Finset.sum_sub_distrib, hpq, sub_self]
  have hgoal : (∑ i, |c i|) ^ 2 ≤ m⁻¹ * f c := by
    rcases (Finset.sum_nonneg fun i (_ : i ∈ Finset.univ) => abs_nonneg (c i)).lt_or_eq with hpos | h0
    · have h1 := hm _ (hscale c hc0 hpos)
      rw [hhom, inv_pow, inv_mul_eq_div, le_div_iff₀ (by positivity)] at h1
      rw [inv_mul_eq_div, le_div_iff₀ hm0]
      linarith
    · have hz : c = 0 := by
        funext i
        exact abs_eq_zero.1 ((Finset.sum_eq_zero_iff_of_nonneg fun i _ => abs_nonneg _).1 h0.symm i (Finset.mem_univ i))
      rw [hz, hf]
      simp
  exact hgoal

/-- How far the loss of `p` is above the loss of `q`, for any bag. -/
theorem energyLoss_diff {P : Type*} {n : ℕ} (d : P → P → ℝ) (hd : ∀ x y, d x y = d y x) (train : Fin (n + 1) → List P) (test : List P) (q p : Fin (n + 1) → ℝ) :
    energyLoss d train test p - energyLoss d train test q
      = 2 * (∑ i, (p i - q i) * (avgDist d (train i) test - ∑ j, q j * avgDist d (train i) (train j))) - ∑ i, ∑ j, (p i - q i) * (p j - q j) * avgDist d (train i) (train j) := by
  have hs : ∀ i j, avgDist d (train i) (train j) = avgDist d (train j) (train i) := fun i j => by
    rw [← edK_eq d hd, ← edK_eq d hd, edK_symm d hd]
  unfold energyLoss
  have hswap : ∑ i, ∑ j, q i * p j * avgDist d (train i) (train j) = ∑ i, ∑ j, p i * q j * avgDist d (train i) (train j) := by
    rw [Finset.sum_comm]
    refine Finset.sum_congr rfl fun i _ => Finset.sum_congr rfl fun j _ => ?_
    rw [hs]; ring
  have h1 : ∀ r : Fin (n + 1) → ℝ, ∑ i, r i * ∑ j, q j * avgDist d (train i) (train j) = ∑ i, ∑ j, r i * q j * avgDist d (train i) (train j) := by
    intro r
    refine Finset.sum_congr rfl fun i _ => ?_
    rw [Finset.mul_sum]
    exact Finset.sum_congr rfl fun j _ => by ring
  have h2 : ∑ i, ∑ j, (p i - q i) * (p j - q j) * avgDist d (train i) (train j)
      = (∑ i, ∑ j, p i * p j * avgDist d (train i) (train j)) - (∑ i, ∑ j, p i * q j * avgDist d (train i) (train j))
        - (∑ i, ∑ j, q i * p j * avgDist d (train i) (train j)) + ∑ i, ∑ j, q i * q j * avgDist d (train i) (train j) := by
    simp only [← Finset.sum_sub_distrib, ← Finset.sum_add_distrib]
    exact Finset.sum_congr rfl fun i _ => Finset.sum_congr rfl fun j _ => by ring
  have h3 : ∑ i, (p i - q i) * (avgDist d (train i) test - ∑ j, q j * avgDist d (train i) (train j))
      = (∑ i, p i * avgDist d (train i) test) - (∑ i, q i * avgDist d (train i) test) - (∑ i, p i * ∑ j, q j * avgDist d (train i) (train j)) + ∑ i, q i * ∑ j, q j * avgDist d (train i) (train j) := by
    simp only [← Finset.sum_sub_distrib, ← Finset.sum_add_distrib]
    exact Finset.sum_congr rfl fun i _ => by ring
  rw [h3, h2, hswap, h1, h1]
  ring

/-- The error of a minimiser of the energy loss. -/
theorem energy_error {P : Type*} {n : ℕ} (d : P → P → ℝ) (hd : ∀ x y, d x y = d y x) (train : Fin (n + 1) → List P) (κ : ℝ) (hκ0 : 0 ≤ κ) (hκ : EnergyTellsApart d train κ) (test : List P) (x q : Fin (n + 1) → ℝ) (hx : IsPrev x)
    (hq : IsPrev q) (hle : energyLoss d train test x ≤ energyLoss d train test q) :
    totalError x q ≤ 2 * κ * totalError (fun i => avgDist d (train i) test) fun i => ∑ j, q j * avgDist d (train i) (train j) := by
  have h1 := hκ x q (by rw [hx.2, hq.2])
  have h2 := energyLoss_diff d hd train test q x
  set B := ∑ i, (x i - q i) * (avgDist d (train i) test - ∑ j, q j * avgDist d (train i) (train j)) with hB
  set S := totalError x q with hS
  set E := totalError (fun i => avgDist d (train i) test) fun i => ∑ j, q j * avgDist d (train i) (train j) with hE
  have hS0 : 0 ≤ S := Finset.sum_nonneg fun i _ => abs_nonneg _
  have hE0 : 0 ≤ E := Finset.sum_nonneg fun i _ => abs_nonneg _
  have h3 : -B ≤ S * E := by
    refine (neg_le_abs B).trans ((Finset.abs_sum_le_sum_abs _ _).trans ?_)
    rw [hS, totalError, Finset.sum_mul]
    refine Finset.sum_le_sum fun i _ => ?_
    rw [abs_mul]
    exact mul_le_mul_of_nonneg_left (Finset.single_le_sum (f := fun i => |avgDist d (train i) test - ∑ j, q j * avgDist d (train i) (train j)|) (fun i _ => abs_nonneg _) (Finset.mem_univ i)) (abs_nonneg _)
  have h4 : S ^ 2 ≤ κ * (2 * (S * E)) := h1.trans (mul_le_mul_of_nonneg_left (by linarith) hκ0)
  rcases hS0.lt_or_eq with hpos | h0
  · have : S * S ≤ S * (2 * κ * E) := by linarith
    exact le_of_mul_le_mul_left this hpos
  · rw [← h0]
    positivity

/-- The energy quantifiers return the prevalences with the smallest energy loss. -/
theorem ed_closest {P : Type*} {α : Type*} [DecidableEq α] {n : ℕ} (hn : 0 < n) (qp : QPSolver) (hqp : ExactQP qp) (la : LinAlg n) (d : P → P → ℝ) (hd : ∀ x y, d x y = d y x) (classes : Fin (n + 1) → α) (y : List α)
    (rows : List P) (hlen : y.length = rows.length) (hcl : ∀ i, classes i ∈ y) (hsep : Separated d fun i => ofClass (y.zip rows) (classes i)) (fuel : ℕ) :
    ∃ f, edFit la fuel d classes y rows = some f ∧ ∀ test, test ≠ [] → ∃ x, edPredict qp d f test = .ok x ∧ IsPrev x
      ∧ ∀ p, IsPrev p → energyLoss d (fun i => ofClass (y.zip rows) (classes i)) test x ≤ energyLoss d (fun i => ofClass (y.zip rows) (classes i)) test p := by
  have htrain : ∀ i, ofClass (y.zip rows) (classes i) ≠ [] := fun i => selectRows_ne hlen (hcl i)
  set train := fun i => ofClass (y.zip rows) (classes i) with htr
  obtain ⟨par, p, h1, h2, h3, h4⟩ := C28_energy hn qp hqp la d hd train (train 0) htrain (htrain 0) fuel hsep
  refine ⟨⟨train, edK d train, par⟩, ?_, fun test hne => ?_⟩
  · unfold edFit
    show Option.map _ (computeEdParamTrain la fuel (edK d train)) = _
    rw [h1]
    rfl
  · obtain ⟨par', p', h1', h2', h3', h4'⟩ := C28_energy hn qp hqp la d hd train test htrain hne fuel hsep
    obtain rfl : par' = par := Option.some.inj (h1'.symm.trans h1)
    exact ⟨p', h2', h3', h4'⟩

/-- **C137** for EDy: for every bag and all prevalences `p`, the distance from the answer to `p` is at most `2 κ` times the difference between the average distances from the classes to the bag and those to the mixture
of the classes with prevalences `p`. -/
theorem C137_edy {σ D α : Type} {n : ℕ} [LinearOrder α] (enc : Bool → α) (w : World σ D α) (et et' : Option ℕ) (X Xt : List D) (y : List α) (hy : y ≠ []) (r : ℕ) (hr : 0 < r)
    (ops : EstOps σ D α (n + 1)) (hn : 0 < n) (hk : (labelsOf y).length = n + 1) (qp : QPSolver) (hqp : ExactQP qp) (la : LinAlg n) (fuel : ℕ) (d : (Fin (n + 1) → ℝ) → (Fin (n + 1) → ℝ) → ℝ) (hd : ∀ x y, d x y = d y x)
    (P : List (Fin (n + 1) → ℝ)) (hP : P.length = r * y.length) (train : Fin (n + 1) → List (Fin (n + 1) → ℝ)) (htr : train = fun i => ofClass ((stacked y r).zip P) (labelsOf y)[Fin.cast hk.symm i]) (hsep : Separated d train)
    (κ : ℝ) (hκ0 : 0 ≤ κ) (hκ : EnergyTellsApart d train κ) (bag : List (Fin (n + 1) → ℝ)) (hne : bag ≠ []) :
    ∃ x : Fin (n + 1) → ℝ, ucRun ops enc w ⟨edyClass qp la fuel d, et, et'⟩ X y (some (.probs P)) Xt (some (.probs bag)) = .ok (some (realList x)) ∧ IsPrev x
      ∧ ∀ p, IsPrev p → totalError x p ≤ 2 * κ * totalError (fun i => avgDist d (train i) bag) fun i => ∑ j, p j * avgDist d (train i) (train j) := by
  subst htr
  have hl : (stacked y r).length = P.length := by rw [stacked_length, hP]
  have hmem : ∀ i : Fin (n + 1), (labelsOf y)[Fin.cast hk.symm i] ∈ stacked y r := fun i => stacked_mem y r hr _ ((mem_labelsOf y _).1 (List.getElem_mem _))
  obtain ⟨f, h1, h2⟩ := ed_closest hn qp hqp la d hd (fun i : Fin (n + 1) => (labelsOf y)[Fin.cast hk.symm i]) (stacked y r) P hl hmem hsep fuel
  obtain ⟨x, h3, hx, hopt⟩ := h2 bag hne
  refine ⟨x, ?_, hx, fun p hp => energy_error d hd _ κ hκ0 hκ bag x p hx hp (hopt p hp)⟩
  rw [ucRun_given_probs ops enc w X Xt y (edyClass qp la fuel d) rfl rfl et et' hy r P _ hP]
  have h1' : edFit la fuel d (fun i => (npUnique y)[Fin.cast (show n + 1 = (npUnique y).length from hk.symm) i]) (stacked y r) P = some f := h1
  simp only [answerOn, learnAnswer, fittedState, edyClass, trainData, probRows, columnsAre, if_true, bind, Except.bind, keep, hl, ne_eq, not_true_eq_false, if_false]
  rw [dif_pos (show (npUnique y).length = n + 1 from hk)]
  simp only [h1', h3, Except.map]

/-- **C137** for EDX. -/
theorem C137_edx {β α : Type*} [LinearOrder α] {n : ℕ} (y : List α) (hn : 0 < n) (hk : (labelsOf y).length = n + 1) (qp : QPSolver) (hqp : ExactQP qp) (la : LinAlg n) (fuel : ℕ) (d : β → β → ℝ) (hd : ∀ x y, d x y = d y x)
    (X : List β) (hX : y.length = X.length) (train : Fin (n + 1) → List β) (htr : train = fun i => ofClass (y.zip X) (labelsOf y)[Fin.cast hk.symm i]) (hsep : Separated d train)
    (κ : ℝ) (hκ0 : 0 ≤ κ) (hκ : EnergyTellsApart d train κ) :
    ∃ f, edFit la fuel d (fun i => (labelsOf y)[Fin.cast hk.symm i]) y X = some f ∧ ∀ bag, bag ≠ [] → ∃ x, edPredict qp d f bag = .ok x ∧ IsPrev x
      ∧ ∀ p, IsPrev p → totalError x p ≤ 2 * κ * totalError (fun i => avgDist d (train i) bag) fun i => ∑ j, p j * avgDist d (train i) (train j) := by
  subst htr
  have hmem : ∀ i : Fin (n + 1), (labelsOf y)[Fin.cast hk.symm i] ∈ y := fun i => (mem_labelsOf' y _).1 (List.getElem_mem _)
  obtain ⟨f, h1, h2⟩ := ed_closest hn qp hqp la d hd (fun i : Fin (n + 1) => (labelsOf y)[Fin.cast hk.symm i]) y X hX hmem hsep fuel
  refine ⟨f, h1, fun bag hne => ?_⟩
  obtain ⟨x, h3, hx, hopt⟩ := h2 bag hne
  exact ⟨x, h3, hx, fun p hp => energy_error d hd _ κ hκ0 hκ bag x p hx hp (hopt p hp)⟩

/-- C137: two classes with one example each, at distance 1, are separated and tell prevalences apart with `κ = 2`. -/
example : Separated (n := 1) (fun a b : ℝ => |a - b|) ![[0], [1]] ∧ EnergyTellsApart (n := 1) (fun a b : ℝ => |a - b|) ![[0], [1]] 2 := by
  constructor
  · intro (c : Fin 2 → ℝ) (hc : ∑ i : Fin 2, c i = 0) hne
    change ∑ i : Fin 2, ∑ j : Fin 2, _ < (0:ℝ)
    simp only [Fin.sum_univ_two, avgDist] at hc ⊢
    norm_num
    have h1 : c 1 = -c 0 := by linarith
    have h0 : c 0 ≠ 0 := by
      intro h
      apply hne
      funext i
      fin_cases i
      · exact h
      · simpa [h] using h1
    rw [h1]
    have := sq_nonneg (c 0)
    have : 0 < c 0 ^ 2 := by positivity
    nlinarith
  · intro (p : Fin 2 → ℝ) (q : Fin 2 → ℝ) (hpq : ∑ i : Fin 2, p i = ∑ i : Fin 2, q i)
    change (∑ i : Fin 2, |p i - q i|) ^ 2 ≤ 2 * -∑ i : Fin 2, ∑ j : Fin 2, _
    simp only [Fin.sum_univ_two, avgDist, totalError] at hpq ⊢
    norm_num
    have h1 : p 1 - q 1 = -(p 0 - q 0) := by linarith
    rw [h1, abs_neg]
    have := sq_abs (p 0 - q 0)
    nlinarith

end Verif.Props
