import Verif.Props.TrainInfluenceMatch

/-!
# C171: one example of the training set, for the methods that match distances
-/

namespace Verif.Props

open Verif.Model Verif.Spec Verif.Proof

/-- First order condition of the mixture at the least energy distance. -/
theorem closest_energy {P : Type*} {n : ℕ} (d : P → P → ℝ) (hd : ∀ x y, d x y = d y x) (train : Fin (n + 1) → List P) (bag : List P) (x z : Fin (n + 1) → ℝ) (hx : IsPrev x) (hz : IsPrev z)
    (ho : ∀ p, IsPrev p → energyLoss d train bag x ≤ energyLoss d train bag p) : 0 ≤ ∑ i, (z i - x i) * (avgDist d (train i) bag - ∑ j, x j * avgDist d (train i) (train j)) := by
  have h := slope_nonneg (G := 2 * ∑ i, (z i - x i) * (avgDist d (train i) bag - ∑ j, x j * avgDist d (train i) (train j))) (Q := -∑ i, ∑ j, (z i - x i) * (z j - x j) * avgDist d (train i) (train j)) fun t h0 h1 => by
    have h2 := ho _ (segment_isPrev hx hz h0.le h1)
    have h3 := energyLoss_diff d hd train bag x fun i => x i + t * (z i - x i)
    have h4 : ∑ i, (x i + t * (z i - x i) - x i) * (avgDist d (train i) bag - ∑ j, x j * avgDist d (train i) (train j))
        = t * ∑ i, (z i - x i) * (avgDist d (train i) bag - ∑ j, x j * avgDist d (train i) (train j)) := by
      rw [Finset.mul_sum]
      exact Finset.sum_congr rfl fun i _ => by ring
    have h5 : ∑ i, ∑ j, (x i + t * (z i - x i) - x i) * (x j + t * (z j - x j) - x j) * avgDist d (train i) (train j) = t ^ 2 * ∑ i, ∑ j, (z i - x i) * (z j - x j) * avgDist d (train i) (train j) := by
      rw [Finset.mul_sum]
      refine Finset.sum_congr rfl fun i _ => ?_
      rw [Finset.mul_sum]
      exact Finset.sum_congr rfl fun j _ => by ring
    rw [h4, h5] at h3
    linarith
  linarith

/-- The closest mixtures of two training sets whose average distances are close. -/
theorem energy_training {P : Type*} {n : ℕ} (d : P → P → ℝ) (hd : ∀ x y, d x y = d y x) (train train' : Fin (n + 1) → List P) (κ : ℝ) (hκ0 : 0 ≤ κ) (hκ : EnergyTellsApart d train κ) (bag : List P) (x x' : Fin (n + 1) → ℝ)
    (hx : IsPrev x) (hx' : IsPrev x') (ho : ∀ p, IsPrev p → energyLoss d train bag x ≤ energyLoss d train bag p) (ho' : ∀ p, IsPrev p → energyLoss d train' bag x' ≤ energyLoss d train' bag p) (ε : ℝ)
    (ht : ∀ i, |avgDist d (train' i) bag - avgDist d (train i) bag| ≤ ε) (hK : ∀ i j, |avgDist d (train' i) (train' j) - avgDist d (train i) (train j)| ≤ 2 * ε) : totalError x x' ≤ κ * (3 * ε) := by
  have h1 := closest_energy d hd train bag x x' hx hx' ho
  have h2 := closest_energy d hd train' bag x' x hx' hx ho'
  have hκ' := hκ x x' (by rw [hx.2, hx'.2])
  set S := totalError x x' with hS
  have hS0 : 0 ≤ S := Finset.sum_nonneg fun i _ => abs_nonneg _
  have hε0 : 0 ≤ ε := (abs_nonneg _).trans (ht 0)
  have hsum : -∑ i, ∑ j, (x i - x' i) * (x j - x' j) * avgDist d (train i) (train j)
      = -(∑ i, (x' i - x i) * (avgDist d (train i) bag - ∑ j, x j * avgDist d (train i) (train j))) - ∑ i, (x i - x' i) * (avgDist d (train' i) bag - ∑ j, x' j * avgDist d (train' i) (train' j))
        + ∑ i, (x i - x' i) * ((avgDist d (train' i) bag - avgDist d (train i) bag) - ∑ j, x' j * (avgDist d (train' i) (train' j) - avgDist d (train i) (train j))) := by
    rw [← Finset.sum_neg_distrib, ← Finset.sum_neg_distrib, ← Finset.sum_sub_distrib, ← Finset.sum_add_distrib]
    refine Finset.sum_congr rfl fun i _ => ?_
    have e1 : ∑ j, (x i - x' i) * (x j - x' j) * avgDist d (train i) (train j) = (x i - x' i) * (∑ j, x j * avgDist d (train i) (train j) - ∑ j, x' j * avgDist d (train i) (train j)) := by
      rw [← Finset.sum_sub_distrib, Finset.mul_sum]
      exact Finset.sum_congr rfl fun j _ => by ring
    have e2 : ∑ j, x' j * (avgDist d (train' i) (train' j) - avgDist d (train i) (train j)) = ∑ j, x' j * avgDist d (train' i) (train' j) - ∑ j, x' j * avgDist d (train i) (train j) := by
      rw [← Finset.sum_sub_distrib]
      exact Finset.sum_congr rfl fun j _ => by ring
    rw [e1, e2]
    ring
  have hb : ∑ i, (x i - x' i) * ((avgDist d (train' i) bag - avgDist d (train i) bag) - ∑ j, x' j * (avgDist d (train' i) (train' j) - avgDist d (train i) (train j))) ≤ S * (3 * ε) := by
    refine (le_abs_self _).trans ((Finset.abs_sum_le_sum_abs _ _).trans ?_)
    rw [hS, Spec.totalError, Finset.sum_mul]
    refine Finset.sum_le_sum fun i _ => ?_
    rw [abs_mul]
    refine mul_le_mul_of_nonneg_left ?_ (abs_nonneg _)
    have h3 : |∑ j, x' j * (avgDist d (train' i) (train' j) - avgDist d (train i) (train j))| ≤ 2 * ε := by
      refine (Finset.abs_sum_le_sum_abs _ _).trans ?_
      calc ∑ j, |x' j * (avgDist d (train' i) (train' j) - avgDist d (train i) (train j))| ≤ ∑ j, x' j * (2 * ε) := Finset.sum_le_sum fun j _ => by
            rw [abs_mul, abs_of_nonneg (hx'.1 j)]
            exact mul_le_mul_of_nonneg_left (hK i j) (hx'.1 j)
        _ = 2 * ε := by rw [← Finset.sum_mul, hx'.2, one_mul]
    have h4 := abs_sub (avgDist d (train' i) bag - avgDist d (train i) bag) (∑ j, x' j * (avgDist d (train' i) (train' j) - avgDist d (train i) (train j)))
    linarith [ht i]
  have h4 : S ^ 2 ≤ κ * (S * (3 * ε)) := by
    refine hκ'.trans (mul_le_mul_of_nonneg_left ?_ hκ0)
    rw [hsum]
    linarith
  rcases hS0.lt_or_eq with hpos | h0
  · have : S * S ≤ S * (κ * (3 * ε)) := by linarith
    exact le_of_mul_le_mul_left this hpos
  · rw [← h0]
    positivity

theorem avgDist_symm {P : Type*} (d : P → P → ℝ) (hd : ∀ x y, d x y = d y x) (A B : List P) : avgDist d A B = avgDist d B A := by
  have h := edK_symm d hd (n := 1) (fun i => if i = 0 then A else B) 0 1
  rwa [edK_eq d hd, edK_eq d hd] at h

/-- Moving one point changes its average distance to a list by at most how far it moves. -/
theorem mean_distance_moves {P : Type*} (d : P → P → ℝ) (hd : ∀ x y, d x y = d y x) (htri : ∀ x y z, d x z ≤ d x y + d y z) (B : List P) (hne : B ≠ []) (v v' : P) : |meanOf B (fun a => d a v') - meanOf B (fun a => d a v)| ≤ d v v' := by
  have hl : (0:ℝ) < B.length := by exact_mod_cast List.length_pos_iff.2 hne
  have key : ∀ v v', meanOf B (fun a => d a v) ≤ meanOf B (fun a => d a v') + d v v' := by
    intro v v'
    rw [meanOf, meanOf, div_add' _ _ _ hl.ne']
    refine div_le_div_of_nonneg_right ?_ hl.le
    clear hne hl
    induction B with
    | nil => simp
    | cons a l ih =>
      simp only [List.map_cons, List.sum_cons, List.length_cons, Nat.cast_add, Nat.cast_one]
      have := htri a v' v
      rw [hd v' v] at this
      linarith
  have h1 := key v v'
  have h2 := key v' v
  rw [hd v' v] at h2
  rw [abs_le]
  constructor <;> linarith

/-- The average distance between the examples of a class and a list, when one training example is replaced. -/
theorem avgDist_train_replaced {α P : Type*} [DecidableEq α] (d : P → P → ℝ) (hd : ∀ x y, d x y = d y x) (htri : ∀ x y z, d x z ≤ d x y + d y z) {L L' : List P} {v v' : P} (h : OneReplaced L L' v v') (Y : List α) (hl : Y.length = L.length)
    (N : ℝ) (hN : 0 < N) (c : α) (hc : N ≤ Y.count c) (B : List P) (hB : B ≠ []) : |avgDist d (ofClass (Y.zip L') c) B - avgDist d (ofClass (Y.zip L) c) B| ≤ d v v' / N := by
  rw [avgDist_symm d hd _ B, avgDist_symm d hd _ B, avgDist_mean, avgDist_mean]
  have := replaced_shares h Y hl (fun (_ : Fin 1) a => meanOf B fun b => d b a) (d v v') (by simpa using mean_distance_moves d hd htri B hB v v') N hN c hc
  simpa using this

/-- Two fits of the energy distance on training sets that differ in one example. -/
theorem energy_replaced {α P : Type*} [DecidableEq α] {n : ℕ} (d : P → P → ℝ) (hd : ∀ x y, d x y = d y x) (htri : ∀ x y z, d x z ≤ d x y + d y z) {L L' : List P} {v v' : P} (h : OneReplaced L L' v v') (Y : List α) (hl : Y.length = L.length)
    (c : Fin (n + 1) → α) (hmem : ∀ i, c i ∈ Y) (N : ℝ) (hN : 0 < N) (hc : ∀ i, N ≤ Y.count (c i)) (κ : ℝ) (hκ0 : 0 ≤ κ) (hκ : EnergyTellsApart d (fun i => ofClass (Y.zip L) (c i)) κ) (bag : List P) (hbag : bag ≠ []) (x x' : Fin (n + 1) → ℝ)
    (hx : IsPrev x) (hx' : IsPrev x') (ho : ∀ p, IsPrev p → energyLoss d (fun i => ofClass (Y.zip L) (c i)) bag x ≤ energyLoss d (fun i => ofClass (Y.zip L) (c i)) bag p)
    (ho' : ∀ p, IsPrev p → energyLoss d (fun i => ofClass (Y.zip L') (c i)) bag x' ≤ energyLoss d (fun i => ofClass (Y.zip L') (c i)) bag p) : totalError x x' ≤ κ * (3 * d v v') / N := by
  have hl' : Y.length = L'.length := hl.trans (replaced_length h).symm
  refine (energy_training d hd _ _ κ hκ0 hκ bag x x' hx hx' ho ho' (d v v' / N) (fun i => avgDist_train_replaced d hd htri h Y hl N hN _ (hc i) bag hbag) fun i j => ?_).trans_eq (by ring)
  have h1 := avgDist_train_replaced d hd htri h Y hl N hN _ (hc i) (ofClass (Y.zip L') (c j)) (selectRows_ne hl' (hmem j))
  have h2 := avgDist_train_replaced d hd htri h Y hl N hN _ (hc j) (ofClass (Y.zip L) (c i)) (selectRows_ne hl (hmem i))
  rw [avgDist_symm d hd _ (ofClass (Y.zip L) (c i)), avgDist_symm d hd _ (ofClass (Y.zip L) (c i))] at h2
  rw [abs_le] at h1 h2 ⊢
  constructor <;> linarith [h1.1, h1.2, h2.1, h2.2]

section
variable {σ D α : Type} {k : ℕ} [LinearOrder α] (enc : Bool → α) (w : World σ D α) (et et' : Option ℕ) (X Xt : List D) (y : List α) (hy : y ≠ []) (r : ℕ) (hr : 0 < r)
include hy hr

/-- **C171** for EDy, with a distance `d` for which the triangle inequality holds. -/
theorem C171_edy {n : ℕ} (ops : EstOps σ D α (n + 1)) (hn : 0 < n) (hk : (labelsOf y).length = n + 1) (qp : QPSolver) (hqp : ExactQP qp) (la : LinAlg n) (fuel : ℕ) (d : (Fin (n + 1) → ℝ) → (Fin (n + 1) → ℝ) → ℝ)
    (hd : ∀ x y, d x y = d y x) (htri : ∀ x y z, d x z ≤ d x y + d y z) (P P' : List (Fin (n + 1) → ℝ)) (hP : P.length = r * y.length) (v v' : Fin (n + 1) → ℝ) (h : OneReplaced P P' v v')
    (train train' : Fin (n + 1) → List (Fin (n + 1) → ℝ)) (htr : train = fun i => ofClass ((stacked y r).zip P) (labelsOf y)[Fin.cast hk.symm i]) (htr' : train' = fun i => ofClass ((stacked y r).zip P') (labelsOf y)[Fin.cast hk.symm i])
    (hsep : Separated d train) (hsep' : Separated d train') (κ N : ℝ) (hκ0 : 0 ≤ κ) (hκ : EnergyTellsApart d train κ) (hN0 : 0 < N) (hN : ∀ c ∈ y, N ≤ r * y.count c) (bag : List (Fin (n + 1) → ℝ)) (hbag : bag ≠ []) :
    ∃ x x' : Fin (n + 1) → ℝ, ucRun ops enc w ⟨edyClass qp la fuel d, et, et'⟩ X y (some (.probs P)) Xt (some (.probs bag)) = .ok (some (realList x))
      ∧ ucRun ops enc w ⟨edyClass qp la fuel d, et, et'⟩ X y (some (.probs P')) Xt (some (.probs bag)) = .ok (some (realList x')) ∧ totalError x x' ≤ κ * (3 * d v v') / N := by
  subst htr htr'
  have hP' : P'.length = r * y.length := by rw [replaced_length h, hP]
  have hl : (stacked y r).length = P.length := by rw [stacked_length, hP]
  have hl' : (stacked y r).length = P'.length := by rw [stacked_length, hP']
  have hmem : ∀ i : Fin (n + 1), (labelsOf y)[Fin.cast hk.symm i] ∈ stacked y r := fun i => stacked_mem y r hr _ ((mem_labelsOf y _).1 (List.getElem_mem _))
  have run : ∀ P : List (Fin (n + 1) → ℝ), P.length = r * y.length → Separated d (fun i => ofClass ((stacked y r).zip P) (labelsOf y)[Fin.cast hk.symm i]) →
      ∃ x, ucRun ops enc w ⟨edyClass qp la fuel d, et, et'⟩ X y (some (.probs P)) Xt (some (.probs bag)) = .ok (some (realList x)) ∧ IsPrev x
        ∧ ∀ p, IsPrev p → energyLoss d (fun i => ofClass ((stacked y r).zip P) (labelsOf y)[Fin.cast hk.symm i]) bag x ≤ energyLoss d (fun i => ofClass ((stacked y r).zip P) (labelsOf y)[Fin.cast hk.symm i]) bag p := by
    intro P hP hsep
    have hl : (stacked y r).length = P.length := by rw [stacked_length, hP]
    obtain ⟨f, h1, h2⟩ := ed_closest hn qp hqp la d hd (fun i : Fin (n + 1) => (labelsOf y)[Fin.cast hk.symm i]) (stacked y r) P hl hmem hsep fuel
    obtain ⟨x, h3, hx, hopt⟩ := h2 bag hbag
    have h1' : edFit la fuel d (fun i => (npUnique y)[Fin.cast (show n + 1 = (npUnique y).length from hk.symm) i]) (stacked y r) P = some f := h1
    refine ⟨x, ?_, hx, hopt⟩
    rw [ucRun_given_probs ops enc w X Xt y (edyClass qp la fuel d) rfl rfl et et' hy r P _ hP]
    simp only [answerOn, learnAnswer, fittedState, edyClass, trainData, probRows, columnsAre, if_true, bind, Except.bind, keep, hl, ne_eq, not_true_eq_false, if_false]
    rw [dif_pos (show (npUnique y).length = n + 1 from hk)]
    simp only [h1', h3, Except.map]
  obtain ⟨x, h1, hx, ho⟩ := run P hP hsep
  obtain ⟨x', h1', hx', ho'⟩ := run P' hP' hsep'
  refine ⟨x, x', h1, h1', energy_replaced d hd htri h _ hl _ hmem N hN0 (fun i => ?_) κ hκ0 hκ bag hbag x x' hx hx' ho ho'⟩
  rw [stacked_count]
  push_cast
  exact hN _ ((mem_labelsOf y _).1 (List.getElem_mem _))

end

/-- **C171** for EDX: one training example `v` is replaced by `v'`. -/
theorem C171_edx {β α : Type*} [LinearOrder α] {n : ℕ} (y : List α) (hn : 0 < n) (hk : (labelsOf y).length = n + 1) (qp : QPSolver) (hqp : ExactQP qp) (la : LinAlg n) (fuel : ℕ) (d : β → β → ℝ) (hd : ∀ x y, d x y = d y x)
    (htri : ∀ x y z, d x z ≤ d x y + d y z) (X X' : List β) (hX : y.length = X.length) (v v' : β) (h : OneReplaced X X' v v')
    (train train' : Fin (n + 1) → List β) (htr : train = fun i => ofClass (y.zip X) (labelsOf y)[Fin.cast hk.symm i]) (htr' : train' = fun i => ofClass (y.zip X') (labelsOf y)[Fin.cast hk.symm i])
    (hsep : Separated d train) (hsep' : Separated d train') (κ N : ℝ) (hκ0 : 0 ≤ κ) (hκ : EnergyTellsApart d train κ) (hN0 : 0 < N) (hN : ∀ c ∈ y, N ≤ y.count c) :
    ∃ f f', edFit la fuel d (fun i => (labelsOf y)[Fin.cast hk.symm i]) y X = some f ∧ edFit la fuel d (fun i => (labelsOf y)[Fin.cast hk.symm i]) y X' = some f'
      ∧ ∀ bag, bag ≠ [] → ∃ x x', edPredict qp d f bag = .ok x ∧ edPredict qp d f' bag = .ok x' ∧ totalError x x' ≤ κ * (3 * d v v') / N := by
  subst htr htr'
  have hX' : y.length = X'.length := hX.trans (replaced_length h).symm
  have hmem : ∀ i : Fin (n + 1), (labelsOf y)[Fin.cast hk.symm i] ∈ y := fun i => (mem_labelsOf' y _).1 (List.getElem_mem _)
  obtain ⟨f, h1, h2⟩ := ed_closest hn qp hqp la d hd (fun i : Fin (n + 1) => (labelsOf y)[Fin.cast hk.symm i]) y X hX hmem hsep fuel
  obtain ⟨f', h1', h2'⟩ := ed_closest hn qp hqp la d hd (fun i : Fin (n + 1) => (labelsOf y)[Fin.cast hk.symm i]) y X' hX' hmem hsep' fuel
  refine ⟨f, f', h1, h1', fun bag hbag => ?_⟩
  obtain ⟨x, h3, hx, ho⟩ := h2 bag hbag
  obtain ⟨x', h3', hx', ho'⟩ := h2' bag hbag
  exact ⟨x, x', h3, h3', energy_replaced d hd htri h _ hX _ hmem N hN0 (fun i => hN _ (hmem i)) κ hκ0 hκ bag hbag x x' hx hx' ho ho'⟩

/-- C171: two classes of one example each, at 0 and 1, with the second one moved to 2: both training sets are separated, and the hypotheses of `C171_edx` hold with `N = 1`. -/
example : OneReplaced [(0:ℝ), 1] [0, 2] 1 2 ∧ (∀ c ∈ [(1:ℤ), 2], (1:ℝ) ≤ [(1:ℤ), 2].count c)
    ∧ Separated (n := 1) (fun a b : ℝ => |a - b|) (fun i => ofClass ([(1:ℤ), 2].zip [0, 1]) (![(1:ℤ), 2] i)) ∧ Separated (n := 1) (fun a b : ℝ => |a - b|) (fun i => ofClass ([(1:ℤ), 2].zip [0, 2]) (![(1:ℤ), 2] i)) := by
  have key : ∀ t : ℝ, 0 < t → Separated (n := 1) (fun a b : ℝ => |a - b|) (fun i => ofClass ([(1:ℤ), 2].zip [0, t]) (![(1:ℤ), 2] i)) := by
    intro t ht (c : Fin 2 → ℝ) (hc : ∑ i : Fin 2, c i = 0) hne
    change ∑ i : Fin 2, ∑ j : Fin 2, _ < (0:ℝ)
    simp only [Fin.sum_univ_two] at hc ⊢
    have h1 : c 1 = -c 0 := by linarith
    have h0 : c 0 ≠ 0 := by
      intro h
      apply hne
      funext i
      fin_cases i
      · exact h
      · simpa [h] using h1
    have e : ∀ a b : ℝ, avgDist (fun a b : ℝ => |a - b|) [a] [b] = |a - b| := fun a b => by simp [avgDist]
    have f0 : ofClass ([(1:ℤ), 2].zip [0, t]) (![(1:ℤ), 2] 0) = [0] := by simp [ofClass]
    have f1 : ofClass ([(1:ℤ), 2].zip [0, t]) (![(1:ℤ), 2] 1) = [t] := by simp [ofClass]
    rw [f0, f1, e, e, e, e, h1]
    have : |0 - t| = t := by rw [zero_sub, abs_neg, abs_of_pos ht]
    have h' : |t - 0| = t := by rw [sub_zero, abs_of_pos ht]
    rw [this, h']
    simp only [sub_self, abs_zero]
    have := mul_pos (mul_self_pos.2 h0) ht
    nlinarith
  refine ⟨⟨[0], [], rfl, rfl⟩, ?_, by simpa using key 1 one_pos, key 2 two_pos⟩
  intro c hc
  have := List.count_pos_iff.2 hc
  exact_mod_cast this

end Verif.Props
