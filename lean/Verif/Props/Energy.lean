import Verif.Props.Optimization
import Verif.Model.Energy
import Verif.Proof.NegType
import Verif.Num.ListAux

/-!
# C76-C79: the energy-distance quantifiers EDy, EDX and CvMy
-/

namespace Verif.Props

open Verif.Model Verif.Spec Verif.Proof Matrix

variable {n : ℕ} {α P : Type*}

/-- The examples of class `c`. -/
def classRows [DecidableEq α] (y : List α) (rows : List P) (c : α) : List P :=
  ((y.zip rows).filter fun t => t.1 = c).map Prod.snd

theorem avgDist_eq_sum (d : P → P → ℝ) (A B : List P) :
    avgDist d A B = ∑ a : Fin A.length, ∑ b : Fin B.length, (1 / (A.length : ℝ)) * (1 / (B.length : ℝ)) * d A[a] B[b] := by
  unfold avgDist
  rw [← Fin.sum_univ_fun_getElem]
  simp only [← Fin.sum_univ_fun_getElem]
  rw [Finset.sum_div]
  refine Finset.sum_congr rfl fun a _ => ?_
  rw [Finset.sum_div]
  refine Finset.sum_congr rfl fun b _ => ?_
  rw [Fin.getElem_fin, Fin.getElem_fin]
  rw [one_div_mul_one_div, one_div, div_eq_inv_mul]

/-- A distance of negative type weakly separates every training set. -/
theorem weaklySeparated_of_negType (d : P → P → ℝ) (hd : NegType d) (train : Fin (n + 1) → List P)
    (htrain : ∀ i, train i ≠ []) : WeaklySeparated d train := by
  intro c hc
  have hpos : ∀ i, ((train i).length : ℝ) ≠ 0 := fun i => by
    have := List.length_pos_iff.2 (htrain i)
    positivity
  have h := hd ((i : Fin (n + 1)) × Fin (train i).length) (fun u => c u.1 * (1 / ((train u.1).length : ℝ)))
    (fun u => (train u.1)[u.2]) (by
      rw [Fintype.sum_sigma]
      rw [← hc]
      refine Finset.sum_congr rfl fun i _ => ?_
      show ∑ _y : Fin (train i).length, c i * (1 / ((train i).length : ℝ)) = c i
      rw [Finset.sum_const, Finset.card_univ, Fintype.card_fin, nsmul_eq_mul]
      have := hpos i
      field_simp)
  refine le_of_eq_of_le ?_ h
  rw [Fintype.sum_sigma]
  refine Finset.sum_congr rfl fun i _ => ?_
  simp only [Fintype.sum_sigma]
  rw [Finset.sum_comm]
  refine Finset.sum_congr rfl fun j _ => ?_
  rw [avgDist_eq_sum, Finset.mul_sum]
  refine Finset.sum_congr rfl fun a _ => ?_
  rw [Finset.mul_sum]
  refine Finset.sum_congr rfl fun b _ => ?_
  ring

theorem manhattan_comm {f : ℕ} (x y : Fin f → ℝ) : manhattan x y = manhattan y x := by
  unfold manhattan
  exact Finset.sum_congr rfl fun i _ => abs_sub_comm _ _

theorem euclidean_comm {f : ℕ} (x y : Fin f → ℝ) : euclidean x y = euclidean y x := by
  unfold euclidean
  congr 1
  exact Finset.sum_congr rfl fun i _ => by ring

theorem classRows_ne_nil [DecidableEq α] (y : List α) (rows : List P) (hlen : y.length = rows.length) (c : α)
    (hc : c ∈ y) : classRows y rows c ≠ [] := by
  obtain ⟨i, hi, rfl⟩ := List.getElem_of_mem hc
  intro h
  unfold classRows at h
  rw [List.map_eq_nil_iff, List.filter_eq_nil_iff] at h
  have hm : (y.zip rows)[i]'(by rw [List.length_zip]; omega) ∈ y.zip rows := List.getElem_mem _
  have := h _ hm
  rw [List.getElem_zip] at this
  simp at this

/-! ## C76 -/

/-- **C76**: for every training set with at least two classes, every nonempty bag and every distance of
negative type, the energy quantifiers fit and predict without error; the result is a valid
prevalence vector whose energy loss is within half a spacing of the minimum over all valid
prevalence vectors. -/
theorem C76_energy_quantifier [DecidableEq α] (hn : 0 < n) (qp : QPSolver) (hqp : ExactQP qp) (la : LinAlg n)
    (hla : ExactLinAlg la) (d : P → P → ℝ) (hd : ∀ x y, d x y = d y x) (hneg : NegType d)
    (classes : Fin (n + 1) → α) (y : List α) (rows test : List P) (hlen : y.length = rows.length)
    (hcl : ∀ i, classes i ∈ y) (htest : test ≠ []) (fuel : ℕ) :
    ∃ f p, edFit la (fuel + 1) d classes y rows = some f ∧ edPredict qp d f test = .ok p ∧ IsPrev p
      ∧ ∀ p', IsPrev p' → energyLoss d (fun i => classRows y rows (classes i)) test p
          ≤ energyLoss d (fun i => classRows y rows (classes i)) test p'
            + la.spacing ((2:ℝ) • edB (edK d fun i => classRows y rows (classes i))) / 2 := by
  have htrain : ∀ i, classRows y rows (classes i) ≠ [] := fun i => classRows_ne_nil y rows hlen _ (hcl i)
  obtain ⟨par, p, h1, h2, h3, h4⟩ := C28_energy_near hn qp hqp la hla d hd _ test htrain htest fuel
    (weaklySeparated_of_negType d hneg _ htrain)
  refine ⟨⟨fun i => classRows y rows (classes i), edK d fun i => classRows y rows (classes i), par⟩, p, ?_, h2, h3, h4⟩
  unfold edFit
  show Option.map _ (computeEdParamTrain la (fuel + 1) (edK d fun i => classRows y rows (classes i))) = _
  rw [h1]
  rfl

/-- **C76**, `EDy` with its default distance (Manhattan on the predicted probabilities). -/
theorem C76_EDy [DecidableEq α] {k : ℕ} (hn : 0 < n) (qp : QPSolver) (hqp : ExactQP qp) (la : LinAlg n)
    (hla : ExactLinAlg la) (classes : Fin (n + 1) → α) (y : List α) (ptrain ptest : List (Fin k → ℝ))
    (hlen : y.length = ptrain.length) (hcl : ∀ i, classes i ∈ y) (htest : ptest ≠ []) (fuel : ℕ) :
    ∃ f p, edFit la (fuel + 1) manhattan classes y ptrain = some f ∧ edPredict qp manhattan f ptest = .ok p ∧ IsPrev p
      ∧ ∀ p', IsPrev p' → energyLoss manhattan (fun i => classRows y ptrain (classes i)) ptest p
          ≤ energyLoss manhattan (fun i => classRows y ptrain (classes i)) ptest p'
            + la.spacing ((2:ℝ) • edB (edK manhattan fun i => classRows y ptrain (classes i))) / 2 :=
  C76_energy_quantifier hn qp hqp la hla _ manhattan_comm (negType_manhattan k) classes y ptrain ptest hlen hcl htest fuel

/-- **C76**, `EDX` with its default distance (Euclidean on the features). -/
theorem C76_EDX [DecidableEq α] {k : ℕ} (hn : 0 < n) (qp : QPSolver) (hqp : ExactQP qp) (la : LinAlg n)
    (hla : ExactLinAlg la) (classes : Fin (n + 1) → α) (y : List α) (X Xtest : List (Fin k → ℝ))
    (hlen : y.length = X.length) (hcl : ∀ i, classes i ∈ y) (htest : Xtest ≠ []) (fuel : ℕ) :
    ∃ f p, edFit la (fuel + 1) euclidean classes y X = some f ∧ edPredict qp euclidean f Xtest = .ok p ∧ IsPrev p
      ∧ ∀ p', IsPrev p' → energyLoss euclidean (fun i => classRows y X (classes i)) Xtest p
          ≤ energyLoss euclidean (fun i => classRows y X (classes i)) Xtest p'
            + la.spacing ((2:ℝ) • edB (edK euclidean fun i => classRows y X (classes i))) / 2 :=
  C76_energy_quantifier hn qp hqp la hla _ euclidean_comm (negType_euclidean k) classes y X Xtest hlen hcl htest fuel

/-- Non-vacuity of C76: three labelled rows, two classes, exact libraries. -/
example : ∃ (classes : Fin (1 + 1) → ℕ) (y : List ℕ) (X : List (Fin 2 → ℝ)), y.length = X.length ∧ (∀ i, classes i ∈ y)
    ∧ (∃ qp : QPSolver, ExactQP qp) ∧ ∃ la : LinAlg 1, ExactLinAlg la :=
  ⟨![3, 5], [5, 3, 3], [![1, 0], ![0, 1], ![0.5, 0.5]], rfl, by intro i; fin_cases i <;> simp, exactQP_exists,
    exactLinAlg_exists 1⟩

/-! ## C77 -/

theorem sumDist_append_right (d : P → P → ℝ) (A B C : List P) : sumDist d A (B ++ C) = sumDist d A B + sumDist d A C := by
  unfold sumDist
  rw [← List.sum_map_add]
  congr 1
  exact List.map_congr_left fun x _ => by rw [List.map_append, List.sum_append]

theorem sumDist_perm_right (d : P → P → ℝ) (A : List P) {B C : List P} (h : B.Perm C) : sumDist d A B = sumDist d A C := by
  unfold sumDist
  congr 1
  exact List.map_congr_left fun x _ => (h.map _).sum_eq

theorem sumDist_perm_left (d : P → P → ℝ) {A B : List P} (C : List P) (h : A.Perm B) : sumDist d A C = sumDist d B C :=
  (h.map _).sum_eq

theorem sumDist_nil_right (d : P → P → ℝ) (A : List P) : sumDist d A [] = 0 := by
  unfold sumDist
  simp

theorem sumDist_flatten_right (d : P → P → ℝ) (A : List P) (Bs : List (List P)) :
    sumDist d A Bs.flatten = (Bs.map fun B => sumDist d A B).sum := by
  induction Bs with
  | nil => simp [sumDist_nil_right]
  | cons B Bs ih => rw [List.flatten_cons, sumDist_append_right, ih, List.map_cons, List.sum_cons]

/-- The bag that contains every example of class `i` exactly `m i` times. -/
def mixtureBag (train : Fin (n + 1) → List P) (m : Fin (n + 1) → ℕ) : List P :=
  (List.ofFn fun i => (List.replicate (m i) (train i)).flatten).flatten

/-- The class proportions of that bag. -/
noncomputable def mixturePrev (train : Fin (n + 1) → List P) (m : Fin (n + 1) → ℕ) : Fin (n + 1) → ℝ :=
  fun i => (m i * (train i).length : ℕ) / (∑ j, m j * (train j).length : ℕ)

theorem mixtureBag_length (train : Fin (n + 1) → List P) (m : Fin (n + 1) → ℕ) :
    (mixtureBag train m).length = ∑ j, m j * (train j).length := by
  unfold mixtureBag
  rw [List.length_flatten, List.map_ofFn, List.sum_ofFn]
  refine Finset.sum_congr rfl fun j _ => ?_
  simp

theorem edKt_mixture (d : P → P → ℝ) (train : Fin (n + 1) → List P) (htrain : ∀ i, train i ≠ []) (m : Fin (n + 1) → ℕ)
    (test : List P) (hperm : test.Perm (mixtureBag train m)) (i : Fin (n + 1)) :
    avgDist d (train i) test = ∑ j, mixturePrev train m j * avgDist d (train i) (train j) := by
  have hpos : ∀ i, ((train i).length : ℝ) ≠ 0 := fun i => by
    have := List.length_pos_iff.2 (htrain i)
    positivity
  have h1 : sumDist d (train i) test = ∑ j, (m j : ℝ) * sumDist d (train i) (train j) := by
    rw [sumDist_perm_right d _ hperm]
    unfold mixtureBag
    rw [sumDist_flatten_right, List.map_ofFn, List.sum_ofFn]
    refine Finset.sum_congr rfl fun j _ => ?_
    simp [Function.comp, sumDist_flatten_right]
  have hl : test.length = ∑ j, m j * (train j).length := by rw [hperm.length_eq, mixtureBag_length]
  show sumDist d (train i) test / _ = _
  rw [h1, hl, Finset.sum_div]
  refine Finset.sum_congr rfl fun j _ => ?_
  unfold mixturePrev avgDist
  show _ = _ * (sumDist d (train i) (train j) / _)
  have := hpos i
  have := hpos j
  push_cast
  field_simp

theorem mixturePrev_isPrev (train : Fin (n + 1) → List P) (m : Fin (n + 1) → ℕ) (h : ∃ i, m i ≠ 0 ∧ train i ≠ []) :
    IsPrev (mixturePrev train m) := by
  obtain ⟨i, h1, h2⟩ := h
  have hpos : 0 < ∑ j, m j * (train j).length := by
    refine Finset.sum_pos' (fun _ _ => Nat.zero_le _) ⟨i, Finset.mem_univ i, ?_⟩
    exact Nat.mul_pos (Nat.pos_of_ne_zero h1) (List.length_pos_iff.2 h2)
  refine ⟨fun j => div_nonneg (Nat.cast_nonneg _) (Nat.cast_nonneg _), ?_⟩
  unfold mixturePrev
  rw [← Finset.sum_div, ← Nat.cast_sum, div_self]
  exact_mod_cast hpos.ne'

/-- How far the loss of `p` is above the loss of the true mixture `q`. -/
theorem energyLoss_sub (d : P → P → ℝ) (hd : ∀ x y, d x y = d y x) (train : Fin (n + 1) → List P)
    (test : List P) (q : Fin (n + 1) → ℝ) (hq : ∀ i, avgDist d (train i) test = ∑ j, q j * avgDist d (train i) (train j))
    (p : Fin (n + 1) → ℝ) :
    energyLoss d train test p - energyLoss d train test q
      = -∑ i, ∑ j, (p i - q i) * (p j - q j) * avgDist d (train i) (train j) := by
  have hs : ∀ i j, avgDist d (train i) (train j) = avgDist d (train j) (train i) := fun i j => by
    rw [← edK_eq d hd, ← edK_eq d hd, edK_symm d hd]
  unfold energyLoss
  simp only [hq]
  have hswap : ∑ i, ∑ j, q i * p j * avgDist d (train i) (train j) = ∑ i, ∑ j, p i * q j * avgDist d (train i) (train j) := by
    rw [Finset.sum_comm]
    refine Finset.sum_congr rfl fun i _ => Finset.sum_congr rfl fun j _ => ?_
    rw [hs]; ring
  have h1 : ∀ r : Fin (n + 1) → ℝ, ∑ i, r i * ∑ j, q j * avgDist d (train i) (train j)
      = ∑ i, ∑ j, r i * q j * avgDist d (train i) (train j) := by
    intro r
    refine Finset.sum_congr rfl fun i _ => ?_
    rw [Finset.mul_sum]
    exact Finset.sum_congr rfl fun j _ => by ring
  have h2 : ∑ i, ∑ j, (p i - q i) * (p j - q j) * avgDist d (train i) (train j)
      = (∑ i, ∑ j, p i * p j * avgDist d (train i) (train j)) - (∑ i, ∑ j, p i * q j * avgDist d (train i) (train j))
        - (∑ i, ∑ j, q i * p j * avgDist d (train i) (train j)) + ∑ i, ∑ j, q i * q j * avgDist d (train i) (train j) := by
    simp only [← Finset.sum_sub_distrib, ← Finset.sum_add_distrib]
    exact Finset.sum_congr rfl fun i _ => Finset.sum_congr rfl fun j _ => by ring
  rw [h1, h1, h2, hswap]
  ring

/-- **C77**: when the training classes are separated, the energy quantifiers recover the class
proportions of every bag made of copies of the training examples, exactly. -/
theorem C77_exact_recovery [DecidableEq α] (hn : 0 < n) (qp : QPSolver) (hqp : ExactQP qp) (la : LinAlg n)
    (d : P → P → ℝ) (hd : ∀ x y, d x y = d y x) (classes : Fin (n + 1) → α) (y : List α) (rows : List P)
    (hlen : y.length = rows.length) (hcl : ∀ i, classes i ∈ y)
    (hsep : Separated d fun i => classRows y rows (classes i)) (m : Fin (n + 1) → ℕ) (hm : ∃ i, m i ≠ 0)
    (test : List P) (htest : test.Perm (mixtureBag (fun i => classRows y rows (classes i)) m)) (fuel : ℕ) :
    ∃ f, edFit la fuel d classes y rows = some f
      ∧ edPredict qp d f test = .ok (mixturePrev (fun i => classRows y rows (classes i)) m) := by
  have htrain : ∀ i, classRows y rows (classes i) ≠ [] := fun i => classRows_ne_nil y rows hlen _ (hcl i)
  set train := fun i => classRows y rows (classes i) with htr
  have hq : IsPrev (mixturePrev train m) := mixturePrev_isPrev _ _ (by obtain ⟨i, hi⟩ := hm; exact ⟨i, hi, htrain i⟩)
  have hne : test ≠ [] := by
    intro h
    subst h
    have h1 : (mixtureBag train m).length = 0 := by rw [← htest.length_eq]; rfl
    rw [mixtureBag_length] at h1
    obtain ⟨i, hi⟩ := hm
    have h2 := (Finset.sum_eq_zero_iff.1 h1) i (Finset.mem_univ i)
    rcases Nat.mul_eq_zero.1 h2 with h | h
    · exact hi h
    · exact htrain i (List.length_eq_zero_iff.1 h)
  obtain ⟨par, p, h1, h2, h3, h4⟩ := C28_energy hn qp hqp la d hd train test htrain hne fuel hsep
  refine ⟨⟨train, edK d train, par⟩, ?_, ?_⟩
  · unfold edFit
    show Option.map _ (computeEdParamTrain la fuel (edK d train)) = _
    rw [h1]
    rfl
  · have hle := h4 _ hq
    have hsub := energyLoss_sub d hd train test _ (edKt_mixture d train htrain m test htest) p
    have hpq : p = mixturePrev train m := by
      by_contra hne
      have := hsep (fun i => p i - mixturePrev train m i) (by rw [Finset.sum_sub_distrib, h3.2, hq.2, sub_self])
        (fun h => hne (by funext i; exact sub_eq_zero.1 (congrFun h i)))
      linarith
    rw [← hpq]
    exact h2

/-- **C77**: without separation the energy distance to the bag is still at most half a spacing above 0,
the energy distance of the true proportions. -/
theorem C77_near_recovery [DecidableEq α] (hn : 0 < n) (qp : QPSolver) (hqp : ExactQP qp) (la : LinAlg n)
    (hla : ExactLinAlg la) (d : P → P → ℝ) (hd : ∀ x y, d x y = d y x) (hneg : NegType d) (classes : Fin (n + 1) → α)
    (y : List α) (rows : List P) (hlen : y.length = rows.length) (hcl : ∀ i, classes i ∈ y)
    (m : Fin (n + 1) → ℕ) (hm : ∃ i, m i ≠ 0) (test : List P) (hne : test ≠ [])
    (htest : test.Perm (mixtureBag (fun i => classRows y rows (classes i)) m)) (fuel : ℕ) :
    ∃ f p, edFit la (fuel + 1) d classes y rows = some f ∧ edPredict qp d f test = .ok p ∧ IsPrev p
      ∧ energyLoss d (fun i => classRows y rows (classes i)) test p - avgDist d test test
          ≤ la.spacing ((2:ℝ) • edB (edK d fun i => classRows y rows (classes i))) / 2 := by
  obtain ⟨f, p, h1, h2, h3, h4⟩ := C76_energy_quantifier hn qp hqp la hla d hd hneg classes y rows test hlen hcl hne fuel
  have htrain : ∀ i, classRows y rows (classes i) ≠ [] := fun i => classRows_ne_nil y rows hlen _ (hcl i)
  refine ⟨f, p, h1, h2, h3, ?_⟩
  set train := fun i => classRows y rows (classes i) with htr
  have hq : IsPrev (mixturePrev train m) := mixturePrev_isPrev _ _ (by obtain ⟨i, hi⟩ := hm; exact ⟨i, hi, htrain i⟩)
  have h5 := h4 _ hq
  have hK := edKt_mixture d train htrain m test htest
  have hself : avgDist d test test = ∑ i, mixturePrev train m i * avgDist d (train i) test := by
    have hc : ∀ A B : List P, avgDist d A B = avgDist d B A := by
      intro A B
      show sumDist d A B / _ = sumDist d B A / _
      rw [sumDist_comm d hd, mul_comm]
    have hl : test.length = ∑ j, m j * (train j).length := by rw [htest.length_eq, mixtureBag_length]
    have hpos : ∀ i, ((train i).length : ℝ) ≠ 0 := fun i => by
      have := List.length_pos_iff.2 (htrain i)
      positivity
    have ht0 : (test.length : ℝ) ≠ 0 := by
      have := List.length_pos_iff.2 hne
      positivity
    have h1 : sumDist d test test = ∑ j, (m j : ℝ) * sumDist d (train j) test := by
      rw [sumDist_perm_right d _ htest]
      unfold mixtureBag
      rw [sumDist_flatten_right, List.map_ofFn, List.sum_ofFn]
      refine Finset.sum_congr rfl fun j _ => ?_
      rw [sumDist_comm d hd (train j)]
      simp [Function.comp, sumDist_flatten_right]
    show sumDist d test test / _ = _
    rw [h1, Finset.sum_div]
    refine Finset.sum_congr rfl fun j _ => ?_
    unfold mixturePrev
    show _ = _ * (sumDist d (train j) test / _)
    rw [← hl]
    have := hpos j
    push_cast
    field_simp
  have hval : energyLoss d train test (mixturePrev train m) = avgDist d test test := by
    have : ∑ i, ∑ j, mixturePrev train m i * mixturePrev train m j * avgDist d (train i) (train j)
        = ∑ i, mixturePrev train m i * avgDist d (train i) test := by
      refine Finset.sum_congr rfl fun i _ => ?_
      rw [hK i, Finset.mul_sum]
      exact Finset.sum_congr rfl fun j _ => by ring
    unfold energyLoss
    rw [this, hself]
    ring
  linarith

/-- Non-vacuity of C77: two separated classes on the line and a 1:2 mixture. -/
example : ∃ (classes : Fin (1 + 1) → ℕ) (y : List ℕ) (X : List ℝ) (m : Fin (1 + 1) → ℕ), y.length = X.length
    ∧ (∀ i, classes i ∈ y) ∧ Separated (fun a b : ℝ => |a - b|) (fun i => classRows y X (classes i))
    ∧ mixtureBag (fun i => classRows y X (classes i)) m = [0, 1, 1] := by
  refine ⟨![3, 5], [5, 3], [1, 0], ![1, 2], rfl, by intro i; fin_cases i <;> simp, ?_, ?_⟩
  · intro c hc h0
    have hc' : c 0 + c 1 = 0 := by simpa [Fin.sum_univ_succ] using hc
    have h1 : c 1 = -c 0 := by linarith
    have h2 : c 0 ≠ 0 := fun h => h0 (by funext i; fin_cases i; exact h; exact h1.trans (by rw [h, neg_zero]; rfl))
    simp [Fin.sum_univ_succ, avgDist, h1, classRows]
    exact h2
  · simp [mixtureBag, classRows, List.ofFn_succ, List.replicate]

/-! ## C78 -/

theorem rankdata_map (col : List ℝ) (φ : ℝ → ℝ) (hφ : StrictMono φ) (v : ℝ) :
    rankdata (col.map φ) (φ v) = rankdata col v := by
  unfold rankdata
  rw [List.countP_map, List.countP_map]
  congr 3
  · congr 1
    funext u
    simp [hφ.lt_iff_lt]
  · congr 2
    funext u
    simp [hφ.injective.eq_iff]

theorem rankRow_map {k : ℕ} (all : List (Fin k → ℝ)) (φ : Fin k → ℝ → ℝ) (hφ : ∀ i, StrictMono (φ i)) (row : Fin k → ℝ) :
    rankRow (all.map fun r i => φ i (r i)) (fun i => φ i (row i)) = rankRow all row := by
  funext i
  unfold rankRow
  rw [List.map_map, ← rankdata_map (all.map fun r => r i) (φ i) (hφ i), List.map_map]
  rfl

/-- **C78**: `CvMy` only depends on the order of the predicted probabilities within each column: applying
a strictly increasing recalibration to every column of the training and testing predictions
does not change its answer. -/
theorem C78_cvm_rank_invariant [DecidableEq α] {k : ℕ} (la : LinAlg n) (fuel : ℕ) (qp : QPSolver)
    (d : (Fin k → ℝ) → (Fin k → ℝ) → ℝ) (classes : Fin (n + 1) → α) (y : List α) (ptrain ptest : List (Fin k → ℝ))
    (φ : Fin k → ℝ → ℝ) (hφ : ∀ i, StrictMono (φ i)) :
    cvmPredict la fuel qp d classes y (ptrain.map fun r i => φ i (r i)) (ptest.map fun r i => φ i (r i))
      = cvmPredict la fuel qp d classes y ptrain ptest := by
  unfold cvmPredict
  have h : ∀ l : List (Fin k → ℝ), (l.map fun r i => φ i (r i)).map (rankRow ((ptrain.map fun r i => φ i (r i)) ++ ptest.map fun r i => φ i (r i)))
      = l.map (rankRow (ptrain ++ ptest)) := by
    intro l
    rw [List.map_map]
    refine List.map_congr_left fun r _ => ?_
    rw [Function.comp_apply, ← List.map_append]
    exact rankRow_map _ φ hφ r
  simp only [h]

/-- **C78**: and it is an energy quantifier on the ranks, so its answer is a valid prevalence vector. -/
theorem C78_cvm_valid [DecidableEq α] {k : ℕ} (hn : 0 < n) (qp : QPSolver) (hqp : ExactQP qp) (la : LinAlg n)
    (hla : ExactLinAlg la) (classes : Fin (n + 1) → α) (y : List α) (ptrain ptest : List (Fin k → ℝ))
    (hlen : y.length = ptrain.length) (hcl : ∀ i, classes i ∈ y) (htest : ptest ≠ []) (fuel : ℕ) :
    ∃ p, cvmPredict la (fuel + 1) qp manhattan classes y ptrain ptest = some (.ok p) ∧ IsPrev p := by
  obtain ⟨f, p, h1, h2, h3, -⟩ := C76_EDy hn qp hqp la hla classes y (ptrain.map (rankRow (ptrain ++ ptest)))
    (ptest.map (rankRow (ptrain ++ ptest))) (by rw [List.length_map]; exact hlen) hcl (by simpa using htest) fuel
  refine ⟨p, ?_, h3⟩
  unfold cvmPredict
  simp only [h1, Option.map_some, h2]

/-- **C78**: the ranks of a column without ties are 1, 2, ..., N: a value's rank is one more than the
number of smaller values. -/
theorem C78_rank_no_ties (col : List ℝ) (hnd : col.Nodup) (v : ℝ) (hv : v ∈ col) :
    rankdata col v = (col.countP fun u => decide (u < v) : ℕ) + 1 := by
  unfold rankdata
  have h1 : col.count v = 1 := List.count_eq_one_of_mem hnd hv
  have : col.countP (fun u => decide (u = v)) = 1 := by
    rw [← h1, List.count]
    congr 1
  rw [this]
  norm_num

theorem classRows_map [DecidableEq α] {Q : Type*} (f : P → Q) (y : List α) (rows : List P) (c : α) :
    classRows y (rows.map f) c = (classRows y rows c).map f := by
  unfold classRows
  rw [List.zip_map_right, List.filter_map, List.map_map, List.map_map]
  rfl

theorem mixtureBag_map {Q : Type*} (f : P → Q) (train : Fin (n + 1) → List P) (m : Fin (n + 1) → ℕ) :
    mixtureBag (fun i => (train i).map f) m = (mixtureBag train m).map f := by
  unfold mixtureBag
  rw [List.map_flatten, List.map_ofFn]
  congr 2
  funext i
  simp [List.map_flatten]

/-- **C77** for CvMy: the same holds for the ranks among the training and testing predictions, with
the separation asked of the ranks of the training examples. -/
theorem C77_cvm_recovery [DecidableEq α] {k : ℕ} (hn : 0 < n) (qp : QPSolver) (hqp : ExactQP qp) (la : LinAlg n)
    (d : (Fin k → ℝ) → (Fin k → ℝ) → ℝ) (hd : ∀ x y, d x y = d y x) (classes : Fin (n + 1) → α) (y : List α)
    (ptrain : List (Fin k → ℝ)) (hlen : y.length = ptrain.length) (hcl : ∀ i, classes i ∈ y)
    (m : Fin (n + 1) → ℕ) (hm : ∃ i, m i ≠ 0) (ptest : List (Fin k → ℝ))
    (htest : ptest.Perm (mixtureBag (fun i => classRows y ptrain (classes i)) m))
    (hsep : Separated d fun i => (classRows y ptrain (classes i)).map (rankRow (ptrain ++ ptest))) (fuel : ℕ) :
    cvmPredict la fuel qp d classes y ptrain ptest
      = some (.ok (mixturePrev (fun i => classRows y ptrain (classes i)) m)) := by
  have e : (fun i => classRows y (ptrain.map (rankRow (ptrain ++ ptest))) (classes i))
      = fun i => (classRows y ptrain (classes i)).map (rankRow (ptrain ++ ptest)) := by
    funext i
    exact classRows_map _ _ _ _
  obtain ⟨f, h1, h2⟩ := C77_exact_recovery hn qp hqp la d hd classes y (ptrain.map (rankRow (ptrain ++ ptest)))
    (by rw [List.length_map]; exact hlen) hcl (by rw [e]; exact hsep) m hm (ptest.map (rankRow (ptrain ++ ptest)))
    (by rw [e, mixtureBag_map]; exact htest.map _) fuel
  unfold cvmPredict
  simp only [h1, Option.map_some, h2]
  rw [e]
  unfold mixturePrev
  simp only [List.length_map]

/-- Non-vacuity of C77 for CvMy: two separated classes and a 1:2 mixture. -/
example : Separated manhattan (fun i : Fin (1 + 1) => (classRows [5, 3] [fun _ : Fin 1 => (1:ℝ), fun _ => 0] (![3, 5] i)).map
      (rankRow ([fun _ : Fin 1 => (1:ℝ), fun _ => 0] ++ [fun _ => 0, fun _ => 1, fun _ => 1])))
    ∧ mixtureBag (fun i : Fin (1 + 1) => classRows [5, 3] [fun _ : Fin 1 => (1:ℝ), fun _ => 0] (![3, 5] i)) ![1, 2]
      = [fun _ => 0, fun _ => 1, fun _ => 1] := by
  constructor
  · intro c hc h0
    have hc' : c 0 + c 1 = 0 := by simpa [Fin.sum_univ_succ] using hc
    have h1 : c 1 = -c 0 := by linarith
    have h2 : c 0 ≠ 0 := fun h => h0 (by funext i; fin_cases i; exact h; exact h1.trans (by rw [h, neg_zero]; rfl))
    have h3 : 0 < c 0 ^ 2 := by positivity
    simp [Fin.sum_univ_succ, avgDist, h1, classRows, manhattan, rankRow, rankdata, List.countP_cons]
    norm_num [abs_of_pos, abs_of_neg]
    nlinarith
  · simp [mixtureBag, classRows, List.ofFn_succ, List.replicate]

/-- Non-vacuity of C78: the logarithmic-odds style recalibration `x ↦ x^3` is strictly increasing. -/
example : ∀ _ : Fin 2, StrictMono fun x : ℝ => x ^ 3 := fun _ => (Odd.strictMono_pow (by decide))

/-! ## C79 -/

theorem edKt_perm (d : P → P → ℝ) (train : Fin (n + 1) → List P) {test test' : List P} (h : test.Perm test') :
    edKt d train test = edKt d train test' := by
  funext i
  unfold edKt
  rw [sumDist_perm_right d _ h, h.length_eq]

theorem selectRows_perm [DecidableEq α] {y y' : List α} {rows rows' : List P} (h : (y.zip rows).Perm (y'.zip rows')) (c : α) :
    (selectRows y rows c).Perm (selectRows y' rows' c) := (h.filter _).map _

/-- **C79**: the answer does not depend on the order of the examples, neither of the bag nor of the
training set. -/
theorem C79_order_irrelevant [DecidableEq α] (la : LinAlg n) (fuel : ℕ) (qp : QPSolver) (d : P → P → ℝ)
    (classes : Fin (n + 1) → α) (y y' : List α) (rows rows' test test' : List P)
    (htr : (y.zip rows).Perm (y'.zip rows')) (hte : test.Perm test') :
    (edFit la fuel d classes y rows).map (fun f => edPredict qp d f test)
      = (edFit la fuel d classes y' rows').map (fun f => edPredict qp d f test') := by
  have hs : ∀ i, (selectRows y rows (classes i)).Perm (selectRows y' rows' (classes i)) := fun i => selectRows_perm htr _
  have hK : edK d (fun i => selectRows y rows (classes i)) = edK d fun i => selectRows y' rows' (classes i) := by
    funext i j
    unfold edK
    rw [(hs i).length_eq, (hs j).length_eq, sumDist_perm_left d _ (hs i), sumDist_perm_right d _ (hs j),
      sumDist_perm_left d _ (hs j), sumDist_perm_right d _ (hs i)]
  have hKt : edKt d (fun i => selectRows y rows (classes i)) test = edKt d (fun i => selectRows y' rows' (classes i)) test' := by
    rw [edKt_perm d _ hte]
    funext i
    unfold edKt
    rw [(hs i).length_eq, sumDist_perm_left d _ (hs i)]
  unfold edFit
  rw [Option.map_map, Option.map_map, hK]
  congr 1
  funext par
  show edPredict qp d _ test = edPredict qp d _ test'
  unfold edPredict
  simp only [hKt]

/-- **C79**: repeating every example of the bag the same number of times does not change the answer. -/
theorem C79_repetition_irrelevant (qp : QPSolver) (d : P → P → ℝ) (f : EDFit P n) (test : List P) (r : ℕ) (hr : r ≠ 0) :
    edPredict qp d f (List.replicate r test).flatten = edPredict qp d f test := by
  have : edKt d f.train (List.replicate r test).flatten = edKt d f.train test := by
    funext i
    unfold edKt
    rw [sumDist_flatten_right]
    have hr' : (r : ℝ) ≠ 0 := by exact_mod_cast hr
    simp only [List.map_replicate, List.sum_replicate, nsmul_eq_mul, List.length_flatten, smul_eq_mul, Nat.cast_mul]
    rw [show ((f.train i).length : ℝ) * ((r:ℝ) * (test.length : ℝ)) = r * ((f.train i).length * test.length) by ring,
      mul_div_mul_left _ _ hr']
  unfold edPredict
  rw [this]

end Verif.Props
