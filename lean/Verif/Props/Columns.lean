import Verif.Spec.Columns
import Verif.Props.Units

/-!
# C151: neither the order of the features nor constant features matter
-/

namespace Verif.Props

open Verif.Model Verif.Spec Verif.Proof

section
variable {α : Type} [DecidableEq α]

theorem column_keep {nf nf' : ℕ} (ι : Fin nf → Fin nf') (rows : List (Fin nf' → ℝ)) (d : Fin nf) :
    (keepColumns ι rows).map (fun row => row d) = rows.map fun row => row (ι d) := by
  unfold keepColumns
  rw [List.map_map]
  rfl

theorem featureHist_keep {nf nf' nb : ℕ} (ι : Fin nf → Fin nf') (cuts : Fin (nb + 1) → EReal) (d : Fin nf) (rows : List (Fin nf' → ℝ)) :
    featureHist cuts d (keepColumns ι rows) = featureHist cuts (ι d) rows := by
  unfold featureHist
  rw [column_keep]
  simp [keepColumns]

theorem featureHist_mono {nf nb : ℕ} {cuts : Fin (nb + 1) → EReal} {d : Fin nf} {rows : List (Fin nf → ℝ)} {w : Fin nb → ℝ} (h : featureHist cuts d rows = .ok w) :
    ∀ i : Fin nb, cuts i.castSucc ≤ cuts i.succ := by
  by_contra hc
  unfold featureHist npHistogram at h
  rw [if_neg hc] at h
  cases h

theorem sum_blocks {nd nb : ℕ} (g : Fin (nd * nb) → ℝ) : ∑ i, g i = ∑ d : Fin nd, ∑ b : Fin nb, g (finProdFinEquiv (d, b)) := by
  rw [← Fintype.sum_prod_type', ← finProdFinEquiv.sum_comp]

/-- Blocks in another order, and blocks in which the classes are the same, do not change which mixture is closer. -/
theorem closer_columns (nm : DistName) {nd nd' nb nc : ℕ} (ι : Fin nd → Fin nd') (hι : Function.Injective ι) (q : Fin (nd * nb) → ℝ) (q' : Fin (nd' * nb) → ℝ)
    (T : Matrix (Fin (nd * nb)) (Fin nc) ℝ) (T' : Matrix (Fin (nd' * nb)) (Fin nc) ℝ)
    (h : ∀ d : Fin nd, ∀ b : Fin nb, q (finProdFinEquiv (d, b)) = q' (finProdFinEquiv (ι d, b)) ∧ ∀ c, T (finProdFinEquiv (d, b)) c = T' (finProdFinEquiv (ι d, b)) c)
    (h' : ∀ d' : Fin nd', (∀ d, ι d ≠ d') → ∀ b : Fin nb, ∃ t, ∀ c, T' (finProdFinEquiv (d', b)) c = t)
    (p z : Fin nc → ℝ) (hp : IsPrev p) (hz : IsPrev z) : nm.dist q (mixtureOf T p) ≤ nm.dist q (mixtureOf T z) ↔ nm.dist q' (mixtureOf T' p) ≤ nm.dist q' (mixtureOf T' z) := by
  rw [DistName.le_iff, DistName.le_iff, ← sub_nonneg, ← sub_nonneg (b := ∑ i, nm.term (q' i) (mixtureOf T' p i)), ← Finset.sum_sub_distrib, ← Finset.sum_sub_distrib, sum_blocks, sum_blocks]
  have e : ∑ d : Fin nd, ∑ b : Fin nb, (nm.term (q (finProdFinEquiv (d, b))) (mixtureOf T z (finProdFinEquiv (d, b))) - nm.term (q (finProdFinEquiv (d, b))) (mixtureOf T p (finProdFinEquiv (d, b))))
      = ∑ d : Fin nd', ∑ b : Fin nb, (nm.term (q' (finProdFinEquiv (d, b))) (mixtureOf T' z (finProdFinEquiv (d, b))) - nm.term (q' (finProdFinEquiv (d, b))) (mixtureOf T' p (finProdFinEquiv (d, b)))) := by
    refine Finset.sum_of_injOn ι hι.injOn (fun _ _ => Finset.mem_coe.2 (Finset.mem_univ _)) (fun d' _ hd' => ?_) fun d _ => Finset.sum_congr rfl fun b _ => ?_
    · refine Finset.sum_eq_zero fun b _ => ?_
      obtain ⟨t, ht⟩ := h' d' (fun d hd => hd' ⟨d, by simp, hd⟩) b
      have e1 : ∀ x : Fin nc → ℝ, IsPrev x → mixtureOf T' x (finProdFinEquiv (d', b)) = t := fun x hx => by
        unfold mixtureOf
        simp only [ht, ← Finset.mul_sum, hx.2, mul_one]
      rw [e1 z hz, e1 p hp, sub_self]
    · obtain ⟨h1, h2⟩ := h d b
      unfold mixtureOf
      rw [h1]
      simp only [h2]
  rw [e]

/-- **C151** for DFX and HDX, all the strategies and named distances: the training set and the bag with the columns in another order, or with columns that do not vary in the training set, give the same order of the prevalences by distance
to the bag, so the same answer. The constant columns can have any values in the bag. -/
theorem C151_dfx {nf nf' : ℕ} (ppf : ℝ → EReal) (nm : DistName) (cfg : DfCfg) (classes y : List α) (hcl : ∀ c ∈ classes, c ∈ y) (X : List (Fin nf' → ℝ)) (hX : y.length = X.length)
    (ι : Fin nf → Fin nf') (hι : LeavesOutConstants ι X) (fit : DfFit nf' cfg.nBins classes.length) (hfit : dfxFit ppf cfg classes y X = .ok fit) (bag : List (Fin nf' → ℝ)) (q : Fin (nf' * cfg.nBins) → ℝ)
    (hq : dfxTest cfg fit bag = .ok q) :
    ∃ fit' q', dfxFit ppf cfg classes y (keepColumns ι X) = .ok fit' ∧ dfxTest cfg fit' (keepColumns ι bag) = .ok q'
      ∧ ∀ p z, IsPrev p → IsPrev z → (nm.dist q (mixtureOf fit.train p) ≤ nm.dist q (mixtureOf fit.train z) ↔ nm.dist q' (mixtureOf fit'.train p) ≤ nm.dist q' (mixtureOf fit'.train z)) := by
  have hX' : y.length = (keepColumns ι X).length := by simp [keepColumns, hX]
  obtain ⟨hc, v, hv, hT⟩ := (dfxFit_iff ppf cfg classes y X hX fit).1 hfit
  obtain ⟨w, hw, hqw⟩ := (dfxTest_iff cfg fit bag q).1 hq
  have hr : ∀ c : Fin classes.length, selectRows y X classes[c] ≠ [] := fun c => selectRows_ne hX (hcl _ (List.getElem_mem _))
  have hsel : ∀ c : Fin classes.length, selectRows y (keepColumns ι X) classes[c] = keepColumns ι (selectRows y X classes[c]) := fun c => Proof.selectRows_map _ _ _ _
  have hsub : ∀ c : Fin classes.length, ∀ row ∈ selectRows y X classes[c], row ∈ X := by
    intro c row h
    unfold selectRows at h
    obtain ⟨t, ht, rfl⟩ := List.mem_map.1 h
    exact (List.of_mem_zip (a := t.1) (b := t.2) (List.mem_filter.1 ht).1).2
  refine ⟨⟨fun d => fit.cuts (ι d), fun i c => accumulate .perBlock cfg.f (fun d => v c (ι d)) i⟩, accumulate .perBlock cfg.f fun d => w (ι d),
    (dfxFit_iff ppf cfg classes y _ hX' _).2 ⟨fun d => by rw [column_keep]; exact hc (ι d), fun c d => v c (ι d), fun c d => by rw [hsel, featureHist_keep]; exact hv c (ι d), rfl⟩,
    (dfxTest_iff cfg _ _ _).2 ⟨fun d => w (ι d), fun d => by rw [featureHist_keep]; exact hw (ι d), rfl⟩, fun p z hp hz => ?_⟩
  refine (closer_columns nm ι hι.1 _ _ _ _ (fun d b => ?_) (fun d' hd' b => ?_) p z hp hz).symm
  · rw [hqw, hT]
    simp only [accumulate_perBlock, and_self, implies_true]
  · obtain ⟨x0, hx0⟩ := const_of_not_varies (hι.2 d' hd')
    obtain ⟨t, ht⟩ := featureHist_const (fit.cuts d') (featureHist_mono (hw d')) d' x0
    refine ⟨blockRep cfg.f t b, fun c => ?_⟩
    rw [hT]
    simp only [accumulate_perBlock]
    rw [Except.ok.inj ((hv c d').symm.trans (ht _ (hr c) fun row h => hx0 _ (List.mem_map.2 ⟨row, hsub c row h, rfl⟩)))]

end

/-! ## EDX -/

theorem avgDist_keep {P P' : Type*} (d : P → P → ℝ) (d' : P' → P' → ℝ) (φ : P' → P) (A B : List P') (h : ∀ u ∈ A, ∀ v ∈ B, d' u v = d (φ u) (φ v)) :
    avgDist d' A B = avgDist d (A.map φ) (B.map φ) := by
  unfold avgDist
  rw [List.length_map, List.length_map, List.map_map]
  congr 1
  refine congrArg List.sum (List.map_congr_left fun u hu => ?_)
  simp only [Function.comp_def, List.map_map]
  exact congrArg List.sum (List.map_congr_left fun v hv => h u hu v hv)

theorem sum_map_const {P : Type*} (A : List P) (c : ℝ) : (A.map fun _ => c).sum = A.length * c := by
  induction A with
  | nil => simp
  | cons a A ih => rw [List.map_cons, List.sum_cons, ih]; push_cast [List.length_cons]; ring

theorem avgDist_shiftBag {P P' : Type*} (d : P → P → ℝ) (d' : P' → P' → ℝ) (φ : P' → P) (c : P' → ℝ) (A B : List P') (hA : A ≠ [])
    (h : ∀ u ∈ A, ∀ v ∈ B, d' u v = d (φ u) (φ v) + c v) :
    avgDist d' A B = avgDist d (A.map φ) (B.map φ) + (B.map c).sum / B.length := by
  have hA' : (A.length : ℝ) ≠ 0 := by simpa using hA
  unfold avgDist
  rw [List.length_map, List.length_map, List.map_map]
  have e : (A.map fun x => (B.map fun y => d' x y).sum).sum = (A.map ((fun x => ((B.map φ).map fun y => d x y).sum) ∘ φ)).sum + A.length * (B.map c).sum := by
    rw [← sum_map_const A, ← List.sum_map_add]
    refine congrArg List.sum (List.map_congr_left fun u hu => ?_)
    simp only [Function.comp_def, List.map_map]
    rw [← List.sum_map_add]
    exact congrArg List.sum (List.map_congr_left fun v hv => h u hu v hv)
  rw [e, add_div, mul_div_mul_left _ _ hA']

/-- When the distances to the bag change by an amount that does not depend on the training example, the losses change by the same amount. -/
theorem energyLoss_shift {P P' : Type*} {n : ℕ} (d : P → P → ℝ) (d' : P' → P' → ℝ) (φ : P' → P) (c : P' → ℝ) (train : Fin (n + 1) → List P') (htrain : ∀ i, train i ≠ []) (test : List P')
    (h : ∀ i j, ∀ u ∈ train i, ∀ v ∈ train j, d' u v = d (φ u) (φ v)) (h' : ∀ i, ∀ u ∈ train i, ∀ v ∈ test, d' u v = d (φ u) (φ v) + c v) (p : Fin (n + 1) → ℝ) (hp : IsPrev p) :
    energyLoss d' train test p = energyLoss d (fun i => (train i).map φ) (test.map φ) p + 2 * ((test.map c).sum / test.length) := by
  unfold energyLoss
  simp only [avgDist_keep d d' φ _ _ (h _ _), avgDist_shiftBag d d' φ c _ _ (htrain _) (h' _), mul_add, Finset.sum_add_distrib, ← Finset.sum_mul, hp.2, one_mul]
  ring

theorem separated_keep {P P' : Type*} {n : ℕ} (d : P → P → ℝ) (d' : P' → P' → ℝ) (φ : P' → P) (train : Fin (n + 1) → List P')
    (h : ∀ i j, ∀ u ∈ train i, ∀ v ∈ train j, d' u v = d (φ u) (φ v)) (hs : Separated d' train) : Separated d fun i => (train i).map φ := by
  intro x hx hne
  have := hs x hx hne
  simpa only [avgDist_keep d d' φ _ _ (h _ _)] using this

/-- EDX with two distances that agree on the training set and differ on the bag by amounts that do not depend on the training example. -/
theorem edx_shift {α P P' : Type} [DecidableEq α] {n : ℕ} (hn : 0 < n) (qp : QPSolver) (hqp : ExactQP qp) (la : LinAlg n) (fuel : ℕ) (d : P → P → ℝ) (hd : ∀ u v, d u v = d v u) (d' : P' → P' → ℝ)
    (hd' : ∀ u v, d' u v = d' v u) (φ : P' → P) (c : P' → ℝ) (classes : Fin (n + 1) → α) (y : List α) (hcl : ∀ i, classes i ∈ y) (X : List P') (hX : y.length = X.length)
    (h : ∀ u ∈ X, ∀ v ∈ X, d' u v = d (φ u) (φ v)) (hsep : Separated d' fun i => ofClass (y.zip X) (classes i)) (bag : List P') (hb : bag ≠ [])
    (h' : ∀ u ∈ X, ∀ v ∈ bag, d' u v = d (φ u) (φ v) + c v) :
    ∃ f f' p, edFit la fuel d' classes y X = some f ∧ edFit la fuel d classes y (X.map φ) = some f' ∧ edPredict qp d' f bag = .ok p ∧ edPredict qp d f' (bag.map φ) = .ok p ∧ IsPrev p := by
  have htrain : ∀ i, ofClass (y.zip X) (classes i) ≠ [] := fun i => selectRows_ne hX (hcl i)
  have hsel : ∀ i, selectRows y (X.map φ) (classes i) = (ofClass (y.zip X) (classes i)).map φ := fun i => Proof.selectRows_map _ _ _ _
  have hsub : ∀ i, ∀ u ∈ ofClass (y.zip X) (classes i), u ∈ X := by
    intro i u hu
    unfold ofClass at hu
    obtain ⟨t, ht, rfl⟩ := List.mem_map.1 hu
    exact (List.of_mem_zip (a := t.1) (b := t.2) (List.mem_filter.1 ht).1).2
  have k : ∀ i j, ∀ u ∈ ofClass (y.zip X) (classes i), ∀ v ∈ ofClass (y.zip X) (classes j), d' u v = d (φ u) (φ v) := fun i j u hu v hv => h u (hsub i u hu) v (hsub j v hv)
  have k' : ∀ i, ∀ u ∈ ofClass (y.zip X) (classes i), ∀ v ∈ bag, d' u v = d (φ u) (φ v) + c v := fun i u hu v hv => h' u (hsub i u hu) v hv
  have hsep' := separated_keep d d' φ _ k hsep
  obtain ⟨par, p, h1, h2, h3, h4⟩ := C28_energy hn qp hqp la d' hd' _ bag htrain hb fuel hsep
  obtain ⟨par', p', h1', h2', h3', h4'⟩ := C28_energy hn qp hqp la d hd (fun i => (ofClass (y.zip X) (classes i)).map φ) (bag.map φ) (fun i => by simpa using htrain i) (by simpa using hb) fuel hsep'
  have hpp : p' = p := by
    refine energy_unique d _ hsep' (bag.map φ) _ _ h3' h3 h4' fun x hx => ?_
    have := h4 x hx
    rw [energyLoss_shift d d' φ c _ htrain bag k k' p h3, energyLoss_shift d d' φ c _ htrain bag k k' x hx] at this
    linarith
  subst hpp
  refine ⟨⟨_, edK d' _, par⟩, ⟨_, edK d _, par'⟩, p', ?_, ?_, h2, h2', h3⟩
  · unfold edFit
    exact congrArg (Option.map _) h1
  · unfold edFit
    simp only [hsel]
    exact congrArg (Option.map _) h1'

theorem sum_keep {nf nf' : ℕ} (ι : Fin nf → Fin nf') (hι : Function.Injective ι) (g : Fin nf' → ℝ) :
    ∑ d, g d = ∑ d, g (ι d) + ∑ d with ∀ j, ι j ≠ d, g d := by
  classical
  rw [← Finset.sum_filter_add_sum_filter_not Finset.univ (fun d => ∀ j, ι j ≠ d), add_comm]
  congr 1
  symm
  refine Finset.sum_of_injOn ι hι.injOn (fun j _ => by simp) (fun d hd hd' => ?_) fun _ _ => rfl
  exfalso
  simp only [Finset.mem_filter, Finset.mem_univ, true_and, not_forall, not_not] at hd
  obtain ⟨j, hj⟩ := hd
  exact hd' ⟨j, by simp, hj⟩

/-- **C151** for EDX with Manhattan distances: the columns in another order, or with columns that do not vary in the training set and have any values in the bag, give the same answer. -/
theorem C151_edx_manhattan {α : Type} [DecidableEq α] {n nf nf' : ℕ} (hn : 0 < n) (qp : QPSolver) (hqp : ExactQP qp) (la : LinAlg n) (fuel : ℕ) (classes : Fin (n + 1) → α) (y : List α) (hcl : ∀ i, classes i ∈ y)
    (X : List (Fin nf' → ℝ)) (hX : y.length = X.length) (ι : Fin nf → Fin nf') (hι : LeavesOutConstants ι X) (hsep : Separated manhattan fun i => ofClass (y.zip X) (classes i)) (bag : List (Fin nf' → ℝ)) (hb : bag ≠ []) :
    ∃ f f' p, edFit la fuel manhattan classes y X = some f ∧ edFit la fuel manhattan classes y (keepColumns ι X) = some f' ∧ edPredict qp manhattan f bag = .ok p
      ∧ edPredict qp manhattan f' (keepColumns ι bag) = .ok p ∧ IsPrev p := by
  have hsymm : ∀ (m : ℕ) (u v : Fin m → ℝ), manhattan u v = manhattan v u := fun m u v => Finset.sum_congr rfl fun i _ => abs_sub_comm _ _
  have hc : ∀ d, (∀ j, ι j ≠ d) → ∃ x0, ∀ u ∈ X, u d = x0 := fun d hd => by
    obtain ⟨x0, h⟩ := const_of_not_varies (hι.2 d hd)
    exact ⟨x0, fun u hu => h _ (List.mem_map.2 ⟨u, hu, rfl⟩)⟩
  choose! x0 hx0 using hc
  refine edx_shift hn qp hqp la fuel manhattan (hsymm _) manhattan (hsymm _) (fun r d => r (ι d)) (fun v => ∑ d with ∀ j, ι j ≠ d, |x0 d - v d|) classes y hcl X hX (fun u hu v hv => ?_) hsep bag hb fun u hu v _ => ?_
  · unfold manhattan
    rw [sum_keep ι hι.1]
    refine add_eq_left.2 (Finset.sum_eq_zero fun d hd => ?_)
    rw [hx0 d (by simpa using hd) u hu, hx0 d (by simpa using hd) v hv, sub_self, abs_zero]
  · unfold manhattan
    rw [sum_keep ι hι.1]
    exact congrArg _ (Finset.sum_congr rfl fun d hd => by rw [hx0 d (by simpa using hd) u hu])

/-- **C151** for EDX with Euclidean distances: the constant columns must have the same value in the bag. -/
theorem C151_edx_euclidean_partial {α : Type} [DecidableEq α] {n nf nf' : ℕ} (hn : 0 < n) (qp : QPSolver) (hqp : ExactQP qp) (la : LinAlg n) (fuel : ℕ) (classes : Fin (n + 1) → α) (y : List α) (hcl : ∀ i, classes i ∈ y)
    (X : List (Fin nf' → ℝ)) (hX : y.length = X.length) (bag : List (Fin nf' → ℝ)) (hb : bag ≠ []) (ι : Fin nf → Fin nf') (hι : LeavesOutConstants ι (X ++ bag))
    (hsep : Separated euclidean fun i => ofClass (y.zip X) (classes i)) :
    ∃ f f' p, edFit la fuel euclidean classes y X = some f ∧ edFit la fuel euclidean classes y (keepColumns ι X) = some f' ∧ edPredict qp euclidean f bag = .ok p
      ∧ edPredict qp euclidean f' (keepColumns ι bag) = .ok p ∧ IsPrev p := by
  have hsymm : ∀ (m : ℕ) (u v : Fin m → ℝ), euclidean u v = euclidean v u := fun m u v => congrArg Real.sqrt (Finset.sum_congr rfl fun i _ => by ring)
  have key : ∀ u ∈ X ++ bag, ∀ v ∈ X ++ bag, euclidean u v = euclidean (fun d => u (ι d)) (fun d => v (ι d)) := by
    intro u hu v hv
    unfold euclidean
    rw [sum_keep ι hι.1]
    refine congrArg Real.sqrt (add_eq_left.2 (Finset.sum_eq_zero fun d hd => ?_))
    obtain ⟨x0, h⟩ := const_of_not_varies (hι.2 d (by simpa using hd))
    rw [h _ (List.mem_map.2 ⟨u, hu, rfl⟩), h _ (List.mem_map.2 ⟨v, hv, rfl⟩)]
    ring
  exact edx_shift hn qp hqp la fuel euclidean (hsymm _) euclidean (hsymm _) (fun r d => r (ι d)) (fun _ => 0) classes y hcl X hX (fun u hu v hv => key u (by simp [hu]) v (by simp [hv])) hsep bag hb
    fun u hu v hv => by rw [key u (by simp [hu]) v (by simp [hv]), add_zero]

/-- Two classes with one example each, at distance `D`, and a bag with one example, at distances `a` and `b` from them. -/
theorem edx_two_points {P : Type} (qp : QPSolver) (hqp : ExactQP qp) (la : LinAlg 1) (fuel : ℕ) (d : P → P → ℝ) (hd : ∀ u v, d u v = d v u) (h0 : ∀ u, d u u = 0) (u v w : P) (D a b : ℝ) (hD : 0 < D) (huv : d u v = D)
    (ha : d u w = a) (hb : d v w = b) (h1 : a - b ≤ D) (h2 : b - a ≤ D) :
    ∃ f : EDFit P 1, edFit la fuel d ![(1 : ℤ), 2] [1, 2] [u, v] = some f ∧ edPredict qp d f [w] = .ok ![(D - a + b) / (2 * D), (D + a - b) / (2 * D)] := by
  let train : Fin 2 → List P := ![[u], [v]]
  have hsel : (fun i => selectRows [(1 : ℤ), 2] [u, v] (![(1 : ℤ), 2] i)) = train := by
    funext i
    fin_cases i <;> rfl
  have hsep : Separated (n := 1) d train := by
    intro c hc hne
    rw [Fin.sum_univ_two] at hc
    have hc0 : c 0 ≠ 0 := fun h => hne (funext fun i => by fin_cases i <;> simp [h] <;> linarith)
    have hp : 0 < c 0 ^ 2 := by positivity
    simp only [Fin.sum_univ_two, avgDist, train]
    simp [h0, hd v u, huv]
    rw [show c 1 = -c 0 by linarith]
    nlinarith [mul_pos hp hD]
  obtain ⟨par, p, k1, k2, k3, k4⟩ := C28_energy (by norm_num) qp hqp la d hd train [w] (fun i => by fin_cases i <;> simp [train]) (by simp) fuel hsep
  refine ⟨⟨train, edK d train, par⟩, ?_, ?_⟩
  · unfold edFit
    dsimp only
    rw [hsel]
    exact congrArg (Option.map _) k1
  · refine k2.trans (congrArg Except.ok ?_)
    have hl : ∀ x : Fin 2 → ℝ, energyLoss (n := 1) d train [w] x = 2 * (x 0 * a + x 1 * b) - 2 * x 0 * x 1 * D := by
      intro x
      simp only [energyLoss, Fin.sum_univ_two, avgDist, train]
      simp [h0, hd v u, huv, ha, hb]
      ring
    have hcand := k4 ![(D - a + b) / (2 * D), (D + a - b) / (2 * D)] ⟨fun i => by
      fin_cases i <;> simp <;> refine div_nonneg (by linarith) (by linarith), by
        rw [Fin.sum_univ_two]
        simp
        field_simp
        ring⟩
    rw [hl, hl] at hcand
    have h5 := k3.2
    rw [Fin.sum_univ_two] at h5
    have e1 : p 1 = 1 - p 0 := by linarith
    simp only [Matrix.cons_val_zero, Matrix.cons_val_one] at hcand
    rw [e1] at hcand
    have key : 2 * (p 0 * a + (1 - p 0) * b) - 2 * p 0 * (1 - p 0) * D
        - (2 * ((D - a + b) / (2 * D) * a + (D + a - b) / (2 * D) * b) - 2 * ((D - a + b) / (2 * D)) * ((D + a - b) / (2 * D)) * D) = 2 * D * (p 0 - (D - a + b) / (2 * D)) ^ 2 := by
      field_simp
      ring
    have h6 : (p 0 - (D - a + b) / (2 * D)) ^ 2 ≤ 0 := by
      by_contra hc
      nlinarith [mul_pos hD (not_le.1 hc)]
    have e0 : p 0 = (D - a + b) / (2 * D) := sub_eq_zero.1 (pow_eq_zero_iff (two_ne_zero) |>.1 (le_antisymm h6 (sq_nonneg _)))
    funext i
    fin_cases i
    · simpa using e0
    · simp [e1, e0]
      field_simp
      ring

/-- **C151** is false for EDX with Euclidean distances: a column that is constant in the training set changes the answer when it has another value in the bag, here from 0 and 1 to 1/4 and 3/4. -/
theorem C151_edx_euclidean_refuted (qp : QPSolver) (hqp : ExactQP qp) (la : LinAlg 1) (fuel : ℕ) :
    ∃ (X bag : List (Fin 2 → ℝ)) (ι : Fin 1 → Fin 2) (f : EDFit (Fin 2 → ℝ) 1) (f' : EDFit (Fin 1 → ℝ) 1), LeavesOutConstants ι X
      ∧ edFit la fuel euclidean ![(1 : ℤ), 2] [1, 2] X = some f ∧ edFit la fuel euclidean ![(1 : ℤ), 2] [1, 2] (keepColumns ι X) = some f'
      ∧ edPredict qp euclidean f bag = .ok ![1/4, 3/4] ∧ edPredict qp euclidean f' (keepColumns ι bag) = .ok ![0, 1] := by
  have hsymm : ∀ (m : ℕ) (u v : Fin m → ℝ), euclidean u v = euclidean v u := fun m u v => congrArg Real.sqrt (Finset.sum_congr rfl fun i _ => by ring)
  have hself : ∀ (m : ℕ) (u : Fin m → ℝ), euclidean u u = 0 := fun m u => by simp [euclidean]
  obtain ⟨f, h1, h2⟩ := edx_two_points qp hqp la fuel euclidean (hsymm 2) (hself 2) ![0, 0] ![1, 0] ![1, 3/4] 1 (5/4) (3/4) one_pos (by simp [euclidean, Fin.sum_univ_two])
    (by rw [euclidean, Fin.sum_univ_two, show ((![0, 0] : Fin 2 → ℝ) 0 - (![1, 3/4] : Fin 2 → ℝ) 0) ^ 2 + ((![0, 0] : Fin 2 → ℝ) 1 - (![1, 3/4] : Fin 2 → ℝ) 1) ^ 2 = (5/4) ^ 2 by norm_num [Matrix.cons_val_zero, Matrix.cons_val_one]]; exact Real.sqrt_sq (by norm_num))
    (by rw [euclidean, Fin.sum_univ_two, show ((![1, 0] : Fin 2 → ℝ) 0 - (![1, 3/4] : Fin 2 → ℝ) 0) ^ 2 + ((![1, 0] : Fin 2 → ℝ) 1 - (![1, 3/4] : Fin 2 → ℝ) 1) ^ 2 = (3/4) ^ 2 by norm_num [Matrix.cons_val_zero, Matrix.cons_val_one]]; exact Real.sqrt_sq (by norm_num))
    (by norm_num) (by norm_num)
  obtain ⟨f', h1', h2'⟩ := edx_two_points qp hqp la fuel euclidean (hsymm 1) (hself 1) (fun _ => 0) (fun _ => 1) (fun _ => 1) 1 1 0 one_pos (by simp [euclidean]) (by simp [euclidean]) (by simp [euclidean]) (by norm_num) (by norm_num)
  have e : ∀ a b : ℝ, (fun d : Fin 1 => (![a, b] : Fin 2 → ℝ) ((fun _ => 0 : Fin 1 → Fin 2) d)) = fun _ => a := fun a b => rfl
  refine ⟨[![0, 0], ![1, 0]], [![1, 3/4]], fun _ => 0, f, f', ⟨fun i j _ => Subsingleton.elim i j, fun d hd => ?_⟩, h1, ?_, ?_, ?_⟩
  · have : d = 1 := by
      have := hd 0
      fin_cases d <;> simp_all
    subst this
    rintro ⟨a, ha, b, hb, hne⟩
    simp at ha hb
    exact hne (ha.trans hb.symm)
  · simpa [keepColumns, e] using h1'
  · convert h2 using 3 <;> norm_num
  · simp only [keepColumns, List.map_cons, List.map_nil, e]
    convert h2' using 3 <;> norm_num

/-! ### Cases -/

/-- Two columns swapped. -/
example (X : List (Fin 2 → ℝ)) : LeavesOutConstants (![1, 0] : Fin 2 → Fin 2) X :=
  ⟨fun i j h => by fin_cases i <;> fin_cases j <;> simp_all, fun d hd => by
    fin_cases d
    · exact absurd rfl (hd 1)
    · exact absurd rfl (hd 0)⟩

/-- A training set and a bag for `C151_dfx`, where the second column is constant in the training set only. -/
example (ppf : ℝ → EReal) : ∃ fit q, dfxFit ppf ⟨.pdf, 4, .equalWidth⟩ [(1 : ℤ), 2] [1, 2] [![0, 7], ![(1 : ℝ), 7]] = .ok fit ∧ dfxTest ⟨.pdf, 4, .equalWidth⟩ fit [![1, 8]] = .ok q
    ∧ LeavesOutConstants (fun _ : Fin 1 => (0 : Fin 2)) [![0, 7], ![(1 : ℝ), 7]] := by
  choose cuts h1 h2 using fun d : Fin 2 => equalWidth_ok ppf ([![0, 7], ![(1 : ℝ), 7]].map fun row => row d) [(1 : ℤ), 2] [1, 2] (n := 4) (by norm_num) (by simp)
  have hm : ∀ d, ∀ i : Fin 4, cuts d i.castSucc ≤ cuts d i.succ := fun d i => h2 d i.castSucc_lt_succ.le
  choose v hv using fun (c : Fin 2) (d : Fin 2) => featureHist_ok (cuts d) (hm d) d (selectRows [(1 : ℤ), 2] [![0, 7], ![(1 : ℝ), 7]] [(1 : ℤ), 2][c])
  choose w hw using fun (d : Fin 2) => featureHist_ok (cuts d) (hm d) d [![(1 : ℝ), 8]]
  refine ⟨⟨cuts, _⟩, _, (dfxFit_iff ppf ⟨.pdf, 4, .equalWidth⟩ [(1 : ℤ), 2] [1, 2] _ rfl _).2 ⟨h1, v, hv, rfl⟩, (dfxTest_iff ⟨.pdf, 4, .equalWidth⟩ _ _ _).2 ⟨w, hw, rfl⟩,
    fun i j _ => Subsingleton.elim i j, fun d hd => ?_⟩
  have : d = 1 := by
    have := hd 0
    fin_cases d <;> simp_all
  subst this
  rintro ⟨a, ha, b, hb, h⟩
  simp at ha hb
  exact h (ha.trans hb.symm)

end Verif.Props
