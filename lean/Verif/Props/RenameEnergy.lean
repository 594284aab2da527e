import Verif.Props.Rename

/-!
# C138 for the methods based on the energy distance
-/

namespace Verif.Props

open Verif.Model Verif.Spec Verif.Proof

/-- Separated classes leave one closest mixture. -/
theorem energy_unique {P : Type*} {n : ℕ} (d : P → P → ℝ) (train : Fin (n + 1) → List P) (hsep : Separated d train) (test : List P) (p q : Fin (n + 1) → ℝ) (hp : IsPrev p) (hq : IsPrev q)
    (h : ∀ x, IsPrev x → energyLoss d train test p ≤ energyLoss d train test x) (h' : ∀ x, IsPrev x → energyLoss d train test q ≤ energyLoss d train test x) : p = q := by
  by_contra hne
  have hm : IsPrev fun j => (p j + q j) / 2 := ⟨fun j => by have := hp.1 j; have := hq.1 j; positivity, by rw [← Finset.sum_div, Finset.sum_add_distrib, hp.2, hq.2]; norm_num⟩
  have e1 := h _ hm
  have e2 := h' _ hm
  have hs := hsep (fun i => p i - q i) (by rw [Finset.sum_sub_distrib, hp.2, hq.2, sub_self]) fun h => hne (funext fun i => sub_eq_zero.1 (congrFun h i))
  have key : energyLoss d train test p + energyLoss d train test q - 2 * energyLoss d train test (fun j => (p j + q j) / 2) = -(1/2) * ∑ i, ∑ j, (p i - q i) * (p j - q j) * avgDist d (train i) (train j) := by
    unfold energyLoss
    simp only [Finset.mul_sum, ← Finset.sum_add_distrib, ← Finset.sum_sub_distrib]
    refine Finset.sum_congr rfl fun i _ => ?_
    have : ∀ a b c D E F : ℝ, 2 * a - D + (2 * b - E) - 2 * (2 * c - F) = (2 * a + 2 * b - 4 * c) - (D + E - 2 * F) := fun a b c D E F => by ring
    rw [this, show 2 * (p i * avgDist d (train i) test) + 2 * (q i * avgDist d (train i) test) - 4 * ((p i + q i) / 2 * avgDist d (train i) test) = 0 by ring, zero_sub, Finset.mul_sum, ← Finset.sum_add_distrib,
      ← Finset.sum_sub_distrib, ← Finset.sum_neg_distrib]
    exact Finset.sum_congr rfl fun j _ => by ring
  linarith

theorem avgDist_map {P P' : Type*} (d : P → P → ℝ) (d' : P' → P' → ℝ) (φ : P → P') (hφ : ∀ u v, d' (φ u) (φ v) = d u v) (A B : List P) : avgDist d' (A.map φ) (B.map φ) = avgDist d A B := by
  unfold avgDist
  simp only [List.map_map, List.length_map, Function.comp_def, hφ]

/-- Listing the classes in another order permutes the closest prevalences. -/
theorem energyLoss_perm {P P' : Type*} {n : ℕ} (d : P → P → ℝ) (d' : P' → P' → ℝ) (φ : P → P') (hφ : ∀ u v, d' (φ u) (φ v) = d u v) (train : Fin (n + 1) → List P) (train' : Fin (n + 1) → List P')
    (e : Fin (n + 1) ≃ Fin (n + 1)) (he : ∀ i, train' (e i) = (train i).map φ) (test : List P) (p : Fin (n + 1) → ℝ) : energyLoss d' train' (test.map φ) p = energyLoss d train test (p ∘ e) := by
  unfold energyLoss
  congr 1
  · congr 1
    rw [← Equiv.sum_comp e]
    refine Finset.sum_congr rfl fun i _ => ?_
    rw [he, avgDist_map d d' φ hφ, Function.comp_apply]
  · rw [← Equiv.sum_comp e]
    refine Finset.sum_congr rfl fun i _ => ?_
    rw [← Equiv.sum_comp e]
    refine Finset.sum_congr rfl fun j _ => ?_
    rw [he, he, avgDist_map d d' φ hφ, Function.comp_apply, Function.comp_apply]

theorem separated_perm {P P' : Type*} {n : ℕ} (d : P → P → ℝ) (d' : P' → P' → ℝ) (φ : P → P') (hφ : ∀ u v, d' (φ u) (φ v) = d u v) (train : Fin (n + 1) → List P) (train' : Fin (n + 1) → List P')
    (e : Fin (n + 1) ≃ Fin (n + 1)) (he : ∀ i, train' (e i) = (train i).map φ) (h : Separated d train) : Separated d' train' := by
  intro c hc hne
  have := h (c ∘ e) ((Equiv.sum_comp e c).trans hc) fun h => hne (funext fun i => by simpa using congrFun h (e.symm i))
  refine lt_of_eq_of_lt ?_ this
  rw [← Equiv.sum_comp e]
  refine Finset.sum_congr rfl fun i _ => ?_
  rw [← Equiv.sum_comp e]
  refine Finset.sum_congr rfl fun j _ => ?_
  rw [he, he, avgDist_map d d' φ hφ, Function.comp_apply, Function.comp_apply]

/-- The prevalences found for a permuted problem. -/
theorem ed_perm {P P' α β : Type*} [DecidableEq α] [DecidableEq β] {n : ℕ} (hn : 0 < n) (qp qp' : QPSolver) (hqp : ExactQP qp) (hqp' : ExactQP qp') (la la' : LinAlg n) (fuel fuel' : ℕ) (d : P → P → ℝ) (hd : ∀ u v, d u v = d v u)
    (d' : P' → P' → ℝ) (hd' : ∀ u v, d' u v = d' v u) (φ : P → P') (hφ : ∀ u v, d' (φ u) (φ v) = d u v) (classes : Fin (n + 1) → α) (classes' : Fin (n + 1) → β) (e : Fin (n + 1) ≃ Fin (n + 1))
    (y : List α) (y' : List β) (rows : List P) (rows' : List P') (hlen : y.length = rows.length) (hcl : ∀ i, classes i ∈ y)
    (he : ∀ i, ofClass (y'.zip rows') (classes' (e i)) = (ofClass (y.zip rows) (classes i)).map φ)
    (hsep : Separated d fun i => ofClass (y.zip rows) (classes i)) (test : List P) (hne : test ≠ []) :
    ∃ f p f', edFit la fuel d classes y rows = some f ∧ edPredict qp d f test = .ok p ∧ IsPrev p
      ∧ edFit la' fuel' d' classes' y' rows' = some f' ∧ edPredict qp' d' f' (test.map φ) = .ok (p ∘ e.symm) := by
  have htrain : ∀ i, ofClass (y.zip rows) (classes i) ≠ [] := fun i => selectRows_ne hlen (hcl i)
  have htrain' : ∀ i, ofClass (y'.zip rows') (classes' i) ≠ [] := fun i => by
    have := he (e.symm i)
    rw [e.apply_symm_apply] at this
    rw [this]
    simpa using htrain (e.symm i)
  have hsep' := separated_perm d d' φ hφ _ (fun i => ofClass (y'.zip rows') (classes' i)) e he hsep
  obtain ⟨par, p, h1, h2, h3, h4⟩ := C28_energy hn qp hqp la d hd _ test htrain hne fuel hsep
  obtain ⟨par', p', h1', h2', h3', h4'⟩ := C28_energy hn qp' hqp' la' d' hd' _ (test.map φ) htrain' (by simpa using hne) fuel' hsep'
  have hpp : p' = p ∘ e.symm := by
    have : p' ∘ e = p := by
      refine energy_unique d _ hsep test _ _ ⟨fun i => h3'.1 _, (Equiv.sum_comp e p').trans h3'.2⟩ h3 (fun x hx => ?_) h4
      have := h4' (x ∘ e.symm) ⟨fun i => hx.1 _, (Equiv.sum_comp e.symm x).trans hx.2⟩
      rw [energyLoss_perm d d' φ hφ _ _ e he, energyLoss_perm d d' φ hφ _ _ e he] at this
      simpa [Function.comp_assoc] using this
    rw [← this]
    funext i
    simp
  subst hpp
  refine ⟨⟨_, edK d _, par⟩, p, ⟨_, edK d' _, par'⟩, ?_, h2, h3, ?_, h2'⟩
  · unfold edFit
    exact congrArg (Option.map _) h1
  · unfold edFit
    exact congrArg (Option.map _) h1'

theorem ofClass_rename {α β V W : Type*} [DecidableEq α] [DecidableEq β] {g : α → β} (hg : Function.Injective g) (y : List α) (P : List V) (φ : V → W) (a : α) :
    ofClass ((y.map g).zip (P.map φ)) (g a) = (ofClass (y.zip P) a).map φ := by
  unfold ofClass
  rw [List.zip_map, List.filter_map, List.map_map, List.map_map]
  congr 1
  refine List.filter_congr fun t _ => ?_
  simp [hg.eq_iff]

section
variable {α β : Type} [LinearOrder α] [LinearOrder β] {n : ℕ} (g : α → β) (hg : Function.Injective g) (y : List α) (hk : (labelsOf y).length = n + 1) (hk' : (labelsOf (y.map g)).length = n + 1)

/-- Where each class goes, for a known number of classes. -/
theorem exists_perm' (hg : Function.Injective g) : ∃ e : Fin (n + 1) ≃ Fin (n + 1), (∀ i, (labelsOf (y.map g))[Fin.cast hk'.symm (e i)] = g (labelsOf y)[Fin.cast hk.symm i])
    ∧ ∀ {V : Type} (v v' : Fin (n + 1) → V), (SameByClass g y (fun i => v (Fin.cast hk i)) (fun j => v' (Fin.cast hk' j)) ↔ v' = v ∘ e.symm) := by
  obtain ⟨e, he⟩ := exists_perm g y hg
  refine ⟨(finCongr hk).symm.trans (e.trans (finCongr hk')), fun i => ?_, fun v v' => ?_⟩
  · exact he (Fin.cast hk.symm i)
  · rw [sameByClass_iff he]
    constructor
    · intro h
      funext j
      exact congrFun h (Fin.cast hk'.symm j)
    · intro h
      subst h
      rfl

end

section
variable {σ σ' D α β : Type} [LinearOrder α] [LinearOrder β] {n : ℕ} (enc : Bool → α) (enc' : Bool → β) (w : World σ D α) (w' : World σ' D β) (et et' eu eu' : Option ℕ) (X Xt X' Xt' : List D)
  (g : α → β) (hg : Function.Injective g) (y : List α) (hy : y ≠ []) (r : ℕ) (hr : 0 < r) (hk : (labelsOf y).length = n + 1) (hk' : (labelsOf (y.map g)).length = n + 1)
include hg hy hr

/-- **C138** for EDy, with two classes or more, separated by the energy distance, and any distance that does not depend on the order of the columns. -/
theorem C138_edy (ops : EstOps σ D α (n + 1)) (ops' : EstOps σ' D β (n + 1)) (hn : 0 < n) (qp : QPSolver) (hqp : ExactQP qp) (la : LinAlg n) (fuel : ℕ) (d : (Fin (n + 1) → ℝ) → (Fin (n + 1) → ℝ) → ℝ)
    (hd : ∀ u v, d u v = d v u) (hcol : ∀ (e : Equiv.Perm (Fin (n + 1))) u v, d (u ∘ e) (v ∘ e) = d u v) (P Q : List (Fin (n + 1) → ℝ)) (hP : P.length = r * y.length) (hQ : Q ≠ [])
    (hsep : Separated d fun i => ofClass ((stacked y r).zip P) (labelsOf y)[Fin.cast hk.symm i]) (P' Q' : List (Fin (n + 1) → ℝ))
    (hP' : List.Forall₂ (fun v v' => SameByClass g y (fun i => v (Fin.cast hk i)) (fun j => v' (Fin.cast hk' j))) P P') (hQ' : List.Forall₂ (fun v v' => SameByClass g y (fun i => v (Fin.cast hk i)) (fun j => v' (Fin.cast hk' j))) Q Q') :
    ∃ x x', ucRun ops enc w ⟨edyClass qp la fuel d, et, et'⟩ X y (some (.probs P)) Xt (some (.probs Q)) = .ok (some (realList x)) ∧ IsPrev x
      ∧ ucRun ops' enc' w' ⟨edyClass qp la fuel d, eu, eu'⟩ X' (y.map g) (some (.probs P')) Xt' (some (.probs Q')) = .ok (some (realList x'))
      ∧ SameByClass g y (fun i => x (Fin.cast hk i)) (fun j => x' (Fin.cast hk' j)) := by
  obtain ⟨e, he, hsame⟩ := exists_perm' (n := n) g y hk hk' hg
  have hrows : ∀ {P P' : List (Fin (n + 1) → ℝ)}, List.Forall₂ (fun v v' => SameByClass g y (fun i => v (Fin.cast hk i)) (fun j => v' (Fin.cast hk' j))) P P' → P' = P.map fun v => v ∘ e.symm := by
    intro P P' h
    induction h with
    | nil => rfl
    | cons h _ ih => rw [List.map_cons, ← ih, (hsame _ _).1 h]
  obtain rfl := hrows hP'
  obtain rfl := hrows hQ'
  have hl : (stacked y r).length = P.length := by rw [stacked_length, hP]
  have hl' : (stacked (y.map g) r).length = (P.map fun v => v ∘ e.symm).length := by rw [stacked_length, List.length_map, List.length_map, hP]
  have hmem : ∀ i : Fin (n + 1), (labelsOf y)[Fin.cast hk.symm i] ∈ stacked y r := fun i => stacked_mem y r hr _ ((mem_labelsOf y _).1 (List.getElem_mem _))
  obtain ⟨f, p, f', h1, h2, h3, h1', h2'⟩ := ed_perm hn qp qp hqp hqp la la fuel fuel d hd d hd (fun v => v ∘ e.symm) (fun u v => hcol e.symm u v) (fun i => (labelsOf y)[Fin.cast hk.symm i])
    (fun i => (labelsOf (y.map g))[Fin.cast hk'.symm i]) e (stacked y r) (stacked (y.map g) r) P (P.map fun v => v ∘ e.symm) hl hmem (fun i => by rw [he, stacked_map, ofClass_rename hg]) hsep Q hQ
  refine ⟨p, p ∘ e.symm, ?_, h3, ?_, (hsame _ _).2 rfl⟩
  · rw [ucRun_given_probs ops enc w X Xt y (edyClass qp la fuel d) rfl rfl et et' hy r P _ hP]
    have h1' : edFit la fuel d (fun i => (npUnique y)[Fin.cast (show n + 1 = (npUnique y).length from hk.symm) i]) (stacked y r) P = some f := h1
    simp only [answerOn, learnAnswer, fittedState, edyClass, trainData, probRows, columnsAre, if_true, bind, Except.bind, keep, hl, ne_eq, not_true_eq_false, if_false]
    rw [dif_pos (show (npUnique y).length = n + 1 from hk)]
    simp only [h1', h2, Except.map]
  · rw [ucRun_given_probs ops' enc' w' X' Xt' (y.map g) (edyClass qp la fuel d) rfl rfl eu eu' (by simpa using hy) r _ _ (by rw [List.length_map, List.length_map, hP])]
    have h1'' : edFit la fuel d (fun i => (npUnique (y.map g))[Fin.cast (show n + 1 = (npUnique (y.map g)).length from hk'.symm) i]) (stacked (y.map g) r) (P.map fun v => v ∘ e.symm) = some f' := h1'
    simp only [answerOn, learnAnswer, fittedState, edyClass, trainData, probRows, columnsAre, if_true, bind, Except.bind, keep, hl', ne_eq, not_true_eq_false, if_false]
    rw [dif_pos (show (npUnique (y.map g)).length = n + 1 from hk')]
    simp only [h1'', h2', Except.map]

/-- **C138** for CvMy, with classes whose ranks are separated. -/
theorem C138_cvmy (ops : EstOps σ D α (n + 1)) (ops' : EstOps σ' D β (n + 1)) (hn : 0 < n) (qp : QPSolver) (hqp : ExactQP qp) (la : LinAlg n) (fuel : ℕ) (d : (Fin (n + 1) → ℝ) → (Fin (n + 1) → ℝ) → ℝ)
    (hd : ∀ u v, d u v = d v u) (hcol : ∀ (e : Equiv.Perm (Fin (n + 1))) u v, d (u ∘ e) (v ∘ e) = d u v) (P Q : List (Fin (n + 1) → ℝ)) (hP : P.length = r * y.length) (hQ : Q ≠ [])
    (hsep : Separated d fun i => (ofClass ((stacked y r).zip P) (labelsOf y)[Fin.cast hk.symm i]).map (rankRow (P ++ Q))) (P' Q' : List (Fin (n + 1) → ℝ))
    (hP' : List.Forall₂ (fun v v' => SameByClass g y (fun i => v (Fin.cast hk i)) (fun j => v' (Fin.cast hk' j))) P P') (hQ' : List.Forall₂ (fun v v' => SameByClass g y (fun i => v (Fin.cast hk i)) (fun j => v' (Fin.cast hk' j))) Q Q') :
    ∃ x x', ucRun ops enc w ⟨cvmyClass qp la fuel d, et, et'⟩ X y (some (.probs P)) Xt (some (.probs Q)) = .ok (some (realList x)) ∧ IsPrev x
      ∧ ucRun ops' enc' w' ⟨cvmyClass qp la fuel d, eu, eu'⟩ X' (y.map g) (some (.probs P')) Xt' (some (.probs Q')) = .ok (some (realList x'))
      ∧ SameByClass g y (fun i => x (Fin.cast hk i)) (fun j => x' (Fin.cast hk' j)) := by
  obtain ⟨e, he, hsame⟩ := exists_perm' (n := n) g y hk hk' hg
  have hrows : ∀ {P P' : List (Fin (n + 1) → ℝ)}, List.Forall₂ (fun v v' => SameByClass g y (fun i => v (Fin.cast hk i)) (fun j => v' (Fin.cast hk' j))) P P' → P' = P.map fun v => v ∘ e.symm := by
    intro P P' h
    induction h with
    | nil => rfl
    | cons h _ ih => rw [List.map_cons, ← ih, (hsame _ _).1 h]
  obtain rfl := hrows hP'
  obtain rfl := hrows hQ'
  have hl : (stacked y r).length = P.length := by rw [stacked_length, hP]
  have hl' : (stacked (y.map g) r).length = (P.map fun v => v ∘ e.symm).length := by rw [stacked_length, List.length_map, List.length_map, hP]
  have hmem : ∀ i : Fin (n + 1), (labelsOf y)[Fin.cast hk.symm i] ∈ stacked y r := fun i => stacked_mem y r hr _ ((mem_labelsOf y _).1 (List.getElem_mem _))
  have hmap : ∀ c, ofClass ((stacked y r).zip (P.map (rankRow (P ++ Q)))) c = (ofClass ((stacked y r).zip P) c).map (rankRow (P ++ Q)) := fun c => classRows_map _ _ _ _
  have hrank : ∀ v : Fin (n + 1) → ℝ, rankRow ((P.map fun v => v ∘ e.symm) ++ Q.map fun v => v ∘ e.symm) (v ∘ e.symm) = rankRow (P ++ Q) v ∘ e.symm := by
    intro v
    funext i
    unfold rankRow
    rw [← List.map_append, List.map_map]
    rfl
  have hrankmap : ∀ L : List (Fin (n + 1) → ℝ), (L.map fun v => v ∘ e.symm).map (rankRow ((P.map fun v => v ∘ e.symm) ++ Q.map fun v => v ∘ e.symm)) = (L.map (rankRow (P ++ Q))).map fun v => v ∘ e.symm := by
    intro L
    rw [List.map_map, List.map_map]
    exact List.map_congr_left fun v _ => hrank v
  obtain ⟨f, p, f', h1, h2, h3, h1', h2'⟩ := ed_perm hn qp qp hqp hqp la la fuel fuel d hd d hd (fun v => v ∘ e.symm) (fun u v => hcol e.symm u v) (fun i => (labelsOf y)[Fin.cast hk.symm i])
    (fun i => (labelsOf (y.map g))[Fin.cast hk'.symm i]) e (stacked y r) (stacked (y.map g) r) (P.map (rankRow (P ++ Q))) ((P.map (rankRow (P ++ Q))).map fun v => v ∘ e.symm) (by rw [hl, List.length_map]) hmem
    (fun i => by rw [he, stacked_map, ofClass_rename hg]) (by simp only [hmap]; exact hsep) (Q.map (rankRow (P ++ Q))) (by simpa using hQ)
  refine ⟨p, p ∘ e.symm, ?_, h3, ?_, (hsame _ _).2 rfl⟩
  · rw [ucRun_given_probs ops enc w X Xt y (cvmyClass qp la fuel d) rfl rfl et et' hy r P _ hP]
    have h4 : cvmPredict la fuel qp d (fun i : Fin (n + 1) => (labelsOf y)[Fin.cast hk.symm i]) (stacked y r) P Q = some (.ok p) := by
      unfold cvmPredict
      simp only [h1, Option.map_some, h2]
    simp only [answerOn, learnAnswer, fittedState, cvmyClass, trainData, probRows, columnsAre, if_true, bind, Except.bind, keep, hl, ne_eq, not_true_eq_false, if_false, Option.getD_some]
    rw [dif_pos hk]
    simp only [h4, Except.map]
  · rw [ucRun_given_probs ops' enc' w' X' Xt' (y.map g) (cvmyClass qp la fuel d) rfl rfl eu eu' (by simpa using hy) r _ _ (by rw [List.length_map, List.length_map, hP])]
    have h4 : cvmPredict la fuel qp d (fun i : Fin (n + 1) => (labelsOf (y.map g))[Fin.cast hk'.symm i]) (stacked (y.map g) r) (P.map fun v => v ∘ e.symm) (Q.map fun v => v ∘ e.symm) = some (.ok (p ∘ e.symm)) := by
      unfold cvmPredict
      simp only [hrankmap, h1', Option.map_some, h2']
    simp only [answerOn, learnAnswer, fittedState, cvmyClass, trainData, probRows, columnsAre, if_true, bind, Except.bind, keep, hl', ne_eq, not_true_eq_false, if_false, Option.getD_some]
    rw [dif_pos hk']
    simp only [h4, Except.map]

end

/-- **C138** for EDX, which compares the examples and not predictions. -/
theorem C138_edx {α β V : Type} [LinearOrder α] [LinearOrder β] {n : ℕ} (g : α → β) (hg : Function.Injective g) (y : List α) (hk : (labelsOf y).length = n + 1) (hk' : (labelsOf (y.map g)).length = n + 1)
    (hn : 0 < n) (qp : QPSolver) (hqp : ExactQP qp) (la : LinAlg n) (fuel : ℕ) (d : V → V → ℝ) (hd : ∀ u v, d u v = d v u) (X Xt : List V) (hX : y.length = X.length) (hXt : Xt ≠ [])
    (hsep : Separated d fun i => ofClass (y.zip X) (labelsOf y)[Fin.cast hk.symm i]) :
    ∃ f f' x x', edFit la fuel d (fun i => (labelsOf y)[Fin.cast hk.symm i]) y X = some f ∧ edPredict qp d f Xt = .ok x ∧ IsPrev x
      ∧ edFit la fuel d (fun i => (labelsOf (y.map g))[Fin.cast hk'.symm i]) (y.map g) X = some f' ∧ edPredict qp d f' Xt = .ok x'
      ∧ SameByClass g y (fun i => x (Fin.cast hk i)) (fun j => x' (Fin.cast hk' j)) := by
  obtain ⟨e, he, hsame⟩ := exists_perm' (n := n) g y hk hk' hg
  obtain ⟨f, p, f', h1, h2, h3, h1', h2'⟩ := ed_perm hn qp qp hqp hqp la la fuel fuel d hd d hd id (fun u v => rfl) (fun i => (labelsOf y)[Fin.cast hk.symm i])
    (fun i => (labelsOf (y.map g))[Fin.cast hk'.symm i]) e y (y.map g) X X hX (fun i => (mem_labelsOf y _).1 (List.getElem_mem _))
    (fun i => by
      have := ofClass_rename hg y X id (labelsOf y)[Fin.cast hk.symm i]
      rw [List.map_id] at this
      rw [he, this]) hsep Xt hXt
  rw [List.map_id] at h2'
  exact ⟨f, f', p, p ∘ e.symm, h1, h2, h3, h1', h2', (hsame _ _).2 rfl⟩

/-- The distances of scikit-learn do not depend on the order of the columns. -/
theorem manhattan_columns {n : ℕ} (e : Equiv.Perm (Fin n)) (u v : Fin n → ℝ) : manhattan (u ∘ e) (v ∘ e) = manhattan u v := Equiv.sum_comp e fun i => |u i - v i|

theorem euclidean_columns {n : ℕ} (e : Equiv.Perm (Fin n)) (u v : Fin n → ℝ) : euclidean (u ∘ e) (v ∘ e) = euclidean u v := congrArg Real.sqrt (Equiv.sum_comp e fun i => (u i - v i) ^ 2)

/-- Non-vacuity: classes 1 and 2, swapped by the renaming. -/
example : (labelsOf [(1 : ℤ), 2]).length = 1 + 1 ∧ (labelsOf ([1, 2].map fun i : ℤ => -i)).length = 1 + 1 ∧ Function.Injective (fun i : ℤ => -i)
    ∧ (labelsOf ([1, 2].map fun i : ℤ => -i)) = [-2, -1] ∧ (∃ qp : QPSolver, ExactQP qp)
    ∧ Separated manhattan fun i : Fin (1 + 1) => ![[![1, 0]], [![0, (1 : ℝ)]]] i := by
  have h1 : labelsOf [1, 2] = [(1 : ℤ), 2] := labelsOf_eq _ _ (by decide) (by decide)
  have h2 : labelsOf ([1, 2].map fun i : ℤ => -i) = [-2, -1] := labelsOf_eq _ _ (by decide) (by decide)
  refine ⟨by rw [h1]; rfl, by rw [h2]; rfl, neg_injective, h2, exactQP_exists, fun c hc hne => ?_⟩
  rw [Fin.sum_univ_two] at hc
  have h0 : c 0 ≠ 0 := fun h => hne (funext fun i => by fin_cases i <;> simp [h] <;> linarith)
  have hp : 0 < c 0 ^ 2 := by positivity
  simp only [Fin.sum_univ_two, avgDist, manhattan]
  simp
  norm_num
  rw [show c 1 = -c 0 by linarith]
  nlinarith

end Verif.Props
