import Verif.Spec.Rename
import Verif.Props.MatchStability
import Verif.Props.DeBias

/-!
# C138: renaming the classes in any way
-/

namespace Verif.Props

open Verif.Model Verif.Spec Verif.Proof

section
variable {α β : Type} [LinearOrder α] [LinearOrder β] (g : α → β) (hg : Function.Injective g) (y : List α)

/-- Where each class goes. -/
theorem exists_perm (hg : Function.Injective g) : ∃ e : Fin (labelsOf y).length ≃ Fin (labelsOf (y.map g)).length, ∀ i, (labelsOf (y.map g))[e i] = g (labelsOf y)[i] := by
  have h1 : ∀ i : Fin (labelsOf y).length, ∃ j : Fin (labelsOf (y.map g)).length, (labelsOf (y.map g))[j] = g (labelsOf y)[i] := fun i => by
    have : g (labelsOf y)[i] ∈ labelsOf (y.map g) := (mem_labelsOf _ _).2 (List.mem_map_of_mem ((mem_labelsOf y _).1 (List.getElem_mem _)))
    obtain ⟨j, hj, h⟩ := List.getElem_of_mem this
    exact ⟨⟨j, hj⟩, h⟩
  choose f hf using h1
  refine ⟨Equiv.ofBijective f ⟨fun i j h => ?_, fun j => ?_⟩, hf⟩
  · have : g (labelsOf y)[i] = g (labelsOf y)[j] := by rw [← hf i, ← hf j, h]
    exact Fin.ext ((labelsOf_nodup y).getElem_inj_iff.1 (hg this))
  · have : (labelsOf (y.map g))[j] ∈ y.map g := (mem_labelsOf _ _).1 (List.getElem_mem _)
    obtain ⟨a, ha, h⟩ := List.mem_map.1 this
    obtain ⟨i, hi, h'⟩ := List.getElem_of_mem ((mem_labelsOf y a).2 ha)
    refine ⟨⟨i, hi⟩, getElem_inj_of_nodup (labelsOf_nodup (y.map g)) ?_⟩
    have := hf ⟨i, hi⟩
    change (labelsOf (y.map g))[f ⟨i, hi⟩] = (labelsOf (y.map g))[j]
    rw [this, ← h, ← h']
    rfl

variable {g y}

theorem sameByClass_iff {e : Fin (labelsOf y).length ≃ Fin (labelsOf (y.map g)).length} (he : ∀ i, (labelsOf (y.map g))[e i] = g (labelsOf y)[i]) {V : Type*} (v : Fin (labelsOf y).length → V) (v' : Fin (labelsOf (y.map g)).length → V) :
    SameByClass g y v v' ↔ v' = v ∘ e.symm := by
  constructor
  · intro h
    funext j
    have := h (e.symm j) j (by simp only [← he, e.apply_symm_apply])
    exact this
  · rintro rfl i j h
    have : j = e i := Fin.ext ((labelsOf_nodup (y.map g)).getElem_inj_iff.1 (h.trans (he i).symm))
    rw [this, Function.comp_apply, e.symm_apply_apply]

theorem rows_renamed {e : Fin (labelsOf y).length ≃ Fin (labelsOf (y.map g)).length} (he : ∀ i, (labelsOf (y.map g))[e i] = g (labelsOf y)[i]) {V : Type*} {P : List (Fin (labelsOf y).length → V)} {P' : List (Fin (labelsOf (y.map g)).length → V)}
    (h : List.Forall₂ (SameByClass g y) P P') : P' = P.map fun r => r ∘ e.symm := by
  induction h with
  | nil => rfl
  | cons h _ ih => rw [List.map_cons, ← ih, (sameByClass_iff he _ _).1 h]

end

/-! ## The adjustment -/

theorem adjust_perm (sol : Solvers) (dist : Dist) {n n' : ℕ} (e : Fin n ≃ Fin n') (M : Matrix (Fin n) (Fin n) ℝ) (hrow : ∀ i, ∑ j, M i j = 1) (q : Fin n → ℝ) (hq : IsPrev q) (hd : n = 2 ∨ M.det ≠ 0) :
    ∃ x : Fin n → ℝ, adjust sol dist (fun i j => Fl.fin (M i j)) (fun j => Fl.fin (q j)) = .ok (fun i => Fl.fin (x i))
      ∧ adjust sol dist (fun i j => Fl.fin (M (e.symm i) (e.symm j))) (fun j => Fl.fin (q (e.symm j))) = .ok (fun i => Fl.fin (x (e.symm i))) := by
  obtain rfl : n = n' := by simpa using Fintype.card_congr e
  by_cases hn : n = 2
  · subst hn
    have r0 := hrow 0
    have r1 := hrow 1
    have q1 := hq.2
    rw [Fin.sum_univ_two] at r0 r1 q1
    have hcase : e.symm = Equiv.refl _ ∨ e.symm = Equiv.swap 0 1 := by
      generalize e.symm = f
      revert f
      decide
    obtain ⟨x, -, hx, -⟩ := adjust_two_monotone sol dist (fun i j => M i j) q q hq hq le_rfl
    refine ⟨x, hx, ?_⟩
    rcases hcase with h | h
    · rw [h]
      exact hx
    · rw [h]
      by_cases hd : 1/1000 < |M 1 1 - M 0 1|
      · rw [C09_binary_formula _ _ (M 1 1) (M 0 1) (q 1) rfl rfl rfl hd] at hx
        have hx' := Except.ok.inj hx
        have ex0 : 1 - max 0 (min ((q 1 - M 0 1) / (M 1 1 - M 0 1)) 1) = x 0 := Fl.fin.inj (congrFun hx' 0)
        have ex1 : max 0 (min ((q 1 - M 0 1) / (M 1 1 - M 0 1)) 1) = x 1 := Fl.fin.inj (congrFun hx' 1)
        have hs : M 0 0 - M 1 0 = M 1 1 - M 0 1 := by linarith
        rw [C09_binary_formula _ _ (M 0 0) (M 1 0) (q 0) rfl rfl rfl (by rw [hs]; exact hd)]
        have hne : M 1 1 - M 0 1 ≠ 0 := fun h => by rw [h, abs_zero] at hd; norm_num at hd
        have hp : (q 0 - M 1 0) / (M 0 0 - M 1 0) = 1 - (q 1 - M 0 1) / (M 1 1 - M 0 1) := by
          rw [hs]
          field_simp
          linarith
        rw [hp]
        set t := (q 1 - M 0 1) / (M 1 1 - M 0 1) with ht
        have hm : max 0 (min (1 - t) 1) = 1 - max 0 (min t 1) := by
          rcases le_total t 0 with h | h
          · rw [min_eq_right (by linarith), min_eq_left (by linarith), max_eq_left h]; simp
          · rcases le_total t 1 with h' | h'
            · rw [min_eq_left (by linarith), min_eq_left h', max_eq_right (by linarith), max_eq_right h]
            · rw [min_eq_left (by linarith), min_eq_right h', max_eq_left (by linarith)]; simp
        rw [hm, ex0]
        congr 1
        funext i
        fin_cases i
        · change Fl.fin (1 - x 0) = Fl.fin (x 1)
          rw [← ex0, ← ex1]
          congr 1
          ring
        · rfl
      · have hu : ∀ (N : Fin 2 → Fin 2 → ℝ) (q : Fin 2 → ℝ), IsPrev q → ¬ 1/1000 < |N 1 1 - N 0 1| → adjust sol dist (fun i j => Fl.fin (N i j)) (fun j => Fl.fin (q j)) = .ok (fun i => Fl.fin (q i)) := fun N q hq hd =>
          C09_binary_unadjusted _ q hq (by
            rintro ⟨t, f, ht, hf, h⟩
            rw [← Fl.fin.inj ht, ← Fl.fin.inj hf] at h
            exact hd h) (fun i => ⟨by simp, by simp⟩) sol dist
        have e1 := hu (fun i j => M i j) q hq hd
        rw [e1] at hx
        have : q = x := funext fun i => Fl.fin.inj (congrFun (Except.ok.inj hx) i)
        subst this
        exact hu (fun i j => M (Equiv.swap 0 1 i) (Equiv.swap 0 1 j)) (fun j => q (Equiv.swap 0 1 j)) ⟨fun i => hq.1 _, by simpa [Fin.sum_univ_two, add_comm] using q1⟩ (by
          change ¬ 1/1000 < |M 0 0 - M 1 0|
          rw [show M 0 0 - M 1 0 = M 1 1 - M 0 1 by linarith]
          exact hd)
  · have hM := hd.resolve_left hn
    have hx : ∑ i, adjX M q i = 1 := by rw [adjX_sum M hM hrow, hq.2]
    obtain ⟨hpos, hv⟩ := IsPrev_pos_part _ hx
    have hM' : (Matrix.submatrix M e.symm e.symm).det ≠ 0 := by rw [Matrix.det_submatrix_equiv_self]; exact hM
    have hadj : adjX (Matrix.submatrix M e.symm e.symm) (fun j => q (e.symm j)) = fun i => adjX M q (e.symm i) := by
      funext i
      unfold adjX
      rw [Matrix.transpose_submatrix, Matrix.inv_submatrix_equiv]
      exact Equiv.sum_comp e.symm fun j => M.transpose⁻¹ (e.symm i) j * q j
    have hs : ∑ i, max 0 (adjX M q (e.symm i)) = ∑ i, max 0 (adjX M q i) := Equiv.sum_comp e.symm fun i => max 0 (adjX M q i)
    refine ⟨fun i => max 0 (adjX M q i) / ∑ i, max 0 (adjX M q i), ?_, ?_⟩
    · rw [adjust_ne_two sol dist hn, multiAdjust_fin sol dist M hM q hpos.ne']
    · rw [adjust_ne_two sol dist hn]
      have := multiAdjust_fin sol dist (Matrix.submatrix M e.symm e.symm) hM' (fun j => q (e.symm j)) (by rw [hadj, hs]; exact hpos.ne')
      rw [hadj, hs] at this
      exact this

/-! ## 'L2' has one answer -/

theorem l2_closest_unique {m n : ℕ} (T : Fin m → Fin n → ℝ) (hT : ∀ x : Fin n → ℝ, (∀ i, ∑ j, T i j * x j = 0) → x = 0) (q : Fin m → ℝ) (x x' : Fin n → ℝ) (hx : IsPrev x) (hx' : IsPrev x')
    (h : ∀ p, IsPrev p → euclidean q (mixtureOf T x) ≤ euclidean q (mixtureOf T p)) (h' : ∀ p, IsPrev p → euclidean q (mixtureOf T x') ≤ euclidean q (mixtureOf T p)) : x = x' := by
  have hm : IsPrev fun j => (x j + x' j) / 2 := ⟨fun j => by have := hx.1 j; have := hx'.1 j; positivity, by rw [← Finset.sum_div, Finset.sum_add_distrib, hx.2, hx'.2]; norm_num⟩
  have hnn : ∀ p, 0 ≤ ∑ k, (q k - mixtureOf T p k) ^ 2 := fun p => Finset.sum_nonneg fun k _ => sq_nonneg _
  have e1 := (Real.sqrt_le_sqrt_iff (hnn _)).1 (h _ hm)
  have e2 := (Real.sqrt_le_sqrt_iff (hnn _)).1 (h' _ hm)
  have hmid : ∀ k, mixtureOf T (fun j => (x j + x' j) / 2) k = (mixtureOf T x k + mixtureOf T x' k) / 2 := by
    intro k
    unfold mixtureOf
    rw [← Finset.sum_add_distrib, Finset.sum_div]
    exact Finset.sum_congr rfl fun j _ => by ring
  have key : ∑ k, (mixtureOf T x k - mixtureOf T x' k) ^ 2 = 2 * ∑ k, (q k - mixtureOf T x k) ^ 2 + 2 * ∑ k, (q k - mixtureOf T x' k) ^ 2 - 4 * ∑ k, (q k - mixtureOf T (fun j => (x j + x' j) / 2) k) ^ 2 := by
    rw [Finset.mul_sum, Finset.mul_sum, Finset.mul_sum, ← Finset.sum_add_distrib, ← Finset.sum_sub_distrib]
    refine Finset.sum_congr rfl fun k _ => ?_
    rw [hmid]
    ring
  have hz : ∑ k, (mixtureOf T x k - mixtureOf T x' k) ^ 2 = 0 := le_antisymm (by linarith) (Finset.sum_nonneg fun k _ => sq_nonneg _)
  rw [Finset.sum_eq_zero_iff_of_nonneg fun k _ => sq_nonneg _] at hz
  have := hT (fun j => x j - x' j) fun k => by
    have := sub_eq_zero.1 (pow_eq_zero_iff two_ne_zero |>.1 (hz k (Finset.mem_univ k)))
    unfold mixtureOf at this
    simp only [mul_sub, Finset.sum_sub_distrib, this, sub_self]
  funext j
  exact sub_eq_zero.1 (congrFun this j)

/-! ## EM -/

theorem emLoop_perm {n n' : ℕ} (e : Fin n ≃ Fin n') (ptr : Fin n → Fl) (rows : List (Fin n → ℝ)) (eps : ℝ) (m : ℕ) (s : EMState n) :
    emLoop (ptr ∘ e.symm) (rows.map fun r => r ∘ e.symm) eps m ⟨s.prevalences ∘ e.symm, s.previous ∘ e.symm, s.iterations⟩
      = (emLoop ptr rows eps m s).map fun t => ⟨t.prevalences ∘ e.symm, t.previous ∘ e.symm, t.iterations⟩ := by
  have hstep : ∀ p : Fin n → Fl, emStep (ptr ∘ e.symm) (rows.map fun r => r ∘ e.symm) (p ∘ e.symm) = emStep ptr rows p ∘ e.symm := by
    intro p
    funext c
    simp only [emStep, Function.comp_apply, List.map_map, List.length_map]
    congr 3
    funext r
    simp only [Function.comp_apply, emPosterior]
    congr 1
    exact Equiv.sum_comp e.symm fun j => Fl.fin (r j) * (p j / ptr j)
  have hch : ∀ p q : Fin n → Fl, emChange (p ∘ e.symm) (q ∘ e.symm) = emChange p q := by
    intro p q
    have hfin : ∀ p : Fin n → Fl, (∃ p' : Fin n' → ℝ, p ∘ e.symm = fun j => Fl.fin (p' j)) ↔ ∃ p' : Fin n → ℝ, p = fun j => Fl.fin (p' j) := by
      intro p
      constructor
      · rintro ⟨p', h⟩
        refine ⟨p' ∘ e, funext fun j => ?_⟩
        have := congrFun h (e j)
        simpa using this
      · rintro ⟨p', rfl⟩
        exact ⟨p' ∘ e.symm, rfl⟩
    have hnn : n' = n := by simpa using (Fintype.card_congr e).symm
    unfold emChange
    by_cases h : (∃ p' : Fin n → ℝ, p = fun j => Fl.fin (p' j)) ∧ ∃ q' : Fin n → ℝ, q = fun j => Fl.fin (q' j)
    · rw [if_pos h, if_pos ⟨(hfin p).2 h.1, (hfin q).2 h.2⟩]
      have h1 : ∑ j, ((q ∘ e.symm) j - (p ∘ e.symm) j).abs = ∑ j, (q j - p j).abs := Equiv.sum_comp e.symm fun j => (q j - p j).abs
      rw [h1, show (n' : ℝ) = n by rw [hnn]]
    · rw [if_neg h, if_neg fun h' => h ⟨(hfin p).1 h'.1, (hfin q).1 h'.2⟩]
  induction m generalizing s with
  | zero => rfl
  | succ m ih =>
    simp only [emLoop, hch]
    cases emChange s.prevalences s.previous with
    | error err => rfl
    | ok change =>
      dsimp only
      split_ifs with h
      · rw [hstep]
        exact ih ⟨emStep ptr rows s.prevalences, s.prevalences, s.iterations + 1⟩
      · rfl

/-! ## The frequencies -/

section
variable {α β : Type} [DecidableEq α] [DecidableEq β] {g : α → β} (hg : Function.Injective g)

theorem stacked_map (y : List α) (r : ℕ) : stacked (y.map g) r = (stacked y r).map g := by
  unfold stacked
  rw [List.map_flatten, List.map_replicate]

include hg

theorem freq_rename (l : List α) (a : α) : freq (l.map g) (g a) = freq l a := by
  unfold freq
  rw [List.count_map_of_injective _ _ hg, List.length_map]

theorem condFreq_rename (y P : List α) (a b : α) : condFreq (y.map g) (P.map g) (g a) (g b) = condFreq y P a b := by
  unfold condFreq
  rw [List.count_map_of_injective _ _ hg, List.zip_map, List.countP_map]
  congr 3
  funext t
  simp [hg.eq_iff]

theorem condMean_rename {V W : Type} (y : List α) (P : List V) (φ : V → W) (f : W → ℝ) (a : α) : condMean (y.map g) (P.map φ) f (g a) = condMean y P (fun v => f (φ v)) a := by
  unfold condMean
  rw [List.count_map_of_injective _ _ hg, List.zip_map, List.filter_map, List.map_map]
  congr 3
  refine List.filter_congr fun t _ => ?_
  simp [hg.eq_iff]

end

/-! ## C138 -/

section
variable {σ σ' D α β : Type} [LinearOrder α] [LinearOrder β] {k k' : ℕ} (enc : Bool → α) (enc' : Bool → β) (w : World σ D α) (w' : World σ' D β) (et et' eu eu' : Option ℕ) (X Xt X' Xt' : List D)
  (g : α → β) (hg : Function.Injective g) (y : List α) (hy : y ≠ []) (r : ℕ) (hr : 0 < r)
include hg hy

/-- **C138** for CC. -/
theorem C138_cc (ops : EstOps σ D α k) (ops' : EstOps σ' D β k') (P : List α) (hP : P.length = r * y.length) (Q : List α) :
    ∃ x x', ucRun ops enc w ⟨ccClass, et, et'⟩ X y (some (.crisp P)) Xt (some (.crisp Q)) = .ok (some (vecList x))
      ∧ ucRun ops' enc' w' ⟨ccClass, eu, eu'⟩ X' (y.map g) (some (.crisp (P.map g))) Xt' (some (.crisp (Q.map g))) = .ok (some (vecList x')) ∧ SameByClass g y x x' := by
  rw [ucRun_given_crisp ops enc w X Xt y ccClass rfl rfl et et' hy r P _ hP,
    ucRun_given_crisp ops' enc' w' X' Xt' (y.map g) ccClass rfl rfl eu eu' (by simpa using hy) r (P.map g) _ (by simpa using hP)]
  refine ⟨classFreqs (labelsOf y) Q, classFreqs (labelsOf (y.map g)) (Q.map g), rfl, rfl, fun i j h => ?_⟩
  unfold classFreqs
  rw [h, List.count_map_of_injective _ _ hg, List.length_map]

/-- **C138** for PCC: the columns of the probabilities follow the classes. -/
theorem C138_pcc (ops : EstOps σ D α (labelsOf y).length) (ops' : EstOps σ' D β (labelsOf (y.map g)).length) (P Q : List (Fin (labelsOf y).length → ℝ)) (hP : P.length = r * y.length)
    (P' Q' : List (Fin (labelsOf (y.map g)).length → ℝ)) (hP' : List.Forall₂ (SameByClass g y) P P') (hQ' : List.Forall₂ (SameByClass g y) Q Q') :
    ∃ x x', ucRun ops enc w ⟨pccClass, et, et'⟩ X y (some (.probs P)) Xt (some (.probs Q)) = .ok (some (vecList x))
      ∧ ucRun ops' enc' w' ⟨pccClass, eu, eu'⟩ X' (y.map g) (some (.probs P')) Xt' (some (.probs Q')) = .ok (some (vecList x')) ∧ SameByClass g y x x' := by
  obtain ⟨e, he⟩ := exists_perm g y hg
  rw [ucRun_given_probs ops enc w X Xt y pccClass rfl rfl et et' hy r P _ hP,
    ucRun_given_probs ops' enc' w' X' Xt' (y.map g) pccClass rfl rfl eu eu' (by simpa using hy) r P' _ (by rw [← hP'.length_eq, hP, List.length_map])]
  refine ⟨colMeans Q, colMeans Q', rfl, rfl, ?_⟩
  rw [sameByClass_iff he, rows_renamed he hQ']
  funext j
  simp only [colMeans, List.map_map, List.length_map, Function.comp_apply]
  rfl

/-- **C138** for EM; if one of the two raises an exception, so does the other. -/
theorem C138_em (ops : EstOps σ D α (labelsOf y).length) (ops' : EstOps σ' D β (labelsOf (y.map g)).length) (eps : ℝ) (maxIter : ℕ) (P Q : List (Fin (labelsOf y).length → ℝ)) (hP : P.length = r * y.length)
    (P' Q' : List (Fin (labelsOf (y.map g)).length → ℝ)) (hP' : List.Forall₂ (SameByClass g y) P P') (hQ' : List.Forall₂ (SameByClass g y) Q Q') :
    (∃ x x', ucRun ops enc w ⟨emClass eps maxIter, et, et'⟩ X y (some (.probs P)) Xt (some (.probs Q)) = .ok (some (vecList x))
      ∧ ucRun ops' enc' w' ⟨emClass eps maxIter, eu, eu'⟩ X' (y.map g) (some (.probs P')) Xt' (some (.probs Q')) = .ok (some (vecList x')) ∧ SameByClass g y x x')
    ∨ ∃ err, ucRun ops enc w ⟨emClass eps maxIter, et, et'⟩ X y (some (.probs P)) Xt (some (.probs Q)) = .error err
      ∧ ucRun ops' enc' w' ⟨emClass eps maxIter, eu, eu'⟩ X' (y.map g) (some (.probs P')) Xt' (some (.probs Q')) = .error err := by
  obtain ⟨e, he⟩ := exists_perm g y hg
  rw [ucRun_given_probs ops enc w X Xt y (emClass eps maxIter) rfl rfl et et' hy r P _ hP,
    ucRun_given_probs ops' enc' w' X' Xt' (y.map g) (emClass eps maxIter) rfl rfl eu eu' (by simpa using hy) r P' _ (by rw [← hP'.length_eq, hP, List.length_map])]
  have run : ∀ {γ : Type} [LinearOrder γ] (z : List γ) (P Q : List (Fin (labelsOf z).length → ℝ)), answerOn (emClass eps maxIter) z r (.probs P) (.probs Q)
      = ((emPredict (emFit (labelsOf z) z) Q eps maxIter).map fun s => vecList s.prevalences).map some := by
    intro γ _ z P Q
    simp only [answerOn, learnAnswer, fittedState, emClass, probRows, keep, bind, Except.bind]
    rw [dif_pos (show (npUnique z).length = (labelsOf z).length from rfl)]
    rfl
  rw [run, run, rows_renamed he hQ']
  have hfit : emFit (labelsOf (y.map g)) (y.map g) = emFit (labelsOf y) y ∘ e.symm := by
    rw [← sameByClass_iff he]
    intro i j h
    unfold emFit classFreqs
    rw [h, List.count_map_of_injective _ _ hg, List.length_map]
  rw [hfit]
  have := emLoop_perm e (emFit (labelsOf y) y) Q eps maxIter ⟨emFit (labelsOf y) y, fun _ => 1, 0⟩
  have h2 : emPredict (emFit (labelsOf y) y ∘ e.symm) (Q.map fun r => r ∘ e.symm) eps maxIter = _ := this
  rw [h2]
  change (∃ x x', Except.map some (Except.map _ (emPredict (emFit (labelsOf y) y) Q eps maxIter)) = _ ∧ Except.map some (Except.map _ (Except.map _ (emPredict (emFit (labelsOf y) y) Q eps maxIter))) = _ ∧ _) ∨
    ∃ err, Except.map some (Except.map _ (emPredict (emFit (labelsOf y) y) Q eps maxIter)) = _ ∧ Except.map some (Except.map _ (Except.map _ (emPredict (emFit (labelsOf y) y) Q eps maxIter))) = _
  cases emPredict (emFit (labelsOf y) y) Q eps maxIter with
  | error err => exact Or.inr ⟨err, rfl, rfl⟩
  | ok s => exact Or.inl ⟨_, _, rfl, rfl, (sameByClass_iff he _ _).2 rfl⟩

include hr

/-- **C138** for AC, with two classes or an invertible matrix of rates. -/
theorem C138_ac (ops : EstOps σ D α k) (ops' : EstOps σ' D β k') (sol : Solvers) (dist : Dist) (P Q : List α) (hP : P.length = r * y.length) (hPy : ∀ a ∈ P, a ∈ y) (hQ : Q ≠ []) (hQy : ∀ a ∈ Q, a ∈ y)
    (hd : (labelsOf y).length = 2 ∨ Matrix.det (fun i j : Fin (labelsOf y).length => condFreq (stacked y r) P (labelsOf y)[i] (labelsOf y)[j]) ≠ 0) :
    ∃ x x', ucRun ops enc w ⟨acClass sol dist, et, et'⟩ X y (some (.crisp P)) Xt (some (.crisp Q)) = .ok (some (realList x))
      ∧ ucRun ops' enc' w' ⟨acClass sol dist, eu, eu'⟩ X' (y.map g) (some (.crisp (P.map g))) Xt' (some (.crisp (Q.map g))) = .ok (some (realList x')) ∧ SameByClass g y x x' := by
  obtain ⟨e, he⟩ := exists_perm g y hg
  have he' : ∀ j, (labelsOf (y.map g))[j] = g (labelsOf y)[e.symm j] := fun j => by simp only [← he, e.apply_symm_apply]
  have hP' : (P.map g).length = r * (y.map g).length := by simpa using hP
  have hQ' : Q.map g ≠ [] := by simpa using hQ
  rw [ucRun_given_crisp ops enc w X Xt y (acClass sol dist) rfl rfl et et' hy r P _ hP, answer_ac_eq y sol dist r P _ hP hQ, normalizeRows_eq y r hr P hP hPy,
    ucRun_given_crisp ops' enc' w' X' Xt' (y.map g) (acClass sol dist) rfl rfl eu eu' (by simpa using hy) r (P.map g) _ hP', answer_ac_eq (y.map g) sol dist r (P.map g) _ hP' hQ',
    normalizeRows_eq (y.map g) r hr (P.map g) hP' fun b hb => by
      obtain ⟨a, ha, rfl⟩ := List.mem_map.1 hb
      exact List.mem_map_of_mem (hPy a ha)]
  have hq := freqs_isPrev _ (labelsOf_nodup y) Q hQ fun a ha => (mem_labelsOf y _).2 (hQy a ha)
  obtain ⟨x, h1, h2⟩ := adjust_perm sol dist e (cmReal y r P) (fun i => (cmReal_row y r hr P hP hPy i).2) _ hq hd
  have ecm : cmReal (y.map g) r (P.map g) = fun i j => cmReal y r P (e.symm i) (e.symm j) := by
    funext i j
    unfold cmReal
    rw [he', he', stacked_map, condFreq_rename hg]
  have efr : freqs (labelsOf (y.map g)) (Q.map g) = fun j => freqs (labelsOf y) Q (e.symm j) := by
    funext j
    unfold freqs
    rw [he', freq_rename hg]
  rw [ecm, efr, h1, h2]
  exact ⟨x, x ∘ e.symm, rfl, rfl, (sameByClass_iff he _ _).2 rfl⟩

/-- **C138** for PAC, with two classes or an invertible matrix of mean probabilities. -/
theorem C138_pac (ops : EstOps σ D α (labelsOf y).length) (ops' : EstOps σ' D β (labelsOf (y.map g)).length) (sol : Solvers) (dist : Dist) (P Q : List (Fin (labelsOf y).length → ℝ)) (hP : P.length = r * y.length)
    (hPp : ∀ row ∈ P, IsPrev row) (hQ : Q ≠ []) (hQp : ∀ row ∈ Q, IsPrev row)
    (hd : (labelsOf y).length = 2 ∨ Matrix.det (fun i j : Fin (labelsOf y).length => condMean (stacked y r) P (fun row => row j) (labelsOf y)[i]) ≠ 0)
    (P' Q' : List (Fin (labelsOf (y.map g)).length → ℝ)) (hP' : List.Forall₂ (SameByClass g y) P P') (hQ' : List.Forall₂ (SameByClass g y) Q Q') :
    ∃ x x', ucRun ops enc w ⟨pacClass sol dist, et, et'⟩ X y (some (.probs P)) Xt (some (.probs Q)) = .ok (some (realList x))
      ∧ ucRun ops' enc' w' ⟨pacClass sol dist, eu, eu'⟩ X' (y.map g) (some (.probs P')) Xt' (some (.probs Q')) = .ok (some (realList x')) ∧ SameByClass g y x x' := by
  obtain ⟨e, he⟩ := exists_perm g y hg
  have he' : ∀ j, (labelsOf (y.map g))[j] = g (labelsOf y)[e.symm j] := fun j => by simp only [← he, e.apply_symm_apply]
  have hPl : P'.length = r * (y.map g).length := by rw [← hP'.length_eq, hP, List.length_map]
  have hQl : Q' ≠ [] := by
    rintro rfl
    cases hQ'
    exact hQ rfl
  rw [pac_run enc w et et' X Xt y hy r hr ops sol dist P hP Q hQ, pac_run enc' w' eu eu' X' Xt' (y.map g) (by simpa using hy) r hr ops' sol dist P' hPl Q' hQl]
  obtain ⟨x, h1, h2⟩ := adjust_perm sol dist e (pcmReal y r P) (fun i => (pcmReal_row y r hr P hP hPp i).2) _ (meanOf_isPrev Q hQ hQp) hd
  obtain rfl := rows_renamed he hP'
  obtain rfl := rows_renamed he hQ'
  have ecm : pcmReal (y.map g) r (P.map fun r => r ∘ e.symm) = fun i j => pcmReal y r P (e.symm i) (e.symm j) := by
    funext i j
    unfold pcmReal
    rw [he', stacked_map, condMean_rename hg]
    rfl
  have efr : (fun j => Fl.fin (meanOf (Q.map fun r => r ∘ e.symm) fun row => row j)) = fun j => Fl.fin (meanOf Q fun row => row (e.symm j)) := by
    funext j
    unfold meanOf
    rw [List.map_map, List.length_map]
    rfl
  rw [ecm, efr, h1, h2]
  exact ⟨x, x ∘ e.symm, rfl, rfl, (sameByClass_iff he _ _).2 rfl⟩

/-- **C138** for FriedmanME with 'L2' and independent representations of the classes. -/
theorem C138_friedman (ops : EstOps σ D α (labelsOf y).length) (ops' : EstOps σ' D β (labelsOf (y.map g)).length) (sv : CvxSolver) (hsv : ExactCvx sv) (qp : QPSolver) (hqp : ExactQP qp) (la : LinAlg (labelsOf y).length)
    (hla : ExactLinAlg la) (la' : LinAlg (labelsOf (y.map g)).length) (hla' : ExactLinAlg la') (fuel : ℕ) (tol : ℝ) (P Q : List (Fin (labelsOf y).length → ℝ)) (hP : P.length = r * y.length)
    (hd : ∀ x : Fin (labelsOf y).length → ℝ, (∀ i, ∑ c, reachShare i (freq y (labelsOf y)[i]) (ofClass ((stacked y r).zip P) (labelsOf y)[c]) * x c = 0) → x = 0)
    (P' Q' : List (Fin (labelsOf (y.map g)).length → ℝ)) (hP' : List.Forall₂ (SameByClass g y) P P') (hQ' : List.Forall₂ (SameByClass g y) Q Q') :
    ∃ x x', ucRun ops enc w ⟨friedmanClass sv qp la (fuel + 1) tol .l2, et, et'⟩ X y (some (.probs P)) Xt (some (.probs Q)) = .ok (some (realList x))
      ∧ ucRun ops' enc' w' ⟨friedmanClass sv qp la' (fuel + 1) tol .l2, eu, eu'⟩ X' (y.map g) (some (.probs P')) Xt' (some (.probs Q')) = .ok (some (realList x')) ∧ SameByClass g y x x' := by
  obtain ⟨e, he⟩ := exists_perm g y hg
  have he' : ∀ j, (labelsOf (y.map g))[j] = g (labelsOf y)[e.symm j] := fun j => by simp only [← he, e.apply_symm_apply]
  have hPl : P'.length = r * (y.map g).length := by rw [← hP'.length_eq, hP, List.length_map]
  set T := fun i c : Fin (labelsOf y).length => reachShare i (freq y (labelsOf y)[i]) (ofClass ((stacked y r).zip P) (labelsOf y)[c]) with hT
  obtain rfl := rows_renamed he hP'
  obtain rfl := rows_renamed he hQ'
  have hrs : ∀ (t : ℝ) (i : Fin (labelsOf (y.map g)).length) (l : List (Fin (labelsOf y).length → ℝ)), reachShare i t (l.map fun r => r ∘ e.symm) = reachShare (e.symm i) t l := by
    intro t i l
    unfold reachShare
    rw [List.countP_map, List.length_map]
    rfl
  have hT' : (fun i c : Fin (labelsOf (y.map g)).length => reachShare i (freq (y.map g) (labelsOf (y.map g))[i]) (ofClass ((stacked (y.map g) r).zip (P.map fun r => r ∘ e.symm)) (labelsOf (y.map g))[c]))
      = fun i c => T (e.symm i) (e.symm c) := by
    funext i c
    rw [he', he', freq_rename hg, stacked_map]
    have : ofClass (((stacked y r).map g).zip (P.map fun r => r ∘ e.symm)) (g (labelsOf y)[e.symm c]) = (ofClass ((stacked y r).zip P) (labelsOf y)[e.symm c]).map fun r => r ∘ e.symm := by
      unfold ofClass
      rw [List.zip_map, List.filter_map, List.map_map, List.map_map]
      congr 1
      refine List.filter_congr fun t _ => ?_
      simp [hg.eq_iff]
    rw [this, hrs]
  have hd' : ∀ x : Fin (labelsOf (y.map g)).length → ℝ, (∀ i, ∑ c, T (e.symm i) (e.symm c) * x c = 0) → x = 0 := by
    intro x hx
    have := hd (x ∘ e) fun i => by
      refine Eq.trans ?_ (hx (e i))
      rw [← Equiv.sum_comp e]
      simp only [Equiv.symm_apply_apply, Function.comp_apply]
      rfl
    funext j
    have := congrFun this (e.symm j)
    simpa using this
  obtain ⟨x, h1, hx, hopt⟩ := friedman_closest enc w et et' X Xt y hy r hr ops sv hsv qp hqp la hla fuel tol .l2 rfl P hP T rfl hd Q
  obtain ⟨x', h1', hx', hopt'⟩ := friedman_closest enc' w' eu eu' X' Xt' (y.map g) (by simpa using hy) r hr ops' sv hsv qp hqp la' hla' fuel tol .l2 rfl _ hPl _ hT'.symm hd' (Q.map fun r => r ∘ e.symm)
  refine ⟨x, x', h1, h1', (sameByClass_iff he _ _).2 ?_⟩
  set q := fun i : Fin (labelsOf y).length => reachShare i (freq y (labelsOf y)[i]) Q with hq
  have hq' : (fun i : Fin (labelsOf (y.map g)).length => reachShare i (freq (y.map g) (labelsOf (y.map g))[i]) (Q.map fun r => r ∘ e.symm)) = fun i => q (e.symm i) := by
    funext i
    rw [he', freq_rename hg, hrs]
  rw [hq'] at hopt'
  have hdist : ∀ p : Fin (labelsOf (y.map g)).length → ℝ, euclidean (fun i => q (e.symm i)) (mixtureOf (fun i c => T (e.symm i) (e.symm c)) p) = euclidean q (mixtureOf T (p ∘ e)) := by
    intro p
    unfold euclidean
    congr 1
    rw [← Equiv.sum_comp e]
    refine Finset.sum_congr rfl fun i _ => ?_
    simp only [Equiv.symm_apply_apply, mixtureOf]
    rw [← Equiv.sum_comp e]
    simp only [Equiv.symm_apply_apply, Function.comp_apply]
  have hcomp : ∀ p : Fin (labelsOf y).length → ℝ, IsPrev p → IsPrev (p ∘ e.symm) := fun p hp => ⟨fun i => hp.1 _, (Equiv.sum_comp e.symm p).trans hp.2⟩
  have hcomp' : ∀ p : Fin (labelsOf (y.map g)).length → ℝ, IsPrev p → IsPrev (p ∘ e) := fun p hp => ⟨fun i => hp.1 _, (Equiv.sum_comp e p).trans hp.2⟩
  have := l2_closest_unique T hd q x (x' ∘ e) hx (hcomp' x' hx') hopt fun p hp => by
    have h3 := hopt' (p ∘ e.symm) (hcomp p hp)
    rw [hdist, hdist] at h3
    have h4 : (p ∘ e.symm) ∘ e = p := by funext i; simp
    rwa [h4] at h3
  rw [this]
  funext j
  simp

end

/-! ## DeBias -/

/-- Two classes in the other order. -/
theorem labels_reversed {α β : Type} [LinearOrder α] [LinearOrder β] (g : α → β) (y : List α) (h2 : (labelsOf y).length = 2) (hrev : g (posLabel y h2) < g (negLabel y h2)) :
    labelsOf (y.map g) = [g (posLabel y h2), g (negLabel y h2)] := by
  refine labelsOf_eq _ _ (by simpa using hrev) ?_
  ext b
  simp only [List.mem_toFinset, List.mem_map, List.mem_cons, List.not_mem_nil, or_false]
  have hmem : ∀ a, a ∈ y ↔ a = negLabel y h2 ∨ a = posLabel y h2 := by
    intro a
    rw [← mem_labelsOf y a]
    obtain ⟨c0, c1, hc⟩ := List.length_eq_two.1 h2
    have e0 : negLabel y h2 = c0 := by unfold negLabel; simp [hc]
    have e1 : posLabel y h2 = c1 := by unfold posLabel; simp [hc]
    rw [e0, e1, hc]
    simp
  simp only [hmem]
  constructor
  · rintro ⟨a, rfl | rfl, rfl⟩
    · exact .inr rfl
    · exact .inl rfl
  · rintro (rfl | rfl)
    · exact ⟨_, .inr rfl, rfl⟩
    · exact ⟨_, .inl rfl, rfl⟩

/-- **C138** for DeBias: if the renaming reverses the order of the two classes, so that the columns of the probabilities are swapped, the two prevalences are swapped. -/
theorem C138_debias {σ σ' D α β : Type} [LinearOrder α] [LinearOrder β] (enc : Bool → α) (enc' : Bool → β) (w : World σ D α) (w' : World σ' D β) (et et' eu eu' : Option ℕ) (X Xt X' Xt' : List D)
    (ops : EstOps σ D α 2) (ops' : EstOps σ' D β 2) (g : α → β) (hg : Function.Injective g) (y : List α) (h2 : (labelsOf y).length = 2) (hrev : g (posLabel y h2) < g (negLabel y h2)) (r : ℕ)
    (P Q : List (Fin 2 → ℝ)) (hP : P.length = r * y.length) (hPp : ∀ row ∈ P, row 0 + row 1 = 1) (hQp : ∀ row ∈ Q, row 0 + row 1 = 1) (hv : ∃ row ∈ P, row 1 ≠ freq y (posLabel y h2)) (hQ : Q ≠ []) :
    ∃ a b, ucRun ops enc w ⟨deBiasClass, et, et'⟩ X y (some (.probs P)) Xt (some (.probs Q)) = .ok (some [a, b])
      ∧ ucRun ops' enc' w' ⟨deBiasClass, eu, eu'⟩ X' (y.map g) (some (.probs (P.map fun row => ![row 1, row 0]))) Xt' (some (.probs (Q.map fun row => ![row 1, row 0]))) = .ok (some [b, a]) := by
  have hl' := labels_reversed g y h2 hrev
  have h2' : (labelsOf (y.map g)).length = 2 := by rw [hl']; rfl
  have hpos' : posLabel (y.map g) h2' = g (negLabel y h2) := by unfold posLabel; simp [hl']
  have hy : y ≠ [] := by
    rintro rfl
    simp [labelsOf] at h2
  obtain ⟨hneg, -, -⟩ := binary_freqs y h2
  set π := freq y (posLabel y h2) with hπ
  have hπ' : freq (y.map g) (posLabel (y.map g) h2') = 1 - π := by rw [hpos', freq_rename hg, hneg]
  have run : ∀ {σ γ : Type} [LinearOrder γ] (ops : EstOps σ D γ 2) (enc : Bool → γ) (w : World σ D γ) (et et' : Option ℕ) (X Xt : List D) (z : List γ) (h2 : (labelsOf z).length = 2) (hz : z ≠ [])
      (P Q : List (Fin 2 → ℝ)) (hP : P.length = r * z.length) (f : DeBiasFit γ) (hf : deBiasFit z P = .ok f), ucRun ops enc w ⟨deBiasClass, et, et'⟩ X z (some (.probs P)) Xt (some (.probs Q)) = .ok (some (vecList (deBiasPredict f Q))) := by
    intro σ γ _ ops enc w et et' X Xt z h2 hz P Q hP f hf
    rw [ucRun_given_probs ops enc w X Xt z deBiasClass rfl (by
      have : (npUnique z).length = 2 := h2
      simp [deBiasClass, this]) et et' hz r P Q hP]
    simp only [answerOn, learnAnswer, fittedState, deBiasClass, trainData, probRows, if_true, bind, Except.bind, hf, keep, Except.map]
  obtain ⟨f, p, e1, e2, e3, -⟩ := C50_debias_formula y h2 P Q hv hQ
  obtain ⟨f', p', e1', e2', e3', -⟩ := C50_debias_formula (y.map g) h2' (P.map fun row => ![row 1, row 0]) (Q.map fun row => ![row 1, row 0]) (by
    obtain ⟨row, hr, hne⟩ := hv
    refine ⟨_, List.mem_map_of_mem hr, ?_⟩
    rw [hπ']
    change row 0 ≠ 1 - π
    intro h
    have := hPp row hr
    exact hne (by linarith)) (by simpa using hQ)
  refine ⟨Fl.fin (1 - p), Fl.fin p, ?_, ?_⟩
  · rw [run ops enc w et et' X Xt y h2 hy P Q hP f e1, e2]
    rfl
  · rw [run ops' enc' w' eu eu' X' Xt' (y.map g) h2' (by simpa using hy) _ _ (by simpa using hP) f' e1', e2']
    have hvar : relVariance (1 - π) (P.map fun row => ![row 1, row 0]) = relVariance π P := by
      unfold relVariance meanOf
      rw [List.map_map, List.length_map]
      have : (P.map ((fun r : Fin 2 → ℝ => (r 1 - (1 - π)) ^ 2) ∘ fun row => ![row 1, row 0])) = P.map fun r => (r 1 - π) ^ 2 := List.map_congr_left fun row hr => by
        have := hPp row hr
        simp only [Function.comp_apply, Matrix.cons_val_one, Matrix.cons_val_zero]
        rw [show row 0 = 1 - row 1 by linarith]
        simp
        ring
      rw [this, show (1 - π) * (1 - (1 - π)) = π * (1 - π) by ring]
    have hmean : meanOf (Q.map fun row => ![row 1, row 0]) (fun r : Fin 2 → ℝ => r 1) = 1 - meanOf Q fun r => r 1 := by
      unfold meanOf
      rw [List.map_map, List.length_map]
      have hsum : ∀ l : List (Fin 2 → ℝ), (∀ row ∈ l, row 0 + row 1 = 1) → (l.map ((fun r : Fin 2 → ℝ => r 1) ∘ fun row => ![row 1, row 0])).sum = l.length - (l.map fun r => r 1).sum := by
        intro l hl
        induction l with
        | nil => simp
        | cons a l ih =>
          have ha := hl a List.mem_cons_self
          rw [List.map_cons, List.sum_cons, ih fun row hr => hl row (List.mem_cons_of_mem _ hr), List.map_cons, List.sum_cons, List.length_cons]
          simp only [Function.comp_apply, Matrix.cons_val_one]
          push_cast
          have : (![a 1, a 0] : Fin 2 → ℝ) 1 = a 0 := rfl
          linarith
      have hlen : (Q.length : ℝ) ≠ 0 := by exact_mod_cast (List.length_pos_iff.2 hQ).ne'
      rw [hsum Q hQp, sub_div, div_self hlen]
    rw [hπ', hvar, hmean] at e3'
    have : p' = 1 - p := by
      rw [e3', e3]
      set t := π + (meanOf Q (fun r => r 1) - π) / relVariance π P with ht
      have : 1 - π + (1 - meanOf Q (fun r => r 1) - (1 - π)) / relVariance π P = 1 - t := by
        rw [ht]
        ring
      rw [this]
      rcases le_total t 0 with h | h
      · rw [min_eq_right (by linarith), min_eq_left (by linarith), max_eq_left h]; simp
      · rcases le_total t 1 with h' | h'
        · rw [min_eq_left (by linarith), min_eq_left h', max_eq_right (by linarith), max_eq_right h]
        · rw [min_eq_left (by linarith), min_eq_right h', max_eq_left (by linarith)]; simp
    rw [this]
    simp [vecList]

/-- C138: changing the sign of the labels reverses the classes; the hypotheses on the columns can be met for any predictions. -/
example (P : List (Fin (labelsOf [3, 5, 7, 5]).length → ℝ)) : Function.Injective (fun n : ℕ => -(n : ℤ)) ∧ labelsOf [3, 5, 7, 5] = [3, 5, 7] ∧ labelsOf ([3, 5, 7, 5].map fun n : ℕ => -(n : ℤ)) = [-7, -5, -3]
    ∧ ∃ P', List.Forall₂ (SameByClass (fun n : ℕ => -(n : ℤ)) [3, 5, 7, 5]) P P' := by
  have hg : Function.Injective (fun n : ℕ => -(n : ℤ)) := fun a b h => by simpa using h
  refine ⟨hg, labelsOf_eq _ _ (by decide) (by decide), labelsOf_eq _ _ (by decide) (by decide), ?_⟩
  obtain ⟨e, he⟩ := exists_perm (fun n : ℕ => -(n : ℤ)) [3, 5, 7, 5] hg
  refine ⟨P.map fun row => row ∘ e.symm, ?_⟩
  rw [List.forall₂_map_right_iff]
  exact List.forall₂_same.2 fun row _ => (sameByClass_iff he _ _).2 rfl

/-! ## DFy -/

/-- Two bins of the same width: the second one includes 1/2. -/
noncomputable def halfBin (b : Fin 2) (v : ℝ) : ℝ := if b = 0 then (if v < 1/2 then 1 else 0) else if v < 1/2 then 0 else 1

theorem halfBin_nonneg (b : Fin 2) (v : ℝ) : 0 ≤ halfBin b v := by
  unfold halfBin
  split_ifs <;> norm_num

noncomputable def halfCuts : Fin (2 + 1) → EReal := fun i => if i = Fin.last 2 then ⊤ else if i = 0 then ⊥ else (linspace 0 1 2 i : EReal)

theorem halfCuts_mono : Monotone halfCuts := by
  intro i j hij
  unfold halfCuts
  fin_cases i <;> fin_cases j <;> simp_all [Fin.last]

theorem halfCuts_eq (ppf : ℝ → EReal) {γ : Type} [DecidableEq γ] (x : List ℝ) (y classes : List γ) : computeBincuts ppf x y classes 2 .equalWidth (some (0, 1)) = .ok halfCuts := by
  simp only [computeBincuts, binRange, binEdges]
  norm_num
  rfl

theorem halfBin_eq (b : Fin 2) (v : ℝ) : binInd halfCuts b v = halfBin b v := by
  have h1 : halfCuts 1 = ((1/2 : ℝ) : EReal) := by
    simp only [halfCuts, linspace]
    norm_num [Fin.last, Fin.ext_iff]
  have h0 : halfCuts 0 = ⊥ := by simp [halfCuts, Fin.last, Fin.ext_iff]
  have h2 : halfCuts 2 = ⊤ := by simp [halfCuts, Fin.last, Fin.ext_iff]
  have c0 : cumInd halfCuts 0 v = 0 := by simp [cumInd, h0, Fin.last, Fin.ext_iff]
  have c1 : cumInd halfCuts 1 v = if v < 1/2 then 1 else 0 := by
    unfold cumInd
    rw [h1, if_neg (show (1 : Fin 3) ≠ Fin.last 2 by decide)]
    simp only [EReal.coe_lt_coe_iff]
  have c2 : cumInd halfCuts 2 v = 1 := by
    unfold cumInd
    rw [h2, if_pos (show (2 : Fin 3) = Fin.last 2 from rfl), if_pos le_top]
  unfold halfBin
  fin_cases b
  · change cumInd halfCuts 1 v - cumInd halfCuts 0 v = if v < 1/2 then 1 else 0
    rw [c0, c1, sub_zero]
  · change cumInd halfCuts 2 v - cumInd halfCuts 1 v = if v < 1/2 then 0 else 1
    rw [c1, c2]
    split_ifs <;> norm_num

/-- DFy with two bins, trained with one example of each class. -/
theorem dfy_two_bins (ppf : ℝ → EReal) (sv : CvxSolver) (qp : QPSolver) (la : LinAlg 2) (fuel : ℕ) (tol : ℝ) (z : List Bool) (hz : npUnique z = [false, true]) (P : List (Fin 2 → ℝ)) (u v q : Fin 2 → ℝ)
    (hP : z.length = P.length) (hu : selectRows z P false = [u]) (hv : selectRows z P true = [v]) :
    ∃ fit, answerOn (dfyClass ppf sv qp la fuel tol ⟨.pdf, 2, .equalWidth⟩ .l1) z 1 (.probs P) (.probs [q])
      = (matchAnswer sv qp tol .l1 (⟨fit, fun i c => halfBin (finProdFinEquiv.symm i).2 (if c = 0 then u 0 else v 0), none, none, none⟩ : MatchState (DfFit (nDescriptors 2) 2 2) (nDescriptors 2 * 2) 2) fun i => halfBin (finProdFinEquiv.symm i).2 (q 0)).2 := by
  have hst : stacked z 1 = z := by simp [stacked]
  have hd0 : ∀ (d : Fin (nDescriptors 2)) (row : Fin 2 → ℝ), dfyAtt 2 d row = row 0 := fun d row => by
    have : d.1 = 0 := by have := d.2; unfold nDescriptors at this; simp at this; exact this
    unfold dfyAtt
    congr 1
    exact Fin.ext this
  have h1 : dfFit ppf .whole ⟨.pdf, 2, .equalWidth⟩ (some (0, 1)) (dfyAtt 2) [false, true] z z P = .ok ⟨fun _ => halfCuts, fun i c => halfBin (finProdFinEquiv.symm i).2 (if c.1 = 0 then u 0 else v 0)⟩ := by
    unfold dfFit
    have hc : (seqFin fun d : Fin (nDescriptors 2) => computeBincuts ppf (P.map (dfyAtt 2 d)) z [false, true] 2 .equalWidth (some (0, 1))) = .ok fun _ => halfCuts := (seqFin_ok _ _).2 fun d => halfCuts_eq ppf _ _ _
    rw [hc]
    simp only [hP, ne_eq, not_true_eq_false, if_false]
    have hh : (seqFin fun c : Fin [false, true].length => histBlocks (dfyAtt 2) (fun _ => halfCuts) (selectRows z P [false, true][c])) = .ok fun c _ b => halfBin b (if c.1 = 0 then u 0 else v 0) := by
      refine (seqFin_ok _ _).2 fun c => ?_
      rw [histBlocks_eq _ _ fun _ => halfCuts_mono]
      congr 1
      funext d b
      fin_cases c
      · change ((selectRows z P false).map _).sum / ((selectRows z P false).length : ℝ) = _
        rw [hu]
        simp [halfBin_eq, hd0]
      · change ((selectRows z P true).map _).sum / ((selectRows z P true).length : ℝ) = _
        rw [hv]
        simp [halfBin_eq, hd0]
    rw [hh]
    rfl
  refine ⟨⟨fun _ => halfCuts, fun i c => halfBin (finProdFinEquiv.symm i).2 (if c = 0 then u 0 else v 0)⟩, ?_⟩
  have htest : dfyTest ⟨.pdf, 2, .equalWidth⟩ (⟨fun _ => halfCuts, fun i c => halfBin (finProdFinEquiv.symm i).2 (if c = 0 then u 0 else v 0)⟩ : DfFit (nDescriptors 2) 2 2) [q] = .ok fun i => halfBin (finProdFinEquiv.symm i).2 (q 0) := by
    unfold dfyTest
    rw [dfTest_eq _ _ _ _ fun _ => halfCuts_mono]
    congr 1
    funext i
    simp [accumulate, stackBlocks, halfBin_eq, hd0]
  obtain ⟨f, hf, hcuts, htr⟩ : ∃ f : DfFit (nDescriptors 2) 2 (npUnique z).length, dfFit ppf .whole ⟨.pdf, 2, .equalWidth⟩ (some (0, 1)) (dfyAtt 2) (npUnique z) z z P = .ok f ∧ f.cuts = (fun _ => halfCuts)
      ∧ ∀ h : (npUnique z).length = 2, (fun i c => f.train i (Fin.cast h.symm c)) = fun i c => halfBin (finProdFinEquiv.symm i).2 (if c = 0 then u 0 else v 0) := by
    rw [hz]
    refine ⟨_, h1, rfl, fun h => ?_⟩
    funext i c
    simp only [Fin.val_cast]
    congr 1
    simp only [Fin.ext_iff, Fin.val_zero]
  have hlen : (npUnique z).length = 2 := by rw [hz]; rfl
  have hcol : columnsAre (npUnique z) 2 = .ok ⟨hlen⟩ := by unfold columnsAre; rw [dif_pos hlen]
  simp only [answerOn, learnAnswer, fittedState, dfyClass, trainData, probRows, if_true, bind, Except.bind, hst]
  simp only [hcol, hf, matchParams, pure, Except.pure, htr hlen, hcuts]
  erw [htest]

/-- **C138** does not hold of DFy with two classes: it uses the probabilities of one class only, and the bins include their left ends but not the right ones. With two bins, a probability of 1/2 is in the bin of 1 for both
classes, so in one order of the classes the two training examples are in the same bin and in the other one they are not. -/
theorem C138_dfy_refuted {σ D : Type} (ops : EstOps σ D Bool 2) (enc : Bool → Bool) (w : World σ D Bool) (ppf : ℝ → EReal) (sv : CvxSolver) (hsv : ExactCvx sv) (qp : QPSolver) (hqp : ExactQP qp) (la : LinAlg 2)
    (hla : ExactLinAlg la) (fuel : ℕ) (tol : ℝ) :
    ¬ ∀ q : Fin 2 → ℝ, IsPrev q → ∃ a b,
      ucRun ops enc w ⟨dfyClass ppf sv qp la (fuel + 1) tol ⟨.pdf, 2, .equalWidth⟩ .l1, none, none⟩ [] [false, true] (some (.probs [![1, 0], ![1/2, 1/2]])) [] (some (.probs [q])) = .ok (some [a, b])
      ∧ ucRun ops enc w ⟨dfyClass ppf sv qp la (fuel + 1) tol ⟨.pdf, 2, .equalWidth⟩ .l1, none, none⟩ [] [true, false] (some (.probs [![0, 1], ![1/2, 1/2]])) [] (some (.probs [![q 1, q 0]])) = .ok (some [b, a]) := by
  intro h
  obtain ⟨a, b, h1, h2⟩ := h ![1, 0] ⟨fun i => by fin_cases i <;> simp, by simp⟩
  obtain ⟨a', b', h1', h2'⟩ := h ![1/2, 1/2] ⟨fun i => by fin_cases i <;> simp, by norm_num [Fin.sum_univ_two]⟩
  have hl : npUnique [false, true] = [false, true] := labelsOf_eq _ _ (by decide) (by decide)
  have hl' : npUnique [true, false] = [false, true] := labelsOf_eq _ _ (by decide) (by decide)
  rw [ucRun_given_probs ops enc w [] [] _ _ rfl rfl none none (by simp) 1 _ _ (by simp)] at h1 h2 h1' h2'
  obtain ⟨f, e⟩ := dfy_two_bins ppf sv qp la (fuel + 1) tol [false, true] hl [![1, 0], ![1/2, 1/2]] ![1, 0] ![1/2, 1/2] ![1, 0] rfl rfl rfl
  obtain ⟨f', e'⟩ := dfy_two_bins ppf sv qp la (fuel + 1) tol [false, true] hl [![1, 0], ![1/2, 1/2]] ![1, 0] ![1/2, 1/2] ![1/2, 1/2] rfl rfl rfl
  have hsame : (fun i : Fin (nDescriptors 2 * 2) => halfBin (finProdFinEquiv.symm i).2 ((![1, 0] : Fin 2 → ℝ) 0)) = fun i => halfBin (finProdFinEquiv.symm i).2 ((![1/2, 1/2] : Fin 2 → ℝ) 0) := by
    funext i
    unfold halfBin
    norm_num
  rw [hsame] at e
  have eq1 : (.ok (some [a, b]) : Except Err (Option (List Fl))) = .ok (some [a', b']) := by
    rw [← h1, ← h1', e, e']
    simp only [matchAnswer]
    cases solveCvx sv .l1 _ _ none <;> rfl
  obtain ⟨f2, e2⟩ := dfy_two_bins ppf sv qp la (fuel + 1) tol [true, false] hl' [![0, 1], ![1/2, 1/2]] ![1/2, 1/2] ![0, 1] ![0, 1] rfl rfl rfl
  obtain ⟨f3, e3⟩ := dfy_two_bins ppf sv qp la (fuel + 1) tol [true, false] hl' [![0, 1], ![1/2, 1/2]] ![1/2, 1/2] ![0, 1] ![1/2, 1/2] rfl rfl rfl
  set T : Matrix (Fin (nDescriptors 2 * 2)) (Fin 2) ℝ := fun i c => halfBin (finProdFinEquiv.symm i).2 (if c = 0 then (![1/2, 1/2] : Fin 2 → ℝ) 0 else (![0, 1] : Fin 2 → ℝ) 0) with hT
  have hT0 : ∀ i c, 0 ≤ T i c := fun i c => halfBin_nonneg _ _
  have hdesc : nDescriptors 2 = 1 := rfl
  let i0 : Fin (nDescriptors 2 * 2) := finProdFinEquiv (⟨0, by rw [hdesc]; norm_num⟩, 0)
  have hid : Identifiable T := by
    intro p p' hp hp' hpp
    have h0 := hpp i0
    have s1 := hp.2
    have s2 := hp'.2
    rw [Fin.sum_univ_two] at h0 s1 s2
    rw [Fin.sum_univ_two] at h0
    simp only [hT, i0, Equiv.symm_apply_apply, halfBin] at h0
    norm_num at h0
    funext c
    fin_cases c
    · change p 0 = p' 0
      linarith
    · exact h0
  obtain ⟨par, hpar, hA⟩ := matchAnswer_exact sv hsv qp hqp two_pos la hla fuel tol .l1 f2 T hT0 hid ![0, 1] ⟨fun i => by fin_cases i <;> simp, by simp⟩ (fun i => halfBin (finProdFinEquiv.symm i).2 ((![0, 1] : Fin 2 → ℝ) 0)) fun i => by
    rw [Fin.sum_univ_two, hT]
    simp
  obtain ⟨par', hpar', hB⟩ := matchAnswer_exact sv hsv qp hqp two_pos la hla fuel tol .l1 f3 T hT0 hid ![1, 0] ⟨fun i => by fin_cases i <;> simp, by simp⟩ (fun i => halfBin (finProdFinEquiv.symm i).2 ((![1/2, 1/2] : Fin 2 → ℝ) 0)) fun i => by
    rw [Fin.sum_univ_two, hT]
    simp
  obtain rfl : par = none := (Except.ok.inj hpar).symm
  obtain rfl : par' = none := (Except.ok.inj hpar').symm
  have hA' := (e2.symm.trans h2).symm.trans hA
  have hB' := (e3.symm.trans h2').symm.trans hB
  simp [realList] at hA' hB' eq1
  have := hA'.2.symm.trans (eq1.1.trans hB'.2)
  simp at this

end Verif.Props
