import Verif.Props.AcOptimal
import Verif.Props.PriorShift

/-!
# C162: certain posteriors

A probabilistic quantifier can be given posteriors that are certain: probability 1 for one class. They say the same as the label of that class, and the methods for posteriors then answer what the methods for labels answer.
-/

namespace Verif.Props

open Verif.Model Verif.Spec Verif.Proof Matrix

theorem oneHot_getElem {α : Type*} [DecidableEq α] (cs : List α) (hnd : cs.Nodup) (i : Fin cs.length) : oneHot cs cs[i] = fun j => if j = i then 1 else 0 := by
  funext j
  unfold oneHot
  by_cases h : j = i
  · subst h; simp
  · rw [if_neg h]
    exact if_neg fun h' => h (getElem_inj_of_nodup hnd h')

theorem oneHot_isPrev {α : Type*} [DecidableEq α] (cs : List α) (hnd : cs.Nodup) (a : α) (ha : a ∈ cs) : IsPrev (oneHot cs a) := by
  refine ⟨fun i => ?_, ?_⟩
  · unfold oneHot
    split_ifs <;> norm_num
  · obtain ⟨i, hi, rfl⟩ := List.getElem_of_mem ha
    have e := oneHot_getElem cs hnd ⟨i, hi⟩
    have e' : oneHot cs cs[i] = fun j : Fin cs.length => if j = ⟨i, hi⟩ then 1 else 0 := e
    rw [e']
    simp

theorem sum_oneHot {α : Type*} [DecidableEq α] (cs : List α) (l : List α) (j : Fin cs.length) : ((l.map (oneHot cs)).map fun row => row j).sum = l.count cs[j] := by
  induction l with
  | nil => simp
  | cons a l ih =>
    rw [List.map_cons, List.map_cons, List.sum_cons, ih, List.count_cons]
    by_cases h : cs[j] = a
    · simp [oneHot, h, add_comm]
    · have h' : ¬ a = cs[j] := fun h' => h h'.symm
      have e : oneHot cs a j = 0 := if_neg h
      rw [e, zero_add]
      rw [if_neg (by simpa using h'), add_zero]

theorem meanOf_oneHot {α : Type*} [DecidableEq α] (cs : List α) (l : List α) (j : Fin cs.length) : meanOf (l.map (oneHot cs)) (fun row => row j) = freqs cs l j := by
  unfold meanOf freqs freq
  rw [sum_oneHot, List.length_map]

theorem classRows_oneHot {α : Type*} [DecidableEq α] (cs : List α) (y P : List α) (c : α) : classRows y (P.map (oneHot cs)) c = (classRows y P c).map (oneHot cs) := classRows_map (oneHot cs) y P c

/-- The labels predicted for the examples of a class have the frequencies of the row of the confusion matrix. -/
theorem freqs_classRows {α : Type*} [DecidableEq α] (cs : List α) (y P : List α) (hl : y.length = P.length) (c : α) (j : Fin cs.length) : freqs cs (classRows y P c) j = condFreq y P c cs[j] := by
  unfold freqs freq condFreq
  have h1 : (classRows y P c).length = y.count c := selectRows_length y P hl c
  rw [h1]
  congr 2
  unfold classRows
  rw [List.count, List.countP_map, List.countP_filter]
  refine List.countP_congr fun t _ => ?_
  simp [and_comm]

theorem condMean_oneHot {α : Type*} [DecidableEq α] (cs : List α) (y P : List α) (hl : y.length = P.length) (c : α) (j : Fin cs.length) :
    condMean y (P.map (oneHot cs)) (fun row => row j) c = condFreq y P c cs[j] := by
  rw [← freqs_classRows cs y P hl c j, ← meanOf_oneHot cs, ← classRows_oneHot]
  unfold condMean meanOf classRows
  rw [List.map_map]
  congr 1
  have := selectRows_length y (P.map (oneHot cs)) (by rw [List.length_map, hl]) c
  unfold selectRows at this
  rw [← this]

section
variable {σ D α : Type} [LinearOrder α] (enc : Bool → α) (w : World σ D α) (et et' : Option ℕ) (X Xt : List D) (y : List α) (hy : y ≠ []) (r : ℕ) (hr : 0 < r)
include hy hr

omit hr in
/-- **C162** for PCC: on certain posteriors it answers what CC answers on the labels. -/
theorem C162_pcc (ops : EstOps σ D α (labelsOf y).length) (P Q : List α) (hP : P.length = r * y.length) :
    ucRun ops enc w ⟨pccClass, et, et'⟩ X y (some (.probs (P.map (oneHot (labelsOf y))))) Xt (some (.probs (Q.map (oneHot (labelsOf y)))))
      = ucRun ops enc w ⟨ccClass, et, et'⟩ X y (some (.crisp P)) Xt (some (.crisp Q)) := by
  rw [ucRun_given_probs ops enc w X Xt y pccClass rfl rfl et et' hy r _ _ (by rw [List.length_map, hP]), ucRun_given_crisp ops enc w X Xt y ccClass rfl rfl et et' hy r P _ hP]
  have e : colMeans (Q.map (oneHot (labelsOf y))) = classFreqs (labelsOf y) Q := by
    funext j
    unfold colMeans classFreqs
    rw [sum_oneHot, List.length_map]
  simp only [answerOn, learnAnswer, fittedState, pccClass, ccClass, probRows, crispLabels, keep, Except.map, e]
  rfl

/-- **C162** for PAC: on certain posteriors it answers what AC answers on the labels, with the same distance. -/
theorem C162_pac (ops : EstOps σ D α (labelsOf y).length) (sol : Solvers) (dist : Dist) (P Q : List α) (hP : P.length = r * y.length) (hPy : ∀ a ∈ P, a ∈ y) (hQ : Q ≠ []) :
    ucRun ops enc w ⟨pacClass sol dist, et, et'⟩ X y (some (.probs (P.map (oneHot (labelsOf y))))) Xt (some (.probs (Q.map (oneHot (labelsOf y)))))
      = ucRun ops enc w ⟨acClass sol dist, et, et'⟩ X y (some (.crisp P)) Xt (some (.crisp Q)) := by
  rw [pac_run enc w et et' X Xt y hy r hr ops sol dist _ (by rw [List.length_map, hP]) _ (by simpa using hQ),
    ucRun_given_crisp ops enc w X Xt y (acClass sol dist) rfl rfl et et' hy r P _ hP, answer_ac_eq y sol dist r P _ hP hQ, normalizeRows_eq y r hr P hP hPy]
  have hl : (stacked y r).length = P.length := by rw [stacked_length, hP]
  have e1 : pcmReal y r (P.map (oneHot (labelsOf y))) = cmReal y r P := by
    funext i j
    exact condMean_oneHot (labelsOf y) (stacked y r) P hl _ j
  have e2 : ∀ j, meanOf (Q.map (oneHot (labelsOf y))) (fun row => row j) = freqs (labelsOf y) Q j := meanOf_oneHot (labelsOf y) Q
  rw [e1]
  simp only [e2]

end

/-! ## EM -/

theorem mixDensity_oneHot {k : ℕ} (ptr p : Fin k → ℝ) (i : Fin k) (x : Fin k → ℝ) (hx : x = fun j => if j = i then 1 else 0) : mixDensity ptr p x = p i / ptr i := by
  unfold mixDensity
  rw [hx, Finset.sum_eq_single i (fun j _ hj => by simp [hj]) (fun h => absurd (Finset.mem_univ _) h)]
  simp [div_eq_mul_inv]

theorem posterior_oneHot {k : ℕ} (ptr p : Fin k → ℝ) (i : Fin k) (hi : 0 < p i) (hptr : 0 < ptr i) (x : Fin k → ℝ) (hx : x = fun j => if j = i then 1 else 0) : posterior ptr p x = x := by
  funext c
  unfold posterior
  rw [mixDensity_oneHot ptr p i x hx, hx]
  by_cases h : c = i
  · subst h
    simp only [if_true]
    field_simp
  · simp [h]

/-- One iteration from prevalences that are positive where the bag has examples. -/
theorem emMap_oneHot {α : Type*} [DecidableEq α] (cs : List α) (hnd : cs.Nodup) (ptr p : Fin cs.length → ℝ) (hptr : ∀ c, 0 < ptr c) (Q : List α) (hQ : ∀ a ∈ Q, a ∈ cs) (hp : ∀ i, cs[i] ∈ Q → 0 < p i) :
    emMap ptr (Q.map (oneHot cs)) p = freqs cs Q := by
  funext c
  rw [← meanOf_oneHot]
  unfold emMap meanOf
  congr 2
  refine List.map_congr_left fun x hx => ?_
  obtain ⟨a, ha, rfl⟩ := List.mem_map.1 hx
  obtain ⟨i, hi, rfl⟩ := List.getElem_of_mem (hQ a ha)
  exact congrFun (posterior_oneHot ptr p ⟨i, hi⟩ (hp ⟨i, hi⟩ ha) (hptr _) _ (oneHot_getElem cs hnd ⟨i, hi⟩)) c

theorem emIterate_oneHot {α : Type*} [DecidableEq α] (cs : List α) (hnd : cs.Nodup) (ptr : Fin cs.length → ℝ) (hptr : ∀ c, 0 < ptr c) (Q : List α) (hQ : ∀ a ∈ Q, a ∈ cs) (t : ℕ) :
    emIterate ptr (Q.map (oneHot cs)) (t + 1) = freqs cs Q := by
  unfold emIterate
  rw [Function.iterate_succ_apply']
  refine emMap_oneHot cs hnd ptr _ hptr Q hQ ?_
  cases t with
  | zero => exact fun i _ => hptr i
  | succ t =>
    intro i hi
    have h := emIterate_oneHot cs hnd ptr hptr Q hQ t
    unfold emIterate at h
    rw [h]
    unfold freqs freq
    have h1 : 0 < Q.count cs[i] := List.count_pos_iff.2 hi
    have h2 : 0 < Q.length := List.length_pos_of_mem hi
    positivity

section
variable {σ D α : Type} [LinearOrder α] (enc : Bool → α) (w : World σ D α) (et et' : Option ℕ) (X Xt : List D) (y : List α) (hy : y ≠ []) (r : ℕ)
include hy

/-- **C162** for EM: on certain posteriors it answers what CC answers on the labels, whatever the threshold and the number of iterations, if there is one at least. -/
theorem C162_em (ops : EstOps σ D α (labelsOf y).length) (eps : ℝ) (maxIter : ℕ) (hm : 0 < maxIter) (P Q : List α) (hP : P.length = r * y.length) (hQ : Q ≠ []) (hQy : ∀ a ∈ Q, a ∈ y) :
    ucRun ops enc w ⟨emClass eps maxIter, et, et'⟩ X y (some (.probs (P.map (oneHot (labelsOf y))))) Xt (some (.probs (Q.map (oneHot (labelsOf y)))))
      = ucRun ops enc w ⟨ccClass, et, et'⟩ X y (some (.crisp P)) Xt (some (.crisp Q)) := by
  rw [ucRun_given_probs ops enc w X Xt y (emClass eps maxIter) rfl rfl et et' hy r _ _ (by rw [List.length_map, hP]), ucRun_given_crisp ops enc w X Xt y ccClass rfl rfl et et' hy r P _ hP]
  obtain ⟨h1, h2, h3⟩ := emFit_eq y hy
  have hk : NeZero (labelsOf y).length := ⟨(labels_pos y hy).ne'⟩
  have hQ' : ∀ a ∈ Q, a ∈ labelsOf y := fun a ha => (mem_labelsOf y a).2 (hQy a ha)
  have hrows : ∀ x ∈ Q.map (oneHot (labelsOf y)), IsPrev x := fun x hx => by
    obtain ⟨a, ha, rfl⟩ := List.mem_map.1 hx
    exact oneHot_isPrev _ (labelsOf_nodup y) a (hQ' a ha)
  obtain ⟨T, prev', h4, -, h5, h6, -⟩ := emLoop_spec (by simpa using hQ) h2 h3 hrows eps maxIter 0 (fun _ => 1) (fun h => absurd h (lt_irrefl _))
  have hT : 0 < T := by
    rcases Nat.lt_or_ge T (0 + maxIter) with h | h
    · have := h6 h; omega
    · omega
  obtain ⟨t, rfl⟩ : ∃ t, T = t + 1 := ⟨T - 1, by omega⟩
  rw [emIterate_oneHot (labelsOf y) (labelsOf_nodup y) _ h3 Q hQ' t] at h4
  have h4' : emPredict (emFit (labelsOf y) y) (Q.map (oneHot (labelsOf y))) eps maxIter = .ok ⟨fun c => Fl.fin (freqs (labelsOf y) Q c), prev', t + 1⟩ := by
    rw [h1]
    exact h4
  have e := classFreqs_eq (labelsOf y) Q hQ
  simp only [answerOn, learnAnswer, fittedState, emClass, ccClass, probRows, crispLabels, keep, bind, Except.bind]
  rw [dif_pos (show (npUnique y).length = (labelsOf y).length from rfl)]
  change Except.map some (Except.map _ (emPredict (emFit (labelsOf y) y) (Q.map (oneHot (labelsOf y))) eps maxIter)) = Except.map some (.ok (vecList (classFreqs (labelsOf y) Q)))
  rw [h4', e]
  rfl

end


/-! ## The methods that match distributions -/

/-- A way of comparing the frequencies observed in the bag, `q`, with those expected for some prevalences: least for equal frequencies only, and convex along the segments that end in `q`. -/
structure Compares {n : ℕ} (q : Fin n → ℝ) (F : (Fin n → ℝ) → ℝ) : Prop where
  least : ∀ r, IsPrev r → r ≠ q → F q < F r
  convex : ∀ r, IsPrev r → ∀ t : ℝ, 0 ≤ t → t ≤ 1 → F (fun i => (1 - t) * q i + t * r i) ≤ (1 - t) * F q + t * F r

theorem expectedPreds_isPrev {n : ℕ} {M : Fin n → Fin n → ℝ} (hM : ∀ i, IsPrev (M i)) {p : Fin n → ℝ} (hp : IsPrev p) : IsPrev (expectedPreds M p) := by
  refine ⟨fun j => Finset.sum_nonneg fun i _ => mul_nonneg (hp.1 i) ((hM i).1 j), ?_⟩
  unfold expectedPreds
  rw [Finset.sum_comm]
  simp_rw [← Finset.mul_sum, (hM _).2, mul_one]
  exact hp.2

theorem two_ext {p q : Fin 2 → ℝ} (hp : IsPrev p) (hq : IsPrev q) (h : p 1 = q 1) : p = q := by
  have h1 := hp.2
  have h2 := hq.2
  rw [Fin.sum_univ_two] at h1 h2
  funext i
  fin_cases i
  · show p 0 = q 0
    linarith
  · exact h

/-- The best prevalences for any such comparison are the answer of AC: with two classes always, with more when AC has nothing to clip. -/
theorem best_is_adjust (sol : Solvers) (dist : Dist) {n : ℕ} (M : Matrix (Fin n) (Fin n) ℝ) (hrow : ∀ i, IsPrev (M i)) (hM : NonDegenerate M) (q : Fin n → ℝ) (hq : IsPrev q) (F : (Fin n → ℝ) → ℝ) (hF : Compares q F)
    (hcase : n = 2 ∨ ∃ x0, IsPrev x0 ∧ expectedPreds M x0 = q) (x : Fin n → ℝ) (hx : IsPrev x) (hbest : ∀ p, IsPrev p → F (expectedPreds M x) ≤ F (expectedPreds M p)) :
    adjust sol dist (fun i j => Fl.fin (M i j)) (fun j => Fl.fin (q j)) = .ok fun i => Fl.fin (x i) := by
  have key : (∃ x0, IsPrev x0 ∧ expectedPreds M x0 = q) → adjust sol dist (fun i j => Fl.fin (M i j)) (fun j => Fl.fin (q j)) = .ok fun i => Fl.fin (x i) := by
    rintro ⟨x0, h0, he⟩
    have : expectedPreds M x = q := by
      by_contra h
      have h1 := hF.least _ (expectedPreds_isPrev hrow hx) h
      have h2 := hbest x0 h0
      rw [he] at h2
      linarith
    rw [← this]
    exact C11_recovery sol dist M hM x hx
  by_cases hex : ∃ x0, IsPrev x0 ∧ expectedPreds M x0 = q
  · exact key hex
  have h2 := hcase.resolve_right hex
  subst h2
  have hd : 1/1000 < |M 1 1 - M 0 1| := by
    rcases hM with ⟨h, -⟩ | ⟨_, h⟩
    · exact absurd rfl h
    · exact h
  have hd0 : M 1 1 - M 0 1 ≠ 0 := by
    intro h
    rw [h] at hd
    norm_num at hd
  rw [C09_binary_formula _ _ (M 1 1) (M 0 1) (q 1) rfl rfl rfl hd]
  set s := (q 1 - M 0 1) / (M 1 1 - M 0 1) with hs
  have hqs : q 1 = (1 - s) * M 0 1 + s * M 1 1 := by
    rw [hs]
    field_simp
    ring
  have e1 : ∀ p : Fin 2 → ℝ, IsPrev p → expectedPreds M p 1 = (1 - p 1) * M 0 1 + p 1 * M 1 1 := by
    intro p hp
    have := hp.2
    rw [Fin.sum_univ_two] at this
    unfold expectedPreds
    rw [Fin.sum_univ_two, show p 0 = 1 - p 1 by linarith]
  -- `s` is not a prevalence
  have hout : ¬ (0 ≤ s ∧ s ≤ 1) := by
    rintro ⟨h0, h1⟩
    refine hex ⟨![1 - s, s], ⟨fun i => ?_, ?_⟩, ?_⟩
    · fin_cases i
      · show 0 ≤ 1 - s
        linarith
      · exact h0
    · rw [Fin.sum_univ_two]
      show 1 - s + s = 1
      ring
    · have hp : IsPrev ![1 - s, s] := by
        refine ⟨fun i => ?_, ?_⟩
        · fin_cases i
          · show 0 ≤ 1 - s
            linarith
          · exact h0
        · rw [Fin.sum_univ_two]
          show 1 - s + s = 1
          ring
      refine two_ext (expectedPreds_isPrev hrow hp) hq ?_
      rw [e1 _ hp, hqs]
      rfl
  -- the end of the interval that is on the side of `s`
  have hend : ∀ a : ℝ, (a = 0 ∧ s < 0) ∨ (a = 1 ∧ 1 < s) → x 1 = a := by
    intro a ha
    by_contra hne
    have hx1 := hx.mem_Icc 1
    have hp : IsPrev ![1 - a, a] := by
      refine ⟨fun i => ?_, ?_⟩
      · fin_cases i
        · show 0 ≤ 1 - a
          rcases ha with ⟨rfl, -⟩ | ⟨rfl, -⟩ <;> norm_num
        · show 0 ≤ a
          rcases ha with ⟨rfl, -⟩ | ⟨rfl, -⟩ <;> norm_num
      · rw [Fin.sum_univ_two]
        show 1 - a + a = 1
        ring
    have hxs : x 1 - s ≠ 0 := by
      intro h
      rcases ha with ⟨-, h'⟩ | ⟨-, h'⟩
      · linarith [hx1.1]
      · linarith [hx1.2]
    set t := (a - s) / (x 1 - s) with ht
    have ht' : t * (x 1 - s) = a - s := by rw [ht]; field_simp
    have ht0 : 0 ≤ t ∧ t < 1 := by
      rcases ha with ⟨rfl, h'⟩ | ⟨rfl, h'⟩
      · have h1 : 0 < x 1 := lt_of_le_of_ne hx1.1 (Ne.symm hne)
        have h2 : 0 < x 1 - s := by linarith
        exact ⟨div_nonneg (by linarith) h2.le, (div_lt_one h2).2 (by linarith)⟩
      · have h1 : x 1 < 1 := lt_of_le_of_ne hx1.2 hne
        have h2 : x 1 - s < 0 := by linarith
        refine ⟨div_nonneg_of_nonpos (by linarith) h2.le, (div_lt_one_of_neg h2).2 (by linarith)⟩
    have hmid : expectedPreds M ![1 - a, a] = fun i => (1 - t) * q i + t * expectedPreds M x i := by
      have hm : IsPrev fun i => (1 - t) * q i + t * expectedPreds M x i := by
        have hr := expectedPreds_isPrev hrow hx
        refine ⟨fun i => add_nonneg (mul_nonneg (by linarith [ht0.2]) (hq.1 i)) (mul_nonneg ht0.1 (hr.1 i)), ?_⟩
        rw [Finset.sum_add_distrib, ← Finset.mul_sum, ← Finset.mul_sum, hq.2, hr.2]
        ring
      refine two_ext (expectedPreds_isPrev hrow hp) hm ?_
      rw [e1 _ hp, e1 x hx]
      show (1 - a) * M 0 1 + a * M 1 1 = _
      rw [hqs]
      have : a = s + t * (x 1 - s) := by rw [ht']; ring
      rw [this]
      ring
    have hr := expectedPreds_isPrev hrow hx
    have hne' : expectedPreds M x ≠ q := fun h => hex ⟨x, hx, h⟩
    have h1 := hF.convex _ hr t ht0.1 ht0.2.le
    rw [← hmid] at h1
    have h2 := hF.least _ hr hne'
    have h3 := hbest _ hp
    nlinarith [ht0.2]
  have hx0 : x 0 = 1 - x 1 := by
    have := hx.2
    rw [Fin.sum_univ_two] at this
    linarith
  rcases lt_or_ge s 0 with h | h
  · have := hend 0 (Or.inl ⟨rfl, h⟩)
    rw [max_eq_left (by rw [min_eq_left (by linarith)]; exact h.le)]
    congr 1
    funext i
    fin_cases i
    · show Fl.fin (1 - 0) = Fl.fin (x 0)
      rw [hx0, this]
    · show Fl.fin 0 = Fl.fin (x 1)
      rw [this]
  · have h1 : 1 < s := by
      by_contra h1
      exact hout ⟨h, not_lt.1 h1⟩
    have := hend 1 (Or.inr ⟨rfl, h1⟩)
    rw [min_eq_right h1.le, max_eq_right zero_le_one]
    congr 1
    funext i
    fin_cases i
    · show Fl.fin (1 - 1) = Fl.fin (x 0)
      rw [hx0, this]
    · show Fl.fin 1 = Fl.fin (x 1)
      rw [this]

/-! Pointwise losses -/

theorem hd_convex (u v t : ℝ) (hu : 0 ≤ u) (hv : 0 ≤ v) (h0 : 0 ≤ t) (h1 : t ≤ 1) : (Real.sqrt u - Real.sqrt ((1 - t) * u + t * v)) ^ 2 ≤ t * (Real.sqrt u - Real.sqrt v) ^ 2 := by
  have h2 : 0 ≤ (1 - t) * u + t * v := add_nonneg (mul_nonneg (by linarith) hu) (mul_nonneg h0 hv)
  have a := Real.sq_sqrt hu
  have b := Real.sq_sqrt hv
  have c := Real.sq_sqrt h2
  have hc : (1 - t) * Real.sqrt u + t * Real.sqrt v ≤ Real.sqrt ((1 - t) * u + t * v) := by
    apply Real.le_sqrt_of_sq_le
    have : 0 ≤ t * (1 - t) * (Real.sqrt u - Real.sqrt v) ^ 2 := by
      have := mul_nonneg h0 (sub_nonneg.2 h1)
      positivity
    nlinarith
  nlinarith [mul_le_mul_of_nonneg_left hc (Real.sqrt_nonneg u)]

/-- The named distances compare frequencies, also when these are written in another way `E`. -/
theorem compares_named {n m : ℕ} (dist : Dist) (hd : dist ≠ .other) (q : Fin n → ℝ) (hq : IsPrev q) (E : (Fin n → ℝ) → Fin m → ℝ) (h0 : ∀ r, IsPrev r → ∀ k, 0 ≤ E r k)
    (haff : ∀ r t k, E (fun i => (1 - t) * q i + t * r i) k = (1 - t) * E q k + t * E r k) (hinj : ∀ r, IsPrev r → E r = E q → r = q) : Compares q fun r => distanceNamed dist (E q) (E r) := by
  have hzero : distanceNamed dist (E q) (E q) = 0 := by
    cases dist <;> simp [distanceNamed]
  constructor
  · intro r hr hne
    show distanceNamed dist (E q) (E q) < distanceNamed dist (E q) (E r)
    rw [hzero]
    obtain ⟨k, hk⟩ : ∃ k, E r k ≠ E q k := by
      by_contra h
      push Not at h
      exact hne (hinj r hr (funext h))
    cases dist with
    | other => exact absurd rfl hd
    | L1 =>
      refine Finset.sum_pos' (fun _ _ => abs_nonneg _) ⟨k, Finset.mem_univ k, abs_pos.2 (sub_ne_zero.2 (Ne.symm hk))⟩
    | L2 =>
      refine Finset.sum_pos' (fun _ _ => sq_nonneg _) ⟨k, Finset.mem_univ k, ?_⟩
      have := sub_ne_zero.2 hk
      positivity
    | HD =>
      refine Finset.sum_pos' (fun _ _ => sq_nonneg _) ⟨k, Finset.mem_univ k, ?_⟩
      have : Real.sqrt (E q k) - Real.sqrt (E r k) ≠ 0 := by
        intro h
        exact hk ((Real.sqrt_inj (h0 r hr k) (h0 q hq k)).1 (sub_eq_zero.1 h).symm)
      positivity
  · intro r hr t ht0 ht1
    show distanceNamed dist (E q) (E _) ≤ (1 - t) * distanceNamed dist (E q) (E q) + t * distanceNamed dist (E q) (E r)
    rw [hzero, mul_zero, zero_add]
    cases dist with
    | other => exact absurd rfl hd
    | L1 =>
      simp only [distanceNamed, Finset.mul_sum]
      refine Finset.sum_le_sum fun k _ => ?_
      rw [haff, show E q k - ((1 - t) * E q k + t * E r k) = t * (E q k - E r k) by ring, abs_mul, abs_of_nonneg ht0]
    | L2 =>
      simp only [distanceNamed, Finset.mul_sum]
      refine Finset.sum_le_sum fun k _ => ?_
      rw [haff, show (1 - t) * E q k + t * E r k - E q k = t * (E r k - E q k) by ring, mul_pow]
      have : t ^ 2 ≤ t := by nlinarith
      exact mul_le_mul_of_nonneg_right this (sq_nonneg _)
    | HD =>
      simp only [distanceNamed, Finset.mul_sum]
      refine Finset.sum_le_sum fun k _ => ?_
      rw [haff]
      exact hd_convex _ _ t (h0 q hq k) (h0 r hr k) ht0 ht1

theorem nonDegenerate_inj {n : ℕ} {M : Matrix (Fin n) (Fin n) ℝ} (hrow : ∀ i, IsPrev (M i)) (hM : NonDegenerate M) (x : Fin n → ℝ) (hx : ∀ j, ∑ i, x i * M i j = 0) : x = 0 := by
  have hdet : M.det ≠ 0 := by
    rcases hM with ⟨-, h⟩ | ⟨h2, h⟩
    · exact h
    · subst h2
      have h' : 1/1000 < |M 1 1 - M 0 1| := h
      rw [det_fin_two]
      have a := (hrow 0).2
      have b := (hrow 1).2
      rw [Fin.sum_univ_two] at a b
      intro h0
      have : M 1 1 - M 0 1 = 0 := by
        have a' : M 0 0 = 1 - M 0 1 := by linarith
        have b' : M 1 0 = 1 - M 1 1 := by linarith
        rw [a', b'] at h0
        linarith
      rw [this] at h'
      norm_num at h'
  by_contra hne
  exact hdet (Matrix.exists_vecMul_eq_zero_iff.1 ⟨x, hne, funext hx⟩)

/-- The name, in AC, of a distance of the matching methods. -/
def dfNamed {m : ℕ} : DfDistance m → Dist
  | .hd => .HD
  | .l1 => .L1
  | .l2 => .L2
  | .fn _ => .other

/-- What a matching method answers when the frequencies of the labels are written in the form `E`. -/
theorem match_is_adjust (sol : Solvers) (dist : Dist) (sv : CvxSolver) (hsv : ExactCvx sv) (qp : QPSolver) (hqp : ExactQP qp) {F : Type} {m n : ℕ} (hn : 0 < n) (la : LinAlg n) (hla : ExactLinAlg la) (fuel : ℕ) (tol : ℝ)
    (distance : DfDistance m) (hd : (dfNamed distance) ≠ .other) (f : F) (M : Matrix (Fin n) (Fin n) ℝ) (hrow : ∀ i, IsPrev (M i)) (hM : NonDegenerate M) (q : Fin n → ℝ) (hq : IsPrev q)
    (hcase : n = 2 ∨ ∃ x0, IsPrev x0 ∧ expectedPreds M x0 = q) (E : (Fin n → ℝ) → Fin m → ℝ) (h0 : ∀ r, IsPrev r → ∀ k, 0 ≤ E r k)
    (haff : ∀ r t k, E (fun i => (1 - t) * q i + t * r i) k = (1 - t) * E q k + t * E r k) (hinj : ∀ r, IsPrev r → E r = E q → r = q) (s : ℝ) (hs : ∀ r, IsPrev r → ∑ k, E r k = s)
    (T : Matrix (Fin m) (Fin n) ℝ) (hT : ∀ k j, T k j = E (M j) k) (hmix : ∀ p, IsPrev p → ∀ k, ∑ j, T k j * p j = E (expectedPreds M p) k)
    (hker : ∀ x : Fin n → ℝ, (∀ k, ∑ j, T k j * x j = 0) → ∀ j, ∑ i, x i * M i j = 0) :
    ∃ par, matchParams la (fuel + 1) distance T = .ok par
      ∧ (matchAnswer sv qp tol distance ⟨f, T, par, none, none⟩ (E q)).2 = ((adjust sol dist (fun i j => Fl.fin (M i j)) (fun j => Fl.fin (q j))).map vecList).map some := by
  have hcmp := compares_named (dfNamed distance) hd q hq E h0 haff hinj
  have conclude : ∀ x, IsPrev x → (∀ p, IsPrev p → distanceNamed (dfNamed distance) (E q) (fun k => ∑ j, T k j * x j) ≤ distanceNamed (dfNamed distance) (E q) (fun k => ∑ j, T k j * p j)) →
      ((adjust sol dist (fun i j => Fl.fin (M i j)) (fun j => Fl.fin (q j))).map vecList).map some = .ok (some (realList x)) := by
    intro x hx hb
    rw [best_is_adjust sol dist M hrow hM q hq _ hcmp hcase x hx fun p hp => ?_]
    · rfl
    · have h1 := hb p hp
      rw [show (fun k => ∑ j, T k j * x j) = E (expectedPreds M x) from funext (hmix x hx), show (fun k => ∑ j, T k j * p j) = E (expectedPreds M p) from funext (hmix p hp)] at h1
      exact h1
  have hT0 : ∀ k j, 0 ≤ T k j := fun k j => by rw [hT]; exact h0 _ (hrow j) k
  cases distance with
  | fn d => exact absurd rfl hd
  | l1 =>
    obtain ⟨pr, x, h1, -, hx, hopt⟩ := C73_solve_l1_optimal sv hsv hn T (E q) (h0 q hq) none
    refine ⟨none, rfl, ?_⟩
    rw [conclude x hx hopt]
    simp only [Option.map_none] at h1
    simp only [matchAnswer, h1]
  | hd =>
    obtain ⟨pr, x, h1, -, hx, hopt⟩ := C73_solve_hd_optimal sv hsv hn T (E q) (h0 q hq) hT0 s (fun j => by simp_rw [hT]; exact hs _ (hrow j)) none
    refine ⟨none, rfl, ?_⟩
    rw [conclude x hx hopt]
    simp only [Option.map_none] at h1
    simp only [matchAnswer, h1]
  | l2 =>
    obtain ⟨par, x, h1, h2, h3, h4⟩ := C26_l2_exact qp hqp la hla hn T (E q) fuel fun x hx => nonDegenerate_inj hrow hM x (hker x fun k => congrFun hx k)
    refine ⟨some par, by simp only [matchParams, h1], ?_⟩
    rw [conclude x h3 h4]
    simp only [matchAnswer, h2, Except.map]


theorem cmReal_isPrev {α : Type} [LinearOrder α] (y : List α) (r : ℕ) (hr : 0 < r) (P : List α) (hP : P.length = r * y.length) (hPy : ∀ a ∈ P, a ∈ y) (i : Fin (labelsOf y).length) : IsPrev (cmReal y r P i) := by
  have hl : (stacked y r).length = P.length := by rw [stacked_length, hP]
  have hi : (labelsOf y)[i] ∈ stacked y r := stacked_mem y r hr _ ((mem_labelsOf y _).1 (List.getElem_mem _))
  have e : cmReal y r P i = freqs (labelsOf y) (classRows (stacked y r) P (labelsOf y)[i]) := funext fun j => (freqs_classRows _ _ _ hl _ j).symm
  rw [e]
  refine freqs_isPrev _ (labelsOf_nodup y) _ ?_ ?_
  · intro h
    have h1 : (classRows (stacked y r) P (labelsOf y)[i]).length = (stacked y r).count (labelsOf y)[i] := selectRows_length _ P hl _
    rw [h] at h1
    exact absurd h1.symm (List.count_pos_iff.2 hi).ne'
  · intro a ha
    unfold classRows at ha
    obtain ⟨t, ht, rfl⟩ := List.mem_map.1 ha
    exact (mem_labelsOf y _).2 (hPy _ (List.of_mem_zip (List.mem_filter.1 ht).1).2)

theorem friedmanRow_oneHot {α : Type} [LinearOrder α] (y : List α) (a : α) (prevs : Fin (labelsOf y).length → ℝ) (h0 : ∀ j, 0 < prevs j) (h1 : ∀ j, prevs j ≤ 1) : friedmanRow prevs (oneHot (labelsOf y) a) = oneHot (labelsOf y) a := by
  funext j
  unfold friedmanRow oneHot
  by_cases h : (labelsOf y)[j] = a
  · rw [if_pos h, if_pos (h1 j)]
  · rw [if_neg h, if_neg (not_le.2 (h0 j))]

section
variable {σ D α : Type} [LinearOrder α] (enc : Bool → α) (w : World σ D α) (et et' : Option ℕ) (X Xt : List D) (y : List α) (hy : y ≠ []) (r : ℕ) (hr : 0 < r)
include hy hr

/-- The case of C162 for the methods that match: the predictions on the training set are informative, and there are two classes or some prevalences explain the predictions on the bag. -/
def AcExact (y : List α) (r : ℕ) (P Q : List α) : Prop :=
  NonDegenerate (cmReal y r P) ∧ ((labelsOf y).length = 2 ∨ ∃ x, IsPrev x ∧ expectedPreds (cmReal y r P) x = freqs (labelsOf y) Q)

theorem ac_run_eq {k : ℕ} (ops : EstOps σ D α k) (sol : Solvers) (dist : Dist) (P Q : List α) (hP : P.length = r * y.length) (hPy : ∀ a ∈ P, a ∈ y) (hQ : Q ≠ []) :
    ucRun ops enc w ⟨acClass sol dist, et, et'⟩ X y (some (.crisp P)) Xt (some (.crisp Q))
      = ((adjust sol dist (fun i j => Fl.fin (cmReal y r P i j)) (fun j => Fl.fin (freqs (labelsOf y) Q j))).map vecList).map some := by
  rw [ucRun_given_crisp ops enc w X Xt y (acClass sol dist) rfl rfl et et' hy r P _ hP, answer_ac_eq y sol dist r P _ hP hQ, normalizeRows_eq y r hr P hP hPy]

/-- **C162** for FriedmanME: on certain posteriors it answers what AC answers on the labels. -/
theorem C162_friedman (ops : EstOps σ D α (labelsOf y).length) (sol : Solvers) (dist : Dist) (sv : CvxSolver) (hsv : ExactCvx sv) (qp : QPSolver) (hqp : ExactQP qp) (la : LinAlg (labelsOf y).length) (hla : ExactLinAlg la) (fuel : ℕ) (tol : ℝ)
    (distance : DfDistance (labelsOf y).length) (hd : dfNamed distance ≠ .other) (P Q : List α) (hP : P.length = r * y.length) (hPy : ∀ a ∈ P, a ∈ y) (hQ : Q ≠ []) (hQy : ∀ a ∈ Q, a ∈ y) (h : AcExact y r P Q) :
    ucRun ops enc w ⟨friedmanClass sv qp la (fuel + 1) tol distance, et, et'⟩ X y (some (.probs (P.map (oneHot (labelsOf y))))) Xt (some (.probs (Q.map (oneHot (labelsOf y)))))
      = ucRun ops enc w ⟨acClass sol dist, et, et'⟩ X y (some (.crisp P)) Xt (some (.crisp Q)) := by
  rw [ac_run_eq enc w et et' X Xt y hy r hr ops sol dist P Q hP hPy hQ]
  have hl : (stacked y r).length = P.length := by rw [stacked_length, hP]
  have hP' : (P.map (oneHot (labelsOf y))).length = r * y.length := by rw [List.length_map, hP]
  have hl' : (stacked y r).length = (P.map (oneHot (labelsOf y))).length := by rw [List.length_map, hl]
  have hQ' : ∀ a ∈ Q, a ∈ labelsOf y := fun a ha => (mem_labelsOf y a).2 (hQy a ha)
  have hrow := cmReal_isPrev y r hr P hP hPy
  obtain ⟨fit, h1, h1a⟩ : ∃ fit, friedmanFit (labelsOf y) y (stacked y r) (P.map (oneHot (labelsOf y))) = .ok fit
      ∧ fit = ⟨fun j => (y.count (labelsOf y)[j] : ℝ) / y.length, fun i c => meanRows ((selectRows (stacked y r) (P.map (oneHot (labelsOf y))) (labelsOf y)[c]).map (friedmanRow fun j => (y.count (labelsOf y)[j] : ℝ) / y.length)) i⟩ := by
    refine ⟨_, ?_, rfl⟩
    unfold friedmanFit
    rw [if_neg (not_not.2 hl')]
  have hyl : 0 < y.length := List.length_pos_iff.2 hy
  have hp0 : ∀ j, 0 < fit.prevs j := by
    intro j
    rw [h1a]
    have : 0 < y.count (labelsOf y)[j] := List.count_pos_iff.2 ((mem_labelsOf y _).1 (List.getElem_mem _))
    show 0 < (y.count (labelsOf y)[j] : ℝ) / y.length
    positivity
  have hp1 : ∀ j, fit.prevs j ≤ 1 := by
    intro j
    rw [h1a]
    show (y.count (labelsOf y)[j] : ℝ) / y.length ≤ 1
    rw [div_le_one (by exact_mod_cast hyl)]
    exact_mod_cast List.count_le_length
  have hfr : ∀ l : List α, (l.map (oneHot (labelsOf y))).map (friedmanRow fit.prevs) = l.map (oneHot (labelsOf y)) := by
    intro l
    rw [List.map_map]
    exact List.map_congr_left fun a _ => friedmanRow_oneHot y a _ hp0 hp1
  have htest : friedmanTest fit (Q.map (oneHot (labelsOf y))) = freqs (labelsOf y) Q := by
    funext j
    unfold friedmanTest
    rw [hfr]
    exact meanOf_oneHot (labelsOf y) Q j
  have hT : ∀ i c, fit.train i c = cmReal y r P c i := by
    intro i c
    have e : fit.train i c = meanRows ((selectRows (stacked y r) (P.map (oneHot (labelsOf y))) (labelsOf y)[c]).map (friedmanRow fit.prevs)) i := by
      rw [h1a]
    rw [e, show selectRows (stacked y r) (P.map (oneHot (labelsOf y))) (labelsOf y)[c] = (classRows (stacked y r) P (labelsOf y)[c]).map (oneHot (labelsOf y)) from classRows_oneHot _ _ _ _, hfr]
    exact (meanOf_oneHot (labelsOf y) _ i).trans (freqs_classRows _ _ _ hl _ i)
  obtain ⟨par, hpar, hval⟩ := match_is_adjust sol dist sv hsv qp hqp (labels_pos y hy) la hla fuel tol distance hd fit (cmReal y r P) hrow h.1 (freqs (labelsOf y) Q) (freqs_isPrev _ (labelsOf_nodup y) _ hQ hQ') h.2 (fun v => v)
    (fun v hv => hv.1) (fun _ _ _ => rfl) (fun _ _ e => e) 1 (fun v hv => hv.2) fit.train hT
    (fun p _ k => Finset.sum_congr rfl fun j _ => by rw [hT, mul_comm])
    (fun x hx j => by
      rw [← hx j]
      exact Finset.sum_congr rfl fun i _ => by rw [hT, mul_comm])
  rw [ucRun_given_probs ops enc w X Xt y (friedmanClass sv qp la (fuel + 1) tol distance) rfl rfl et et' hy r _ _ hP']
  refine Eq.trans ?_ hval
  rw [← htest]
  clear hval htest hT hfr h1a hp0 hp1
  generalize P.map (oneHot (labelsOf y)) = R at *
  generalize Q.map (oneHot (labelsOf y)) = S at *
  change answerOn (friedmanClass (k := (npUnique y).length) sv qp la (fuel + 1) tol distance) y r (.probs R) (.probs S) = _
  have h1' : friedmanFit (npUnique y) y (stacked y r) R = .ok fit := h1
  simp only [answerOn, learnAnswer, fittedState, friedmanClass, trainData, probRows, columnsAre_self, if_true, bind, Except.bind]
  simp only [Fin.cast_eq_self]
  have h3' : List.map (fun (r : Fin (npUnique y).length → ℝ) j => r j) R = R := List.map_id _
  rw [h3', h1']
  dsimp only
  have h2' : matchParams la (fuel + 1) distance (fun i c => fit.train i c) = .ok par := hpar
  erw [h2']
  rfl

end

/-! ### DFy -/

theorem binShare_oneHot {α : Type*} [DecidableEq α] {nb : ℕ} (cuts : Fin (nb + 1) → EReal) (cs : List α) (d : Fin cs.length) (l : List α) (hl : l ≠ []) (b : Fin nb) :
    binShare cuts ((l.map (oneHot cs)).map fun row => row d) b = freqs cs l d * binShare cuts [1] b + (1 - freqs cs l d) * binShare cuts [0] b := by
  have key : ∀ (p : ℝ → Bool), (((l.map (oneHot cs)).map fun row => row d).countP p : ℝ) = l.count cs[d] * ([(1:ℝ)].countP p : ℕ) + (l.length - l.count cs[d]) * ([(0:ℝ)].countP p : ℕ) := by
    intro p
    clear hl
    induction l with
    | nil => simp
    | cons a l ih =>
      rw [List.map_cons, List.map_cons, List.countP_cons, Nat.cast_add, ih, List.count_cons, List.length_cons]
      by_cases h : cs[d] = a
      · have e : oneHot cs a d = 1 := if_pos h
        rw [e, if_pos (show (a == cs[d]) = true by simpa using h.symm)]
        simp only [List.countP_cons, List.countP_nil]
        push_cast
        ring
      · have e : oneHot cs a d = 0 := if_neg h
        rw [e, if_neg (show ¬ (a == cs[d]) = true by simpa using fun h' : a = cs[d] => h h'.symm)]
        simp only [List.countP_cons, List.countP_nil]
        push_cast
        ring
  have hl0 : (l.length : ℝ) ≠ 0 := by simpa using hl
  unfold binShare
  rw [key, List.length_map, List.length_map]
  unfold freqs freq
  simp only [List.length_singleton, Nat.cast_one, div_one]
  field_simp

/-- The first of at least two bins of equal width has the value 0 and not the value 1. -/
theorem width_first (ppf : ℝ → EReal) {α : Type*} [DecidableEq α] (x : List ℝ) (y classes : List α) (n : ℕ) (hn : 2 ≤ n) (cuts : Fin (n + 1) → EReal) (h : computeBincuts ppf x y classes n .equalWidth (some (0, 1)) = .ok cuts) :
    binShare cuts [0] ⟨0, by omega⟩ = 1 ∧ binShare cuts [1] ⟨0, by omega⟩ = 0 := by
  have hn0 : (0:ℝ) < n := by exact_mod_cast (by omega : 0 < n)
  have hn1 : (1:ℝ) ≤ n := by exact_mod_cast (by omega : 1 ≤ n)
  have h' : cuts = fun i => if i = Fin.last n then ⊤ else if i = 0 then ⊥ else ((linspace 0 1 n i : ℝ) : EReal) := by
    simp only [computeBincuts, binRange, binEdges] at h
    rw [if_neg (show ¬ n = 0 by omega), if_neg (show ¬ (1:ℝ) < 0 by norm_num), if_neg (show ¬ (0:ℝ) = 1 by norm_num)] at h
    exact (Except.ok.inj h).symm
  have c0 : cuts (⟨0, by omega⟩ : Fin n).castSucc = ⊥ := by
    rw [h']
    beta_reduce
    rw [if_neg (by rw [Fin.ext_iff]; simp; omega), if_pos (by rfl)]
  have c1 : cuts (⟨0, by omega⟩ : Fin n).succ = ((1 / n : ℝ) : EReal) := by
    rw [h']
    beta_reduce
    rw [if_neg (by rw [Fin.ext_iff]; simp; omega), if_neg (by rw [Fin.ext_iff]; simp)]
    simp [linspace]
  unfold binShare
  simp only [c0, c1, List.countP_singleton, List.length_singleton]
  constructor
  · rw [if_pos]
    · simp
    · simp only [decide_eq_true_eq]
      exact ⟨bot_le, by rw [EReal.coe_lt_coe_iff]; positivity⟩
  · rw [if_neg]
    · simp
    · simp only [decide_eq_true_eq, not_and, not_lt]
      intro _
      rw [EReal.coe_le_coe_iff, div_le_one hn0]
      exact hn1

theorem dfFit_cuts (ppf : ℝ → EReal) {D α : Type*} [DecidableEq α] {nd : ℕ} (kind : CumKind) (cfg : DfCfg) (range : Option (ℝ × ℝ)) (att : Fin nd → D → ℝ) (classes y yExt : List α) (rows : List D) (fit : DfFit nd cfg.nBins classes.length)
    (h : dfFit ppf kind cfg range att classes y yExt rows = .ok fit) (d : Fin nd) : computeBincuts ppf (rows.map (att d)) y classes cfg.nBins cfg.strategy range = .ok (fit.cuts d) := by
  unfold dfFit at h
  cases h1 : (seqFin fun d => computeBincuts ppf (rows.map (att d)) y classes cfg.nBins cfg.strategy range) with
  | error e => rw [h1] at h; cases h
  | ok cuts =>
    rw [h1] at h
    dsimp only at h
    split_ifs at h
    split at h
    · cases h
    · cases h
      exact (seqFin_ok _ _).1 h1 d

/-- The distributions of DFy for labels with frequencies `v`. -/
noncomputable def dfyForm {n nb : ℕ} (cuts : Fin (nDescriptors n) → Fin (nb + 1) → EReal) (v : Fin n → ℝ) : Fin (nDescriptors n * nb) → ℝ :=
  stackBlocks fun d b => v (Fin.castLE (nDescriptors_le n) d) * binShare (cuts d) [1] b + (1 - v (Fin.castLE (nDescriptors_le n) d)) * binShare (cuts d) [0] b

theorem dfyForm_at {n nb : ℕ} (cuts : Fin (nDescriptors n) → Fin (nb + 1) → EReal) (v : Fin n → ℝ) (d : Fin (nDescriptors n)) (b : Fin nb) :
    dfyForm cuts v (finProdFinEquiv (d, b)) = v (Fin.castLE (nDescriptors_le n) d) * binShare (cuts d) [1] b + (1 - v (Fin.castLE (nDescriptors_le n) d)) * binShare (cuts d) [0] b := by
  unfold dfyForm stackBlocks
  rw [Equiv.symm_apply_apply]

/-- With two classes only the first is described; their frequencies add up to 1. -/
theorem described_ext {n : ℕ} {v u : Fin n → ℝ} (hs : ∑ i, v i = ∑ i, u i) (h : ∀ d : Fin (nDescriptors n), v (Fin.castLE (nDescriptors_le n) d) = u (Fin.castLE (nDescriptors_le n) d)) : v = u := by
  by_cases h2 : n = 2
  · subst h2
    have h0 : v 0 = u 0 := h ⟨0, by decide⟩
    rw [Fin.sum_univ_two, Fin.sum_univ_two, h0] at hs
    funext i
    fin_cases i
    · exact h0
    · show v 1 = u 1
      linarith
  · funext i
    exact h ⟨i, by unfold nDescriptors; rw [if_neg h2]; exact i.2⟩

section
variable {σ D α : Type} [LinearOrder α] (enc : Bool → α) (w : World σ D α) (et et' : Option ℕ) (X Xt : List D) (y : List α) (hy : y ≠ []) (r : ℕ) (hr : 0 < r)
include hy hr

/-- **C162** for DFy (and HDy) with histograms of at least two bins of equal width: on certain posteriors it answers what AC answers on the labels. -/
theorem C162_dfy (ops : EstOps σ D α (labelsOf y).length) (sol : Solvers) (dist : Dist) (ppf : ℝ → EReal) (sv : CvxSolver) (hsv : ExactCvx sv) (qp : QPSolver) (hqp : ExactQP qp) (la : LinAlg (labelsOf y).length) (hla : ExactLinAlg la)
    (fuel : ℕ) (tol : ℝ) (cfg : DfCfg) (hf : cfg.f = .pdf) (hst : cfg.strategy = .equalWidth) (hnb : 2 ≤ cfg.nBins) (distance : DfDistance (nDescriptors (labelsOf y).length * cfg.nBins)) (hd : dfNamed distance ≠ .other)
    (P Q : List α) (hP : P.length = r * y.length) (hPy : ∀ a ∈ P, a ∈ y) (hQ : Q ≠ []) (hQy : ∀ a ∈ Q, a ∈ y) (h : AcExact y r P Q) :
    ucRun ops enc w ⟨dfyClass ppf sv qp la (fuel + 1) tol cfg distance, et, et'⟩ X y (some (.probs (P.map (oneHot (labelsOf y))))) Xt (some (.probs (Q.map (oneHot (labelsOf y)))))
      = ucRun ops enc w ⟨acClass sol dist, et, et'⟩ X y (some (.crisp P)) Xt (some (.crisp Q)) := by
  rw [ac_run_eq enc w et et' X Xt y hy r hr ops sol dist P Q hP hPy hQ]
  have hl : (stacked y r).length = P.length := by rw [stacked_length, hP]
  have hP' : (P.map (oneHot (labelsOf y))).length = r * y.length := by rw [List.length_map, hP]
  have hl' : (stacked y r).length = (P.map (oneHot (labelsOf y))).length := by rw [List.length_map, hl]
  have hQ' : ∀ a ∈ Q, a ∈ labelsOf y := fun a ha => (mem_labelsOf y a).2 (hQy a ha)
  have hrow := cmReal_isPrev y r hr P hP hPy
  have hPne : P.map (oneHot (labelsOf y)) ≠ [] := by
    intro h0
    have h9 : 0 < r * y.length := Nat.mul_pos hr (List.length_pos_iff.2 hy)
    rw [← hP', h0] at h9
    exact absurd h9 (lt_irrefl _)
  obtain ⟨fit, h1, h2, h3, h4⟩ := C43_dfy_distributions ppf cfg hf (by omega) (labelsOf y) y (stacked y r) _ hPne hl' (fun c hc => stacked_mem y r hr _ ((mem_labelsOf y _).1 hc)) (.inl hst)
  obtain ⟨q, h5, h6⟩ := h4 (Q.map (oneHot (labelsOf y))) (by simpa using hQ)
  have hcut : ∀ d, binShare (fit.cuts d) [0] ⟨0, by omega⟩ = 1 ∧ binShare (fit.cuts d) [1] ⟨0, by omega⟩ = 0 := fun d => by
    have := dfFit_cuts ppf .whole cfg (some (0, 1)) (dfyAtt (labelsOf y).length) (labelsOf y) y (stacked y r) _ fit h1 d
    rw [hst] at this
    exact width_first ppf _ y (labelsOf y) cfg.nBins hnb _ this
  have hsh : ∀ (d) (v : ℝ), IsPrev (binShare (fit.cuts d) [v]) := fun d v => binShare_isPrev (by omega) (h2 d) (by simp)
  have hq : q = dfyForm fit.cuts (freqs (labelsOf y) Q) := by
    funext k
    obtain ⟨⟨d, b⟩, rfl⟩ := finProdFinEquiv.surjective k
    rw [dfyForm_at]
    exact (congrFun (h6 d).1 b).trans (binShare_oneHot (fit.cuts d) (labelsOf y) (Fin.castLE (nDescriptors_le _) d) Q hQ b)
  have hT : ∀ k c, fit.train k c = dfyForm fit.cuts (cmReal y r P c) k := by
    intro k c
    obtain ⟨⟨d, b⟩, rfl⟩ := finProdFinEquiv.surjective k
    rw [dfyForm_at]
    have e := congrFun (h3 c d).1 b
    rw [classRows_oneHot] at e
    have hc : (labelsOf y)[c] ∈ stacked y r := stacked_mem y r hr _ ((mem_labelsOf y _).1 (List.getElem_mem _))
    have hne : classRows (stacked y r) P (labelsOf y)[c] ≠ [] := classRows_ne_nil _ _ hl _ hc
    have e2 := binShare_oneHot (fit.cuts d) (labelsOf y) (Fin.castLE (nDescriptors_le _) d) _ hne b
    rw [freqs_classRows _ _ _ hl] at e2
    exact e.trans e2
  have hsumE : ∀ (v : Fin (labelsOf y).length → ℝ) d, ∑ b, dfyForm fit.cuts v (finProdFinEquiv (d, b)) = 1 := by
    intro v d
    simp only [dfyForm_at]
    rw [Finset.sum_add_distrib, ← Finset.mul_sum, ← Finset.mul_sum, (hsh d 1).2, (hsh d 0).2]
    ring
  have hfirst : ∀ (v : Fin (labelsOf y).length → ℝ) d, dfyForm fit.cuts v (finProdFinEquiv (d, ⟨0, by omega⟩)) = 1 - v (Fin.castLE (nDescriptors_le _) d) := by
    intro v d
    rw [dfyForm_at, (hcut d).1, (hcut d).2]
    ring
  have hle1 : ∀ v : Fin (labelsOf y).length → ℝ, IsPrev v → ∀ i, v i ≤ 1 := fun v hv i => by
    rw [← hv.2]
    exact Finset.single_le_sum (fun j _ => hv.1 j) (Finset.mem_univ i)
  obtain ⟨par, hpar, hval⟩ := match_is_adjust sol dist sv hsv qp hqp (labels_pos y hy) la hla fuel tol distance hd fit (cmReal y r P) hrow h.1 (freqs (labelsOf y) Q) (freqs_isPrev _ (labelsOf_nodup y) _ hQ hQ') h.2 (dfyForm fit.cuts)
    (fun v hv k => by
      obtain ⟨⟨d, b⟩, rfl⟩ := finProdFinEquiv.surjective k
      rw [dfyForm_at]
      have a1 := hv.1 (Fin.castLE (nDescriptors_le _) d)
      have a2 := hle1 v hv (Fin.castLE (nDescriptors_le _) d)
      have a3 := (hsh d 1).1 b
      have a4 := (hsh d 0).1 b
      have a5 : 0 ≤ 1 - v (Fin.castLE (nDescriptors_le _) d) := by linarith
      positivity)
    (fun v t k => by
      obtain ⟨⟨d, b⟩, rfl⟩ := finProdFinEquiv.surjective k
      simp only [dfyForm_at]
      ring)
    (fun v hv e => by
      refine described_ext (by rw [hv.2, (freqs_isPrev _ (labelsOf_nodup y) _ hQ hQ').2]) fun d => ?_
      have := congrFun e (finProdFinEquiv (d, ⟨0, by omega⟩))
      rw [hfirst, hfirst] at this
      linarith)
    (nDescriptors (labelsOf y).length)
    (fun v _ => by
      rw [← finProdFinEquiv.sum_comp, Fintype.sum_prod_type]
      simp [hsumE])
    fit.train hT
    (fun p hp k => by
      obtain ⟨⟨d, b⟩, rfl⟩ := finProdFinEquiv.surjective k
      simp only [hT, dfyForm_at]
      have e : expectedPreds (cmReal y r P) p (Fin.castLE (nDescriptors_le _) d) = ∑ j, p j * cmReal y r P j (Fin.castLE (nDescriptors_le _) d) := rfl
      rw [e]
      have e2 : ∀ a c : ℝ, (∑ j, p j * cmReal y r P j (Fin.castLE (nDescriptors_le _) d)) * a + (1 - ∑ j, p j * cmReal y r P j (Fin.castLE (nDescriptors_le _) d)) * c
          = (∑ j, p j * cmReal y r P j (Fin.castLE (nDescriptors_le _) d)) * a + (∑ j, p j - ∑ j, p j * cmReal y r P j (Fin.castLE (nDescriptors_le _) d)) * c := fun a c => by rw [hp.2]
      rw [e2, ← Finset.sum_sub_distrib, Finset.sum_mul, Finset.sum_mul, ← Finset.sum_add_distrib]
      exact Finset.sum_congr rfl fun j _ => by ring)
    (fun x hx => by
      have z1 : ∀ d : Fin (nDescriptors (labelsOf y).length), ∑ j, (1 - cmReal y r P j (Fin.castLE (nDescriptors_le _) d)) * x j = 0 := fun d => by
        have := hx (finProdFinEquiv (d, ⟨0, by omega⟩))
        simpa only [hT, hfirst] using this
      have hnd : 0 < nDescriptors (labelsOf y).length := by
        have := labels_pos y hy
        unfold nDescriptors
        split_ifs <;> omega
      have z2 : ∑ j, x j = 0 := by
        have e : ∑ b, ∑ j, fit.train (finProdFinEquiv ((⟨0, hnd⟩ : Fin (nDescriptors (labelsOf y).length)), b)) j * x j = 0 := Finset.sum_eq_zero fun b _ => hx _
        rw [Finset.sum_comm] at e
        simp only [hT, ← Finset.sum_mul, hsumE, one_mul] at e
        exact e
      have z3 : (fun j => ∑ i, x i * cmReal y r P i j) = fun _ => 0 := by
        refine described_ext ?_ fun d => ?_
        · rw [Finset.sum_comm]
          simp only [← Finset.mul_sum, (hrow _).2, mul_one, z2, Finset.sum_const_zero]
        · have := z1 d
          simp only [sub_mul, one_mul, Finset.sum_sub_distrib, z2] at this
          simp only [mul_comm (x _)]
          linarith
      exact fun j => congrFun z3 j)
  rw [ucRun_given_probs ops enc w X Xt y (dfyClass ppf sv qp la (fuel + 1) tol cfg distance) rfl rfl et et' hy r _ _ hP']
  rw [← hq] at hval
  have h1' : dfFit ppf .whole cfg (some (0, 1)) (dfyAtt (npUnique y).length) (npUnique y) y (stacked y r) (P.map (oneHot (labelsOf y))) = .ok fit := h1
  refine Eq.trans ?_ hval
  change answerOn (dfyClass (k := (npUnique y).length) ppf sv qp la (fuel + 1) tol cfg distance) y r (.probs (P.map (oneHot (labelsOf y)))) (.probs (Q.map (oneHot (labelsOf y)))) = _
  simp only [answerOn, learnAnswer, fittedState, dfyClass, trainData, probRows, columnsAre_self, if_true, bind, Except.bind]
  simp only [h1', Fin.cast_eq_self]
  have h2' : matchParams la (fuel + 1) distance (fun i c => fit.train i c) = .ok par := hpar
  erw [h2']
  simp only [pure, Except.pure]
  have : dfyTest cfg (⟨fit.cuts, fun i c => fit.train i c⟩ : DfFit (nDescriptors (npUnique y).length) cfg.nBins (npUnique y).length) (Q.map (oneHot (labelsOf y))) = .ok q := h5
  simp only [this]
  rfl

end

/-! ### EDy and CvMy -/

theorem Compares.scale {n : ℕ} {q : Fin n → ℝ} {F : (Fin n → ℝ) → ℝ} (h : Compares q F) (a b : ℝ) (ha : 0 < a) : Compares q fun r => a * F r + b := by
  constructor
  · intro r hr hne
    have := mul_lt_mul_of_pos_left (h.least r hr hne) ha
    linarith
  · intro r hr t h0 h1
    have := mul_le_mul_of_nonneg_left (h.convex r hr t h0 h1) ha.le
    show a * F _ + b ≤ _
    linarith

theorem sum_same {α : Type*} [DecidableEq α] {n : ℕ} (cls : Fin n → α) (hinj : Function.Injective cls) (A B : List α) (hA : ∀ a ∈ A, ∃ j, cls j = a) :
    (A.map fun a => (B.map fun b => if a = b then (1:ℝ) else 0).sum).sum = ∑ j, (A.count (cls j) : ℝ) * B.count (cls j) := by
  have hB : ∀ a, (B.map fun b => if a = b then (1:ℝ) else 0).sum = B.count a := by
    intro a
    induction B with
    | nil => simp
    | cons b B ih =>
      rw [List.map_cons, List.sum_cons, ih, List.count_cons]
      by_cases h : a = b
      · subst h; simp [add_comm]
      · rw [if_neg h, if_neg (by simpa using fun h' : b = a => h h'.symm)]; simp
  simp only [hB]
  induction A with
  | nil => simp
  | cons a A ih =>
    rw [List.map_cons, List.sum_cons, ih fun x hx => hA x (List.mem_cons_of_mem _ hx)]
    obtain ⟨j0, rfl⟩ := hA a List.mem_cons_self
    have e : ∀ j, (((cls j0 :: A).count (cls j) : ℕ) : ℝ) * B.count (cls j) = (if j = j0 then (B.count (cls j0) : ℝ) else 0) + A.count (cls j) * B.count (cls j) := by
      intro j
      rw [List.count_cons]
      by_cases h : j = j0
      · subst h
        simp
        ring
      · rw [if_neg h, if_neg (by simpa using fun h' : cls j0 = cls j => h (hinj h').symm)]
        simp
    simp only [e, Finset.sum_add_distrib]
    simp

/-- Average distances between certain posteriors, any two different ones being at distance `s`. -/
theorem avgDist_certain {α P : Type*} [DecidableEq α] {n : ℕ} (cls : Fin n → α) (hinj : Function.Injective cls) (d : P → P → ℝ) (g : α → P) (s : ℝ) (hd : ∀ i j, d (g (cls i)) (g (cls j)) = if i = j then 0 else s)
    (A B : List α) (hA0 : A ≠ []) (hB0 : B ≠ []) (hA : ∀ a ∈ A, ∃ j, cls j = a) (hB : ∀ a ∈ B, ∃ j, cls j = a) :
    avgDist d (A.map g) (B.map g) = s * (1 - ∑ j, freq A (cls j) * freq B (cls j)) := by
  have hAl : (A.length : ℝ) ≠ 0 := by simpa using hA0
  have hBl : (B.length : ℝ) ≠ 0 := by simpa using hB0
  unfold avgDist
  rw [List.map_map, List.length_map, List.length_map]
  have e : ∀ a ∈ A, ((fun x => ((B.map g).map fun y => d x y).sum) ∘ g) a = s * B.length - s * (B.map fun b => if a = b then (1:ℝ) else 0).sum := by
    intro a ha
    simp only [Function.comp, List.map_map]
    have : ∀ b ∈ B, ((fun y => d (g a) y) ∘ g) b = s - s * (if a = b then (1:ℝ) else 0) := by
      intro b hb
      obtain ⟨i, rfl⟩ := hA a ha
      obtain ⟨j, rfl⟩ := hB b hb
      simp only [Function.comp, hd]
      by_cases h : i = j
      · subst h; simp
      · rw [if_neg h, if_neg fun h' => h (hinj h')]; ring
    rw [List.map_congr_left this]
    clear this hB hB0 hBl
    induction B with
    | nil => simp
    | cons b B ih =>
      simp only [List.map_cons, List.sum_cons, ih, List.length_cons]
      push_cast
      ring
  rw [List.map_congr_left e]
  have e2 : (A.map fun a => s * B.length - s * (B.map fun b => if a = b then (1:ℝ) else 0).sum).sum = s * A.length * B.length - s * (A.map fun a => (B.map fun b => if a = b then (1:ℝ) else 0).sum).sum := by
    clear e hA hA0 hAl
    induction A with
    | nil => simp
    | cons a A ih =>
      simp only [List.map_cons, List.sum_cons, ih, List.length_cons]
      push_cast
      ring
  rw [e2, sum_same cls hinj A B hA]
  unfold freq
  have e3 : ∑ j, (A.count (cls j) : ℝ) / A.length * ((B.count (cls j) : ℝ) / B.length) = (∑ j, (A.count (cls j) : ℝ) * B.count (cls j)) / (A.length * B.length) := by
    rw [Finset.sum_div]
    exact Finset.sum_congr rfl fun j _ => by field_simp
  rw [e3]
  field_simp

/-- The energy quantifiers on certain posteriors: any two different ones are at distance `s`. -/
theorem ed_certain {α P : Type*} [DecidableEq α] {n : ℕ} (hn : 0 < n) (qp : QPSolver) (hqp : ExactQP qp) (la : LinAlg n) (fuel : ℕ) (d : P → P → ℝ) (hsym : ∀ x y, d x y = d y x) (cls : Fin (n + 1) → α) (hinj : Function.Injective cls)
    (g : α → P) (s : ℝ) (hs : 0 < s) (hd : ∀ i j, d (g (cls i)) (g (cls j)) = if i = j then 0 else s) (y L Q : List α) (hl : y.length = L.length) (hcl : ∀ i, cls i ∈ y) (hL : ∀ a ∈ L, ∃ j, cls j = a) (hQ0 : Q ≠ [])
    (hQ : ∀ a ∈ Q, ∃ j, cls j = a) (hM : ∀ x : Fin (n + 1) → ℝ, (∀ j, ∑ i, x i * condFreq y L (cls i) (cls j) = 0) → x = 0) :
    ∃ f p, edFit la fuel d cls y (L.map g) = some f ∧ edPredict qp d f (Q.map g) = .ok p ∧ IsPrev p
      ∧ ∀ p', IsPrev p' → ∑ j, (∑ i, p i * condFreq y L (cls i) (cls j) - freq Q (cls j)) ^ 2 ≤ ∑ j, (∑ i, p' i * condFreq y L (cls i) (cls j) - freq Q (cls j)) ^ 2 := by
  have hrows : ∀ i, classRows y (L.map g) (cls i) = (classRows y L (cls i)).map g := fun i => classRows_map g y L (cls i)
  have hne : ∀ i, classRows y L (cls i) ≠ [] := fun i => classRows_ne_nil y L hl _ (hcl i)
  have hin : ∀ i, ∀ a ∈ classRows y L (cls i), ∃ j, cls j = a := by
    intro i a ha
    unfold classRows at ha
    obtain ⟨t, ht, rfl⟩ := List.mem_map.1 ha
    exact hL _ (List.of_mem_zip (List.mem_filter.1 ht).1).2
  have hfr : ∀ i j, freq (classRows y L (cls i)) (cls j) = condFreq y L (cls i) (cls j) := by
    intro i j
    have := freqs_classRows [cls j] y L hl (cls i) 0
    exact this
  set M : Fin (n + 1) → Fin (n + 1) → ℝ := fun i j => condFreq y L (cls i) (cls j) with hMdef
  have hK : ∀ i j, avgDist d (classRows y (L.map g) (cls i)) (classRows y (L.map g) (cls j)) = s * (1 - ∑ l, M i l * M j l) := by
    intro i j
    rw [hrows, hrows, avgDist_certain cls hinj d g s hd _ _ (hne i) (hne j) (hin i) (hin j)]
    simp only [hfr]
    rfl
  have hKt : ∀ i, avgDist d (classRows y (L.map g) (cls i)) (Q.map g) = s * (1 - ∑ l, M i l * freq Q (cls l)) := by
    intro i
    rw [hrows, avgDist_certain cls hinj d g s hd _ _ (hne i) hQ0 (hin i) hQ]
    simp only [hfr]
    rfl
  have hquad : ∀ c : Fin (n + 1) → ℝ, ∑ i, ∑ j, c i * c j * (∑ l, M i l * M j l) = ∑ l, (∑ i, c i * M i l) ^ 2 := by
    intro c
    simp_rw [sq, Finset.sum_mul_sum]
    rw [Finset.sum_comm (s := (Finset.univ : Finset (Fin (n + 1)))) (t := (Finset.univ : Finset (Fin (n + 1)))) (f := fun l i => ∑ j, c i * M i l * (c j * M j l))]
    refine Finset.sum_congr rfl fun i _ => ?_
    rw [Finset.sum_comm (s := (Finset.univ : Finset (Fin (n + 1)))) (t := (Finset.univ : Finset (Fin (n + 1)))) (f := fun l j => c i * M i l * (c j * M j l))]
    refine Finset.sum_congr rfl fun j _ => ?_
    rw [Finset.mul_sum]
    exact Finset.sum_congr rfl fun l _ => by ring
  have hall : ∀ c : Fin (n + 1) → ℝ, ∑ i, ∑ j, c i * c j * (s * (1 - ∑ l, M i l * M j l)) = s * ((∑ i, c i) ^ 2 - ∑ l, (∑ i, c i * M i l) ^ 2) := by
    intro c
    rw [← hquad, sq, Finset.sum_mul_sum, ← Finset.sum_sub_distrib, Finset.mul_sum]
    refine Finset.sum_congr rfl fun i _ => ?_
    rw [← Finset.sum_sub_distrib, Finset.mul_sum]
    exact Finset.sum_congr rfl fun j _ => by ring
  have hsep : Separated d fun i => classRows y (L.map g) (cls i) := by
    intro c hc hc0
    simp only [hK]
    rw [hall c, hc]
    have h1 : ∃ l, ∑ i, c i * M i l ≠ 0 := by
      by_contra h
      push Not at h
      exact hc0 (hM c h)
    obtain ⟨l, hl1⟩ := h1
    have h2 : 0 < ∑ l, (∑ i, c i * M i l) ^ 2 := Finset.sum_pos' (fun _ _ => sq_nonneg _) ⟨l, Finset.mem_univ l, by positivity⟩
    nlinarith
  have hloss : ∀ p, IsPrev p → energyLoss d (fun i => classRows y (L.map g) (cls i)) (Q.map g) p = s * (1 - ∑ l, freq Q (cls l) ^ 2 + ∑ l, (∑ i, p i * M i l - freq Q (cls l)) ^ 2) := by
    intro p hp
    unfold energyLoss
    simp only [hK, hKt]
    rw [hall p, hp.2]
    have e1 : ∑ i, p i * (s * (1 - ∑ l, M i l * freq Q (cls l))) = s * (1 - ∑ l, (∑ i, p i * M i l) * freq Q (cls l)) := by
      have e0 : ∑ l, (∑ i, p i * M i l) * freq Q (cls l) = ∑ i, p i * ∑ l, M i l * freq Q (cls l) := by
        simp_rw [Finset.sum_mul, Finset.mul_sum]
        rw [Finset.sum_comm]
        exact Finset.sum_congr rfl fun i _ => Finset.sum_congr rfl fun l _ => by ring
      have e9 : ∀ t : ℝ, s * (1 - t) = s * (∑ i, p i - t) := fun t => by rw [hp.2]
      rw [e0, e9, ← Finset.sum_sub_distrib, Finset.mul_sum]
      exact Finset.sum_congr rfl fun i _ => by ring
    rw [e1]
    simp only [sub_sq, Finset.sum_add_distrib, Finset.sum_sub_distrib, mul_assoc, ← Finset.mul_sum]
    ring
  have htrain : ∀ i, classRows y (L.map g) (cls i) ≠ [] := fun i => by rw [hrows]; simpa using hne i
  obtain ⟨par, p, h1, h2, h3, h4⟩ := C28_energy hn qp hqp la d hsym _ (Q.map g) htrain (by simpa using hQ0) fuel hsep
  refine ⟨⟨_, edK d fun i => classRows y (L.map g) (cls i), par⟩, p, ?_, h2, h3, fun p' hp' => ?_⟩
  · unfold edFit
    show Option.map _ (computeEdParamTrain la fuel (edK d fun i => classRows y (L.map g) (cls i))) = _
    rw [h1]
    rfl
  · have h5 := h4 p' hp'
    rw [hloss p h3, hloss p' hp'] at h5
    have := le_of_mul_le_mul_left h5 hs
    linarith

section
variable {σ D α : Type} [LinearOrder α] (enc : Bool → α) (w : World σ D α) (et et' : Option ℕ) (X Xt : List D) (y : List α) (hy : y ≠ []) (r : ℕ) (hr : 0 < r) {n : ℕ}
include hy hr

/-- A certain posterior, with one column for each of `n + 1` classes. -/
noncomputable def certainRow (y : List α) (hk : (labelsOf y).length = n + 1) (a : α) : Fin (n + 1) → ℝ := fun i => oneHot (labelsOf y) a (Fin.cast hk.symm i)

omit hy in
/-- The answer that the energy quantifiers find is that of AC. -/
theorem energy_is_adjust (hk : (labelsOf y).length = n + 1) (hn : 0 < n) (sol : Solvers) (dist : Dist) (qp : QPSolver) (hqp : ExactQP qp) (la : LinAlg n) (fuel : ℕ) {R : Type*} (d : R → R → ℝ) (hsym : ∀ x y, d x y = d y x)
    (g : α → R) (s : ℝ) (hs : 0 < s) (hd : ∀ a ∈ y, ∀ b ∈ y, d (g a) (g b) = if a = b then 0 else s) (P Q : List α) (hP : P.length = r * y.length) (hPy : ∀ a ∈ P, a ∈ y) (hQ : Q ≠ []) (hQy : ∀ a ∈ Q, a ∈ y) (h : AcExact y r P Q) :
    ∃ f p, edFit la fuel d (fun i => (labelsOf y)[Fin.cast hk.symm i]) (stacked y r) (P.map g) = some f ∧ edPredict qp d f (Q.map g) = .ok p
      ∧ ((adjust sol dist (fun i j => Fl.fin (cmReal y r P i j)) (fun j => Fl.fin (freqs (labelsOf y) Q j))).map vecList) = .ok (realList p) := by
  have hl : (stacked y r).length = P.length := by rw [stacked_length, hP]
  have hQ' : ∀ a ∈ Q, a ∈ labelsOf y := fun a ha => (mem_labelsOf y a).2 (hQy a ha)
  have hrow := cmReal_isPrev y r hr P hP hPy
  have hq := freqs_isPrev _ (labelsOf_nodup y) _ hQ hQ'
  have hinj : Function.Injective fun i : Fin (n + 1) => (labelsOf y)[Fin.cast hk.symm i] := fun i j h => Fin.cast_injective hk.symm (getElem_inj_of_nodup (labelsOf_nodup y) h)
  have hmemy : ∀ i : Fin (n + 1), (labelsOf y)[Fin.cast hk.symm i] ∈ y := fun i => (mem_labelsOf y _).1 (List.getElem_mem _)
  have hall : ∀ a ∈ y, ∃ i : Fin (n + 1), (labelsOf y)[Fin.cast hk.symm i] = a := fun a ha => by
    obtain ⟨i, hi⟩ := exists_getElem_of_mem ((mem_labelsOf y a).2 ha)
    exact ⟨Fin.cast hk i, hi⟩
  have hre : ∀ f : Fin (labelsOf y).length → ℝ, ∑ i, f i = ∑ i : Fin (n + 1), f (Fin.cast hk.symm i) := fun f => ((finCongr hk.symm).sum_comp f).symm
  have hexp : ∀ p : Fin (n + 1) → ℝ, ∀ j, expectedPreds (cmReal y r P) (fun i => p (Fin.cast hk i)) j = ∑ i, p i * condFreq (stacked y r) P (labelsOf y)[Fin.cast hk.symm i] (labelsOf y)[j] := by
    intro p j
    unfold expectedPreds
    rw [hre]
    rfl
  have hpr : ∀ p : Fin (n + 1) → ℝ, IsPrev p → IsPrev fun i => p (Fin.cast hk i) := by
    intro p hp
    refine ⟨fun i => hp.1 _, ?_⟩
    rw [hre]
    exact hp.2
  obtain ⟨f, p, h1, h2, h3, h4⟩ := ed_certain hn qp hqp la fuel d hsym (fun i : Fin (n + 1) => (labelsOf y)[Fin.cast hk.symm i]) hinj g s hs
    (fun i j => by
      rw [hd _ (hmemy i) _ (hmemy j)]
      by_cases e : i = j
      · rw [if_pos e, if_pos (by rw [e])]
      · rw [if_neg e, if_neg fun e' => e (hinj e')])
    (stacked y r) P Q hl (fun i => stacked_mem y r hr _ (hmemy i)) (fun a ha => hall a (hPy a ha)) hQ (fun a ha => hall a (hQy a ha))
    (fun x hx => by
      have h0 := nonDegenerate_inj hrow h.1 (fun i => x (Fin.cast hk i)) fun j => by
        have e1 := hexp x j
        have e2 := hx (Fin.cast hk j)
        exact e1.trans e2
      funext i
      exact congrFun h0 (Fin.cast hk.symm i))
  refine ⟨f, p, h1, h2, ?_⟩
  rw [best_is_adjust sol dist (cmReal y r P) hrow h.1 (freqs (labelsOf y) Q) hq (fun v => distanceNamed .L2 (freqs (labelsOf y) Q) v) (compares_named .L2 (by decide) _ hq (fun v => v) (fun v hv => hv.1) (fun _ _ _ => rfl) fun _ _ e => e) h.2
    (fun i => p (Fin.cast hk i)) (hpr p h3) fun p' hp' => ?_]
  · simp only [Except.map, vecList, realList]
    congr 1
    exact List.ofFn_congr hk _
  · have e : ∀ v : Fin (n + 1) → ℝ, distanceNamed .L2 (freqs (labelsOf y) Q) (expectedPreds (cmReal y r P) fun i => v (Fin.cast hk i))
        = ∑ j : Fin (n + 1), (∑ i, v i * condFreq (stacked y r) P (labelsOf y)[Fin.cast hk.symm i] (labelsOf y)[Fin.cast hk.symm j] - freq Q (labelsOf y)[Fin.cast hk.symm j]) ^ 2 := by
      intro v
      refine (hre _).trans (Finset.sum_congr rfl fun j _ => ?_)
      exact congrArg (fun t => (t - freq Q (labelsOf y)[Fin.cast hk.symm j]) ^ 2) (hexp v (Fin.cast hk.symm j))
    have e' : p' = fun i => (fun i : Fin (n + 1) => p' (Fin.cast hk.symm i)) (Fin.cast hk i) := by
      funext i
      rfl
    rw [e']
    refine ((e p).trans_le ?_).trans_eq (e fun i => p' (Fin.cast hk.symm i)).symm
    refine h4 _ ⟨fun i => hp'.1 _, ?_⟩
    rw [← hre]
    exact hp'.2

/-- **C162** for EDy, with any distance that puts different certain posteriors at the same distance `s`, as the default one does: on certain posteriors it answers what AC answers on the labels. -/
theorem C162_edy (hk : (labelsOf y).length = n + 1) (hn : 0 < n) (ops : EstOps σ D α (n + 1)) (sol : Solvers) (dist : Dist) (qp : QPSolver) (hqp : ExactQP qp) (la : LinAlg n) (fuel : ℕ) (d : (Fin (n + 1) → ℝ) → (Fin (n + 1) → ℝ) → ℝ)
    (hsym : ∀ x y, d x y = d y x) (s : ℝ) (hs : 0 < s) (hd : ∀ a ∈ y, ∀ b ∈ y, d (certainRow y hk a) (certainRow y hk b) = if a = b then 0 else s)
    (P Q : List α) (hP : P.length = r * y.length) (hPy : ∀ a ∈ P, a ∈ y) (hQ : Q ≠ []) (hQy : ∀ a ∈ Q, a ∈ y) (h : AcExact y r P Q) :
    ucRun ops enc w ⟨edyClass qp la fuel d, et, et'⟩ X y (some (.probs (P.map (certainRow y hk)))) Xt (some (.probs (Q.map (certainRow y hk))))
      = ucRun ops enc w ⟨acClass sol dist, et, et'⟩ X y (some (.crisp P)) Xt (some (.crisp Q)) := by
  rw [ac_run_eq enc w et et' X Xt y hy r hr ops sol dist P Q hP hPy hQ]
  have hl : (stacked y r).length = (P.map (certainRow y hk)).length := by rw [stacked_length, List.length_map, hP]
  obtain ⟨f, p, h1, h2, h3⟩ := energy_is_adjust y r hr hk hn sol dist qp hqp la fuel d hsym (certainRow y hk) s hs hd P Q hP hPy hQ hQy h
  rw [h3, ucRun_given_probs ops enc w X Xt y (edyClass qp la fuel d) rfl rfl et et' hy r _ _ (by rw [List.length_map, hP])]
  have h1' : edFit la fuel d (fun i => (npUnique y)[Fin.cast (show n + 1 = (npUnique y).length from hk.symm) i]) (stacked y r) (P.map (certainRow y hk)) = some f := h1
  simp only [answerOn, learnAnswer, fittedState, edyClass, trainData, probRows, columnsAre, if_true, bind, Except.bind, keep, hl, ne_eq, not_true_eq_false, if_false]
  rw [dif_pos (show (npUnique y).length = n + 1 from hk)]
  simp only [h1', h2, Except.map]

end

section
variable {α : Type} [LinearOrder α] {n : ℕ}

/-- The default distance of EDy and CvMy puts different certain posteriors at distance 2. -/
theorem manhattan_certain (y : List α) (hk : (labelsOf y).length = n + 1) (a b : α) (ha : a ∈ y) (hb : b ∈ y) : manhattan (certainRow y hk a) (certainRow y hk b) = if a = b then 0 else 2 := by
  have hnd := labelsOf_nodup y
  obtain ⟨i, hi⟩ := exists_getElem_of_mem ((mem_labelsOf y a).2 ha)
  obtain ⟨j, hj⟩ := exists_getElem_of_mem ((mem_labelsOf y b).2 hb)
  by_cases h : a = b
  · subst h
    simp [manhattan]
  rw [if_neg h]
  have hij : i ≠ j := fun e => h (by rw [← hi, ← hj, e])
  have e : manhattan (certainRow y hk a) (certainRow y hk b) = ∑ l : Fin (labelsOf y).length, |(if l = i then (1:ℝ) else 0) - (if l = j then 1 else 0)| := by
    rw [← (finCongr hk.symm).sum_comp]
    unfold manhattan certainRow
    rw [← hi, ← hj, oneHot_getElem _ hnd i, oneHot_getElem _ hnd j]
    rfl
  rw [e]
  have e2 : ∀ l : Fin (labelsOf y).length, |(if l = i then (1:ℝ) else 0) - (if l = j then 1 else 0)| = (if l = i then (1:ℝ) else 0) + (if l = j then 1 else 0) := by
    intro l
    by_cases h1 : l = i
    · rw [if_pos h1, if_neg fun h2 => hij (h1.symm.trans h2)]
      norm_num
    · rw [if_neg h1]
      by_cases h2 : l = j
      · rw [if_pos h2]; norm_num
      · rw [if_neg h2]; norm_num
  simp only [e2, Finset.sum_add_distrib]
  simp
  norm_num

theorem rank_gap (col : List ℝ) (h : ∀ u ∈ col, u = 0 ∨ u = 1) : rankdata col 1 - rankdata col 0 = col.length / 2 := by
  classical
  have h1 : col.countP (fun u => decide (u < 1)) = col.countP fun u => decide (u = 0) := List.countP_congr fun u hu => by
    rcases h u hu with rfl | rfl <;> simp
  have h0 : col.countP (fun u => decide (u < 0)) = 0 := List.countP_eq_zero.2 fun u hu => by
    rcases h u hu with rfl | rfl <;> norm_num
  have hs : col.countP (fun u => decide (u = 0)) + col.countP (fun u => decide (u = 1)) = col.length := by
    clear h1 h0
    induction col with
    | nil => rfl
    | cons u l ih =>
      have := ih fun v hv => h v (List.mem_cons_of_mem _ hv)
      rcases h u List.mem_cons_self with rfl | rfl
      · simp at this ⊢
        omega
      · simp at this ⊢
        omega
  have hs' : ((col.countP fun u => decide (u = 0) : ℕ) : ℝ) + (col.countP fun u => decide (u = 1) : ℕ) = col.length := by exact_mod_cast hs
  unfold rankdata
  have e1 : (col.countP (fun u => @decide (u < 1) (Classical.propDecidable _))) = col.countP fun u => decide (u < 1) := List.countP_congr fun u _ => by simp
  have e2 : (col.countP (fun u => @decide (u < 0) (Classical.propDecidable _))) = col.countP fun u => decide (u < 0) := List.countP_congr fun u _ => by simp
  have e3 : (col.countP (fun u => @decide (u = 1) (Classical.propDecidable _))) = col.countP fun u => decide (u = 1) := List.countP_congr fun u _ => by simp
  have e4 : (col.countP (fun u => @decide (u = 0) (Classical.propDecidable _))) = col.countP fun u => decide (u = 0) := List.countP_congr fun u _ => by simp
  rw [e1, e2, e3, e4, h1, h0, ← hs']
  push_cast
  ring

/-- The ranks of certain posteriors among certain posteriors: different ones are at a distance equal to their number. -/
theorem manhattan_ranks (y : List α) (hk : (labelsOf y).length = n + 1) (all : List α) (a b : α) (ha : a ∈ y) (hb : b ∈ y) :
    manhattan (rankRow (all.map (certainRow y hk)) (certainRow y hk a)) (rankRow (all.map (certainRow y hk)) (certainRow y hk b)) = if a = b then 0 else (all.length : ℝ) := by
  have h01 : ∀ (c : α) (i : Fin (n + 1)), certainRow y hk c i = 0 ∨ certainRow y hk c i = 1 := by
    intro c i
    unfold certainRow oneHot
    split_ifs
    · exact .inr rfl
    · exact .inl rfl
  have hgap : ∀ i : Fin (n + 1), rankdata ((all.map (certainRow y hk)).map fun r => r i) 1 - rankdata ((all.map (certainRow y hk)).map fun r => r i) 0 = (all.length : ℝ) / 2 := by
    intro i
    rw [rank_gap, List.length_map, List.length_map]
    intro u hu
    simp only [List.map_map, List.mem_map, Function.comp] at hu
    obtain ⟨c, -, rfl⟩ := hu
    exact h01 c i
  have e : ∀ i : Fin (n + 1), |rankRow (all.map (certainRow y hk)) (certainRow y hk a) i - rankRow (all.map (certainRow y hk)) (certainRow y hk b) i| = (all.length : ℝ) / 2 * |certainRow y hk a i - certainRow y hk b i| := by
    intro i
    have hN : (0:ℝ) ≤ (all.length : ℝ) / 2 := by positivity
    have g := hgap i
    unfold rankRow
    rcases h01 a i with h1 | h1 <;> rcases h01 b i with h2 | h2 <;> rw [h1, h2]
    · simp
    · rw [abs_sub_comm, g, abs_of_nonneg hN]; norm_num
    · rw [g, abs_of_nonneg hN]; norm_num
    · simp
  have e2 := manhattan_certain y hk a b ha hb
  unfold manhattan at e2 ⊢
  simp only [e]
  rw [← Finset.mul_sum, e2]
  split_ifs <;> ring

end

section
variable {σ D α : Type} [LinearOrder α] (enc : Bool → α) (w : World σ D α) (et et' : Option ℕ) (X Xt : List D) (y : List α) (hy : y ≠ []) (r : ℕ) (hr : 0 < r) {n : ℕ}
include hy hr

/-- **C162** for EDy with its default distance. -/
theorem C162_edy_default (hk : (labelsOf y).length = n + 1) (hn : 0 < n) (ops : EstOps σ D α (n + 1)) (sol : Solvers) (dist : Dist) (qp : QPSolver) (hqp : ExactQP qp) (la : LinAlg n) (fuel : ℕ)
    (P Q : List α) (hP : P.length = r * y.length) (hPy : ∀ a ∈ P, a ∈ y) (hQ : Q ≠ []) (hQy : ∀ a ∈ Q, a ∈ y) (h : AcExact y r P Q) :
    ucRun ops enc w ⟨edyClass qp la fuel manhattan, et, et'⟩ X y (some (.probs (P.map (certainRow y hk)))) Xt (some (.probs (Q.map (certainRow y hk))))
      = ucRun ops enc w ⟨acClass sol dist, et, et'⟩ X y (some (.crisp P)) Xt (some (.crisp Q)) :=
  C162_edy enc w et et' X Xt y hy r hr hk hn ops sol dist qp hqp la fuel manhattan manhattan_comm 2 two_pos (fun a ha b hb => manhattan_certain y hk a b ha hb) P Q hP hPy hQ hQy h

/-- **C162** for CvMy with its default distance. -/
theorem C162_cvmy (hk : (labelsOf y).length = n + 1) (hn : 0 < n) (ops : EstOps σ D α (n + 1)) (sol : Solvers) (dist : Dist) (qp : QPSolver) (hqp : ExactQP qp) (la : LinAlg n) (fuel : ℕ)
    (P Q : List α) (hP : P.length = r * y.length) (hPy : ∀ a ∈ P, a ∈ y) (hQ : Q ≠ []) (hQy : ∀ a ∈ Q, a ∈ y) (h : AcExact y r P Q) :
    ucRun ops enc w ⟨cvmyClass qp la fuel manhattan, et, et'⟩ X y (some (.probs (P.map (certainRow y hk)))) Xt (some (.probs (Q.map (certainRow y hk))))
      = ucRun ops enc w ⟨acClass sol dist, et, et'⟩ X y (some (.crisp P)) Xt (some (.crisp Q)) := by
  rw [ac_run_eq enc w et et' X Xt y hy r hr ops sol dist P Q hP hPy hQ]
  have hl : (stacked y r).length = (P.map (certainRow y hk)).length := by rw [stacked_length, List.length_map, hP]
  have hN : (0:ℝ) < ((P ++ Q).length : ℝ) := by
    have : 0 < Q.length := List.length_pos_iff.2 hQ
    rw [List.length_append]
    push_cast
    positivity
  obtain ⟨f, p, h1, h2, h3⟩ := energy_is_adjust y r hr hk hn sol dist qp hqp la fuel manhattan manhattan_comm (fun a => rankRow ((P ++ Q).map (certainRow y hk)) (certainRow y hk a)) _ hN
    (fun a ha b hb => manhattan_ranks y hk (P ++ Q) a b ha hb) P Q hP hPy hQ hQy h
  rw [h3, ucRun_given_probs ops enc w X Xt y (cvmyClass qp la fuel manhattan) rfl rfl et et' hy r _ _ (by rw [List.length_map, hP])]
  have h4 : cvmPredict la fuel qp manhattan (fun i : Fin (n + 1) => (labelsOf y)[Fin.cast hk.symm i]) (stacked y r) (P.map (certainRow y hk)) (Q.map (certainRow y hk)) = some (.ok p) := by
    unfold cvmPredict
    rw [← List.map_append]
    simp only [List.map_map]
    have h1' : edFit la fuel manhattan (fun i : Fin (n + 1) => (labelsOf y)[Fin.cast hk.symm i]) (stacked y r) (P.map (rankRow ((P ++ Q).map (certainRow y hk)) ∘ certainRow y hk)) = some f := h1
    have h2' : edPredict qp manhattan f (Q.map (rankRow ((P ++ Q).map (certainRow y hk)) ∘ certainRow y hk)) = .ok p := h2
    rw [h1', Option.map_some, h2']
  simp only [answerOn, learnAnswer, fittedState, cvmyClass, trainData, probRows, columnsAre, if_true, bind, Except.bind, keep, hl, ne_eq, not_true_eq_false, if_false, Option.getD_some]
  rw [dif_pos hk]
  simp only [h4, Except.map]

end

/-- Training predictions with one mistake in four meet the hypothesis of C162 for the methods that match, whatever the predictions on the bag: two classes. -/
example (Q : List ℕ) : AcExact [1, 1, 2, 2] 1 [1, 2, 2, 2] Q ∧ (labelsOf ([1, 1, 2, 2] : List ℕ)).length = 1 + 1 := by
  have hl : labelsOf ([1, 1, 2, 2] : List ℕ) = [1, 2] := labelsOf_eq _ _ (by decide) (by decide)
  refine ⟨⟨?_, .inl (by rw [hl]; rfl)⟩, by rw [hl]; rfl⟩
  have key : ∀ l : List ℕ, l = [1, 2] → NonDegenerate fun i j : Fin l.length => condFreq (stacked [1, 1, 2, 2] 1) [1, 2, 2, 2] l[i] l[j] := by
    rintro l rfl
    refine .inr ⟨rfl, ?_⟩
    have e1 : condFreq (stacked [1, 1, 2, 2] 1) [1, 2, 2, 2] 2 2 = 1 := by norm_num [condFreq, stacked]
    have e2 : condFreq (stacked [1, 1, 2, 2] 1) [1, 2, 2, 2] 1 2 = 1 / 2 := by norm_num [condFreq, stacked]
    show 1 / 1000 < |condFreq (stacked [1, 1, 2, 2] 1) [1, 2, 2, 2] 2 2 - condFreq (stacked [1, 1, 2, 2] 1) [1, 2, 2, 2] 1 2|
    rw [e1, e2]
    norm_num [abs_of_pos]
  exact key _ hl

/-- Three classes and predictions without mistakes on the training set meet it too: the frequencies predicted on the bag explain themselves. -/
example (Q : List ℕ) (hQ : Q ≠ []) (hQy : ∀ a ∈ Q, a ∈ [0, 1, 2]) : AcExact [0, 1, 2] 1 [0, 1, 2] Q := by
  have hl : labelsOf ([0, 1, 2] : List ℕ) = [0, 1, 2] := labelsOf_eq _ _ (by decide) (by decide)
  have key : ∀ l : List ℕ, l = [0, 1, 2] → (fun i j : Fin l.length => condFreq (stacked [0, 1, 2] 1) [0, 1, 2] l[i] l[j]) = (1 : Matrix (Fin l.length) (Fin l.length) ℝ) := by
    rintro l rfl
    funext i j
    fin_cases i <;> fin_cases j <;> norm_num [condFreq, stacked, Matrix.one_apply]
  have hM : cmReal ([0, 1, 2] : List ℕ) 1 [0, 1, 2] = 1 := key _ hl
  refine ⟨?_, .inr ⟨freqs (labelsOf [0, 1, 2]) Q, freqs_isPrev _ (labelsOf_nodup _) _ hQ fun a ha => (mem_labelsOf _ a).2 (hQy a ha), ?_⟩⟩
  · rw [hM]
    refine .inl ⟨by rw [hl]; decide, by simp⟩
  · funext j
    have e : expectedPreds (cmReal ([0, 1, 2] : List ℕ) 1 [0, 1, 2]) (freqs (labelsOf [0, 1, 2]) Q) j = ∑ i, freqs (labelsOf [0, 1, 2]) Q i * (1 : Matrix (Fin (labelsOf ([0, 1, 2] : List ℕ)).length) (Fin (labelsOf ([0, 1, 2] : List ℕ)).length) ℝ) i j := by
      rw [← hM]; rfl
    rw [e]
    simp [Matrix.one_apply]

end Verif.Props
