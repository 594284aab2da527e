import Verif.Model.AC
import Verif.Spec.Prevalence
import Verif.Num.ListAux

/-! Helper lemmas about the model of `ac.py`. -/

namespace Verif.Proof

open Verif.Model Verif.Spec Classical

theorem scipyInv_fin {n : ℕ} (M : Matrix (Fin n) (Fin n) ℝ) :
    scipyInv (fun i j => Fl.fin (M i j))
      = if M.det = 0 then .error .linAlgError else .ok fun i j => Fl.fin (M⁻¹ i j) := by
  have h : ∃ R : Matrix (Fin n) (Fin n) ℝ, (fun i j => Fl.fin (M i j)) = fun i j => Fl.fin (R i j) :=
    ⟨M, rfl⟩
  have hM : h.choose = M := by
    have := h.choose_spec
    ext i j
    have := congrFun (congrFun this i) j
    simpa using this.symm
  unfold scipyInv
  rw [dif_pos h, hM]

theorem adjust_ne_two (sol : Solvers) (dist : Dist) {n : ℕ} (hn : n ≠ 2) (cm : Fin n → Fin n → Fl)
    (p0 : Fin n → Fl) : adjust sol dist cm p0 = multiAdjust sol dist cm p0 := by
  match n, hn with
  | 0, _ => rfl
  | 1, _ => rfl
  | n + 3, _ => rfl

/-- The adjusted vector before clipping: the solution of `cm_.T x = p0`. -/
noncomputable def adjX {n : ℕ} (M : Matrix (Fin n) (Fin n) ℝ) (p0 : Fin n → ℝ) : Fin n → ℝ :=
  fun i => ∑ j, (M.transpose)⁻¹ i j * p0 j

theorem multiAdjust_fin (sol : Solvers) (dist : Dist) {n : ℕ} (M : Matrix (Fin n) (Fin n) ℝ)
    (hM : M.det ≠ 0) (p0 : Fin n → ℝ) (hpos : (∑ i, max 0 (adjX M p0 i)) ≠ 0) :
    multiAdjust sol dist (fun i j => Fl.fin (M i j)) (fun i => Fl.fin (p0 i))
      = .ok fun i => Fl.fin (max 0 (adjX M p0 i) / ∑ i, max 0 (adjX M p0 i)) := by
  unfold multiAdjust
  have h1 : scipyInv (fun i j => Fl.fin (M j i)) = .ok fun i j => Fl.fin (M.transpose⁻¹ i j) := by
    have := scipyInv_fin M.transpose
    rw [if_neg (by rwa [Matrix.det_transpose])] at this
    exact this
  have h2 : ∀ i, (∑ j, Fl.fin (M.transpose⁻¹ i j) * Fl.fin (p0 j)) = Fl.fin (adjX M p0 i) := by
    intro i
    simp only [Fl.fin_mul, Fl.sum_fin]
    rfl
  have h3 : ∀ i, (if Fl.fin (adjX M p0 i) < 0 then (0 : Fl) else Fl.fin (adjX M p0 i))
      = Fl.fin (max 0 (adjX M p0 i)) := by
    intro i
    by_cases h : adjX M p0 i < 0
    · simp [h, h.le]
    · simp [h, not_lt.mp h]
  simp only [h1, h2, h3, Fl.sum_fin]
  congr 1
  funext i
  rw [Fl.fin_div _ hpos]

theorem adjX_solves {n : ℕ} (M : Matrix (Fin n) (Fin n) ℝ) (hM : M.det ≠ 0) (p0 : Fin n → ℝ) (j : Fin n) :
    ∑ i, M i j * adjX M p0 i = p0 j := by
  have hu : IsUnit M.transpose.det := by
    rw [Matrix.det_transpose]; exact isUnit_iff_ne_zero.mpr hM
  have h : M.transpose.mulVec (M.transpose⁻¹.mulVec p0) = p0 := by
    rw [Matrix.mulVec_mulVec, Matrix.mul_nonsing_inv _ hu, Matrix.one_mulVec]
  exact congrFun h j

theorem adjX_unique {n : ℕ} (M : Matrix (Fin n) (Fin n) ℝ) (hM : M.det ≠ 0) (p p0 : Fin n → ℝ)
    (h : ∀ j, ∑ i, M i j * p i = p0 j) : adjX M p0 = p := by
  have hu : IsUnit M.transpose.det := by
    rw [Matrix.det_transpose]; exact isUnit_iff_ne_zero.mpr hM
  have hp : M.transpose.mulVec p = p0 := funext h
  have : M.transpose⁻¹.mulVec p0 = p := by
    rw [← hp, Matrix.mulVec_mulVec, Matrix.nonsing_inv_mul _ hu, Matrix.one_mulVec]
  exact this

theorem adjX_sum {n : ℕ} (M : Matrix (Fin n) (Fin n) ℝ) (hM : M.det ≠ 0)
    (hrow : ∀ i, ∑ j, M i j = 1) (p0 : Fin n → ℝ) : ∑ i, adjX M p0 i = ∑ j, p0 j := by
  calc ∑ i, adjX M p0 i = ∑ i, (∑ j, M i j) * adjX M p0 i := by simp [hrow]
    _ = ∑ i, ∑ j, M i j * adjX M p0 i := by simp_rw [Finset.sum_mul]
    _ = ∑ j, ∑ i, M i j * adjX M p0 i := Finset.sum_comm
    _ = ∑ j, p0 j := by simp_rw [adjX_solves M hM p0]

/-! ### The two-class branch -/

theorem clip_add_clip (p : ℝ) : max 0 (min (1 - p) 1) + max 0 (min p 1) = 1 := by
  rcases le_total p 0 with h | h
  · rw [min_eq_right (by linarith), min_eq_left (by linarith : p ≤ 1), max_eq_right (by norm_num),
      max_eq_left h]; norm_num
  · rcases le_total p 1 with h' | h'
    · rw [min_eq_left (by linarith), min_eq_left h', max_eq_right (by linarith), max_eq_right h]; ring
    · rw [min_eq_left (by linarith), min_eq_right h', max_eq_left (by linarith),
        max_eq_right (by norm_num)]; norm_num

theorem binaryAdjust_adjusted (cm : Fin 2 → Fin 2 → Fl) (p0 : Fin 2 → Fl) (t f q : ℝ)
    (ht : cm 1 1 = Fl.fin t) (hf : cm 0 1 = Fl.fin f) (hq : p0 1 = Fl.fin q)
    (h : 1/1000 < |t - f|) :
    binaryAdjust cm p0 = ![Fl.fin (1 - max 0 (min ((q - f) / (t - f)) 1)),
      Fl.fin (max 0 (min ((q - f) / (t - f)) 1))] := by
  have hd : t - f ≠ 0 := by
    intro h0
    rw [h0] at h
    norm_num at h
  have hs := clip_add_clip ((q - f) / (t - f))
  unfold binaryAdjust
  simp only [ht, hf, hq, Fl.fin_sub, Fl.abs_fin, Fl.fin_lt_fin, if_pos h, Fl.fin_div _ hd, Fl.one_def]
  have hsum : (∑ i : Fin 2, Fl.clip01 ((![Fl.fin (1 - (q - f) / (t - f)), Fl.fin ((q - f) / (t - f))] :
      Fin 2 → Fl) i)) = Fl.fin 1 := by
    rw [Fin.sum_univ_two]
    simp only [Matrix.cons_val_zero, Matrix.cons_val_one, Fl.clip01_fin, Fl.fin_add, hs]
  rw [hsum]
  simp only [Fl.fin_lt_fin, zero_lt_one, if_true]
  funext i
  fin_cases i
  · simp only [Fin.zero_eta, Matrix.cons_val_zero, Fl.clip01_fin]
    rw [Fl.fin_div _ one_ne_zero]
    congr 1
    linarith
  · simp only [Fin.mk_one, Matrix.cons_val_one, Matrix.cons_val_fin_one, Fl.clip01_fin]
    rw [Fl.fin_div _ one_ne_zero]
    congr 1
    simp

theorem binaryAdjust_unadjusted (cm : Fin 2 → Fin 2 → Fl) (p : Fin 2 → ℝ) (hp : IsPrev p)
    (h : ¬ Fl.fin (1/1000) < (cm 1 1 - cm 0 1).abs) :
    binaryAdjust cm (fun i => Fl.fin (p i)) = fun i => Fl.fin (p i) := by
  have hc : ∀ i, max 0 (min (p i) 1) = p i := fun i => by
    rw [min_eq_left (hp.le_one i), max_eq_right (hp.1 i)]
  unfold binaryAdjust
  simp only [if_neg h, Fl.clip01_fin, hc, Fl.sum_fin, hp.2, Fl.fin_lt_fin, zero_lt_one, if_true]
  funext i
  rw [Fl.fin_div _ one_ne_zero, div_one]

/-! ### The confusion matrix -/

section
variable {α : Type*} [DecidableEq α]

theorem zip_countP_fst : ∀ (l l' : List α), l.length = l'.length → ∀ c,
    (l.zip l').countP (fun t => decide (t.1 = c)) = l.count c
  | [], [], _, c => by simp
  | a :: l, b :: l', h, c => by
    simp only [List.zip_cons_cons, List.countP_cons, List.count_cons]
    rw [zip_countP_fst l l' (by simpa using h) c]
    by_cases hc : a = c <;> simp [hc]

theorem zip_countP_snd : ∀ (l l' : List α), l.length = l'.length → ∀ c,
    (l.zip l').countP (fun t => decide (t.2 = c)) = l'.count c
  | [], [], _, c => by simp
  | a :: l, b :: l', h, c => by
    simp only [List.zip_cons_cons, List.countP_cons, List.count_cons]
    rw [zip_countP_snd l l' (by simpa using h) c]
    by_cases hc : b = c <;> simp [hc]

theorem sum_count_snd (cs : List α) (hcs : cs.Nodup) (z : List (α × α)) (a : α)
    (h : ∀ t ∈ z, t.2 ∈ cs) :
    (∑ j : Fin cs.length, z.count (a, cs[j])) = z.countP (fun t => decide (t.1 = a)) := by
  have hz : ∀ c, z.count (a, c) = ((z.filter fun t => decide (t.1 = a)).map Prod.snd).count c := by
    intro c
    clear h
    induction z with
    | nil => simp
    | cons t z ih =>
      rw [List.count_cons, ih]
      by_cases ht : t.1 = a
      · rw [List.filter_cons_of_pos (by simpa using ht), List.map_cons, List.count_cons]
        congr 1
        obtain ⟨t1, t2⟩ := t
        simp only at ht
        subst ht
        simp
      · rw [List.filter_cons_of_neg (by simpa using ht)]
        obtain ⟨t1, t2⟩ := t
        simp only at ht
        simp [ht]
  simp_rw [hz]
  rw [sum_count_of_subset cs hcs]
  · rw [List.length_map, List.countP_eq_length_filter]
  · intro c hc
    obtain ⟨t, ht, rfl⟩ := List.mem_map.mp hc
    exact h t (List.mem_filter.mp ht).1

theorem sum_count_fst (cs : List α) (hcs : cs.Nodup) (z : List (α × α)) (b : α)
    (h : ∀ t ∈ z, t.1 ∈ cs) :
    (∑ i : Fin cs.length, z.count (cs[i], b)) = z.countP (fun t => decide (t.2 = b)) := by
  have hz : ∀ c, z.count (c, b) = ((z.filter fun t => decide (t.2 = b)).map Prod.fst).count c := by
    intro c
    clear h
    induction z with
    | nil => simp
    | cons t z ih =>
      rw [List.count_cons, ih]
      by_cases ht : t.2 = b
      · rw [List.filter_cons_of_pos (by simpa using ht), List.map_cons, List.count_cons]
        congr 1
        obtain ⟨t1, t2⟩ := t
        simp only at ht
        subst ht
        simp
      · rw [List.filter_cons_of_neg (by simpa using ht)]
        obtain ⟨t1, t2⟩ := t
        simp only at ht
        simp [ht]
  simp_rw [hz]
  rw [sum_count_of_subset cs hcs]
  · rw [List.length_map, List.countP_eq_length_filter]
  · intro c hc
    obtain ⟨t, ht, rfl⟩ := List.mem_map.mp hc
    exact h t (List.mem_filter.mp ht).1

end

end Verif.Proof
